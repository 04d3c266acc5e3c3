import Verif.Props.Memory
/-! # C106: extending any slice -/
namespace P2P

/-- C106: **what `append` leads to, for any slice**: the old bytes and the new ones, in a slice within its array; in place exactly if the capacity suffices. -/
theorem C106_append_any (h : Heap) (b : Slice) (xs : Bytes) (spare : Nat) (h1 : b.len ≤ b.cap) (h2 : b.off + b.cap ≤ (h.mem b.arr).length) :
    readSlice (goAppend h b xs spare).1.mem (goAppend h b xs spare).2 = readSlice h.mem b ++ xs ∧
    (goAppend h b xs spare).2.len = b.len + xs.length ∧ (goAppend h b xs spare).2.len ≤ (goAppend h b xs spare).2.cap ∧
    (goAppend h b xs spare).2.off + (goAppend h b xs spare).2.cap ≤ ((goAppend h b xs spare).1.mem (goAppend h b xs spare).2.arr).length ∧
    ((goAppend h b xs spare).2.arr = b.arr ∨ (goAppend h b xs spare).2.arr = h.fresh) ∧
    (b.cap < b.len + xs.length → (goAppend h b xs spare).2.arr = h.fresh ∧ ∀ a, a < h.fresh → (goAppend h b xs spare).1.mem a = h.mem a) := by
  have hrl : (readSlice h.mem b).length = b.len := by
    simp only [readSlice, List.length_take, List.length_drop]; omega
  unfold goAppend
  by_cases hc : b.len + xs.length ≤ b.cap
  · rw [if_pos hc]
    have hpre : (((h.mem b.arr).take (b.off + b.len)).length) = b.off + b.len := by rw [List.length_take]; omega
    have hlen : ((h.mem b.arr).take (b.off + b.len) ++ xs ++ (h.mem b.arr).drop (b.off + b.len + xs.length)).length = (h.mem b.arr).length := by
      simp only [List.length_append, List.length_take, List.length_drop]; omega
    refine ⟨?_, rfl, hc, ?_, .inl rfl, fun hlt => absurd hc (by omega)⟩
    · simp only [readSlice, writeSlice, upd_same]
      rw [List.append_assoc, List.drop_append, List.drop_take, hpre, show b.off - (b.off + b.len) = 0 by omega, List.drop_zero, show b.off + b.len - b.off = b.len by omega,
        ← List.append_assoc]
      have e : (((h.mem b.arr).drop b.off).take b.len ++ xs).length = b.len + xs.length := by
        rw [List.length_append]; exact congrArg (· + xs.length) hrl
      rw [← e, List.take_left]
    · simp only [writeSlice]
      rw [upd_same]
      show b.off + b.cap ≤ ((h.mem b.arr).take (b.off + b.len) ++ xs ++ (h.mem b.arr).drop (b.off + b.len + xs.length)).length
      omega
  · rw [if_neg hc]
    refine ⟨?_, rfl, by simp, ?_, .inr rfl, fun _ => ⟨rfl, fun a ha => upd_ne _ _ (Nat.ne_of_lt ha)⟩⟩
    · show List.take (b.len + xs.length) (List.drop 0 (upd h.mem h.fresh (readSlice h.mem b ++ xs ++ List.replicate spare 0) h.fresh)) = _
      rw [upd_same, List.drop_zero]
      have e : (readSlice h.mem b ++ xs).length = b.len + xs.length := by rw [List.length_append, hrl]
      rw [← e, List.take_left]
    · show 0 + (b.len + xs.length + spare) ≤ (upd h.mem h.fresh (readSlice h.mem b ++ xs ++ List.replicate spare 0) h.fresh).length
      rw [upd_same]
      simp only [List.length_append, List.length_replicate, hrl]; omega

/-- both cases: a slice of two bytes with room for three, extended by one byte in place, and by two in new memory -/
example : let h : Heap := { mem := fun _ => b!"abcd", fresh := 1 }
    let b : Slice := { arr := 0, off := 1, len := 2, cap := 3 }
    readSlice (goAppend h b b!"x" 5).1.mem (goAppend h b b!"x" 5).2 = b!"bcx" ∧ (goAppend h b b!"x" 5).1.mem 0 = b!"abcx" ∧
    readSlice (goAppend h b b!"xy" 5).1.mem (goAppend h b b!"xy" 5).2 = b!"bcxy" ∧ (goAppend h b b!"xy" 5).1.mem 0 = b!"abcd" := by decide

end P2P

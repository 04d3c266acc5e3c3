import Verif.Props.PeerwireAmong4
import Verif.Props.PeerwireAmongNV
import Verif.Props.PeerwirePiecesNV
/-! # C110: two pieces, received while others use the pool -/
namespace P2P

/-- somebody else takes a 64-byte buffer, writes into it and gives it back – unless a piece is in it -/
def careful (tr : List PEvent) (x : (Nat → Bytes) × BPool) : (Nat → Bytes) × BPool :=
  match x.2.GetBySize 64 with
  | .ok (b, p) =>
    if b.arr ∈ pieceBuffers tr then x
    else (upd (if p.fresh = x.2.fresh then x.1 else upd x.1 b.arr (List.replicate b.cap 0)) b.arr (List.replicate b.cap 7), p.Put b)
  | _ => x

theorem careful_others {H : List Nat} (tr : List PEvent) {x : (Nat → Bytes) × BPool} (h : Own H x) : OthersDo H x (careful tr x) := by
  obtain ⟨mem, pool⟩ := x
  unfold careful
  simp only
  split
  · rename_i b p hg
    obtain ⟨g1, g2, g3, g4, -, -⟩ := own_get h hg
    have hn := g1.nodup
    simp only [List.cons_append, List.nodup_cons, List.mem_append, not_or] at hn
    split
    · exact .nothing _
    · exact .put b (.write b.arr _ (.get 64 b p (.nothing _) hg) hn.1.2 hn.1.1 (by rw [List.length_replicate, g4.2])) g4.1 (by rw [upd_same, List.length_replicate])
        (g1.old b.arr (by simp)) hn.1.2 hn.1.1
  · exact .nothing _

def carefulEnv (chunks : List Bytes) : PEnv := { calmEnv chunks with interfere := careful }

theorem carefulEnv_among (chunks : List Bytes) : Among (carefulEnv chunks) where
  dial := rfl
  others := fun tr _ h => careful_others tr h
  writes := fun _ => rfl
  time := fun _ => rfl
  memory := fun _ _ => rfl
  order := fun _ _ h => ⟨h, .refl _⟩

theorem carefulEnv_leaves (chunks : List Bytes) : LeaveAlone (carefulEnv chunks) := by
  intro tr x a ha
  show (careful tr x).1 a = x.1 a
  unfold careful
  split
  · rename_i b p hg
    split
    · rfl
    · rename_i hn
      have hne : a ≠ b.arr := fun h => hn (h ▸ ha)
      simp only
      rw [upd_ne _ _ hne]
      split
      · rfl
      · exact upd_ne _ _ hne
  · rfl

def notRetakenB (tr : List PEvent) : Bool :=
  (List.range tr.length).all fun i => match tr[i]? with
    | some (.get b) => !(pieceBuffers (tr.take i)).contains b.arr
    | _ => true

theorem notRetaken_of {tr : List PEvent} (h : notRetakenB tr = true) : NotRetaken tr := by
  intro pre b post hp hmem
  have := List.all_eq_true.1 h pre.length (by rw [hp]; simp)
  have h1 : tr[pre.length]? = some (.get b) := by rw [hp]; simp
  have h2 : tr.take pre.length = pre := by rw [hp]; simp
  rw [h1] at this
  simp only [h2, Bool.not_eq_true', List.contains_eq_mem, decide_eq_false_iff_not] at this
  exact this hmem

/-- metadata of two pieces (announced as 16385 bytes; this peer sends short pieces) -/
def exHalves : List Bytes := [exExt 16385, [20, 1] ++ b!"d8:msg_typei1e5:piecei0e10:total_sizei16385ee" ++ exMeta.take 12, [20, 1] ++ b!"d8:msg_typei1e5:piecei1e10:total_sizei16385ee" ++ exMeta.drop 12]

def exHalvesGot : Received := { size := 16385, pieces := [some (1, exMeta.take 12), some (2, exMeta.drop 12)] }

theorem exPool2_own : Own [] (exMem2, exPool2) := by
  refine ⟨fun i c h b hb => ?_, by decide, by decide⟩
  have hc : i = 4 ∧ c = [] ∨ i = 32768 ∧ c = [{ arr := 0, off := 0, len := 32768, cap := 32768 }, { arr := 1, off := 0, len := 32768, cap := 32768 }] := by
    unfold exPool2 BPool.chan at h
    simp only [List.lookup] at h
    split at h
    · rename_i he
      exact .inl ⟨by simpa using he, (Option.some.inj h).symm⟩
    · split at h
      · rename_i he
        exact .inr ⟨by simpa using he, (Option.some.inj h).symm⟩
      · cases h
  have hlen : ∀ a, (exMem2 a).length = 32768 := fun _ => List.length_replicate
  rcases hc with ⟨rfl, rfl⟩ | ⟨rfl, rfl⟩
  · cases hb
  · simp only [List.mem_cons, List.not_mem_nil, or_false] at hb
    rcases hb with rfl | rfl
    · exact ⟨rfl, rfl, rfl, hlen 0⟩
    · exact ⟨rfl, rfl, rfl, hlen 1⟩

theorem careful_stream : StreamAmong (carefulEnv (exHandshake :: exHalves.flatMap wire)) b!"cccccccccccccccccccc" b!"hhhhhhhhhhhhhhhhhhhh" exMem2 exPool2 exHandshake exHalves 4 where
  among := carefulEnv_among _
  own := exPool2_own
  peer := rfl
  info := rfl
  handshake := exHandshake_ok
  delivers := calmEnv_delivers _
  lengths := by decide +kernel
  rounds := by decide

def carefulRun : FetchOut :=
  FetchMetaData (carefulEnv (exHandshake :: exHalves.flatMap wire)) toyHash (fun _ _ => false) 4 b!"cccccccccccccccccccc" b!"hhhhhhhhhhhhhhhhhhhh" exMem2 exPool2

def outTrace : FetchOut → List PEvent
  | .returned _ _ s => s.trace
  | _ => []

/-- C110_undisturbed: others use the pool all the time, and the two pieces are what is returned -/
example : ∃ s, carefulRun = .returned (some exMeta) none s := by
  obtain ⟨data, s, h1, h2, -⟩ := C110_undisturbed careful_stream (carefulEnv_leaves _) toyHash (fun _ _ => false) 3 3 exHalvesGot (by decide +kernel) (by decide +kernel)
  have h3 : outTrace carefulRun = s.trace := by
    unfold carefulRun
    rw [h2]
    split <;> rfl
  have h4 : notRetakenB (outTrace carefulRun) = true := by decide +kernel
  have h5 : data = exMeta := h1 (notRetaken_of (h3 ▸ h4))
  rw [h5, if_pos (by decide +kernel)] at h2
  exact ⟨s, h2⟩

end P2P

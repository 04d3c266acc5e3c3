import Verif.Lemmas.BencodeEnc
/-! `DecodeInteger`, `DecodeString` on the top level. -/
namespace P2P

theorem splitColon_none {s : Bytes} (h : (58 : UInt8) ∉ s) : splitColon s = [s] := by
  induction s with
  | nil => rfl
  | cons c r ih =>
    simp only [List.mem_cons, not_or] at h
    simp [splitColon, ih h.2, Ne.symm h.1]

theorem splitColon_ne_nil (s : Bytes) : splitColon s ≠ [] := by
  cases s with
  | nil => simp [splitColon]
  | cons c r =>
    unfold splitColon
    split
    · simp
    · split <;> simp

theorem splitColon_append {a : Bytes} (s : Bytes) (h : (58 : UInt8) ∉ a) :
    splitColon (a ++ 58 :: s) = a :: splitColon s := by
  induction a with
  | nil => simp [splitColon]
  | cons c r ih =>
    simp only [List.mem_cons, not_or] at h
    simp [splitColon, ih h.2, Ne.symm h.1]

theorem exists_split_colon {s : Bytes} (h : (58 : UInt8) ∈ s) :
    ∃ a t, s = a ++ 58 :: t ∧ (58 : UInt8) ∉ a := by
  induction s with
  | nil => simp at h
  | cons c r ih =>
    by_cases hc : c = 58
    · exact ⟨[], r, by simp [hc], by simp⟩
    · have : (58 : UInt8) ∈ r := by
        rcases List.mem_cons.1 h with h | h
        · exact absurd h.symm hc
        · exact h
      obtain ⟨a, t, h1, h2⟩ := ih this
      refine ⟨c :: a, t, by simp [h1], ?_⟩
      simp only [List.mem_cons, not_or]
      exact ⟨fun h => hc h.symm, h2⟩

theorem splitColon_two {s : Bytes} (h : (58 : UInt8) ∈ s) : 2 ≤ (splitColon s).length := by
  obtain ⟨a, t, rfl, ha⟩ := exists_split_colon h
  rw [splitColon_append t ha]
  have := List.length_pos_iff.2 (splitColon_ne_nil t)
  simp; omega

theorem colon_not_mem_natDec (n : Nat) : (58 : UInt8) ∉ natDec n := by
  intro h
  have := isDigit_iff.1 (natDec_digit h)
  simp at this

theorem DecodeString_ok_iff (src s : Bytes) : DecodeString src = .ok s ↔
    2 ≤ src.length ∧ ∃ p, src = p ++ 58 :: s ∧ (58 : UInt8) ∉ p ∧ (58 : UInt8) ∉ s ∧
      atoi p = some (s.length : Int) := by
  unfold DecodeString
  constructor
  · intro h
    split at h
    · cases h
    · rename_i hl
      simp only at h
      split at h
      · cases h
      · rename_i hsl
        by_cases hm : (58 : UInt8) ∈ src
        · obtain ⟨a, t, rfl, ha⟩ := exists_split_colon hm
          have hl : 2 ≤ (a ++ 58 :: t).length := by omega
          rw [splitColon_append t ha] at h hsl
          have ht : (58 : UInt8) ∉ t := by
            intro h'
            have := splitColon_two h'
            simp at hsl; omega
          rw [splitColon_none ht] at h
          simp only [List.getElem?_cons_zero, List.getElem?_cons_succ] at h
          split at h
          · cases h
          · rename_i n hn
            split at h
            · cases h
            · rename_i he
              cases h
              simp only [ne_eq, Decidable.not_not] at he
              exact ⟨hl, a, rfl, ha, ht, by rw [hn, he]⟩
        · rw [splitColon_none hm] at h
          simp only [List.getElem?_cons_zero, List.getElem?_cons_succ] at h
          split at h
          · cases h
          · cases h
  · rintro ⟨hl, p, rfl, hp, hs, ha⟩
    rw [if_neg (by omega), splitColon_append s hp, splitColon_none hs]
    simp [ha]

theorem DecodeInteger_total (src : Bytes) : DecodeInteger src = .err .wrongParam ∨
    ∃ n body, DecodeInteger src = .ok n ∧ src = b!"i" ++ body ++ b!"e" ∧ IntBody body n := by
  unfold DecodeInteger
  split
  · exact Or.inl rfl
  · rename_i hl
    split
    · exact Or.inl rfl
    · rename_i hse
      simp only [not_or, ne_eq, Decidable.not_not] at hse
      have hnp := innerDecodeInteger_noPanic (src := src) hse.2 (i := 0) (by omega)
      split
      · rename_i n next h
        split
        · exact Or.inl rfl
        · rename_i hn
          simp only [ne_eq, Decidable.not_not] at hn
          obtain ⟨body, hd, hb, hm, hml⟩ := innerDecodeInteger_sound h
          refine Or.inr ⟨n, body, rfl, ?_, hb⟩
          rw [hn] at hd
          simpa using hd
      · exact Or.inl rfl
      · rename_i p h; rw [h] at hnp; exact absurd hnp (by simp [Res.noPanic])
      · rename_i h; rw [h] at hnp; exact absurd hnp (by simp [Res.noPanic])

theorem DecodeInteger_complete {body : Bytes} {n : Int} (h : IntBody body n) :
    DecodeInteger (b!"i" ++ body ++ b!"e") = .ok n := by
  have h1 := innerDecodeInteger_complete (src := b!"i" ++ body ++ b!"e") (i := 0) (rest := [])
    (by simp) h
  unfold DecodeInteger
  rw [if_neg (by simp), if_neg, h1]
  · simp
  · simp

end P2P

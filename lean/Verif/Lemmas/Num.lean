import Verif.Base
/-! Lemmas about `itoa`, `atoi`, `decVal`. -/
namespace P2P

theorem isDigit_ofNat {n : Nat} (h : n < 10) : isDigit (UInt8.ofNat (48 + n)) = true := by
  have : n = 0 ∨ n = 1 ∨ n = 2 ∨ n = 3 ∨ n = 4 ∨ n = 5 ∨ n = 6 ∨ n = 7 ∨ n = 8 ∨ n = 9 := by omega
  rcases this with h | h | h | h | h | h | h | h | h | h <;> subst h <;> decide

theorem toNat_ofNat_digit {n : Nat} (h : n < 10) : (UInt8.ofNat (48 + n)).toNat - 48 = n := by
  have : n = 0 ∨ n = 1 ∨ n = 2 ∨ n = 3 ∨ n = 4 ∨ n = 5 ∨ n = 6 ∨ n = 7 ∨ n = 8 ∨ n = 9 := by omega
  rcases this with h | h | h | h | h | h | h | h | h | h <;> subst h <;> decide

theorem isDigit_iff {c : UInt8} : isDigit c = true ↔ 48 ≤ c.toNat ∧ c.toNat ≤ 57 := by
  simp [isDigit, UInt8.le_iff_toNat_le]

theorem decVal_append_singleton (s : Bytes) (c : UInt8) :
    decVal (s ++ [c]) = 10 * decVal s + (c.toNat - 48) := by
  simp [decVal, List.foldl_append]

theorem decVal_foldl_lt (s : Bytes) (h : s.all isDigit = true) (n : Nat) :
    s.foldl (fun n c => 10 * n + (c.toNat - 48)) n < (n + 1) * 10 ^ s.length := by
  induction s generalizing n with
  | nil => simp
  | cons c s ih =>
    simp only [List.all_cons, Bool.and_eq_true] at h
    have h2 := isDigit_iff.1 h.1
    have h1 := ih h.2 (10 * n + (c.toNat - 48))
    simp only [List.foldl_cons, List.length_cons, Nat.pow_succ]
    refine Nat.lt_of_lt_of_le h1 ?_
    rw [Nat.mul_comm (10 ^ s.length) 10, ← Nat.mul_assoc]
    exact Nat.mul_le_mul_right _ (by omega)

theorem decVal_lt (s : Bytes) (h : s.all isDigit = true) : decVal s < 10 ^ s.length := by
  have := decVal_foldl_lt s h 0
  simpa [decVal] using this

theorem natDecAux_spec (f n : Nat) (h : n < f) :
    natDecAux f n ≠ [] ∧ (natDecAux f n).all isDigit = true ∧ decVal (natDecAux f n) = n ∧
      ((natDecAux f n).head? = some 48 → n = 0) := by
  induction f generalizing n with
  | zero => omega
  | succ f ih =>
    unfold natDecAux
    split
    · rename_i hn
      refine ⟨by simp, by simpa [List.all_cons, -UInt8.ofNat_add] using isDigit_ofNat hn, ?_, ?_⟩
      · have := toNat_ofNat_digit hn
        simpa [decVal] using this
      · intro h0
        have h1 : UInt8.ofNat (48 + n) = 48 := by simpa using h0
        have h2 := toNat_ofNat_digit hn
        rw [h1] at h2
        exact h2.symm
    · rename_i hn
      obtain ⟨h1, h2, h3, h4⟩ := ih (n / 10) (by omega)
      have hm : n % 10 < 10 := Nat.mod_lt _ (by omega)
      refine ⟨by simp, ?_, ?_, ?_⟩
      · simpa [h2, -UInt8.ofNat_add] using isDigit_ofNat hm
      · rw [decVal_append_singleton, h3, toNat_ofNat_digit hm]; omega
      · intro h0
        have h5 : (natDecAux f (n / 10)).head? = some 48 := by
          cases hx : natDecAux f (n / 10) with
          | nil => exact absurd hx h1
          | cons a t => rw [hx] at h0; simpa using h0
        have := h4 h5
        omega

theorem natDec_ne_nil (n : Nat) : natDec n ≠ [] := (natDecAux_spec (n + 1) n (by omega)).1
theorem natDec_all (n : Nat) : (natDec n).all isDigit = true :=
  (natDecAux_spec (n + 1) n (by omega)).2.1
theorem decVal_natDec (n : Nat) : decVal (natDec n) = n :=
  (natDecAux_spec (n + 1) n (by omega)).2.2.1
theorem natDec_head (n : Nat) (h : (natDec n).head? = some 48) : n = 0 :=
  (natDecAux_spec (n + 1) n (by omega)).2.2.2 h
theorem natDec_digit {n : Nat} {c : UInt8} (h : c ∈ natDec n) : isDigit c = true :=
  List.all_eq_true.1 (natDec_all n) c h

theorem natOfDigits_eq_some {s : Bytes} {n : Nat} :
    natOfDigits s = some n ↔ s ≠ [] ∧ s.all isDigit = true ∧ decVal s = n := by
  unfold natOfDigits
  split
  · rename_i h; simp [h.1]; intro; simpa using h.2
  · rename_i h
    simp only [not_and] at h
    constructor
    · intro h'; cases h'
    · rintro ⟨h1, h2, _⟩; exact absurd h2 (h h1)

theorem natDec_inj {m n : Nat} (h : natDec m = natDec n) : m = n := by
  have := congrArg decVal h
  simpa [decVal_natDec] using this

/-- `atoi` on a digit string (no sign). -/
theorem atoi_digits {s : Bytes} (hne : s ≠ []) (hd : s.all isDigit = true) (hlt : decVal s < 2 ^ 63) :
    atoi s = some (decVal s : Int) := by
  cases s with
  | nil => exact absurd rfl hne
  | cons c r =>
    have hc : isDigit c = true := by simp only [List.all_cons, Bool.and_eq_true] at hd; exact hd.1
    have hc' := isDigit_iff.1 hc
    have h1 : c ≠ 43 := by rintro rfl; simp at hc'
    have h2 : c ≠ 45 := by rintro rfl; simp at hc'
    have hn : natOfDigits (c :: r) = some (decVal (c :: r)) :=
      natOfDigits_eq_some.2 ⟨by simp, hd, rfl⟩
    unfold atoi
    split
    · rename_i heq; cases heq; exact absurd rfl h1
    · rename_i heq; cases heq; exact absurd rfl h2
    · simp [hn, hlt]

/-- `atoi` succeeding on a string that starts with a digit. -/
theorem atoi_of_digit_head {c : UInt8} {r : Bytes} {n : Int} (hc : isDigit c = true)
    (h : atoi (c :: r) = some n) :
    (c :: r).all isDigit = true ∧ decVal (c :: r) < 2 ^ 63 ∧ n = (decVal (c :: r) : Int) := by
  have hc' := isDigit_iff.1 hc
  have h1 : c ≠ 43 := by rintro rfl; simp at hc'
  have h2 : c ≠ 45 := by rintro rfl; simp at hc'
  unfold atoi at h
  split at h
  · rename_i heq; cases heq; exact absurd rfl h1
  · rename_i heq; cases heq; exact absurd rfl h2
  · split at h
    · rename_i m hm
      obtain ⟨_, h4, h5⟩ := natOfDigits_eq_some.1 hm
      split at h
      · rename_i hlt; cases h; exact ⟨h4, by omega, by rw [h5]⟩
      · cases h
    · cases h

end P2P

import Verif.Spec.RouteTable
namespace P2P

theorem length_Xor (a b : Bytes) : (Xor a b).length = min a.length b.length := by
  induction a generalizing b with
  | nil => simp [Xor]
  | cons x r ih =>
    cases b with
    | nil => simp [Xor]
    | cons y s => simp [Xor, ih]

theorem Xor_comm (a b : Bytes) : Xor a b = Xor b a := by
  induction a generalizing b with
  | nil => cases b <;> simp [Xor]
  | cons x r ih =>
    cases b with
    | nil => simp [Xor]
    | cons y s => simp [Xor, ih s, UInt8.xor_comm]

theorem prefixLoop_shift (i : Nat) (s : Bytes) : prefixLoop i s = i * 8 + prefixLoop 0 s := by
  induction s generalizing i with
  | nil => simp [prefixLoop]
  | cons v r ih =>
    simp only [prefixLoop]
    split
    · omega
    · rw [ih (i + 1), ih 1]; omega

theorem lz_table : ∀ v : Fin 256, v.val ≠ 0 →
    leadingZeros8 (UInt8.ofNat v.val) < 8 ∧
    v.val.testBit (7 - leadingZeros8 (UInt8.ofNat v.val)) = true ∧
    (∀ j : Fin 8, j.val < leadingZeros8 (UInt8.ofNat v.val) → v.val.testBit (7 - j.val) = false) := by
  decide +kernel

theorem lz_spec (v : UInt8) (h : v ≠ 0) :
    leadingZeros8 v < 8 ∧ v.toNat.testBit (7 - leadingZeros8 v) = true ∧
    ∀ j, j < leadingZeros8 v → v.toNat.testBit (7 - j) = false := by
  have h0 : v.toNat ≠ 0 := by
    intro h1; apply h; exact UInt8.toNat_inj.mp (by simpa using h1)
  have := lz_table ⟨v.toNat, v.toNat_lt⟩ h0
  simp only [UInt8.ofNat_toNat] at this
  refine ⟨this.1, this.2.1, fun j hj => this.2.2 ⟨j, by omega⟩ hj⟩

theorem bitAt_cons_lt (v : UInt8) (r : Bytes) {j : Nat} (h : j < 8) :
    bitAt (v :: r) j = v.toNat.testBit (7 - j) := by
  have h1 : j / 8 = 0 := by omega
  have h2 : j % 8 = j := by omega
  simp [bitAt, h1, h2]

theorem bitAt_cons_add (v : UInt8) (r : Bytes) (j : Nat) : bitAt (v :: r) (j + 8) = bitAt r j := by
  have h1 : (j + 8) / 8 = j / 8 + 1 := by omega
  have h2 : (j + 8) % 8 = j % 8 := by omega
  simp [bitAt, h1, h2]

/-- the loop finds the first set bit -/
theorem prefixLoop_spec (s : Bytes) :
    prefixLoop 0 s ≤ 8 * s.length ∧ (∀ j, j < prefixLoop 0 s → bitAt s j = false) ∧
    (prefixLoop 0 s < 8 * s.length → bitAt s (prefixLoop 0 s) = true) := by
  induction s with
  | nil => simp [prefixLoop]
  | cons v r ih =>
    simp only [prefixLoop]
    by_cases hv : v = 0
    · subst hv
      simp only [ne_eq, not_true, if_false]
      rw [prefixLoop_shift]
      refine ⟨by simp; omega, ?_, ?_⟩
      · intro j hj
        by_cases h8 : j < 8
        · rw [bitAt_cons_lt _ _ h8]; simp
        · obtain ⟨j', rfl⟩ : ∃ j', j = j' + 8 := ⟨j - 8, by omega⟩
          rw [bitAt_cons_add]; exact ih.2.1 j' (by omega)
      · intro h
        have : (0 + 1) * 8 + prefixLoop 0 r = prefixLoop 0 r + 8 := by omega
        rw [this, bitAt_cons_add]
        simp at h
        exact ih.2.2 (by omega)
    · obtain ⟨h1, h2, h3⟩ := lz_spec v hv
      simp only [ne_eq, hv, not_false_eq_true, if_true, Nat.zero_mul, Nat.zero_add]
      refine ⟨by simp; omega, ?_, ?_⟩
      · intro j hj; rw [bitAt_cons_lt _ _ (by omega)]; exact h3 j hj
      · intro _; rw [bitAt_cons_lt _ _ h1]; exact h2

theorem bitAt_Xor (a b : Bytes) (j : Nat) (h : j < commonBits a b) :
    bitAt (Xor a b) j = (bitAt a j ^^ bitAt b j) := by
  induction a generalizing b j with
  | nil => simp [commonBits] at h
  | cons x r ih =>
    cases b with
    | nil => simp [commonBits] at h
    | cons y s =>
      simp only [Xor]
      by_cases h8 : j < 8
      · simp only [bitAt_cons_lt _ _ h8, UInt8.toNat_xor, Nat.testBit_xor]
      · obtain ⟨j', rfl⟩ : ∃ j', j = j' + 8 := ⟨j - 8, by omega⟩
        simp only [bitAt_cons_add]
        apply ih
        simp [commonBits] at h ⊢; omega

theorem solvePrefixLen_agree (a b : Bytes) : AgreeExactly a b (solvePrefixLen a b) := by
  have h := prefixLoop_spec (Xor a b)
  have hl : 8 * (Xor a b).length = commonBits a b := by simp [length_Xor, commonBits]
  rw [hl, show prefixLoop 0 (Xor a b) = solvePrefixLen a b from rfl] at h
  refine ⟨h.1, ?_, ?_⟩
  · intro j hj
    have := h.2.1 j hj
    rw [bitAt_Xor a b j (Nat.lt_of_lt_of_le hj h.1)] at this
    simpa using this
  · intro hn
    have := h.2.2 hn
    rw [bitAt_Xor a b _ hn] at this
    simpa using this

theorem AgreeExactly.unique {a b : Bytes} {n m : Nat} (hn : AgreeExactly a b n) (hm : AgreeExactly a b m) :
    n = m := by
  obtain ⟨h1, h2, h3⟩ := hn
  obtain ⟨g1, g2, g3⟩ := hm
  rcases Nat.lt_trichotomy n m with h | h | h
  · exact absurd (g2 n h) (h3 (by omega))
  · exact h
  · exact absurd (h2 m h) (g3 (by omega))

theorem solvePrefixLen_lt_of_bits {a b c : Bytes} {i : Nat} (hla : a.length = c.length)
    (hlb : b.length = c.length) (hi : i < 8 * c.length)
    (ha : ∀ j, j ≤ i → bitAt a j = bitAt c j) (hb : bitAt b i ≠ bitAt c i) :
    solvePrefixLen b c < solvePrefixLen a c := by
  have h1 := solvePrefixLen_agree a c
  have h2 := solvePrefixLen_agree b c
  have c1 : commonBits a c = 8 * c.length := by simp [commonBits, hla]
  have c2 : commonBits b c = 8 * c.length := by simp [commonBits, hlb]
  obtain ⟨p1, p2, p3⟩ := h1
  obtain ⟨q1, q2, q3⟩ := h2
  have hle : solvePrefixLen b c ≤ i := by
    by_cases h : solvePrefixLen b c ≤ i
    · exact h
    · exact absurd (q2 i (by omega)) hb
  have hgt : i < solvePrefixLen a c := by
    by_cases h : i < solvePrefixLen a c
    · exact h
    · exact absurd (ha _ (by omega)) (p3 (by omega))
  omega

/-! ### XOR distance -/

theorem foldl_beVal (s : Bytes) (n : Nat) :
    s.foldl (fun n c => 256 * n + c.toNat) n = n * 256 ^ s.length + beVal s := by
  induction s generalizing n with
  | nil => simp [beVal]
  | cons c r ih =>
    simp only [List.foldl_cons, beVal, List.length_cons]
    rw [ih, ih (256 * 0 + c.toNat)]
    simp only [Nat.mul_zero, Nat.zero_add, Nat.pow_succ]
    rw [Nat.add_mul]
    have : 256 * n * 256 ^ r.length = n * (256 ^ r.length * 256) := by
      rw [Nat.mul_comm 256 n, Nat.mul_assoc, Nat.mul_comm 256]
    omega

theorem beVal_cons (c : UInt8) (r : Bytes) : beVal (c :: r) = c.toNat * 256 ^ r.length + beVal r := by
  rw [beVal, List.foldl_cons, foldl_beVal]; simp

theorem beVal_lt_pow (s : Bytes) : beVal s < 256 ^ s.length := by
  induction s with
  | nil => simp [beVal]
  | cons c r ih =>
    rw [beVal_cons, List.length_cons, Nat.pow_succ]
    have h1 : c.toNat ≤ 255 := by have := c.toNat_lt; omega
    have h2 : c.toNat * 256 ^ r.length ≤ 255 * 256 ^ r.length := Nat.mul_le_mul_right _ h1
    omega

theorem xor_split (x y p q n : Nat) (hp : p < 2 ^ n) (hq : q < 2 ^ n) :
    (x * 2 ^ n + p) ^^^ (y * 2 ^ n + q) = (x ^^^ y) * 2 ^ n + (p ^^^ q) := by
  apply Nat.eq_of_testBit_eq
  intro i
  rw [Nat.testBit_xor, Nat.mul_comm x, Nat.mul_comm y, Nat.mul_comm (x ^^^ y),
    Nat.testBit_two_pow_mul_add _ hp, Nat.testBit_two_pow_mul_add _ hq,
    Nat.testBit_two_pow_mul_add _ (Nat.xor_lt_two_pow hp hq)]
  split <;> simp [Nat.testBit_xor]

theorem beVal_Xor {a b : Bytes} (h : a.length = b.length) : beVal (Xor a b) = xorDist a b := by
  induction a generalizing b with
  | nil => cases b with
    | nil => simp [Xor, xorDist, beVal]
    | cons y s => simp at h
  | cons x r ih =>
    cases b with
    | nil => simp at h
    | cons y s =>
      simp only [List.length_cons, Nat.add_right_cancel_iff] at h
      have e : ∀ n, 256 ^ n = 2 ^ (8 * n) := fun n => by rw [Nat.pow_mul]
      have h1 := beVal_lt_pow r
      have h2 := beVal_lt_pow s
      rw [← h, e] at h2
      rw [e] at h1
      simp only [Xor, xorDist, beVal_cons, length_Xor, ← h, Nat.min_self, UInt8.toNat_xor]
      rw [ih h, xorDist, e, xor_split _ _ _ _ _ h1 h2]

theorem lz_mono_table : ∀ v w : Fin 256, v.val ≠ 0 → w.val ≠ 0 →
    leadingZeros8 (UInt8.ofNat w.val) < leadingZeros8 (UInt8.ofNat v.val) → v.val < w.val := by
  decide +kernel

theorem lz_mono {v w : UInt8} (hv : v ≠ 0) (hw : w ≠ 0) (h : leadingZeros8 w < leadingZeros8 v) :
    v.toNat < w.toNat := by
  have h0 : ∀ v : UInt8, v ≠ 0 → v.toNat ≠ 0 := by
    intro v hv h1; apply hv; exact UInt8.toNat_inj.mp (by simpa using h1)
  have := lz_mono_table ⟨v.toNat, v.toNat_lt⟩ ⟨w.toNat, w.toNat_lt⟩ (h0 v hv) (h0 w hw)
  simp only [UInt8.ofNat_toNat] at this
  exact this h

theorem beVal_lt_of_prefixLoop {d e : Bytes} (hl : d.length = e.length)
    (h : prefixLoop 0 e < prefixLoop 0 d) : beVal d < beVal e := by
  induction d generalizing e with
  | nil => simp [prefixLoop] at h
  | cons v r ih =>
    cases e with
    | nil => simp at hl
    | cons w s =>
      simp only [List.length_cons, Nat.add_right_cancel_iff] at hl
      rw [beVal_cons, beVal_cons, hl]
      have hr := beVal_lt_pow r
      rw [hl] at hr
      simp only [prefixLoop] at h
      by_cases hv : v = 0 <;> by_cases hw : w = 0
      · subst hv hw
        simp only [ne_eq, not_true, if_false] at h
        rw [prefixLoop_shift, prefixLoop_shift (0 + 1) r] at h
        have := ih hl (by omega)
        simp; exact this
      · subst hv
        have : 1 * 256 ^ s.length ≤ w.toNat * 256 ^ s.length := Nat.mul_le_mul_right _ (by
          have : w.toNat ≠ 0 := by
            intro h1; apply hw; exact UInt8.toNat_inj.mp (by simpa using h1)
          omega)
        simp; omega
      · subst hw
        have := (lz_spec v hv).1
        simp only [ne_eq, not_true, if_false, hv, not_false_eq_true, if_true] at h
        rw [prefixLoop_shift] at h
        omega
      · simp only [ne_eq, hv, hw, not_false_eq_true, if_true, Nat.zero_mul, Nat.zero_add] at h
        have := lz_mono hv hw h
        have : (v.toNat + 1) * 256 ^ s.length ≤ w.toNat * 256 ^ s.length := Nat.mul_le_mul_right _ this
        rw [Nat.add_mul] at this
        omega

end P2P

import Verif.Spec.Sha1
import Verif.Props.Sha1
/-! # C81: the hash function is that of the standard -/
namespace P2P

theorem blockWords_get (n : Nat) (s : Bytes) (i : Nat) (h : i < n) : (blockWords n s)[i]? = some (beWord (s.drop (4 * i))) := by
  induction n generalizing s i with
  | zero => omega
  | succ n ih =>
    cases i with
    | zero => rfl
    | succ i =>
      show (blockWords n (s.drop 4))[i]? = _
      rw [ih _ _ (by omega), List.drop_drop, show 4 + 4 * i = 4 * (i + 1) by omega]

theorem blockWords_length (n : Nat) (s : Bytes) : (blockWords n s).length = n := by
  induction n generalizing s with
  | zero => rfl
  | succ n ih => simp [blockWords, ih]

/-- the rounds, with the window of the message schedule -/
theorem sha1Rounds_fips (M : Nat → UInt32) (H : Sha1St) (n t : Nat) (w : List UInt32) (hl : w.length = 16) (hw : ∀ i, i < 16 → w.getD i 0 = fipsW M (t + i)) :
    sha1Rounds n t w (fipsVars M H t) = fipsVars M H (t + n) := by
  induction n generalizing t w with
  | zero => rfl
  | succ n ih =>
    unfold sha1Rounds
    have h0 := hw 0 (by omega)
    have hnext : rotl 1 (w.getD 13 0 ^^^ w.getD 8 0 ^^^ w.getD 2 0 ^^^ w.getD 0 0) = fipsW M (t + 16) := by
      rw [hw 13 (by omega), hw 8 (by omega), hw 2 (by omega), hw 0 (by omega)]
      conv => rhs; unfold fipsW
      rw [if_neg (by omega), show t + 16 - 3 = t + 13 by omega, show t + 16 - 8 = t + 8 by omega, show t + 16 - 14 = t + 2 by omega, show t + 16 - 16 = t + 0 by omega]
    rw [show t + (n + 1) = (t + 1) + n by omega]
    rw [← ih (t + 1) (w.drop 1 ++ [rotl 1 (w.getD 13 0 ^^^ w.getD 8 0 ^^^ w.getD 2 0 ^^^ w.getD 0 0)]) (by simp [hl]) ?_]
    · simp only [h0, Nat.add_zero]
      rfl
    · intro i hi
      by_cases h15 : i = 15
      · subst h15
        rw [List.getD_eq_getElem?_getD, List.getElem?_append_right (by simp [hl])]
        simp only [List.length_drop, hl, Nat.sub_self, List.getElem?_cons_zero, Option.getD_some]
        rw [hnext, show t + 1 + 15 = t + 16 by omega]
      · rw [List.getD_eq_getElem?_getD, List.getElem?_append_left (by simp [hl]; omega), List.getElem?_drop, ← List.getD_eq_getElem?_getD, hw (1 + i) (by omega)]
        congr 1; omega

theorem fipsW_congr {M M' : Nat → UInt32} (h : ∀ i, i < 16 → M i = M' i) (t : Nat) : fipsW M t = fipsW M' t := by
  induction t using Nat.strongRecOn with
  | _ t ih =>
    conv => lhs; unfold fipsW
    conv => rhs; unfold fipsW
    by_cases ht : t < 16
    · rw [if_pos ht, if_pos ht, h t ht]
    · rw [if_neg ht, if_neg ht, ih _ (by omega), ih _ (by omega), ih _ (by omega), ih _ (by omega)]

theorem fipsVars_congr {M M' : Nat → UInt32} (h : ∀ i, i < 16 → M i = M' i) (H : Sha1St) (t : Nat) : fipsVars M H t = fipsVars M' H t := by
  induction t with
  | zero => rfl
  | succ t ih => simp only [fipsVars, ih, fipsW_congr h]

/-- one block -/
theorem sha1Block_fips (H : Sha1St) (block : Bytes) (M : Nat → UInt32) (hM : ∀ i, i < 16 → M i = beWord (block.drop (4 * i))) : sha1Block H block = fipsBlock H M := by
  have := sha1Rounds_fips M H 80 0 (blockWords 16 block) (blockWords_length _ _) (fun i hi => by
    rw [List.getD_eq_getElem?_getD, blockWords_get _ _ _ hi, Nat.zero_add]
    conv => rhs; unfold fipsW
    rw [if_pos hi, hM i hi]; rfl)
  unfold sha1Block fipsBlock
  rw [show fipsVars M H 0 = H from rfl] at this
  rw [this]

theorem beWord_four {s : Bytes} {a b c d : UInt8} {r : Bytes} (h : s = a :: b :: c :: d :: r) :
    beWord s = .ofNat (a.toNat * 2 ^ 24 + b.toNat * 2 ^ 16 + c.toNat * 2 ^ 8 + d.toNat) := by
  subst h
  unfold beWord
  congr 1
  simp only [List.take, beVal, List.foldl]
  omega

theorem drop_four {s : Bytes} {j : Nat} (h : j + 4 ≤ s.length) :
    s.drop j = s.getD j 0 :: s.getD (j + 1) 0 :: s.getD (j + 2) 0 :: s.getD (j + 3) 0 :: s.drop (j + 4) := by
  have one : ∀ k, k < s.length → s.drop k = s.getD k 0 :: s.drop (k + 1) := by
    intro k hk
    rw [List.drop_eq_getElem_cons hk, List.getD_eq_getElem?_getD, List.getElem?_eq_getElem hk]
    rfl
  rw [one j (by omega), one (j + 1) (by omega), one (j + 2) (by omega), one (j + 3) (by omega)]

/-- the blocks -/
theorem sha1Blocks_fips (p : Bytes) (n k : Nat) (h : 64 * (k + n) ≤ p.length) : sha1Blocks n (p.drop (64 * k)) (fipsHash p k) = fipsHash p (k + n) := by
  induction n generalizing k with
  | zero => rfl
  | succ n ih =>
    unfold sha1Blocks
    have hb : sha1Block (fipsHash p k) ((p.drop (64 * k)).take 64) = fipsHash p (k + 1) := by
      refine sha1Block_fips _ _ _ fun i hi => ?_
      unfold fipsWord
      have hd : ((p.drop (64 * k)).take 64).drop (4 * i) = (p.drop (64 * k + 4 * i)).take (64 - 4 * i) := by
        rw [List.drop_take, List.drop_drop]
      have hf : (p.drop (64 * k + 4 * i)).take (64 - 4 * i) = p.getD (64 * k + 4 * i) 0 :: p.getD (64 * k + 4 * i + 1) 0 :: p.getD (64 * k + 4 * i + 2) 0 ::
          p.getD (64 * k + 4 * i + 3) 0 :: (p.drop (64 * k + 4 * i + 4)).take (60 - 4 * i) := by
        rw [drop_four (by omega), show 64 - 4 * i = (60 - 4 * i) + 1 + 1 + 1 + 1 by omega]
        simp only [List.take_succ_cons]
      rw [hd, beWord_four hf]
    rw [hb, List.drop_drop, show 64 * k + 64 = 64 * (k + 1) by omega, ih (k + 1) (by omega), show k + 1 + n = k + (n + 1) by omega]

/-- **C81** The padding of the standard (5.1.1): the message, the byte 0x80, zeros up to 8 bytes before the end of a block, the length in bits as 64-bit big-endian number. -/
theorem C81_pad_bytes (m : Bytes) : ∃ z L, sha1Pad m = m ++ [0x80] ++ List.replicate z 0 ++ L ∧ z < 64 ∧ (m.length + 1 + z) % 64 = 56 ∧
    L.length = 8 ∧ beVal L = 8 * m.length % 2 ^ 64 := by
  refine ⟨(119 - m.length % 64) % 64, be32 (8 * m.length / 2 ^ 32) ++ be32 (8 * m.length), ?_, by omega, by omega, rfl, ?_⟩
  · simp [sha1Pad]
  · have key : ∀ n : Nat, beVal (be32 n) = n % 2 ^ 32 := by
      intro n
      simp [beVal, be32, UInt8.toNat_ofNat']
      omega
    have app : ∀ a b : Bytes, b.length = 4 → beVal (a ++ b) = 2 ^ 32 * beVal a + beVal b := by
      intro a b hb
      match b, hb with
      | [w, x, y, z], _ => simp only [beVal, List.foldl_append, List.foldl]; omega
    rw [app _ _ (be32_length _), key, key]
    omega

/-- **C81** The hash function is SHA-1 as the standard defines it: the digest is the five words of the hash value after all blocks of the padded message. -/
theorem C81_fips (m : Bytes) : ∃ N h, 64 * N = (sha1Pad m).length ∧ fipsHash (sha1Pad m) N = h ∧
    sha1Sum m = be32 h.a.toNat ++ be32 h.b.toNat ++ be32 h.c.toNat ++ be32 h.d.toNat ++ be32 h.e.toNat := by
  have hp := (C81_padding m).1
  refine ⟨(sha1Pad m).length / 64, _, by omega, rfl, ?_⟩
  have := sha1Blocks_fips (sha1Pad m) ((sha1Pad m).length / 64) 0 (by omega)
  rw [Nat.zero_add] at this
  rw [← this]
  rfl

/-- a test vector of the standard (896 bits) -/
example : hexEncode (sha1Sum b!"abcdefghbcdefghicdefghijdefghijkefghijklfghijklmghijklmnhijklmnoijklmnopjklmnopqklmnopqrlmnopqrsmnopqrstnopqrstu") =
    b!"a49b2446a02c645bf419f995b67091253a04a259" := by decide +kernel

end P2P

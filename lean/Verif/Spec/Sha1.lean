import Verif.Model.Sha1
/-! # SHA-1 as FIPS 180-4 writes it

Section 6.1 of the standard, with its indices, independent of how `Model/Sha1` goes through the message. -/
namespace P2P

/-- 6.1.2, step 1: the message schedule `W_t` of the block with the words `M` -/
def fipsW (M : Nat → UInt32) (t : Nat) : UInt32 :=
  if t < 16 then M t else rotl 1 (fipsW M (t - 3) ^^^ fipsW M (t - 8) ^^^ fipsW M (t - 14) ^^^ fipsW M (t - 16))
termination_by t

/-- 6.1.2, step 3: the working variables `(a, b, c, d, e)` before round `t` -/
def fipsVars (M : Nat → UInt32) (H : Sha1St) : Nat → Sha1St
  | 0 => H
  | t + 1 =>
    let v := fipsVars M H t
    { a := rotl 5 v.a + sha1F t v.b v.c v.d + v.e + sha1K t + fipsW M t, b := v.a, c := rotl 30 v.b, d := v.c, e := v.d }

/-- 6.1.2, step 4: the next hash value -/
def fipsBlock (H : Sha1St) (M : Nat → UInt32) : Sha1St :=
  let v := fipsVars M H 80
  ⟨H.a + v.a, H.b + v.b, H.c + v.c, H.d + v.d, H.e + v.e⟩

/-- 3.1, 5.2.1: word `i` of block `n` of the padded message `p`: its bytes `64 n + 4 i … 64 n + 4 i + 3`, most significant first -/
def fipsWord (p : Bytes) (n i : Nat) : UInt32 :=
  .ofNat (((p.getD (64 * n + 4 * i) 0).toNat * 2 ^ 24) + ((p.getD (64 * n + 4 * i + 1) 0).toNat * 2 ^ 16) +
    ((p.getD (64 * n + 4 * i + 2) 0).toNat * 2 ^ 8) + (p.getD (64 * n + 4 * i + 3) 0).toNat)

/-- 6.1.2: the hash value after the first `n` blocks -/
def fipsHash (p : Bytes) : Nat → Sha1St
  | 0 => sha1Init
  | n + 1 => fipsBlock (fipsHash p n) (fipsWord p n)

end P2P

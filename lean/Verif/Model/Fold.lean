import Verif.Base
/-! # `strings.EqualFold` (Go standard library) on arbitrary bytes -/
namespace P2P

/-- a UTF-8 continuation byte -/
def isCont (c : UInt8) : Bool := 0x80 ≤ c && c ≤ 0xBF

/-- `utf8.DecodeRuneInString` (Go standard library): the first rune and its width in bytes;
any invalid byte decodes to U+FFFD with width 1. -/
def decodeRune : Bytes → Nat × Nat
  | [] => (0xFFFD, 0)
  | c :: r =>
    if c < 0x80 then (c.toNat, 1)
    else if c < 0xC2 then (0xFFFD, 1)
    else if c < 0xE0 then
      match r with
      | c1 :: _ => if isCont c1 then ((c.toNat - 0xC0) * 64 + (c1.toNat - 0x80), 2) else (0xFFFD, 1)
      | _ => (0xFFFD, 1)
    else if c < 0xF0 then
      match r with
      | c1 :: c2 :: _ =>
        if isCont c1 && isCont c2 && (c != 0xE0 || 0xA0 ≤ c1) && (c != 0xED || c1 ≤ 0x9F) then
          ((c.toNat - 0xE0) * 4096 + (c1.toNat - 0x80) * 64 + (c2.toNat - 0x80), 3)
        else (0xFFFD, 1)
      | _ => (0xFFFD, 1)
    else if c < 0xF5 then
      match r with
      | c1 :: c2 :: c3 :: _ =>
        if isCont c1 && isCont c2 && isCont c3 && (c != 0xF0 || 0x90 ≤ c1) && (c != 0xF4 || c1 ≤ 0x8F) then
          ((c.toNat - 0xF0) * 262144 + (c1.toNat - 0x80) * 4096 + (c2.toNat - 0x80) * 64
            + (c3.toNat - 0x80), 4)
        else (0xFFFD, 1)
      | _ => (0xFFFD, 1)
    else (0xFFFD, 1)

/-- The runes of a string; the first argument bounds their number (`len` suffices). -/
def runesAux : Nat → Bytes → List Nat
  | 0, _ => []
  | _ + 1, [] => []
  | f + 1, s => (decodeRune s).1 :: runesAux f (s.drop (max 1 (decodeRune s).2))

/-- The runes of a string. -/
def runes (s : Bytes) : List Nat := runesAux s.length s

/-- `fold a b` for `a < b`, `0x80 ≤ b`: is `b` reached from `a` by iterating `unicode.SimpleFold`?
This Unicode table is a parameter of the model. -/
abbrev FoldTable := Nat → Nat → Bool

/-- Comparison of one pair of runes inside `strings.EqualFold`. -/
def foldRune (fold : FoldTable) (a b : Nat) : Bool :=
  if a = b then true
  else
    let lo := min a b
    let hi := max a b
    if hi < 0x80 then 65 ≤ lo && lo ≤ 90 && hi == lo + 32
    else fold lo hi

/-- pairwise comparison; both strings must be exhausted together -/
def foldRunes (fold : FoldTable) : List Nat → List Nat → Bool
  | [], [] => true
  | a :: r, b :: s => foldRune fold a b && foldRunes fold r s
  | _, _ => false

/-- `strings.EqualFold` (Go standard library). -/
def equalFold (fold : FoldTable) (s t : Bytes) : Bool := foldRunes fold (runes s) (runes t)

theorem foldRune_refl (fold : FoldTable) (a : Nat) : foldRune fold a a = true := by simp [foldRune]

theorem foldRune_symm (fold : FoldTable) (a b : Nat) : foldRune fold a b = foldRune fold b a := by
  unfold foldRune
  by_cases h : a = b
  · simp [h]
  · simp only [h, Ne.symm h, if_false, Nat.min_comm a b, Nat.max_comm a b]

theorem foldRunes_refl (fold : FoldTable) (l : List Nat) : foldRunes fold l l = true := by
  induction l with
  | nil => rfl
  | cons a r ih => simp [foldRunes, foldRune_refl, ih]

theorem foldRunes_symm (fold : FoldTable) (l m : List Nat) : foldRunes fold l m = foldRunes fold m l := by
  induction l generalizing m with
  | nil => cases m <;> simp [foldRunes]
  | cons a r ih =>
    cases m with
    | nil => simp [foldRunes]
    | cons b s => simp [foldRunes, ih s, foldRune_symm fold a b]

theorem equalFold_refl (fold : FoldTable) (s : Bytes) : equalFold fold s s = true :=
  foldRunes_refl fold _

theorem equalFold_symm (fold : FoldTable) (s t : Bytes) : equalFold fold s t = equalFold fold t s :=
  foldRunes_symm fold _ _

end P2P

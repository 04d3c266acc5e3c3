import Verif.Base
/-! # Which node ids the crawler takes for the same (C77)

Go's `strings.EqualFold` reads an id as UTF-8. Bytes below 0x80 are characters of their own, upper and lower case letters being the same;
the bytes 0x80–0xC1 and 0xF5–0xFF begin no character, so wherever one of them is not the continuation of a character it is "invalid", and all
invalid bytes are the same to it. -/
namespace P2P

def Ascii (c : UInt8) : Prop := c < 0x80
def Stray (c : UInt8) : Prop := (0x80 ≤ c ∧ c < 0xC2) ∨ 0xF5 ≤ c

/-- no byte begins a character of several bytes -/
def PlainId (s : Bytes) : Prop := ∀ c ∈ s, Ascii c ∨ Stray c

/-- upper case letters A–Z to lower case -/
def lowerByte (c : UInt8) : UInt8 := if 65 ≤ c ∧ c ≤ 90 then c + 32 else c

/-- the same byte but for the case of letters, or both invalid -/
def SameByte (a b : UInt8) : Prop := (Ascii a ∧ Ascii b ∧ lowerByte a = lowerByte b) ∨ (Stray a ∧ Stray b)

/-- the same byte by byte -/
def SameId (s t : Bytes) : Prop := s.length = t.length ∧ ∀ (i : Nat) a b, s[i]? = some a → t[i]? = some b → SameByte a b

/-! ### Arbitrary ids -/

/-- a Unicode scalar value -/
def Scalar (r : Nat) : Prop := r < 0xD800 ∨ (0xE000 ≤ r ∧ r < 0x110000)

/-- UTF-8 (RFC 3629, section 3) -/
def utf8Enc (r : Nat) : Bytes :=
  if r < 0x80 then [UInt8.ofNat r]
  else if r < 0x800 then [UInt8.ofNat (0xC0 + r / 64), UInt8.ofNat (0x80 + r % 64)]
  else if r < 0x10000 then [UInt8.ofNat (0xE0 + r / 4096), UInt8.ofNat (0x80 + r / 64 % 64), UInt8.ofNat (0x80 + r % 64)]
  else [UInt8.ofNat (0xF0 + r / 262144), UInt8.ofNat (0x80 + r / 4096 % 64), UInt8.ofNat (0x80 + r / 64 % 64), UInt8.ofNat (0x80 + r % 64)]

/-- How a string is read: `Reads s rs`, with the runes `rs`. At every position the character that begins there is taken; a byte where no
character begins counts as U+FFFD. -/
inductive Reads : Bytes → List Nat → Prop where
  | nil : Reads [] []
  | char {r : Nat} {rest : Bytes} {rs : List Nat} : Scalar r → Reads rest rs → Reads (utf8Enc r ++ rest) (r :: rs)
  | bad {c : UInt8} {rest : Bytes} {rs : List Nat} : (¬ ∃ r rest', Scalar r ∧ c :: rest = utf8Enc r ++ rest') → Reads rest rs →
      Reads (c :: rest) (0xFFFD :: rs)

/-- the same character to `strings.EqualFold`: equal, the upper and lower case of the same letter A–Z, or case variants of each other
according to the Unicode table, of which at least one is not ASCII -/
def SameRune (fold : Nat → Nat → Bool) (a b : Nat) : Prop :=
  a = b ∨ (65 ≤ a ∧ a ≤ 90 ∧ b = a + 32) ∨ (65 ≤ b ∧ b ≤ 90 ∧ a = b + 32) ∨ (a ≠ b ∧ 0x80 ≤ max a b ∧ fold (min a b) (max a b) = true)

/-- the same character by character -/
def SameRunes (fold : Nat → Nat → Bool) (rs ts : List Nat) : Prop :=
  rs.length = ts.length ∧ ∀ (i : Nat) a b, rs[i]? = some a → ts[i]? = some b → SameRune fold a b

end P2P

/-!
# Go basics used by every part of the model

Byte strings, outcomes of a Go call, decimal conversion (`strconv`), hex (`encoding/hex`)
and big-endian integers (`encoding/binary`).
-/
namespace P2P

/-- Contents of a Go `string` or `[]byte`. -/
abbrev Bytes := List UInt8

open Lean in
/-- `b!"abc"` is the byte list of the ASCII/UTF-8 string literal `"abc"`. -/
macro:max "b!" s:str : term => do
  let bs := s.getString.toUTF8.toList
  let elems ← bs.mapM fun b => `(($(quote b.toNat) : UInt8))
  `(([$(elems.toArray),*] : List UInt8))

/-- Error values a modelled Go function may return. -/
inductive GoErr where
  /-- `misc.WrongDecodeParamErr` (misc/beancode.go:10) -/
  | wrongParam
  /-- a `*strconv.NumError` from `strconv.Atoi` -/
  | atoi
  /-- any other error, identified by its text -/
  | other (msg : Bytes)
deriving DecidableEq, Repr

/-- Values a modelled Go function may panic with; `recover` sites distinguish them. -/
inductive Panic where
  /-- a `runtime.Error` (index/slice out of range, nil dereference, failed type assertion, makeslice) -/
  | runtime
  /-- a `*misc.Error` built by `misc.PanicBizErr` (misc/errors.go:64-66): code 201 and this message -/
  | biz (msg : Bytes)
  /-- the string panic of `consoleLogger.Panic` (misc/logger.go:184-190) or a plain `panic("...")` -/
  | str (msg : Bytes)
deriving DecidableEq, Repr

/-- Outcome of a Go call. `diverge` is the model's "step budget exhausted";
where a function takes a budget we prove that it is never the outcome (termination). -/
inductive Res (α : Type) where
  | ok (a : α)
  | err (e : GoErr)
  | panic (p : Panic)
  | diverge
deriving DecidableEq, Repr

namespace Res

/-- Sequencing: an error return or a panic ends the computation. -/
def bind {α β : Type} : Res α → (α → Res β) → Res β
  | .ok a, f => f a
  | .err e, _ => .err e
  | .panic p, _ => .panic p
  | .diverge, _ => .diverge

instance : Monad Res where
  pure := Res.ok
  bind := Res.bind

@[simp] theorem bind_ok {α β : Type} (a : α) (f : α → Res β) : (Res.ok a >>= f) = f a := rfl
@[simp] theorem bind_err {α β : Type} (e : GoErr) (f : α → Res β) :
    ((Res.err e : Res α) >>= f) = .err e := rfl
@[simp] theorem bind_panic {α β : Type} (p : Panic) (f : α → Res β) :
    ((Res.panic p : Res α) >>= f) = .panic p := rfl
@[simp] theorem bind_diverge {α β : Type} (f : α → Res β) :
    ((Res.diverge : Res α) >>= f) = .diverge := rfl
@[simp] theorem pure_eq {α : Type} (a : α) : (pure a : Res α) = .ok a := rfl

instance : LawfulMonad Res := LawfulMonad.mk' (m := Res)
  (id_map := by intro α x; cases x <;> rfl)
  (pure_bind := by intros; rfl)
  (bind_assoc := by intro α β γ x f g; cases x <;> rfl)

theorem bind_eq_ok {α β : Type} {x : Res α} {f : α → Res β} {b : β} :
    (x >>= f) = .ok b ↔ ∃ a, x = .ok a ∧ f a = .ok b := by
  cases x <;> simp

/-- The call neither panicked nor ran out of budget. -/
def noPanic {α : Type} : Res α → Prop
  | .panic _ => False
  | .diverge => False
  | _ => True

instance {α : Type} (r : Res α) : Decidable r.noPanic := by
  cases r <;> unfold noPanic <;> infer_instance

end Res

/-! ## strconv -/

/-- Go `int` is a 64-bit signed integer (amd64/arm64). -/
def IsInt64 (i : Int) : Prop := -(2 ^ 63) ≤ i ∧ i < 2 ^ 63

instance (i : Int) : Decidable (IsInt64 i) := by unfold IsInt64; infer_instance

/-- Two's-complement wrap-around of Go `int` arithmetic. -/
def wrap64 (i : Int) : Int := Int.bmod i (2 ^ 64)

/-- Decimal digits of `n`; `fuel` bounds the number of digits. -/
def natDecAux : Nat → Nat → Bytes
  | 0, _ => []
  | f + 1, n =>
    if n < 10 then [UInt8.ofNat (48 + n)]
    else natDecAux f (n / 10) ++ [UInt8.ofNat (48 + n % 10)]

/-- `strconv.Itoa` for a non-negative argument. -/
def natDec (n : Nat) : Bytes := natDecAux (n + 1) n

/-- `strconv.Itoa`. -/
def itoa (i : Int) : Bytes :=
  match i with
  | .ofNat n => natDec n
  | .negSucc n => 45 :: natDec (n + 1)

/-- An ASCII decimal digit. -/
def isDigit (c : UInt8) : Bool := 48 ≤ c && c ≤ 57

/-- Value of a string of ASCII digits read most significant first (total: only meaningful on digits). -/
def decVal (s : Bytes) : Nat := s.foldl (fun n c => 10 * n + (c.toNat - 48)) 0

/-- Digits-only part of `strconv.Atoi`: at least one digit and nothing else. -/
def natOfDigits (s : Bytes) : Option Nat :=
  if s ≠ [] ∧ s.all isDigit then some (decVal s) else none

/-- `strconv.Atoi` (Go standard library): optional sign, at least one digit, digits only,
and the value must fit in an `int`; `none` stands for the returned error. -/
def atoi (s : Bytes) : Option Int :=
  match s with
  | 43 :: r =>  -- '+'
    match natOfDigits r with
    | some n => if n < 2 ^ 63 then some (n : Int) else none
    | none => none
  | 45 :: r =>  -- '-'
    match natOfDigits r with
    | some n => if n ≤ 2 ^ 63 then some (-(n : Int)) else none
    | none => none
  | r =>
    match natOfDigits r with
    | some n => if n < 2 ^ 63 then some (n : Int) else none
    | none => none

/-! ## encoding/hex and encoding/binary -/

/-- One lower-case hex digit. -/
def hexDigit (n : Nat) : UInt8 := if n < 10 then UInt8.ofNat (48 + n) else UInt8.ofNat (87 + n)

/-- `hex.EncodeToString`. -/
def hexEncode : Bytes → Bytes
  | [] => []
  | b :: r => hexDigit (b.toNat / 16) :: hexDigit (b.toNat % 16) :: hexEncode r

/-- `binary.BigEndian.PutUint16` of `uint16(n)` (only the low 16 bits are written). -/
def be16 (n : Nat) : Bytes := [UInt8.ofNat (n / 256), UInt8.ofNat n]

/-- `binary.BigEndian.PutUint32` of `uint32(n)`. -/
def be32 (n : Nat) : Bytes :=
  [UInt8.ofNat (n / 2 ^ 24), UInt8.ofNat (n / 2 ^ 16), UInt8.ofNat (n / 2 ^ 8), UInt8.ofNat n]

/-- `binary.BigEndian.Uint16` / `Uint32`: big-endian value of a byte string. -/
def beVal (s : Bytes) : Nat := s.foldl (fun n c => 256 * n + c.toNat) 0

/-- Go slicing `s[a:b]` of a string (callers guard `a ≤ b ≤ len s`). -/
def slice (s : Bytes) (a b : Nat) : Bytes := (s.drop a).take (b - a)

end P2P

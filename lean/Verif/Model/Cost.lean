import Verif.Model.Bencode
/-! # What the codec costs

The functions of misc/beancode.go once more, with a counter. `Props/Cost` proves that without the counter they are the functions of `Model/Bencode`.

*Decoding* counts the bytes of the input that are looked at: one for every call of `decodeItem` and every round of a loop, one for every byte that
`strconv.Atoi` is given, and one for every byte of a key that is hashed by a map write (and one for the write). Slicing a Go string copies nothing.

*Encoding* counts the bytes that are copied: Go strings are immutable, so `a + b` and `a += b` copy both.

The time of one map write apart from hashing, of `reflect` and of the allocator are taken to be constant and are not counted. -/
namespace P2P

/-- an outcome and what it cost -/
structure Counted (α : Type) where
  res : Res α
  cost : Nat

namespace Counted
def bind {α β : Type} (m : Counted α) (f : α → Counted β) : Counted β :=
  match m.res with
  | .ok a => { res := (f a).res, cost := m.cost + (f a).cost }
  | .err e => { res := .err e, cost := m.cost }
  | .panic p => { res := .panic p, cost := m.cost }
  | .diverge => { res := .diverge, cost := m.cost }
instance : Monad Counted where
  pure a := { res := .ok a, cost := 0 }
  bind := Counted.bind
/-- something that costs this much -/
def pay {α : Type} (n : Nat) (r : Res α) : Counted α := { res := r, cost := n }
/-- pay in advance -/
def after {α : Type} (n : Nat) (m : Counted α) : Counted α := { res := m.res, cost := n + m.cost }
end Counted
open Counted

/-! ## Decoding -/

/-- misc/beancode.go:40-51, see `intLoop` -/
def intLoopC (src : Bytes) : Nat → Nat → Counted Nat
  | 0, i => pay 1 (.ok i)
  | f + 1, i =>
    match src[i]? with
    | none => pay 1 (.ok i)
    | some c =>
      if c = 101 then pay 1 (.ok i)
      else if src[i - 1]? = some 45 ∧ c = 48 then pay 1 (.err .wrongParam)
      else if src[i - 1]? = some 105 ∧ c = 48 then
        match src[i + 1]? with
        | none => pay 1 (.panic .runtime)
        | some c' => if c' ≠ 101 then pay 1 (.err .wrongParam) else after 1 (intLoopC src f (i + 1))
      else after 1 (intLoopC src f (i + 1))

/-- misc/beancode.go:34-62, see `innerDecodeInteger` -/
def innerDecodeIntegerC (src : Bytes) (start : Nat) : Counted (Int × Nat) :=
  match src[start]? with
  | none => pay 1 (.panic .runtime)
  | some c =>
    if c ≠ 105 then pay 1 (.err .wrongParam)
    else do
      let i ← intLoopC src (src.length - (start + 1)) (start + 1)
      match src[i]? with
      | none => pay 1 (.panic .runtime)
      | some c =>
        if c = 101 then
          match atoi (slice src (start + 1) i) with
          | none => pay (slice src (start + 1) i).length (.err .wrongParam)
          | some n => pay (slice src (start + 1) i).length (.ok (n, i + 1))
        else pay 1 (.err .wrongParam)

/-- misc/beancode.go:301-308, see `indexColon` -/
def indexColonC (src : Bytes) : Nat → Nat → Option Nat × Nat
  | 0, _ => (none, 0)
  | f + 1, i =>
    match src[i]? with
    | none => (none, 0)
    | some c => if c = 58 then (some i, 1) else ((indexColonC src f (i + 1)).1, (indexColonC src f (i + 1)).2 + 1)

/-- misc/beancode.go:90-107, see `innerDecodeString` -/
def innerDecodeStringC (src : Bytes) (start : Nat) : Counted (Bytes × Nat) :=
  let scan := indexColonC src (src.length - start) start
  match scan.1 with
  | none => pay scan.2 (.err .wrongParam)
  | some idx =>
    if idx ≤ start then pay scan.2 (.err .wrongParam)
    else
      match atoi (slice src start idx) with
      | none => pay (scan.2 + (slice src start idx).length) (.err .atoi)
      | some slen =>
        let stop : Int := wrap64 (idx + slen + 1)
        if stop ≥ src.length then pay (scan.2 + (slice src start idx).length) (.err .wrongParam)
        else if stop < idx + 1 then pay (scan.2 + (slice src start idx).length) (.panic .runtime)
        else pay (scan.2 + (slice src start idx).length) (.ok (slice src (idx + 1) stop.toNat, stop.toNat))

mutual
/-- misc/beancode.go:193-205, see `decodeItem` -/
def decodeItemC : Nat → Bytes → Nat → Counted (GoVal × Nat)
  | 0, _, _ => pay 1 .diverge
  | f + 1, src, i =>
    match src[i]? with
    | none => pay 1 (.panic .runtime)
    | some c =>
      if c = 105 then after 1 do
        let (n, next) ← innerDecodeIntegerC src i
        pure (.int n, next)
      else if c = 108 then after 1 do
        let (l, j) ← sliceLoopC f src (i + 1) []
        pure (.list l, j + 1)
      else if c = 100 then after 1 do
        let (d, j) ← dictLoopC f src (i + 1) []
        pure (.dict d, j + 1)
      else if isDigit c then after 1 do
        let (s, next) ← innerDecodeStringC src i
        pure (.str s, next)
      else pay 1 (.err .wrongParam)
/-- misc/beancode.go:180-189, see `sliceLoop` -/
def sliceLoopC : Nat → Bytes → Nat → List GoVal → Counted (List GoVal × Nat)
  | 0, _, _, _ => pay 1 .diverge
  | f + 1, src, i, acc =>
    match src[i]? with
    | none => pay 1 (.ok (acc, i))
    | some c =>
      if c = 101 then pay 1 (.ok (acc, i))
      else after 1 do
        let (v, next) ← decodeItemC f src i
        sliceLoopC f src next (acc ++ [v])
/-- misc/beancode.go:275-296, see `dictLoop` -/
def dictLoopC : Nat → Bytes → Nat → Entries → Counted (Entries × Nat)
  | 0, _, _, _ => pay 1 .diverge
  | f + 1, src, i, acc =>
    match src[i]? with
    | none => pay 1 (.ok (acc, i))
    | some c =>
      if c = 101 then pay 1 (.ok (acc, i))
      else after 1 do
        let (kv, next) ← decodeItemC f src i
        match kv with
        | .str key => do
          let (val, next') ← decodeItemC f src next
          after (key.length + 1) (dictLoopC f src next' (dictPut acc key val))
        | _ => pay 1 (.err .wrongParam)
end

/-- misc/beancode.go:154-173, see `DecodeSlice` -/
def DecodeSliceC (src : Bytes) : Counted (List GoVal) :=
  if src.length < 2 then pay 1 (.err .wrongParam)
  else if src[0]? ≠ some 108 ∨ src[src.length - 1]? ≠ some 101 then pay 1 (.err .wrongParam)
  else after 1 do
    let (l, j) ← sliceLoopC (decodeBudget src) src 1 []
    if j + 1 ≠ src.length then pay 1 (.err .wrongParam) else pure l

/-- misc/beancode.go:229-247, see `DecodeDict` -/
def DecodeDictC (src : Bytes) : Counted (Option Entries) :=
  if src.length < 2 then pay 1 (.err .wrongParam)
  else if src[0]? ≠ some 100 ∨ src[src.length - 1]? ≠ some 101 then pay 1 (.err .wrongParam)
  else after 1 do
    let (d, j) ← dictLoopC (decodeBudget src) src 1 []
    if j + 1 < src.length then pure none else pure (some d)

/-- misc/beancode.go:249-267, see `DecodeDictNoLimit` -/
def DecodeDictNoLimitC (src : Bytes) : Counted (Entries × Nat) :=
  if src.length < 2 then pay 1 (.err .wrongParam)
  else if src[0]? ≠ some 100 then pay 1 (.err .wrongParam)
  else after 1 do
    let (d, j) ← dictLoopC (decodeBudget src) src 1 []
    pure (d, j + 1)

/-! ## Encoding -/

mutual
/-- misc/beancode.go:127-152, with `EncodeInteger`, `EncodeString` (each builds its result by concatenation: every byte is copied once),
`EncodeSlice` and `EncodeDict` -/
def encodeItemC : GoVal → Counted Bytes
  | .int i => pay (EncodeInteger i).length (.ok (EncodeInteger i))
  | .str s => pay (EncodeString s).length (.ok (EncodeString s))
  | .list l => do
      let r ← encodeElemsC [] l
      pay (r.length + 2) (.ok (b!"l" ++ r ++ b!"e"))
  | .dict d => do
      let r ← encodeEntriesC [] d
      pay (r.length + 2) (.ok (b!"d" ++ r ++ b!"e"))
  | .nilList => pay 0 (.err .wrongParam)
  | .nilDict => pay 0 (.err .wrongParam)
  | .nil => pay 0 (.panic .runtime)
  | .namedInt _ => pay 0 (.panic .runtime)
  | .namedStr _ => pay 0 (.panic .runtime)
  | .otherSlice => pay 0 (.err .wrongParam)
  | .otherMap => pay 0 (.err .wrongParam)
  | .other => pay 0 (.err .wrongParam)
/-- misc/beancode.go:115-122 with the string `res` built so far -/
def encodeElemsC (res : Bytes) : List GoVal → Counted Bytes
  | [] => pay 0 (.ok res)
  | v :: r => do
      let tmp ← encodeItemC v
      after (res ++ tmp).length (encodeElemsC (res ++ tmp) r)
/-- misc/beancode.go:212-225 with the string `str` built so far -/
def encodeEntriesC (str : Bytes) : List (Bytes × GoVal) → Counted Bytes
  | [] => pay 0 (.ok str)
  | (k, v) :: r => after ((EncodeString k).length + (str ++ EncodeString k).length) do
      let vtmp ← encodeItemC v
      after (str ++ EncodeString k ++ vtmp).length (encodeEntriesC (str ++ EncodeString k ++ vtmp) r)
end

/-- misc/beancode.go:207-227 for a non-nil `Dict` -/
def EncodeDictC (d : Entries) : Counted Bytes := encodeItemC (.dict d)
/-- misc/beancode.go:109-125 for a non-nil `List` -/
def EncodeSliceC (l : List GoVal) : Counted Bytes := encodeItemC (.list l)

end P2P

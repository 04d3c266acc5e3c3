import Verif.Model.Bencode
/-! # How deep the decoder recurses

The decoding functions of misc/beancode.go once more, with the height of the call stack: how many calls of `decodeItem`, `innerDecodeSlice`,
`innerDecodeDict`, `innerDecodeInteger`, `innerDecodeString` and of the exported function itself are active at the same time at most.
Calls into the standard library (which do not call back) are not counted. `Props/Depth` proves that without the counter they are the functions
of `Model/Bencode`. Exceeding the maximal size of a goroutine's stack (1 GB on 64-bit systems) ends a Go process; no `recover` catches it. -/
namespace P2P

/-- an outcome and the greatest number of calls that were active at once -/
structure Deep (α : Type) where
  res : Res α
  depth : Nat

namespace Deep
/-- one after the other -/
def bind {α β : Type} (m : Deep α) (f : α → Deep β) : Deep β :=
  match m.res with
  | .ok a => { res := (f a).res, depth := max m.depth (f a).depth }
  | .err e => { res := .err e, depth := m.depth }
  | .panic p => { res := .panic p, depth := m.depth }
  | .diverge => { res := .diverge, depth := m.depth }
instance : Monad Deep where
  pure a := { res := .ok a, depth := 0 }
  bind := Deep.bind
/-- code that calls none of the counted functions -/
def here {α : Type} (r : Res α) : Deep α := { res := r, depth := 0 }
/-- inside a call -/
def call {α : Type} (m : Deep α) : Deep α := { res := m.res, depth := m.depth + 1 }
end Deep
open Deep

mutual
/-- misc/beancode.go:193-205, see `decodeItem`; the calls of `innerDecodeSlice` and `innerDecodeDict` are counted here -/
def decodeItemD : Nat → Bytes → Nat → Deep (GoVal × Nat)
  | 0, _, _ => here .diverge
  | f + 1, src, i =>
    call (match src[i]? with
      | none => here (.panic .runtime)
      | some c =>
        if c = 105 then do
          let (n, next) ← call (here (innerDecodeInteger src i))
          pure (.int n, next)
        else if c = 108 then do
          let (l, j) ← call (sliceLoopD f src (i + 1) [])
          pure (.list l, j + 1)
        else if c = 100 then do
          let (d, j) ← call (dictLoopD f src (i + 1) [])
          pure (.dict d, j + 1)
        else if isDigit c then do
          let (s, next) ← call (here (innerDecodeString src i))
          pure (.str s, next)
        else here (.err .wrongParam))
/-- misc/beancode.go:180-189, see `sliceLoop` -/
def sliceLoopD : Nat → Bytes → Nat → List GoVal → Deep (List GoVal × Nat)
  | 0, _, _, _ => here .diverge
  | f + 1, src, i, acc =>
    match src[i]? with
    | none => here (.ok (acc, i))
    | some c =>
      if c = 101 then here (.ok (acc, i))
      else do
        let (v, next) ← decodeItemD f src i
        sliceLoopD f src next (acc ++ [v])
/-- misc/beancode.go:275-296, see `dictLoop` -/
def dictLoopD : Nat → Bytes → Nat → Entries → Deep (Entries × Nat)
  | 0, _, _, _ => here .diverge
  | f + 1, src, i, acc =>
    match src[i]? with
    | none => here (.ok (acc, i))
    | some c =>
      if c = 101 then here (.ok (acc, i))
      else do
        let (kv, next) ← decodeItemD f src i
        match kv with
        | .str key => do
          let (val, next') ← decodeItemD f src next
          dictLoopD f src next' (dictPut acc key val)
        | _ => here (.err .wrongParam)
end

/-- misc/beancode.go:175-191, see `innerDecodeSlice` -/
def innerDecodeSliceD (src : Bytes) (start : Nat) : Deep (List GoVal × Nat) :=
  call (match src[start]? with
    | none => here (.panic .runtime)
    | some c =>
      if c ≠ 108 then here (.err .wrongParam)
      else do
        let (l, j) ← sliceLoopD (decodeBudget src) src (start + 1) []
        pure (l, j + 1))

/-- misc/beancode.go:269-299, see `innerDecodeDict` -/
def innerDecodeDictD (src : Bytes) (start : Nat) : Deep (Entries × Nat) :=
  call (match src[start]? with
    | none => here (.panic .runtime)
    | some c =>
      if c ≠ 100 then here (.err .wrongParam)
      else do
        let (d, j) ← dictLoopD (decodeBudget src) src (start + 1) []
        pure (d, j + 1))

/-- misc/beancode.go:154-173, see `DecodeSlice` -/
def DecodeSliceD (src : Bytes) : Deep (List GoVal) :=
  call (if src.length < 2 then here (.err .wrongParam)
    else if src[0]? ≠ some 108 ∨ src[src.length - 1]? ≠ some 101 then here (.err .wrongParam)
    else do
      let (l, next) ← innerDecodeSliceD src 0
      if next ≠ src.length then here (.err .wrongParam) else pure l)

/-- misc/beancode.go:229-247, see `DecodeDict` -/
def DecodeDictD (src : Bytes) : Deep (Option Entries) :=
  call (if src.length < 2 then here (.err .wrongParam)
    else if src[0]? ≠ some 100 ∨ src[src.length - 1]? ≠ some 101 then here (.err .wrongParam)
    else do
      let (d, next) ← innerDecodeDictD src 0
      if next < src.length then pure none else pure (some d))

/-- misc/beancode.go:249-267, see `DecodeDictNoLimit` -/
def DecodeDictNoLimitD (src : Bytes) : Deep (Entries × Nat) :=
  call (if src.length < 2 then here (.err .wrongParam)
    else if src[0]? ≠ some 100 then here (.err .wrongParam)
    else innerDecodeDictD src 0)

mutual
/-- misc/beancode.go:127-152 with the calls of `EncodeInteger`, `EncodeString`, `EncodeSlice` and `EncodeDict` -/
def encodeItemD : GoVal → Deep Bytes
  | .int i => call (call (here (.ok (EncodeInteger i))))
  | .str s => call (call (here (.ok (EncodeString s))))
  | .list l => call (call (do
      let r ← encodeElemsD l
      pure (b!"l" ++ r ++ b!"e")))
  | .dict d => call (call (do
      let r ← encodeEntriesD d
      pure (b!"d" ++ r ++ b!"e")))
  | .nilList => call (call (here (.err .wrongParam)))
  | .nilDict => call (call (here (.err .wrongParam)))
  | .nil => call (here (.panic .runtime))
  | .namedInt _ => call (here (.panic .runtime))
  | .namedStr _ => call (here (.panic .runtime))
  | .otherSlice => call (here (.err .wrongParam))
  | .otherMap => call (here (.err .wrongParam))
  | .other => call (here (.err .wrongParam))
/-- the loop misc/beancode.go:115-122 -/
def encodeElemsD : List GoVal → Deep Bytes
  | [] => here (.ok [])
  | v :: r => do
      let t ← encodeItemD v
      let s ← encodeElemsD r
      pure (t ++ s)
/-- the loop misc/beancode.go:212-225: `EncodeString` of the key, then the value -/
def encodeEntriesD : List (Bytes × GoVal) → Deep Bytes
  | [] => here (.ok [])
  | (k, v) :: r => do
      let kt ← call (here (.ok (EncodeString k)))
      let t ← encodeItemD v
      let s ← encodeEntriesD r
      pure (kt ++ t ++ s)
end

/-- misc/beancode.go:207-227 for a non-nil `Dict`: the call of `EncodeDict` itself -/
def EncodeDictD (d : Entries) : Deep Bytes :=
  call (do
    let r ← encodeEntriesD d
    pure (b!"d" ++ r ++ b!"e"))

end P2P

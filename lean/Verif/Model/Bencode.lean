import Verif.Base
/-!
# Model of misc/beancode.go (and the dynamic values of misc/types.go)
-/
namespace P2P

/-- A Go `interface{}` value as the bencode code sees it (dynamic type and contents).
`dict` lists the entries of a non-nil `misc.Dict` in *one* iteration order
(Go randomises the order at every `range`), see `Spec/Bencode.lean`. -/
inductive GoVal where
  /-- dynamic type `int` -/
  | int (i : Int)
  /-- dynamic type `string` -/
  | str (s : Bytes)
  /-- non-nil `misc.List` -/
  | list (l : List GoVal)
  /-- non-nil `misc.Dict` -/
  | dict (d : List (Bytes × GoVal))
  /-- nil `misc.List` -/
  | nilList
  /-- nil `misc.Dict` -/
  | nilDict
  /-- nil interface -/
  | nil
  /-- a named type of kind `Int` other than `int`, e.g. `misc.ErrCode` -/
  | namedInt (i : Int)
  /-- a named type of kind `String` -/
  | namedStr (s : Bytes)
  /-- a slice that is not a `misc.List`, or a map that is not a `misc.Dict` -/
  | otherSlice
  | otherMap
  /-- any other kind (float, bool, struct, pointer, ...) -/
  | other
deriving Repr

mutual
/-- Syntactic equality test (only used to evaluate concrete examples). -/
def GoVal.beq : GoVal → GoVal → Bool
  | .int i, .int j => i == j
  | .str s, .str t => s == t
  | .list l, .list m => GoVal.beqL l m
  | .dict d, .dict e => GoVal.beqD d e
  | .nilList, .nilList => true
  | .nilDict, .nilDict => true
  | .nil, .nil => true
  | .namedInt i, .namedInt j => i == j
  | .namedStr s, .namedStr t => s == t
  | .otherSlice, .otherSlice => true
  | .otherMap, .otherMap => true
  | .other, .other => true
  | _, _ => false
def GoVal.beqL : List GoVal → List GoVal → Bool
  | [], [] => true
  | a :: l, b :: m => GoVal.beq a b && GoVal.beqL l m
  | _, _ => false
def GoVal.beqD : List (Bytes × GoVal) → List (Bytes × GoVal) → Bool
  | [], [] => true
  | (j, a) :: l, (k, b) :: m => j == k && GoVal.beq a b && GoVal.beqD l m
  | _, _ => false
end

mutual
theorem GoVal.beq_iff : ∀ a b : GoVal, GoVal.beq a b = true ↔ a = b
  | .list l, b => by cases b <;> simp [GoVal.beq, GoVal.beqL_iff l]
  | .dict d, b => by cases b <;> simp [GoVal.beq, GoVal.beqD_iff d]
  | .int i, b => by cases b <;> simp [GoVal.beq]
  | .str s, b => by cases b <;> simp [GoVal.beq]
  | .nilList, b => by cases b <;> simp [GoVal.beq]
  | .nilDict, b => by cases b <;> simp [GoVal.beq]
  | .nil, b => by cases b <;> simp [GoVal.beq]
  | .namedInt i, b => by cases b <;> simp [GoVal.beq]
  | .namedStr s, b => by cases b <;> simp [GoVal.beq]
  | .otherSlice, b => by cases b <;> simp [GoVal.beq]
  | .otherMap, b => by cases b <;> simp [GoVal.beq]
  | .other, b => by cases b <;> simp [GoVal.beq]
theorem GoVal.beqL_iff : ∀ l m : List GoVal, GoVal.beqL l m = true ↔ l = m
  | [], m => by cases m <;> simp [GoVal.beqL]
  | a :: l, m => by cases m <;> simp [GoVal.beqL, GoVal.beq_iff a, GoVal.beqL_iff l]
theorem GoVal.beqD_iff : ∀ l m : List (Bytes × GoVal), GoVal.beqD l m = true ↔ l = m
  | [], m => by cases m <;> simp [GoVal.beqD]
  | (j, a) :: l, m => by
    cases m <;> simp [GoVal.beqD, GoVal.beq_iff a, GoVal.beqD_iff l, Prod.ext_iff]
end

instance : DecidableEq GoVal := fun a b => decidable_of_iff _ (GoVal.beq_iff a b)

/-- Entries of a map in some order. -/
abbrev Entries := List (Bytes × GoVal)

/-- `d[k]` with the "comma ok" result (Go map read; a nil map reads as empty). -/
def dictGet (d : Entries) (k : Bytes) : Option GoVal := d.lookup k

/-- `d[k] = v` (Go map write). -/
def dictPut : Entries → Bytes → GoVal → Entries
  | [], k, v => [(k, v)]
  | (k', v') :: r, k, v => if k' = k then (k, v) :: r else (k', v') :: dictPut r k v

/-! ## Encoding -/

/-- misc/beancode.go:12-14 -/
def EncodeInteger (i : Int) : Bytes := b!"i" ++ itoa i ++ b!"e"

/-- misc/beancode.go:64-66 -/
def EncodeString (s : Bytes) : Bytes := natDec s.length ++ b!":" ++ s

mutual
/-- misc/beancode.go:127-152 (`encodeItem`), with the bodies of `EncodeSlice` (109-125) and
`EncodeDict` (207-227) inlined for the non-nil containers.
`reflect.TypeOf(nil).Kind()` (line 131) and `item.(int)`/`item.(string)` on a named type
(lines 133, 135) are runtime panics. -/
def encodeItem : GoVal → Res Bytes
  | .int i => .ok (EncodeInteger i)
  | .str s => .ok (EncodeString s)
  | .list l => do
      let r ← encodeElems l
      pure (b!"l" ++ r ++ b!"e")
  | .dict d => do
      let r ← encodeEntries d
      pure (b!"d" ++ r ++ b!"e")
  | .nilList => .err .wrongParam
  | .nilDict => .err .wrongParam
  | .nil => .panic .runtime
  | .namedInt _ => .panic .runtime
  | .namedStr _ => .panic .runtime
  | .otherSlice => .err .wrongParam
  | .otherMap => .err .wrongParam
  | .other => .err .wrongParam
/-- the loop misc/beancode.go:115-122 -/
def encodeElems : List GoVal → Res Bytes
  | [] => .ok []
  | v :: r => do
      let t ← encodeItem v
      let s ← encodeElems r
      pure (t ++ s)
/-- the loop misc/beancode.go:212-225, for the iteration order given by the list -/
def encodeEntries : List (Bytes × GoVal) → Res Bytes
  | [] => .ok []
  | (k, v) :: r => do
      let t ← encodeItem v
      let s ← encodeEntries r
      pure (EncodeString k ++ t ++ s)
end

/-- misc/beancode.go:109-125; `none` is a nil `List`. -/
def EncodeSlice (l : Option (List GoVal)) : Res Bytes :=
  match l with
  | none => encodeItem .nilList
  | some l => encodeItem (.list l)

/-- misc/beancode.go:207-227; `none` is a nil `Dict`. -/
def EncodeDict (d : Option Entries) : Res Bytes :=
  match d with
  | none => encodeItem .nilDict
  | some d => encodeItem (.dict d)

/-! ## Decoding -/

/-- The scan loop misc/beancode.go:40-51. `fuel` is `len(src) - i`; returns the loop's final `i`.
`src[i+1]` (line 48) may be out of range, which panics. -/
def intLoop (src : Bytes) : Nat → Nat → Res Nat
  | 0, i => .ok i
  | f + 1, i =>
    match src[i]? with
    | none => .ok i
    | some c =>
      if c = 101 then .ok i                                  -- 'e'
      else if src[i - 1]? = some 45 ∧ c = 48 then .err .wrongParam      -- "-0"
      else if src[i - 1]? = some 105 ∧ c = 48 then              -- "i0"
        match src[i + 1]? with
        | none => .panic .runtime
        | some c' => if c' ≠ 101 then .err .wrongParam else intLoop src f (i + 1)
      else intLoop src f (i + 1)

/-- misc/beancode.go:34-62. Indexing `src[i]` on line 53 panics when the loop reached the end. -/
def innerDecodeInteger (src : Bytes) (start : Nat) : Res (Int × Nat) :=
  match src[start]? with
  | none => .panic .runtime
  | some c =>
    if c ≠ 105 then .err .wrongParam
    else do
      let i ← intLoop src (src.length - (start + 1)) (start + 1)
      match src[i]? with
      | none => .panic .runtime
      | some c =>
        if c = 101 then
          match atoi (slice src (start + 1) i) with
          | none => .err .wrongParam
          | some n => .ok (n, i + 1)
        else .err .wrongParam

/-- misc/beancode.go:16-32 -/
def DecodeInteger (src : Bytes) : Res Int :=
  if src.length < 2 then .err .wrongParam
  else if src[0]? ≠ some 105 ∨ src[src.length - 1]? ≠ some 101 then .err .wrongParam
  else
    match innerDecodeInteger src 0 with
    | .ok (n, next) => if next ≠ src.length then .err .wrongParam else .ok n
    | .err _ => .err .wrongParam
    | .panic p => .panic p
    | .diverge => .diverge

/-- `strings.Split(s, ":")` (Go standard library) -/
def splitColon : Bytes → List Bytes
  | [] => [[]]
  | c :: r =>
    if c = 58 then [] :: splitColon r
    else
      match splitColon r with
      | [] => [[c]]
      | p :: ps => (c :: p) :: ps

/-- misc/beancode.go:68-88. `subs[1]` on line 83 panics when there is no separator. -/
def DecodeString (src : Bytes) : Res Bytes :=
  if src.length < 2 then .err .wrongParam
  else
    let subs := splitColon src
    if subs.length < 1 ∨ subs.length > 2 then .err .wrongParam
    else
      match subs[0]? with
      | none => .panic .runtime
      | some s0 =>
        match atoi s0 with
        | none => .err .wrongParam
        | some slen =>
          match subs[1]? with
          | none => .panic .runtime
          | some s1 => if (s1.length : Int) ≠ slen then .err .wrongParam else .ok s1

/-- misc/beancode.go:301-308 with `end = len(str)`, `ch = ':'`; `none` is -1. `fuel` is `len - i`. -/
def indexColon (src : Bytes) : Nat → Nat → Option Nat
  | 0, _ => none
  | f + 1, i =>
    match src[i]? with
    | none => none
    | some c => if c = 58 then some i else indexColon src f (i + 1)

/-- misc/beancode.go:90-107. `idx + slen + 1` is 64-bit arithmetic and may wrap around to a
negative number, in which case the slice expression on line 106 panics. -/
def innerDecodeString (src : Bytes) (start : Nat) : Res (Bytes × Nat) :=
  match indexColon src (src.length - start) start with
  | none => .err .wrongParam
  | some idx =>
    if idx ≤ start then .err .wrongParam
    else
      match atoi (slice src start idx) with
      | none => .err .atoi
      | some slen =>
        let stop : Int := wrap64 (idx + slen + 1)
        if stop ≥ src.length then .err .wrongParam
        else if stop < idx + 1 then .panic .runtime
        else .ok (slice src (idx + 1) stop.toNat, stop.toNat)

mutual
/-- misc/beancode.go:193-205. The first argument bounds the number of nested calls and loop rounds. -/
def decodeItem : Nat → Bytes → Nat → Res (GoVal × Nat)
  | 0, _, _ => .diverge
  | f + 1, src, i =>
    match src[i]? with
    | none => .panic .runtime
    | some c =>
      if c = 105 then do                                  -- 'i'
        let (n, next) ← innerDecodeInteger src i
        pure (.int n, next)
      else if c = 108 then do                             -- 'l'
        let (l, j) ← sliceLoop f src (i + 1) []
        pure (.list l, j + 1)
      else if c = 100 then do                             -- 'd'
        let (d, j) ← dictLoop f src (i + 1) []
        pure (.dict d, j + 1)
      else if isDigit c then do
        let (s, next) ← innerDecodeString src i
        pure (.str s, next)
      else .err .wrongParam
/-- the loop misc/beancode.go:180-189 of `innerDecodeSlice` -/
def sliceLoop : Nat → Bytes → Nat → List GoVal → Res (List GoVal × Nat)
  | 0, _, _, _ => .diverge
  | f + 1, src, i, acc =>
    match src[i]? with
    | none => .ok (acc, i)
    | some c =>
      if c = 101 then .ok (acc, i)
      else do
        let (v, next) ← decodeItem f src i
        sliceLoop f src next (acc ++ [v])
/-- the loop misc/beancode.go:275-296 of `innerDecodeDict` -/
def dictLoop : Nat → Bytes → Nat → Entries → Res (Entries × Nat)
  | 0, _, _, _ => .diverge
  | f + 1, src, i, acc =>
    match src[i]? with
    | none => .ok (acc, i)
    | some c =>
      if c = 101 then .ok (acc, i)
      else do
        let (kv, next) ← decodeItem f src i
        match kv with
        | .str key => do
          let (val, next') ← decodeItem f src next
          dictLoop f src next' (dictPut acc key val)
        | _ => .err .wrongParam
end

/-- Step budget handed to the recursive decoders; `Lemmas/Bencode` proves it is never exhausted. -/
def decodeBudget (src : Bytes) : Nat := 2 * src.length + 2

/-- misc/beancode.go:175-191 -/
def innerDecodeSlice (src : Bytes) (start : Nat) : Res (List GoVal × Nat) :=
  match src[start]? with
  | none => .panic .runtime
  | some c =>
    if c ≠ 108 then .err .wrongParam
    else do
      let (l, j) ← sliceLoop (decodeBudget src) src (start + 1) []
      pure (l, j + 1)

/-- misc/beancode.go:269-299 -/
def innerDecodeDict (src : Bytes) (start : Nat) : Res (Entries × Nat) :=
  match src[start]? with
  | none => .panic .runtime
  | some c =>
    if c ≠ 100 then .err .wrongParam
    else do
      let (d, j) ← dictLoop (decodeBudget src) src (start + 1) []
      pure (d, j + 1)

/-- misc/beancode.go:154-173 -/
def DecodeSlice (src : Bytes) : Res (List GoVal) :=
  if src.length < 2 then .err .wrongParam
  else if src[0]? ≠ some 108 ∨ src[src.length - 1]? ≠ some 101 then .err .wrongParam
  else do
    let (l, next) ← innerDecodeSlice src 0
    if next ≠ src.length then .err .wrongParam else pure l

/-- misc/beancode.go:229-247. The result `none` is the nil dictionary returned *without* an error
when bytes are left over (line 242-243: `err` is nil there). -/
def DecodeDict (src : Bytes) : Res (Option Entries) :=
  if src.length < 2 then .err .wrongParam
  else if src[0]? ≠ some 100 ∨ src[src.length - 1]? ≠ some 101 then .err .wrongParam
  else do
    let (d, next) ← innerDecodeDict src 0
    if next < src.length then pure none else pure (some d)

/-- misc/beancode.go:249-267 -/
def DecodeDictNoLimit (src : Bytes) : Res (Entries × Nat) :=
  if src.length < 2 then .err .wrongParam
  else if src[0]? ≠ some 100 then .err .wrongParam
  else innerDecodeDict src 0

end P2P

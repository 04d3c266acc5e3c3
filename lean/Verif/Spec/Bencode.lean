import Verif.Model.Bencode
/-!
# Specification of bencode, independent of the decoder

* `GoVal.WF` - the value can exist in a Go program (64-bit ints, maps without duplicate keys).
* `Encodable` - the value consists of ints, strings, non-nil Lists and non-nil Dicts only.
* `DeepEq` - equality of Go values: slices elementwise, maps by lookup (order of entries irrelevant).
* `EncodingOf v b` - `b` is a possible output of the encoder for `v`, for *some* map iteration order
  at every nesting level.
* `Ben` - the (lenient) bencode grammar accepted from the network.
-/
namespace P2P

mutual
/-- Values that can exist at run time: ints are 64-bit, map keys are distinct (recursively). -/
def GoVal.WF : GoVal → Prop
  | .int i => IsInt64 i
  | .list l => GoVal.WFL l
  | .dict d => (d.map Prod.fst).Nodup ∧ GoVal.WFD d
  | _ => True
/-- every element is well formed -/
def GoVal.WFL : List GoVal → Prop
  | [] => True
  | v :: r => v.WF ∧ GoVal.WFL r
/-- every entry value is well formed -/
def GoVal.WFD : List (Bytes × GoVal) → Prop
  | [] => True
  | (_, v) :: r => v.WF ∧ GoVal.WFD r
end

mutual
/-- Only ints, strings, non-nil Lists and non-nil Dicts, at every depth. -/
def Encodable : GoVal → Prop
  | .int _ => True
  | .str _ => True
  | .list l => EncodableL l
  | .dict d => EncodableD d
  | _ => False
/-- every element is encodable -/
def EncodableL : List GoVal → Prop
  | [] => True
  | v :: r => Encodable v ∧ EncodableL r
/-- every entry value is encodable -/
def EncodableD : List (Bytes × GoVal) → Prop
  | [] => True
  | (_, v) :: r => Encodable v ∧ EncodableD r
end

/-- Equality of Go values (`reflect.DeepEqual` on these types): maps are compared by lookup. -/
inductive DeepEq : GoVal → GoVal → Prop where
  | refl (v : GoVal) : DeepEq v v
  | list {l m : List GoVal} (hlen : l.length = m.length)
      (h : ∀ (i : Nat) v w, l[i]? = some v → m[i]? = some w → DeepEq v w) : DeepEq (.list l) (.list m)
  | dict {d e : Entries} (hdom : ∀ k, (d.lookup k).isSome = (e.lookup k).isSome)
      (h : ∀ k v w, d.lookup k = some v → e.lookup k = some w → DeepEq v w) :
      DeepEq (.dict d) (.dict e)

/-- `b` is a possible result of encoding `v`: the encoder ran over a listing `w` of the same Go value
(the same maps, each visited in some order) and produced `b`. -/
def EncodingOf (v : GoVal) (b : Bytes) : Prop :=
  ∃ w, w.WF ∧ DeepEq v w ∧ encodeItem w = .ok b

/-- A non-empty string of ASCII digits. -/
def Digits (ds : Bytes) : Prop := ds ≠ [] ∧ ∀ c ∈ ds, isDigit c = true

/-- The integer bodies accepted between `i` and `e`, with the number they denote. -/
inductive IntBody : Bytes → Int → Prop where
  /-- no sign: no superfluous leading zero -/
  | pos (ds : Bytes) : Digits ds → (ds.head? = some 48 → ds = [48]) → decVal ds < 2 ^ 63 →
      IntBody ds (decVal ds)
  /-- a plus sign (leading zeros allowed) -/
  | plus (ds : Bytes) : Digits ds → decVal ds < 2 ^ 63 → IntBody (43 :: ds) (decVal ds)
  /-- a minus sign, not followed by a zero -/
  | minus (ds : Bytes) : Digits ds → ds.head? ≠ some 48 → decVal ds ≤ 2 ^ 63 →
      IntBody (45 :: ds) (-(decVal ds : Int))

/-- The map denoted by a sequence of key/value pairs: later pairs override earlier ones. -/
def mapOf (kvs : Entries) : Entries := kvs.foldl (fun d kv => dictPut d kv.1 kv.2) []

/-- What a byte string can denote: one value, a sequence of values, a sequence of entries. -/
inductive Syn where
  | item (v : GoVal)
  | items (l : List GoVal)
  | entries (kvs : Entries)

/-- The lenient bencode grammar: arbitrary key order, duplicate keys (last one wins), leading zeros
in string lengths, `+` and its leading zeros in integers. -/
inductive Ben : Syn → Bytes → Prop where
  | int {body : Bytes} {n : Int} : IntBody body n →
      Ben (.item (.int n)) (b!"i" ++ body ++ b!"e")
  | str {ds s : Bytes} : Digits ds → decVal ds = s.length →
      Ben (.item (.str s)) (ds ++ b!":" ++ s)
  | list {l : List GoVal} {bs : Bytes} : Ben (.items l) bs →
      Ben (.item (.list l)) (b!"l" ++ bs ++ b!"e")
  | dict {kvs : Entries} {bs : Bytes} : Ben (.entries kvs) bs →
      Ben (.item (.dict (mapOf kvs))) (b!"d" ++ bs ++ b!"e")
  | nil : Ben (.items []) []
  | cons {v : GoVal} {l : List GoVal} {p bs : Bytes} : Ben (.item v) p → Ben (.items l) bs →
      Ben (.items (v :: l)) (p ++ bs)
  | enil : Ben (.entries []) []
  | econs {k : Bytes} {v : GoVal} {r : Entries} {p q bs : Bytes} :
      Ben (.item (.str k)) p → Ben (.item v) q → Ben (.entries r) bs →
      Ben (.entries ((k, v) :: r)) (p ++ q ++ bs)

/-- `p` is a (lenient) bencoding of the value `v`. -/
def Bencodes (v : GoVal) (p : Bytes) : Prop := Ben (.item v) p

/-- The value is a string. -/
def GoVal.isStr : GoVal → Bool
  | .str _ => true
  | _ => false

/-- `TruncatedBy v k p`: `p` is a bencoded list or dictionary denoting `v` from which exactly the last
`k ≥ 1` bytes, all of them closing `e`s of open containers, have been cut off, and the cut is not
directly behind a string. -/
inductive TruncatedBy : GoVal → Nat → Bytes → Prop where
  | list {l : List GoVal} {bs : Bytes} : Ben (.items l) bs →
      (∀ v, l.getLast? = some v → v.isStr = false) → TruncatedBy (.list l) 1 (b!"l" ++ bs)
  | listIn {l : List GoVal} {bs p : Bytes} {v : GoVal} {k : Nat} : Ben (.items l) bs →
      TruncatedBy v k p → TruncatedBy (.list (l ++ [v])) (k + 1) (b!"l" ++ bs ++ p)
  | dict {kvs : Entries} {bs : Bytes} : Ben (.entries kvs) bs →
      (∀ kv, kvs.getLast? = some kv → kv.2.isStr = false) →
      TruncatedBy (.dict (mapOf kvs)) 1 (b!"d" ++ bs)
  | dictIn {kvs : Entries} {key : Bytes} {bs q p : Bytes} {v : GoVal} {k : Nat} :
      Ben (.entries kvs) bs → Ben (.item (.str key)) q → TruncatedBy v k p →
      TruncatedBy (.dict (mapOf (kvs ++ [(key, v)]))) (k + 1) (b!"d" ++ bs ++ q ++ p)

/-- No run of more than `m` consecutive ASCII digits occurs in `s`. -/
def DigitRunsAtMost (m : Nat) (s : Bytes) : Prop := ∀ ds, ds <:+: s → Digits ds → ds.length ≤ m

end P2P

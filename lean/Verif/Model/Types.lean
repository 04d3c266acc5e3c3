import Verif.Model.Bencode
import Verif.Model.Fold
/-! # Model of misc/types.go: typed access to dictionaries and lists -/
namespace P2P

/-- Go type assertion `v.(int)` -/
def GoVal.asInt : GoVal → Option Int
  | .int i => some i
  | _ => none
/-- Go type assertion `v.(string)` -/
def GoVal.asStr : GoVal → Option Bytes
  | .str s => some s
  | _ => none
/-- Go type assertion `v.(List)`; the inner `none` is a nil `List` -/
def GoVal.asList : GoVal → Option (Option (List GoVal))
  | .list l => some (some l)
  | .nilList => some none
  | _ => none
/-- Go type assertion `v.(Dict)`; the inner `none` is a nil `Dict` -/
def GoVal.asDict : GoVal → Option (Option Entries)
  | .dict d => some (some d)
  | .nilDict => some none
  | _ => none

namespace Dict
/-- misc/types.go:55-61 -/
def GetVal (d : Entries) (key : Bytes) : Res GoVal :=
  match dictGet d key with
  | some v => .ok v
  | none => .panic (.biz (b!"cannot find " ++ key ++ b!"'s val"))

/-- misc/types.go:63-69. The short variable declaration assigns the parameter `val`, so an absent
key yields the zero value `nil` on both paths and the default is never returned. -/
def GetValOrDefault (d : Entries) (key : Bytes) (_val : GoVal) : GoVal :=
  match dictGet d key with
  | some v => v
  | none => .nil

/-- misc/types.go:7-13 -/
def GetInteger (d : Entries) (key : Bytes) : Res Int := do
  let v ← GetVal d key
  match v.asInt with
  | some i => .ok i
  | none => .panic (.biz (key ++ b!"'s val cannot match type of int"))

/-- misc/types.go:15-21 -/
def GetString (d : Entries) (key : Bytes) : Res Bytes := do
  let v ← GetVal d key
  match v.asStr with
  | some s => .ok s
  | none => .panic (.biz (key ++ b!"'s val cannot match type of string"))

/-- misc/types.go:23-29 -/
def GetIntegerOrDefault (d : Entries) (key : Bytes) (val : Int) : Int :=
  match (GetValOrDefault d key (.int val)).asInt with
  | some i => i
  | none => val

/-- misc/types.go:31-37 -/
def GetStringOrDefault (d : Entries) (key : Bytes) (val : Bytes) : Bytes :=
  match (GetValOrDefault d key (.str val)).asStr with
  | some s => s
  | none => val

/-- misc/types.go:39-45; a nil list reads as `none` -/
def GetList (d : Entries) (key : Bytes) : Res (Option (List GoVal)) := do
  let v ← GetVal d key
  match v.asList with
  | some l => .ok l
  | none => .panic (.biz (key ++ b!"'s val cannot match type of List"))

/-- misc/types.go:47-53; a nil dict reads as `none` -/
def GetDict (d : Entries) (key : Bytes) : Res (Option Entries) := do
  let v ← GetVal d key
  match v.asDict with
  | some e => .ok e
  | none => .panic (.biz (key ++ b!"'s val cannot match type of Dict"))

/-- misc/types.go:71-74 -/
def Exist (d : Entries) (key : Bytes) : Bool := (dictGet d key).isSome
end Dict

namespace GoList
/-- misc/types.go:78-80; the index is a Go `int`, out of range is a runtime panic -/
def GetVal (l : List GoVal) (index : Int) : Res GoVal :=
  if 0 ≤ index then
    match l[index.toNat]? with
    | some v => .ok v
    | none => .panic .runtime
  else .panic .runtime

/-- misc/types.go:82-88 -/
def GetInteger (l : List GoVal) (index : Int) : Res Int := do
  let v ← GetVal l index
  match v.asInt with
  | some i => .ok i
  | none => .panic (.biz b!"val cannot match type of int")

/-- misc/types.go:90-96 -/
def GetString (l : List GoVal) (index : Int) : Res Bytes := do
  let v ← GetVal l index
  match v.asStr with
  | some i => .ok i
  | none => .panic (.biz b!"val cannot match type of string")

/-- misc/types.go:98-104 -/
def GetList (l : List GoVal) (index : Int) : Res (Option (List GoVal)) := do
  let v ← GetVal l index
  match v.asList with
  | some i => .ok i
  | none => .panic (.biz b!"val cannot match type of List")

/-- misc/types.go:106-112 -/
def GetDict (l : List GoVal) (index : Int) : Res (Option Entries) := do
  let v ← GetVal l index
  match v.asDict with
  | some i => .ok i
  | none => .panic (.biz b!"val cannot match type of Dict")

/-- misc/types.go:114-116 -/
def Exist (l : List GoVal) (index : Int) : Bool := (l.length : Int) > index

/-- the loop misc/types.go:119-123 from index `i` on (`n` rounds left) -/
def containsLoop (fold : FoldTable) (l : List GoVal) (target : Bytes) : Nat → Nat → Res Bool
  | 0, _ => .ok false
  | n + 1, i => do
    let s ← GetString l i
    if equalFold fold s target then .ok true else containsLoop fold l target n (i + 1)

/-- misc/types.go:118-125 -/
def ContainsString (fold : FoldTable) (l : List GoVal) (target : Bytes) : Res Bool :=
  containsLoop fold l target l.length 0
end GoList

end P2P

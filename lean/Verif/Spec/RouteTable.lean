import Verif.Model.RouteTable
/-! # Specification vocabulary for the route table -/
namespace P2P

/-- Bit `j` of a byte string, most significant bit of the first byte first. -/
def bitAt (s : Bytes) (j : Nat) : Bool := (s.getD (j / 8) 0).toNat.testBit (7 - j % 8)

/-- Number of bits of the shorter of two byte strings. -/
def commonBits (a b : Bytes) : Nat := 8 * min a.length b.length

/-- `a` and `b` agree on exactly their first `n` bits. -/
def AgreeExactly (a b : Bytes) (n : Nat) : Prop :=
  n ≤ commonBits a b ∧ (∀ j, j < n → bitAt a j = bitAt b j) ∧ (n < commonBits a b → bitAt a n ≠ bitAt b n)

/-- Kademlia distance of two ids: XOR of their big-endian values. -/
def xorDist (a b : Bytes) : Nat := beVal a ^^^ beVal b

namespace RouteTable

/-- Contents of bucket `i` (empty if it does not exist). -/
def bucketNodes (t : RouteTable) (i : Nat) : List NodeInfo :=
  match t.nodeMap i with
  | some b => b.nodes
  | none => []

/-- All stored nodes, bucket by bucket. -/
def nodes (t : RouteTable) : List NodeInfo := (List.range (t.last + 1)).flatMap t.bucketNodes

/-- The bucket a node with this id belongs to. -/
def place (t : RouteTable) (id : Bytes) : Nat := min (solvePrefixLen id t.hnode.id) t.last

/-- A node `Equals` to `node` is stored in the bucket `node` belongs to. -/
def Has (env : Env) (t : RouteTable) (node : NodeInfo) : Prop :=
  ∃ m ∈ t.bucketNodes (t.place node.id), m.Equals env node = true

instance (env : Env) (t : RouteTable) (node : NodeInfo) : Decidable (t.Has env node) := by
  unfold Has; infer_instance

/-- Adding a list of nodes one after the other, remembering what each `AddNode` returned. -/
def addAll (env : Env) (t : RouteTable) : List NodeInfo → Res (RouteTable × List (Option Bytes))
  | [] => .ok (t, [])
  | n :: r => do
    let (t1, e) ← t.AddNode env n
    let (t2, es) ← addAll env t1 r
    pure (t2, e :: es)

/-- The tables a program can have: built by `NewRouteTable` and any sequence of `AddNode` calls. -/
inductive Reachable (env : Env) : RouteTable → Prop where
  | new (h : NodeInfo) (k c : Nat) : Reachable env (RouteTable.new h k c)
  | add {t t' : RouteTable} {n : NodeInfo} {e : Option Bytes} :
      Reachable env t → t.AddNode env n = .ok (t', e) → Reachable env t'

end RouteTable
end P2P

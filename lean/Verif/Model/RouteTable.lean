import Verif.Model.Node
/-! # Model of dht/routetable.go, misc/bits.go and `NodeInfo.Equals` (sequential behaviour)

`RouteTable`'s public methods hold the table's lock for their whole duration
(routetable.go:113-114, 127-128, 148-149, 214-215, 220-221), so a concurrent history is equivalent to
the sequential history of its critical sections; the model is that sequential behaviour. That equivalence is proved for the
access-by-access model `Model/RouteTableConc` (C73). -/
namespace P2P

/-! ## prefix length -/

/-- misc/bits.go:3-14 -/
def Xor : Bytes → Bytes → Bytes
  | a :: r, b :: s => (a ^^^ b) :: Xor r s
  | _, _ => []

/-- `bits.LeadingZeros8` (Go standard library) -/
def leadingZeros8 (v : UInt8) : Nat := if v = 0 then 8 else 7 - v.toNat.log2

/-- the loop dht/routetable.go:227-232 from index `i` on -/
def prefixLoop : Nat → Bytes → Nat
  | i, [] => i * 8
  | i, v :: r => if v ≠ 0 then i * 8 + leadingZeros8 v else prefixLoop (i + 1) r

/-- dht/routetable.go:225-233 -/
def solvePrefixLen (a b : Bytes) : Nat := prefixLoop 0 (Xor a b)

/-! ## node equality -/

/-- The parts of the environment that node comparison depends on: Unicode folding of non-ASCII runes
and the text form of genuine IPv6 addresses. -/
structure Env where
  fold : FoldTable
  ip6 : Bytes → Bytes

/-- dotted decimal text of 4 bytes -/
def dotted (ip : Bytes) : Bytes := List.intercalate b!"." (ip.map (fun c => natDec c.toNat))

/-- `net.IP.String` as used by `UDPAddr.String` (Go standard library); the empty IP prints as "" -/
def ipString (env : Env) (ip : Bytes) : Bytes :=
  if ip = [] then []
  else if to4 ip ≠ [] then dotted (to4 ip)
  else if ip.length ≠ 16 then b!"?" ++ hexEncode ip
  else env.ip6 ip

/-- `net.JoinHostPort` / `net.UDPAddr.String` (Go standard library); a host with a colon is put into brackets -/
def addrString (env : Env) (a : UDPAddr) : Bytes :=
  let h := if a.zone = [] then ipString env a.ip else ipString env a.ip ++ b!"%" ++ a.zone
  if (58 : UInt8) ∈ h then b!"[" ++ h ++ b!"]:" ++ itoa a.port
  else h ++ b!":" ++ itoa a.port

/-- dht/node.go:49-57, for a non-nil argument -/
def NodeInfo.Equals (env : Env) (n node : NodeInfo) : Bool :=
  equalFold env.fold n.id node.id && equalFold env.fold (addrString env n.addr) (addrString env node.addr)

/-! ## Bucket -/

/-- dht/routetable.go:13-18. `nodes` is the used part `nodes[:size]`; the slots behind it are nil. -/
structure Bucket where
  nodes : List NodeInfo
  cap : Nat
deriving DecidableEq

namespace Bucket
/-- dht/routetable.go:20-26 -/
def new (capacity : Nat) : Bucket := { nodes := [], cap := capacity }
/-- dht/routetable.go:67-71 -/
def Size (b : Bucket) : Nat := b.nodes.length
/-- dht/routetable.go:73-84 -/
def Full (b : Bucket) : Bool := b.nodes.length ≥ b.cap
/-- dht/routetable.go:28-37 -/
def Exist (env : Env) (b : Bucket) (node : NodeInfo) : Bool := b.nodes.any (fun n => n.Equals env node)
/-- dht/routetable.go:47-59; the result says whether the node was accepted -/
def Add (b : Bucket) (node : NodeInfo) : Bucket × Bool :=
  if b.Full then (b, false)
  else if b.Full then (b, false)
  else ({ b with nodes := b.nodes ++ [node] }, true)
/-- dht/routetable.go:61-65 -/
def All (b : Bucket) : List NodeInfo := b.nodes
/-- dht/routetable.go:39-45: the handler sees the stored nodes and then the nil slots -/
def Iterator (b : Bucket) : List (Option NodeInfo) :=
  b.nodes.map some ++ List.replicate (b.cap - b.nodes.length) none
end Bucket

/-! ## RouteTable -/

/-- dht/routetable.go:86-94 -/
structure RouteTable where
  hnode : NodeInfo
  k : Nat
  nodeMap : Nat → Option Bucket
  size : Int
  capacity : Nat
  last : Nat

namespace RouteTable
/-- dht/routetable.go:96-110. A negative `k` panics in `make` (line 24), a negative `capacity`
behaves like 0; both are natural numbers here. -/
def new (hostNode : NodeInfo) (k capacity : Nat) : RouteTable :=
  { hnode := hostNode, k := k, size := 1, capacity := capacity, last := 0
    nodeMap := fun i => if i = 0 then some ((Bucket.new k).Add hostNode).1 else none }

/-- dht/routetable.go:139-145 -/
def solveMaxPreLen (t : RouteTable) (id : Bytes) : Nat :=
  let pLen := solvePrefixLen id t.hnode.id
  if pLen ≤ t.last then pLen else t.last

/-- map read `t.nodeMap[i]` followed by a method call: a missing entry is a nil dereference -/
def bucket (t : RouteTable) (i : Nat) : Res Bucket :=
  match t.nodeMap i with
  | some b => .ok b
  | none => .panic .runtime

/-- map write `t.nodeMap[i] = b` -/
def setBucket (t : RouteTable) (i : Nat) (b : Bucket) : RouteTable :=
  { t with nodeMap := upd t.nodeMap i (some b) }

/-- dht/routetable.go:205-211 from index `i` on (`n` rounds left) -/
def countLoop (t : RouteTable) : Nat → Nat → Res Nat
  | 0, _ => .ok 0
  | n + 1, i => do
    let b ← t.bucket i
    let r ← countLoop t n (i + 1)
    pure (b.Size + r)

/-- dht/routetable.go:205-211 -/
def nodeCount (t : RouteTable) : Res Nat := countLoop t (t.last + 1) 0

/-- Result of an insertion: the table and the returned error text (`none` = nil error). -/
abbrev AddRes := Res (RouteTable × Option Bytes)

/-- dht/routetable.go:154-175; `split` stands for the recursive call on line 159 -/
def addNodeWith (env : Env) (split : RouteTable → NodeInfo → AddRes)
    (t : RouteTable) (node : NodeInfo) (preLen : Nat) : AddRes := do
  let bucket ← t.bucket preLen
  if preLen ≥ t.last && !bucket.Exist env node && bucket.Full then
    split t node
  else if bucket.Full then
    pure (t, some b!"the bucket is full")
  else if !bucket.Exist env node then
    match bucket.Add node with
    | (b', true) => pure ({ (t.setBucket preLen b') with size := t.size + 1 }, none)
    | (_, false) => pure (t, some b!"the bucket is full")
  else
    pure ({ t with size := t.size + 1 }, none)

/-- the loop dht/routetable.go:195-197: errors are ignored -/
def reAdd (env : Env) (split : RouteTable → NodeInfo → AddRes) (t : RouteTable) :
    List NodeInfo → Res RouteTable
  | [] => .ok t
  | n :: r => do
    let (t', _) ← addNodeWith env split t n (t.solveMaxPreLen n.id)
    reAdd env split t' r

/-- dht/routetable.go:178-203. The first argument bounds the depth of nested splits. -/
def addSplit (env : Env) : Nat → RouteTable → NodeInfo → AddRes
  | 0, _, _ => .diverge
  | f + 1, t, node =>
    if t.last ≥ t.capacity then .ok (t, some b!"full route table")
    else do
      let source ← t.bucket t.last
      let t1 : RouteTable := { t with size := t.size - source.Size }
      let t1 := t1.setBucket t1.last (Bucket.new t.k)
      let t1 := { t1 with last := t1.last + 1 }
      let t1 := t1.setBucket t1.last (Bucket.new t.k)
      let t2 ← reAdd env (addSplit env f) t1 source.All
      let (t3, _) ← addNodeWith env (addSplit env f) t2 node (t2.solveMaxPreLen node.id)
      let _ ← t3.nodeCount
      pure (t3, none)

/-- dht/routetable.go:147-152 -/
def AddNode (env : Env) (t : RouteTable) (node : NodeInfo) : AddRes :=
  addNodeWith env (addSplit env (t.capacity + 1)) t node (t.solveMaxPreLen node.id)

/-- dht/routetable.go:112-124 -/
def Find (env : Env) (t : RouteTable) (id : Bytes) : Res (Option NodeInfo) := do
  let bucket ← t.bucket (t.solveMaxPreLen id)
  pure (bucket.All.find? (fun n => equalFold env.fold n.id id))

/-- the loop dht/routetable.go:131-135; `n` is `pLen + 1` -/
def closestLoop (t : RouteTable) (k : Int) : Nat → List NodeInfo → Res (List NodeInfo)
  | 0, nodes => .ok nodes
  | n + 1, nodes =>
    if (nodes.length : Int) ≤ k then do
      let bucket ← t.bucket n
      closestLoop t k n (nodes ++ bucket.All)
    else .ok nodes

/-- dht/routetable.go:126-137. `make` with a negative capacity panics. -/
def FindClosest (t : RouteTable) (id : Bytes) (k : Int) : Res (List NodeInfo) :=
  if k < 0 then .panic .runtime
  else closestLoop t k (t.solveMaxPreLen id + 1) []

/-- dht/routetable.go:213-217 -/
def Size (t : RouteTable) : Int := t.size

/-- dht/routetable.go:219-223 -/
def Full (t : RouteTable) : Res Bool :=
  if t.last ≥ t.capacity then do
    let b ← t.bucket t.last
    pure b.Full
  else pure false
end RouteTable

end P2P

import Verif.Model.RouteTable
import Verif.Model.Console
/-! # Model of dht/routetable.go with its log statements

`Model/RouteTable` leaves the log out; here `NewRouteTable` and `AddNode` are written down once more with the calls of `rtableLogger`
(dht/routetable.go:11, 108, 164, 170, 180, 192, 200). `Props/RouteTableLog` proves that without its log this model is the other one. The log calls are
made while the table's lock is held (lines 148-149), so the records of two insertions are not mixed. -/
namespace P2P

/-- The result of a call and the records it wrote, in order; a call that panics has written its records, too. -/
structure RL (α : Type) where
  res : Res α
  log : List LogRec

namespace RL
def pure {α : Type} (a : α) : RL α := { res := .ok a, log := [] }
def bind {α β : Type} (m : RL α) (f : α → RL β) : RL β :=
  match m.res with
  | .ok a => { res := (f a).res, log := m.log ++ (f a).log }
  | .err e => { res := .err e, log := m.log }
  | .panic p => { res := .panic p, log := m.log }
  | .diverge => { res := .diverge, log := m.log }
instance : Monad RL where
  pure := RL.pure
  bind := RL.bind
/-- code that logs nothing -/
def quiet {α : Type} (r : Res α) : RL α := { res := r, log := [] }
/-- a call of a method of `rtableLogger` (dht/routetable.go:11) -/
def log1 (method : LogMethod) (msg : Bytes) (ctx : List (Bytes × LogVal)) : RL Unit :=
  { res := .ok (), log := [{ pfx := b!"rtable", method, msg, ctx := some ctx }] }
end RL

namespace RouteTable

/-- dht/routetable.go:96-110 -/
def newL (hostNode : NodeInfo) (k capacity : Nat) : RL RouteTable := do
  let rtable := RouteTable.new hostNode k capacity
  RL.log1 .Info b!"init route table" [(b!"k", lint k)]
  pure rtable

/-- dht/routetable.go:154-175; `split` stands for the recursive call on line 159 -/
def addNodeWithL (env : Env) (split : RouteTable → NodeInfo → RL (RouteTable × Option Bytes))
    (t : RouteTable) (node : NodeInfo) (preLen : Nat) : RL (RouteTable × Option Bytes) := do
  let bucket ← RL.quiet (t.bucket preLen)
  if preLen ≥ t.last && !bucket.Exist env node && bucket.Full then
    split t node
  else if bucket.Full then do
    RL.log1 .Info b!"the bucket has full" [(b!"tableSize", lint t.size), (b!"preLen", lint preLen)]
    pure (t, some b!"the bucket is full")
  else if !bucket.Exist env node then
    match bucket.Add node with
    | (b', true) => pure ({ (t.setBucket preLen b') with size := t.size + 1 }, none)
    | (_, false) => do
      RL.log1 .Info b!"the bucket has full" [(b!"tableSize", lint t.size), (b!"preLen", lint preLen)]
      pure (t, some b!"the bucket is full")
  else
    pure ({ t with size := t.size + 1 }, none)

/-- the loop dht/routetable.go:195-197: errors are ignored -/
def reAddL (env : Env) (split : RouteTable → NodeInfo → RL (RouteTable × Option Bytes)) (t : RouteTable) :
    List NodeInfo → RL RouteTable
  | [] => pure t
  | n :: r => do
    let (t', _) ← addNodeWithL env split t n (t.solveMaxPreLen n.id)
    reAddL env split t' r

/-- dht/routetable.go:178-203. The first argument bounds the depth of nested splits. -/
def addSplitL (env : Env) : Nat → RouteTable → NodeInfo → RL (RouteTable × Option Bytes)
  | 0, _, _ => RL.quiet .diverge
  | f + 1, t, node =>
    if t.last ≥ t.capacity then do
      RL.log1 .Error b!"the route table has full" [(b!"size", lint t.size)]
      pure (t, some b!"full route table")
    else do
      let source ← RL.quiet (t.bucket t.last)
      let preSize := t.size
      let t1 : RouteTable := { t with size := t.size - source.Size }
      let t1 := t1.setBucket t1.last (Bucket.new t.k)
      let t1 := { t1 with last := t1.last + 1 }
      let t1 := t1.setBucket t1.last (Bucket.new t.k)
      RL.log1 .Trace b!"the route table has split new bucket" [(b!"lastIndex", lint t1.last), (b!"size", lint t1.size)]
      let t2 ← reAddL env (addSplitL env f) t1 source.All
      let (t3, _) ← addNodeWithL env (addSplitL env f) t2 node (t2.solveMaxPreLen node.id)
      let count ← RL.quiet t3.nodeCount
      if preSize + 1 ≠ count then
        RL.log1 .Error b!"the route table add fail" [(b!"lastIndex", lint t3.last), (b!"size", lint t3.size)]
      pure (t3, none)

/-- dht/routetable.go:147-152 -/
def AddNodeL (env : Env) (t : RouteTable) (node : NodeInfo) : RL (RouteTable × Option Bytes) :=
  addNodeWithL env (addSplitL env (t.capacity + 1)) t node (t.solveMaxPreLen node.id)

end RouteTable

end P2P

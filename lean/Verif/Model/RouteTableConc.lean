import Verif.Model.RouteTable
import Verif.Lts
/-! # `RouteTable` used by several goroutines (dht/routetable.go:86-223), access by access

A method is a program whose atomic steps are single reads and writes of the table's fields and of its buckets. A bucket method
is one step: it runs under the bucket's own lock (C25). A bucket is named by its key in `nodeMap`; the source bucket of a split,
which is removed from the map first, is read before (lines 184-185 instead of 194). Goroutines run these programs between
`RLock`/`Lock` and the deferred unlock. Go's `RWMutex` additionally blocks new readers while a writer waits: the model allows
more schedules. The logger calls are left out. -/
namespace P2P

/-- A program over the table: `ret` is a normal end, `panic` one by a panic; `diverge` stands for exhausted nesting of splits
(`addSplitP`; proved not to happen). -/
inductive TProg (α : Type) where
  | ret (a : α)
  | panic (p : Panic)
  | diverge
  /-- the fields `hnode`, `k`, `capacity` (never written) -/
  | getConst (f : NodeInfo → Nat → Nat → TProg α)
  | getLast (f : Nat → TProg α)
  | getSize (f : Int → TProg α)
  | getBucket (i : Nat) (f : Option Bucket → TProg α)
  | setLast (n : Nat) (r : TProg α)
  | setSize (z : Int) (r : TProg α)
  | setBucket (i : Nat) (b : Bucket) (r : TProg α)

namespace TProg

/-- sequencing -/
def bind {α β : Type} : TProg α → (α → TProg β) → TProg β
  | .ret a, g => g a
  | .panic p, _ => .panic p
  | .diverge, _ => .diverge
  | .getConst f, g => .getConst fun h k c => (f h k c).bind g
  | .getLast f, g => .getLast fun n => (f n).bind g
  | .getSize f, g => .getSize fun n => (f n).bind g
  | .getBucket i f, g => .getBucket i fun b => (f b).bind g
  | .setLast n r, g => .setLast n (r.bind g)
  | .setSize z r, g => .setSize z (r.bind g)
  | .setBucket i b r, g => .setBucket i b (r.bind g)

instance : Monad TProg where
  pure := .ret
  bind := bind

/-- the next access; `none` at the end -/
def step {α : Type} : TProg α → RouteTable → Option (TProg α × RouteTable)
  | .ret _, _ => none
  | .panic _, _ => none
  | .diverge, _ => none
  | .getConst f, t => some (f t.hnode t.k t.capacity, t)
  | .getLast f, t => some (f t.last, t)
  | .getSize f, t => some (f t.size, t)
  | .getBucket i f, t => some (f (t.nodeMap i), t)
  | .setLast n r, t => some (r, { t with last := n })
  | .setSize z r, t => some (r, { t with size := z })
  | .setBucket i b r, t => some (r, t.setBucket i b)

/-- how a program ended -/
def outcome {α : Type} : TProg α → Option (Res α)
  | .ret a => some (.ok a)
  | .panic p => some (.panic p)
  | .diverge => some .diverge
  | _ => none

end TProg

open TProg

/-- `t.nodeMap[i]` followed by a method call -/
def bucketP (i : Nat) : TProg Bucket :=
  .getBucket i fun b => match b with
    | some b => .ret b
    | none => .panic .runtime

/-- dht/routetable.go:139-145 -/
def solveMaxPreLenP (id : Bytes) : TProg Nat :=
  .getConst fun hnode _ _ =>
    let pLen := solvePrefixLen id hnode.id
    .getLast fun last => if pLen ≤ last then .ret pLen else .getLast .ret

/-- `t.size++` -/
def incSizeP : TProg Unit := .getSize fun z => .setSize (z + 1) (.ret ())

/-- dht/routetable.go:154-175; `split` stands for the recursive call on line 159. Every bucket method is an access of its own. -/
def addNodeP (env : Env) (split : NodeInfo → TProg (Option Bytes)) (node : NodeInfo) (preLen : Nat) : TProg (Option Bytes) := do
  let last ← TProg.getLast .ret
  let hit ← (if preLen ≥ last then do
      let b ← bucketP preLen
      if !b.Exist env node then do
        let b ← bucketP preLen
        pure b.Full
      else pure false
    else pure false)
  if hit then split node
  else do
    let b ← bucketP preLen
    if b.Full then pure (some b!"the bucket is full")
    else do
      let b ← bucketP preLen
      if !b.Exist env node then do
        let b ← bucketP preLen
        match b.Add node with
        | (b', true) => do
          TProg.setBucket preLen b' (.ret ())
          incSizeP
          pure none
        | (_, false) => pure (some b!"the bucket is full")
      else do
        incSizeP
        pure none

/-- the loop dht/routetable.go:195-197 -/
def reAddP (env : Env) (split : NodeInfo → TProg (Option Bytes)) : List NodeInfo → TProg Unit
  | [] => pure ()
  | n :: r => do
    let i ← solveMaxPreLenP n.id
    let _ ← addNodeP env split n i
    reAddP env split r

/-- dht/routetable.go:207-209, `n` rounds left -/
def countLoopP : Nat → Nat → TProg Nat
  | 0, _ => pure 0
  | n + 1, i => do
    let b ← bucketP i
    let r ← countLoopP n (i + 1)
    pure (b.Size + r)

/-- dht/routetable.go:178-203 -/
def addSplitP (env : Env) : Nat → NodeInfo → TProg (Option Bytes)
  | 0, _ => .diverge
  | f + 1, node =>
    .getLast fun last => .getConst fun _ k capacity =>
      if last ≥ capacity then .ret (some b!"full route table")
      else do
        let l ← TProg.getLast .ret
        let source ← bucketP l
        let _preSize ← TProg.getSize .ret
        let z ← TProg.getSize .ret
        TProg.setSize (z - source.Size) (.ret ())
        let l ← TProg.getLast .ret
        TProg.setBucket l (Bucket.new k) (.ret ())
        let l ← TProg.getLast .ret
        TProg.setLast (l + 1) (.ret ())
        let l ← TProg.getLast .ret
        TProg.setBucket l (Bucket.new k) (.ret ())
        reAddP env (addSplitP env f) source.All
        let i ← solveMaxPreLenP node.id
        let _ ← addNodeP env (addSplitP env f) node i
        let l ← TProg.getLast .ret
        let _ ← countLoopP (l + 1) 0
        pure none

/-- the loop dht/routetable.go:131-135; `n` is `pLen + 1` -/
def closestLoopP (k : Int) : Nat → List NodeInfo → TProg (List NodeInfo)
  | 0, nodes => pure nodes
  | n + 1, nodes =>
    if (nodes.length : Int) ≤ k then do
      let b ← bucketP n
      closestLoopP k n (nodes ++ b.All)
    else pure nodes

/-- a call of a public method -/
inductive RtOp where
  | add (n : NodeInfo)
  | find (id : Bytes)
  | closest (id : Bytes) (k : Int)
  | size
  | full
deriving DecidableEq

/-- its result -/
inductive RtVal where
  | err (e : Option Bytes)
  | node (n : Option NodeInfo)
  | nodes (l : List NodeInfo)
  | num (z : Int)
  | bool (b : Bool)
deriving DecidableEq

/-- which lock the method takes: dht/routetable.go:149 (write lock), 114, 128, 215, 221 (read lock) -/
def RtOp.writes : RtOp → Bool
  | .add _ => true
  | _ => false

/-- the bodies of the methods, between the lock and the unlock -/
def RtOp.prog (env : Env) : RtOp → TProg RtVal
  /- dht/routetable.go:150-151 -/
  | .add n => .getConst fun _ _ capacity => do
    let i ← solveMaxPreLenP n.id
    let e ← addNodeP env (addSplitP env (capacity + 1)) n i
    pure (.err e)
  /- dht/routetable.go:115-123 -/
  | .find id => do
    let i ← solveMaxPreLenP id
    let b ← bucketP i
    pure (.node (b.All.find? (fun n => equalFold env.fold n.id id)))
  /- dht/routetable.go:129-136 -/
  | .closest id k => do
    let i ← solveMaxPreLenP id
    if k < 0 then .panic .runtime
    else do
      let l ← closestLoopP k (i + 1) []
      pure (.nodes l)
  /- dht/routetable.go:216 -/
  | .size => .getSize fun z => .ret (.num z)
  /- dht/routetable.go:222 -/
  | .full => .getLast fun last => .getConst fun _ _ capacity =>
    if last ≥ capacity then .getLast fun l => do
      let b ← bucketP l
      pure (.bool b.Full)
    else .ret (.bool false)

/-- Where a goroutine is. `start` is a ghost: the number of completed write sections when the call began. -/
inductive RtPc where
  | idle
  /-- before `RLock`/`Lock` -/
  | wait (op : RtOp) (start : Nat)
  /-- lock held, this much of the body left -/
  | inside (op : RtOp) (start : Nat) (p : TProg RtVal)
  /-- lock released, about to return; `at` is a ghost: the number of write sections before its section -/
  | leave (op : RtOp) (start at' : Nat) (r : Res RtVal)

/-- a completed call; `start`, `stop`: completed write sections when it began and when it returned, `at'`: those before its own -/
structure RtDone where
  op : RtOp
  res : Res RtVal
  start : Nat
  at' : Nat
  stop : Nat
deriving DecidableEq

structure RtSt where
  table : RouteTable
  readers : Nat → Bool
  writer : Option Nat
  pc : Nat → RtPc
  /-- ghost: the arguments of the completed write sections, in order -/
  log : List NodeInfo
  /-- ghost: completed calls -/
  done : List RtDone

/-- dht/routetable.go:96-110 -/
def RtInit (hostNode : NodeInfo) (k capacity : Nat) (s : RtSt) : Prop :=
  s.table = RouteTable.new hostNode k capacity ∧ (∀ g, s.readers g = false) ∧ s.writer = none ∧ (∀ g, s.pc g = .idle) ∧
  s.log = [] ∧ s.done = []

/-- the entry of the write log -/
def RtOp.logged : RtOp → List NodeInfo
  | .add n => [n]
  | _ => []

/-- One step of goroutine `g`. -/
inductive RtStep' (g : Nat) : Env → RtSt → RtSt → Prop where
  | call {env s} (op : RtOp) : s.pc g = .idle → RtStep' g env s { s with pc := upd s.pc g (.wait op s.log.length) }
  /-- lines 114, 128, 215, 221 -/
  | rlock {env s} (op : RtOp) (st : Nat) : s.pc g = .wait op st → op.writes = false → s.writer = none →
      RtStep' g env s { s with readers := upd s.readers g true, pc := upd s.pc g (.inside op st (op.prog env)) }
  /-- line 149 -/
  | lock {env s} (op : RtOp) (st : Nat) : s.pc g = .wait op st → op.writes = true → s.writer = none → (∀ h, s.readers h = false) →
      RtStep' g env s { s with writer := some g, pc := upd s.pc g (.inside op st (op.prog env)) }
  /-- one access -/
  | access {env s} (op : RtOp) (st : Nat) (p p' : TProg RtVal) (t' : RouteTable) : s.pc g = .inside op st p →
      p.step s.table = some (p', t') →
      RtStep' g env s { s with table := t', pc := upd s.pc g (.inside op st p') }
  /-- deferred `RUnlock` (lines 113, 127, 214, 220), after a panic too -/
  | runlock {env s} (op : RtOp) (st : Nat) (p : TProg RtVal) (r : Res RtVal) : s.pc g = .inside op st p → p.outcome = some r →
      op.writes = false →
      RtStep' g env s { s with readers := upd s.readers g false, pc := upd s.pc g (.leave op st s.log.length r) }
  /-- deferred `Unlock` (line 148), after a panic too -/
  | unlock {env s} (op : RtOp) (st : Nat) (p : TProg RtVal) (r : Res RtVal) : s.pc g = .inside op st p → p.outcome = some r →
      op.writes = true →
      RtStep' g env s { s with writer := none, log := s.log ++ op.logged, pc := upd s.pc g (.leave op st s.log.length r) }
  | ret {env s} (op : RtOp) (st at' : Nat) (r : Res RtVal) : s.pc g = .leave op st at' r →
      RtStep' g env s { s with
        pc := upd s.pc g .idle, done := s.done ++ [{ op, res := r, start := st, at', stop := s.log.length }] }

/-- a step of some goroutine -/
def RtStep (env : Env) (s t : RtSt) : Prop := ∃ g, RtStep' g env s t

end P2P

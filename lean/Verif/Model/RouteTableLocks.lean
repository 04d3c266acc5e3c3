import Verif.Model.RouteTableConc
/-! # `RouteTable` with its buckets' own locks (dht/routetable.go), access by access

`Model/RouteTableConc` counts a bucket method as one step. Here the table holds pointers to buckets, and a bucket method is the
sequence of its lock operations and accesses: `RLock`, read, `RUnlock`, and for `Add` also `Lock`, read, write, `Unlock`. The
logger calls are left out. The slice that `All` returns is taken as the list it denotes: its slots are not written afterwards
(C25). -/
namespace P2P

/-- The memory of a table: dht/routetable.go:86-94 with `nodeMap` holding pointers, and the buckets (lines 13-18) they point to.
`next` is the first address not yet allocated. -/
structure TMem where
  hnode : NodeInfo
  k : Nat
  capacity : Nat
  size : Int
  last : Nat
  nodeMap : Nat → Option Nat
  heap : Nat → Bucket
  next : Nat

/-- dht/routetable.go:96-110 -/
def TMem.new (hostNode : NodeInfo) (k capacity : Nat) : TMem :=
  { hnode := hostNode, k := k, size := 1, capacity := capacity, last := 0, next := 1
    nodeMap := fun i => if i = 0 then some 0 else none
    heap := fun _ => ((Bucket.new k).Add hostNode).1 }

/-- A program over this memory. -/
inductive LProg (α : Type) where
  | ret (a : α)
  | panic (p : Panic)
  | diverge
  /-- the fields `hnode`, `k`, `capacity` (never written) -/
  | getConst (f : NodeInfo → Nat → Nat → LProg α)
  | getLast (f : Nat → LProg α)
  | getSize (f : Int → LProg α)
  /-- `t.nodeMap[i]` -/
  | getMap (i : Nat) (f : Option Nat → LProg α)
  | setLast (n : Nat) (r : LProg α)
  | setSize (z : Int) (r : LProg α)
  /-- `t.nodeMap[i] = a` -/
  | setMap (i : Nat) (a : Nat) (r : LProg α)
  /-- `NewBucket(k)` -/
  | alloc (k : Nat) (f : Nat → LProg α)
  /-- `RLock` (`w = false`) or `Lock` of the bucket at `a` -/
  | lock (a : Nat) (w : Bool) (r : LProg α)
  /-- `RUnlock` or `Unlock` -/
  | unlock (a : Nat) (w : Bool) (r : LProg α)
  /-- the fields of the bucket at `a` are read -/
  | readB (a : Nat) (f : Bucket → LProg α)
  /-- they are written -/
  | writeB (a : Nat) (b : Bucket) (r : LProg α)

namespace LProg

/-- sequencing -/
def bind {α β : Type} : LProg α → (α → LProg β) → LProg β
  | .ret a, g => g a
  | .panic p, _ => .panic p
  | .diverge, _ => .diverge
  | .getConst f, g => .getConst fun h k c => (f h k c).bind g
  | .getLast f, g => .getLast fun n => (f n).bind g
  | .getSize f, g => .getSize fun n => (f n).bind g
  | .getMap i f, g => .getMap i fun b => (f b).bind g
  | .setLast n r, g => .setLast n (r.bind g)
  | .setSize z r, g => .setSize z (r.bind g)
  | .setMap i a r, g => .setMap i a (r.bind g)
  | .alloc k f, g => .alloc k fun a => (f a).bind g
  | .lock a w r, g => .lock a w (r.bind g)
  | .unlock a w r, g => .unlock a w (r.bind g)
  | .readB a f, g => .readB a fun b => (f b).bind g
  | .writeB a b r, g => .writeB a b (r.bind g)

instance : Monad LProg where
  pure := .ret
  bind := bind

/-- how a program ended -/
def outcome {α : Type} : LProg α → Option (Res α)
  | .ret a => some (.ok a)
  | .panic p => some (.panic p)
  | .diverge => some .diverge
  | _ => none

end LProg

/-! ## the methods of `Bucket` -/

/-- dht/routetable.go:67-71 -/
def sizeMem (a : Nat) : LProg Nat := .lock a false (.readB a fun b => .unlock a false (.ret b.Size))
/-- dht/routetable.go:73-77 -/
def fullMem (a : Nat) : LProg Bool := .lock a false (.readB a fun b => .unlock a false (.ret b.Full))
/-- dht/routetable.go:28-37 -/
def existMem (env : Env) (a : Nat) (node : NodeInfo) : LProg Bool :=
  .lock a false (.readB a fun b => .unlock a false (.ret (b.Exist env node)))
/-- dht/routetable.go:61-65 -/
def allMem (a : Nat) : LProg (List NodeInfo) := .lock a false (.readB a fun b => .unlock a false (.ret b.All))
/-- dht/routetable.go:47-59 -/
def addMem (a : Nat) (node : NodeInfo) : LProg Bool := do
  if ← fullMem a then pure false
  else .lock a true (.readB a fun b =>
    if b.Full then .unlock a true (.ret false)
    else .writeB a { b with nodes := b.nodes ++ [node] } (.unlock a true (.ret true)))

/-! ## the methods of `RouteTable` -/

/-- `t.nodeMap[i]`; a method call on a missing bucket is a nil dereference -/
def bucketMem (i : Nat) : LProg Nat :=
  .getMap i fun a => match a with
    | some a => .ret a
    | none => .panic .runtime

/-- dht/routetable.go:139-145 -/
def solveMaxPreLenMem (id : Bytes) : LProg Nat :=
  .getConst fun hnode _ _ =>
    let pLen := solvePrefixLen id hnode.id
    .getLast fun last => if pLen ≤ last then .ret pLen else .getLast .ret

/-- `t.size++` -/
def incSizeMem : LProg Unit := .getSize fun z => .setSize (z + 1) (.ret ())

/-- dht/routetable.go:154-175; `split` stands for the recursive call on line 159 -/
def addNodeMem (env : Env) (split : NodeInfo → LProg (Option Bytes)) (node : NodeInfo) (preLen : Nat) : LProg (Option Bytes) := do
  let bucket ← bucketMem preLen
  let last ← LProg.getLast .ret
  let hit ← (if preLen ≥ last then do
      if !(← existMem env bucket node) then fullMem bucket
      else pure false
    else pure false)
  if hit then split node
  else if ← fullMem bucket then pure (some b!"the bucket is full")
  else if !(← existMem env bucket node) then do
    if !(← addMem bucket node) then pure (some b!"the bucket is full")
    else do
      incSizeMem
      pure none
  else do
    incSizeMem
    pure none

/-- the loop dht/routetable.go:195-197 -/
def reAddMem (env : Env) (split : NodeInfo → LProg (Option Bytes)) : List NodeInfo → LProg Unit
  | [] => pure ()
  | n :: r => do
    let i ← solveMaxPreLenMem n.id
    let _ ← addNodeMem env split n i
    reAddMem env split r

/-- dht/routetable.go:207-209, `n` rounds left -/
def countLoopMem : Nat → Nat → LProg Nat
  | 0, _ => pure 0
  | n + 1, i => do
    let b ← bucketMem i
    let z ← sizeMem b
    let r ← countLoopMem n (i + 1)
    pure (z + r)

/-- dht/routetable.go:178-203 -/
def addSplitMem (env : Env) : Nat → NodeInfo → LProg (Option Bytes)
  | 0, _ => .diverge
  | f + 1, node =>
    .getLast fun last => .getConst fun _ k capacity =>
      if last ≥ capacity then .ret (some b!"full route table")
      else do
        let l ← LProg.getLast .ret
        let source ← bucketMem l
        let _preSize ← LProg.getSize .ret
        let z ← LProg.getSize .ret
        let n ← sizeMem source
        LProg.setSize (z - n) (.ret ())
        let newLeft ← LProg.alloc k .ret
        let newRight ← LProg.alloc k .ret
        let l ← LProg.getLast .ret
        LProg.setMap l newRight (.ret ())
        let l ← LProg.getLast .ret
        LProg.setLast (l + 1) (.ret ())
        let l ← LProg.getLast .ret
        LProg.setMap l newLeft (.ret ())
        let snodes ← allMem source
        reAddMem env (addSplitMem env f) snodes
        let i ← solveMaxPreLenMem node.id
        let _ ← addNodeMem env (addSplitMem env f) node i
        let l ← LProg.getLast .ret
        let _ ← countLoopMem (l + 1) 0
        pure none

/-- the loop dht/routetable.go:131-135; `n` is `pLen + 1` -/
def closestLoopMem (k : Int) : Nat → List NodeInfo → LProg (List NodeInfo)
  | 0, nodes => pure nodes
  | n + 1, nodes =>
    if (nodes.length : Int) ≤ k then do
      let b ← bucketMem n
      let l ← allMem b
      closestLoopMem k n (nodes ++ l)
    else pure nodes

/-- the bodies of the public methods, between the table's lock and its unlock -/
def RtOp.progMem (env : Env) : RtOp → LProg RtVal
  /- dht/routetable.go:150-151 -/
  | .add n => .getConst fun _ _ capacity => do
    let i ← solveMaxPreLenMem n.id
    let e ← addNodeMem env (addSplitMem env (capacity + 1)) n i
    pure (.err e)
  /- dht/routetable.go:115-123 -/
  | .find id => do
    let i ← solveMaxPreLenMem id
    let b ← bucketMem i
    let nodes ← allMem b
    pure (.node (nodes.find? (fun n => equalFold env.fold n.id id)))
  /- dht/routetable.go:129-136 -/
  | .closest id k => do
    let i ← solveMaxPreLenMem id
    if k < 0 then .panic .runtime
    else do
      let l ← closestLoopMem k (i + 1) []
      pure (.nodes l)
  /- dht/routetable.go:216 -/
  | .size => .getSize fun z => .ret (.num z)
  /- dht/routetable.go:222 -/
  | .full => .getLast fun last => .getConst fun _ _ capacity =>
    if last ≥ capacity then .getLast fun l => do
      let b ← bucketMem l
      let f ← fullMem b
      pure (.bool f)
    else .ret (.bool false)

/-! ## goroutines -/

/-- a bucket's `sync.RWMutex`: how many read locks each goroutine holds, and who holds the write lock -/
structure RwLock where
  readers : Nat → Nat
  writer : Option Nat

/-- One step of goroutine `g` inside a body: a lock operation on a bucket waits until the lock is free, everything else is always
possible. (`Unlock` of a mutex that is not held is a fatal error in Go; here such a step is missing and the goroutine would be
stuck. C99_inside_moves excludes it.) -/
inductive LStep {α : Type} (g : Nat) : LProg α → TMem → (Nat → RwLock) → LProg α → TMem → (Nat → RwLock) → Prop where
  | getConst {f m L} : LStep g (.getConst f) m L (f m.hnode m.k m.capacity) m L
  | getLast {f m L} : LStep g (.getLast f) m L (f m.last) m L
  | getSize {f m L} : LStep g (.getSize f) m L (f m.size) m L
  | getMap {i f m L} : LStep g (.getMap i f) m L (f (m.nodeMap i)) m L
  | setLast {n r m L} : LStep g (.setLast n r) m L r { m with last := n } L
  | setSize {z r m L} : LStep g (.setSize z r) m L r { m with size := z } L
  | setMap {i a r m L} : LStep g (.setMap i a r) m L r { m with nodeMap := upd m.nodeMap i (some a) } L
  | alloc {k f m L} : LStep g (.alloc k f) m L (f m.next) { m with heap := upd m.heap m.next (Bucket.new k), next := m.next + 1 } L
  | rlock {a r m L} : (L a).writer = none →
      LStep g (.lock a false r) m L r m (upd L a { L a with readers := upd (L a).readers g ((L a).readers g + 1) })
  | lock {a r m L} : (L a).writer = none → (∀ u, (L a).readers u = 0) →
      LStep g (.lock a true r) m L r m (upd L a { L a with writer := some g })
  | runlock {a r m L} : 0 < (L a).readers g →
      LStep g (.unlock a false r) m L r m (upd L a { L a with readers := upd (L a).readers g ((L a).readers g - 1) })
  | unlock {a r m L} : (L a).writer = some g → LStep g (.unlock a true r) m L r m (upd L a { L a with writer := none })
  | readB {a f m L} : LStep g (.readB a f) m L (f (m.heap a)) m L
  | writeB {a b r m L} : LStep g (.writeB a b r) m L r { m with heap := upd m.heap a b } L

/-- Where a goroutine is, as `RtPc`. -/
inductive NtPc where
  | idle
  | wait (op : RtOp) (start : Nat)
  | inside (op : RtOp) (start : Nat) (p : LProg RtVal)
  | leave (op : RtOp) (start at' : Nat) (r : Res RtVal)

structure NtSt where
  mem : TMem
  /-- the buckets' locks -/
  locks : Nat → RwLock
  /-- the table's lock -/
  readers : Nat → Bool
  writer : Option Nat
  pc : Nat → NtPc
  /-- ghost: the arguments of the completed write sections, in order -/
  log : List NodeInfo
  /-- ghost: completed calls -/
  done : List RtDone

/-- dht/routetable.go:96-110 -/
def NtInit (hostNode : NodeInfo) (k capacity : Nat) (s : NtSt) : Prop :=
  s.mem = TMem.new hostNode k capacity ∧ (∀ a, s.locks a = { readers := fun _ => 0, writer := none }) ∧
  (∀ g, s.readers g = false) ∧ s.writer = none ∧ (∀ g, s.pc g = .idle) ∧ s.log = [] ∧ s.done = []

/-- One step of goroutine `g`. -/
inductive NtStep' (g : Nat) : Env → NtSt → NtSt → Prop where
  | call {env s} (op : RtOp) : s.pc g = .idle → NtStep' g env s { s with pc := upd s.pc g (.wait op s.log.length) }
  /-- lines 114, 128, 215, 221 -/
  | rlock {env s} (op : RtOp) (st : Nat) : s.pc g = .wait op st → op.writes = false → s.writer = none →
      NtStep' g env s { s with readers := upd s.readers g true, pc := upd s.pc g (.inside op st (op.progMem env)) }
  /-- line 149 -/
  | lock {env s} (op : RtOp) (st : Nat) : s.pc g = .wait op st → op.writes = true → s.writer = none → (∀ h, s.readers h = false) →
      NtStep' g env s { s with writer := some g, pc := upd s.pc g (.inside op st (op.progMem env)) }
  /-- one step of the body -/
  | body {env s} (op : RtOp) (st : Nat) (p p' : LProg RtVal) (m' : TMem) (L' : Nat → RwLock) : s.pc g = .inside op st p →
      LStep g p s.mem s.locks p' m' L' →
      NtStep' g env s { s with mem := m', locks := L', pc := upd s.pc g (.inside op st p') }
  /-- deferred `RUnlock` (lines 113, 127, 214, 220), after a panic too -/
  | runlock {env s} (op : RtOp) (st : Nat) (p : LProg RtVal) (r : Res RtVal) : s.pc g = .inside op st p → p.outcome = some r →
      op.writes = false →
      NtStep' g env s { s with readers := upd s.readers g false, pc := upd s.pc g (.leave op st s.log.length r) }
  /-- deferred `Unlock` (line 148), after a panic too -/
  | unlock {env s} (op : RtOp) (st : Nat) (p : LProg RtVal) (r : Res RtVal) : s.pc g = .inside op st p → p.outcome = some r →
      op.writes = true →
      NtStep' g env s { s with writer := none, log := s.log ++ op.logged, pc := upd s.pc g (.leave op st s.log.length r) }
  | ret {env s} (op : RtOp) (st at' : Nat) (r : Res RtVal) : s.pc g = .leave op st at' r →
      NtStep' g env s { s with
        pc := upd s.pc g .idle, done := s.done ++ [{ op, res := r, start := st, at', stop := s.log.length }] }

/-- a step of some goroutine -/
def NtStep (env : Env) (s t : NtSt) : Prop := ∃ g, NtStep' g env s t

end P2P

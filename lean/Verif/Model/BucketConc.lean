import Verif.Model.RouteTable
import Verif.Lts
/-! # `Bucket` used by several goroutines (dht/routetable.go:13-84), at the granularity of its lock

Every atomic step is one lock operation, one test of `full`, one array store or one increment. The reads
done under the read lock (`Exist`, `All`, `Size`, `full`) are one step each; that nobody writes while a
read lock is held is part of what is proved. Go's `RWMutex` additionally blocks new readers while a writer
waits: the model allows more schedules. -/
namespace P2P

/-- the read-only methods -/
inductive BkOp where
  /-- dht/routetable.go:28-37 -/
  | exist (n : NodeInfo)
  /-- dht/routetable.go:61-65 -/
  | all
  /-- dht/routetable.go:67-71 -/
  | size
  /-- dht/routetable.go:73-77 -/
  | full
deriving DecidableEq

/-- results: a bool, a number, a slice of the shared array (its length; `snap` is a ghost copy of the
contents at that moment), or a nil dereference -/
inductive BkRes where
  | bool (b : Bool)
  | num (n : Nat)
  | slice (len : Nat) (snap : List (Option NodeInfo))
  | nilDeref
deriving DecidableEq

/-- Where a goroutine is; `c` is the ghost number of the call. -/
inductive BkPc where
  | idle
  /-- `Add`, before `RLock` in `Full` (lines 48, 75) -/
  | addR0 (c : Nat) (n : NodeInfo)
  /-- `Add`, read lock held, before `full()` (line 76) -/
  | addR1 (c : Nat) (n : NodeInfo)
  /-- `Add`, read lock held, result of `full()` known, before `RUnlock` -/
  | addR2 (c : Nat) (n : NodeInfo) (full : Bool)
  /-- `Add`, before `Lock` (line 52) -/
  | addW0 (c : Nat) (n : NodeInfo)
  /-- `Add`, lock held, before `full()` (line 53) -/
  | addW1 (c : Nat) (n : NodeInfo)
  /-- `Add`, lock held, before the store (line 56) -/
  | addW2 (c : Nat) (n : NodeInfo)
  /-- `Add`, lock held, before `b.size++` (line 57) -/
  | addW3 (c : Nat) (n : NodeInfo)
  /-- `Add`, lock held, result known, before `Unlock` -/
  | addW4 (c : Nat) (n : NodeInfo) (r : Bool)
  /-- `Add`, no lock held, about to return -/
  | addRet (c : Nat) (n : NodeInfo) (r : Bool)
  /-- reader, before `RLock` -/
  | q0 (op : BkOp)
  /-- reader, read lock held -/
  | q1 (op : BkOp)
  /-- reader, result known, before `RUnlock` -/
  | q2 (op : BkOp) (r : BkRes)
  /-- reader, about to return -/
  | q3 (op : BkOp) (r : BkRes)
deriving DecidableEq

/-- Shared state. Ghosts: `calls` (number of `Add` calls so far), `log` (stores in the order of their
lock sections), `adds` (completed `Add` calls with their results), `reads` (completed reads). -/
structure BkSt where
  cap : Nat
  slots : List (Option NodeInfo)
  size : Nat
  readers : Nat → Bool
  writer : Option Nat
  pc : Nat → BkPc
  calls : Nat
  log : List (Nat × NodeInfo)
  adds : List (Nat × NodeInfo × Bool)
  reads : List (BkOp × BkRes)

/-- `NewBucket(capacity)` (dht/routetable.go:20-26) -/
def BkSt.init (capacity : Nat) (s : BkSt) : Prop :=
  s.cap = capacity ∧ s.slots = List.replicate capacity none ∧ s.size = 0 ∧ (∀ t, s.readers t = false) ∧
  s.writer = none ∧ (∀ t, s.pc t = .idle) ∧ s.calls = 0 ∧ s.log = [] ∧ s.adds = [] ∧ s.reads = []

/-- the loop dht/routetable.go:31-36 over the used slots -/
def existScan (env : Env) (node : NodeInfo) : List (Option NodeInfo) → BkRes
  | [] => .bool false
  | none :: _ => .nilDeref
  | some m :: r => if m.Equals env node then .bool true else existScan env node r

/-- what a reader computes under the read lock -/
def BkSt.eval (env : Env) (s : BkSt) : BkOp → BkRes
  | .exist n => existScan env n (s.slots.take s.size)
  | .all => .slice s.size (s.slots.take s.size)
  | .size => .num s.size
  | .full => .bool (s.size ≥ s.cap)

/-- One atomic step of goroutine `t`. -/
inductive BkStep (env : Env) : BkSt → BkSt → Prop where
  | addCall (s : BkSt) (t : Nat) (n : NodeInfo) : s.pc t = .idle →
      BkStep env s { s with calls := s.calls + 1, pc := upd s.pc t (.addR0 s.calls n) }
  | addRLock (s : BkSt) (t c : Nat) (n : NodeInfo) : s.pc t = .addR0 c n → s.writer = none →
      BkStep env s { s with readers := upd s.readers t true, pc := upd s.pc t (.addR1 c n) }
  | addTest (s : BkSt) (t c : Nat) (n : NodeInfo) : s.pc t = .addR1 c n →
      BkStep env s { s with pc := upd s.pc t (.addR2 c n (s.size ≥ s.cap)) }
  | addRUnlockFull (s : BkSt) (t c : Nat) (n : NodeInfo) : s.pc t = .addR2 c n true →
      BkStep env s { s with readers := upd s.readers t false, pc := upd s.pc t (.addRet c n false) }
  | addRUnlock (s : BkSt) (t c : Nat) (n : NodeInfo) : s.pc t = .addR2 c n false →
      BkStep env s { s with readers := upd s.readers t false, pc := upd s.pc t (.addW0 c n) }
  | addLock (s : BkSt) (t c : Nat) (n : NodeInfo) : s.pc t = .addW0 c n → s.writer = none →
      (∀ u, s.readers u = false) →
      BkStep env s { s with writer := some t, pc := upd s.pc t (.addW1 c n) }
  | addFull (s : BkSt) (t c : Nat) (n : NodeInfo) : s.pc t = .addW1 c n → s.size ≥ s.cap →
      BkStep env s { s with pc := upd s.pc t (.addW4 c n false) }
  | addRoom (s : BkSt) (t c : Nat) (n : NodeInfo) : s.pc t = .addW1 c n → ¬ s.size ≥ s.cap →
      BkStep env s { s with pc := upd s.pc t (.addW2 c n) }
  | addStore (s : BkSt) (t c : Nat) (n : NodeInfo) : s.pc t = .addW2 c n →
      BkStep env s { s with slots := s.slots.set s.size (some n), pc := upd s.pc t (.addW3 c n) }
  | addInc (s : BkSt) (t c : Nat) (n : NodeInfo) : s.pc t = .addW3 c n →
      BkStep env s { s with size := s.size + 1, log := s.log ++ [(c, n)], pc := upd s.pc t (.addW4 c n true) }
  | addUnlock (s : BkSt) (t c : Nat) (n : NodeInfo) (r : Bool) : s.pc t = .addW4 c n r →
      BkStep env s { s with writer := none, pc := upd s.pc t (.addRet c n r) }
  | addReturn (s : BkSt) (t c : Nat) (n : NodeInfo) (r : Bool) : s.pc t = .addRet c n r →
      BkStep env s { s with adds := s.adds ++ [(c, n, r)], pc := upd s.pc t .idle }
  | rdCall (s : BkSt) (t : Nat) (op : BkOp) : s.pc t = .idle →
      BkStep env s { s with pc := upd s.pc t (.q0 op) }
  | rdLock (s : BkSt) (t : Nat) (op : BkOp) : s.pc t = .q0 op → s.writer = none →
      BkStep env s { s with readers := upd s.readers t true, pc := upd s.pc t (.q1 op) }
  | rdEval (s : BkSt) (t : Nat) (op : BkOp) : s.pc t = .q1 op →
      BkStep env s { s with pc := upd s.pc t (.q2 op (s.eval env op)) }
  | rdUnlock (s : BkSt) (t : Nat) (op : BkOp) (r : BkRes) : s.pc t = .q2 op r →
      BkStep env s { s with readers := upd s.readers t false, pc := upd s.pc t (.q3 op r) }
  | rdReturn (s : BkSt) (t : Nat) (op : BkOp) (r : BkRes) : s.pc t = .q3 op r →
      BkStep env s { s with reads := s.reads ++ [(op, r)], pc := upd s.pc t .idle }

end P2P

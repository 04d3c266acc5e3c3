import Verif.Model.Logger
import Verif.Lts
/-! # The logger registry used by several goroutines (misc/logger.go:46-85)

`mapLogger` looks into the Go map without the lock first (line 61), then again with it. As in `Model/SyncMap`, an access to the map takes
two steps, and the model takes no step once a write overlaps another access (the runtime aborts the process, or the result is
undefined). Loggers are numbered in the order of their creation. -/
namespace P2P

/-- Where a goroutine is. -/
inductive LgPc where
  | idle
  /-- before the unlocked look-up, misc/logger.go:61 -/
  | peek (name : Bytes)
  /-- inside it -/
  | peeking (name : Bytes)
  /-- before `b.Lock()`, misc/logger.go:64 -/
  | lock (name : Bytes)
  /-- before the second look-up, misc/logger.go:66 -/
  | inside (name : Bytes)
  /-- inside it -/
  | looking (name : Bytes)
  /-- before `NewLogger`, misc/logger.go:69 -/
  | make (name : Bytes)
  /-- before the assignment, misc/logger.go:70 -/
  | store (name : Bytes) (i : Nat)
  /-- inside it -/
  | storing (name : Bytes) (i : Nat)
  /-- before the deferred `b.Unlock()`, misc/logger.go:65 -/
  | unlock (name : Bytes) (i : Nat)
  /-- `setLevel`, before `b.Lock()`, misc/logger.go:82 -/
  | slLock (l : LogLevel)
  /-- `setLevel`, before the assignment, misc/logger.go:84 -/
  | slInside (l : LogLevel)
  /-- `setLevel`, before the deferred `b.Unlock()`, misc/logger.go:83 -/
  | slUnlock
deriving DecidableEq

structure LgSt where
  /-- the Go map -/
  reg : Bytes → Option Nat
  level : LogLevel
  mutex : Option Nat
  pcs : Nat → LgPc
  /-- ghost: the loggers created so far, with their names -/
  created : List (Bytes × ConsoleLogger)
  /-- ghost: results of the finished `GetLogger` calls -/
  results : List (Bytes × Nat)

/-- misc/logger.go:53-56 -/
def LgInit (s : LgSt) : Prop :=
  s.reg = (fun _ => none) ∧ s.level = .info ∧ s.mutex = none ∧ (∀ g, s.pcs g = .idle) ∧ s.created = [] ∧ s.results = []

/-- in a read of the map -/
def LgPc.reading : LgPc → Bool
  | .peeking _ | .looking _ => true
  | _ => false
/-- in a write to the map -/
def LgPc.writing : LgPc → Bool
  | .storing _ _ => true
  | _ => false

/-- a write overlaps another access -/
def LgRacy (s : LgSt) : Prop :=
  ∃ g h, g ≠ h ∧ (s.pcs g).writing = true ∧ ((s.pcs h).reading = true ∨ (s.pcs h).writing = true)

/-- A step of goroutine `g`. -/
inductive LgStep' (g : Nat) : LgSt → LgSt → Prop where
  /-- `GetLogger(name)`, misc/logger.go:98-104 -/
  | get {s} (name : Bytes) : s.pcs g = .idle → LgStep' g s { s with pcs := upd s.pcs g (.peek name) }
  /-- `SetLevel(l)`, misc/logger.go:106-108 -/
  | set {s} (l : LogLevel) : s.pcs g = .idle → LgStep' g s { s with pcs := upd s.pcs g (.slLock l) }
  /-- misc/logger.go:61 -/
  | peekBegin {s} (name : Bytes) : s.pcs g = .peek name → LgStep' g s { s with pcs := upd s.pcs g (.peeking name) }
  /-- misc/logger.go:61-63: found -/
  | peekHit {s} (name : Bytes) (i : Nat) : s.pcs g = .peeking name → s.reg name = some i →
      LgStep' g s { s with pcs := upd s.pcs g .idle, results := s.results ++ [(name, i)] }
  /-- misc/logger.go:61: not found -/
  | peekMiss {s} (name : Bytes) : s.pcs g = .peeking name → s.reg name = none → LgStep' g s { s with pcs := upd s.pcs g (.lock name) }
  /-- misc/logger.go:64 -/
  | lock {s} (name : Bytes) : s.pcs g = .lock name → s.mutex = none →
      LgStep' g s { s with pcs := upd s.pcs g (.inside name), mutex := some g }
  /-- misc/logger.go:66 -/
  | lookBegin {s} (name : Bytes) : s.pcs g = .inside name → LgStep' g s { s with pcs := upd s.pcs g (.looking name) }
  /-- misc/logger.go:66-68: found -/
  | lookHit {s} (name : Bytes) (i : Nat) : s.pcs g = .looking name → s.reg name = some i →
      LgStep' g s { s with pcs := upd s.pcs g (.unlock name i) }
  /-- misc/logger.go:66: not found -/
  | lookMiss {s} (name : Bytes) : s.pcs g = .looking name → s.reg name = none → LgStep' g s { s with pcs := upd s.pcs g (.make name) }
  /-- misc/logger.go:69 with 127-132 -/
  | make {s} (name : Bytes) : s.pcs g = .make name →
      LgStep' g s { s with pcs := upd s.pcs g (.store name s.created.length),
                           created := s.created ++ [(name, { pfx := [], level := s.level })] }
  /-- misc/logger.go:70 -/
  | storeBegin {s} (name : Bytes) (i : Nat) : s.pcs g = .store name i → LgStep' g s { s with pcs := upd s.pcs g (.storing name i) }
  /-- misc/logger.go:70 -/
  | storeEnd {s} (name : Bytes) (i : Nat) : s.pcs g = .storing name i →
      LgStep' g s { s with pcs := upd s.pcs g (.unlock name i), reg := upd s.reg name (some i) }
  /-- misc/logger.go:65, 67 or 71 -/
  | unlock {s} (name : Bytes) (i : Nat) : s.pcs g = .unlock name i →
      LgStep' g s { s with pcs := upd s.pcs g .idle, mutex := none, results := s.results ++ [(name, i)] }
  /-- misc/logger.go:82 -/
  | slLock {s} (l : LogLevel) : s.pcs g = .slLock l → s.mutex = none →
      LgStep' g s { s with pcs := upd s.pcs g (.slInside l), mutex := some g }
  /-- misc/logger.go:84 -/
  | slSet {s} (l : LogLevel) : s.pcs g = .slInside l → LgStep' g s { s with pcs := upd s.pcs g .slUnlock, level := l }
  /-- misc/logger.go:83 -/
  | slUnlock {s} : s.pcs g = .slUnlock → LgStep' g s { s with pcs := upd s.pcs g .idle, mutex := none }

/-- a step of some goroutine; none once accesses have overlapped -/
def LgStep (s t : LgSt) : Prop := ¬ LgRacy s ∧ ∃ g, LgStep' g s t

end P2P

import Verif.Spec.SyncMap
import Verif.Lts
/-! # Model of misc/syncmap.go, used by any number of goroutines

Every access to the Go map takes two steps (begin, end), so that overlapping accesses can be seen. When a write overlaps another
access the Go runtime aborts the process or the result is undefined: the model takes no step from such a state (`SmRacy`).
The memory is sequentially consistent. -/
namespace P2P

/-- Where a goroutine is; `c` is the number of the call. -/
inductive SmPc (V : Type) where
  | idle
  /-- `Del`, before the unlocked look-up, misc/syncmap.go:29 -/
  | peek (c : Nat) (k : Bytes)
  /-- `Del`, inside the unlocked look-up, misc/syncmap.go:29 -/
  | peeking (c : Nat) (k : Bytes)
  /-- before `m.Lock()`, misc/syncmap.go:16, 22, 33 -/
  | lock (c : Nat) (op : SmOp V)
  /-- lock held, before the first access, misc/syncmap.go:17, 23, 34 -/
  | inside (c : Nat) (op : SmOp V)
  /-- in the first access -/
  | access (c : Nat) (op : SmOp V)
  /-- `Del`, before the deletion, misc/syncmap.go:37 -/
  | delW (c : Nat) (k : Bytes)
  /-- `Del`, in the deletion, misc/syncmap.go:37 -/
  | deleting (c : Nat) (k : Bytes)
  /-- before the deferred `m.Unlock()`, misc/syncmap.go:15, 21, 32 -/
  | unlock (c : Nat) (r : SmRes V)
  /-- about to return -/
  | ret (c : Nat) (r : SmRes V)

/-- in a read of the map -/
def SmPc.reading {V : Type} : SmPc V → Bool
  | .peeking _ _ | .access _ (.get _) | .access _ (.del _) => true
  | _ => false
/-- in a write to the map -/
def SmPc.writing {V : Type} : SmPc V → Bool
  | .access _ (.put _ _) | .deleting _ _ => true
  | _ => false

structure SmSt (V : Type) where
  /-- the Go map -/
  mapping : Bytes → Option V
  /-- the goroutine that holds the mutex -/
  mutex : Option Nat
  pcs : Nat → SmPc V
  /-- ghost: number of calls so far -/
  next : Nat
  /-- ghost: the history -/
  hist : List (SmEv V)

/-- misc/syncmap.go:10-12 -/
def SmInit {V : Type} (s : SmSt V) : Prop :=
  s.mapping = (fun _ => none) ∧ s.mutex = none ∧ (∀ g, s.pcs g = .idle) ∧ s.next = 0 ∧ s.hist = []

/-- a write overlaps another access: `fatal error: concurrent map …`, or undefined -/
def SmRacy {V : Type} (s : SmSt V) : Prop :=
  ∃ g h, g ≠ h ∧ (s.pcs g).writing = true ∧ ((s.pcs h).reading = true ∨ (s.pcs h).writing = true)

/-- first program point of a method -/
def smStart {V : Type} (c : Nat) : SmOp V → SmPc V
  /- misc/syncmap.go:28-29 -/
  | .del k => .peek c k
  /- misc/syncmap.go:14-16, 20-22 -/
  | op => .lock c op

inductive SmStep' {V : Type} : SmSt V → SmSt V → Prop where
  /-- goroutine `g` calls a method -/
  | call {s} (g : Nat) (op : SmOp V) : s.pcs g = .idle →
      SmStep' s { s with pcs := upd s.pcs g (smStart s.next op), next := s.next + 1, hist := s.hist ++ [.call s.next op] }
  /-- misc/syncmap.go:29 -/
  | peekBegin {s} (g c : Nat) (k : Bytes) : s.pcs g = .peek c k → SmStep' s { s with pcs := upd s.pcs g (.peeking c k) }
  /-- misc/syncmap.go:29-31: not present, return -/
  | peekMiss {s} (g c : Nat) (k : Bytes) : s.pcs g = .peeking c k → s.mapping k = none →
      SmStep' s { s with pcs := upd s.pcs g (.ret c .done), hist := s.hist ++ [.lin c (.del k) .done] }
  /-- misc/syncmap.go:29: present -/
  | peekHit {s} (g c : Nat) (k : Bytes) (v : V) : s.pcs g = .peeking c k → s.mapping k = some v →
      SmStep' s { s with pcs := upd s.pcs g (.lock c (.del k)) }
  /-- misc/syncmap.go:16, 22, 33 -/
  | lock {s} (g c : Nat) (op : SmOp V) : s.pcs g = .lock c op → s.mutex = none →
      SmStep' s { s with pcs := upd s.pcs g (.inside c op), mutex := some g }
  /-- misc/syncmap.go:17, 23, 34 -/
  | begin {s} (g c : Nat) (op : SmOp V) : s.pcs g = .inside c op → SmStep' s { s with pcs := upd s.pcs g (.access c op) }
  /-- misc/syncmap.go:17 -/
  | putEnd {s} (g c : Nat) (k : Bytes) (v : V) : s.pcs g = .access c (.put k v) →
      SmStep' s { s with mapping := upd s.mapping k (some v), pcs := upd s.pcs g (.unlock c .done),
                         hist := s.hist ++ [.lin c (.put k v) .done] }
  /-- misc/syncmap.go:23 -/
  | getEnd {s} (g c : Nat) (k : Bytes) : s.pcs g = .access c (.get k) →
      SmStep' s { s with pcs := upd s.pcs g (.unlock c (.got (s.mapping k))),
                         hist := s.hist ++ [.lin c (.get k) (.got (s.mapping k))] }
  /-- misc/syncmap.go:34-36: deleted by somebody else meanwhile -/
  | delMiss {s} (g c : Nat) (k : Bytes) : s.pcs g = .access c (.del k) → s.mapping k = none →
      SmStep' s { s with pcs := upd s.pcs g (.unlock c .done), hist := s.hist ++ [.lin c (.del k) .done] }
  /-- misc/syncmap.go:34 -/
  | delHit {s} (g c : Nat) (k : Bytes) (v : V) : s.pcs g = .access c (.del k) → s.mapping k = some v →
      SmStep' s { s with pcs := upd s.pcs g (.delW c k) }
  /-- misc/syncmap.go:37 -/
  | delBegin {s} (g c : Nat) (k : Bytes) : s.pcs g = .delW c k → SmStep' s { s with pcs := upd s.pcs g (.deleting c k) }
  /-- misc/syncmap.go:37 -/
  | delEnd {s} (g c : Nat) (k : Bytes) : s.pcs g = .deleting c k →
      SmStep' s { s with mapping := upd s.mapping k none, pcs := upd s.pcs g (.unlock c .done),
                         hist := s.hist ++ [.lin c (.del k) .done] }
  /-- misc/syncmap.go:15, 21, 32 -/
  | unlock {s} (g c : Nat) (r : SmRes V) : s.pcs g = .unlock c r →
      SmStep' s { s with pcs := upd s.pcs g (.ret c r), mutex := none }
  /-- the call returns -/
  | ret {s} (g c : Nat) (r : SmRes V) : s.pcs g = .ret c r →
      SmStep' s { s with pcs := upd s.pcs g .idle, hist := s.hist ++ [.ret c r] }

/-- no step is taken once accesses have overlapped -/
def SmStep {V : Type} (s t : SmSt V) : Prop := ¬ SmRacy s ∧ SmStep' s t

end P2P

import Verif.Model.WorkPool
/-! # Model of misc/shutdown.go

Any number of `WaitShutdown` calls on one context with `n` registered clean-up functions (all registered before; `Clean` is an
unsynchronised append and is not called concurrently in the program). Every step is one atomic action. -/
namespace P2P

/-- a `WaitShutdown` call, misc/shutdown.go:46-57, 59-68 -/
inductive SwPc where
  /-- at the `select` on line 48 -/
  | blocked
  /-- at the store on line 54 -/
  | store
  /-- about to call `runCleans` (line 62) -/
  | start
  /-- at the `select` on line 61 -/
  | cleaning
  /-- at the store on line 67; by timeout (64) or not (62) -/
  | final (timeout : Bool)
  | returned (timeout : Bool)
deriving DecidableEq, Repr

/-- the goroutine of `runCleans`, misc/shutdown.go:80-91 -/
inductive RunPc where
  | notYet
  /-- before `wg.Add` on line 82 -/
  | add
  /-- in the loop 83-88 -/
  | spawning
  /-- at `wg.Wait` on line 89 -/
  | waiting
  /-- at the send on line 90 -/
  | sending
  | done
deriving DecidableEq, Repr

/-- the goroutine of one clean-up function, misc/shutdown.go:84-87 -/
inductive CleanPc where
  | no
  /-- started by the `go` statement -/
  | ready
  /-- in `callback()` on line 85 -/
  | running
  /-- at `wg.Done()` on line 86 -/
  | returned
  | done
deriving DecidableEq, Repr

structure SdCall where
  pc : SwPc
  runner : RunPc
  /-- loop index of line 83 -/
  spawned : Nat
  /-- the clean-up goroutines of this call -/
  cleans : List CleanPc
  /-- counter of the wait group -/
  wg : Nat
  /-- ghost: the functions called so far -/
  called : List Nat
  /-- ghost: the functions that have returned -/
  ended : List Nat

structure SdSt where
  status : SdStatus
  cancelled : Bool
  /-- a signal is in the channel of capacity 1 (line 97); more are dropped -/
  sig : Bool
  /-- ghost: a signal has arrived at some time -/
  signalled : Bool
  /-- a clean-up function panicked: the process is dead -/
  dead : Bool
  calls : Nat → SdCall

/-- misc/shutdown.go:95-105; nobody has called `WaitShutdown` yet (a call at its first `select` has done nothing) -/
def SdInit (n : Nat) (s : SdSt) : Prop :=
  s.status = .running ∧ s.sig = false ∧ s.signalled = false ∧ s.dead = false ∧
  ∀ c, s.calls c = { pc := .blocked, runner := .notYet, spawned := 0, cleans := List.replicate n .no, wg := 0, called := [], ended := [] }

/-- replace call `c` -/
def SdSt.setCall (s : SdSt) (c : Nat) (x : SdCall) : SdSt := { s with calls := upd s.calls c x }

inductive SdStep (n : Nat) : SdSt → SdSt → Prop where
  /-- SIGINT or SIGTERM arrives (line 102) -/
  | signal {s} : s.dead = false → SdStep n s { s with sig := true, signalled := true }
  /-- the context is cancelled -/
  | cancel {s} : s.dead = false → SdStep n s { s with cancelled := true }
  /-- misc/shutdown.go:49-50 -/
  | wakeCancel {s} (c : Nat) : s.dead = false → (s.calls c).pc = .blocked → s.cancelled = true →
      SdStep n s (s.setCall c { s.calls c with pc := .store })
  /-- misc/shutdown.go:51-52 -/
  | wakeSignal {s} (c : Nat) : s.dead = false → (s.calls c).pc = .blocked → s.sig = true →
      SdStep n s ({ s with sig := false }.setCall c { s.calls c with pc := .store })
  /-- misc/shutdown.go:54 -/
  | storeShutdowning {s} (c : Nat) : s.dead = false → (s.calls c).pc = .store →
      SdStep n s ({ s with status := .shutdowning }.setCall c { s.calls c with pc := .start })
  /-- misc/shutdown.go:62, 78-80: the `go` statement -/
  | runCleans {s} (c : Nat) : s.dead = false → (s.calls c).pc = .start →
      SdStep n s (s.setCall c { s.calls c with pc := .cleaning, runner := .add })
  /-- misc/shutdown.go:82 -/
  | add {s} (c : Nat) : s.dead = false → (s.calls c).runner = .add →
      SdStep n s (s.setCall c { s.calls c with runner := .spawning, wg := n })
  /-- misc/shutdown.go:84 for the next function -/
  | spawn {s} (c : Nat) : s.dead = false → (s.calls c).runner = .spawning → (s.calls c).spawned < n →
      SdStep n s (s.setCall c { s.calls c with spawned := (s.calls c).spawned + 1,
                                               cleans := (s.calls c).cleans.set (s.calls c).spawned .ready })
  /-- the loop ends -/
  | spawnEnd {s} (c : Nat) : s.dead = false → (s.calls c).runner = .spawning → (s.calls c).spawned = n →
      SdStep n s (s.setCall c { s.calls c with runner := .waiting })
  /-- misc/shutdown.go:85: the function is called -/
  | cleanStart {s} (c k : Nat) : s.dead = false → (s.calls c).cleans[k]? = some .ready →
      SdStep n s (s.setCall c { s.calls c with cleans := (s.calls c).cleans.set k .running, called := (s.calls c).called ++ [k] })
  /-- misc/shutdown.go:85: the function returns -/
  | cleanReturn {s} (c k : Nat) : s.dead = false → (s.calls c).cleans[k]? = some .running →
      SdStep n s (s.setCall c { s.calls c with cleans := (s.calls c).cleans.set k .returned, ended := (s.calls c).ended ++ [k] })
  /-- misc/shutdown.go:85: the function panics -/
  | cleanPanics {s} (c k : Nat) : s.dead = false → (s.calls c).cleans[k]? = some .running →
      SdStep n s { s with dead := true }
  /-- misc/shutdown.go:86 -/
  | cleanDone {s} (c k : Nat) : s.dead = false → (s.calls c).cleans[k]? = some .returned →
      SdStep n s (s.setCall c { s.calls c with cleans := (s.calls c).cleans.set k .done, wg := (s.calls c).wg - 1 })
  /-- misc/shutdown.go:89 -/
  | wgWait {s} (c : Nat) : s.dead = false → (s.calls c).runner = .waiting → (s.calls c).wg = 0 →
      SdStep n s (s.setCall c { s.calls c with runner := .sending })
  /-- misc/shutdown.go:90 and 62: the channel is unbuffered, so both sides proceed together -/
  | finished {s} (c : Nat) : s.dead = false → (s.calls c).runner = .sending → (s.calls c).pc = .cleaning →
      SdStep n s (s.setCall c { s.calls c with runner := .done, pc := .final false })
  /-- misc/shutdown.go:64 -/
  | timeout {s} (c : Nat) : s.dead = false → (s.calls c).pc = .cleaning →
      SdStep n s (s.setCall c { s.calls c with pc := .final true })
  /-- misc/shutdown.go:67 -/
  | final {s} (c : Nat) (b : Bool) : s.dead = false → (s.calls c).pc = .final b →
      SdStep n s ({ s with status := .shutdowned }.setCall c { s.calls c with pc := .returned b })

end P2P

import Verif.Lts
/-! # Model of misc/workpool.go

Goroutines: `size` workers, the cancellation listener, any number of goroutines calling `AsyncSubmit` and `Shutdown`.
Every step is one atomic action (channel operation, atomic load/store). A step of a dead process does not exist. -/
namespace P2P

/-- misc/shutdown.go:13-19 -/
inductive SdStatus where
  | running
  | shutdowning
  | shutdowned
deriving DecidableEq, Repr

/-- a worker, misc/workpool.go:34-46 -/
inductive WPc where
  /-- at the `select` on line 36 -/
  | select
  /-- at the receive on line 41 -/
  | recv
  /-- in `worker()` on line 42 -/
  | running (task : Nat)
  /-- at `pool.wg.Done()` on line 45 -/
  | afterLoop
  | exited
deriving DecidableEq, Repr

/-- a call of `AsyncSubmit`, misc/workpool.go:48-53; call number `c` submits task number `c` -/
inductive SubPc where
  /-- before the load on line 49 -/
  | start
  /-- at the send on line 52 -/
  | sending
  | sent
  /-- line 50 -/
  | panicked
deriving DecidableEq, Repr

/-- a call of `Shutdown`, misc/workpool.go:55-70 -/
inductive ShPc where
  /-- the listener, at the `select` on line 86, before it calls `Shutdown` -/
  | listening
  /-- the listener returned on line 92 -/
  | listenerExit
  /-- before the load on line 56 -/
  | check
  /-- at the store on line 60 -/
  | store
  /-- at `close` on line 62 -/
  | close
  /-- at the `select` on line 63 -/
  | wait
  /-- at the store on line 69; by timeout (64) or because all workers are done (66) -/
  | final (timeout : Bool)
  /-- returned: on line 57 (`none`) or on line 70 -/
  | returned (timeout : Option Bool)
  /-- `close` of a closed channel -/
  | panicked
deriving DecidableEq, Repr

structure WpSt where
  status : SdStatus
  /-- contents of the channel, oldest first -/
  queue : List Nat
  /-- the channel `shutdowned` has been closed -/
  closed : Bool
  /-- counter of the wait group -/
  wg : Nat
  workers : List WPc
  subs : Nat → SubPc
  /-- call 0 is that of the listener -/
  shuts : Nat → ShPc
  /-- `pool.ctx` has been cancelled -/
  cancelled : Bool
  /-- the process died of a panic in a goroutine of the pool -/
  dead : Bool
  /-- ghost: tasks in the order in which their send completed -/
  submitted : List Nat
  /-- ghost: tasks in the order in which they were received -/
  started : List Nat
  /-- ghost: tasks in the order in which they returned -/
  finished : List Nat

/-- misc/workpool.go:96-108 and `init` (24-32), for `size ≥ 0` (`make` panics for a negative size) -/
def WpInit (size : Nat) (s : WpSt) : Prop :=
  s.status = .running ∧ s.queue = [] ∧ s.closed = false ∧ s.wg = size ∧ s.workers = List.replicate size .select ∧
  (∀ c, s.subs c = .start) ∧ s.shuts 0 = .listening ∧ (∀ c, c ≠ 0 → s.shuts c = .check) ∧ s.dead = false ∧
  s.submitted = [] ∧ s.started = [] ∧ s.finished = []

/-- One step of the pool of `size` workers (the channel's capacity is `size`, line 100). -/
inductive WpStep (size : Nat) : WpSt → WpSt → Prop where
  /-- misc/workpool.go:36-40: `break` leaves the `select` only; with or without the signal the worker goes on to line 41 -/
  | select {s} (i : Nat) : s.dead = false → s.workers[i]? = some .select →
      WpStep size s { s with workers := s.workers.set i .recv }
  /-- misc/workpool.go:41 -/
  | recv {s} (i t : Nat) (q : List Nat) : s.dead = false → s.workers[i]? = some .recv → s.queue = t :: q →
      WpStep size s { s with workers := s.workers.set i (.running t), queue := q, started := s.started ++ [t] }
  /-- misc/workpool.go:42: the task returns -/
  | taskDone {s} (i t : Nat) : s.dead = false → s.workers[i]? = some (.running t) →
      WpStep size s { s with workers := s.workers.set i .select, finished := s.finished ++ [t] }
  /-- misc/workpool.go:42: the task panics; nothing recovers -/
  | taskPanics {s} (i t : Nat) : s.dead = false → s.workers[i]? = some (.running t) →
      WpStep size s { s with dead := true }
  /-- misc/workpool.go:45 -/
  | wgDone {s} (i : Nat) : s.dead = false → s.workers[i]? = some .afterLoop →
      WpStep size s { s with workers := s.workers.set i .exited, wg := s.wg - 1 }
  /-- misc/workpool.go:49 reads `Running` -/
  | subCheck {s} (c : Nat) : s.dead = false → s.subs c = .start → s.status = .running →
      WpStep size s { s with subs := upd s.subs c .sending }
  /-- misc/workpool.go:49-50 -/
  | subPanic {s} (c : Nat) : s.dead = false → s.subs c = .start → s.status ≠ .running →
      WpStep size s { s with subs := upd s.subs c .panicked }
  /-- misc/workpool.go:52; blocks while the channel is full -/
  | subSend {s} (c : Nat) : s.dead = false → s.subs c = .sending → s.queue.length < size →
      WpStep size s { s with subs := upd s.subs c .sent, queue := s.queue ++ [c], submitted := s.submitted ++ [c] }
  /-- somebody cancels the context -/
  | cancel {s} : s.dead = false → WpStep size s { s with cancelled := true }
  /-- misc/workpool.go:87-89 -/
  | listenCancel {s} (c : Nat) : s.dead = false → s.shuts c = .listening → s.cancelled = true →
      WpStep size s { s with shuts := upd s.shuts c .check }
  /-- misc/workpool.go:90-92 -/
  | listenExit {s} (c : Nat) : s.dead = false → s.shuts c = .listening → s.closed = true →
      WpStep size s { s with shuts := upd s.shuts c .listenerExit }
  /-- misc/workpool.go:56 reads `Running` -/
  | shCheck {s} (c : Nat) : s.dead = false → s.shuts c = .check → s.status = .running →
      WpStep size s { s with shuts := upd s.shuts c .store }
  /-- misc/workpool.go:56-57 -/
  | shSkip {s} (c : Nat) : s.dead = false → s.shuts c = .check → s.status ≠ .running →
      WpStep size s { s with shuts := upd s.shuts c (.returned none) }
  /-- misc/workpool.go:60 -/
  | shStore {s} (c : Nat) : s.dead = false → s.shuts c = .store →
      WpStep size s { s with shuts := upd s.shuts c .close, status := .shutdowning }
  /-- misc/workpool.go:62 -/
  | shClose {s} (c : Nat) : s.dead = false → s.shuts c = .close → s.closed = false →
      WpStep size s { s with shuts := upd s.shuts c .wait, closed := true }
  /-- misc/workpool.go:62 on a closed channel; in the listener's goroutine nothing recovers -/
  | shPanic {s} (c : Nat) : s.dead = false → s.shuts c = .close → s.closed = true →
      WpStep size s { s with shuts := upd s.shuts c .panicked, dead := decide (c = 0) }
  /-- misc/workpool.go:64 -/
  | shTimeout {s} (c : Nat) : s.dead = false → s.shuts c = .wait →
      WpStep size s { s with shuts := upd s.shuts c (.final true) }
  /-- misc/workpool.go:66 with `waitFinish` (72-79): the wait group's counter is 0 -/
  | shFinish {s} (c : Nat) : s.dead = false → s.shuts c = .wait → s.wg = 0 →
      WpStep size s { s with shuts := upd s.shuts c (.final false) }
  /-- misc/workpool.go:69 -/
  | shFinal {s} (c : Nat) (b : Bool) : s.dead = false → s.shuts c = .final b →
      WpStep size s { s with shuts := upd s.shuts c (.returned (some b)), status := .shutdowned }

end P2P

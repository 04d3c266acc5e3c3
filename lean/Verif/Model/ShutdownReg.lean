import Verif.Model.Shutdown
/-! # Clean-up functions registered while a shutdown begins (misc/shutdown.go:29-31, 74-93)

In the program `Wait4Shutdown` is called by the main goroutine (cmd/root.go:51) while the goroutine `dht.Run`, started one line
before, calls `RegisterShutDownClean` (dht/dht.go:37). Nothing orders the two. `runCleans` reads `ctx.cleans` twice: its length
for `wg.Add` (line 82) and the slice itself for the loop (line 83).

The model has one registering goroutine and one `WaitShutdown` call. Simplification: the slice header is read and written in one
step (a torn read of the header could be worse). Functions are numbers; a task is the goroutine of one loop iteration. -/
namespace P2P

/-- the goroutine of `runCleans`, misc/shutdown.go:80-91, and what comes before and after -/
inductive RgPc where
  /-- `WaitShutdown` is blocked, misc/shutdown.go:48 -/
  | blocked
  /-- before `wg.Add(len(ctx.cleans))`, misc/shutdown.go:82 -/
  | add
  /-- before the `range` expression is evaluated, misc/shutdown.go:83 -/
  | range
  /-- in the loop, misc/shutdown.go:83-88 -/
  | spawning
  /-- at `wg.Wait()`, misc/shutdown.go:89 -/
  | waiting
  /-- all done, `WaitShutdown` returned without timeout, misc/shutdown.go:90, 62 -/
  | returned
deriving DecidableEq, Repr

structure RgSt where
  /-- `ctx.cleans` -/
  cleans : List Nat
  /-- arguments of the `Clean` calls that the registering goroutine still has to make -/
  pending : List (List Nat)
  signalled : Bool
  runner : RgPc
  /-- argument of `wg.Add` -/
  added : Nat
  /-- counter of the wait group -/
  wg : Int
  /-- value of the `range` expression -/
  snap : List Nat
  /-- goroutines of the loop iterations -/
  tasks : List CleanPc
  spawned : Nat
  /-- ghost: functions called so far -/
  called : List Nat
  /-- `sync: negative WaitGroup counter`: the process is dead -/
  dead : Bool

/-- `pre` was registered before everything, the registering goroutine will register `regs` -/
def RgInit (pre : List Nat) (regs : List (List Nat)) (s : RgSt) : Prop :=
  s = { cleans := pre, pending := regs, signalled := false, runner := .blocked, added := 0, wg := 0, snap := [], tasks := [],
        spawned := 0, called := [], dead := false }

inductive RgStep : RgSt → RgSt → Prop where
  /-- misc/shutdown.go:75 -/
  | register {s fs r} : s.dead = false → s.pending = fs :: r → RgStep s { s with cleans := s.cleans ++ fs, pending := r }
  /-- a signal arrives, or the context is cancelled -/
  | signal {s} : s.dead = false → RgStep s { s with signalled := true }
  /-- misc/shutdown.go:48-62, 80 -/
  | start {s} : s.dead = false → s.runner = .blocked → s.signalled = true → RgStep s { s with runner := .add }
  /-- misc/shutdown.go:82 -/
  | add {s} : s.dead = false → s.runner = .add →
      RgStep s { s with runner := .range, added := s.cleans.length, wg := s.cleans.length }
  /-- misc/shutdown.go:83 -/
  | range {s} : s.dead = false → s.runner = .range →
      RgStep s { s with runner := .spawning, snap := s.cleans, tasks := List.replicate s.cleans.length .no }
  /-- misc/shutdown.go:84 -/
  | spawn {s} : s.dead = false → s.runner = .spawning → s.spawned < s.snap.length →
      RgStep s { s with tasks := s.tasks.set s.spawned .ready, spawned := s.spawned + 1 }
  /-- the loop ends -/
  | spawnEnd {s} : s.dead = false → s.runner = .spawning → s.spawned = s.snap.length → RgStep s { s with runner := .waiting }
  /-- misc/shutdown.go:85: the function is called -/
  | cleanStart {s k f} : s.dead = false → s.tasks[k]? = some .ready → s.snap[k]? = some f →
      RgStep s { s with tasks := s.tasks.set k .running, called := s.called ++ [f] }
  /-- misc/shutdown.go:85: it returns -/
  | cleanReturn {s k} : s.dead = false → s.tasks[k]? = some .running → RgStep s { s with tasks := s.tasks.set k .returned }
  /-- misc/shutdown.go:86 -/
  | cleanDone {s k} : s.dead = false → s.tasks[k]? = some .returned →
      RgStep s { s with tasks := s.tasks.set k .done, wg := s.wg - 1, dead := decide (s.wg - 1 < 0) }
  /-- misc/shutdown.go:89-90, 62 -/
  | finish {s} : s.dead = false → s.runner = .waiting → s.wg = 0 → RgStep s { s with runner := .returned }

end P2P

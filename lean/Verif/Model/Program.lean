import Verif.Model.Startup
import Verif.Model.WorkPool
/-! # The program from start to exit (main.go:9-12, cmd/root.go:31-52, misc/shutdown.go, dht/krpc/udp.go:30-46)

`Model/Startup` gives the main goroutine up to `go dht.Run()` and the goroutine of `Run`. Here are added: the signals, the main goroutine in
`Wait4Shutdown`, the goroutine of `runCleans`, the one clean-up function the program registers (dht/dht.go:37-40, which closes the UDP server),
the receive goroutine with its socket, and the end of the process, which happens when the main goroutine returns. Everything else the program
does (packet handlers, downloads) goes on meanwhile and ends with the process; `Model/Pipeline` describes it and none of it is waited for.

Simplifications: the commands `version` and `torrent` do not come here; the pprof server (cmd/root.go:42-44) shares nothing with the rest;
`innerCtx` is `context.Background()` (misc/shutdown.go:23), which is never cancelled (`InitShutdownCtx` has no caller). -/
namespace P2P

/-- the main goroutine in `Wait4Shutdown(5s)`, misc/shutdown.go:46-68 -/
inductive WaitPc where
  /-- at the `select` on line 48 (and before it, as long as `Model/Startup` is bootstrapping) -/
  | select
  /-- at the store on line 54 -/
  | store
  /-- about to call `runCleans`, line 62 -/
  | start
  /-- at the `select` on line 61 -/
  | cleaning
  /-- at the store on line 67; by timeout (64) or not (62) -/
  | final (timeout : Bool)
  /-- `main` returned: the process has ended -/
  | exited (timeout : Bool)
deriving DecidableEq, Repr

/-- the goroutine of `runCleans`, misc/shutdown.go:80-91 -/
inductive CleanerPc where
  | notYet
  /-- before `wg.Add(len(ctx.cleans))`, line 82 -/
  | add
  /-- before the `range` expression is evaluated, line 83 -/
  | range
  /-- at `wg.Wait()`, line 89 -/
  | waiting
  /-- at the send on line 90 -/
  | sending
  | done
deriving DecidableEq, Repr

/-- the goroutine running the registered function, misc/shutdown.go:84-87 with dht/dht.go:38, dht/krpc/server.go:50-55, dht/krpc/udp.go:30-46 -/
inductive CloserPc where
  | notYet
  /-- before `closed.Store(true)`, udp.go:41 (nobody else calls `Close`, so the test on line 31 and the lock on line 35 pass) -/
  | begin
  /-- before `conn.Close()`, udp.go:43 -/
  | stored
  /-- before `wg.Done()`, shutdown.go:86 -/
  | returned
  | done
deriving DecidableEq, Repr

/-- the receive goroutine, dht/krpc/udp.go:96-107 -/
inductive RcvPc where
  /-- before the loop test -/
  | top
  /-- in `ReadFromUDP` -/
  | reading
  /-- before `s.recvq <- packet` -/
  | sending (p : RecvPacket)
  | stopped

structure PgSt where
  st : StSt
  /-- a signal is in the channel of capacity 1 (misc/shutdown.go:97, 102) -/
  sig : Bool
  main : WaitPc
  status : SdStatus
  cleaner : CleanerPc
  /-- argument of `wg.Add` -/
  added : Nat
  /-- counter of the wait group -/
  wg : Int
  closer : CloserPc
  closed : Bool
  connOpen : Bool
  rcv : RcvPc
  /-- `sync: negative WaitGroup counter` in the clean-up goroutine: the process is dead -/
  killed : Bool
  /-- ghost: number of signals that have arrived -/
  signals : Nat
  /-- ghost: the datagrams read -/
  got : List RecvPacket

/-- number of registered clean-ups, `len(ctx.cleans)` -/
def PgSt.cleans (s : PgSt) : Nat := if s.st.cleanup then 1 else 0

/-- the process still runs -/
def PgSt.alive (s : PgSt) : Prop := s.killed = false ∧ s.st.pc ≠ .dead ∧ ∀ b, s.main ≠ .exited b

/-- the main goroutine has left the bootstrap loop -/
def StPc.booted : StPc → Bool
  | .boot _ => false
  | .dead => false
  | _ => true

/-- after package initialisation -/
def PgInit (hosts : List (Option UDPAddr)) (s : PgSt) : Prop :=
  StSt.start hosts s.st ∧ s.sig = false ∧ s.main = .select ∧ s.status = .running ∧ s.cleaner = .notYet ∧ s.added = 0 ∧ s.wg = 0 ∧
  s.closer = .notYet ∧ s.closed = false ∧ s.connOpen = true ∧ s.rcv = .top ∧ s.killed = false ∧ s.signals = 0 ∧ s.got = []

/-- the main goroutine behind the bootstrap loop -/
inductive PgMain : PgSt → PgSt → Prop where
  /-- misc/shutdown.go:51-52 -/
  | wake {s} : s.st.pc.booted = true → s.main = .select → s.sig = true → PgMain s { s with sig := false, main := .store }
  /-- misc/shutdown.go:54 -/
  | store {s} : s.main = .store → PgMain s { s with main := .start, status := .shutdowning }
  /-- misc/shutdown.go:62, 80 -/
  | runCleans {s} : s.main = .start → PgMain s { s with main := .cleaning, cleaner := .add }
  /-- misc/shutdown.go:62 and 90 (an unbuffered channel) -/
  | finished {s} : s.main = .cleaning → s.cleaner = .sending → PgMain s { s with main := .final false, cleaner := .done }
  /-- misc/shutdown.go:64 -/
  | timeout {s} : s.main = .cleaning → PgMain s { s with main := .final true }
  /-- misc/shutdown.go:67, then everything returns up to main.go:12 -/
  | exit {s b} : s.main = .final b → PgMain s { s with main := .exited b, status := .shutdowned }

/-- everybody else -/
inductive PgOther (K : KEnv) : PgSt → PgSt → Prop where
  /-- SIGINT or SIGTERM arrives; dropped if one is waiting already -/
  | signal {s} : PgOther K s { s with sig := true, signals := s.signals + 1 }
  /-- bootstrapping and `Run`, see `Model/Startup` -/
  | startup {s st'} : StMain K s.st st' → PgOther K s { s with st := st' }
  /-- misc/shutdown.go:82 -/
  | add {s} : s.cleaner = .add → PgOther K s { s with cleaner := .range, added := s.cleans, wg := s.cleans }
  /-- misc/shutdown.go:83-88: no function is registered -/
  | rangeNone {s} : s.cleaner = .range → s.cleans = 0 → PgOther K s { s with cleaner := .waiting }
  /-- misc/shutdown.go:83-88: the `go` statement for the one function that is registered -/
  | rangeOne {s} : s.cleaner = .range → s.cleans = 1 → PgOther K s { s with cleaner := .waiting, closer := .begin }
  /-- misc/shutdown.go:89 -/
  | wait {s} : s.cleaner = .waiting → s.wg = 0 → PgOther K s { s with cleaner := .sending }
  /-- dht/krpc/udp.go:41 -/
  | closeStore {s} : s.closer = .begin → PgOther K s { s with closer := .stored, closed := true }
  /-- dht/krpc/udp.go:43 -/
  | closeConn {s} : s.closer = .stored → PgOther K s { s with closer := .returned, connOpen := false }
  /-- misc/shutdown.go:86 -/
  | closeDone {s} : s.closer = .returned →
      PgOther K s { s with closer := .done, wg := s.wg - 1, killed := decide (s.wg - 1 < 0) }
  /-- dht/krpc/udp.go:97 -/
  | test {s} : s.rcv = .top → PgOther K s { s with rcv := if s.closed then .stopped else .reading }
  /-- dht/krpc/udp.go:99 -/
  | read {s} (p : RecvPacket) : s.rcv = .reading → s.connOpen = true → PgOther K s { s with rcv := .sending p, got := s.got ++ [p] }
  /-- dht/krpc/udp.go:99-103: the read fails -/
  | readErr {s} : s.rcv = .reading → PgOther K s { s with rcv := .top }
  /-- dht/krpc/udp.go:105; waits while the channel is full -/
  | deliver {s p} : s.rcv = .sending p → s.st.queue.length < recvqCap →
      PgOther K s { s with rcv := .top, st := { s.st with queue := s.st.queue ++ [p], arrived := s.st.arrived ++ [p] } }

/-- A step of the process; a dead process takes none. -/
inductive PgStep (K : KEnv) : PgSt → PgSt → Prop where
  | main {s t} : s.alive → PgMain s t → PgStep K s t
  | other {s t} : s.alive → PgOther K s t → PgStep K s t

end P2P

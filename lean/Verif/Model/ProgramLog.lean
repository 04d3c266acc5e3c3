import Verif.Model.Program
import Verif.Model.Console
/-! # The program from start to exit, with its log

`Model/Program` once more, with the log statements of the goroutines it consists of: the main goroutine (cmd/root.go:36-52, dht/dht.go:45-58,
misc/shutdown.go:46-68), the one of `Run` (dht/dht.go:22-43, misc/workpool.go:24-32, dht/krpc/server.go:35-48), the one that runs the registered
clean-up function (dht/dht.go:37-40, dht/krpc/server.go:50-55, dht/krpc/udp.go:30-46) and the receive goroutine (dht/krpc/udp.go:96-107); the
goroutine of `runCleans` logs nothing. A goroutine writes the records that follow an action one at a time, and does not act again before it has
written them; between any two of them the others may act and write.

Simplifications: the records of the packet handlers, the downloads, the route table, pprof and the configuration come in between (`Model/Console`,
`Model/DownloadLog`, `Model/RouteTableLog`) and are left out here. The store of the status (misc/shutdown.go:67) is done together with the
return of `main`, behind the record "shutdown finish..." (misc/shutdown.go:57) instead of in front of it; nothing in the program reads it. -/
namespace P2P

/-- the goroutines that write -/
inductive Gor where
  | main
  | run
  | closer
  | rcv
deriving DecidableEq, Repr

/-- Texts of the runtime and the operating system. -/
structure LifeEnv where
  C : ConsoleEnv
  /-- text of the error of `net.ResolveUDPAddr` for a host -/
  resolveErr : Bytes → Bytes

/-- dht/dht.go:46 -/
def bootHello (host : Bytes) : LogRec := { pfx := b!"dht", method := .Info, msg := b!"bootstrap dht...", ctx := some [(b!"host", lstr host)] }

/-- dht/dht.go:47-57: `BootStrap` behind its first line -/
def bootCallL (K : KEnv) (L : LifeEnv) (O : Oracle) (host : Bytes) (resolved : Option UDPAddr) : LM Unit := do
  let txId ← quiet (nextTxId O)
  match resolved with
  | none => do
    dhtLog .Panic b!"bootstrap resolve host err" [(b!"host", lstr host), (b!"err", lerr (L.resolveErr host))]
    GoM.panic (.str b!"bootstrap resolve host err")
  | some raddr => do
    let err ← QueryL K L.C O raddr (WithFindNodeMsg txId K.nodeId K.nodeId (some genericH))
    match err with
    | some e => do
      dhtLog .Panic b!"bootstrap findnode err" [(b!"host", lstr host), (b!"err", lerr (L.C.errText e))]
      GoM.panic (.str b!"bootstrap findnode err")
    | none => pure ()

/-- the record the main goroutine writes next, with these hosts still to contact: cmd/root.go:47-49, dht/dht.go:46 -/
def nextHello : List (Bytes × Option UDPAddr) → List LogRec
  | [] => []
  | (host, _) :: _ => [bootHello host]

/-- a record of `misc/shutdown.go` -/
def sdRec (msg : Bytes) (ctx : Option (List (Bytes × LogVal))) : LogRec := { pfx := b!"shutdown", method := .Trace, msg, ctx }

/-- the records the main goroutine writes behind the step that takes it here: misc/shutdown.go:52, 60, 63, 65, 57 -/
def waitSays (sig : Bytes) : WaitPc → List LogRec
  | .select => []
  | .store => [sdRec b!"received shutdown signal" (some [(b!"sig", lstr sig)])]
  | .start => [sdRec b!"start cleaning..." none]
  | .cleaning => []
  | .final false => [sdRec b!"shutdown clean all" none, sdRec b!"shutdown finish..." none]
  | .final true => [sdRec b!"shutdown timeout, just ignore" (some [(b!"duration", lstr b!"5s")]), sdRec b!"shutdown finish..." none]
  | .exited _ => []

/-- a record of `dht/dht.go` without context -/
def dhtRec (msg : Bytes) : LogRec := { pfx := b!"dht", method := .Info, msg, ctx := none }

/-- misc/workpool.go:31 with dht/krpc/server.go:38 -/
def poolReady : LogRec :=
  { pfx := b!"workpool", method := .Trace, msg := b!"workpool init finished", ctx := some [(b!"name", lstr b!"krpc-workerpool")] }

/-- dht/krpc/udp.go:40 -/
def connClosing (L : LifeEnv) : LogRec :=
  { pfx := b!"udp", method := .Trace, msg := b!"conn closing...", ctx := some [(b!"laddr", lstringer L.C.laddr)] }

/-- dht/krpc/server.go:53 -/
def connClosed : LogRec := { pfx := b!"server", method := .Info, msg := b!"close udp conn", ctx := none }

/-- dht/krpc/server.go:42 -/
def rpcReceived (K : KEnv) (p : RecvPacket) : LogRec :=
  { pfx := b!"server", method := .Info, msg := b!"<<<rpc received", ctx := some [(b!"from", lstr (addrString K.env p.addr)), (b!"len", lint p.bytes.length)] }

/-- dht/krpc/udp.go:104 -/
def udpReceived (K : KEnv) (p : RecvPacket) : LogRec :=
  { pfx := b!"udp", method := .Info, msg := b!"<<< received Bytes",
    ctx := some [(b!"raddr", lstr (addrString K.env p.addr)), (b!"length", lint p.bytes.length)] }

/-- dht/krpc/udp.go:101 -/
def udpReceiveErr (e : Bytes) : LogRec := { pfx := b!"udp", method := .Error, msg := b!"<<< receive udp err", ctx := some [(b!"err", lerr e)] }

/-- The program and its log. -/
structure PLogSt where
  pg : PgSt
  /-- the hosts still to contact, with what they resolve to -/
  hosts : List (Bytes × Option UDPAddr)
  /-- records a goroutine is about to write -/
  pend : Gor → List LogRec
  /-- a `BootStrap` call (with these interactions) has failed: the panic comes when its records are written -/
  dying : Option (List Event)
  /-- the records written so far -/
  log : List (Gor × LogRec)

/-- goroutine `g` acts, and has then these records to write -/
def PLogSt.act (s : PLogSt) (pg : PgSt) (g : Gor) (recs : List LogRec) : PLogSt := { s with pg := pg, pend := upd s.pend g (s.pend g ++ recs) }

/-- after package initialisation; the first thing the main goroutine does is to write the record of the first `BootStrap` call -/
def PLogInit (hosts : List (Bytes × Option UDPAddr)) (s : PLogSt) : Prop :=
  PgInit (hosts.map Prod.snd) s.pg ∧ s.hosts = hosts ∧ s.pend = upd (fun _ => []) .main (nextHello hosts) ∧ s.dying = none ∧ s.log = []

/-- The main goroutine. -/
inductive PLogMain (K : KEnv) (L : LifeEnv) : PLogSt → PLogSt → Prop where
  /-- cmd/root.go:47-49: a `BootStrap` call returns, the next one begins -/
  | bootOk {s host addr r} {O : Oracle} {c : LSt} : s.dying = none → s.hosts = (host, addr) :: r → s.pg.st.pc = .boot (addr :: r.map Prod.snd) →
      O.Fair → bootCallL K L O host addr { h := { resp := none, trace := [] }, logs := [] } = .ok () c →
      PLogMain K L s ({ s with hosts := r }.act { s.pg with st := { s.pg.st with pc := .boot (r.map Prod.snd), boots := s.pg.st.boots ++ [c.h.trace] } }
        .main (c.logs ++ nextHello r))
  /-- dht/dht.go:50, 56: a `BootStrap` call fails; its records come first -/
  | bootFails {s host addr r} {O : Oracle} {p : Panic} {c : LSt} : s.dying = none → s.hosts = (host, addr) :: r →
      s.pg.st.pc = .boot (addr :: r.map Prod.snd) → O.Fair →
      bootCallL K L O host addr { h := { resp := none, trace := [] }, logs := [] } = .panic p c →
      PLogMain K L s ({ s with dying := some c.h.trace }.act s.pg .main c.logs)
  /-- … and then the panic, which nothing recovers -/
  | bootPanic {s tr} : s.dying = some tr →
      PLogMain K L s { s with pg := { s.pg with st := { s.pg.st with pc := .dead, boots := s.pg.st.boots ++ [tr] } } }
  /-- cmd/root.go:50-51, misc/shutdown.go:47, dht/dht.go:23-28: from here on there is the goroutine of `Run`, too -/
  | run {s : PLogSt} : s.pg.st.pc = .boot [] →
      PLogMain K L s ((s.act { s.pg with st := { s.pg.st with pc := .register (registrations K) } } .main
          [sdRec b!"blocking in main goroutinue..." none]).act { s.pg with st := { s.pg.st with pc := .register (registrations K) } } .run
          [dhtRec b!"start run dht...", dhtRec b!"register middleware...", dhtRec b!"register request handler..."])
  /-- misc/shutdown.go:46-68; the signal is SIGINT or SIGTERM (misc/shutdown.go:101) -/
  | wait {s p sig} : sig ∈ [b!"interrupt", b!"terminated"] → PgMain s.pg p → PLogMain K L s (s.act p .main (waitSays sig p.main))

/-- The goroutine of `Run`. -/
inductive PLogRun (K : KEnv) (L : LifeEnv) : PLogSt → PLogSt → Prop where
  /-- dht/dht.go:29-32 -/
  | register {s q h r} {O : Oracle} {H' : Handlers} : s.pg.st.pc = .register ((q, h) :: r) →
      RegisteHandler K.env.fold (withRouter K O s.pg.st.router) q (some h) = .ok H' →
      PLogRun K L s (s.act { s.pg with st := { s.pg.st with pc := .register r, router := H'.router } } .run [])
  /-- dht/dht.go:34 -/
  | registered {s : PLogSt} : s.pg.st.pc = .register [] →
      PLogRun K L s (s.act { s.pg with st := { s.pg.st with pc := .spawnFetch } } .run [dhtRec b!"enter fetchTorrent loop..."])
  /-- dht/dht.go:35 -/
  | fetch {s : PLogSt} : s.pg.st.pc = .spawnFetch →
      PLogRun K L s (s.act { s.pg with st := { s.pg.st with pc := .registerClean, fetching := true } } .run [])
  /-- dht/dht.go:37-42, dht/krpc/server.go:38, misc/workpool.go:31 -/
  | clean {s : PLogSt} : s.pg.st.pc = .registerClean →
      PLogRun K L s (s.act { s.pg with st := { s.pg.st with pc := .listen, cleanup := true } } .run
        [dhtRec b!"enter listen loop...", poolReady])
  /-- dht/krpc/server.go:41-42 -/
  | take {s : PLogSt} {p q} : s.pg.st.pc = .listen → s.pg.st.queue = p :: q →
      PLogRun K L s (s.act { s.pg with st := { s.pg.st with queue := q, taken := s.pg.st.taken ++ [(p, s.pg.st.router)] } } .run [rpcReceived K p])

/-- The goroutine of the clean-up function. -/
inductive PLogCloser (L : LifeEnv) : PLogSt → PLogSt → Prop where
  /-- dht/krpc/udp.go:41 -/
  | store {s : PLogSt} : s.pg.closer = .begin → PLogCloser L s (s.act { s.pg with closer := .stored, closed := true } .closer [])
  /-- dht/krpc/udp.go:43, dht/krpc/server.go:53, dht/dht.go:39 -/
  | close {s : PLogSt} : s.pg.closer = .stored →
      PLogCloser L s (s.act { s.pg with closer := .returned, connOpen := false } .closer
        [connClosed, dhtRec b!"rpcserver closed..."])
  /-- misc/shutdown.go:86 -/
  | done {s : PLogSt} : s.pg.closer = .returned →
      PLogCloser L s (s.act { s.pg with closer := .done, wg := s.pg.wg - 1, killed := decide (s.pg.wg - 1 < 0) } .closer [])

/-- The receive goroutine, dht/krpc/udp.go:96-107. -/
inductive PLogRcv (K : KEnv) : PLogSt → PLogSt → Prop where
  | test {s : PLogSt} : s.pg.rcv = .top → PLogRcv K s (s.act { s.pg with rcv := if s.pg.closed then .stopped else .reading } .rcv [])
  | read {s : PLogSt} (p : RecvPacket) : s.pg.rcv = .reading → s.pg.connOpen = true →
      PLogRcv K s (s.act { s.pg with rcv := .sending p, got := s.pg.got ++ [p] } .rcv [udpReceived K p])
  | readErr {s : PLogSt} (e : Bytes) : s.pg.rcv = .reading → PLogRcv K s (s.act { s.pg with rcv := .top } .rcv [udpReceiveErr e])
  | deliver {s : PLogSt} {p} : s.pg.rcv = .sending p → s.pg.st.queue.length < recvqCap →
      PLogRcv K s (s.act { s.pg with rcv := .top, st := { s.pg.st with queue := s.pg.st.queue ++ [p], arrived := s.pg.st.arrived ++ [p] } } .rcv [])

/-- The goroutine of `runCleans` (misc/shutdown.go:80-91) and the signals. -/
inductive PLogQuiet (L : LifeEnv) : PLogSt → PLogSt → Prop where
  | signal {s : PLogSt} : PLogQuiet L s { s with pg := { s.pg with sig := true, signals := s.pg.signals + 1 } }
  | add {s : PLogSt} : s.pg.cleaner = .add → PLogQuiet L s { s with pg := { s.pg with cleaner := .range, added := s.pg.cleans, wg := s.pg.cleans } }
  | rangeNone {s : PLogSt} : s.pg.cleaner = .range → s.pg.cleans = 0 → PLogQuiet L s { s with pg := { s.pg with cleaner := .waiting } }
  /-- the new goroutine begins with the record of dht/krpc/udp.go:40 -/
  | rangeOne {s : PLogSt} : s.pg.cleaner = .range → s.pg.cleans = 1 →
      PLogQuiet L s (s.act { s.pg with cleaner := .waiting, closer := .begin } .closer
        [connClosing L])
  | wait {s : PLogSt} : s.pg.cleaner = .waiting → s.pg.wg = 0 → PLogQuiet L s { s with pg := { s.pg with cleaner := .sending } }

/-- A step of the process; a dead process takes none. -/
inductive PLogStep (K : KEnv) (L : LifeEnv) : PLogSt → PLogSt → Prop where
  /-- a goroutine writes its next record -/
  | write {s r q} (g : Gor) : s.pg.alive → s.pend g = r :: q → PLogStep K L s { s with pend := upd s.pend g q, log := s.log ++ [(g, r)] }
  | main {s t} : s.pg.alive → s.pend .main = [] → PLogMain K L s t → PLogStep K L s t
  | run {s t} : s.pg.alive → s.pend .run = [] → PLogRun K L s t → PLogStep K L s t
  | closer {s t} : s.pg.alive → s.pend .closer = [] → PLogCloser L s t → PLogStep K L s t
  | rcv {s t} : s.pg.alive → s.pend .rcv = [] → PLogRcv K s t → PLogStep K L s t
  | quiet {s t} : s.pg.alive → PLogQuiet L s t → PLogStep K L s t

/-- the states of the program started with these bootstrap hosts -/
abbrev PLogReach (K : KEnv) (L : LifeEnv) (hosts : List (Bytes × Option UDPAddr)) : PLogSt → Prop := Reach (PLogInit hosts) (PLogStep K L)

end P2P

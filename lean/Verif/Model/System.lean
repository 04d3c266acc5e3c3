import Verif.Model.Program
import Verif.Model.Whole
import Verif.Model.Local
import Verif.Props.Pipeline
/-! # The whole program as one system

`Model/Program` (start-up, signals, shutdown, the receive goroutine), `Model/Pipeline` (the queue of received packets, the packet handlers, the channel of
jobs, the downloads), `Model/Whole` (the files), and the objects the packet handlers and the bootstrap share (pending requests, transaction counter, route
table) in one transition system, coupled as the program couples them:

* a datagram the receive goroutine hands on (dht/krpc/udp.go:105) is the packet that enters the pipeline; the loop of `Listen` (dht/krpc/server.go:40-47) takes it
  only once it runs, that is after bootstrapping and the registrations;
* the answers the handlers get (a pending request, a transaction id, what the route table says) are those of the shared objects at that moment;
* a write to the socket fails once the socket has been closed;
* nothing happens any more once the process has ended: the main goroutine has returned, a panic nobody recovers, or no memory is left.

Here nothing about the handlers is fixed in advance: what a handler does next is what its code does after what it has done so far.

Simplifications: those of the parts; the datagrams (`pkts`) and the peers (`conn`) are fixed in advance, about which nothing is assumed. A call of `BootStrap`
is one step: while the main goroutine bootstraps, no handler runs (C101), so nobody else touches the shared objects. -/
namespace P2P

/-- everything outside the program, and its configuration -/
structure SysEnv where
  K : KEnv
  /-- the bootstrap hosts, resolved (cmd/root.go:47-49) -/
  hosts : List (Option UDPAddr)
  /-- the `p`-th datagram that is read -/
  pkts : Nat → RecvPacket
  /-- config/config.go:21-30: size of the RPC server's pool -/
  W1 : Nat
  /-- config/config.go:21-30: capacity of `recvInfoHash` -/
  Q : Nat
  /-- config/config.go:21-30: size of the pool of the downloads -/
  W2 : Nat
  /-- the directory `torrent` exists -/
  dir : Bool
  /-- the peers: what happens when the download for packet `p` connects to an address -/
  conn : Nat → Bytes → PEnv
  fuel : Nat
  mem : Nat → Nat → Bytes
  pool : Nat → BPool

structure SysSt where
  pg : PgSt
  pl : PlSt
  fs : FsSt
  w : World
  /-- the runtime has found no memory for a download and has ended the process -/
  oom : Bool

/-- the process lives -/
def SysSt.up (s : SysSt) : Prop := s.pg.alive ∧ s.oom = false

/-- What handlers that have done what the log says, and nothing else yet, may do altogether: `tr p` are all interactions of the handler of packet `p`
(`dhtPacket`, `Model/Dht`) under some answers, and those so far are the first of them; all of them, if the handler has returned. -/
def Continues (S : SysEnv) (s : SysSt) (tr : Nat → List Event) : Prop :=
  ∀ p, (∃ O run, O.Fair ∧ dhtPacket S.K O (S.pkts p) = some run ∧ tr p = run.trace) ∧
    logOf p s.pl.log <+: tr p ∧ (p ∈ s.pl.p1.finished → tr p = logOf p s.pl.log)

/-- what the download for packet `p` leads to: `fetchHandler` (dht/fetchtorrent.go:27-44) for the job its handler has sent -/
def SysSt.outs (S : SysEnv) (s : SysSt) (p : Nat) : HandlerOut :=
  match enqueued (logOf p s.pl.log) with
  | job :: _ => fetchHandler S.K.env (S.conn p) sha1Sum S.fuel LocalPeerId (S.mem p) (S.pool p) job
  | [] => .nothing

/-- After package initialisation: `port` is the configured one, `fs0` the files that are there; no request is pending, the transaction counter starts at 1000
and the route table has the program itself (dht/dht.go:18-20). -/
def SysInit (S : SysEnv) (port : Int) (fs0 : Bytes → Option Bytes) (s : SysSt) : Prop :=
  PgInit S.hosts s.pg ∧ PlInit S.W1 S.W2 s.pl ∧ FsInit fs0 s.fs ∧ initialTable port = .ok s.w.table ∧ s.w.reqs = [] ∧ s.w.txId = firstTxId ∧ s.oom = false

inductive SysStep (S : SysEnv) : SysSt → SysSt → Prop where
  /-- start-up (other than bootstrapping), signals, shutdown, the receive goroutine's tests and failing reads -/
  | life {s : SysSt} {pg : PgSt} : s.up → PgStep S.K s.pg pg → pg.got = s.pg.got → pg.st.boots = s.pg.st.boots → pg.st.queue = s.pg.st.queue →
      SysStep S s { s with pg := pg }
  /-- cmd/root.go:47-49: one call of `BootStrap` -/
  | boot {s : SysSt} {pg : PgSt} {w : World} (tr : List Event) : s.up → PgStep S.K s.pg pg → pg.st.boots = s.pg.st.boots ++ [tr] →
      s.w.replay S.K.env tr = some w → SysStep S s { s with pg := pg, w := w }
  /-- dht/krpc/udp.go:99 -/
  | read {s : SysSt} {pg : PgSt} : s.up → PgStep S.K s.pg pg → pg.got = s.pg.got ++ [S.pkts s.pg.got.length] → SysStep S s { s with pg := pg }
  /-- dht/krpc/udp.go:105 -/
  | deliver {s : SysSt} {pg : PgSt} (x : RecvPacket) : s.up → PgStep S.K s.pg pg → pg.st.arrived = s.pg.st.arrived ++ [x] →
      SysStep S s { s with pg := pg, pl := { s.pl with recvq := s.pl.recvq ++ [s.pl.arrived], arrived := s.pl.arrived + 1 } }
  /-- dht/krpc/server.go:41 -/
  | take {s : SysSt} {pg : PgSt} (x : RecvPacket × List (Bytes × Handler)) (p : Nat) (q : List Nat) : s.up → PgStep S.K s.pg pg →
      pg.st.taken = s.pg.st.taken ++ [x] → s.pl.l = .recv → s.pl.recvq = p :: q →
      SysStep S s { s with pg := pg, pl := { s.pl with l := .hold p, recvq := q } }
  /-- a step of `Listen` within `AsyncSubmit`, of a worker, of a packet handler (one interaction `new`, answered by the shared objects), of the goroutine
  of `fetchTorrent` or of its pool (dht/fetchtorrent.go:18: they exist from dht/dht.go:35 on) -/
  | pipe {s : SysSt} {pl : PlSt} {w : World} {tr : Nat → List Event} (new : List (Nat × Event)) : s.up → Continues S s tr → PlStep tr S.W1 S.Q S.W2 s.pl pl →
      pl.arrived = s.pl.arrived → pl.recvq = s.pl.recvq → pl.p2.finished = s.pl.p2.finished → pl.log = s.pl.log ++ new →
      s.w.replay S.K.env (new.map Prod.snd) = some w →
      (∀ p to b f, (p, Event.send to b f) ∈ new → s.pg.connOpen = false → f = true) →
      (s.pg.st.fetching = true ∨ (pl.f = s.pl.f ∧ pl.p2 = s.pl.p2)) →
      SysStep S s { s with pl := pl, w := w }
  /-- a step of `flushTorrentFile` called by the worker `i`, which runs the download of packet `p` (as in `Model/Whole`) -/
  | file {s : SysSt} {fs : FsSt} (i p : Nat) : s.up → s.pl.p2.workers[i]? = some (.running p) →
      FsStep (fun j => if j = p then flushes (s.outs S) j else none) s.fs fs → (S.dir = false → fs.pc p = .failed) →
      SysStep S s { s with fs := fs }
  /-- `fetchHandler` returns to the pool (misc/workpool.go:42) -/
  | back {s : SysSt} (i p : Nat) : s.up → s.pl.p2.workers[i]? = some (.running p) → HandlerReturns (s.outs S) s.fs p →
      SysStep S s { s with pl := { s.pl with p2 := { s.pl.p2 with workers := s.pl.p2.workers.set i .select, finished := s.pl.p2.finished ++ [p] } } }
  /-- the runtime ends the process: a download asks for more memory than there is (`POut.fatal`) -/
  | fatal {s : SysSt} (i p : Nat) : s.up → s.pl.p2.workers[i]? = some (.running p) → s.outs S p = .fatal → SysStep S s { s with oom := true }

end P2P

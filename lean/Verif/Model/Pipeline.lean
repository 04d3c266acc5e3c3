import Verif.Model.WorkPool
import Verif.Model.Dht
/-! # The whole pipeline: from a received packet to a download

Packets pass through `recvq` (dht/krpc/udp.go:71, 105), the goroutine in `RpcServer.Listen` (dht/krpc/server.go:35-48), the work pool of
the RPC server, the packet handler (server.go:111-144), the channel `recvInfoHash` (dht/fetchtorrent.go:14), the goroutine in
`fetchTorrent` (dht/fetchtorrent.go:16-25) and the work pool of the downloads. Packets are numbered in the order of their arrival in
`recvq`; a job has the number of its packet. The pools are those of `Model/WorkPool`; in this program nobody shuts them down (their
context is `context.Background()`, `Shutdown` is never called) and no task panics (C29; `fetchHandler` recovers every panic), so the
steps of `Model/WorkPool` for that do not occur. The end of the process is the end of a run, at any point. -/
namespace P2P

/-- A goroutine that takes from a channel and submits to a pool (dht/krpc/server.go:40-47, dht/fetchtorrent.go:19-24). -/
inductive FwdPc where
  /-- at the receive -/
  | recv
  /-- in `AsyncSubmit` with item `p`; how far, the pool's `subs p` says -/
  | hold (p : Nat)
deriving DecidableEq

structure PlSt where
  /-- contents of `recvq`, oldest first -/
  recvq : List Nat
  /-- ghost: number of packets that have entered `recvq` -/
  arrived : Nat
  /-- the goroutine of `Listen` -/
  l : FwdPc
  /-- the RPC server's pool -/
  p1 : WpSt
  /-- how many of its interactions the handler of a packet has performed -/
  hdl : Nat → Nat
  /-- contents of `recvInfoHash` -/
  jobs : List Nat
  /-- the goroutine of `fetchTorrent` -/
  f : FwdPc
  /-- the pool of the downloads -/
  p2 : WpSt
  /-- ghost: the interactions performed by all handlers so far, in order -/
  log : List (Nat × Event)
  /-- ghost: the jobs in the order in which the send on dht/requesthandler.go:43 completed -/
  accepted : List Nat

def Event.isEnqueue : Event → Bool
  | .enqueue _ => true
  | _ => false

/-- dht/krpc/udp.go:15 -/
def recvChanLen : Nat := 100

/-- Before any packet has arrived; `W1`, `W2` are the sizes of the pools. -/
def PlInit (W1 W2 : Nat) (s : PlSt) : Prop :=
  s.recvq = [] ∧ s.arrived = 0 ∧ s.l = .recv ∧ WpInit W1 s.p1 ∧ (∀ p, s.hdl p = 0) ∧ s.jobs = [] ∧ s.f = .recv ∧ WpInit W2 s.p2 ∧
  s.log = [] ∧ s.accepted = []

/-- Steps. `tr p` are the interactions of the handler with packet `p` (`PacketRun.trace`, `Model/Krpc`); `Q` is the capacity of
`recvInfoHash`. -/
inductive PlStep (tr : Nat → List Event) (W1 Q W2 : Nat) : PlSt → PlSt → Prop where
  /-- dht/krpc/udp.go:105 -/
  | arrive {s} : s.recvq.length < recvChanLen →
      PlStep tr W1 Q W2 s { s with recvq := s.recvq ++ [s.arrived], arrived := s.arrived + 1 }
  /-- dht/krpc/server.go:41 -/
  | listenTake {s} (p : Nat) (q : List Nat) : s.l = .recv → s.recvq = p :: q →
      PlStep tr W1 Q W2 s { s with l := .hold p, recvq := q }
  /-- misc/workpool.go:49 called on dht/krpc/server.go:44 -/
  | listenCheck {s} (p : Nat) : s.l = .hold p → s.p1.subs p = .start → s.p1.status = .running →
      PlStep tr W1 Q W2 s { s with p1 := { s.p1 with subs := upd s.p1.subs p .sending } }
  /-- misc/workpool.go:52 called on dht/krpc/server.go:44 -/
  | listenSend {s} (p : Nat) : s.l = .hold p → s.p1.subs p = .sending → s.p1.queue.length < W1 →
      PlStep tr W1 Q W2 s { s with
        l := .recv
        p1 := { s.p1 with subs := upd s.p1.subs p .sent, queue := s.p1.queue ++ [p], submitted := s.p1.submitted ++ [p] } }
  /-- misc/workpool.go:36-40 -/
  | select1 {s} (i : Nat) : s.p1.workers[i]? = some .select →
      PlStep tr W1 Q W2 s { s with p1 := { s.p1 with workers := s.p1.workers.set i .recv } }
  /-- misc/workpool.go:41 -/
  | recv1 {s} (i p : Nat) (q : List Nat) : s.p1.workers[i]? = some .recv → s.p1.queue = p :: q →
      PlStep tr W1 Q W2 s { s with
        p1 := { s.p1 with workers := s.p1.workers.set i (.running p), queue := q, started := s.p1.started ++ [p] } }
  /-- an interaction of a packet handler, other than the send to `recvInfoHash` -/
  | handle {s} (i p : Nat) (e : Event) : s.p1.workers[i]? = some (.running p) → (tr p)[s.hdl p]? = some e → e.isEnqueue = false →
      PlStep tr W1 Q W2 s { s with hdl := upd s.hdl p (s.hdl p + 1), log := s.log ++ [(p, e)] }
  /-- dht/requesthandler.go:43: there is room in the channel -/
  | enqueue {s} (i p : Nat) (j : Job) : s.p1.workers[i]? = some (.running p) → (tr p)[s.hdl p]? = some (.enqueue j) →
      s.jobs.length < Q →
      PlStep tr W1 Q W2 s { s with
        hdl := upd s.hdl p (s.hdl p + 1), log := s.log ++ [(p, .enqueue j)], jobs := s.jobs ++ [p], accepted := s.accepted ++ [p] }
  /-- dht/requesthandler.go:43: the receiver is waiting (the only way if `Q = 0`) -/
  | handoff {s} (i p : Nat) (j : Job) : s.p1.workers[i]? = some (.running p) → (tr p)[s.hdl p]? = some (.enqueue j) →
      s.jobs = [] → s.f = .recv →
      PlStep tr W1 Q W2 s { s with
        hdl := upd s.hdl p (s.hdl p + 1), log := s.log ++ [(p, .enqueue j)], f := .hold p, accepted := s.accepted ++ [p] }
  /-- misc/workpool.go:42: the handler returns (it never panics, C29) -/
  | done1 {s} (i p : Nat) : s.p1.workers[i]? = some (.running p) → s.hdl p = (tr p).length →
      PlStep tr W1 Q W2 s { s with p1 := { s.p1 with workers := s.p1.workers.set i .select, finished := s.p1.finished ++ [p] } }
  /-- dht/fetchtorrent.go:20 -/
  | fetchTake {s} (p : Nat) (q : List Nat) : s.f = .recv → s.jobs = p :: q →
      PlStep tr W1 Q W2 s { s with f := .hold p, jobs := q }
  /-- misc/workpool.go:49 called on dht/fetchtorrent.go:21 -/
  | fetchCheck {s} (p : Nat) : s.f = .hold p → s.p2.subs p = .start → s.p2.status = .running →
      PlStep tr W1 Q W2 s { s with p2 := { s.p2 with subs := upd s.p2.subs p .sending } }
  /-- misc/workpool.go:52 called on dht/fetchtorrent.go:21 -/
  | fetchSend {s} (p : Nat) : s.f = .hold p → s.p2.subs p = .sending → s.p2.queue.length < W2 →
      PlStep tr W1 Q W2 s { s with
        f := .recv
        p2 := { s.p2 with subs := upd s.p2.subs p .sent, queue := s.p2.queue ++ [p], submitted := s.p2.submitted ++ [p] } }
  /-- misc/workpool.go:36-40 -/
  | select2 {s} (i : Nat) : s.p2.workers[i]? = some .select →
      PlStep tr W1 Q W2 s { s with p2 := { s.p2 with workers := s.p2.workers.set i .recv } }
  /-- misc/workpool.go:41 -/
  | recv2 {s} (i p : Nat) (q : List Nat) : s.p2.workers[i]? = some .recv → s.p2.queue = p :: q →
      PlStep tr W1 Q W2 s { s with
        p2 := { s.p2 with workers := s.p2.workers.set i (.running p), queue := q, started := s.p2.started ++ [p] } }
  /-- misc/workpool.go:42: `fetchHandler` (dht/fetchtorrent.go:27-44) returns -/
  | done2 {s} (i p : Nat) : s.p2.workers[i]? = some (.running p) →
      PlStep tr W1 Q W2 s { s with p2 := { s.p2 with workers := s.p2.workers.set i .select, finished := s.p2.finished ++ [p] } }

end P2P

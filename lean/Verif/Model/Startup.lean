import Verif.Spec.Krpc
import Verif.Lts
/-! # Model of the start-up sequence (cmd/root.go:36-54, dht/dht.go:22-58, dht/krpc/server.go:35-48)

The main goroutine bootstraps from the configured hosts one after the other (a panic there ends the process), then
starts `dht.Run` on a new goroutine, which registers the handlers, starts the torrent loop, registers the
clean-up and enters `Listen`. The UDP receive goroutine has been running since package initialisation
(`rpcServer` is a package variable, dht/dht.go:19), so packets may arrive at any moment. -/
namespace P2P

/-- Where the start-up sequence is. -/
inductive StPc where
  /-- main: cmd/root.go:47-49, still to contact these hosts (`none`: the host does not resolve) -/
  | boot (hosts : List (Option UDPAddr))
  /-- `Run`: dht/dht.go:29-32, still to register these -/
  | register (todo : List (Bytes × Handler))
  /-- `Run`: dht/dht.go:35 -/
  | spawnFetch
  /-- `Run`: dht/dht.go:37-40 -/
  | registerClean
  /-- `Run`: in the loop of `Listen`, dht/krpc/server.go:35-48 -/
  | listen
  /-- a panic of `BootStrap` ended the process -/
  | dead

/-- State of the starting program. -/
structure StSt where
  pc : StPc
  router : List (Bytes × Handler)
  /-- `recvq` (dht/krpc/udp.go:86) -/
  queue : List RecvPacket
  /-- the torrent loop is running -/
  fetching : Bool
  /-- the clean-up function is registered -/
  cleanup : Bool
  /-- ghost: interactions of the `BootStrap` calls so far -/
  boots : List (List Event)
  /-- ghost: packets put into `recvq` so far -/
  arrived : List RecvPacket
  /-- ghost: packets taken by `Listen`, with the handlers registered at that moment -/
  taken : List (RecvPacket × List (Bytes × Handler))

/-- the registrations dht/dht.go:29-32, in order -/
def registrations (K : KEnv) : List (Bytes × Handler) :=
  [(b!"ping", pingHandler K), (b!"find_node", findNodeHandler K), (b!"get_peers", getPeersHandler K),
    (b!"announce_peer", announcePeerHandler K)]

/-- process start: package initialisation is over (`NewRpcServer`, dht/krpc/server.go:24-33) -/
def StSt.start (hosts : List (Option UDPAddr)) (s : StSt) : Prop :=
  s = { pc := .boot hosts, router := [], queue := [], fetching := false, cleanup := false, boots := [],
        arrived := [], taken := [] }

/-- the server with the handlers `r` registered -/
def withRouter (K : KEnv) (O : Oracle) (r : List (Bytes × Handler)) : Handlers :=
  { emptyHandlers K O with router := r }

/-- `RecvChanLen` (dht/krpc/udp.go:14) -/
def recvqCap : Nat := 100

/-- Steps of the main goroutine and of `Run`. -/
inductive StMain (K : KEnv) : StSt → StSt → Prop where
  /-- cmd/root.go:47-49: one `BootStrap` call that returns -/
  | bootOk {s : StSt} {h : Option UDPAddr} {r : List (Option UDPAddr)} {O : Oracle} {c : HSt} :
      s.pc = .boot (h :: r) → O.Fair → BootStrap K O h { resp := none, trace := [] } = .ok () c →
      StMain K s { s with pc := .boot r, boots := s.boots ++ [c.trace] }
  /-- cmd/root.go:47-49: one `BootStrap` call that panics; nothing recovers -/
  | bootPanic {s : StSt} {h : Option UDPAddr} {r : List (Option UDPAddr)} {O : Oracle} {p : Panic} {c : HSt} :
      s.pc = .boot (h :: r) → O.Fair → BootStrap K O h { resp := none, trace := [] } = .panic p c →
      StMain K s { s with pc := .dead, boots := s.boots ++ [c.trace] }
  /-- cmd/root.go:50 `go dht.Run()` -/
  | run {s : StSt} : s.pc = .boot [] → StMain K s { s with pc := .register (registrations K) }
  /-- dht/dht.go:29-32: one `RegisteHandler` call (dht/krpc/server.go:82-92); a panic would end the process -/
  | register {s : StSt} {q : Bytes} {h : Handler} {r : List (Bytes × Handler)} {O : Oracle} {H' : Handlers} :
      s.pc = .register ((q, h) :: r) →
      RegisteHandler K.env.fold (withRouter K O s.router) q (some h) = .ok H' →
      StMain K s { s with pc := .register r, router := H'.router }
  | registered {s : StSt} : s.pc = .register [] → StMain K s { s with pc := .spawnFetch }
  /-- dht/dht.go:35 `go fetchTorrent()` -/
  | fetch {s : StSt} : s.pc = .spawnFetch → StMain K s { s with pc := .registerClean, fetching := true }
  /-- dht/dht.go:37-40 -/
  | clean {s : StSt} : s.pc = .registerClean → StMain K s { s with pc := .listen, cleanup := true }
  /-- dht/krpc/server.go:35-48: take one packet; what happens to it then is `Model/Pipeline` -/
  | take {s : StSt} {p : RecvPacket} {q : List RecvPacket} : s.pc = .listen → s.queue = p :: q →
      StMain K s { s with queue := q, taken := s.taken ++ [(p, s.router)] }

/-- All steps: also the receive goroutine (dht/krpc/udp.go:96-107), which waits while the queue is full. -/
inductive StStep (K : KEnv) : StSt → StSt → Prop where
  | main {s t : StSt} : StMain K s t → StStep K s t
  | arrive {s : StSt} (p : RecvPacket) : s.pc ≠ .dead → s.queue.length < recvqCap →
      StStep K s { s with queue := s.queue ++ [p], arrived := s.arrived ++ [p] }

end P2P

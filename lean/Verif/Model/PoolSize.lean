import Verif.Model.WorkPool
import Verif.Model.Startup
/-! # The configured sizes of the two pools

`config.DhtConfig().WorkPoolSize` and `config.FetchTorrentConfig().WorkPoolSize` are whatever the file says: any integers. Both pools are made late: after
bootstrapping and the registrations, the one of the downloads by the goroutine of `fetchTorrent` (dht/fetchtorrent.go:18), the one of the server by the goroutine of
`Run`, at the beginning of `Listen` (dht/krpc/server.go:38). Here: the start-up sequence of `Model/Startup` with the making of the pools.

Simplification: what the pools do once they exist is `Model/Pipeline` and `Model/System`, for sizes of type `Nat`. -/
namespace P2P

/-- a pool of `size` workers that has done nothing yet (misc/workpool.go:24-32, 97-105) -/
def freshPool (size : Nat) : WpSt where
  status := .running
  queue := []
  closed := false
  wg := size
  workers := List.replicate size .select
  subs := fun _ => .start
  shuts := fun c => if c = 0 then .listening else .check
  cancelled := false
  dead := false
  submitted := []
  started := []
  finished := []

/-- `NewWorkPool` (misc/workpool.go:96-108). The first thing that can fail is `make(chan AsyncWorkFunc, size)` (line 100): Go panics if the size is negative or the
memory for the buffer cannot be addressed (`maxChan`, a number that depends on the platform). Nothing has been started by then. -/
def newWorkPool (maxChan size : Int) : Res WpSt :=
  if size < 0 ∨ maxChan < size then .panic .runtime else .ok (freshPool size.toNat)

structure SizeSt where
  st : StSt
  /-- the pool of the server, once it is made -/
  server : Option WpSt
  /-- the pool of the downloads, once it is made -/
  downloads : Option WpSt
  /-- a panic of `NewWorkPool` has ended the process (nothing recovers in `Run` or `fetchTorrent`) -/
  died : Bool

def SizeInit (hosts : List (Option UDPAddr)) (s : SizeSt) : Prop :=
  s.st.start hosts ∧ s.server = none ∧ s.downloads = none ∧ s.died = false

/-- steps of the main goroutine and of `Run` -/
inductive RunStep (K : KEnv) (maxChan size1 : Int) : SizeSt → SizeSt → Prop where
  /-- start-up before `Listen`: cmd/root.go:47-50, dht/dht.go:22-41 -/
  | startup {s : SizeSt} {t : StSt} : s.died = false → StMain K s.st t → t.taken = s.st.taken → RunStep K maxChan size1 s { s with st := t }
  /-- dht/krpc/server.go:38 -/
  | make {s : SizeSt} {p : WpSt} : s.died = false → s.st.pc = .listen → s.server = none → newWorkPool maxChan size1 = .ok p →
      RunStep K maxChan size1 s { s with server := some p }
  /-- dht/krpc/server.go:38: no such pool -/
  | makePanics {s : SizeSt} {x : Panic} : s.died = false → s.st.pc = .listen → s.server = none → newWorkPool maxChan size1 = .panic x →
      RunStep K maxChan size1 s { s with died := true }
  /-- dht/krpc/server.go:41 -/
  | take {s : SizeSt} {t : StSt} : s.died = false → s.server ≠ none → StMain K s.st t → t.taken ≠ s.st.taken → RunStep K maxChan size1 s { s with st := t }

/-- steps of the goroutine of `fetchTorrent`, which dht/dht.go:35 starts -/
inductive FetchStep (maxChan size2 : Int) : SizeSt → SizeSt → Prop where
  /-- dht/fetchtorrent.go:18 -/
  | make {s : SizeSt} {p : WpSt} : s.died = false → s.st.fetching = true → s.downloads = none → newWorkPool maxChan size2 = .ok p →
      FetchStep maxChan size2 s { s with downloads := some p }
  /-- dht/fetchtorrent.go:18: no such pool -/
  | makePanics {s : SizeSt} {x : Panic} : s.died = false → s.st.fetching = true → s.downloads = none → newWorkPool maxChan size2 = .panic x →
      FetchStep maxChan size2 s { s with died := true }

inductive SizeStep (K : KEnv) (maxChan size1 size2 : Int) : SizeSt → SizeSt → Prop where
  | run {s t : SizeSt} : RunStep K maxChan size1 s t → SizeStep K maxChan size1 size2 s t
  | fetch {s t : SizeSt} : FetchStep maxChan size2 s t → SizeStep K maxChan size1 size2 s t
  /-- the receive goroutine, dht/krpc/udp.go:96-107 -/
  | arrive {s : SizeSt} (p : RecvPacket) : s.died = false → s.st.pc ≠ .dead → s.st.queue.length < recvqCap →
      SizeStep K maxChan size1 size2 s { s with st := { s.st with queue := s.st.queue ++ [p], arrived := s.st.arrived ++ [p] } }

end P2P

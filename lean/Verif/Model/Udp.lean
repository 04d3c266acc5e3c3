import Verif.Model.BytesPool
import Verif.Model.Krpc
/-! # Model of dht/krpc/udp.go, `RpcServer.Listen` and the life of a packet buffer

The goroutines: the receive routine, the goroutine in `Listen`, the work pool's workers, callers of
`Close`. Array contents are modelled (`mem`), so that a buffer reused too early would be seen. The pool
operations are single steps here: `loadOrStore` only adds empty channels and commutes with everything
(the two-step version is in `Model/BytesPool`). -/
namespace P2P

/-- dht/krpc/udp.go:14-15 -/
def RecvPacketLen : Nat := 1024
def RecvChanLen : Nat := 100

/-- dht/krpc/udp.go:17-20: what travels through the channels: the source address and a slice of a pooled
buffer. Ghost: `data` – what the kernel delivered; `no` – how many datagrams had been read before. -/
structure UdpPacket where
  addr : UDPAddr
  buf : Slice
  data : Bytes
  no : Nat
deriving DecidableEq

/-- Where the receive routine is (dht/krpc/udp.go:96-107). -/
inductive RecvPc where
  /-- before the loop test -/
  | top
  /-- after the loop test, before taking a buffer -/
  | loop
  /-- in `ReadFromUDP` with this buffer -/
  | reading (b : Slice)
  /-- before `s.recvq <- packet` -/
  | sending (p : UdpPacket)
  | stopped
deriving DecidableEq

/-- A call of `recvPacketHandle` by a worker (dht/krpc/server.go:111-144): what `string(packet.Bytes)`
(line 121) read, if that was executed. -/
structure Handling where
  pkt : UdpPacket
  seen : Option Bytes
deriving DecidableEq

/-- Where a caller of `Close` is (dht/krpc/udp.go:30-46). -/
inductive ClosePc where
  | idle
  /-- `closed` was false, before `Lock` -/
  | checked
  /-- holding the lock, before `closed.Store(true)` -/
  | locked
  /-- holding the lock, `closed` stored, before `conn.Close()` -/
  | stored
  /-- returned; `err` says whether `conn.Close()` failed -/
  | returned (err : Bool)
deriving DecidableEq

/-- The whole system. Ghosts: `received` – all packets read, `started` – all packets whose handling was
started, `finished` – all finished calls with what they decoded, `leaked` – buffers dropped after a read
error. -/
structure UdpSt where
  pool : BPool
  mem : Nat → Bytes
  rpc : RecvPc
  recvq : List UdpPacket
  /-- the packet `Listen` is submitting to the work pool -/
  listen : Option UdpPacket
  /-- the work pool's queue (FIFO, see `C48`) -/
  queue : List UdpPacket
  active : List Handling
  closed : Bool
  connOpen : Bool
  lock : Option Nat
  closer : Nat → ClosePc
  received : List UdpPacket
  started : List UdpPacket
  finished : List Handling
  leaked : List Nat

/-- bytes of a slice -/
def readSlice (mem : Nat → Bytes) (b : Slice) : Bytes := ((mem b.arr).drop b.off).take b.len

/-- `copy(b, data)` for `data` no longer than the slice: overwrite the beginning of the slice -/
def writeSlice (mem : Nat → Bytes) (b : Slice) (data : Bytes) : Nat → Bytes :=
  upd mem b.arr ((mem b.arr).take b.off ++ data ++ (mem b.arr).drop (b.off + data.length))

/-- `StartUdpServer` (dht/krpc/udp.go:73-94) with the pool of dht/krpc/server.go:13 -/
def UdpSt.init (s : UdpSt) : Prop :=
  NewBytesPool 10000 100 0 = .ok s.pool ∧ s.mem = (fun _ => []) ∧ s.rpc = .top ∧ s.recvq = [] ∧ s.listen = none ∧ s.queue = [] ∧
    s.active = [] ∧ s.closed = false ∧ s.connOpen = true ∧ s.lock = none ∧ (∀ g, s.closer g = .idle) ∧ s.received = [] ∧
    s.started = [] ∧ s.finished = [] ∧ s.leaked = []

/-- One step of one goroutine. -/
inductive UdpStep : UdpSt → UdpSt → Prop where
  /-- dht/krpc/udp.go:97 -/
  | test {s : UdpSt} : s.rpc = .top → UdpStep s { s with rpc := if s.closed then .stopped else .loop }
  /-- dht/krpc/udp.go:98, a pooled buffer -/
  | getOld {s : UdpSt} {b : Slice} {p : BPool} : s.rpc = .loop → s.pool.GetBySize RecvPacketLen = .ok (b, p) →
      p.fresh = s.pool.fresh → UdpStep s { s with pool := p, rpc := .reading b }
  /-- dht/krpc/udp.go:98, a new buffer (zeroed) -/
  | getNew {s : UdpSt} {b : Slice} {p : BPool} : s.rpc = .loop → s.pool.GetBySize RecvPacketLen = .ok (b, p) →
      p.fresh ≠ s.pool.fresh →
      UdpStep s { s with pool := p, rpc := .reading b, mem := upd s.mem b.arr (List.replicate b.cap 0) }
  /-- dht/krpc/udp.go:99, a datagram from `addr` arrives; what does not fit into the buffer is lost -/
  | recv {s : UdpSt} {b : Slice} (addr : UDPAddr) (datagram : Bytes) : s.rpc = .reading b → s.connOpen = true →
      UdpStep s { s with
        mem := writeSlice s.mem b (datagram.take b.len)
        rpc := .sending { addr, buf := { b with len := (datagram.take b.len).length }, data := datagram.take b.len,
                          no := s.received.length }
        received := s.received ++ [{ addr, buf := { b with len := (datagram.take b.len).length },
                                     data := datagram.take b.len, no := s.received.length }] }
  /-- dht/krpc/udp.go:99-103, `ReadFromUDP` fails (at any time, in particular once the socket is closed); the
  buffer is not put back -/
  | recvErr {s : UdpSt} {b : Slice} : s.rpc = .reading b → UdpStep s { s with rpc := .top, leaked := b.arr :: s.leaked }
  /-- dht/krpc/udp.go:105 -/
  | enqueue {s : UdpSt} {p : UdpPacket} : s.rpc = .sending p → s.recvq.length < RecvChanLen →
      UdpStep s { s with rpc := .top, recvq := s.recvq ++ [p] }
  /-- dht/krpc/server.go:41 -/
  | take {s : UdpSt} {p : UdpPacket} {r : List UdpPacket} : s.listen = none → s.recvq = p :: r →
      UdpStep s { s with listen := some p, recvq := r }
  /-- dht/krpc/server.go:44-46 (`AsyncSubmit`) -/
  | submit {s : UdpSt} {p : UdpPacket} : s.listen = some p →
      UdpStep s { s with listen := none, queue := s.queue ++ [p] }
  /-- a worker takes the task -/
  | start {s : UdpSt} {p : UdpPacket} {r : List UdpPacket} : s.queue = p :: r →
      UdpStep s { s with queue := r, active := s.active ++ [{ pkt := p, seen := none }], started := s.started ++ [p] }
  /-- dht/krpc/server.go:121 -/
  | decode {s : UdpSt} {p : UdpPacket} {l r : List Handling} : s.active = l ++ { pkt := p, seen := none } :: r →
      UdpStep s { s with active := l ++ { pkt := p, seen := some (readSlice s.mem p.buf) } :: r }
  /-- dht/krpc/server.go:117; reading the packet (line 121) is the first thing the call does -/
  | finish {s : UdpSt} {h : Handling} {l r : List Handling} : s.active = l ++ h :: r → h.seen.isSome = true →
      UdpStep s { s with active := l ++ r, pool := s.pool.Put h.pkt.buf, finished := s.finished ++ [h] }
  /-- dht/krpc/udp.go:31 -/
  | closeTest {s : UdpSt} (g : Nat) : s.closer g = .idle →
      UdpStep s { s with closer := upd s.closer g (if s.closed then .returned false else .checked) }
  /-- dht/krpc/udp.go:35 -/
  | closeLock {s : UdpSt} {g : Nat} : s.closer g = .checked → s.lock = none →
      UdpStep s { s with closer := upd s.closer g .locked, lock := some g }
  /-- dht/krpc/udp.go:41 -/
  | closeStore {s : UdpSt} {g : Nat} : s.closer g = .locked →
      UdpStep s { s with closer := upd s.closer g .stored, closed := true }
  /-- dht/krpc/udp.go:43 and the deferred `Unlock`; closing a closed connection is an error -/
  | closeConn {s : UdpSt} {g : Nat} : s.closer g = .stored →
      UdpStep s { s with closer := upd s.closer g (.returned (!s.connOpen)), connOpen := false, lock := none }

end P2P

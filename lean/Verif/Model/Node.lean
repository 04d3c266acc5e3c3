import Verif.Model.Types
import Verif.Lts
/-! # Model of dht/node.go -/
namespace P2P

/-- `net.UDPAddr`. This code never sets the IPv6 zone; `ReadFromUDP` (dht/krpc/udp.go:65) sets it for a sender with a link-local address. -/
structure UDPAddr where
  ip : Bytes
  port : Int
  zone : Bytes := []
deriving DecidableEq, Repr

/-- dht/node.go:36-39 -/
structure NodeInfo where
  id : Bytes
  addr : UDPAddr
deriving DecidableEq, Repr

/-- `net.IP.To4` (Go standard library); the empty slice stands for nil. -/
def to4 (ip : Bytes) : Bytes :=
  if ip.length = 4 then ip
  else if ip.length = 16 ∧ ip.take 10 = List.replicate 10 0 ∧ slice ip 10 12 = [0xff, 0xff] then ip.drop 12
  else []

/-- `uint16(port)` -/
def u16 (port : Int) : Nat := (port % 65536).toNat

/-- Go slicing of a string with its bounds check. -/
def goSlice (s : Bytes) (a b : Nat) : Res Bytes :=
  if a ≤ b ∧ b ≤ s.length then .ok (slice s a b) else .panic .runtime

/-- dht/node.go:67-78; a node is written as id, IPv4 (nothing if the IP is not IPv4), port -/
def joinNodeInfos : List NodeInfo → Bytes
  | [] => []
  | n :: r => n.id ++ to4 n.addr.ip ++ be16 (u16 n.addr.port) ++ joinNodeInfos r

/-- body of the loop dht/node.go:82-89 -/
def parseNodeAt (infos : Bytes) (i : Nat) : Res NodeInfo := do
  let j := i * 26
  let bytes ← goSlice infos (j + 20) (j + 26)
  let id ← goSlice infos j (j + 20)
  let ip ← goSlice bytes 0 4
  let port ← goSlice bytes 4 6
  pure { id := id, addr := { ip := ip, port := beVal port } }

/-- dht/node.go:80-91 -/
def parseNodeInfo (infos : Bytes) : Res (List NodeInfo) :=
  (List.range (infos.length / 26)).mapM (parseNodeAt infos)

/-- `[]byte(s)` seen up to its capacity: the runtime rounds the capacity up to `cap len(s) ≥ len(s)`
(a parameter) and zeroes the extra bytes. -/
def bytesWithCap (cap : Nat → Nat) (s : Bytes) : Bytes :=
  s ++ List.replicate (cap s.length - s.length) 0

/-- body of the loop dht/node.go:95-102; reslicing is checked against the *capacity* -/
def parsePeerAt (cap : Nat → Nat) (vals : List GoVal) (i : Nat) : Res UDPAddr := do
  let val ← GoList.GetString vals i
  let bytes := bytesWithCap cap val
  let ip ← goSlice bytes 0 4
  let port ← goSlice bytes 4 6
  pure { ip := ip, port := beVal port }

/-- dht/node.go:93-105 -/
def parsePeerInfo (cap : Nat → Nat) (vals : List GoVal) : Res (List UDPAddr) :=
  (List.range vals.length).mapM (parsePeerAt cap vals)

/-- dht/node.go:107-118 -/
def joinPeerInfos : List UDPAddr → List GoVal
  | [] => []
  | a :: r => .str (to4 a.ip ++ be16 (u16 a.port)) :: joinPeerInfos r

/-- dht/node.go:30-34, the text made from a 16-bit value -/
def txIdText (v : UInt16) : Bytes := hexEncode (be16 v.toNat)

/-! ## `TxIdGenerator` used by several goroutines -/

/-- Where a goroutine is inside `TxIdGenerator.Next` (dht/node.go:23-34). `ticket` is a ghost number:
the position of the call in the order of lock acquisitions. -/
inductive TxPc where
  /-- not inside `Next` -/
  | idle
  /-- about to `g.Lock()` (line 25) -/
  | waiting
  /-- lock held, before `g.txId++` (line 26) -/
  | locked (ticket : Nat)
  /-- lock held, before evaluating `return g.txId` (line 27) -/
  | bumped (ticket : Nat)
  /-- lock held, result evaluated, before the deferred `g.Unlock()` (line 24) -/
  | read (ticket : Nat) (v : UInt16)
  /-- lock released, before returning from `Next` (lines 31-33) -/
  | unlocked (ticket : Nat) (v : UInt16)
deriving DecidableEq

/-- Shared state; `done` is the history of completed calls (goroutine, ghost ticket, returned id). -/
structure TxSt where
  txId : UInt16
  owner : Option Nat
  tickets : Nat
  pc : Nat → TxPc
  done : List (Nat × Nat × Bytes)

/-- `NewTxIdGenerator(init)` (dht/node.go:19-21) -/
def TxSt.init (i : UInt16) (s : TxSt) : Prop :=
  s.txId = i ∧ s.owner = none ∧ s.tickets = 0 ∧ (∀ t, s.pc t = .idle) ∧ s.done = []

/-- One atomic step of goroutine `t`. -/
inductive TxStep : TxSt → TxSt → Prop where
  | call (s : TxSt) (t : Nat) : s.pc t = .idle → TxStep s { s with pc := upd s.pc t .waiting }
  | lock (s : TxSt) (t : Nat) : s.pc t = .waiting → s.owner = none →
      TxStep s { s with owner := some t, tickets := s.tickets + 1, pc := upd s.pc t (.locked (s.tickets + 1)) }
  | inc (s : TxSt) (t k : Nat) : s.pc t = .locked k →
      TxStep s { s with txId := s.txId + 1, pc := upd s.pc t (.bumped k) }
  | read (s : TxSt) (t k : Nat) : s.pc t = .bumped k →
      TxStep s { s with pc := upd s.pc t (.read k s.txId) }
  | unlock (s : TxSt) (t k : Nat) (v : UInt16) : s.pc t = .read k v →
      TxStep s { s with owner := none, pc := upd s.pc t (.unlocked k v) }
  | ret (s : TxSt) (t k : Nat) (v : UInt16) : s.pc t = .unlocked k v →
      TxStep s { s with pc := upd s.pc t .idle, done := s.done ++ [(t, k, txIdText v)] }

end P2P

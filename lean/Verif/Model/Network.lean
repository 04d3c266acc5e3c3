import Verif.Model.Udp
import Verif.Model.Dht
import Verif.Spec.Krpc
/-! # Several crawlers in one network

A composition of the modelled functions, not itself a piece of the code: any number of running copies of the program (dht/dht.go:22-43), each at its
UDP address, and anybody else. Handling one packet is one step here; since datagrams may be delayed arbitrarily, this only fixes when the sends are
counted. What the other goroutines of a copy do in between is an arbitrary oracle (`Model/Krpc`), so the tables and pending requests of the copies are
over-approximated. -/
namespace P2P

/-- A UDP datagram under way. `src` is the address the receiver sees (dht/krpc/udp.go:96), which a stranger can choose freely. -/
structure Datagram where
  src : UDPAddr
  dst : UDPAddr
  bytes : Bytes
deriving DecidableEq

/-- The network; `sent`, `outside`, `boots` and `learned` only record what has happened. -/
structure NetSt where
  /-- datagrams not yet delivered or lost -/
  flying : List Datagram
  /-- everything crawlers handed to their sockets, refused by the kernel or not -/
  sent : List Datagram
  /-- everything others have injected; also the second copy of a datagram which the network duplicates -/
  outside : List Datagram
  /-- number of calls of `BootStrap` -/
  boots : Nat
  /-- every node a crawler offered to its route table -/
  learned : List NodeInfo

/-- What a crawler at `self` hands to its socket (dht/krpc/udp.go:48-56). -/
def departs (self : UDPAddr) (tr : List Event) : List Datagram :=
  tr.filterMap fun e => match e with | .send to b _ => some { src := self, dst := to, bytes := b } | _ => none

/-- What of it gets under way: the kernel has not refused it, as it does with more than 65507 bytes (UDP over IPv4). -/
def onWire (self : UDPAddr) (tr : List Event) : List Datagram :=
  tr.filterMap fun e => match e with
    | .send to b false => if b.length ≤ 65507 then some { src := self, dst := to, bytes := b } else none
    | _ => none

/-- Nothing has happened yet. -/
def NetInit (s : NetSt) : Prop := s = { flying := [], sent := [], outside := [], boots := 0, learned := [] }

/-- One step; `crawlers a` is the crawler at address `a`, if there is one. -/
inductive NetStep (crawlers : UDPAddr → Option KEnv) : NetSt → NetSt → Prop where
  /-- somebody else sends anything, with any source address, or the network duplicates a datagram -/
  | inject (s : NetSt) (d : Datagram) : NetStep crawlers s { s with flying := s.flying ++ [d], outside := s.outside ++ [d] }
  /-- a datagram is lost, or arrives where no crawler is -/
  | lose (s : NetSt) (a b : List Datagram) (d : Datagram) : s.flying = a ++ d :: b → NetStep crawlers s { s with flying := a ++ b }
  /-- a datagram arrives: its first `RecvPacketLen` bytes are handled (dht/krpc/udp.go:93-106, dht/krpc/server.go:111-144) -/
  | deliver (s : NetSt) (a b : List Datagram) (d : Datagram) (K : KEnv) (O : Oracle) (run : PacketRun) :
      s.flying = a ++ d :: b → crawlers d.dst = some K → O.Fair →
      dhtPacket K O { addr := d.src, bytes := d.bytes.take RecvPacketLen } = some run →
      NetStep crawlers s { s with flying := a ++ b ++ onWire d.dst run.trace, sent := s.sent ++ departs d.dst run.trace
                                  learned := s.learned ++ (offered run.trace).map Prod.fst }
  /-- a crawler bootstraps (dht/dht.go:46-58) -/
  | boot (s : NetSt) (self : UDPAddr) (K : KEnv) (O : Oracle) (host : Option UDPAddr) (tr : List Event) :
      crawlers self = some K → O.Fair → (Activity.bootstrap host).trace K O = some tr →
      NetStep crawlers s { s with flying := s.flying ++ onWire self tr, sent := s.sent ++ departs self tr, boots := s.boots + 1
                                  learned := s.learned ++ (offered tr).map Prod.fst }

end P2P

import Verif.Model.Sha1
import Verif.Model.RouteTable
/-! # The package-level objects of package dht (dht/dht.go:11-20) -/
namespace P2P

/-- `resolveHost(":" + port)` (dht/node.go:59-65): `net.ResolveUDPAddr("udp4", ":21000")` has no host to look up and yields the nil IP; a port
outside 0 .. 65535 is an error, on which `log.Panic` of the standard library panics. Simplified: the panic value is only the first words of
the text that `log.Panic` makes of its arguments (the address and the error follow). -/
def resolveHostPort (port : Int) : Res UDPAddr :=
  if 0 ≤ port ∧ port < 65536 then .ok { ip := [], port } else .panic (.str b!"resolve remote host err")

/-- `NewNodeInfoFromHost(id, ":" + port)` (dht/node.go:45-47, 41-43) -/
def NewNodeInfoFromHost (id : Bytes) (port : Int) : Res NodeInfo := do
  let addr ← resolveHostPort port
  pure { id, addr }

/-- dht/dht.go:15 -/
def maxRouteTableSize : Nat := 160
/-- dht/dht.go:16 -/
def maxBucketLen : Nat := 8
/-- the argument of `NewTxIdGenerator` (dht/dht.go:20) -/
def firstTxId : UInt16 := 1000

/-- `rtable` (dht/dht.go:18); `port` is `config.DhtConfig().Port` (dht/dht.go:12) -/
def initialTable (port : Int) : Res RouteTable := do
  let n ← NewNodeInfoFromHost localNodeId port
  pure (RouteTable.new n maxBucketLen maxRouteTableSize)

end P2P

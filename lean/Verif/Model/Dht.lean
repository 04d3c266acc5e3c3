import Verif.Model.Krpc
/-! # Model of dht/dht.go, dht/messgaes.go, dht/requesthandler.go, dht/resphandler.go -/
namespace P2P

/-! ## Message constructors -/

/-- dht/messgaes.go:10-12 -/
def WithPingResponse (txId nodeId : Bytes) : Response := WithResponse txId (some [(b!"id", .str nodeId)])
/-- dht/messgaes.go:14-16 -/
def WithFindNodeResponse (txId nodeId : Bytes) (nodes : List NodeInfo) : Response :=
  WithResponse txId (some [(b!"id", .str nodeId), (b!"nodes", .str (joinNodeInfos nodes))])
/-- dht/messgaes.go:18-20 (unused by the handlers) -/
def WithGetPeersValsResponse (txId nodeId token : Bytes) (addrs : List UDPAddr) : Response :=
  WithResponse txId (some [(b!"id", .str nodeId), (b!"token", .str token), (b!"values", .list (joinPeerInfos addrs))])
/-- dht/messgaes.go:22-24 -/
def WithGetPeersNodesResponse (txId nodeId token : Bytes) (nodes : List NodeInfo) : Response :=
  WithResponse txId
    (some [(b!"id", .str nodeId), (b!"token", .str token), (b!"nodes", .str (joinNodeInfos nodes))])
/-- dht/messgaes.go:26-28 -/
def WithAnnouncePeerResponse (txId nodeId : Bytes) : Response :=
  WithResponse txId (some [(b!"id", .str nodeId)])

/-- dht/messgaes.go:31-35 -/
def WithPingMsg (txId nodeId : Bytes) (handler : Option Nat) : Request :=
  { txId, qType := b!"ping", body := some [(b!"id", .str nodeId)], handler }
/-- dht/messgaes.go:37-42 -/
def WithFindNodeMsg (txId nodeId target : Bytes) (handler : Option Nat) : Request :=
  { txId, qType := b!"find_node", body := some [(b!"id", .str nodeId), (b!"target", .str target)], handler }
/-- dht/messgaes.go:44-49 -/
def WithGetPeersMsg (txId nodeId infoHash : Bytes) (handler : Option Nat) : Request :=
  { txId, qType := b!"get_peers", body := some [(b!"id", .str nodeId), (b!"info_hash", .str infoHash)], handler }
/-- dht/messgaes.go:51-59 -/
def WithAnnouncePeerMsg (txId nodeId infoHash token : Bytes) (port : Int) (handler : Option Nat) : Request :=
  { txId, qType := b!"announce_peer"
    body := some [(b!"id", .str nodeId), (b!"info_hash", .str infoHash), (b!"port", .int port),
      (b!"token", .str token), (b!"implied_port", .int 0)]
    handler }

/-! ## Handlers -/

/-- Values fixed for a process: Unicode folding and IPv6 text (`env`), the capacity of `[]byte(s)`
(`cap`), the local node id `generateNodeId("galaio.p2pclawer")` (dht/dht.go:13, a SHA-1 digest). -/
structure KEnv where
  env : Env
  cap : Nat → Nat
  nodeId : Bytes

/-- `ctx.WriteAs(resp)` (dht/krpc/middleware.go:38-40) -/
def writeAs (r : Response) : HM Unit := GoM.modify (fun s => { s with resp := some r })

/-- dht/requesthandler.go:11-15 -/
def pingHandler (K : KEnv) : Handler := fun a =>
  .eff (writeAs (WithPingResponse a.req.txId K.nodeId)) .ret

/-- dht/requesthandler.go:17-21 -/
def findNodeHandler (K : KEnv) : Handler := fun a =>
  .eff (writeAs (WithFindNodeResponse a.req.txId K.nodeId [])) .ret

/-- dht/requesthandler.go:23-31; the console log (line 28) is left out -/
def getPeersHandler (K : KEnv) : Handler := fun a =>
  .eff (do
    let infoHash ← GoM.lift (Dict.GetString (asMap a.req.body) b!"info_hash")
    emit (.record { kind := b!"get_peer", addr := addrString K.env a.addr, port := none, infoHash := hexEncode infoHash })
    writeAs (WithGetPeersNodesResponse a.req.txId K.nodeId a.req.txId [])) .ret

/-- dht/requesthandler.go:33-44; the console log (line 39) is left out. The channel send on line 43 may block; the model is the call in which it
completes. -/
def announcePeerHandler (K : KEnv) : Handler := fun a =>
  .eff (do
    let infoHash ← GoM.lift (Dict.GetString (asMap a.req.body) b!"info_hash")
    let port ← GoM.lift (Dict.GetInteger (asMap a.req.body) b!"port")
    emit (.record { kind := b!"announce_peer", addr := addrString K.env a.addr, port := some port, infoHash := hexEncode infoHash })
    writeAs (WithAnnouncePeerResponse a.req.txId K.nodeId)
    emit (.enqueue { req := a.req, addr := a.addr })) .ret

/-- number standing for `genericRespHandler` -/
def genericH : Nat := 0

/-- the loop dht/resphandler.go:39-49 -/
def findNodeRespHandler (K : KEnv) (O : Oracle) : List NodeInfo → HM Unit
  | [] => pure ()
  | n :: r => do
    let err ← tableAdd O n
    match err with
    | some _ => findNodeRespHandler K O r
    | none => do
      let txId ← nextTxId O
      let _ ← Query O n.addr (WithFindNodeMsg txId K.nodeId K.nodeId (some genericH))
      findNodeRespHandler K O r

/-- dht/resphandler.go:9-36; the ping, announce_peer and get_peers handlers (53-67) only log -/
def genericResp (K : KEnv) (O : Oracle) (a : HArgs) : HM Unit := do
  let s ← GoM.get
  match s.resp with
  | none => GoM.panic .runtime
  | some resp => do
    let _ ← GoM.lift resp.NodeId
    let body := asMap resp.body
    if a.req.qType = b!"ping" then pure ()
    else if a.req.qType = b!"find_node" then do
      let nodes ← GoM.lift (Dict.GetString body b!"nodes")
      let ns ← GoM.lift (parseNodeInfo nodes)
      findNodeRespHandler K O ns
    else if a.req.qType = b!"get_peers" then do
      if Dict.Exist body b!"values" then do
        let vals ← GoM.lift (Dict.GetList body b!"values")
        let _ ← GoM.lift (parsePeerInfo K.cap (vals.getD []))
        pure ()
      else do
        let nodes ← GoM.lift (Dict.GetString body b!"nodes")
        let _ ← GoM.lift (parseNodeInfo nodes)
        pure ()
    else pure ()

/-- dht/resphandler.go:9-36 as a handler; every handler number of this program means this function
(`WithFindNodeMsg` with `genericRespHandler` is the only request the program creates,
dht/dht.go:48, dht/resphandler.go:45) -/
def genericRespHandler (K : KEnv) (O : Oracle) : Handler := fun a => .eff (genericResp K O a) .ret

/-- `NewRpcServer` (dht/krpc/server.go:24-33): nothing registered yet -/
def emptyHandlers (K : KEnv) (O : Oracle) : Handlers :=
  { router := [], reqMw := [], respMw := [], respH := fun _ => genericRespHandler K O }

/-- the registrations dht/dht.go:29-32 -/
def registerAll (K : KEnv) (O : Oracle) : Res Handlers := do
  let H ← RegisteHandler K.env.fold (emptyHandlers K O) b!"ping" (some (pingHandler K))
  let H ← RegisteHandler K.env.fold H b!"find_node" (some (findNodeHandler K))
  let H ← RegisteHandler K.env.fold H b!"get_peers" (some (getPeersHandler K))
  RegisteHandler K.env.fold H b!"announce_peer" (some (announcePeerHandler K))

/-- the server as configured by `Run` (dht/dht.go:22-43); `registerAll_ok` proves that this is what
`registerAll` returns -/
def dhtHandlers (K : KEnv) (O : Oracle) : Handlers :=
  { emptyHandlers K O with
    router := [(b!"ping", pingHandler K), (b!"find_node", findNodeHandler K),
      (b!"get_peers", getPeersHandler K), (b!"announce_peer", announcePeerHandler K)] }

/-- handling of one packet by the running program -/
def dhtPacket (K : KEnv) (O : Oracle) (pkt : RecvPacket) : Option PacketRun :=
  recvPacketHandle K.env.fold (dhtHandlers K O) O pkt

/-- dht/dht.go:46-58; `resolved` is the result of `net.ResolveUDPAddr`. `dhtLogger` was created at package
initialisation with level INFO, so its `Panic` panics (misc/logger.go). -/
def BootStrap (K : KEnv) (O : Oracle) (resolved : Option UDPAddr) : HM Unit := do
  let txId ← nextTxId O
  let msg := WithFindNodeMsg txId K.nodeId K.nodeId (some genericH)
  match resolved with
  | none => GoM.panic (.str b!"bootstrap resolve host err")
  | some raddr => do
    let err ← Query O raddr msg
    match err with
    | some _ => GoM.panic (.str b!"bootstrap findnode err")
    | none => pure ()

end P2P

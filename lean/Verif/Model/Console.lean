import Verif.Model.Dht
import Verif.Model.LogText
/-! # Model of what the handling of a packet writes to the console

`Model/Krpc` and `Model/Dht` leave the console log out. Here the same functions are written down once more, with their log statements
(dht/krpc/server.go, dht/krpc/udp.go:48-56, dht/requesthandler.go, dht/resphandler.go), as the running program has them: without middlewares.
`Props/Console` proves that without its log this model is the other one. The records of the route table (`Model/RouteTableLog`; they
contain numbers only) are not part of it. -/
namespace P2P

/-- A call of a logging method: the logger's prefix, the method, the arguments. -/
structure LogRec where
  pfx : Bytes
  method : LogMethod
  msg : Bytes
  ctx : Option (List (Bytes × LogVal))

/-- values of a log context as `ToString` sees them: a string -/
def lstr (s : Bytes) : LogVal := { asString := some s, asError := none, asStringer := none, json := .ok [] }
/-- an error with this text -/
def lerr (s : Bytes) : LogVal := { asString := none, asError := some s, asStringer := none, json := .ok [] }
/-- a `fmt.Stringer` with this text -/
def lstringer (s : Bytes) : LogVal := { asString := none, asError := none, asStringer := some s, json := .ok [] }
/-- a value that is none of these, with its JSON text -/
def ljson (s : Bytes) : LogVal := { asString := none, asError := none, asStringer := none, json := .ok s }
/-- an `int` -/
def lint (n : Int) : LogVal := ljson (itoa n)

/-- Texts that come from the Go runtime, the operating system and `encoding/json`, and the size of the table. -/
structure ConsoleEnv where
  /-- `s.laddr.String()` -/
  laddr : Bytes
  /-- text of the runtime error that was recovered -/
  runtimeErr : List Event → Bytes
  /-- `debug.Stack()` -/
  stack : List Event → Bytes
  /-- text of a decoding or encoding error -/
  errText : GoErr → Bytes
  /-- text of an error of the socket -/
  sendErr : List Event → Bytes
  /-- `json.Marshal` of a decoded value -/
  json : GoVal → Bytes
  /-- `json.Marshal` of a list of addresses or nodes -/
  jsonAddrs : List UDPAddr → Bytes
  jsonNodes : List NodeInfo → Bytes
  /-- `rtable.Size()` -/
  tableSize : List Event → Int

/-- State of one call: as in `Model/Krpc`, and the log calls so far. -/
structure LSt where
  h : HSt
  logs : List LogRec

abbrev LM := GoM LSt

/-- code that logs nothing -/
def quiet {α : Type} (m : HM α) : LM α := fun s =>
  match m s.h with
  | .ok a h => .ok a { s with h }
  | .panic p h => .panic p { s with h }
  | .diverge => .diverge

/-- a call of a logging method -/
def logCall (pfx : Bytes) (method : LogMethod) (msg : Bytes) (ctx : Option (List (Bytes × LogVal))) : LM Unit :=
  GoM.modify (fun s => { s with logs := s.logs ++ [{ pfx, method, msg, ctx }] })

/-- dht/krpc/server.go:11 -/
def serverLog (method : LogMethod) (msg : Bytes) (ctx : List (Bytes × LogVal)) : LM Unit := logCall b!"server" method msg (some ctx)
/-- dht/krpc/udp.go:11 -/
def udpLog (method : LogMethod) (msg : Bytes) (ctx : List (Bytes × LogVal)) : LM Unit := logCall b!"udp" method msg (some ctx)
/-- dht/dht.go:11 -/
def dhtLog (method : LogMethod) (msg : Bytes) (ctx : List (Bytes × LogVal)) : LM Unit := logCall b!"dht" method msg (some ctx)

/-- a recovered panic value in a log context; `*misc.Error` and `runtime.Error` are errors -/
def panicVal (C : ConsoleEnv) (tr : List Event) : Panic → LogVal
  | .runtime => lerr (C.runtimeErr tr)
  | .biz msg => lerr (bizText msg (C.stack tr))
  | .str s => lstr s

/-- dht/krpc/udp.go:48-56 -/
def SendPacketL (K : KEnv) (C : ConsoleEnv) (O : Oracle) (data : Bytes) (to : UDPAddr) : LM Bool := do
  let s ← GoM.get
  let failed ← quiet (SendPacket O data to)
  if failed then do
    udpLog .Error b!">>> send udp err" [(b!"laddr", lstringer C.laddr), (b!"err", lerr (C.sendErr s.h.trace))]
    pure failed
  else do
    udpLog .Info b!">>> send Bytes" [(b!"laddr", lstringer C.laddr), (b!"raddr", lstr (addrString K.env to)), (b!"length", lint data.length)]
    pure failed

/-- dht/krpc/server.go:95-109. `req.String()` is the JSON text of a struct without exported fields (dht/krpc/messages.go:83-88, 124-131). -/
def QueryL (K : KEnv) (C : ConsoleEnv) (O : Oracle) (raddr : UDPAddr) (req : Request) : LM (Option GoErr) := do
  quiet (putReq req)
  let s ← GoM.get
  match EncodeDict (some (O.order s.h.trace req.RawData)) with
  | .ok raw => do
    let failed ← SendPacketL K C O raw raddr
    if failed then do
      serverLog .Error b!"send query packet err"
        [(b!"to", lstr (addrString K.env raddr)), (b!"query", lstr b!"{}"), (b!"err", lerr (C.sendErr s.h.trace))]
      pure (some (.other b!"write udp"))
    else do
      serverLog .Info b!">>>rpc sended" [(b!"to", lstr (addrString K.env raddr)), (b!"len", lint raw.length)]
      pure none
  | .err e => do
    serverLog .Error b!"encode request err"
      [(b!"to", lstr (addrString K.env raddr)), (b!"query", lstr b!"{}"), (b!"err", lerr (C.errText e))]
    pure (some e)
  | .panic p => GoM.panic p
  | .diverge => fun _ => .diverge

/-- dht/requesthandler.go:11-15 -/
def pingHandlerL (K : KEnv) (a : HArgs) : LM Unit := do
  dhtLog .Info b!"get ping request" [(b!"txId", lstr a.req.txId)]
  quiet (writeAs (WithPingResponse a.req.txId K.nodeId))

/-- dht/requesthandler.go:17-21 -/
def findNodeHandlerL (K : KEnv) (a : HArgs) : LM Unit := do
  dhtLog .Info b!"get find_node request" [(b!"txId", lstr a.req.txId)]
  quiet (writeAs (WithFindNodeResponse a.req.txId K.nodeId []))

/-- dht/requesthandler.go:23-31 -/
def getPeersHandlerL (K : KEnv) (a : HArgs) : LM Unit := do
  let infoHash ← GoM.lift (Dict.GetString (asMap a.req.body) b!"info_hash")
  dhtLog .Info b!"get get_peers request" [(b!"txId", lstr a.req.txId), (b!"infoHash", lstr (hexEncode infoHash))]
  quiet (emit (.record { kind := b!"get_peer", addr := addrString K.env a.addr, port := none, infoHash := hexEncode infoHash }))
  quiet (writeAs (WithGetPeersNodesResponse a.req.txId K.nodeId a.req.txId []))

/-- dht/requesthandler.go:33-44 -/
def announcePeerHandlerL (K : KEnv) (a : HArgs) : LM Unit := do
  let infoHash ← GoM.lift (Dict.GetString (asMap a.req.body) b!"info_hash")
  let port ← GoM.lift (Dict.GetInteger (asMap a.req.body) b!"port")
  dhtLog .Info b!"get announce_peer request"
    [(b!"txId", lstr a.req.txId), (b!"infoHash", lstr (hexEncode infoHash)), (b!"port", lint port)]
  quiet (emit (.record { kind := b!"announce_peer", addr := addrString K.env a.addr, port := some port, infoHash := hexEncode infoHash }))
  quiet (writeAs (WithAnnouncePeerResponse a.req.txId K.nodeId))
  quiet (emit (.enqueue { req := a.req, addr := a.addr }))

/-- the registrations dht/dht.go:29-32 -/
def handlersL (K : KEnv) : List (Bytes × (HArgs → LM Unit)) :=
  [(b!"ping", pingHandlerL K), (b!"find_node", findNodeHandlerL K), (b!"get_peers", getPeersHandlerL K), (b!"announce_peer", announcePeerHandlerL K)]

/-- the loop dht/resphandler.go:39-49 -/
def findNodeLoopL (K : KEnv) (C : ConsoleEnv) (O : Oracle) : List NodeInfo → LM Unit
  | [] => pure ()
  | n :: r => do
    let err ← quiet (tableAdd O n)
    match err with
    | some e => do
      let s ← GoM.get
      dhtLog .Info b!"add node err" [(b!"err", lerr e), (b!"tableSize", lint (C.tableSize s.h.trace))]
      findNodeLoopL K C O r
    | none => do
      let txId ← quiet (nextTxId O)
      let qerr ← QueryL K C O n.addr (WithFindNodeMsg txId K.nodeId K.nodeId (some genericH))
      match qerr with
      | some e => do
        let s ← GoM.get
        dhtLog .Error b!"recurve find node err" [(b!"err", lerr (C.errText e)), (b!"tableSize", lint (C.tableSize s.h.trace))]
        findNodeLoopL K C O r
      | none => findNodeLoopL K C O r

/-- dht/resphandler.go:38-51 -/
def findNodeRespHandlerL (K : KEnv) (C : ConsoleEnv) (O : Oracle) (ns : List NodeInfo) : LM Unit := do
  findNodeLoopL K C O ns
  let s ← GoM.get
  dhtLog .Info b!"add nodes" [(b!"size", lint ns.length), (b!"tableSize", lint (C.tableSize s.h.trace))]

/-- dht/resphandler.go:9-36, 53-67 -/
def genericRespL (K : KEnv) (C : ConsoleEnv) (O : Oracle) (a : HArgs) : LM Unit := do
  let s ← GoM.get
  match s.h.resp with
  | none => GoM.panic .runtime
  | some resp => do
    let nodeId ← GoM.lift resp.NodeId
    let body := asMap resp.body
    dhtLog .Info b!"handle response" [(b!"txid", lstr resp.txId), (b!"queryType", lstr a.req.qType)]
    if a.req.qType = b!"ping" then do
      dhtLog .Info b!"ping response" [(b!"nodeId", lstr nodeId)]
      logCall b!"dht" .Info b!"cannot match request ignore" none
    else if a.req.qType = b!"find_node" then do
      let nodes ← GoM.lift (Dict.GetString body b!"nodes")
      let ns ← GoM.lift (parseNodeInfo nodes)
      findNodeRespHandlerL K C O ns
      logCall b!"dht" .Info b!"cannot match request ignore" none
    else if a.req.qType = b!"get_peers" then do
      if Dict.Exist body b!"values" then do
        let vals ← GoM.lift (Dict.GetList body b!"values")
        let addrs ← GoM.lift (parsePeerInfo K.cap (vals.getD []))
        dhtLog .Info b!"getpeer with peers has not implement" [(b!"values", ljson (C.jsonAddrs addrs))]
      else do
        let nodes ← GoM.lift (Dict.GetString body b!"nodes")
        let ns ← GoM.lift (parseNodeInfo nodes)
        dhtLog .Info b!"getpeer with nodes has not implement" [(b!"nodes", ljson (C.jsonNodes ns))]
        logCall b!"dht" .Info b!"cannot match request ignore" none
    else if a.req.qType = b!"announce_peer" then do
      dhtLog .Info b!"announce peer response" [(b!"nodeId", lstr nodeId)]
      logCall b!"dht" .Info b!"cannot match request ignore" none
    else logCall b!"dht" .Info b!"cannot match request ignore" none

/-- dht/krpc/server.go:175-208; with dht/krpc/server.go:65-72 and no middlewares -/
def requestHandleL (K : KEnv) (C : ConsoleEnv) (O : Oracle) (addr : UDPAddr) (d : Entries) : LM (Option Response) := do
  let txId ← GoM.lift (Dict.GetString d b!"t")
  let queryType ← GoM.lift (Dict.GetString d b!"q")
  serverLog .Info b!"response handle" [(b!"txId", lstr txId), (b!"queryType", lstr queryType)]
  GoM.recoverWith (do
      let supported ← GoM.lift (GoList.ContainsString K.env.fold supportQueryType queryType)
      if !supported then
        pure (some (WithParamErr txId (b!"donnot support <" ++ queryType ++ b!"> query type")))
      else do
        let body ← GoM.lift (Dict.GetDict d b!"a")
        let sourceId ← GoM.lift (Dict.GetString (asMap body) b!"id")
        if sourceId.length ≠ 20 then pure (some (WithParamErr txId b!"id format err"))
        else
          match (handlersL K).lookup queryType with
          | none => pure (some (WithParamErr txId b!"cannot handle not match handler"))
          | some h => do
            GoM.modify (fun s => { s with h := { s.h with resp := none } })
            quiet (emit (.dispatch { txId, qType := queryType, body, handler := none } addr))
            h { req := { txId, qType := queryType, body, handler := none }, addr }
            let s ← GoM.get
            pure s.h.resp)
    (fun p => do
      let s ← GoM.get
      serverLog .Error b!"request handle panic" [(b!"err", panicVal C s.h.trace p)]
      match p with
      | .biz msg => pure (some (WithParamErr txId (bizText msg (O.stack s.h.trace))))
      | p => GoM.panic p)

/-- dht/krpc/server.go:155-172; with dht/krpc/server.go:74-80 and no middlewares -/
def responseHandleL (K : KEnv) (C : ConsoleEnv) (O : Oracle) (addr : UDPAddr) (d : Entries) : LM Unit := do
  let txId ← GoM.lift (Dict.GetString d b!"t")
  let body ← GoM.lift (Dict.GetDict d b!"r")
  let nodeId ← GoM.lift (Dict.GetString (asMap body) b!"id")
  serverLog .Info b!"response handle" [(b!"txId", lstr txId), (b!"nodeId", lstr (hexEncode nodeId))]
  let found ← quiet (getReq O txId)
  match found with
  | none => serverLog .Error b!"cannot match request" [(b!"txId", lstr txId), (b!"nodeId", lstr nodeId)]
  | some req => do
    GoM.modify (fun s => { s with h := { s.h with resp := some (WithResponse txId body) } })
    match req.handler with
    | none => GoM.panic .runtime
    | some _ => do
      quiet (emit (.invoke req (some (WithResponse txId body)) addr))
      genericRespL K C O { req, addr }

/-- dht/krpc/server.go:147-152 -/
def responseErrHandleL (C : ConsoleEnv) (d : Entries) : LM Unit := do
  let txId ← GoM.lift (Dict.GetString d b!"t")
  let list ← GoM.lift (Dict.GetList d b!"e")
  serverLog .Error b!"return err" [(b!"txId", lstr txId), (b!"err", ljson (C.json (.list (list.getD []))))]

/-- dht/krpc/server.go:120-143 -/
def packetBodyL (K : KEnv) (C : ConsoleEnv) (O : Oracle) (pkt : RecvPacket) : LM Unit :=
  match DecodeDictNoLimit pkt.bytes with
  | .err e =>
    serverLog .Error b!"decode bencode err"
      [(b!"from", lstr (addrString K.env pkt.addr)), (b!"err", lerr (C.errText e)), (b!"len", lint pkt.bytes.length)]
  | .panic p => GoM.panic p
  | .diverge => fun _ => .diverge
  | .ok (d, _) =>
    if !Dict.Exist d b!"y" then serverLog .Error b!"cannot handle packet err" [(b!"from", lstr (addrString K.env pkt.addr))]
    else do
      let y ← GoM.lift (Dict.GetString d b!"y")
      if y = b!"q" then do
        let ret ← requestHandleL K C O pkt.addr d
        match ret with
        | none => GoM.panic .runtime
        | some r => do
          let raw ← GoM.lift r.RawData
          let s ← GoM.get
          match EncodeDict (some (O.order s.h.trace raw)) with
          | .ok bytes => do
            let _ ← SendPacketL K C O bytes pkt.addr
            serverLog .Info b!">>>  Bytes sended" [(b!"to", lstr (addrString K.env pkt.addr)), (b!"len", lint bytes.length)]
          | .err _ => do
            serverLog .Error b!"encode response err"
              [(b!"from", lstr (addrString K.env pkt.addr)), (b!"dict", lstr (C.json (.dict raw)))]
            let _ ← SendPacketL K C O [] pkt.addr
            serverLog .Info b!">>>  Bytes sended" [(b!"to", lstr (addrString K.env pkt.addr)), (b!"len", lint 0)]
          | .panic p => GoM.panic p
          | .diverge => fun _ => .diverge
      else if y = b!"r" then responseHandleL K C O pkt.addr d
      else if y = b!"e" then responseErrHandleL C d
      else pure ()

/-- A finished call of `recvPacketHandle` with its log. -/
structure LoggedRun where
  run : PacketRun
  logs : List LogRec

/-- dht/krpc/server.go:111-144 -/
def dhtPacketL (K : KEnv) (C : ConsoleEnv) (O : Oracle) (pkt : RecvPacket) : Option LoggedRun :=
  let deferred : Panic → LM Unit := fun p => do
    let s ← GoM.get
    serverLog .Error b!"recv packet handle panic"
      [(b!"from", lstr (addrString K.env pkt.addr)), (b!"err", panicVal C s.h.trace p), (b!"bytesLen", lint pkt.bytes.length)]
  match GoM.recoverWith (packetBodyL K C O pkt) deferred { h := { resp := none, trace := [] }, logs := [] } with
  | .ok _ s => some { run := { trace := s.h.trace, recycled := [pkt.bytes], escaped := none }, logs := s.logs }
  | .panic p s => some { run := { trace := s.h.trace, recycled := [pkt.bytes], escaped := some p }, logs := s.logs }
  | .diverge => none

/-! ## The bytes on the console -/

/-- the name a method prints, misc/logger.go:146-197 -/
def LogMethod.levelName : LogMethod → Bytes
  | .Debug => b!"Debug"
  | .Info => b!"Info"
  | .Warn => b!"Warn"
  | .Error => b!"Error"
  | .Panic => b!"Panic"
  | .Trace => b!"Trace"

/-- What a log call prints at the time `time` if Go visits the context in the order `ctx`; the program's loggers have level INFO (C65). -/
def LogRec.printed (r : LogRec) (time : Bytes) (ctx : Option (List (Bytes × LogVal))) : Bytes :=
  let c : ConsoleLogger := { pfx := r.pfx, level := .info }
  if (c.call r.method r.msg).1 = [] then [] else c.record time r.method.levelName r.msg ctx

end P2P

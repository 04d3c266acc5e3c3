import Verif.Model.Middleware
import Verif.Model.RouteTable
/-! # Model of dht/krpc/server.go, dht/krpc/messages.go (messages, dispatch, chains)

One call of `recvPacketHandle` (or `Query`, `BootStrap`) is modelled as the sequence of its interactions
with everything shared between goroutines (the request map, the transaction id generator, the route
table, the torrent queue, the UDP socket). Each interaction is one atomic operation of a lock-protected
object, a channel or the kernel, recorded as an `Event` together with the answer. The answers come from
an arbitrary `Oracle`, i.e. they may reflect any activity of the other goroutines in between. -/
namespace P2P

/-! ## Messages -/

/-- dht/krpc/messages.go:83-88 (`BaseRequest`). `body = none` is a nil `Dict`; `handler = none` is a nil
function; handler functions are identified by a number. Other implementations of the `Request`
interface do not exist in the code base. -/
structure Request where
  txId : Bytes
  qType : Bytes
  body : Option Entries
  handler : Option Nat
deriving DecidableEq

/-- dht/krpc/messages.go:18-22 (`BaseResponse`) -/
structure Response where
  txId : Bytes
  body : Option Entries
  isErr : Bool
deriving DecidableEq

/-- a `misc.Dict` stored in an interface -/
def dictVal : Option Entries → GoVal
  | some d => .dict d
  | none => .nilDict

/-- reading a possibly nil map -/
def asMap (d : Option Entries) : Entries := d.getD []

/-- dht/krpc/messages.go:115-122 -/
def Request.RawData (r : Request) : Entries :=
  [(b!"t", .str r.txId), (b!"y", .str b!"q"), (b!"q", .str r.qType), (b!"a", dictVal r.body)]

/-- dht/krpc/messages.go:36-38 -/
def Response.NodeId (r : Response) : Res Bytes := Dict.GetString (asMap r.body) b!"id"

/-- dht/krpc/messages.go:48-63 -/
def Response.RawData (r : Response) : Res Entries :=
  if !r.isErr then .ok [(b!"t", .str r.txId), (b!"y", .str b!"r"), (b!"r", dictVal r.body)]
  else do
    let code ← Dict.GetInteger (asMap r.body) b!"code"
    let msg ← Dict.GetString (asMap r.body) b!"msg"
    pure [(b!"t", .str r.txId), (b!"y", .str b!"e"), (b!"e", .list [.int code, .str msg])]

/-- dht/krpc/messages.go:134-136 -/
def WithResponse (txId : Bytes) (resp : Option Entries) : Response := { txId, body := resp, isErr := false }

/-- dht/krpc/messages.go:139-141 -/
def WithErr (txId : Bytes) (code : Int) (errMsg : Bytes) : Response :=
  { txId, body := some [(b!"code", .int code), (b!"msg", .str errMsg)], isErr := true }

/-- dht/krpc/messages.go:143-148; `misc.ProtocolErr` is 203 (misc/errors.go:10-16) -/
def WithParamErr (txId msg : Bytes) : Response :=
  WithErr txId 203 (if msg.length ≤ 0 then b!"invalid param" else msg)

/-- `(*misc.Error).Error()` (misc/errors.go:25-35) for an error made by `PanicBizErr` without parameters
(code 201); `stack` is the text of `debug.Stack()` -/
def bizText (msg stack : Bytes) : Bytes := b!"201: " ++ msg ++ b!"\r\nstacks:\r\n" ++ stack

/-! ## Interactions -/

/-- One element of `recvInfoHash` (dht/fetchtorrent.go:14): the context of an announce_peer request. -/
structure Job where
  req : Request
  addr : UDPAddr
deriving DecidableEq

/-- A record of `infoHashLogger` (dht/requesthandler.go:29, 40): its message and fields; `port` is absent for get_peers. -/
structure HashRecord where
  kind : Bytes
  addr : Bytes
  port : Option Int
  infoHash : Bytes
deriving DecidableEq

/-- One interaction of a goroutine with shared objects. -/
inductive Event where
  /-- `udpConn.SendPacket` (dht/krpc/udp.go:48-56); `failed` says whether the kernel refused -/
  | send (to : UDPAddr) (data : Bytes) (failed : Bool)
  /-- `requestMapping.Put(req.TxId(), req)` -/
  | put (req : Request)
  /-- `requestMapping.Get(txId)` and what it returned -/
  | lookup (txId : Bytes) (found : Option Request)
  /-- `rtable.AddNode(n)` and the error it returned -/
  | addNode (n : NodeInfo) (err : Option Bytes)
  /-- `txIdGenerator.Next()` and the value it drew -/
  | nextTx (v : UInt16)
  /-- `recvInfoHash <- ctx` completed -/
  | enqueue (job : Job)
  /-- `infoHashLogger.Info`; always written (`C68_infohash`) -/
  | record (r : HashRecord)
  /-- ghost: the registered request handler was started with this request -/
  | dispatch (req : Request) (addr : UDPAddr)
  /-- ghost: the handler of `req` was started with this response -/
  | invoke (req : Request) (resp : Option Response) (addr : UDPAddr)
deriving DecidableEq

/-- What the rest of the system answers, as a function of what this call did so far. -/
structure Oracle where
  lookup : List Event → Bytes → Option Request
  addNode : List Event → NodeInfo → Option Bytes
  nextTx : List Event → UInt16
  sendFails : List Event → Bool
  /-- the order in which Go iterates over the maps while encoding -/
  order : List Event → Entries → Entries
  /-- text of `debug.Stack()` -/
  stack : List Event → Bytes

/-- State of one call: the context's current response (dht/krpc/middleware.go:10) and the interactions so far. -/
structure HSt where
  resp : Option Response
  trace : List Event
deriving DecidableEq

abbrev HM := GoM HSt

/-- record an interaction -/
def emit (e : Event) : HM Unit := GoM.modify (fun s => { s with trace := s.trace ++ [e] })
/-- `requestMapping.Put` -/
def putReq (req : Request) : HM Unit := emit (.put req)
/-- `requestMapping.Get` -/
def getReq (O : Oracle) (t : Bytes) : HM (Option Request) := fun s =>
  .ok (O.lookup s.trace t) { s with trace := s.trace ++ [.lookup t (O.lookup s.trace t)] }
/-- `rtable.AddNode` (never panics on a reachable table, `C19_no_panic`) -/
def tableAdd (O : Oracle) (n : NodeInfo) : HM (Option Bytes) := fun s =>
  .ok (O.addNode s.trace n) { s with trace := s.trace ++ [.addNode n (O.addNode s.trace n)] }
/-- `txIdGenerator.Next()` (dht/node.go:30-34) -/
def nextTxId (O : Oracle) : HM Bytes := fun s =>
  .ok (txIdText (O.nextTx s.trace)) { s with trace := s.trace ++ [.nextTx (O.nextTx s.trace)] }
/-- dht/krpc/udp.go:48-56; the result says whether an error is returned -/
def SendPacket (O : Oracle) (data : Bytes) (to : UDPAddr) : HM Bool := fun s =>
  .ok (O.sendFails s.trace) { s with trace := s.trace ++ [.send to data (O.sendFails s.trace)] }

/-- dht/krpc/server.go:95-109: `none` is a nil error -/
def Query (O : Oracle) (raddr : UDPAddr) (req : Request) : HM (Option GoErr) := do
  putReq req
  let s ← GoM.get
  match EncodeDict (some (O.order s.trace req.RawData)) with
  | .ok raw => do
    let failed ← SendPacket O raw raddr
    if failed then pure (some (.other b!"write udp")) else pure none
  | .err e => pure (some e)
  | .panic p => GoM.panic p
  | .diverge => fun _ => .diverge

/-! ## Dispatch -/

/-- What a handler sees of its context besides the response (dht/krpc/middleware.go:30-44). -/
structure HArgs where
  req : Request
  addr : UDPAddr

/-- `RpcHandlerFunc` (dht/krpc/server.go:15): terminating code that may inspect and replace the response
(`WriteAs`), interact with shared objects, panic and call `ctx.Next()`. -/
abbrev Handler := HArgs → Prog HSt

/-- The configurable part of an `RpcServer` (dht/krpc/server.go:16-22); `respH` gives the functions
behind the handler numbers of requests. -/
structure Handlers where
  router : List (Bytes × Handler)
  reqMw : List Handler
  respMw : List Handler
  respH : Nat → Handler

/-- dht/krpc/server.go:12 -/
def supportQueryType : List GoVal :=
  [.str b!"ping", .str b!"find_node", .str b!"get_peers", .str b!"announce_peer"]

/-- map write into the router (`SyncMap.Put`, misc/syncmap.go:14-18) -/
def routerPut : List (Bytes × Handler) → Bytes → Handler → List (Bytes × Handler)
  | [], k, h => [(k, h)]
  | (k', h') :: r, k, h => if k' = k then (k, h) :: r else (k', h') :: routerPut r k h

/-- dht/krpc/server.go:82-92 -/
def RegisteHandler (fold : FoldTable) (H : Handlers) (qType : Bytes) (handler : Option Handler) : Res Handlers := do
  let ok ← GoList.ContainsString fold supportQueryType qType
  if !ok then .panic (.str b!"cannot support the query type")
  else
    match handler with
    | none => .panic (.str b!"register fail, handler is nil")
    | some h => pure { H with router := routerPut H.router qType h }

/-- dht/krpc/server.go:57-59 -/
def UseReqHandlerMiddleware (H : Handlers) (handlerChain : List Handler) : Handlers :=
  { H with reqMw := H.reqMw ++ handlerChain }

/-- dht/krpc/server.go:61-63 -/
def UseRespHandlerMiddleware (H : Handlers) (handlerChain : List Handler) : Handlers :=
  { H with respMw := H.respMw ++ handlerChain }

/-- run a chain on a fresh context (dht/krpc/middleware.go:13-28) whose response is `r0`; the result is
`ctx.resp` afterwards -/
def runHandlers (chain : List (Prog HSt)) (r0 : Option Response) : HM (Option Response) := fun s =>
  match runChain chain { s with resp := r0 } with
  | .ok _ c => .ok c.s.resp c.s
  | .panic p c => .panic p c.s
  | .diverge => .diverge

/-- dht/krpc/server.go:65-72 -/
def doRequestHandle (H : Handlers) (req : Request) (reqHandler : Handler) (addr : UDPAddr) :
    HM (Option Response) :=
  let a : HArgs := { req, addr }
  runHandlers (H.reqMw.map (fun m => m a) ++ [.eff (emit (.dispatch req addr)) (reqHandler a)]) none

/-- calling `req.Handler()` as the last element of the chain; a nil function panics -/
def callRespHandler (H : Handlers) (a : HArgs) : Prog HSt :=
  match a.req.handler with
  | none => .eff (GoM.panic .runtime) .ret
  | some i => .ask fun s => .eff (emit (.invoke a.req s.resp a.addr)) (H.respH i a)

/-- dht/krpc/server.go:74-80 -/
def doResponseHandle (H : Handlers) (req : Request) (resp : Response) (addr : UDPAddr) : HM Unit := do
  let a : HArgs := { req, addr }
  let _ ← runHandlers (H.respMw.map (fun m => m a) ++ [callRespHandler H a]) (some resp)
  pure ()

/-- dht/krpc/server.go:175-208. The deferred function (180-189) is installed only after `t` and `q` have
been read. -/
def requestHandle (fold : FoldTable) (H : Handlers) (O : Oracle) (addr : UDPAddr) (d : Entries) :
    HM (Option Response) := do
  let txId ← GoM.lift (Dict.GetString d b!"t")
  let queryType ← GoM.lift (Dict.GetString d b!"q")
  GoM.recoverWith (do
      let supported ← GoM.lift (GoList.ContainsString fold supportQueryType queryType)
      if !supported then
        pure (some (WithParamErr txId (b!"donnot support <" ++ queryType ++ b!"> query type")))
      else do
        let body ← GoM.lift (Dict.GetDict d b!"a")
        let sourceId ← GoM.lift (Dict.GetString (asMap body) b!"id")
        if sourceId.length ≠ 20 then pure (some (WithParamErr txId b!"id format err"))
        else
          match H.router.lookup queryType with
          | none => pure (some (WithParamErr txId b!"cannot handle not match handler"))
          | some h => doRequestHandle H { txId, qType := queryType, body, handler := none } h addr)
    (fun p =>
      match p with
      | .biz msg => do
        let s ← GoM.get
        pure (some (WithParamErr txId (bizText msg (O.stack s.trace))))
      | p => GoM.panic p)

/-- dht/krpc/server.go:155-172 -/
def responseHandle (H : Handlers) (O : Oracle) (addr : UDPAddr) (d : Entries) : HM Unit := do
  let txId ← GoM.lift (Dict.GetString d b!"t")
  let body ← GoM.lift (Dict.GetDict d b!"r")
  let _ ← GoM.lift (Dict.GetString (asMap body) b!"id")
  let found ← getReq O txId
  match found with
  | none => pure ()
  | some req => doResponseHandle H req (WithResponse txId body) addr

/-- dht/krpc/server.go:147-152 -/
def responseErrHandle (d : Entries) : HM Unit := do
  let _ ← GoM.lift (Dict.GetString d b!"t")
  let _ ← GoM.lift (Dict.GetList d b!"e")
  pure ()

/-- dht/krpc/udp.go:17-20 -/
structure RecvPacket where
  addr : UDPAddr
  bytes : Bytes

/-- the body of dht/krpc/server.go:111-144 without its deferred function (lines 120-143). A nil response
makes `ret.RawData()` a nil dereference; an encoding error still sends the (empty) string. -/
def packetBody (fold : FoldTable) (H : Handlers) (O : Oracle) (pkt : RecvPacket) : HM Unit :=
  match DecodeDictNoLimit pkt.bytes with
  | .err _ => pure ()
  | .panic p => GoM.panic p
  | .diverge => fun _ => .diverge
  | .ok (d, _) =>
    if !Dict.Exist d b!"y" then pure ()
    else do
      let y ← GoM.lift (Dict.GetString d b!"y")
      if y = b!"q" then do
        let ret ← requestHandle fold H O pkt.addr d
        match ret with
        | none => GoM.panic .runtime
        | some r => do
          let raw ← GoM.lift r.RawData
          let s ← GoM.get
          match EncodeDict (some (O.order s.trace raw)) with
          | .ok bytes => do
            let _ ← SendPacket O bytes pkt.addr
            pure ()
          | .err _ => do
            let _ ← SendPacket O [] pkt.addr
            pure ()
          | .panic p => GoM.panic p
          | .diverge => fun _ => .diverge
      else if y = b!"r" then responseHandle H O pkt.addr d
      else if y = b!"e" then responseErrHandle d
      else pure ()

/-- A finished call of `recvPacketHandle`: its interactions, the buffers it put into the pool and the
panic it let escape, if any. -/
structure PacketRun where
  trace : List Event
  recycled : List Bytes
  escaped : Option Panic
deriving DecidableEq

/-- dht/krpc/server.go:111-144 with the deferred function (113-118): recover from any panic, then put the
packet's buffer back. `none` stands for a call that does not return. -/
def recvPacketHandle (fold : FoldTable) (H : Handlers) (O : Oracle) (pkt : RecvPacket) : Option PacketRun :=
  let deferred : Panic → HM Unit := fun _ => pure ()
  match GoM.recoverWith (packetBody fold H O pkt) deferred { resp := none, trace := [] } with
  | .ok _ s => some { trace := s.trace, recycled := [pkt.bytes], escaped := none }
  | .panic p s => some { trace := s.trace, recycled := [pkt.bytes], escaped := some p }
  | .diverge => none

end P2P

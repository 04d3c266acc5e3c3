import Verif.Model.Console
import Verif.Model.Fetch
/-! # Model of what a download writes to the console

`Model/Peerwire` and `Model/Fetch` leave the console log out. Here the functions of dht/peerwire/bep9.go:119-284 and dht/fetchtorrent.go:27-73 are written
down once more with their log statements. `Props/DownloadLog` proves that without its log this model is the other one. -/
namespace P2P

/-- Code of a download with its log: as `PM`, and the records so far. -/
abbrev PL (α : Type) := PSt → List LogRec → POut α × List LogRec

namespace PL
def bind {α β : Type} (m : PL α) (f : α → PL β) : PL β := fun s l =>
  match m s l with
  | (.ok a s', l') => f a s' l'
  | (.panic p s', l') => (.panic p s', l')
  | (.fatal s', l') => (.fatal s', l')
  | (.diverge s', l') => (.diverge s', l')
instance : Monad PL where
  pure a := fun s l => (.ok a s, l)
  bind := PL.bind
/-- code that logs nothing -/
def quiet {α : Type} (m : PM α) : PL α := fun s l => (m s, l)
/-- a call of a logging method other than `Panic` -/
def log (r : LogRec) : PL Unit := fun s l => (.ok () s, l ++ [r])
/-- `logger.Panic(msg, ctx)` (misc/logger.go:184-190): prints and panics with the message -/
def logPanic {α : Type} (pfx msg : Bytes) (ctx : List (Bytes × LogVal)) : PL α := fun s l =>
  (.panic (.str msg) s, l ++ [{ pfx, method := .Panic, msg, ctx := some ctx }])
/-- `defer cleanup()` around `m`, for a cleanup that logs nothing -/
def deferred {α : Type} (m : PL α) (cleanup : PM Unit) : PL α := fun s l =>
  (PM.deferred (fun _ => (m s l).1) cleanup s, (m s l).2)
/-- A call of one of the message codecs (dht/peerwire/bep3.go, bep10.go, bep9.go:65-117). In these functions the only panics with a string are those of
`peerWireLogger.Panic`; `ctx` gives the context of the record by its text. -/
def codec {α : Type} (r : Res α) (ctx : Bytes → List (Bytes × LogVal)) : PL α :=
  match r with
  | .panic (.str msg) => logPanic b!"peerwire" msg (ctx msg)
  | r => quiet (PM.lift r)
end PL

/-- Texts that come from the Go runtime, the operating system and `encoding/json`. -/
structure DlEnv where
  /-- text of the error of the last read or write -/
  ioErr : List PEvent → Bytes
  /-- text of a runtime error -/
  runtimeErr : List PEvent → Bytes
  /-- `debug.Stack()` -/
  stack : List PEvent → Bytes
  /-- text of a decoding or encoding error of this message -/
  codecErr : Bytes → Bytes
  /-- `json.Marshal` of a decoded value -/
  json : GoVal → Bytes

/-- dht/peerwire/bep9.go:119 -/
def fmInfo (msg : Bytes) (ctx : List (Bytes × LogVal)) : PL Unit := PL.log { pfx := b!"FetchMetadata", method := .Info, msg, ctx := some ctx }
def fmError (msg : Bytes) (ctx : List (Bytes × LogVal)) : PL Unit := PL.log { pfx := b!"FetchMetadata", method := .Error, msg, ctx := some ctx }
def fmPanic {α : Type} (msg : Bytes) (ctx : List (Bytes × LogVal)) : PL α := PL.logPanic b!"FetchMetadata" msg ctx

/-- a recovered panic value in a log context; `*misc.Error` and `runtime.Error` are errors -/
def dlPanicVal (C : DlEnv) (tr : List PEvent) : Panic → LogVal
  | .runtime => lerr (C.runtimeErr tr)
  | .biz msg => lerr (bizText msg (C.stack tr))
  | .str s => lstr s

/-- JSON text of a `*BaseExHandShakeMsg` (dht/peerwire/bep10.go:17-19) -/
def exHandShakeJson (C : DlEnv) (dict : Entries) : Bytes := b!"{\"ExDict\":" ++ C.json (.dict dict) ++ b!"}"

/-- JSON text of a `*BaseExFetchMetaMsg` (dht/peerwire/bep9.go:32-38; `data` is not exported) -/
def ExFetchMeta.json (m : ExFetchMeta) : P2P.Bytes :=
  b!"{\"MsgId\":" ++ itoa m.msgId ++ b!",\"ExMsgType\":" ++ itoa m.msgType ++ b!",\"ExPieceNum\":" ++ itoa m.pieceNum ++
    b!",\"ExTotalSize\":" ++ itoa m.totalSize ++ b!"}"

/-- the error of `readBytesByPrefixLenMsg` (dht/peerwire/bep3.go:139-141, 149-151, 154-156), by the last interaction before it returned -/
def prefixErrText (C : DlEnv) (tr : List PEvent) : Bytes :=
  match tr.getLast? with
  | some (.read _ _ true) => C.ioErr tr
  | _ => b!"read input toolarge"

/-- the loop dht/peerwire/bep9.go:225-232 -/
def requestLoopL (E : PEnv) (C : DlEnv) (laddr : Bytes) : Nat → Nat → PL Unit
  | 0, _ => pure ()
  | n + 1, i => do
    let s ← PL.quiet PM.get
    let msg ← PL.codec (withExtendedFetchMetaMsg (E.order s.trace) 1 ExRequest i 0 [])
      (fun m => [(b!"msgtype", lint ExRequest), (b!"err", lerr (C.codecErr m))])
    let failed ← PL.quiet (connWrite E msg)
    if failed then do
      let s ← PL.quiet PM.get
      fmPanic b!"write request piece err" [(b!"laddr", lstr laddr), (b!"err", lerr (C.ioErr s.trace))]
    else requestLoopL E C laddr n (i + 1)

/-- dht/peerwire/bep9.go:199-253 -/
def handleExtendedMsgL (E : PEnv) (C : DlEnv) (laddr : Bytes) (readBytes : Slice) (data : Bytes) : PL Unit :=
  match data[1]? with
  | none => PL.quiet (PM.panic .runtime)
  | some msgId =>
    if msgId.toNat = 0 then do
      let dict ← PL.codec (parseExtendedHandShake data)
        (fun m => if m = b!"decode extended handshake err" then [(b!"err", lerr (C.codecErr m))]
          else [(b!"msgType", lint (beVal (data.take 1))), (b!"MsgId", lint msgId.toNat)])
      fmInfo b!"get extended handshake" [(b!"laddr", lstr laddr), (b!"exHandShakeResp", ljson (exHandShakeJson C dict))]
      if ¬ Dict.Exist dict b!"metadata_size" then
        fmPanic b!"get extended handshake wrong format" [(b!"laddr", lstr laddr), (b!"exHandShakeResp", ljson (exHandShakeJson C dict))]
      else do
        let metaSize ← PL.quiet (PM.lift (Dict.GetInteger dict b!"metadata_size"))
        PL.quiet (PM.modify fun s => { s with metaDataSize := metaSize })
        PL.quiet (makeSized E (pieceCount metaSize) 24)
        PL.quiet (PM.modify fun s => { s with metaData := List.replicate (pieceCount metaSize).toNat none })
        PL.quiet (makeSized E (pieceCount metaSize) 1)
        PL.quiet (PM.modify fun s => { s with requested := List.replicate (pieceCount metaSize).toNat false })
        PL.quiet (emitP (.announced metaSize))
        requestLoopL E C laddr (pieceCount metaSize).toNat 0
        fmInfo b!"request pieces" [(b!"laddr", lstr laddr), (b!"metaSize", lint metaSize), (b!"pieceCount", lint (pieceCount metaSize))]
    else if msgId.toNat = 1 then do
      let resp ← PL.codec (parseExtendedFetchMetaMsg data)
        (fun m => if m = b!"decode extended fetchmetadata err" then [(b!"err", lerr (C.codecErr m))] else [(b!"totalLen", lint data.length)])
      fmInfo b!"fetch extended msg" [(b!"laddr", lstr laddr), (b!"fetchMetaResp", ljson resp.json)]
      if ExData ≠ resp.msgType then
        fmError b!"get extended piece wrong format" [(b!"laddr", lstr laddr), (b!"fetchMetaResp", ljson resp.json)]
      else do
        let s ← PL.quiet PM.get
        let slice : Option Slice := resp.dataOff.map fun n =>
          { readBytes with off := readBytes.off + n, len := readBytes.len - n, cap := readBytes.cap - n }
        match setAt s.metaData resp.pieceNum slice with
        | none => PL.quiet (PM.panic .runtime)
        | some md => do
          PL.quiet (PM.modify fun s => { s with metaData := md })
          match setAt s.requested resp.pieceNum true with
          | none => PL.quiet (PM.panic .runtime)
          | some rq => do
            PL.quiet (PM.modify fun s => { s with requested := rq })
            PL.quiet (emitP (.gotPiece resp.pieceNum.toNat))
    else if msgId.toNat = 2 then
      fmInfo b!"fetch pexExtendedId extend msg" [(b!"laddr", lstr laddr), (b!"msgid", lint msgId.toNat), (b!"payloadLen", lint data.length)]
    else
      fmInfo b!"fetch pexExtendedId wrong extend msg" [(b!"laddr", lstr laddr), (b!"msgid", lint msgId.toNat), (b!"payloadLen", lint data.length)]

/-- dht/peerwire/bep9.go:179-195 -/
def handleMsgL (E : PEnv) (C : DlEnv) (laddr : Bytes) (keepAlive : Bool) (readBytes : Option Slice) (err : Bool) : PL Unit :=
  if keepAlive then pure ()
  else if err then do
    let s ← PL.quiet PM.get
    fmPanic b!"read prefix length err" [(b!"laddr", lstr laddr), (b!"err", lerr (prefixErrText C s.trace))]
  else
    match readBytes with
    | none => PL.quiet (PM.panic .runtime)
    | some rb => do
      let data ← PL.quiet (loadSlice E rb)
      let t ← PL.quiet (PM.lift (parsePrefixLenMsg data))
      if t = ExtendedPeerMsg then handleExtendedMsgL E C laddr rb data
      else fmInfo b!"fetch bep3 msg" [(b!"laddr", lstr laddr), (b!"peerMsgType", lint t), (b!"payloadLen", lint data.length)]

/-- dht/peerwire/bep9.go:170-196 -/
def readMetaDataHandlerL (E : PEnv) (C : DlEnv) (laddr : Bytes) : PL Unit := do
  let r ← PL.quiet (readBytesByPrefixLenMsg E)
  PL.deferred (handleMsgL E C laddr r.1 r.2.1 r.2.2) (putBack E r.2.1)

/-- dht/peerwire/bep9.go:163-168 -/
def readMetaDataLoopL (E : PEnv) (C : DlEnv) (laddr : Bytes) : Nat → PL Unit
  | 0 => PL.quiet (fun s => .diverge s)
  | f + 1 => do
    let s ← PL.quiet PM.get
    if CompledMetaData s then pure ()
    else do
      let e ← PL.quiet (IsReadLoopExpire E)
      if e then pure ()
      else do
        readMetaDataHandlerL E C laddr
        readMetaDataLoopL E C laddr f

/-- dht/peerwire/bep9.go:256-262 -/
def initialMessagesL (E : PEnv) (C : DlEnv) (laddr : Bytes) : PL Unit := do
  let s ← PL.quiet PM.get
  let msg ← PL.codec (withExtendedhandShake (E.order s.trace) (some [(b!"ut_metadata", .int 1)]) none)
    (fun m => [(b!"ExDict", ljson (C.json (.dict [(b!"m", .dict [(b!"ut_metadata", .int 1)])]))), (b!"err", lerr (C.codecErr m))])
  let failed ← PL.quiet (connWrite E msg)
  if failed then do
    let s ← PL.quiet PM.get
    fmPanic b!"write extended handshake err" [(b!"laddr", lstr laddr), (b!"err", lerr (C.ioErr s.trace))]
  else pure ()

/-- dht/peerwire/bep9.go:265-284; a `*BaseHandShakeMsg` has no exported fields -/
def handshakePeerL (E : PEnv) (C : DlEnv) (laddr : Bytes) (fold : FoldTable) (peerId infoHash : Bytes) : PL Unit := do
  let msg ← PL.codec (withHandShakeMsg peerId infoHash)
    (fun _ => [(b!"peerIdLen", lint peerId.length), (b!"infohashLen", lint infoHash.length)])
  let failed ← PL.quiet (connWrite E msg)
  if failed then do
    let s ← PL.quiet PM.get
    fmPanic b!"write handshake err" [(b!"laddr", lstr laddr), (b!"err", lerr (C.ioErr s.trace))]
  else do
    let (readBytes, err) ← PL.quiet (connReadNew E handShakeLen)
    if err then do
      let s ← PL.quiet PM.get
      fmPanic b!"get handshake response err" [(b!"laddr", lstr laddr), (b!"err", lerr (C.ioErr s.trace))]
    else do
      let resp ← PL.codec (parseHandShakeMsg readBytes []) (fun _ => [(b!"len", lint readBytes.length)])
      if ¬ equalFold fold supportProtocolName resp.protocol then
        fmPanic b!"get handshake not support bittoroute protocol" [(b!"laddr", lstr laddr), (b!"handShakeResp", ljson b!"{}")]
      else do
        let ext ← PL.quiet (PM.lift resp.SupportExtended)
        if ¬ ext then fmPanic b!"get handshake not support extended protocol" [(b!"laddr", lstr laddr), (b!"handShakeResp", ljson b!"{}")]
        else pure ()

/-- dht/peerwire/bep9.go:136-159 -/
def fetchBodyL (E : PEnv) (C : DlEnv) (laddr : Bytes) (sha1 : Bytes → Bytes) (fold : FoldTable) (fuel : Nat) (peerId infoHash : Bytes) :
    PL (Option Bytes × Option Bytes) := do
  handshakePeerL E C laddr fold peerId infoHash
  initialMessagesL E C laddr
  readMetaDataLoopL E C laddr fuel
  let s ← PL.quiet PM.get
  if ¬ CompledMetaData s then pure (none, some b!"cannot completed download metadata")
  else do
    PL.quiet (makeSized E s.metaDataSize 1)
    let result ← PL.quiet (mergeLoop E s.requested.length 0 [])
    if infoHash ≠ sha1 result then do
      fmError b!"chesum metadata not match" [(b!"laddr", lstr laddr), (b!"metasize", lint s.metaDataSize)]
      pure (none, some b!"check sum err")
    else do
      fmInfo b!"chesum metadata match" [(b!"laddr", lstr laddr), (b!"infohash", lstr (hexEncode infoHash))]
      pure (some result, none)

/-- dht/peerwire/bep9.go:122-160 with the deferred function 127-134; the log -/
def FetchMetaDataL (E : PEnv) (C : DlEnv) (laddr : Bytes) (sha1 : Bytes → Bytes) (fold : FoldTable) (fuel : Nat) (peerId infoHash : Bytes)
    (mem : Nat → Bytes) (pool : BPool) : FetchOut × List LogRec :=
  if E.dialFails then (.dialErr, [])
  else
    match fetchBodyL E C laddr sha1 fold fuel peerId infoHash (NewPeerConn mem pool) [] with
    | (.ok (ret, err) s, l) => (.returned ret err { s with trace := s.trace ++ [.close] }, l)
    | (.panic p s, l) =>
      (.returned none (some b!"FetchMetaData err") { s with trace := s.trace ++ [.close] },
        l ++ [{ pfx := b!"FetchMetadata", method := .Error, msg := b!"FetchMetaData err"
                ctx := some [(b!"laddr", lstr laddr), (b!"err", dlPanicVal C s.trace p)] }])
    | (.fatal s, l) => (.fatal s, l)
    | (.diverge s, l) => (.diverge s, l)

/-- What becomes of the file of a call of `fetchHandler`. -/
inductive FileOut where
  /-- nothing was fetched -/
  | none
  /-- `os.Create` failed -/
  | notCreated
  /-- the file was created, `file.Write` failed -/
  | notWritten (hash : Bytes)
  /-- `file.Write` wrote everything -/
  | written (hash data : Bytes)
  /-- the process died or the call never returned -/
  | never
deriving DecidableEq

/-- What the file system answers to a call of `flushTorrentFile`: the texts of the errors. -/
structure FlushEnv where
  createErr : Bytes → Option Bytes
  writeErr : Bytes → Option Bytes

/-- dht/fetchtorrent.go:61-73 with its log (seen by this call; `Model/Fetch` has what concurrent calls do to each other's files) -/
def flushTorrentFileL (F : FlushEnv) (fileName data : Bytes) : FileOut × List LogRec :=
  match F.createErr (torrentPath fileName) with
  | some e => (.notCreated, [{ pfx := b!"dht", method := .Error, msg := b!"create file err", ctx := some [(b!"err", lerr e)] }])
  | none =>
    match F.writeErr (torrentPath fileName) with
    | some e => (.notWritten fileName, [{ pfx := b!"dht", method := .Error, msg := b!"write file err", ctx := some [(b!"err", lerr e)] }])
    | none => (.written fileName data, [])

/-- dht/fetchtorrent.go:27-44 with its log -/
def fetchHandlerL (env : Env) (conn : Bytes → PEnv) (C : DlEnv) (F : FlushEnv) (sha1 : Bytes → Bytes) (fuel : Nat) (peerId : Bytes)
    (mem : Nat → Bytes) (pool : BPool) (ctx : Job) : FileOut × List LogRec :=
  let panicked : Panic → FileOut × List LogRec := fun p =>
    (.none, [{ pfx := b!"dht", method := .Error, msg := b!"fetchHandler panic", ctx := some [(b!"err", dlPanicVal C [] p)] }])
  match Dict.GetString (asMap ctx.req.body) b!"info_hash" with
  | .ok infoHash =>
    match parseFetchAddr env ctx with
    | .ok laddr =>
      match FetchMetaDataL (conn laddr) C laddr sha1 env.fold fuel peerId infoHash mem pool with
      | (.dialErr, l) => (.none, l)
      | (.returned ret err _, l) =>
        if err ≠ Option.none then (.none, l)
        else ((flushTorrentFileL F (hexEncode infoHash) (ret.getD [])).1, l ++ (flushTorrentFileL F (hexEncode infoHash) (ret.getD [])).2)
      | (.panicked p, l) => ((panicked p).1, l ++ (panicked p).2)
      | (.fatal _, l) => (.never, l)
      | (.diverge _, l) => (.never, l)
    | .panic p => panicked p
    | .err _ => (.none, [])
    | .diverge => (.never, [])
  | .panic p => panicked p
  | .err _ => (.none, [])
  | .diverge => (.never, [])

end P2P

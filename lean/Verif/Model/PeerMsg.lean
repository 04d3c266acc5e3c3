import Verif.Model.Types
/-! # Model of the BitTorrent messages: dht/peerwire/bep3.go, bep10.go, bep9.go (codecs)

A Go `[]byte` argument is given by its bytes `data` and, where the code slices it, by the bytes `tail`
between `len` and `cap` (slice expressions are bounded by `cap`). The loggers of this package are created
at package initialisation with level INFO, so their `Panic` always panics (`C54`); the panic value is
represented by the message text without the formatted parameters. -/
namespace P2P

/-- dht/peerwire/bep3.go:12-16, bep9.go:14 -/
def handShakeLen : Nat := 68
def PeerIdLen : Nat := 20
def InfoHashLen : Nat := 20
def PrefixLen : Nat := 4
def maxReadLength : Nat := 32 * 1024
def SizeOf16KB : Nat := 16 * 1024

/-- dht/peerwire/bep3.go:20 -/
def supportProtocolName : Bytes := b!"BitTorrent protocol"

/-- dht/peerwire/bep3.go:19, 21, 131-134 -/
def reservedBytes : Bytes := [0x00, 0x00, 0x00, 0x00, 0x00, 0x10, 0x00, 0x00]

/-- dht/peerwire/bep3.go:39 -/
def ExtendedPeerMsg : Nat := 20

/-- dht/peerwire/bep10.go:10 -/
def handShakeMsgId : Nat := 0

/-- dht/peerwire/bep9.go:18-22 -/
def ExRequest : Int := 0
def ExData : Int := 1
def ExReject : Int := 2

/-- `logger.Panic(msg, ...)` -/
def logPanic {α : Type} (msg : Bytes) : Res α := .panic (.str msg)

/-! ## BEP 3 handshake -/

/-- dht/peerwire/bep3.go:48-53 -/
structure HandShake where
  protocol : Bytes
  rBytes : Bytes
  infoHash : Bytes
  peerId : Bytes
deriving DecidableEq

/-- dht/peerwire/bep3.go:63-65 -/
def HandShake.SupportExtended (h : HandShake) : Res Bool :=
  match h.rBytes[5]? with
  | some b => .ok (b &&& 0x10 > 0)
  | none => .panic .runtime

/-- dht/peerwire/bep3.go:75-84 -/
def HandShake.Bytes (h : HandShake) : P2P.Bytes :=
  [UInt8.ofNat h.protocol.length] ++ h.protocol ++ h.rBytes ++ h.infoHash ++ h.peerId

/-- the Go slice expression `data[a:b]` (`a ≤ b`) -/
def reslice (data tail : Bytes) (a b : Nat) : Res Bytes :=
  if b ≤ data.length + tail.length then .ok (slice (data ++ tail) a b) else .panic .runtime

/-- dht/peerwire/bep3.go:86-101 -/
def parseHandShakeMsg (data tail : Bytes) : Res HandShake :=
  if handShakeLen ≠ data.length then logPanic b!"parseHandShakeMsg wrong data len"
  else
    match data[0]? with
    | none => .panic .runtime
    | some c => do
      let index := 1
      let protocolLen := c.toNat
      let protocol ← reslice data tail index (index + protocolLen)
      let index := index + protocolLen
      let rBytes ← reslice data tail index (index + reservedBytes.length)
      let index := index + reservedBytes.length
      let infoHash ← reslice data tail index (index + InfoHashLen)
      let index := index + InfoHashLen
      let peerId ← reslice data tail index (index + PeerIdLen)
      pure { protocol, rBytes, infoHash, peerId }

/-- dht/peerwire/bep3.go:103-109 -/
def withHandShakeMsg (peerId infoHash : Bytes) : Res Bytes :=
  if PeerIdLen ≠ peerId.length ∨ InfoHashLen ≠ infoHash.length then logPanic b!"wrong peerId or infohash"
  else .ok (HandShake.Bytes { protocol := supportProtocolName, rBytes := reservedBytes, infoHash, peerId })

/-- dht/peerwire/bep3.go:127-129 -/
def parsePrefixLenMsg (data : Bytes) : Res Nat :=
  match data[0]? with
  | some c => .ok c.toNat
  | none => .panic .runtime

/-! ## BEP 10 extended handshake -/

/-- dht/peerwire/bep10.go:21-27; the result is `ExDict`. `metadata`/`dict = none` is a nil `Dict`. -/
def NewBaseExHandShakeMsg (metadata dict : Option Entries) : Entries :=
  dictPut (dict.getD []) b!"m" (match metadata with | some m => .dict m | none => .nilDict)

/-- dht/peerwire/bep10.go:37-50; `order` is the order in which the maps are iterated -/
def exHandShakeBytes (order : Entries → Entries) (exDict : Entries) : Res Bytes :=
  match EncodeDict (some (order exDict)) with
  | .ok dst => .ok (be32 (dst.length + 2) ++ [UInt8.ofNat ExtendedPeerMsg] ++ [UInt8.ofNat handShakeMsgId] ++ dst)
  | .err _ => logPanic b!"encode extended handshake err"
  | .panic p => .panic p
  | .diverge => .diverge

/-- dht/peerwire/bep10.go:53-65; the result is `ExDict`. A nil dictionary returned without an error
(`DecodeDict` with bytes left over) is read like an empty one, so that `GetDict("m")` panics before the
write to the nil map. -/
def parseExtendedHandShake (data : Bytes) : Res Entries :=
  match data[0]?, data[1]? with
  | some c0, some c1 =>
    if ExtendedPeerMsg ≠ c0.toNat ∨ handShakeMsgId ≠ c1.toNat then logPanic b!"extended handshake resp err"
    else
      match DecodeDict (data.drop 2) with
      | .err _ => logPanic b!"decode extended handshake err"
      | .panic p => .panic p
      | .diverge => .diverge
      | .ok dict => do
        let m ← Dict.GetDict (dict.getD []) b!"m"
        pure (NewBaseExHandShakeMsg m dict)
  | _, _ => .panic .runtime

/-- dht/peerwire/bep10.go:67-70 -/
def withExtendedhandShake (order : Entries → Entries) (metadata dict : Option Entries) : Res Bytes :=
  exHandShakeBytes order (NewBaseExHandShakeMsg metadata dict)

/-! ## BEP 9 metadata messages -/

/-- dht/peerwire/bep9.go:32-38. `dataOff` says where in the parsed message the slice `data` starts (`none`:
`data` is nil or was not obtained by parsing). -/
structure ExFetchMeta where
  msgId : Int
  msgType : Int
  pieceNum : Int
  totalSize : Int
  data : Bytes
  dataOff : Option Nat
deriving DecidableEq

/-- the dictionary of dht/peerwire/bep9.go:66-69 -/
def ExFetchMeta.dict (m : ExFetchMeta) : Entries :=
  if m.data.length > 0 then
    dictPut [(b!"msg_type", .int m.msgType), (b!"piece", .int m.pieceNum)] b!"total_size" (.int m.totalSize)
  else [(b!"msg_type", .int m.msgType), (b!"piece", .int m.pieceNum)]

/-- dht/peerwire/bep9.go:65-89; `byte(b.MsgId)` keeps the low 8 bits -/
def ExFetchMeta.Bytes (order : Entries → Entries) (m : ExFetchMeta) : Res P2P.Bytes :=
  match EncodeDict (some (order m.dict)) with
  | .ok dst =>
    .ok (be32 (2 + dst.length + m.data.length) ++ [UInt8.ofNat ExtendedPeerMsg] ++ [UInt8.ofNat (m.msgId % 256).toNat] ++
      dst ++ (if m.data.length > 0 then m.data else []))
  | .err _ => logPanic b!"encode extended fetchmetadata err"
  | .panic p => .panic p
  | .diverge => .diverge

/-- dht/peerwire/bep9.go:91-108 -/
def parseExtendedFetchMetaMsg (data : Bytes) : Res ExFetchMeta :=
  match data[0]? with
  | none => .panic .runtime
  | some c0 =>
    if ExtendedPeerMsg ≠ c0.toNat then logPanic b!"extended fetchmetadata not extended msg"
    else
      match data[1]? with
      | none => .panic .runtime
      | some c1 =>
        match DecodeDictNoLimit (data.drop 2) with
        | .err _ => logPanic b!"decode extended fetchmetadata err"
        | .panic p => .panic p
        | .diverge => .diverge
        | .ok (dict, n) =>
          let next := n + 2
          if next ≥ data.length then do
            let t ← Dict.GetInteger dict b!"msg_type"
            let p ← Dict.GetInteger dict b!"piece"
            pure { msgId := c1.toNat, msgType := t, pieceNum := p, totalSize := 0, data := [], dataOff := none }
          else do
            let totalSize ← Dict.GetInteger dict b!"total_size"
            let t ← Dict.GetInteger dict b!"msg_type"
            let p ← Dict.GetInteger dict b!"piece"
            pure { msgId := c1.toNat, msgType := t, pieceNum := p, totalSize, data := data.drop next, dataOff := some next }

/-- dht/peerwire/bep9.go:110-117 (`data` is the optional argument, `[]` if absent) -/
def withExtendedFetchMetaMsg (order : Entries → Entries) (exMsgId mType pieceNum totalSize : Int) (data : Bytes) : Res Bytes :=
  ExFetchMeta.Bytes order { msgId := exMsgId, msgType := mType, pieceNum, totalSize, data, dataOff := none }

end P2P

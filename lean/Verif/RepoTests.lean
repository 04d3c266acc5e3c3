import Verif.Model.Fetch
import Verif.Model.Local
import Verif.Model.LogText
import Verif.Model.BytesPool
import Verif.Props.KrpcExamples
/-! # The unit tests of the repository, replayed on the model

Every assertion of the repository's own `_test.go` files that concerns modelled, deterministic code is evaluated here on the model. These
are tests of the *model* (is it the same program?), not proofs of properties. Maps are compared as maps: the tests' literals are written
in the order in which the model lists the entries. Where the repository's expectation is not what its code does (a stale test), the example
states what the code does and says so. -/
namespace P2P

set_option synthInstance.maxHeartbeats 400000
set_option synthInstance.maxSize 100000

private def nib (c : UInt8) : Nat := if c < 58 then c.toNat - 48 else c.toNat - 87
private def unhex : Bytes → Bytes
  | a :: b :: r => UInt8.ofNat (nib a * 16 + nib b) :: unhex r
  | _ => []

/-! ## misc/beancode_test.go -/

/- TestIntergeEncode (9-19) -/
example : EncodeInteger 3 = b!"i3e" ∧ EncodeInteger 0 = b!"i0e" ∧ EncodeInteger (-3) = b!"i-3e" := by decide +kernel
/- TestIntergeDecode (20-41) -/
example : DecodeInteger b!"i3e" = .ok 3 ∧ DecodeInteger b!"i0e" = .ok 0 ∧ DecodeInteger b!"i-3e" = .ok (-3) ∧
    (∀ s ∈ [b!"", b!"-3e", b!"i03e", b!"i00e", b!"i1.0e", b!"ife", b!"i-0e"], DecodeInteger s = .err .wrongParam) := by
  decide +kernel
/- TestStringEncode (43-54) -/
example : EncodeString b!"spam" = b!"4:spam" ∧ EncodeString b!"hello" = b!"5:hello" ∧ EncodeString b!"" = b!"0:" := by decide +kernel
/- TestStringDecode (56-76) -/
example : DecodeString b!"4:spam" = .ok b!"spam" ∧ DecodeString b!"5:hello" = .ok b!"hello" ∧ DecodeString b!"0:" = .ok [] ∧
    (∀ s ∈ [b!"10:", b!"0:spam", b!"0spam", b!":spam"], DecodeString s = .err .wrongParam) := by decide +kernel
/- TestListEncode (78-97); `1.0` is a value of another kind -/
example : EncodeSlice (some [.str b!"spam", .str b!"eggs"]) = .ok b!"l4:spam4:eggse" ∧
    EncodeSlice (some [.int 10, .str b!"eggs"]) = .ok b!"li10e4:eggse" ∧
    EncodeSlice (some [.int (-10), .int 0]) = .ok b!"li-10ei0ee" ∧ EncodeSlice (some []) = .ok b!"le" ∧
    EncodeSlice (some [.other]) = .err .wrongParam ∧
    EncodeSlice (some [.int 10, .str b!"abc", .list [.str b!"a", .str b!"b"]]) = .ok b!"li10e3:abcl1:a1:bee" := by decide +kernel
/- TestListDecode (99-131) -/
example : DecodeSlice b!"l4:spam4:eggse" = .ok [.str b!"spam", .str b!"eggs"] ∧
    DecodeSlice b!"li10e4:eggse" = .ok [.int 10, .str b!"eggs"] ∧ DecodeSlice b!"li-10ei0ee" = .ok [.int (-10), .int 0] ∧
    DecodeSlice b!"li-10ei0eli1ei2eee" = .ok [.int (-10), .int 0, .list [.int 1, .int 2]] ∧
    DecodeSlice b!"li10ei0ei-1elei10ee" = .ok [.int 10, .int 0, .int (-1), .list [], .int 10] ∧
    DecodeSlice b!"le" = .ok [] ∧ DecodeSlice b!"li-0e1:2222e" = .err .wrongParam ∧ DecodeSlice b!"li:e" = .err .wrongParam ∧
    DecodeSlice b!"li10e" = .err .wrongParam := by decide +kernel
/- TestMapEncode (133-147), for the iteration order of the expected text (another order makes the Go test fail) -/
example : EncodeDict (some [(b!"cow", .str b!"moo"), (b!"spam", .str b!"eggs")]) = .ok b!"d3:cow3:moo4:spam4:eggse" ∧
    EncodeDict (some [(b!"name", .str b!"xiaohua"), (b!"age", .int 10)]) = .ok b!"d4:name7:xiaohua3:agei10ee" ∧
    EncodeDict (some [(b!"spam", .list [.str b!"a", .str b!"b"]), (b!"age", .list [.int 10, .int 20])]) =
      .ok b!"d4:spaml1:a1:be3:ageli10ei20eee" ∧
    EncodeDict (some [(b!"spam", .list [.str b!"a", .str b!"b"]), (b!"age", .dict [(b!"math", .int 10), (b!"english", .int 20)])]) =
      .ok b!"d4:spaml1:a1:be3:aged4:mathi10e7:englishi20eee" := by decide +kernel
/- TestMapDecode (149-168) -/
example : DecodeDict b!"d3:cow3:moo4:spam4:eggse" = .ok (some [(b!"cow", .str b!"moo"), (b!"spam", .str b!"eggs")]) ∧
    DecodeDict b!"d4:name7:xiaohua3:agei10ee" = .ok (some [(b!"name", .str b!"xiaohua"), (b!"age", .int 10)]) ∧
    DecodeDict b!"d1:name7:xiaohua:agei10ee" = .err .wrongParam ∧
    DecodeDict b!"d4:spaml1:a1:be3:ageli10ei20eee" =
      .ok (some [(b!"spam", .list [.str b!"a", .str b!"b"]), (b!"age", .list [.int 10, .int 20])]) ∧
    DecodeDict b!"d4:spaml1:a1:be3:aged4:mathi10e7:englishi20eee" =
      .ok (some [(b!"spam", .list [.str b!"a", .str b!"b"]), (b!"age", .dict [(b!"math", .int 10), (b!"english", .int 20)])]) := by
  decide +kernel

/-! ## misc/types_test.go -/

private def tDict : Entries :=
  [(b!"name", .str b!"xiaohua"), (b!"total", .int 199), (b!"grade", .list [.int 100, .int 99]),
   (b!"family", .dict [(b!"sister", .str b!"xiaomei")])]
private def tList : List GoVal :=
  [.int 10, .list [.str b!"spam", .str b!"eggs"], .str b!"age", .dict [(b!"name", .str b!"xiaoguo")]]

/- TestDictGetter (8-18) -/
example : Dict.GetInteger tDict b!"total" = .ok 199 ∧ Dict.GetString tDict b!"name" = .ok b!"xiaohua" ∧
    Dict.GetList tDict b!"grade" = .ok (some [.int 100, .int 99]) ∧
    Dict.GetDict tDict b!"family" = .ok (some [(b!"sister", .str b!"xiaomei")]) ∧
    Dict.GetStringOrDefault tDict b!"defaulttest" b!"test" = b!"test" ∧
    Dict.GetIntegerOrDefault tDict b!"defaulttest" 10 = 10 := by decide +kernel
/- TestDictGetterPanic (20-79); the expected texts of the test lack the space behind the code and the stack (`Error()` was changed
since), so the Go test fails; the messages themselves agree -/
example : Dict.GetInteger tDict b!"totalGrade" = .panic (.biz b!"cannot find totalGrade's val") ∧
    Dict.GetInteger tDict b!"name" = .panic (.biz b!"name's val cannot match type of int") ∧
    Dict.GetString tDict b!"total" = .panic (.biz b!"total's val cannot match type of string") ∧
    Dict.GetDict tDict b!"name" = .panic (.biz b!"name's val cannot match type of Dict") ∧
    ∀ stack, (PanicBizErr b!"cannot find totalGrade's val" []).Error stack ≠ b!"201:cannot find totalGrade's val" := by
  refine ⟨by decide +kernel, by decide +kernel, by decide +kernel, by decide +kernel, fun stack h => ?_⟩
  simp [MiscErr.Error, PanicBizErr, NewError, genericErr, itoa, natDec, natDecAux] at h
/- TestListGetter (81-89), TestListGetterPanic (91-141) -/
example : GoList.GetInteger tList 0 = .ok 10 ∧ GoList.GetString tList 2 = .ok b!"age" ∧
    GoList.GetList tList 1 = .ok (some [.str b!"spam", .str b!"eggs"]) ∧
    GoList.GetDict tList 3 = .ok (some [(b!"name", .str b!"xiaoguo")]) ∧
    GoList.GetInteger tList 1 = .panic (.biz b!"val cannot match type of int") ∧
    GoList.GetString tList 0 = .panic (.biz b!"val cannot match type of string") ∧
    GoList.GetDict tList 0 = .panic (.biz b!"val cannot match type of Dict") := by decide +kernel

/-! ## misc/bits_test.go, misc/errors_test.go, misc/strings_test.go, misc/bytespool_test.go -/

/- TestXor (9-12) -/
example : Xor (unhex b!"010002") (unhex b!"030102") = unhex b!"020100" ∧
    Xor (unhex b!"000000") (unhex b!"ffffff") = unhex b!"ffffff" := by decide +kernel
/- TestErrMsg (8-13) -/
example : genericErr = 201 := rfl
/- Test2string (25-33): a string, a Stringer, an error -/
example : ToString ⟨some b!"123", none, none, .ok b!"\"123\""⟩ = b!"123" ∧ ToString ⟨none, none, none, .ok b!"[1,2,3]"⟩ = b!"[1,2,3]" ∧
    ToString ⟨none, none, some b!"stringStruc, name=xiaoguo", .ok b!"{}"⟩ = b!"stringStruc, name=xiaoguo" ∧
    ToString ⟨none, some b!"error, name=xiaoguo", none, .ok b!"{}"⟩ = b!"error, name=xiaoguo" := by decide +kernel
/- TestStr2Hex (35-38) -/
example : hexEncode (unhex b!"abcd") = b!"abcd" := by decide +kernel
/- TestBytesPool (8-18): what is put back is handed out again, per size -/
example :
    (do let p ← NewBytesPool 100 10 0
        let (a, p) ← p.Get
        let (b, p) ← (p.Put a).Get
        let (c, p) ← p.GetBySize 100
        let (d, _) ← (p.Put c).GetBySize 100
        pure (decide (a = b ∧ c = d ∧ c.len = 100)) : Res Bool) = .ok true := by decide +kernel

/-! ## dht/messages_test.go, dht/krpc/messages_test.go -/

private def tId : Bytes := b!"abcdefghij0123456789"
private def tTarget : Bytes := b!"mnopqrstuvwxyz123456"

/- TestGenQueryMsg (13-28) -/
example : (WithPingMsg b!"aa" tId none).RawData =
      [(b!"t", .str b!"aa"), (b!"y", .str b!"q"), (b!"q", .str b!"ping"), (b!"a", .dict [(b!"id", .str tId)])] ∧
    (WithFindNodeMsg b!"aa" tId tTarget none).RawData =
      [(b!"t", .str b!"aa"), (b!"y", .str b!"q"), (b!"q", .str b!"find_node"), (b!"a", .dict [(b!"id", .str tId), (b!"target", .str tTarget)])] ∧
    (WithGetPeersMsg b!"aa" tId tTarget none).RawData =
      [(b!"t", .str b!"aa"), (b!"y", .str b!"q"), (b!"q", .str b!"get_peers"), (b!"a", .dict [(b!"id", .str tId), (b!"info_hash", .str tTarget)])] ∧
    (WithAnnouncePeerMsg b!"aa" tId tTarget b!"aoeusnth" 6881 none).RawData =
      [(b!"t", .str b!"aa"), (b!"y", .str b!"q"), (b!"q", .str b!"announce_peer"),
       (b!"a", .dict [(b!"id", .str tId), (b!"info_hash", .str tTarget), (b!"port", .int 6881), (b!"token", .str b!"aoeusnth"),
         (b!"implied_port", .int 0)])] := by decide +kernel
/- TestGenErrMsg (30-39), dht/krpc/messages_test.go:9-18 -/
example : (WithErr b!"aa" 202 b!"test protocol err").RawData =
      .ok [(b!"t", .str b!"aa"), (b!"y", .str b!"e"), (b!"e", .list [.int 202, .str b!"test protocol err"])] ∧
    (WithParamErr b!"aa" b!"test param err").RawData =
      .ok [(b!"t", .str b!"aa"), (b!"y", .str b!"e"), (b!"e", .list [.int 203, .str b!"test param err"])] := by decide +kernel
/- TestGenRespMsg (41-47) -/
example : (WithPingResponse b!"aa" tTarget).RawData =
    .ok [(b!"t", .str b!"aa"), (b!"y", .str b!"r"), (b!"r", .dict [(b!"id", .str tTarget)])] := by decide +kernel
/- TestHandleQueryResp (49-97): what the handlers of the test read from the responses -/
private def lo9000 : UDPAddr := { ip := [127, 0, 0, 1], port := 9000 }
example : (WithPingResponse b!"aa" tTarget).NodeId = .ok tTarget ∧
    (do let s ← Dict.GetString (asMap (WithFindNodeResponse b!"aa" tTarget [⟨tTarget, lo9000⟩]).body) b!"nodes"
        let ns ← parseNodeInfo s
        pure (ns.map fun n => (n.id, addrString env0 n.addr)) : Res _) = .ok [(tTarget, b!"127.0.0.1:9000")] ∧
    (do let l ← Dict.GetList (asMap (WithGetPeersValsResponse b!"aa" tTarget b!"aoeusnth" [lo9000]).body) b!"values"
        let as ← parsePeerInfo id (l.getD [])
        pure (as.map (addrString env0)) : Res _) = .ok [b!"127.0.0.1:9000"] ∧
    (do let s ← Dict.GetString (asMap (WithGetPeersNodesResponse b!"aa" tTarget b!"aoeusnth" [⟨tTarget, lo9000⟩]).body) b!"nodes"
        let ns ← parseNodeInfo s
        pure (ns.map fun n => (n.id, addrString env0 n.addr)) : Res _) = .ok [(tTarget, b!"127.0.0.1:9000")] := by decide +kernel

/-! ## dht/fetchtorrent_test.go, dht/node_test.go -/

/- TestParseFetchAddr (10-14) -/
example : parseFetchAddr env0 ⟨WithAnnouncePeerMsg b!"aa" b!"bb" b!"infohash" b!"token" 9000 none, ⟨[127, 0, 0, 1], 8000, []⟩⟩ = .ok b!"127.0.0.1:9000" := by decide +kernel
/- TestNodeInfoParse (10-19) -/
private def tNodes : Bytes := unhex b!"663978af8cc93057aa391db6c02e28920846507505bdb939c8ea66da681d446a55f0c05b972c4464feb2c006165118157d53e120254ecff1f1bbe9ebb3a6db3c870c3e99245e0d90c000945c896521fe13a6a764cfe9057c2bf872baabf97602fcdbd5884fee82c236b0eee0f42a2abba9a3af85282372e10124858905bdbb5ac9290c0edce5a05d0b3d275b9557f3e66ca9b7b00c126d7b29c16bf70f20e449f1f1bbe9ebb3a6db3c870c3e99245e52640b1fd553d7075c3174989b29a592f287cc5095033fded997052d0ae6a71ae1"
example : tNodes.length = 208 ∧ (do let ns ← parseNodeInfo tNodes; pure (joinNodeInfos ns) : Res Bytes) = .ok tNodes := by decide +kernel
/- TestAddrParse (21-25) -/
example : (do
    let as ← parsePeerInfo id [.str b!"1db6c0"]
    pure (joinPeerInfos as) : Res _) = .ok [.str b!"1db6c0"] := by decide +kernel

/-! ## dht/routetable_test.go -/

private def tNode (name : Bytes) (port : Int) : NodeInfo := { id := generateNodeId name, addr := { ip := [127, 0, 0, 1], port } }

/- TestAddNode (9-25), with the real SHA-1 ids -/
example :
    let hnode := tNode b!"local.test" 9090
    let n1 := tNode b!"test1" 9000
    let n2 := tNode b!"test2" 9001
    let n3 := tNode b!"test3" 9002
    (do let t := RouteTable.new hnode 2 160
        let (t, e1) ← t.AddNode env0 n1
        let (t, e2) ← t.AddNode env0 n2
        let (t, e3) ← t.AddNode env0 n3
        let f ← t.Find env0 n1.id
        let c ← t.FindClosest n1.id 4
        pure (decide (e1 = none ∧ e2 = none ∧ e3 = none ∧ t.size = 4 ∧ f = some n1 ∧ c = [hnode, n1, n2, n3])) : Res Bool) = .ok true := by
  decide +kernel

/-! ## dht/krpc/middleware_test.go, dht/krpc/server_test.go -/

/- TestReqHandlerMiddleware (9-36): the handlers append to a string -/
private def say (t : Bytes) : GoM Bytes Unit := GoM.modify (· ++ t)
example :
    (match runChain [.eff (say b!"a") (.next (.eff (say b!"a") .ret)), .eff (say b!"b") (.next (.eff (say b!"b") .ret)),
        .eff (say b!"main") .ret] [] with
      | .ok _ c => c.s
      | _ => []) = b!"abmainba" ∧
    (match runChain [.eff (say b!"main") .ret] [] with
      | .ok _ c => c.s
      | _ => []) = b!"main" := by decide +kernel

/- TestHandlePingMsg (11-24). The second expectation of the test, `201:cannot find a's val`, is stale: the reply now carries
`201: cannot find a's val` and the stack. -/
private def tPing : Handlers :=
  { router := [(b!"ping", fun a => .eff (writeAs (WithResponse a.req.txId (some [(b!"id", .str tTarget)]))) .ret)]
    reqMw := [], respMw := [], respH := fun _ _ => .ret }
private def tOracle : Oracle :=
  { lookup := fun _ _ => none, addNode := fun _ _ => none, nextTx := fun _ => 0, sendFails := fun _ => false, order := fun _ d => d,
    stack := fun _ => b!"STACK" }
private def tReply (d : Entries) : Option (Res Entries) :=
  match requestHandle env0.fold tPing tOracle lo9000 d { resp := none, trace := [] } with
  | .ok (some r) _ => some r.RawData
  | _ => none
example : tReply [(b!"t", .str b!"aa"), (b!"y", .str b!"q"), (b!"q", .str b!"ping"), (b!"a", .dict [(b!"id", .str tId)])] =
      some (.ok [(b!"t", .str b!"aa"), (b!"y", .str b!"r"), (b!"r", .dict [(b!"id", .str tTarget)])]) ∧
    tReply [(b!"t", .str b!"aa"), (b!"y", .str b!"q"), (b!"q", .str b!"ping")] =
      some (.ok [(b!"t", .str b!"aa"), (b!"y", .str b!"e"),
        (b!"e", .list [.int 203, .str b!"201: cannot find a's val\r\nstacks:\r\nSTACK"])]) := by decide +kernel

/-! ## dht/peerwire/bep3_test.go, bep9_test.go, bep10_test.go -/

private def tHash : Bytes := unhex b!"9bd56482d6fd6a436f5051d3b9560cdd942a5962"
/- TestGenHandshakeMsg (9-19). The test expects the last reserved byte to be 01 (DHT); the code sends 00, so the Go test fails. -/
example : (do let d ← withHandShakeMsg (GeneratePeerId b!"test1") tHash; pure (hexEncode d) : Res _) =
      .ok b!"13426974546f7272656e742070726f746f636f6c00000000001000009bd56482d6fd6a436f5051d3b9560cdd942a5962b444ac06613fc8d63795be9ad0beaf55011936ac" ∧
    (do let d ← withHandShakeMsg (GeneratePeerId b!"test1") tHash
        let h ← parseHandShakeMsg d []
        let e ← h.SupportExtended
        pure (h.protocol, e, h.peerId, h.infoHash) : Res _) = .ok (b!"BitTorrent protocol", true, GeneratePeerId b!"test1", tHash) := by
  decide +kernel
/- TestParseHandshakeMsg (21-28): a handshake recorded from a real client -/
example : (do
      let h ← parseHandShakeMsg (unhex b!"13426974546f7272656e742070726f746f636f6c00000000001000049bd56482d6fd6a436f5051d3b9560cdd942a59622d5350333630355f549fe731afaa6fdb0494e971") []
      let e ← h.SupportExtended
      pure (h.protocol, e, h.infoHash) : Res _) = .ok (supportProtocolName, true, tHash) := by decide +kernel
/- TestParsePrefixLenMsg (30-42): 5 is BITFIELD; the test's two other assertions (02 and 01 are BITFIELD, too) are false of the code -/
example : parsePrefixLenMsg (unhex b!"05000000") = .ok 5 ∧ parsePrefixLenMsg (unhex b!"02") = .ok 2 ∧ parsePrefixLenMsg (unhex b!"01") = .ok 1 := by
  decide +kernel
/- TestRquestMetadataFiles (10-18) -/
example : (do let d ← withExtendedFetchMetaMsg id 1 ExRequest 0 0 []; pure (hexEncode d) : Res _) =
      .ok b!"0000001b140164383a6d73675f74797065693065353a706965636569306565" ∧
    (do let d ← withExtendedFetchMetaMsg id 1 ExRequest 0 0 []
        let m ← parseExtendedFetchMetaMsg (d.drop 4)
        pure (m.msgId, m.msgType, m.pieceNum) : Res _) = .ok (1, ExRequest, 0) := by decide +kernel
/- TestParseMetadataFiles (20-32): a message recorded from a real client -/
example : (do
      let m ← parseExtendedFetchMetaMsg (unhex b!"140164383a6d73675f74797065693165353a706965636569306531303a746f74616c5f73697a65693639383737656564333a636f77333a6d6f6f343a7370616d343a6567677365")
      let d ← DecodeDict m.data
      pure (m.msgType, m.pieceNum, m.totalSize, decide (SizeOf16KB ≥ m.data.length), d) : Res _) =
    .ok (ExData, 0, 69877, true, some [(b!"cow", .str b!"moo"), (b!"spam", .str b!"eggs")]) := by decide +kernel
/- TestRquestMetadataFilesWithData (34-42) -/
example : (do let d ← withExtendedFetchMetaMsg id 3 ExData 0 2 [0, 1]
              let m ← parseExtendedFetchMetaMsg (d.drop 4)
              pure (m.msgId, m.msgType, m.pieceNum, m.data) : Res _) = .ok (3, ExData, 0, [0, 1]) := by decide +kernel
/- TestGenExtendedHandShakeNoSize (10-16) -/
example : (do let d ← withExtendedhandShake id (some [(b!"ut_metadata", .int 1)]) none; pure (hexEncode d) : Res _) =
      .ok b!"0000001a140064313a6d6431313a75745f6d657461646174616931656565" := by decide +kernel
/- TestParseExtendedHandShake (18-29): recorded from a real client -/
example : (do
      let d ← parseExtendedHandShake (unhex b!"140064343a69707634343ac0a8016a313a6d6431313a75745f6d65746164617461693165363a75745f7065786932656531333a6d657461646174615f73697a6569363938373765313a7069313239353165343a726571716935313265313a7631363a4269745370697269742076332e362e3065")
      let m ← Dict.GetDict d b!"m"
      let a ← Dict.GetInteger (asMap m) b!"ut_metadata"
      let b ← Dict.GetInteger (asMap m) b!"ut_pex"
      let c ← Dict.GetInteger d b!"metadata_size"
      let e ← Dict.GetInteger d b!"p"
      let f ← Dict.GetInteger d b!"reqq"
      let g ← Dict.GetString d b!"v"
      pure (a, b, c, e, f, g) : Res _) = .ok (1, 2, 69877, 12951, 512, b!"BitSpirit v3.6.0") := by decide +kernel
/- TestGenExtendedHandShake (31-38) -/
example : (do
      let b ← withExtendedhandShake id (some [(b!"ut_metadata", .int 3)]) (some [(b!"metadata_size", .int 32000)])
      let d ← parseExtendedHandShake (b.drop 4)
      let m ← Dict.GetDict d b!"m"
      let a ← Dict.GetInteger (asMap m) b!"ut_metadata"
      let c ← Dict.GetInteger d b!"metadata_size"
      pure (a, c) : Res _) = .ok (3, 32000) := by decide +kernel

end P2P

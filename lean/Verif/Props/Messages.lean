import Verif.Props.KrpcHistory
import Verif.Props.Node
/-! # C72: the messages made by the constructors of dht/messgaes.go, as they appear on the wire -/
namespace P2P

/-- The dictionary of a reply. -/
def replyDict (t : Bytes) (r : Entries) : Entries := [(b!"t", .str t), (b!"y", .str b!"r"), (b!"r", .dict r)]

/-- `req`, whose arguments are `args`, is sent by `Query` as one datagram, an encoding of the query dictionary, and is
registered before. -/
def SentAs (req : Request) (t q : Bytes) (args : Entries) : Prop :=
  ∀ (O : Oracle), O.Fair → ∀ (raddr : UDPAddr) (s : HSt), ∃ b failed err,
    EncodingOf (.dict (queryDict t q args)) b ∧
    Query O raddr req s = .ok err { s with trace := s.trace ++ [.put req, .send raddr b failed] } ∧
    (err = none ↔ failed = false)

/-- C72: the four queries, field by field. -/
theorem C72_queries (t id : Bytes) (h : Option Nat) :
    SentAs (WithPingMsg t id h) t b!"ping" [(b!"id", .str id)] ∧
    (∀ target, SentAs (WithFindNodeMsg t id target h) t b!"find_node" [(b!"id", .str id), (b!"target", .str target)]) ∧
    (∀ ih, SentAs (WithGetPeersMsg t id ih h) t b!"get_peers" [(b!"id", .str id), (b!"info_hash", .str ih)]) ∧
    (∀ ih token port, IsInt64 port → SentAs (WithAnnouncePeerMsg t id ih token port h) t b!"announce_peer"
      [(b!"id", .str id), (b!"info_hash", .str ih), (b!"port", .int port), (b!"token", .str token), (b!"implied_port", .int 0)]) := by
  refine ⟨fun O hO a s => ?_, fun target O hO a s => ?_, fun ih O hO a s => ?_, fun ih token port hp O hO a s => ?_⟩
  · exact Query_spec hO a (WithPingMsg t id h) s rfl ⟨by simp, by simp [GoVal.WFD, GoVal.WF]⟩ (by simp [Encodable, EncodableD])
  · exact Query_spec hO a (WithFindNodeMsg t id target h) s rfl ⟨by simp, by simp [GoVal.WFD, GoVal.WF]⟩ (by simp [Encodable, EncodableD])
  · exact Query_spec hO a (WithGetPeersMsg t id ih h) s rfl ⟨by simp, by simp [GoVal.WFD, GoVal.WF]⟩ (by simp [Encodable, EncodableD])
  · exact Query_spec hO a (WithAnnouncePeerMsg t id ih token port h) s rfl
      ⟨by simp, by simp only [GoVal.WFD, GoVal.WF]; exact ⟨trivial, trivial, hp, trivial, by decide, trivial⟩⟩ (by simp [Encodable, EncodableD])

/-- a reply on the wire is understood as the reply it encodes -/
theorem reply_understood {t id : Bytes} {r : Entries} {b : Bytes} (he : Encodable (.dict r)) (hid : r.lookup b!"id" = some (.str id))
    (h : EncodingOf (.dict (replyDict t r)) b) (hg : GoString b) :
    ∃ body, IsResponse b t body ∧ DeepEq (.dict r) (.dict body) := by
  obtain ⟨w, hw1, hw2, hw3⟩ := h
  obtain ⟨we, rfl⟩ : ∃ we, w = .dict we := by cases hw2 <;> exact ⟨_, rfl⟩
  have henc' : Encodable (.dict (replyDict t r)) := by
    simp only [replyDict, Encodable, EncodableD]; exact ⟨trivial, trivial, he, trivial⟩
  obtain ⟨b', h1, h2⟩ := C05_dict_before_payload _ we [] henc' ⟨hw1, hw2⟩
  have : b' = b := by
    have h3 : EncodeDict (some we) = .ok b := hw3
    rw [h1] at h3; cases h3; rfl
  subst this
  obtain ⟨e, he1, he2⟩ : ∃ e, DecodeDictNoLimit b' = .ok (e, b'.length) ∧ DeepEq (.dict (replyDict t r)) (.dict e) := by
    simpa using h2 (by simpa using hg)
  obtain ⟨body, hb1, hb2⟩ := deepEq_lookup_dict he2 (k := b!"r") (a := r) rfl
  exact ⟨body, ⟨⟨e, _, he1, deepEq_lookup_str he2 rfl, deepEq_lookup_str he2 rfl, hb1⟩, id, deepEq_lookup_str hb2 hid⟩, hb2⟩

theorem encodable_strs : ∀ (as : List UDPAddr), EncodableL (joinPeerInfos as)
  | [] => by simp [joinPeerInfos, EncodableL]
  | a :: r => by simp [joinPeerInfos, EncodableL, Encodable, encodable_strs r]

/-- C72: the data of the replies, field by field. -/
theorem C72_replies (t id token : Bytes) (ns : List NodeInfo) (as : List UDPAddr) :
    (WithPingResponse t id).RawData = .ok (replyDict t [(b!"id", .str id)]) ∧
    (WithAnnouncePeerResponse t id).RawData = .ok (replyDict t [(b!"id", .str id)]) ∧
    (WithFindNodeResponse t id ns).RawData = .ok (replyDict t [(b!"id", .str id), (b!"nodes", .str (joinNodeInfos ns))]) ∧
    (WithGetPeersNodesResponse t id token ns).RawData =
      .ok (replyDict t [(b!"id", .str id), (b!"token", .str token), (b!"nodes", .str (joinNodeInfos ns))]) ∧
    (WithGetPeersValsResponse t id token as).RawData =
      .ok (replyDict t [(b!"id", .str id), (b!"token", .str token), (b!"values", .list (joinPeerInfos as))]) := by
  refine ⟨?_, ?_, ?_, ?_, ?_⟩ <;> rfl

/-- C72: the data of error replies. -/
theorem C72_errors (t msg : Bytes) (code : Int) :
    (WithErr t code msg).RawData = .ok [(b!"t", .str t), (b!"y", .str b!"e"), (b!"e", .list [.int code, .str msg])] ∧
    (WithParamErr t msg).RawData = .ok [(b!"t", .str t), (b!"y", .str b!"e"),
      (b!"e", .list [.int 203, .str (if msg = [] then b!"invalid param" else msg)])] := by
  refine ⟨rfl, ?_⟩
  cases msg <;> rfl

/-- C72: a find_node reply made for `ns` (IPv4 nodes with 20-byte ids), received by a node with a pending find_node query of this
transaction id, makes the node offer exactly `ns`, in order, to its route table and query the accepted ones. -/
theorem C72_nodes_arrive (K : KEnv) {O : Oracle} (hO : O.Fair) {t id : Bytes} {ns : List NodeInfo} {d : Entries} {b : Bytes} (addr : UDPAddr)
    {req : Request} (hns : ∀ n ∈ ns, CompactNode n)
    (hd : (WithFindNodeResponse t id ns).RawData = .ok d) (hb : EncodingOf (.dict d) b) (hg : GoString b)
    (hl : O.lookup [] t = some req) (hh : req.handler.isSome = true) (hq : req.qType = b!"find_node") :
    ∃ run, dhtPacket K O { addr, bytes := b } = some run ∧ (offered run.trace).map Prod.fst = ns ∧
      (sends run.trace).map Prod.fst = ((offered run.trace).filter (fun x => x.2.isNone)).map (fun x => x.1.addr) := by
  rw [(C72_replies t id [] ns []).2.2.1] at hd
  cases hd
  obtain ⟨body, hr, hde⟩ := reply_understood (id := id) (by simp [Encodable, EncodableD]) rfl hb hg
  obtain ⟨run, tr, h1, h2, h3⟩ := C33_fanout K hO (pkt := { addr, bytes := b }) hr hl hh hq (deepEq_lookup_str hde rfl) (C15_parse_join ns hns)
  obtain ⟨q1, q2, -⟩ := C33_queries h3
  refine ⟨run, h1, ?_, ?_⟩
  · rw [h2]; simpa [offered] using q1
  · rw [h2]; simpa [offered, sends] using q2

/-- C72: the peers in a get_peers reply made for `as` (IPv4), and the nodes of one made for `ns`, are read back by the receiver. -/
theorem C72_peers_arrive (cap : Nat → Nat) {t id token : Bytes} {as : List UDPAddr} {d : Entries} {b : Bytes}
    (has : ∀ a ∈ as, a.ip.length = 4 ∧ (0 ≤ a.port ∧ a.port < 65536) ∧ a.zone = [])
    (hd : (WithGetPeersValsResponse t id token as).RawData = .ok d) (hb : EncodingOf (.dict d) b) (hg : GoString b) :
    ∃ body vs, IsResponse b t body ∧ body.lookup b!"token" = some (.str token) ∧ body.lookup b!"values" = some (.list vs) ∧
      parsePeerInfo cap vs = .ok as := by
  rw [(C72_replies t id token [] as).2.2.2.2] at hd
  cases hd
  obtain ⟨body, hr, hde⟩ := reply_understood (id := id)
    (by simp only [Encodable, EncodableD]; exact ⟨trivial, trivial, encodable_strs as, trivial⟩) rfl hb hg
  obtain ⟨w, hw1, hw2⟩ := deepEq_lookup hde (k := b!"values") rfl
  have : w = .list (joinPeerInfos as) := by
    cases hw2 with
    | refl => rfl
    | @list l m hlen h =>
      congr 1
      refine (List.ext_getElem hlen fun i h1 h2 => ?_).symm
      have hs : ∃ s, (joinPeerInfos as)[i] = .str s := by
        have : ∀ (as : List UDPAddr) v, v ∈ joinPeerInfos as → ∃ s, v = .str s := by
          intro as
          induction as with
          | nil => simp [joinPeerInfos]
          | cons a r ih =>
            intro v hv
            simp only [joinPeerInfos, List.mem_cons] at hv
            rcases hv with rfl | hv
            · exact ⟨_, rfl⟩
            · exact ih v hv
        exact this as _ (List.getElem_mem h1)
      have hd := h i _ _ (List.getElem?_eq_getElem h1) (List.getElem?_eq_getElem h2)
      obtain ⟨s, hs⟩ := hs
      rw [hs] at hd ⊢
      generalize hm : m[i] = x at hd
      cases hd; rfl
  subst this
  exact ⟨body, _, hr, deepEq_lookup_str hde rfl, hw1, C16_parse_join cap as has⟩

/-! ## concrete instances -/

private def exNode : NodeInfo := { id := b!"abcdefghij0123456789", addr := { ip := [10, 0, 0, 1], port := 6881 } }

/-- one possible datagram of a find_node reply -/
example : EncodingOf (.dict (replyDict b!"aa" [(b!"id", .str b!"nnnnnnnnnnnnnnnnnnnn"), (b!"nodes", .str (joinNodeInfos [exNode]))]))
    (b!"d1:t2:aa1:y1:r1:rd2:id20:nnnnnnnnnnnnnnnnnnnn5:nodes26:abcdefghij0123456789" ++ [10, 0, 0, 1, 26, 225] ++ b!"ee") :=
  ⟨.dict _, ⟨by decide, by simp only [replyDict, queryDict, GoVal.WFD, GoVal.WF]; exact ⟨trivial, trivial, ⟨by decide, trivial, trivial, trivial⟩, trivial⟩⟩, .refl _, by decide +kernel⟩

example : CompactNode exNode := ⟨rfl, rfl, ⟨by decide, by decide⟩, rfl⟩

/-- one possible datagram of an announce_peer query -/
example : EncodingOf (.dict (queryDict b!"aa" b!"announce_peer" [(b!"id", .str b!"i"), (b!"info_hash", .str b!"h"), (b!"port", .int 6881),
      (b!"token", .str b!"tok"), (b!"implied_port", .int 0)]))
    b!"d1:t2:aa1:y1:q1:q13:announce_peer1:ad2:id1:i9:info_hash1:h4:porti6881e5:token3:tok12:implied_porti0eee" :=
  ⟨.dict _, ⟨by decide, by simp only [replyDict, queryDict, GoVal.WFD, GoVal.WF]; exact ⟨trivial, trivial, trivial, ⟨by decide, trivial, trivial, by decide, trivial, by decide, trivial⟩, trivial⟩⟩,
    .refl _, by decide +kernel⟩

end P2P

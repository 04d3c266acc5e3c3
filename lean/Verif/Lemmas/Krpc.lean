import Verif.Spec.Krpc
import Verif.Props.Types
import Verif.Props.Middleware
import Verif.Props.Node
/-! # Lemmas about packet handling -/
namespace P2P

theorem getString_cases (d : Entries) (k : Bytes) :
    (∃ s, d.lookup k = some (.str s) ∧ Dict.GetString d k = .ok s) ∨
    ((∀ s, d.lookup k ≠ some (.str s)) ∧ ∃ m, Dict.GetString d k = .panic (.biz m)) := by
  by_cases h : ∃ s, d.lookup k = some (.str s)
  · obtain ⟨s, h⟩ := h
    exact .inl ⟨s, h, (C13_present d k).2.1 s |>.2 h⟩
  · have h' : ∀ s, d.lookup k ≠ some (.str s) := fun s hs => h ⟨s, hs⟩
    exact .inr ⟨h', (C13_absent_or_wrong_type d k).2.1 h'⟩

theorem getInteger_cases (d : Entries) (k : Bytes) :
    (∃ s, d.lookup k = some (.int s) ∧ Dict.GetInteger d k = .ok s) ∨
    ((∀ s, d.lookup k ≠ some (.int s)) ∧ ∃ m, Dict.GetInteger d k = .panic (.biz m)) := by
  by_cases h : ∃ s, d.lookup k = some (.int s)
  · obtain ⟨s, h⟩ := h
    exact .inl ⟨s, h, (C13_present d k).1 s |>.2 h⟩
  · have h' : ∀ s, d.lookup k ≠ some (.int s) := fun s hs => h ⟨s, hs⟩
    exact .inr ⟨h', (C13_absent_or_wrong_type d k).1 h'⟩

theorem getDict_cases (d : Entries) (k : Bytes) :
    (∃ s, d.lookup k = some (.dict s) ∧ Dict.GetDict d k = .ok (some s)) ∨
    (d.lookup k = some .nilDict ∧ Dict.GetDict d k = .ok none) ∨
    ((∀ s, d.lookup k ≠ some (.dict s)) ∧ ∃ m, Dict.GetDict d k = .panic (.biz m)) := by
  by_cases h : ∃ s, d.lookup k = some (.dict s)
  · obtain ⟨s, h⟩ := h
    exact .inl ⟨s, h, (C13_present d k).2.2.2 s |>.2 h⟩
  · have h' : ∀ s, d.lookup k ≠ some (.dict s) := fun s hs => h ⟨s, hs⟩
    by_cases hn : d.lookup k = some .nilDict
    · exact .inr (.inl ⟨hn, by simp [Dict.GetDict, Dict.GetVal, dictGet, hn, GoVal.asDict]⟩)
    · exact .inr (.inr ⟨h', (C13_absent_or_wrong_type d k).2.2.2 h' hn⟩)

theorem getList_cases (d : Entries) (k : Bytes) :
    (∃ s, Dict.GetList d k = .ok s) ∨ (∃ m, Dict.GetList d k = .panic (.biz m)) := by
  unfold Dict.GetList Dict.GetVal
  cases dictGet d k with
  | none => exact .inr ⟨_, rfl⟩
  | some v => cases v <;> first | exact .inl ⟨_, rfl⟩ | exact .inr ⟨_, rfl⟩

theorem deepEq_lookup {d e : Entries} (h : DeepEq (.dict d) (.dict e)) {k : Bytes} {v : GoVal}
    (hv : d.lookup k = some v) : ∃ w, e.lookup k = some w ∧ DeepEq v w := by
  cases h with
  | refl => exact ⟨v, hv, .refl _⟩
  | dict hdom hd =>
    have hk := hdom k
    rw [hv] at hk
    cases he : e.lookup k with
    | none => rw [he] at hk; cases hk
    | some w => exact ⟨w, rfl, hd k v w hv he⟩

theorem deepEq_lookup_str {d e : Entries} (h : DeepEq (.dict d) (.dict e)) {k s : Bytes}
    (hv : d.lookup k = some (.str s)) : e.lookup k = some (.str s) := by
  obtain ⟨w, hw, h'⟩ := deepEq_lookup h hv
  cases h'; exact hw

theorem deepEq_lookup_int {d e : Entries} (h : DeepEq (.dict d) (.dict e)) {k : Bytes} {i : Int}
    (hv : d.lookup k = some (.int i)) : e.lookup k = some (.int i) := by
  obtain ⟨w, hw, h'⟩ := deepEq_lookup h hv
  cases h'; exact hw

theorem deepEq_lookup_dict {d e : Entries} (h : DeepEq (.dict d) (.dict e)) {k : Bytes} {a : Entries}
    (hv : d.lookup k = some (.dict a)) : ∃ b, e.lookup k = some (.dict b) ∧ DeepEq (.dict a) (.dict b) := by
  obtain ⟨w, hw, h'⟩ := deepEq_lookup h hv
  cases h' with
  | refl => exact ⟨_, hw, .refl _⟩
  | dict h1 h2 => exact ⟨_, hw, .dict h1 h2⟩

theorem deepEq_lookup_none {d e : Entries} (h : DeepEq (.dict d) (.dict e)) {k : Bytes}
    (hv : d.lookup k = none) : e.lookup k = none := by
  cases h with
  | refl => exact hv
  | dict hdom hd =>
    have hk := hdom k
    rw [hv] at hk
    cases he : e.lookup k with
    | none => rfl
    | some w => rw [he] at hk; cases hk

theorem deepEq_intStr {l : List GoVal} {i : Int} {s : Bytes} {v : GoVal}
    (hl : l = [.int i, .str s]) (h : DeepEq (.list l) v) : v = .list [.int i, .str s] := by
  cases h with
  | refl => rw [hl]
  | list hlen hl' =>
    rename_i m
    subst hl
    match m, hlen with
    | [a, b], _ =>
      have h0 := hl' 0 _ _ rfl rfl
      have h1 := hl' 1 _ _ rfl rfl
      cases h0; cases h1; rfl

/-- encoding a message under any iteration order and decoding it again -/
theorem encode_decode {O : Oracle} (hO : O.Fair) (tr : List Event) {d : Entries} (hw : GoVal.WF (.dict d))
    (he : Encodable (.dict d)) :
    ∃ b, EncodeDict (some (O.order tr d)) = .ok b ∧ EncodingOf (.dict d) b ∧
      (GoString b → ∃ e, DecodeDictNoLimit b = .ok (e, b.length) ∧ DeepEq (.dict d) (.dict e)) := by
  obtain ⟨b, h1, h2⟩ := C05_dict_before_payload d (O.order tr d) [] he (hO tr d hw)
  exact ⟨b, h1, ⟨_, (hO tr d hw).1, (hO tr d hw).2, h1⟩, by simpa using h2⟩

theorem supported_spec (fold : FoldTable) (q : Bytes) :
    ∃ b, GoList.ContainsString fold supportQueryType q = .ok b ∧ (q ∈ methods → b = true) := by
  have e : supportQueryType = methods.map .str := rfl
  rw [e]
  by_cases h : q ∈ methods
  · exact ⟨true, (C14_contains_string fold methods q).2 ⟨q, h, equalFold_refl _ _⟩, fun _ => rfl⟩
  · obtain ⟨b, hb⟩ := C14_contains_string_total fold methods q
    exact ⟨b, hb, fun h' => absurd h' h⟩

/-- a handler that does not call `Next` -/
def Prog.NoNext {σ : Type} : Prog σ → Prop
  | .ret => True
  | .eff _ k => k.NoNext
  | .ask k => ∀ s, (k s).NoNext
  | .next _ => False

/-- what such a handler does to the state -/
def Prog.exec {σ : Type} : Prog σ → GoM σ Unit
  | .ret => fun s => .ok () s
  | .eff f k => fun s =>
    match f s with
    | .ok _ s' => k.exec s'
    | .panic p s' => .panic p s'
    | .diverge => .diverge
  | .ask k => fun s => (k s).exec s
  | .next k => k.exec

theorem runProg_exec {σ : Type} (nc : GoM (ChainSt σ) Unit) (p : Prog σ) (hp : p.NoNext) (c : ChainSt σ) :
    runProg nc p c = (match p.exec c.s with
      | .ok _ s' => .ok () { c with s := s' }
      | .panic q s' => .panic q { c with s := s' }
      | .diverge => .diverge) := by
  induction p generalizing c with
  | ret => rfl
  | eff f k ih =>
    simp only [runProg, Prog.exec]
    cases hf : f c.s with
    | ok a s' => simp only [ih hp { c with s := s' }]
    | panic q s' => rfl
    | diverge => rfl
  | ask k ih => simp only [runProg, Prog.exec]; exact ih c.s (hp c.s) c
  | next k ih => exact absurd hp id

theorem runHandlers_single (p : Prog HSt) (hp : p.NoNext) (r0 : Option Response) (s : HSt) :
    runHandlers [p] r0 s =
      (match p.exec { s with resp := r0 } with
        | .ok _ s' => .ok s'.resp s'
        | .panic q s' => .panic q s'
        | .diverge => .diverge) := by
  simp only [runHandlers, runChain, chainNext, chainLoop, runProg_exec _ _ hp, List.length_cons, List.length_nil]
  cases h : p.exec { s with resp := r0 } <;> simp [h, runProg_exec _ _ hp]

theorem mem_methods {q : Bytes} : q ∈ methods ↔
    q = b!"ping" ∨ q = b!"find_node" ∨ q = b!"get_peers" ∨ q = b!"announce_peer" := by
  simp [methods]

theorem doRequestHandle_dht (K : KEnv) (O : Oracle) (req : Request) (f : HM Unit) (h : Handler)
    (addr : UDPAddr) (s : HSt) (hh : h { req, addr } = .eff f .ret) :
    doRequestHandle (dhtHandlers K O) req h addr s =
      (match f { resp := none, trace := s.trace ++ [.dispatch req addr] } with
        | .ok _ s' => .ok s'.resp s'
        | .panic q s' => .panic q s'
        | .diverge => .diverge) := by
  simp only [doRequestHandle, dhtHandlers, emptyHandlers, List.map_nil, List.nil_append, hh]
  rw [runHandlers_single _ (by simp [Prog.NoNext])]
  simp only [Prog.exec, emit, GoM.modify_apply]
  cases f { resp := none, trace := s.trace ++ [.dispatch req addr] } <;> simp

/-- the record of an answered get_peers query -/
def getPeersRecord (env : Env) (a : Entries) (addr : UDPAddr) : HashRecord :=
  { kind := b!"get_peer", addr := addrString env addr, port := none
    infoHash := match a.lookup b!"info_hash" with | some (.str h) => hexEncode h | _ => [] }

/-- the record of an answered announce_peer query -/
def announceRecord (env : Env) (a : Entries) (addr : UDPAddr) : HashRecord :=
  { kind := b!"announce_peer", addr := addrString env addr
    port := match a.lookup b!"port" with | some (.int p) => some p | _ => none
    infoHash := match a.lookup b!"info_hash" with | some (.str h) => hexEncode h | _ => [] }

/-- events of an answered query -/
def answerTrace (env : Env) (q : Bytes) (req : Request) (addr : UDPAddr) : List Event :=
  .dispatch req addr ::
    (if q = b!"get_peers" then [.record (getPeersRecord env (asMap req.body) addr)]
     else if q = b!"announce_peer" then [.record (announceRecord env (asMap req.body) addr), .enqueue { req, addr }]
     else [])

theorem requestHandle_spec (K : KEnv) (O : Oracle) (addr : UDPAddr) (d : Entries) (t q : Bytes) (s : HSt)
    (ht : d.lookup b!"t" = some (.str t)) (hq : d.lookup b!"q" = some (.str q)) :
    (Answerable d q ∧ ∃ a r', d.lookup b!"a" = some (.dict a) ∧
      requestHandle K.env.fold (dhtHandlers K O) O addr d s =
        .ok (some (WithResponse t (some (replyBody K.nodeId t q))))
          { resp := r', trace := s.trace ++ answerTrace K.env q { txId := t, qType := q, body := some a, handler := none } addr }) ∨
    (¬ Answerable d q ∧ ∃ msg r' tr', msg ≠ [] ∧
      (tr' = [] ∨ ∃ a, d.lookup b!"a" = some (.dict a) ∧
        tr' = [.dispatch { txId := t, qType := q, body := some a, handler := none } addr]) ∧
      requestHandle K.env.fold (dhtHandlers K O) O addr d s =
        .ok (some (WithErr t 203 msg)) { resp := r', trace := s.trace ++ tr' }) := by
  have e1 : Dict.GetString d b!"t" = .ok t := (C13_present d _).2.1 t |>.2 ht
  have e2 : Dict.GetString d b!"q" = .ok q := (C13_present d _).2.1 q |>.2 hq
  obtain ⟨sup, hsup, hsup'⟩ := supported_spec K.env.fold q
  have pe : ∀ (m : Bytes), m ≠ [] → WithParamErr t m = WithErr t 203 m := by
    intro m hm
    have : ¬ m.length ≤ 0 := by
      have := List.length_pos_iff.2 hm; omega
    simp [WithParamErr, this]
  have pb : ∀ m st, bizText m st ≠ [] := by intro m st; simp [bizText]
  simp only [requestHandle, GoM.bind_apply, e1, e2, GoM.lift_ok, GoM.recoverWith, hsup]
  by_cases hs : sup = true
  case neg =>
    right
    refine ⟨fun h => hs (hsup' h.1), b!"donnot support <" ++ q ++ b!"> query type", s.resp, [], by simp, .inl rfl, ?_⟩
    simp [hs, pe]
  subst hs
  rcases getDict_cases d b!"a" with ⟨a, ha, ha'⟩ | ⟨ha, ha'⟩ | ⟨ha, m, ha'⟩
  case inr.inl =>
    right
    refine ⟨?_, ?_⟩
    · rintro ⟨-, a, h, -⟩; rw [h] at ha; cases ha
    · obtain ⟨m, hm⟩ : ∃ m, Dict.GetString [] b!"id" = .panic (.biz m) := ⟨_, rfl⟩
      refine ⟨_, s.resp, [], pb m (O.stack s.trace), .inl rfl, ?_⟩
      simp [ha', asMap, hm, pe _ (pb _ _)]
  case inr.inr =>
    right
    refine ⟨?_, ?_⟩
    · rintro ⟨-, a, h, -⟩; exact ha a h
    · refine ⟨_, s.resp, [], pb m (O.stack s.trace), .inl rfl, ?_⟩
      simp [ha', pe _ (pb _ _)]
  rcases getString_cases a b!"id" with ⟨id, hid, hid'⟩ | ⟨hid, m, hid'⟩
  case inr =>
    right
    refine ⟨?_, ?_⟩
    · rintro ⟨-, a', h, ⟨id, h', -⟩, -⟩
      rw [h] at ha; cases ha; exact hid id h'
    · refine ⟨_, s.resp, [], pb m (O.stack s.trace), .inl rfl, ?_⟩
      simp [ha', asMap, hid', pe _ (pb _ _)]
  by_cases hl : id.length = 20
  case neg =>
    right
    refine ⟨?_, b!"id format err", s.resp, [], by simp, .inl rfl, ?_⟩
    · rintro ⟨-, a', h, ⟨id', h', h''⟩, -⟩
      rw [h] at ha; cases ha; rw [h'] at hid; cases hid; exact hl h''
    · simp [ha', asMap, hid', hl, pe]
  simp only [GoM.bind_apply, ha', asMap, Option.getD_some, GoM.lift_ok, hid', hl, Bool.not_true, Bool.false_eq_true, if_false,
    ne_eq, not_true_eq_false]
  -- the router
  have hrt : (dhtHandlers K O).router = [(b!"ping", pingHandler K), (b!"find_node", findNodeHandler K),
      (b!"get_peers", getPeersHandler K), (b!"announce_peer", announcePeerHandler K)] := rfl
  rw [hrt]
  by_cases hm : q ∈ methods
  case neg =>
    right
    refine ⟨fun h => hm h.1, b!"cannot handle not match handler", s.resp, [], by simp, .inl rfl, ?_⟩
    have : List.lookup q [(b!"ping", pingHandler K), (b!"find_node", findNodeHandler K),
      (b!"get_peers", getPeersHandler K), (b!"announce_peer", announcePeerHandler K)] = none := by
      rw [List.lookup_eq_none_iff]
      simp only [mem_methods, not_or] at hm
      simp [hm]
    rw [this]
    simp [pe]
  rcases mem_methods.1 hm with rfl | rfl | rfl | rfl
  · left
    refine ⟨⟨hm, a, ha, ⟨id, hid, hl⟩, by simp, by simp⟩, a, some (WithPingResponse t K.nodeId), ha, ?_⟩
    simp only [List.lookup_cons_self]
    rw [doRequestHandle_dht K O _ _ _ _ _ rfl]
    simp [writeAs, answerTrace, replyBody, WithPingResponse]
  · left
    refine ⟨⟨hm, a, ha, ⟨id, hid, hl⟩, by simp, by simp⟩, a, some (WithFindNodeResponse t K.nodeId []), ha, ?_⟩
    simp only [List.lookup, show (b!"find_node" == b!"ping") = false from rfl, BEq.rfl]
    rw [doRequestHandle_dht K O _ _ _ _ _ rfl]
    simp [writeAs, answerTrace, replyBody, WithFindNodeResponse, joinNodeInfos]
  · simp only [List.lookup, show (b!"get_peers" == b!"ping") = false from rfl,
      show (b!"get_peers" == b!"find_node") = false from rfl, BEq.rfl]
    rw [doRequestHandle_dht K O _ _ _ _ _ rfl]
    rcases getString_cases a b!"info_hash" with ⟨h, hh, hh'⟩ | ⟨hh, m, hh'⟩
    · left
      refine ⟨⟨hm, a, ha, ⟨id, hid, hl⟩, fun _ => ⟨h, hh⟩, by simp⟩, a,
        some (WithGetPeersNodesResponse t K.nodeId t []), ha, ?_⟩
      simp [asMap, hh', hh, emit, writeAs, answerTrace, getPeersRecord, replyBody, WithGetPeersNodesResponse, joinNodeInfos]
    · right
      refine ⟨?_, bizText m (O.stack (s.trace ++ [.dispatch { txId := t, qType := b!"get_peers", body := some a, handler := none } addr])), none,
        [.dispatch { txId := t, qType := b!"get_peers", body := some a, handler := none } addr], pb _ _, .inr ⟨a, ha, rfl⟩, ?_⟩
      · rintro ⟨-, a', h, -, h', -⟩
        rw [h] at ha; cases ha
        obtain ⟨x, hx⟩ := h' (.inl rfl)
        exact hh x hx
      · simp [asMap, hh', pe _ (pb _ _)]
  · simp only [List.lookup, show (b!"announce_peer" == b!"ping") = false from rfl,
      show (b!"announce_peer" == b!"find_node") = false from rfl,
      show (b!"announce_peer" == b!"get_peers") = false from rfl, BEq.rfl]
    rw [doRequestHandle_dht K O _ _ _ _ _ rfl]
    rcases getString_cases a b!"info_hash" with ⟨h, hh, hh'⟩ | ⟨hh, m, hh'⟩
    · rcases getInteger_cases a b!"port" with ⟨p, hp, hp'⟩ | ⟨hp, m, hp'⟩
      · left
        refine ⟨⟨hm, a, ha, ⟨id, hid, hl⟩, fun _ => ⟨h, hh⟩, fun _ => ⟨p, hp⟩⟩, a,
          some (WithAnnouncePeerResponse t K.nodeId), ha, ?_⟩
        simp [asMap, hh', hp', hh, hp, writeAs, emit, answerTrace, announceRecord, replyBody, WithAnnouncePeerResponse]
      · right
        refine ⟨?_, bizText m (O.stack (s.trace ++ [.dispatch { txId := t, qType := b!"announce_peer", body := some a, handler := none } addr])), none,
          [.dispatch { txId := t, qType := b!"announce_peer", body := some a, handler := none } addr], pb _ _, .inr ⟨a, ha, rfl⟩, ?_⟩
        · rintro ⟨-, a', h, -, -, h'⟩
          rw [h] at ha; cases ha
          obtain ⟨x, hx⟩ := h' rfl
          exact hp x hx
        · simp [asMap, hh', hp', pe _ (pb _ _)]
    · right
      refine ⟨?_, bizText m (O.stack (s.trace ++ [.dispatch { txId := t, qType := b!"announce_peer", body := some a, handler := none } addr])), none,
        [.dispatch { txId := t, qType := b!"announce_peer", body := some a, handler := none } addr], pb _ _, .inr ⟨a, ha, rfl⟩, ?_⟩
      · rintro ⟨-, a', h, -, h', -⟩
        rw [h] at ha; cases ha
        obtain ⟨x, hx⟩ := h' (.inr rfl)
        exact hh x hx
      · simp [asMap, hh', pe _ (pb _ _)]

/-! ## queries and responses -/

theorem Query_spec {O : Oracle} (hO : O.Fair) (raddr : UDPAddr) (req : Request) (s : HSt) {args : Entries}
    (hb : req.body = some args) (hw : GoVal.WF (.dict args)) (he : Encodable (.dict args)) :
    ∃ b failed err, EncodingOf (.dict (queryDict req.txId req.qType args)) b ∧
      Query O raddr req s = .ok err { s with trace := s.trace ++ [.put req, .send raddr b failed] } ∧
      (err = none ↔ failed = false) := by
  have hraw : req.RawData = queryDict req.txId req.qType args := by simp [Request.RawData, queryDict, hb, dictVal]
  have hw' : GoVal.WF (.dict (queryDict req.txId req.qType args)) :=
    ⟨by simp [queryDict], by simp only [queryDict, GoVal.WFD]; exact ⟨trivial, trivial, trivial, hw, trivial⟩⟩
  have he' : Encodable (.dict (queryDict req.txId req.qType args)) := by
    simp only [queryDict, Encodable, EncodableD]; exact ⟨trivial, trivial, trivial, he, trivial⟩
  have hl := hO (s.trace ++ [.put req]) _ hw'
  obtain ⟨b, hb1⟩ := (encodeItem_ok_iff _).2 (encodable_deepEq hl.2 hl.1 he')
  have hb2 : EncodeDict (some (O.order (s.trace ++ [.put req]) req.RawData)) = .ok b := by
    rw [hraw]; exact hb1
  refine ⟨b, O.sendFails (s.trace ++ [.put req]), if O.sendFails (s.trace ++ [.put req]) then some (.other b!"write udp") else none,
    ⟨_, hl.1, hl.2, hb1⟩, ?_, by split <;> simp_all⟩
  simp only [Query, putReq, emit, GoM.bind_apply, GoM.modify_apply, GoM.get_apply, hb2, SendPacket]
  split <;> simp

theorem findNodeRespHandler_spec (K : KEnv) {O : Oracle} (hO : O.Fair) (ns : List NodeInfo) (s : HSt) :
    ∃ tr, findNodeRespHandler K O ns s = .ok () { s with trace := s.trace ++ tr } ∧ Fanout K.nodeId ns tr := by
  induction ns generalizing s with
  | nil => exact ⟨[], by simp [findNodeRespHandler], .nil⟩
  | cons n r ih =>
    simp only [findNodeRespHandler, GoM.bind_apply, tableAdd]
    cases ha : O.addNode s.trace n with
    | some e =>
      obtain ⟨tr, h1, h2⟩ := ih { s with trace := s.trace ++ [.addNode n (some e)] }
      exact ⟨.addNode n (some e) :: tr, by simp [h1], .refused h2⟩
    | none =>
      simp only [GoM.bind_apply, nextTxId]
      generalize O.nextTx (s.trace ++ [.addNode n none]) = v
      have hm : WithFindNodeMsg (txIdText v) K.nodeId K.nodeId (some genericH) = crawlQuery K.nodeId v := rfl
      rw [hm]
      obtain ⟨b, f, err, hb, hq, -⟩ := Query_spec hO n.addr (crawlQuery K.nodeId v)
        { s with trace := s.trace ++ [.addNode n none] ++ [.nextTx v] }
        (args := [(b!"id", .str K.nodeId), (b!"target", .str K.nodeId)]) rfl
        ⟨by simp, by simp [GoVal.WFD, GoVal.WF]⟩ (by simp [Encodable, EncodableD])
      rw [hq]
      obtain ⟨tr, h1, h2⟩ := ih { s with trace := s.trace ++ [.addNode n none] ++ [.nextTx v] ++
          [.put (crawlQuery K.nodeId v), .send n.addr b f] }
      refine ⟨.addNode n none :: .nextTx v :: .put (crawlQuery K.nodeId v) :: .send n.addr b f :: tr, ?_,
        .accepted hb h2⟩
      simp only [h1]
      simp

/-- what the response handler does after it has been started -/
def RespTrace (nodeId : Bytes) (req : Request) (body : Entries) (tr : List Event) : Prop :=
  (req.qType = b!"find_node" ∧ ∃ s ns, body.lookup b!"nodes" = some (.str s) ∧ parseNodeInfo s = .ok ns ∧
    Fanout nodeId ns tr) ∨
  (tr = [] ∧ ¬ (req.qType = b!"find_node" ∧ ∃ s, body.lookup b!"nodes" = some (.str s)))

theorem lift_cases {σ α : Type} (r : Res α) (h : r ≠ .diverge) (s : σ) :
    (∃ a, GoM.lift r s = .ok a s) ∨ (∃ p, GoM.lift r s = .panic p s) := by
  cases r with
  | ok a => exact .inl ⟨a, rfl⟩
  | err e => exact .inr ⟨_, rfl⟩
  | panic p => exact .inr ⟨p, rfl⟩
  | diverge => exact absurd rfl h

theorem Res.mapM_nd {α β : Type} (g : α → Res β) (l : List α) (hg : ∀ a ∈ l, g a ≠ .diverge) :
    l.mapM g ≠ .diverge := by
  induction l with
  | nil => simp
  | cons a r ih =>
    simp only [List.mapM_cons]
    have h1 := hg a (by simp)
    have h2 := ih (fun b hb => hg b (by simp [hb]))
    cases h : g a <;> simp_all
    cases h' : List.mapM g r <;> simp_all

theorem goSlice_nd (s : Bytes) (a b : Nat) : goSlice s a b ≠ .diverge := by
  unfold goSlice; split <;> simp

theorem parsePeerInfo_nd (cap : Nat → Nat) (vals : List GoVal) : parsePeerInfo cap vals ≠ .diverge := by
  refine Res.mapM_nd _ _ (fun i _ => ?_)
  unfold parsePeerAt
  have h0 : GoList.GetString vals i ≠ .diverge := by
    unfold GoList.GetString GoList.GetVal
    split
    · split
      · simp only [Res.bind_ok]; split <;> simp
      · simp
    · simp
  generalize GoList.GetString vals i = r at h0
  cases r with
  | ok v =>
    have h1 := goSlice_nd (bytesWithCap cap v) 0 4
    have h2 := goSlice_nd (bytesWithCap cap v) 4 6
    cases h : goSlice (bytesWithCap cap v) 0 4 <;> simp_all
    cases h : goSlice (bytesWithCap cap v) 4 6 <;> simp_all
  | err e => simp
  | panic p => simp
  | diverge => exact absurd rfl h0

theorem genericResp_spec (K : KEnv) {O : Oracle} (hO : O.Fair) (a : HArgs) (t : Bytes) (body : Entries)
    (s : HSt) (hs : s.resp = some (WithResponse t (some body))) (hid : ∃ id, body.lookup b!"id" = some (.str id)) :
    ∃ tr, RespTrace K.nodeId a.req body tr ∧
      (genericResp K O a s = .ok () { s with trace := s.trace ++ tr } ∨
       ∃ p, genericResp K O a s = .panic p { s with trace := s.trace ++ tr }) := by
  obtain ⟨id, hid⟩ := hid
  obtain ⟨r0, tr0⟩ := s
  simp only at hs
  subst hs
  have hn : (WithResponse t (some body)).NodeId = .ok id := (C13_present body _).2.1 id |>.2 hid
  simp only [genericResp, GoM.bind_apply, GoM.get_apply, hn, GoM.lift_ok]
  by_cases hp : a.req.qType = b!"ping"
  · exact ⟨[], .inr ⟨rfl, by simp [hp]⟩, .inl (by simp [hp])⟩
  by_cases hf : a.req.qType = b!"find_node"
  · rcases getString_cases body b!"nodes" with ⟨x, hx, hx'⟩ | ⟨hx, m, hx'⟩
    · obtain ⟨tr, h1, h2⟩ := findNodeRespHandler_spec K hO ((List.range (x.length / 26)).map (recordNode x))
        { resp := some (WithResponse t (some body)), trace := tr0 }
      refine ⟨tr, .inl ⟨hf, x, _, hx, parseNodeInfo_eq x, h2⟩, .inl ?_⟩
      simp only [WithResponse] at h1
      simp [hf, asMap, WithResponse, hx', parseNodeInfo_eq x, h1]
    · refine ⟨[], .inr ⟨rfl, ?_⟩, .inr ⟨.biz m, ?_⟩⟩
      · rintro ⟨-, y, hy⟩; exact hx y hy
      · simp [hf, asMap, WithResponse, hx']
  have hne : RespTrace K.nodeId a.req body [] := .inr ⟨rfl, fun h => hf h.1⟩
  by_cases hg : a.req.qType = b!"get_peers"
  · refine ⟨[], hne, ?_⟩
    have q1 : ¬ b!"get_peers" = b!"ping" := by decide
    have q2 : ¬ b!"get_peers" = b!"find_node" := by decide
    simp only [q1, q2, hg, if_true, if_false]
    by_cases hv : Dict.Exist (asMap (WithResponse t (some body)).body) b!"values" = true
    · rw [if_pos hv]
      simp only [GoM.bind_apply, asMap, WithResponse, Option.getD_some]
      rcases getList_cases body b!"values" with ⟨l, hl⟩ | ⟨m, hl⟩
      · simp only [hl, GoM.lift_ok]
        rcases lift_cases _ (parsePeerInfo_nd K.cap (l.getD []))
          ({ resp := some { txId := t, body := some body, isErr := false }, trace := tr0 } : HSt) with ⟨x, hx⟩ | ⟨p, hx⟩
        · left; simp [hx]
        · right; exact ⟨p, by simp [hx]⟩
      · right; exact ⟨.biz m, by simp [hl]⟩
    · rw [if_neg hv]
      simp only [GoM.bind_apply, asMap, WithResponse, Option.getD_some]
      rcases getString_cases body b!"nodes" with ⟨x, hx, hx'⟩ | ⟨hx, m, hx'⟩
      · left; simp [hx', parseNodeInfo_eq x]
      · right; exact ⟨.biz m, by simp [hx']⟩
  · exact ⟨[], hne, .inl (by simp [hp, hf, hg])⟩

end P2P

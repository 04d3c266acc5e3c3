import Verif.Lemmas.Krpc
/-! # Property theorems C27 - C34 (RPC server) -/
namespace P2P

/-- the four registrations succeed and yield the configuration used below -/
theorem registerAll_ok (K : KEnv) (O : Oracle) : registerAll K O = .ok (dhtHandlers K O) := by
  have h : ∀ q, q ∈ methods → GoList.ContainsString K.env.fold supportQueryType q = .ok true := by
    intro q hq
    obtain ⟨b, hb, hb'⟩ := supported_spec K.env.fold q
    rw [hb, hb' hq]
  have h1 := h b!"ping" (by simp [methods])
  have h2 := h b!"find_node" (by simp [methods])
  have h3 := h b!"get_peers" (by simp [methods])
  have h4 := h b!"announce_peer" (by simp [methods])
  simp only [registerAll, RegisteHandler, h1, h2, h3, h4, Res.bind_ok]
  rfl

/-- what the server does with a query -/
theorem dhtPacket_query (K : KEnv) {O : Oracle} (hO : O.Fair) {pkt : RecvPacket} {d : Entries} {t q : Bytes}
    (h : IsQuery pkt.bytes d t q) :
    ∃ tr b failed reply, dhtPacket K O pkt = some
        { trace := tr ++ [.send pkt.addr b failed], recycled := [pkt.bytes], escaped := none } ∧
      (EncodingOf (.dict reply) b ∧
        (GoString b → ∃ e, DecodeDictNoLimit b = .ok (e, b.length) ∧ DeepEq (.dict reply) (.dict e))) ∧
      ((Answerable d q ∧ ∃ a, d.lookup b!"a" = some (.dict a) ∧
          tr = answerTrace K.env q { txId := t, qType := q, body := some a, handler := none } pkt.addr ∧
          reply = [(b!"t", .str t), (b!"y", .str b!"r"), (b!"r", .dict (replyBody K.nodeId t q))]) ∨
       (¬ Answerable d q ∧ ∃ msg, msg ≠ [] ∧
          (tr = [] ∨ ∃ a, d.lookup b!"a" = some (.dict a) ∧
            tr = [.dispatch { txId := t, qType := q, body := some a, handler := none } pkt.addr]) ∧
          reply = [(b!"t", .str t), (b!"y", .str b!"e"), (b!"e", .list [.int 203, .str msg])])) := by
  obtain ⟨n, hd⟩ := h.decodes
  have hy : Dict.Exist d b!"y" = true := by simp [Dict.Exist, dictGet, h.y]
  have hy' : Dict.GetString d b!"y" = .ok b!"q" := (C13_present d _).2.1 _ |>.2 h.y
  have wfr : GoVal.WF (.dict (replyBody K.nodeId t q)) ∧ Encodable (.dict (replyBody K.nodeId t q)) := by
    unfold replyBody
    split
    · exact ⟨⟨by simp, by simp [GoVal.WFD, GoVal.WF]⟩, by simp [Encodable, EncodableD]⟩
    · split
      · exact ⟨⟨by simp, by simp [GoVal.WFD, GoVal.WF]⟩, by simp [Encodable, EncodableD]⟩
      · exact ⟨⟨by simp, by simp [GoVal.WFD, GoVal.WF]⟩, by simp [Encodable, EncodableD]⟩
  rcases requestHandle_spec K O pkt.addr d t q { resp := none, trace := [] } h.t h.q with
    ⟨ha, a, r', ha', hr⟩ | ⟨ha, msg, r', tr', hmsg, htr, hr⟩
  · obtain ⟨b, hb, hb'⟩ := encode_decode hO (answerTrace K.env q { txId := t, qType := q, body := some a, handler := none } pkt.addr)
      (d := [(b!"t", .str t), (b!"y", .str b!"r"), (b!"r", .dict (replyBody K.nodeId t q))])
      ⟨by simp, by simp only [GoVal.WFD]; exact ⟨trivial, trivial, wfr.1, trivial⟩⟩
      (by simp only [Encodable, EncodableD]; exact ⟨trivial, trivial, wfr.2, trivial⟩)
    refine ⟨_, b, O.sendFails (answerTrace K.env q { txId := t, qType := q, body := some a, handler := none } pkt.addr), _, ?_, hb', .inl ⟨ha, a, ha', rfl, rfl⟩⟩
    rw [List.nil_append] at hr
    simp only [dhtPacket, recvPacketHandle, GoM.recoverWith, packetBody, hd, hy, hy', Bool.not_true,
      Bool.false_eq_true, if_false, GoM.bind_apply, GoM.lift_ok, if_true, hr, Response.RawData, WithResponse,
      Bool.not_false, dictVal, GoM.get_apply, hb, SendPacket, GoM.pure_apply]
  · obtain ⟨b, hb, hb'⟩ := encode_decode hO tr'
      (d := [(b!"t", .str t), (b!"y", .str b!"e"), (b!"e", .list [.int 203, .str msg])])
      ⟨by simp, by simp [GoVal.WFD, GoVal.WF, GoVal.WFL, IsInt64]⟩
      (by simp [Encodable, EncodableD, EncodableL])
    refine ⟨_, b, O.sendFails tr', _, ?_, hb', .inr ⟨ha, msg, hmsg, htr, rfl⟩⟩
    rw [List.nil_append] at hr
    have hraw : (WithErr t 203 msg).RawData =
        .ok [(b!"t", .str t), (b!"y", .str b!"e"), (b!"e", .list [.int 203, .str msg])] := rfl
    simp only [dhtPacket, recvPacketHandle, GoM.recoverWith, packetBody, hd, hy, hy', Bool.not_true,
      Bool.false_eq_true, if_false, GoM.bind_apply, GoM.lift_ok, if_true, hr, hraw,
      GoM.get_apply, hb, SendPacket, GoM.pure_apply]

/-! ## C27 -/

/-- Every query gets exactly one datagram, to its source, carrying the query's transaction id: a response with
our node id if the query is answerable, an error 203 otherwise. -/
theorem C27_query_answered (K : KEnv) {O : Oracle} (hO : O.Fair) {pkt : RecvPacket} {d : Entries} {t q : Bytes}
    (h : IsQuery pkt.bytes d t q) :
    ∃ run b, dhtPacket K O pkt = some run ∧ sends run.trace = [(pkt.addr, b)] ∧
      (GoString b → ∃ e, DecodeDictNoLimit b = .ok (e, b.length) ∧ e.lookup b!"t" = some (.str t) ∧
        ((Answerable d q ∧ e.lookup b!"y" = some (.str b!"r") ∧
            ∃ r, e.lookup b!"r" = some (.dict r) ∧ r.lookup b!"id" = some (.str K.nodeId) ∧
              DeepEq (.dict (replyBody K.nodeId t q)) (.dict r)) ∨
         (¬ Answerable d q ∧ e.lookup b!"y" = some (.str b!"e") ∧
            ∃ msg, msg ≠ [] ∧ e.lookup b!"e" = some (.list [.int 203, .str msg])))) := by
  obtain ⟨tr, b, f, reply, h1, ⟨-, h2⟩, h3⟩ := dhtPacket_query K hO h
  refine ⟨_, b, h1, ?_, fun hb => ?_⟩
  · rcases h3 with ⟨-, a, -, rfl, -⟩ | ⟨-, msg, -, rfl | ⟨a, -, rfl⟩, -⟩
    · simp only [answerTrace]; (repeat' split) <;> simp [sends]
    · simp [sends]
    · simp [sends]
  · obtain ⟨e, he, hde⟩ := h2 hb
    refine ⟨e, he, ?_⟩
    rcases h3 with ⟨ha, a, -, -, rfl⟩ | ⟨ha, msg, hm, -, rfl⟩
    · refine ⟨deepEq_lookup_str hde rfl, .inl ⟨ha, deepEq_lookup_str hde rfl, ?_⟩⟩
      obtain ⟨r, hr, hr'⟩ := deepEq_lookup_dict hde (k := b!"r") rfl
      refine ⟨r, hr, deepEq_lookup_str hr' ?_, hr'⟩
      unfold replyBody
      split
      · rfl
      · split <;> rfl
    · refine ⟨deepEq_lookup_str hde rfl, .inr ⟨ha, deepEq_lookup_str hde rfl, msg, hm, ?_⟩⟩
      obtain ⟨w, hw, hw'⟩ := deepEq_lookup hde (k := b!"e") rfl
      rw [hw, deepEq_intStr rfl hw']

/-! ## C34 -/

/-- A query enqueues one fetch job, carrying the request and the source address, exactly when it is an
answerable announce_peer. -/
theorem C34_query (K : KEnv) {O : Oracle} (hO : O.Fair) {pkt : RecvPacket} {d : Entries} {t q : Bytes}
    (h : IsQuery pkt.bytes d t q) :
    ∃ run, dhtPacket K O pkt = some run ∧
      ((q = b!"announce_peer" ∧ Answerable d q ∧ ∃ a, d.lookup b!"a" = some (.dict a) ∧
          enqueued run.trace = [{ req := { txId := t, qType := q, body := some a, handler := none }, addr := pkt.addr }]) ∨
       (¬ (q = b!"announce_peer" ∧ Answerable d q) ∧ enqueued run.trace = [])) := by
  obtain ⟨tr, b, f, reply, h1, -, h3⟩ := dhtPacket_query K hO h
  refine ⟨_, h1, ?_⟩
  rcases h3 with ⟨ha, a, ha', rfl, -⟩ | ⟨hna, msg, -, rfl | ⟨a, -, rfl⟩, -⟩
  · by_cases hq : q = b!"announce_peer"
    · exact .inl ⟨hq, ha, a, ha', by simp [answerTrace, hq, enqueued]⟩
    · exact .inr ⟨fun h => hq h.1, by simp only [answerTrace, hq, if_false]; split <;> simp [enqueued]⟩
  · exact .inr ⟨fun h => hna h.2, by simp [enqueued]⟩
  · exact .inr ⟨fun h => hna h.2, by simp [enqueued]⟩

/-! ## Responses -/

/-- what the server does with a response whose header is readable -/
theorem dhtPacket_response (K : KEnv) {O : Oracle} (hO : O.Fair) {pkt : RecvPacket} {t : Bytes} {body : Entries}
    (h : IsResponse pkt.bytes t body) :
    ∃ tr, dhtPacket K O pkt = some
        { trace := .lookup t (O.lookup [] t) :: tr, recycled := [pkt.bytes], escaped := none } ∧
      (((O.lookup [] t = none ∨ ∃ req, O.lookup [] t = some req ∧ req.handler = none) ∧ tr = []) ∨
       ∃ req tr', O.lookup [] t = some req ∧ req.handler.isSome = true ∧
        tr = .invoke req (some { txId := t, body := some body, isErr := false }) pkt.addr :: tr' ∧
        RespTrace K.nodeId req body tr') := by
  obtain ⟨d, n, hd, hy, ht, hb⟩ := h.decodes
  obtain ⟨id, hid⟩ := h.id
  have hy0 : Dict.Exist d b!"y" = true := by simp [Dict.Exist, dictGet, hy]
  have hy' : Dict.GetString d b!"y" = .ok b!"r" := (C13_present d _).2.1 _ |>.2 hy
  have ht' : Dict.GetString d b!"t" = .ok t := (C13_present d _).2.1 _ |>.2 ht
  have hb' : Dict.GetDict d b!"r" = .ok (some body) := (C13_present d _).2.2.2 _ |>.2 hb
  have hid' : Dict.GetString body b!"id" = .ok id := (C13_present body _).2.1 _ |>.2 hid
  have q1 : ¬ b!"r" = b!"q" := by decide
  simp only [dhtPacket, recvPacketHandle, GoM.recoverWith, packetBody, hd, hy0, hy', Bool.not_true, q1, if_true,
    Bool.false_eq_true, if_false, GoM.bind_apply, GoM.lift_ok, responseHandle, ht', hb', asMap, Option.getD_some, hid',
    getReq, List.nil_append]
  cases hl : O.lookup [] t with
  | none => exact ⟨[], rfl, .inl ⟨.inl rfl, rfl⟩⟩
  | some req =>
    simp only [doResponseHandle, GoM.bind_apply]
    have hm : (dhtHandlers K O).respMw = [] := rfl
    simp only [hm, List.map_nil, List.nil_append]
    cases hh : req.handler with
    | none =>
      refine ⟨[], ?_, .inl ⟨.inr ⟨req, rfl, hh⟩, rfl⟩⟩
      simp only [callRespHandler, hh]
      rw [runHandlers_single _ (by simp [Prog.NoNext])]
      simp [Prog.exec]
    | some i =>
      have hr : (dhtHandlers K O).respH i = genericRespHandler K O := rfl
      simp only [callRespHandler, hh, hr]
      rw [runHandlers_single _ (by simp [Prog.NoNext, genericRespHandler])]
      simp only [Prog.exec, emit, GoM.modify_apply, genericRespHandler]
      obtain ⟨tr, h1, h2⟩ := genericResp_spec K hO { req, addr := pkt.addr } t body
        { resp := some (WithResponse t (some body)),
          trace := [.lookup t (some req)] ++ [.invoke req (some (WithResponse t (some body))) pkt.addr] } rfl ⟨id, hid⟩
      rcases h2 with h2 | ⟨p, h2⟩
      · refine ⟨_, ?_, .inr ⟨req, tr, rfl, by simp [hh], rfl, h1⟩⟩
        simp only [h2]
        simp [WithResponse]
      · refine ⟨_, ?_, .inr ⟨req, tr, rfl, by simp [hh], rfl, h1⟩⟩
        simp only [h2]
        simp [WithResponse]

/-- A packet that is neither a query nor a response with a readable header is dropped without any interaction. -/
theorem dhtPacket_ignored (K : KEnv) (O : Oracle) (pkt : RecvPacket) (hq : ∀ d t q, ¬ IsQuery pkt.bytes d t q)
    (hr : ∀ t body, ¬ IsResponse pkt.bytes t body) :
    dhtPacket K O pkt = some { trace := [], recycled := [pkt.bytes], escaped := none } := by
  simp only [dhtPacket, recvPacketHandle, GoM.recoverWith, packetBody]
  cases hd : DecodeDictNoLimit pkt.bytes with
  | err e => rfl
  | panic p => rfl
  | diverge => exact absurd hd (C09_decoders_terminate _).2.2.2.2
  | ok x =>
    obtain ⟨d, n⟩ := x
    simp only
    by_cases hy : Dict.Exist d b!"y" = true
    case neg => simp [hy]
    simp only [hy, Bool.not_true, Bool.false_eq_true, if_false, GoM.bind_apply]
    rcases getString_cases d b!"y" with ⟨y, hy1, hy2⟩ | ⟨-, m, hy2⟩
    case inr => simp [hy2]
    simp only [hy2, GoM.lift_ok]
    by_cases h1 : y = b!"q"
    · subst h1
      simp only [if_true, GoM.bind_apply, requestHandle]
      rcases getString_cases d b!"t" with ⟨t, ht1, ht2⟩ | ⟨-, m, ht2⟩
      case inr => simp [ht2]
      rcases getString_cases d b!"q" with ⟨q, hq1, hq2⟩ | ⟨-, m, hq2⟩
      case inr => simp [ht2, hq2]
      exact absurd ⟨⟨n, hd⟩, hy1, ht1, hq1⟩ (hq d t q)
    simp only [h1, if_false]
    by_cases h2 : y = b!"r"
    · subst h2
      simp only [if_true, GoM.bind_apply, responseHandle]
      rcases getString_cases d b!"t" with ⟨t, ht1, ht2⟩ | ⟨-, m, ht2⟩
      case inr => simp [ht2]
      rcases getDict_cases d b!"r" with ⟨b, hb1, hb2⟩ | ⟨hb1, hb2⟩ | ⟨-, m, hb2⟩
      case inr.inr => simp [ht2, hb2]
      case inr.inl =>
        obtain ⟨m, hm⟩ : ∃ m, Dict.GetString [] b!"id" = .panic (.biz m) := ⟨_, rfl⟩
        simp [ht2, hb2, asMap, hm]
      rcases getString_cases b b!"id" with ⟨i, hi1, hi2⟩ | ⟨-, m, hi2⟩
      case inr => simp [ht2, hb2, asMap, hi2]
      exact absurd ⟨⟨d, n, hd, hy1, ht1, hb1⟩, ⟨i, hi1⟩⟩ (hr t b)
    simp only [h2, if_false]
    by_cases h3 : y = b!"e"
    · subst h3
      simp only [if_true, GoM.bind_apply, responseErrHandle]
      rcases getString_cases d b!"t" with ⟨t, ht1, ht2⟩ | ⟨-, m, ht2⟩
      case inr => simp [ht2]
      rcases getList_cases d b!"e" with ⟨l, hl⟩ | ⟨m, hl⟩ <;> simp [ht2, hl]
    simp [h3]

theorem not_query_and_response {bytes : Bytes} {d : Entries} {t q t' : Bytes} {body : Entries}
    (h : IsQuery bytes d t q) (h' : IsResponse bytes t' body) : False := by
  obtain ⟨n, hd⟩ := h.decodes
  obtain ⟨d', n', hd', hy, -⟩ := h'.decodes
  rw [hd] at hd'
  cases hd'
  rw [h.y] at hy
  cases hy

/-! ## C28 -/

/-- A packet that does not decode, has no `y`, or whose `y` is neither "q" nor "r" (in particular an error
message, `y = "e"`), is dropped without any interaction: nothing is sent, registered, stored or enqueued. The same
holds for a query without string `t` and `q`. -/
theorem C28_silent (K : KEnv) (O : Oracle) (pkt : RecvPacket)
    (h : ∀ d n, DecodeDictNoLimit pkt.bytes = .ok (d, n) →
      d.lookup b!"y" ≠ some (.str b!"r") ∧
      (d.lookup b!"y" = some (.str b!"q") →
        ¬ ((∃ t, d.lookup b!"t" = some (.str t)) ∧ ∃ q, d.lookup b!"q" = some (.str q)))) :
    ∃ run, dhtPacket K O pkt = some run ∧ run.trace = [] := by
  refine ⟨_, dhtPacket_ignored K O pkt (fun d t q hq => ?_) (fun t body hr => ?_), rfl⟩
  · obtain ⟨n, hd⟩ := hq.decodes
    exact (h d n hd).2 hq.y ⟨⟨t, hq.t⟩, ⟨q, hq.q⟩⟩
  · obtain ⟨d, n, hd, hy, -⟩ := hr.decodes
    exact (h d n hd).1 hy

theorem Fanout.sends_from {nodeId : Bytes} {ns : List NodeInfo} {tr : List Event} (h : Fanout nodeId ns tr) :
    ∀ a b, (a, b) ∈ sends tr → ∃ n ∈ ns, a = n.addr ∧ ∃ v,
      EncodingOf (.dict (queryDict (txIdText v) b!"find_node" [(b!"id", .str nodeId), (b!"target", .str nodeId)])) b := by
  induction h with
  | nil => intro a b h; simp [sends] at h
  | refused _ ih =>
    intro a b h
    obtain ⟨n, hn, r⟩ := ih a b (by simpa [sends] using h)
    exact ⟨n, by simp [hn], r⟩
  | @accepted n v b0 f r tr hb _ ih =>
    intro a b h
    have h' : (a = n.addr ∧ b = b0) ∨ (a, b) ∈ sends tr := by simpa [sends] using h
    rcases h' with ⟨rfl, rfl⟩ | h'
    · exact ⟨n, by simp, rfl, v, hb⟩
    · obtain ⟨m, hm, r⟩ := ih a b h'
      exact ⟨m, by simp [hm], r⟩

theorem Fanout.no_jobs {nodeId : Bytes} {ns : List NodeInfo} {tr : List Event} (h : Fanout nodeId ns tr) :
    enqueued tr = [] ∧ dispatched tr = [] := by
  induction h with
  | nil => exact ⟨rfl, rfl⟩
  | refused _ ih => simpa [enqueued, dispatched] using ih
  | accepted _ _ ih => simpa [enqueued, dispatched] using ih

/-- A response is never answered: every datagram it causes is a find_node query to a node listed in it. -/
theorem C28_response_not_answered (K : KEnv) {O : Oracle} (hO : O.Fair) (pkt : RecvPacket) (d : Entries) (n : Nat)
    (hd : DecodeDictNoLimit pkt.bytes = .ok (d, n)) (hy : d.lookup b!"y" = some (.str b!"r")) :
    ∃ run, dhtPacket K O pkt = some run ∧ enqueued run.trace = [] ∧ dispatched run.trace = [] ∧
      ∀ a b, (a, b) ∈ sends run.trace → ∃ body s ns m v, d.lookup b!"r" = some (.dict body) ∧
        body.lookup b!"nodes" = some (.str s) ∧ parseNodeInfo s = .ok ns ∧ m ∈ ns ∧ a = m.addr ∧
        EncodingOf (.dict (queryDict (txIdText v) b!"find_node"
          [(b!"id", .str K.nodeId), (b!"target", .str K.nodeId)])) b := by
  by_cases hr : ∃ t body, IsResponse pkt.bytes t body
  · obtain ⟨t, body, hr⟩ := hr
    obtain ⟨tr, h1, h2⟩ := dhtPacket_response K hO hr
    have hb : d.lookup b!"r" = some (.dict body) := by
      obtain ⟨d', n', hd', -, -, h⟩ := hr.decodes
      rw [hd] at hd'; cases hd'; exact h
    refine ⟨_, h1, ?_⟩
    rcases h2 with ⟨-, rfl⟩ | ⟨req, tr', -, -, rfl, h3⟩
    · simp [enqueued, dispatched, sends]
    · rcases h3 with ⟨-, s, ns, hs, hns, hf⟩ | ⟨rfl, -⟩
      · have hj := hf.no_jobs
        refine ⟨by simpa [enqueued] using hj.1, by simpa [dispatched] using hj.2, fun a b hab => ?_⟩
        obtain ⟨m, hm, ha, v, hv⟩ := hf.sends_from a b (by simpa [sends] using hab)
        exact ⟨body, s, ns, m, v, hb, hs, hns, hm, ha, hv⟩
      · simp [enqueued, dispatched, sends]
  · refine ⟨_, dhtPacket_ignored K O pkt (fun d' t q hq => ?_) (fun t body h => hr ⟨t, body, h⟩), ?_⟩
    · obtain ⟨n', hd'⟩ := hq.decodes
      rw [hd] at hd'; cases hd'
      rw [hq.y] at hy; cases hy
    · simp [enqueued, dispatched, sends]

/-! ## C34, all packets -/

/-- No packet other than an answerable announce_peer query ever enqueues a fetch job. -/
theorem C34_others (K : KEnv) {O : Oracle} (hO : O.Fair) (pkt : RecvPacket)
    (h : ∀ d t, IsQuery pkt.bytes d t b!"announce_peer" → ¬ Answerable d b!"announce_peer") :
    ∃ run, dhtPacket K O pkt = some run ∧ enqueued run.trace = [] := by
  by_cases hq : ∃ d t q, IsQuery pkt.bytes d t q
  · obtain ⟨d, t, q, hq⟩ := hq
    obtain ⟨run, h1, ⟨rfl, ha, -⟩ | ⟨-, h2⟩⟩ := C34_query K hO hq
    · exact absurd ha (h d t hq)
    · exact ⟨run, h1, h2⟩
  · by_cases hr : ∃ t body, IsResponse pkt.bytes t body
    · obtain ⟨t, body, hr⟩ := hr
      obtain ⟨d, n, hd, hy, -⟩ := hr.decodes
      obtain ⟨run, h1, h2, -⟩ := C28_response_not_answered K hO pkt d n hd hy
      exact ⟨run, h1, h2⟩
    · exact ⟨_, dhtPacket_ignored K O pkt (fun d t q h => hq ⟨d, t, q, h⟩) (fun t b h => hr ⟨t, b, h⟩), rfl⟩

/-! ## C33 -/

/-- A response to a find_node query offers every listed node to the route table, in order, and queries exactly the
accepted ones. -/
theorem C33_fanout (K : KEnv) {O : Oracle} (hO : O.Fair) {pkt : RecvPacket} {t : Bytes} {body : Entries}
    {req : Request} {s : Bytes} {ns : List NodeInfo} (h : IsResponse pkt.bytes t body)
    (hl : O.lookup [] t = some req) (hh : req.handler.isSome = true) (hq : req.qType = b!"find_node")
    (hs : body.lookup b!"nodes" = some (.str s)) (hns : parseNodeInfo s = .ok ns) :
    ∃ run tr, dhtPacket K O pkt = some run ∧
      run.trace = .lookup t (some req) ::
        .invoke req (some { txId := t, body := some body, isErr := false }) pkt.addr :: tr ∧
      Fanout K.nodeId ns tr := by
  obtain ⟨tr, h1, h2⟩ := dhtPacket_response K hO h
  rw [hl] at h1 h2
  rcases h2 with ⟨h3 | ⟨r, h3, h4⟩, -⟩ | ⟨r, tr', h3, -, rfl, h4⟩
  · cases h3
  · cases h3; rw [h4] at hh; cases hh
  · cases h3
    rcases h4 with ⟨-, s', ns', hs', hns', hf⟩ | ⟨-, hn⟩
    · rw [hs] at hs'; cases hs'
      rw [hns] at hns'; cases hns'
      exact ⟨_, tr', h1, rfl, hf⟩
    · exact absurd ⟨hq, s, hs⟩ hn

/-- Every listed node is offered exactly once, in list order; the queries go to exactly the accepted nodes, in list
order, one each; every drawn transaction number is used for exactly one of these queries. -/
theorem C33_queries {nodeId : Bytes} {ns : List NodeInfo} {tr : List Event} (h : Fanout nodeId ns tr) :
    (offered tr).map Prod.fst = ns ∧
    (sends tr).map Prod.fst = ((offered tr).filter (fun x => x.2.isNone)).map (fun x => x.1.addr) ∧
    (sends tr).length ≤ ns.length ∧
    registered tr = (drawn tr).map (crawlQuery nodeId) ∧ (drawn tr).length = (sends tr).length := by
  induction h with
  | nil => simp [offered, sends, registered, drawn]
  | refused _ ih =>
    obtain ⟨h1, h2, h3, h4, h5⟩ := ih
    simp only [offered, sends, registered, drawn] at h1 h2 h3 h4 h5 ⊢
    simp [h1, h2, h4, h5]
    rw [h5] at *
    omega
  | accepted _ _ ih =>
    obtain ⟨h1, h2, h3, h4, h5⟩ := ih
    simp only [offered, sends, registered, drawn] at h1 h2 h3 h4 h5 ⊢
    simp [h1, h2, h4, h5]
    omega

/-- Without interference, the route table afterwards is the result of adding the listed nodes in order, and the drawn
transaction numbers are the next ones. -/
theorem C33_undisturbed {env : Env} {nodeId : Bytes} {ns : List NodeInfo} {tr : List Event}
    (h : Fanout nodeId ns tr) {w w' : World} (hw : w.replay env tr = some w') :
    (∃ es, w.table.addAll env ns = .ok (w'.table, es) ∧ (offered tr).map Prod.snd = es) ∧
    drawn tr = (List.range (drawn tr).length).map (fun i => w.txId + UInt16.ofNat (i + 1)) := by
  induction h generalizing w with
  | nil => simp only [World.replay, Option.some.injEq] at hw; subst hw; exact ⟨⟨[], rfl, rfl⟩, rfl⟩
  | @refused n e r tr hf ih =>
    simp only [World.replay, World.apply] at hw
    cases ha : w.table.AddNode env n with
    | ok x =>
      obtain ⟨t1, e1⟩ := x
      rw [ha] at hw
      simp only at hw
      by_cases he : some e = e1
      · rw [if_pos he] at hw
        simp only at hw
        obtain ⟨⟨es, h1, h2⟩, h3⟩ := ih hw
        refine ⟨⟨e1 :: es, ?_, ?_⟩, ?_⟩
        · simp only [RouteTable.addAll, ha, Res.bind_ok]
          simp only at h1
          rw [h1]; rfl
        · simp only [offered] at h2 ⊢; simp [h2, he]
        · simpa [drawn] using h3
      · rw [if_neg he] at hw; simp at hw
    | err _ => rw [ha] at hw; simp at hw
    | panic _ => rw [ha] at hw; simp at hw
    | diverge => rw [ha] at hw; simp at hw
  | @accepted n v b f r tr hb hf ih =>
    simp only [World.replay, World.apply] at hw
    cases ha : w.table.AddNode env n with
    | ok x =>
      obtain ⟨t1, e1⟩ := x
      rw [ha] at hw
      simp only at hw
      by_cases he : none = e1
      · rw [if_pos he] at hw
        simp only at hw
        by_cases hv : v = w.txId + 1
        · rw [if_pos hv] at hw
          simp only at hw
          obtain ⟨⟨es, h1, h2⟩, h3⟩ := ih hw
          refine ⟨⟨e1 :: es, ?_, ?_⟩, ?_⟩
          · simp only [RouteTable.addAll, ha, Res.bind_ok]
            simp only at h1
            rw [h1]; rfl
          · simp only [offered] at h2 ⊢; simp [h2, he]
          · have hdr : drawn (.addNode n none :: .nextTx v :: .put (crawlQuery nodeId v) :: .send n.addr b f :: tr) =
                v :: drawn tr := by simp [drawn]
            rw [hdr, List.length_cons, List.range_succ_eq_map, List.map_cons, List.map_map, hv]
            congr 1
            rw [h3]
            simp only [List.length_map, List.length_range]
            refine List.map_congr_left fun i _ => ?_
            simp only [Function.comp, hv, Nat.succ_eq_add_one]
            rw [UInt16.add_assoc]
            congr 1
            rw [UInt16.ofNat_add (i + 1) 1, UInt16.add_comm]
            rfl
        · rw [if_neg hv] at hw; simp at hw
      · rw [if_neg he] at hw; simp at hw
    | err _ => rw [ha] at hw; simp at hw
    | panic _ => rw [ha] at hw; simp at hw
    | diverge => rw [ha] at hw; simp at hw

end P2P

import Verif.Props.Console
/-! # C90: the records about queries and responses -/
namespace P2P

/-- the record at the start of every query -/
def queryRec (t q : Bytes) : LogRec :=
  { pfx := b!"server", method := .Info, msg := b!"response handle", ctx := some [(b!"txId", lstr t), (b!"queryType", lstr q)] }
/-- the record after every reply -/
def repliedRec (K : KEnv) (a : UDPAddr) (n : Nat) : LogRec :=
  { pfx := b!"server", method := .Info, msg := b!">>>  Bytes sended", ctx := some [(b!"to", lstr (addrString K.env a)), (b!"len", lint n)] }
/-- what the handler of a method logs besides the transaction id: nothing, the info hash in hexadecimal digits, the info hash and the port -/
def HandlerMore (d : Entries) (q : Bytes) (more : List (Bytes × LogVal)) : Prop :=
  ∃ a, d.lookup b!"a" = some (.dict a) ∧
    ((q = b!"ping" ∧ more = []) ∨ (q = b!"find_node" ∧ more = []) ∨
     (q = b!"get_peers" ∧ ∃ h, a.lookup b!"info_hash" = some (.str h) ∧ more = [(b!"infoHash", lstr (hexEncode h))]) ∨
     (q = b!"announce_peer" ∧ ∃ h p, a.lookup b!"info_hash" = some (.str h) ∧ a.lookup b!"port" = some (.int p) ∧
       more = [(b!"infoHash", lstr (hexEncode h)), (b!"port", lint p)]))
/-- the record of a handler -/
def HandlerRec (d : Entries) (t q : Bytes) (r : LogRec) : Prop :=
  ∃ more, HandlerMore d q more ∧ r = { pfx := b!"dht", method := .Info, msg := b!"get " ++ q ++ b!" request", ctx := some ((b!"txId", lstr t) :: more) }
/-- the record of a query that made the handling panic -/
def ComplaintRec (C : ConsoleEnv) (r : LogRec) : Prop :=
  ∃ tr m, m ∈ fieldComplaints ∧
    r = { pfx := b!"server", method := .Error, msg := b!"request handle panic", ctx := some [(b!"err", lerr (bizText m (C.stack tr)))] }

theorem fieldPanic_biz {m : Bytes} (h : FieldPanic (.biz m)) : m ∈ fieldComplaints := by
  rcases h with h | ⟨x, hx, h⟩
  · cases h
  · cases h; exact hx

theorem requestL_logs (K : KEnv) (C : ConsoleEnv) (O : Oracle) (addr : UDPAddr) (d : Entries) (t q : Bytes) (s : LSt)
    (ht : d.lookup b!"t" = some (.str t)) (hq : d.lookup b!"q" = some (.str q)) :
    ∃ ret h' mid, requestHandleL K C O addr d s = .ok ret { h := h', logs := s.logs ++ queryRec t q :: mid } ∧
      ((Answerable d q ∧ ∃ x, HandlerRec d t q x ∧ mid = [x]) ∨ (¬ Answerable d q ∧ (mid = [] ∨ ∃ x, ComplaintRec C x ∧ mid = [x]))) := by
  have e1 : Dict.GetString d b!"t" = .ok t := (C13_present d _).2.1 t |>.2 ht
  have e2 : Dict.GetString d b!"q" = .ok q := (C13_present d _).2.1 q |>.2 hq
  obtain ⟨sup, hsup, hsup'⟩ := supported_spec K.env.fold q
  simp only [requestHandleL, GoM.bind_apply, e1, e2, GoM.lift_ok, GoM.recoverWith, hsup, serverLog, logCall, GoM.modify_apply]
  by_cases hs : sup = true
  case neg =>
    have hs' : sup = false := by cases sup <;> simp_all
    subst hs'
    exact ⟨_, _, [], rfl, .inr ⟨fun h => hs (hsup' h.1), .inl rfl⟩⟩
  subst hs
  simp only [Bool.not_true, Bool.false_eq_true, if_false, GoM.bind_apply]
  rcases getDict_cases d b!"a" with ⟨a, ha, ha'⟩ | ⟨ha, ha'⟩ | ⟨ha, m, ha'⟩
  case inr.inl =>
    obtain ⟨m, hm⟩ : ∃ m, Dict.GetString [] b!"id" = .panic (.biz m) := ⟨_, rfl⟩
    simp only [ha', GoM.lift_ok, asMap, Option.getD_none, hm, GoM.lift_panic, GoM.get_apply, panicVal, GoM.pure_apply]
    refine ⟨_, _, [_], by simp only [List.append_assoc]; rfl, .inr ⟨?_, .inr ⟨_, ⟨_, m, fieldPanic_biz (getString_panic (by decide +kernel) hm), rfl⟩, rfl⟩⟩⟩
    rintro ⟨-, a, h, -⟩; rw [h] at ha; cases ha
  case inr.inr =>
    simp only [ha', GoM.lift_panic, GoM.get_apply, panicVal, GoM.pure_apply]
    refine ⟨_, _, [_], by simp only [List.append_assoc]; rfl, .inr ⟨?_, .inr ⟨_, ⟨_, m, fieldPanic_biz (getDict_panic (by decide +kernel) ha'), rfl⟩, rfl⟩⟩⟩
    rintro ⟨-, a, h, -⟩; exact ha a h
  simp only [ha', GoM.lift_ok, asMap, Option.getD_some]
  rcases getString_cases a b!"id" with ⟨id, hid, hid'⟩ | ⟨hid, m, hid'⟩
  case inr =>
    simp only [hid', GoM.lift_panic, GoM.get_apply, panicVal, GoM.pure_apply]
    refine ⟨_, _, [_], by simp only [List.append_assoc]; rfl, .inr ⟨?_, .inr ⟨_, ⟨_, m, fieldPanic_biz (getString_panic (by decide +kernel) hid'), rfl⟩, rfl⟩⟩⟩
    rintro ⟨-, a', h, ⟨id, h', -⟩, -⟩
    rw [h] at ha; cases ha; exact hid id h'
  simp only [hid', GoM.lift_ok]
  by_cases hl : id.length = 20
  case neg =>
    simp only [ne_eq, hl, not_false_eq_true, if_true]
    refine ⟨_, _, [], rfl, .inr ⟨?_, .inl rfl⟩⟩
    rintro ⟨-, a', h, ⟨id', h', h''⟩, -⟩
    rw [h] at ha; cases ha; rw [h'] at hid; cases hid; exact hl h''
  simp only [ne_eq, hl, not_true_eq_false, if_false]
  by_cases hm : q ∈ methods
  case neg =>
    have hn : (handlersL K).lookup q = none := by
      rw [List.lookup_eq_none_iff]
      simp only [mem_methods, not_or] at hm
      simp [handlersL, hm]
    rw [hn]
    exact ⟨_, _, [], rfl, .inr ⟨fun h => hm h.1, .inl rfl⟩⟩
  rcases mem_methods.1 hm with rfl | rfl | rfl | rfl
  · have hh : (handlersL K).lookup b!"ping" = some (pingHandlerL K) := rfl
    simp only [hh, GoM.bind_apply, GoM.modify_apply, quiet, emit, pingHandlerL, dhtLog, logCall, writeAs, GoM.get_apply, GoM.pure_apply]
    exact ⟨_, _, [_], by simp only [List.append_assoc]; rfl,
      .inl ⟨⟨hm, a, ha, ⟨id, hid, hl⟩, by simp, by simp⟩, _, ⟨_, ⟨a, ha, .inl ⟨rfl, rfl⟩⟩, rfl⟩, rfl⟩⟩
  · have hh : (handlersL K).lookup b!"find_node" = some (findNodeHandlerL K) := rfl
    simp only [hh, GoM.bind_apply, GoM.modify_apply, quiet, emit, findNodeHandlerL, dhtLog, logCall, writeAs, GoM.get_apply, GoM.pure_apply]
    exact ⟨_, _, [_], by simp only [List.append_assoc]; rfl,
      .inl ⟨⟨hm, a, ha, ⟨id, hid, hl⟩, by simp, by simp⟩, _, ⟨_, ⟨a, ha, .inr (.inl ⟨rfl, rfl⟩)⟩, rfl⟩, rfl⟩⟩
  · have hh : (handlersL K).lookup b!"get_peers" = some (getPeersHandlerL K) := rfl
    simp only [hh, GoM.bind_apply, GoM.modify_apply, quiet, emit, getPeersHandlerL, dhtLog, logCall, writeAs, asMap, Option.getD_some]
    rcases getString_cases a b!"info_hash" with ⟨h, hi, hi'⟩ | ⟨hi, m, hi'⟩
    · simp only [hi', GoM.lift_ok, GoM.get_apply, GoM.pure_apply]
      exact ⟨_, _, [_], by simp only [List.append_assoc]; rfl,
        .inl ⟨⟨hm, a, ha, ⟨id, hid, hl⟩, fun _ => ⟨h, hi⟩, by simp⟩, _, ⟨_, ⟨a, ha, .inr (.inr (.inl ⟨rfl, h, hi, rfl⟩))⟩, rfl⟩, rfl⟩⟩
    · simp only [hi', GoM.lift_panic, GoM.get_apply, panicVal, GoM.pure_apply]
      refine ⟨_, _, [_], by simp only [List.append_assoc]; rfl, .inr ⟨?_, .inr ⟨_, ⟨_, m, fieldPanic_biz (getString_panic (by decide +kernel) hi'), rfl⟩, rfl⟩⟩⟩
      rintro ⟨-, a', h, -, h', -⟩
      rw [h] at ha; cases ha
      obtain ⟨x, hx⟩ := h' (.inl rfl)
      exact hi x hx
  · have hh : (handlersL K).lookup b!"announce_peer" = some (announcePeerHandlerL K) := rfl
    simp only [hh, GoM.bind_apply, GoM.modify_apply, quiet, emit, announcePeerHandlerL, dhtLog, logCall, writeAs, asMap, Option.getD_some]
    rcases getString_cases a b!"info_hash" with ⟨h, hi, hi'⟩ | ⟨hi, m, hi'⟩
    · simp only [hi', GoM.lift_ok]
      rcases getInteger_cases a b!"port" with ⟨p, hp, hp'⟩ | ⟨hp, m, hp'⟩
      · simp only [hp', GoM.lift_ok, GoM.get_apply, GoM.pure_apply]
        exact ⟨_, _, [_], by simp only [List.append_assoc]; rfl,
          .inl ⟨⟨hm, a, ha, ⟨id, hid, hl⟩, fun _ => ⟨h, hi⟩, fun _ => ⟨p, hp⟩⟩, _, ⟨_, ⟨a, ha, .inr (.inr (.inr ⟨rfl, h, p, hi, hp, rfl⟩))⟩, rfl⟩, rfl⟩⟩
      · simp only [hp', GoM.lift_panic, GoM.get_apply, panicVal, GoM.pure_apply]
        refine ⟨_, _, [_], by simp only [List.append_assoc]; rfl, .inr ⟨?_, .inr ⟨_, ⟨_, m, fieldPanic_biz (getInteger_panic (by decide +kernel) hp'), rfl⟩, rfl⟩⟩⟩
        rintro ⟨-, a', h, -, -, h'⟩
        rw [h] at ha; cases ha
        obtain ⟨x, hx⟩ := h' rfl
        exact hp x hx
    · simp only [hi', GoM.lift_panic, GoM.get_apply, panicVal, GoM.pure_apply]
      refine ⟨_, _, [_], by simp only [List.append_assoc]; rfl, .inr ⟨?_, .inr ⟨_, ⟨_, m, fieldPanic_biz (getString_panic (by decide +kernel) hi'), rfl⟩, rfl⟩⟩⟩
      rintro ⟨-, a', h, -, h', -⟩
      rw [h] at ha; cases ha
      obtain ⟨x, hx⟩ := h' (.inr rfl)
      exact hi x hx

/-- C90: **the log of a query** that has a transaction id and a method: a record "response handle", although it is a query; a record of the handler exactly
if the query is one that is answered with a result, possibly a record of the panic if not; the record of the datagram; and "Bytes sended", whether or not the
kernel took the datagram. -/
theorem C90_query (K : KEnv) (C : ConsoleEnv) {O : Oracle} (hO : O.Fair) {pkt : RecvPacket} {d : Entries} {t q : Bytes} (h : IsQuery pkt.bytes d t q) :
    ∃ r mid u b failed, dhtPacketL K C O pkt = some r ∧ attempts r.run.trace = [(pkt.addr, b, failed)] ∧ SendRec K C (pkt.addr, b, failed) u ∧
      r.logs = queryRec t q :: mid ++ [u, repliedRec K pkt.addr b.length] ∧
      ((Answerable d q ∧ ∃ x, HandlerRec d t q x ∧ mid = [x]) ∨ (¬ Answerable d q ∧ (mid = [] ∨ ∃ x, ComplaintRec C x ∧ mid = [x]))) := by
  obtain ⟨n, hd⟩ := h.decodes
  have hy : Dict.Exist d b!"y" = true := by simp [Dict.Exist, dictGet, h.y]
  have hy' : Dict.GetString d b!"y" = .ok b!"q" := (C13_present d _).2.1 _ |>.2 h.y
  obtain ⟨ret, h', mid, hreq, hmid⟩ := requestL_logs K C O pkt.addr d t q { h := { resp := none, trace := [] }, logs := [] } h.t h.q
  have er := erases_request K C O pkt.addr d { h := { resp := none, trace := [] }, logs := [] }
  rw [hreq] at er
  simp only [Out.erase] at er
  obtain ⟨r0, raw, b, rfl, hraw, henc, hatt⟩ : ∃ r0 raw b, ret = some r0 ∧ r0.RawData = .ok raw ∧ EncodeDict (some (O.order h'.trace raw)) = .ok b ∧
      attempts h'.trace = [] := by
    have wfr : GoVal.WF (.dict (replyBody K.nodeId t q)) ∧ Encodable (.dict (replyBody K.nodeId t q)) := by
      unfold replyBody
      split
      · exact ⟨⟨by simp, by simp [GoVal.WFD, GoVal.WF]⟩, by simp [Encodable, EncodableD]⟩
      · split
        · exact ⟨⟨by simp, by simp [GoVal.WFD, GoVal.WF]⟩, by simp [Encodable, EncodableD]⟩
        · exact ⟨⟨by simp, by simp [GoVal.WFD, GoVal.WF]⟩, by simp [Encodable, EncodableD]⟩
    rcases requestHandle_spec K O pkt.addr d t q { resp := none, trace := [] } h.t h.q with
      ⟨ha, a, r', ha', hr⟩ | ⟨ha, msg, r', tr', hmsg, htr, hr⟩
    · rw [hr] at er
      cases er
      obtain ⟨b, hb, -⟩ := encode_decode hO (answerTrace K.env q { txId := t, qType := q, body := some a, handler := none } pkt.addr)
        (d := [(b!"t", .str t), (b!"y", .str b!"r"), (b!"r", .dict (replyBody K.nodeId t q))])
        ⟨by simp, by simp only [GoVal.WFD]; exact ⟨trivial, trivial, wfr.1, trivial⟩⟩
        (by simp only [Encodable, EncodableD]; exact ⟨trivial, trivial, wfr.2, trivial⟩)
      refine ⟨_, _, b, rfl, rfl, hb, ?_⟩
      simp only [answerTrace]; (repeat' split) <;> simp [attempts]
    · rw [hr] at er
      cases er
      obtain ⟨b, hb, -⟩ := encode_decode hO tr'
        (d := [(b!"t", .str t), (b!"y", .str b!"e"), (b!"e", .list [.int 203, .str msg])])
        ⟨by simp, by simp [GoVal.WFD, GoVal.WF, GoVal.WFL, IsInt64]⟩
        (by simp [Encodable, EncodableD, EncodableL])
      refine ⟨_, _, b, rfl, rfl, hb, ?_⟩
      rcases htr with rfl | ⟨a, -, rfl⟩ <;> simp [attempts]
  simp only [dhtPacketL, GoM.recoverWith, packetBodyL, hd, hy, hy', Bool.not_true, Bool.false_eq_true, if_false, GoM.bind_apply, GoM.lift_ok, if_true,
    hreq, hraw, GoM.get_apply, henc, SendPacketL, quiet, SendPacket]
  have ha : attempts (h'.trace ++ [.send pkt.addr b (O.sendFails h'.trace)]) = [(pkt.addr, b, O.sendFails h'.trace)] := by
    unfold attempts at hatt ⊢
    rw [List.filterMap_append, hatt]; rfl
  cases hf : O.sendFails h'.trace with
  | true =>
    rw [hf] at ha
    simp only [if_true, GoM.bind_apply, udpLog, serverLog, logCall, GoM.modify_apply, GoM.pure_apply, List.nil_append]
    exact ⟨_, mid, _, b, true, rfl, ha, ⟨_, rfl⟩, by simp only [List.append_assoc, List.cons_append]; rfl, hmid⟩
  | false =>
    rw [hf] at ha
    simp only [Bool.false_eq_true, if_false, GoM.bind_apply, udpLog, serverLog, logCall, GoM.modify_apply, GoM.pure_apply, List.nil_append]
    exact ⟨_, mid, _, b, false, rfl, ha, rfl, by simp only [List.append_assoc, List.cons_append]; rfl, hmid⟩

/-! ## Responses -/

/-- the record at the start of every response -/
def responseRec (t id : Bytes) : LogRec :=
  { pfx := b!"server", method := .Info, msg := b!"response handle", ctx := some [(b!"txId", lstr t), (b!"nodeId", lstr (hexEncode id))] }
/-- the record about a response nobody waits for -/
def unmatchedRec (t id : Bytes) : LogRec :=
  { pfx := b!"server", method := .Error, msg := b!"cannot match request", ctx := some [(b!"txId", lstr t), (b!"nodeId", lstr id)] }
/-- the record of the response handler -/
def handleRec (t q : Bytes) : LogRec :=
  { pfx := b!"dht", method := .Info, msg := b!"handle response", ctx := some [(b!"txid", lstr t), (b!"queryType", lstr q)] }
/-- the record about a handled list of nodes -/
def addedRec (n : Nat) (size : Int) : LogRec :=
  { pfx := b!"dht", method := .Info, msg := b!"add nodes", ctx := some [(b!"size", lint n), (b!"tableSize", lint size)] }
/-- "cannot match request ignore" -/
def ignoreRec : LogRec := { pfx := b!"dht", method := .Info, msg := b!"cannot match request ignore", ctx := none }

/-- the record about a node the table refuses -/
def refusedRec (e : Bytes) (size : Int) : LogRec :=
  { pfx := b!"dht", method := .Info, msg := b!"add node err", ctx := some [(b!"err", lerr e), (b!"tableSize", lint size)] }
/-- the record about a query that was sent -/
def askedRec (K : KEnv) (a : UDPAddr) (n : Nat) : LogRec :=
  { pfx := b!"server", method := .Info, msg := b!">>>rpc sended", ctx := some [(b!"to", lstr (addrString K.env a)), (b!"len", lint n)] }
/-- the two records about a query that could not be sent -/
def unaskedRec (K : KEnv) (a : UDPAddr) (e : Bytes) : LogRec :=
  { pfx := b!"server", method := .Error, msg := b!"send query packet err"
    ctx := some [(b!"to", lstr (addrString K.env a)), (b!"query", lstr b!"{}"), (b!"err", lerr e)] }
def recurveRec (e : Bytes) (size : Int) : LogRec :=
  { pfx := b!"dht", method := .Error, msg := b!"recurve find node err", ctx := some [(b!"err", lerr e), (b!"tableSize", lint size)] }

/-- The records about the nodes of a response, node by node: one if the table refuses it; two if it is asked; three if the question cannot be sent. -/
inductive FanoutLog (K : KEnv) (C : ConsoleEnv) : List Event → List LogRec → Prop where
  | nil : FanoutLog K C [] []
  | refused {n : NodeInfo} {e : Bytes} {size : Int} {tr : List Event} {ls : List LogRec} : FanoutLog K C tr ls →
      FanoutLog K C (.addNode n (some e) :: tr) (refusedRec e size :: ls)
  | asked {n : NodeInfo} {v : UInt16} {req : Request} {b : Bytes} {u : LogRec} {tr : List Event} {ls : List LogRec} :
      SendRec K C (n.addr, b, false) u → FanoutLog K C tr ls →
      FanoutLog K C (.addNode n none :: .nextTx v :: .put req :: .send n.addr b false :: tr) (u :: askedRec K n.addr b.length :: ls)
  | failed {n : NodeInfo} {v : UInt16} {req : Request} {b : Bytes} {u : LogRec} {e e' : Bytes} {size : Int} {tr : List Event} {ls : List LogRec} :
      SendRec K C (n.addr, b, true) u → FanoutLog K C tr ls →
      FanoutLog K C (.addNode n none :: .nextTx v :: .put req :: .send n.addr b true :: tr) (u :: unaskedRec K n.addr e :: recurveRec e' size :: ls)

theorem queryL_logs (K : KEnv) (C : ConsoleEnv) {O : Oracle} (hO : O.Fair) (raddr : UDPAddr) (v : UInt16) (s : LSt) :
    ∃ b u, EncodingOf (.dict (queryDict (txIdText v) b!"find_node" [(b!"id", .str K.nodeId), (b!"target", .str K.nodeId)])) b ∧
      ((SendRec K C (raddr, b, false) u ∧ QueryL K C O raddr (crawlQuery K.nodeId v) s =
          .ok none (LSt.mk { s.h with trace := s.h.trace ++ [.put (crawlQuery K.nodeId v), .send raddr b false] }
            (s.logs ++ [u, askedRec K raddr b.length]))) ∨
       (SendRec K C (raddr, b, true) u ∧ ∃ e err, QueryL K C O raddr (crawlQuery K.nodeId v) s =
          .ok (some err) (LSt.mk { s.h with trace := s.h.trace ++ [.put (crawlQuery K.nodeId v), .send raddr b true] }
            (s.logs ++ [u, unaskedRec K raddr e])))) := by
  have hw : GoVal.WF (.dict (queryDict (txIdText v) b!"find_node" [(b!"id", .str K.nodeId), (b!"target", .str K.nodeId)])) :=
    ⟨by simp [queryDict], by simp [queryDict, GoVal.WFD, GoVal.WF]⟩
  have he : Encodable (.dict (queryDict (txIdText v) b!"find_node" [(b!"id", .str K.nodeId), (b!"target", .str K.nodeId)])) := by
    simp [queryDict, Encodable, EncodableD]
  have hl := hO (s.h.trace ++ [.put (crawlQuery K.nodeId v)]) _ hw
  obtain ⟨b, hb1⟩ := (encodeItem_ok_iff _).2 (encodable_deepEq hl.2 hl.1 he)
  have hb2 : EncodeDict (some (O.order (s.h.trace ++ [.put (crawlQuery K.nodeId v)]) (crawlQuery K.nodeId v).RawData)) = .ok b := hb1
  simp only [QueryL, putReq, emit, quiet, GoM.bind_apply, GoM.modify_apply, GoM.get_apply, hb2, SendPacketL, SendPacket]
  cases hf : O.sendFails (s.h.trace ++ [.put (crawlQuery K.nodeId v)]) with
  | true =>
    simp only [if_true, GoM.bind_apply, udpLog, serverLog, logCall, GoM.modify_apply, GoM.pure_apply, List.append_assoc]
    exact ⟨b, _, ⟨_, hl.1, hl.2, hb1⟩, .inr ⟨⟨_, rfl⟩, _, _, rfl⟩⟩
  | false =>
    simp only [Bool.false_eq_true, if_false, GoM.bind_apply, udpLog, serverLog, logCall, GoM.modify_apply, GoM.pure_apply, List.append_assoc]
    exact ⟨b, _, ⟨_, hl.1, hl.2, hb1⟩, .inl ⟨rfl, rfl⟩⟩

theorem loopL_logs (K : KEnv) (C : ConsoleEnv) {O : Oracle} (hO : O.Fair) (ns : List NodeInfo) (s : LSt) :
    ∃ tr ls, findNodeLoopL K C O ns s = .ok () { h := { s.h with trace := s.h.trace ++ tr }, logs := s.logs ++ ls } ∧
      FanoutLog K C tr ls ∧ ls.length ≤ 3 * ns.length := by
  induction ns generalizing s with
  | nil => exact ⟨[], [], by simp [findNodeLoopL], .nil, by simp⟩
  | cons n r ih =>
    simp only [findNodeLoopL, GoM.bind_apply, quiet, tableAdd]
    cases ha : O.addNode s.h.trace n with
    | some e =>
      simp only [GoM.bind_apply, GoM.get_apply, dhtLog, logCall, GoM.modify_apply]
      obtain ⟨tr, ls, h1, h2, h3⟩ := ih (LSt.mk { s.h with trace := s.h.trace ++ [.addNode n (some e)] }
        (s.logs ++ [refusedRec e (C.tableSize (s.h.trace ++ [.addNode n (some e)]))]))
      exact ⟨_, _, h1.trans (by simp only [List.append_assoc]; rfl), .refused h2, by simp only [List.length_cons, List.length_append, List.length_nil]; omega⟩
    | none =>
      simp only [GoM.bind_apply, quiet, nextTxId]
      generalize O.nextTx (s.h.trace ++ [.addNode n none]) = v
      have hm : WithFindNodeMsg (txIdText v) K.nodeId K.nodeId (some genericH) = crawlQuery K.nodeId v := rfl
      rw [hm]
      obtain ⟨b, u, -, ⟨hu, hq⟩ | ⟨hu, e, err, hq⟩⟩ := queryL_logs K C hO n.addr v
        { h := { s.h with trace := s.h.trace ++ [.addNode n none] ++ [.nextTx v] }, logs := s.logs }
      · rw [hq]
        simp only
        obtain ⟨tr, ls, h1, h2, h3⟩ := ih (LSt.mk { s.h with trace := s.h.trace ++ [.addNode n none] ++ [.nextTx v] ++
            [.put (crawlQuery K.nodeId v), .send n.addr b false] } (s.logs ++ [u, askedRec K n.addr b.length]))
        exact ⟨_, _, h1.trans (by simp only [List.append_assoc]; rfl), .asked hu h2, by simp only [List.length_cons, List.length_append, List.length_nil]; omega⟩
      · rw [hq]
        simp only [GoM.bind_apply, GoM.get_apply, dhtLog, logCall, GoM.modify_apply]
        obtain ⟨tr, ls, h1, h2, h3⟩ := ih (LSt.mk { s.h with trace := s.h.trace ++ [.addNode n none] ++ [.nextTx v] ++
            [.put (crawlQuery K.nodeId v), .send n.addr b true] }
            (s.logs ++ [u, unaskedRec K n.addr e] ++ [recurveRec (C.errText err) (C.tableSize (s.h.trace ++ [.addNode n none] ++ [.nextTx v] ++
              [.put (crawlQuery K.nodeId v), .send n.addr b true]))]))
        exact ⟨_, _, h1.trans (by simp only [List.append_assoc]; rfl), .failed hu h2, by simp only [List.length_cons, List.length_append, List.length_nil]; omega⟩

/-- what the response handler logs -/
theorem respL_logs (K : KEnv) (C : ConsoleEnv) {O : Oracle} (hO : O.Fair) (a : HArgs) (t : Bytes) (body : Entries) (s : LSt)
    (hr : s.h.resp = some (WithResponse t (some body))) (hid : ∃ id, body.lookup b!"id" = some (.str id)) :
    ∃ mid h', (genericRespL K C O a s = .ok () { h := h', logs := s.logs ++ handleRec t a.req.qType :: mid } ∨
        mid = [] ∧ ∃ p, FieldPanic p ∧ genericRespL K C O a s = .panic p { h := h', logs := s.logs ++ [handleRec t a.req.qType] }) ∧
      (∀ x ns, a.req.qType = b!"find_node" → body.lookup b!"nodes" = some (.str x) → parseNodeInfo x = .ok ns →
        ∃ tr ls size, h'.trace = s.h.trace ++ tr ∧ FanoutLog K C tr ls ∧ mid = ls ++ [addedRec ns.length size, ignoreRec] ∧ ls.length ≤ 3 * ns.length) ∧
      (¬ (a.req.qType = b!"find_node" ∧ ∃ x, body.lookup b!"nodes" = some (.str x)) → mid.length ≤ 2) := by
  obtain ⟨id, hid⟩ := hid
  have hid' : Dict.GetString body b!"id" = .ok id := (C13_present body _).2.1 _ |>.2 hid
  have hN : (WithResponse t (some body)).NodeId = .ok id := hid'
  simp only [genericRespL, GoM.bind_apply, GoM.get_apply, hr, hN, GoM.lift_ok, dhtLog, logCall, GoM.modify_apply]
  generalize hb : asMap (WithResponse t (some body)).body = B
  have hb : body = B := hb
  subst hb
  rw [show (WithResponse t (some body)).txId = t from rfl]
  by_cases h1 : a.req.qType = b!"ping"
  · simp only [h1, if_true, GoM.bind_apply, GoM.modify_apply, List.append_assoc]
    exact ⟨[_, _], _, .inl rfl, fun x ns hq => absurd hq (by decide +kernel), fun _ => Nat.le_refl 2⟩
  simp only [h1, if_false]
  by_cases h2 : a.req.qType = b!"find_node"
  · simp only [h2, if_true, GoM.bind_apply]
    rcases getString_cases body b!"nodes" with ⟨x, hx, hx'⟩ | ⟨hx, m, hx'⟩
    · simp only [hx', GoM.lift_ok]
      rw [parseNodeInfo_eq]
      simp only [GoM.lift_ok, findNodeRespHandlerL, GoM.bind_apply]
      obtain ⟨tr, ls, h1, h2, h3⟩ := loopL_logs K C hO ((List.range (x.length / 26)).map (recordNode x)) { h := s.h, logs := s.logs ++ [handleRec t b!"find_node"] }
      unfold handleRec at h1
      rw [hr.symm.symm] at *
      simp only [h1, GoM.get_apply, dhtLog, logCall, GoM.modify_apply, List.append_assoc]
      refine ⟨_, _, .inl rfl, fun x' ns _ hx1 hns => ?_, fun hn => absurd ⟨trivial, x, hx⟩ hn⟩
      rw [hx] at hx1
      cases hx1
      rw [parseNodeInfo_eq] at hns
      cases hns
      exact ⟨tr, ls, _, rfl, h2, rfl, h3⟩
    · simp only [hx', GoM.lift_panic]
      exact ⟨[], _, .inr ⟨rfl, _, getString_panic (by decide +kernel) hx', rfl⟩, fun x ns _ hx1 => absurd hx1 (hx x), fun _ => Nat.zero_le 2⟩
  simp only [h2, if_false]
  by_cases h3 : a.req.qType = b!"get_peers"
  · simp only [h3, if_true]
    by_cases hv : Dict.Exist body b!"values" = true
    · rw [if_pos hv]
      simp only [GoM.bind_apply]
      rcases getList_cases body b!"values" with ⟨l, hl⟩ | ⟨m, hl⟩
      · simp only [hl, GoM.lift_ok]
        cases hp : parsePeerInfo K.cap (l.getD []) with
        | ok addrs =>
          simp only [GoM.lift_ok, GoM.modify_apply, List.append_assoc]
          exact ⟨[_], _, .inl rfl, fun x ns hq => absurd hq (by decide +kernel), fun _ => by simp⟩
        | err e => exact ⟨[], _, .inr ⟨rfl, _, .inl rfl, rfl⟩, fun x ns hq => absurd hq (by decide +kernel), fun _ => by simp⟩
        | panic p =>
          simp only [GoM.lift_panic]
          exact ⟨[], _, .inr ⟨rfl, _, parsePeerInfo_panic hp, rfl⟩, fun x ns hq => absurd hq (by decide +kernel), fun _ => by simp⟩
        | diverge => exact absurd hp (parsePeerInfo_nd _ _)
      · simp only [hl, GoM.lift_panic]
        exact ⟨[], _, .inr ⟨rfl, _, getList_panic (by decide +kernel) hl, rfl⟩, fun x ns hq => absurd hq (by decide +kernel), fun _ => by simp⟩
    · rw [if_neg hv]
      simp only [GoM.bind_apply]
      rcases getString_cases body b!"nodes" with ⟨x, hx, hx'⟩ | ⟨hx, m, hx'⟩
      · simp only [hx', GoM.lift_ok]
        rw [parseNodeInfo_eq]
        simp only [GoM.lift_ok, GoM.modify_apply, List.append_assoc]
        exact ⟨[_, _], _, .inl rfl, fun x ns hq => absurd hq (by decide +kernel), fun _ => by simp⟩
      · simp only [hx', GoM.lift_panic]
        exact ⟨[], _, .inr ⟨rfl, _, getString_panic (by decide +kernel) hx', rfl⟩, fun x ns hq => absurd hq (by decide +kernel), fun _ => by simp⟩
  simp only [h3, if_false]
  by_cases h4 : a.req.qType = b!"announce_peer"
  · simp only [h4, if_true, GoM.bind_apply, GoM.modify_apply, List.append_assoc]
    exact ⟨[_, _], _, .inl rfl, fun x ns hq => absurd hq (by decide +kernel), fun _ => Nat.le_refl 2⟩
  · simp only [h4, if_false, GoM.modify_apply, List.append_assoc]
    exact ⟨[_], _, .inl rfl, fun x ns hq => hq.elim, fun _ => by simp⟩

/-- the record about a recovered panic -/
def panicRec (K : KEnv) (C : ConsoleEnv) (pkt : RecvPacket) (tr : List Event) (p : Panic) : LogRec :=
  { pfx := b!"server", method := .Error, msg := b!"recv packet handle panic"
    ctx := some [(b!"from", lstr (addrString K.env pkt.addr)), (b!"err", panicVal C tr p), (b!"bytesLen", lint pkt.bytes.length)] }

/-- all that is logged about a response -/
theorem responseL_logs (K : KEnv) (C : ConsoleEnv) {O : Oracle} (hO : O.Fair) {pkt : RecvPacket} {t : Bytes} {body : Entries} {id : Bytes}
    (h : IsResponse pkt.bytes t body) (hid : body.lookup b!"id" = some (.str id)) :
    ∃ r rest, dhtPacketL K C O pkt = some r ∧ r.logs = responseRec t id :: rest ∧
      (O.lookup [] t = none → rest = [unmatchedRec t id]) ∧
      (∀ req, O.lookup [] t = some req → req.handler = none → rest.length = 1) ∧
      (∀ req, O.lookup [] t = some req → req.handler.isSome = true →
        ∃ mid, rest = handleRec t req.qType :: mid ∧
          (∀ x ns, req.qType = b!"find_node" → body.lookup b!"nodes" = some (.str x) → parseNodeInfo x = .ok ns →
            ∃ tr ls size, FanoutLog K C tr ls ∧ mid = ls ++ [addedRec ns.length size, ignoreRec] ∧ ls.length ≤ 3 * ns.length ∧
              r.run.trace = .lookup t (some req) :: .invoke req (some (WithResponse t (some body))) pkt.addr :: tr) ∧
          (¬ (req.qType = b!"find_node" ∧ ∃ x, body.lookup b!"nodes" = some (.str x)) → mid.length ≤ 2)) := by
  obtain ⟨d, n, hd, hy, ht, hb⟩ := h.decodes
  have hy0 : Dict.Exist d b!"y" = true := by simp [Dict.Exist, dictGet, hy]
  have hy' : Dict.GetString d b!"y" = .ok b!"r" := (C13_present d _).2.1 _ |>.2 hy
  have ht' : Dict.GetString d b!"t" = .ok t := (C13_present d _).2.1 _ |>.2 ht
  have hb' : Dict.GetDict d b!"r" = .ok (some body) := (C13_present d _).2.2.2 _ |>.2 hb
  have hid' : Dict.GetString body b!"id" = .ok id := (C13_present body _).2.1 _ |>.2 hid
  have q1 : ¬ b!"r" = b!"q" := by decide
  simp only [dhtPacketL, GoM.recoverWith, packetBodyL, hd, hy0, hy', Bool.not_true, q1, if_true, Bool.false_eq_true, if_false, GoM.bind_apply, GoM.lift_ok,
    responseHandleL, ht', hb', asMap, Option.getD_some, hid', serverLog, logCall, GoM.modify_apply, quiet, getReq, List.nil_append]
  cases hl : O.lookup [] t with
  | none =>
    simp only [GoM.modify_apply]
    refine ⟨_, [_], rfl, rfl, fun _ => rfl, fun req hr => absurd hr (by simp), fun req hr => absurd hr (by simp)⟩
  | some req =>
    simp only [GoM.bind_apply, GoM.modify_apply]
    cases hh : req.handler with
    | none =>
      simp only [GoM.panic_apply, GoM.get_apply, GoM.bind_apply, GoM.modify_apply]
      refine ⟨_, [_], rfl, rfl, fun hr => absurd hr (by simp), fun _ _ _ => rfl, fun req' hr hs => ?_⟩
      cases hr
      rw [hh] at hs; cases hs
    | some i =>
      simp only [GoM.bind_apply, quiet, emit, GoM.modify_apply]
      obtain ⟨mid, h', hcase, hfn, hoth⟩ := respL_logs K C hO { req, addr := pkt.addr } t body
        (LSt.mk { resp := some (WithResponse t (some body))
                  trace := [.lookup t (some req)] ++ [.invoke req (some (WithResponse t (some body))) pkt.addr] } [responseRec t id]) rfl ⟨id, hid⟩
      rcases hcase with hcase | ⟨rfl, p, hp, hcase⟩
      · unfold responseRec at hcase
        simp only [hcase]
        refine ⟨_, _, rfl, rfl, fun hr => absurd hr (by simp), fun req' hr hn => ?_, fun req' hr _ => ?_⟩
        · cases hr; rw [hh] at hn; cases hn
        · cases hr
          refine ⟨mid, rfl, fun x ns a1 a2 a3 => ?_, hoth⟩
          obtain ⟨tr, ls, size, b1, b2, b3, b4⟩ := hfn x ns a1 a2 a3
          exact ⟨tr, ls, size, b2, b3, b4, b1⟩
      · unfold responseRec at hcase
        simp only [hcase, GoM.get_apply, GoM.bind_apply, GoM.modify_apply]
        refine ⟨_, _, rfl, rfl, fun hr => absurd hr (by simp), fun req' hr hn => ?_, fun req' hr _ => ?_⟩
        · cases hr; rw [hh] at hn; cases hn
        · cases hr
          refine ⟨[_], rfl, fun x ns a1 a2 a3 => ?_, fun _ => by simp⟩
          obtain ⟨tr, ls, size, b1, b2, b3, b4⟩ := hfn x ns a1 a2 a3
          simp at b3

/-- C90: **the log of a response.** If no request is pending under its transaction id, there are two records, the second an error. If a find_node request of the
crawler is pending and the response brings nodes, there is a record of the handler, the records about the nodes, the record "add nodes" – and then
"cannot match request ignore", although everything matched: this text does not tell that anything is wrong. -/
theorem C90_response (K : KEnv) (C : ConsoleEnv) {O : Oracle} (hO : O.Fair) {pkt : RecvPacket} {t : Bytes} {body : Entries} {id : Bytes}
    (h : IsResponse pkt.bytes t body) (hid : body.lookup b!"id" = some (.str id)) :
    ∃ r, dhtPacketL K C O pkt = some r ∧
      (O.lookup [] t = none → r.logs = [responseRec t id, unmatchedRec t id]) ∧
      (∀ req x ns, O.lookup [] t = some req → req.handler.isSome = true → req.qType = b!"find_node" → body.lookup b!"nodes" = some (.str x) →
        parseNodeInfo x = .ok ns →
        ∃ tr ls size, r.run.trace = .lookup t (some req) :: .invoke req (some (WithResponse t (some body))) pkt.addr :: tr ∧ FanoutLog K C tr ls ∧
          r.logs = responseRec t id :: handleRec t b!"find_node" :: (ls ++ [addedRec ns.length size, ignoreRec])) := by
  obtain ⟨r, rest, h1, h2, h3, -, h5⟩ := responseL_logs K C hO h hid
  refine ⟨r, h1, fun hn => by rw [h2, h3 hn], fun req x ns a1 a2 a3 a4 a5 => ?_⟩
  obtain ⟨mid, b1, b2, -⟩ := h5 req a1 a2
  obtain ⟨tr, ls, size, c1, c2, -, c4⟩ := b2 x ns a3 a4 a5
  exact ⟨tr, ls, size, c4, c1, by rw [h2, b1, c2, a3]⟩

/-! ## Other packets -/

/-- a dictionary whose `y` is a string, but none of "q", "r" and "e" -/
def ForeignPacket (bytes : Bytes) : Prop :=
  ∃ d n y, DecodeDictNoLimit bytes = .ok (d, n) ∧ d.lookup b!"y" = some (.str y) ∧ y ∉ [b!"q", b!"r", b!"e"]

/-- an error message: a transaction id and a list -/
def IsErrorMsg (d : Entries) (t : Bytes) (l : List GoVal) : Prop :=
  d.lookup b!"y" = some (.str b!"e") ∧ d.lookup b!"t" = some (.str t) ∧
    (d.lookup b!"e" = some (.list l) ∨ (d.lookup b!"e" = some .nilList ∧ l = []))

/-- The record about a packet that is no query, no response and not foreign. -/
inductive OtherRec (K : KEnv) (C : ConsoleEnv) (pkt : RecvPacket) : LogRec → Prop where
  /-- no bencoded dictionary -/
  | undecodable {e : GoErr} : DecodeDictNoLimit pkt.bytes = .err e →
      OtherRec K C pkt { pfx := b!"server", method := .Error, msg := b!"decode bencode err"
                         ctx := some [(b!"from", lstr (addrString K.env pkt.addr)), (b!"err", lerr (C.errText e)), (b!"len", lint pkt.bytes.length)] }
  /-- a dictionary without `y` -/
  | noKind {d : Entries} {n : Nat} : DecodeDictNoLimit pkt.bytes = .ok (d, n) → d.lookup b!"y" = none →
      OtherRec K C pkt { pfx := b!"server", method := .Error, msg := b!"cannot handle packet err"
                         ctx := some [(b!"from", lstr (addrString K.env pkt.addr))] }
  /-- an error message -/
  | errorMsg {d : Entries} {n : Nat} {t : Bytes} {l : List GoVal} : DecodeDictNoLimit pkt.bytes = .ok (d, n) → IsErrorMsg d t l →
      OtherRec K C pkt { pfx := b!"server", method := .Error, msg := b!"return err", ctx := some [(b!"txId", lstr t), (b!"err", ljson (C.json (.list l)))] }
  /-- anything else: the decoder panicked, or a field is missing or has the wrong type -/
  | complaint {p : Panic} {tr : List Event} : FieldPanic p → (∀ e, DecodeDictNoLimit pkt.bytes ≠ .err e) →
      (∀ d n, DecodeDictNoLimit pkt.bytes = .ok (d, n) → d.lookup b!"y" ≠ none ∧ ∀ t l, ¬ IsErrorMsg d t l) →
      OtherRec K C pkt { pfx := b!"server", method := .Error, msg := b!"recv packet handle panic"
                         ctx := some [(b!"from", lstr (addrString K.env pkt.addr)), (b!"err", panicVal C tr p), (b!"bytesLen", lint pkt.bytes.length)] }

theorem getList_ok {d : Entries} {k : Bytes} {l : Option (List GoVal)} (h : Dict.GetList d k = .ok l) :
    d.lookup k = some (.list (l.getD [])) ∨ (d.lookup k = some .nilList ∧ l.getD [] = []) := by
  unfold Dict.GetList Dict.GetVal dictGet at h
  cases hd : d.lookup k with
  | none => rw [hd] at h; cases h
  | some v =>
    rw [hd] at h
    cases v <;> cases h
    · exact .inl rfl
    · exact .inr ⟨rfl, rfl⟩

theorem ignoredL (K : KEnv) (C : ConsoleEnv) (O : Oracle) (pkt : RecvPacket) (hq : ∀ d t q, ¬ IsQuery pkt.bytes d t q)
    (hr : ∀ t body, ¬ IsResponse pkt.bytes t body) :
    ∃ r, dhtPacketL K C O pkt = some r ∧ (ForeignPacket pkt.bytes → r.logs = []) ∧ (¬ ForeignPacket pkt.bytes → ∃ x, r.logs = [x] ∧ OtherRec K C pkt x) := by
  simp only [dhtPacketL, GoM.recoverWith, packetBodyL]
  cases hd : DecodeDictNoLimit pkt.bytes with
  | err e => exact ⟨_, rfl, (by rintro ⟨d, n, y, h, -⟩; rw [hd] at h; cases h), fun _ => ⟨_, rfl, .undecodable hd⟩⟩
  | panic p =>
    refine ⟨_, rfl, (by rintro ⟨d, n, y, h, -⟩; rw [hd] at h; cases h), fun _ => ⟨_, rfl, .complaint (.inl ((C10_only_runtime_panics _ p).2.2.2 hd)) ?_ ?_⟩⟩
    · intro e h; rw [hd] at h; cases h
    · intro d n h; rw [hd] at h; cases h
  | diverge => exact absurd hd (C09_decoders_terminate _).2.2.2.2
  | ok x =>
    obtain ⟨d, n⟩ := x
    simp only
    by_cases hy : Dict.Exist d b!"y" = true
    case neg =>
      have hn : d.lookup b!"y" = none := by
        cases hl : d.lookup b!"y" with
        | none => rfl
        | some v => exact absurd (by simp [Dict.Exist, dictGet, hl]) hy
      simp only [hy]
      refine ⟨_, rfl, ?_, fun _ => ⟨_, rfl, .noKind hd hn⟩⟩
      rintro ⟨d', n', y, h, hl, -⟩
      rw [hd] at h
      cases h
      exact absurd (by simp [Dict.Exist, dictGet, hl]) hy
    simp only [hy, Bool.not_true, Bool.false_eq_true, if_false, GoM.bind_apply]
    have hn : d.lookup b!"y" ≠ none := by
      intro hl
      simp [Dict.Exist, dictGet, hl] at hy
    have cpl : ∀ (p : Panic) (tr : List Event), FieldPanic p → (∀ t l, ¬ IsErrorMsg d t l) → OtherRec K C pkt
        { pfx := b!"server", method := .Error, msg := b!"recv packet handle panic"
          ctx := some [(b!"from", lstr (addrString K.env pkt.addr)), (b!"err", panicVal C tr p), (b!"bytesLen", lint pkt.bytes.length)] } := by
      intro p tr hp he
      refine .complaint hp (fun e h => by rw [hd] at h; cases h) fun d' n' h => ?_
      rw [hd] at h
      cases h
      exact ⟨hn, he⟩
    have noE : ∀ y, d.lookup b!"y" = some (.str y) → y ≠ b!"e" → ∀ t l, ¬ IsErrorMsg d t l := by
      rintro y hl hne t l ⟨h, -⟩
      rw [hl] at h
      cases h
      exact hne rfl
    have foreign : ∀ y, d.lookup b!"y" = some (.str y) → y ∈ [b!"q", b!"r", b!"e"] → ¬ ForeignPacket pkt.bytes := by
      rintro y hl hm ⟨d', n', y', h, hl', hn⟩
      rw [hd] at h
      cases h
      rw [hl] at hl'
      cases hl'
      exact hn hm
    rcases getString_cases d b!"y" with ⟨y, hy1, hy2⟩ | ⟨hy1, m, hy2⟩
    case inr =>
      simp only [hy2, GoM.lift_panic]
      refine ⟨_, rfl, ?_, fun _ => ⟨_, rfl, cpl _ _ (getString_panic (by decide +kernel) hy2) fun t l h => hy1 _ h.1⟩⟩
      rintro ⟨d', n', y, h, hl, -⟩
      rw [hd] at h
      cases h
      exact absurd hl (hy1 y)
    simp only [hy2, GoM.lift_ok]
    by_cases h1 : y = b!"q"
    · subst h1
      have hf := foreign _ hy1 (by simp)
      simp only [if_true, GoM.bind_apply, requestHandleL]
      rcases getString_cases d b!"t" with ⟨t, ht1, ht2⟩ | ⟨-, m, ht2⟩
      case inr => simp only [ht2, GoM.lift_panic]; exact ⟨_, rfl, fun h => absurd h hf, fun _ => ⟨_, rfl, cpl _ _ (getString_panic (by decide +kernel) ht2) (noE _ hy1 (by decide))⟩⟩
      rcases getString_cases d b!"q" with ⟨q, hq1, hq2⟩ | ⟨-, m, hq2⟩
      case inr => simp only [ht2, hq2, GoM.lift_ok, GoM.lift_panic]; exact ⟨_, rfl, fun h => absurd h hf, fun _ => ⟨_, rfl, cpl _ _ (getString_panic (by decide +kernel) hq2) (noE _ hy1 (by decide))⟩⟩
      exact absurd ⟨⟨n, hd⟩, hy1, ht1, hq1⟩ (hq d t q)
    simp only [h1, if_false]
    by_cases h2 : y = b!"r"
    · subst h2
      have hf := foreign _ hy1 (by simp)
      simp only [if_true, GoM.bind_apply, responseHandleL]
      rcases getString_cases d b!"t" with ⟨t, ht1, ht2⟩ | ⟨-, m, ht2⟩
      case inr => simp only [ht2, GoM.lift_panic]; exact ⟨_, rfl, fun h => absurd h hf, fun _ => ⟨_, rfl, cpl _ _ (getString_panic (by decide +kernel) ht2) (noE _ hy1 (by decide))⟩⟩
      simp only [ht2, GoM.lift_ok]
      rcases getDict_cases d b!"r" with ⟨b, hb1, hb2⟩ | ⟨hb1, hb2⟩ | ⟨-, m, hb2⟩
      case inr.inr => simp only [hb2, GoM.lift_panic]; exact ⟨_, rfl, fun h => absurd h hf, fun _ => ⟨_, rfl, cpl _ _ (getDict_panic (by decide +kernel) hb2) (noE _ hy1 (by decide))⟩⟩
      case inr.inl =>
        obtain ⟨m, hm⟩ : ∃ m, Dict.GetString [] b!"id" = .panic (.biz m) := ⟨_, rfl⟩
        simp only [hb2, asMap, GoM.lift_ok, Option.getD_none, hm, GoM.lift_panic]
        exact ⟨_, rfl, fun h => absurd h hf, fun _ => ⟨_, rfl, cpl _ _ (getString_panic (by decide +kernel) hm) (noE _ hy1 (by decide))⟩⟩
      rcases getString_cases b b!"id" with ⟨i, hi1, hi2⟩ | ⟨-, m, hi2⟩
      case inr =>
        simp only [hb2, asMap, GoM.lift_ok, Option.getD_some, hi2, GoM.lift_panic]
        exact ⟨_, rfl, fun h => absurd h hf, fun _ => ⟨_, rfl, cpl _ _ (getString_panic (by decide +kernel) hi2) (noE _ hy1 (by decide))⟩⟩
      exact absurd ⟨⟨d, n, hd, hy1, ht1, hb1⟩, ⟨i, hi1⟩⟩ (hr t b)
    simp only [h2, if_false]
    by_cases h3 : y = b!"e"
    · subst h3
      have hf := foreign _ hy1 (by simp)
      simp only [if_true, GoM.bind_apply, responseErrHandleL]
      rcases getString_cases d b!"t" with ⟨t, ht1, ht2⟩ | ⟨ht1, m, ht2⟩
      case inr =>
        simp only [ht2, GoM.lift_panic]
        exact ⟨_, rfl, fun h => absurd h hf, fun _ => ⟨_, rfl, cpl _ _ (getString_panic (by decide +kernel) ht2) fun t l h => ht1 _ h.2.1⟩⟩
      simp only [ht2, GoM.lift_ok]
      rcases getList_cases d b!"e" with ⟨l, hl⟩ | ⟨m, hl⟩
      · simp only [hl, GoM.lift_ok]
        exact ⟨_, rfl, fun h => absurd h hf, fun _ => ⟨_, rfl, .errorMsg hd ⟨hy1, ht1, getList_ok hl⟩⟩⟩
      · simp only [hl, GoM.lift_panic]
        refine ⟨_, rfl, fun h => absurd h hf, fun _ => ⟨_, rfl, cpl _ _ (getList_panic (by decide +kernel) hl) ?_⟩⟩
        rintro t' l' ⟨-, -, h | ⟨h, -⟩⟩ <;> simp [Dict.GetList, Dict.GetVal, dictGet, h, GoVal.asList] at hl
    simp only [h3, if_false]
    refine ⟨_, rfl, fun _ => rfl, fun hn => absurd ⟨d, n, y, hd, hy1, ?_⟩ hn⟩
    simp [h1, h2, h3]

/-- C90: **the log of any other packet** - neither a query with a transaction id and a method nor a response with a transaction id and a node id -
is one error record, which says what is wrong with it, or nothing if `y` is a string other than "q", "r" and "e". -/
theorem C90_other (K : KEnv) (C : ConsoleEnv) (O : Oracle) (pkt : RecvPacket) (hq : ∀ d t q, ¬ IsQuery pkt.bytes d t q)
    (hr : ∀ t body, ¬ IsResponse pkt.bytes t body) :
    ∃ r, dhtPacketL K C O pkt = some r ∧
      ((ForeignPacket pkt.bytes ∧ r.logs = []) ∨ (¬ ForeignPacket pkt.bytes ∧ ∃ x, r.logs = [x] ∧ OtherRec K C pkt x)) := by
  obtain ⟨r, h1, h2, h3⟩ := ignoredL K C O pkt hq hr
  refine ⟨r, h1, ?_⟩
  by_cases hf : ForeignPacket pkt.bytes
  · exact .inl ⟨hf, h2 hf⟩
  · exact .inr ⟨hf, h3 hf⟩

/-- C90: **which packets leave no trace in the log**: exactly the dictionaries whose `y` is a string other than "q", "r" and "e". -/
theorem C90_silent (K : KEnv) (C : ConsoleEnv) {O : Oracle} (hO : O.Fair) (pkt : RecvPacket) :
    ∃ r, dhtPacketL K C O pkt = some r ∧ (r.logs = [] ↔ ForeignPacket pkt.bytes) := by
  by_cases hq : ∃ d t q, IsQuery pkt.bytes d t q
  · obtain ⟨d, t, q, hq⟩ := hq
    obtain ⟨r, mid, u, b, f, h1, -, -, h4, -⟩ := C90_query K C hO hq
    refine ⟨r, h1, by simp [h4], ?_⟩
    rintro ⟨d', n', y', h, hl', hn⟩
    obtain ⟨n, hd⟩ := hq.decodes
    rw [hd] at h
    cases h
    rw [hq.y] at hl'
    cases hl'
    simp at hn
  by_cases hr : ∃ t body, IsResponse pkt.bytes t body
  · obtain ⟨t, body, hr⟩ := hr
    obtain ⟨id, hid⟩ := hr.id
    obtain ⟨r, rest, h1, h2, -⟩ := responseL_logs K C hO hr hid
    refine ⟨r, h1, by simp [h2], ?_⟩
    rintro ⟨d', n', y', h, hl', hn⟩
    obtain ⟨d, n, hd, hy, -⟩ := hr.decodes
    rw [hd] at h
    cases h
    rw [hy] at hl'
    cases hl'
    simp at hn
  · obtain ⟨r, h1, h2, h3⟩ := ignoredL K C O pkt (fun d t q h => hq ⟨d, t, q, h⟩) (fun t b h => hr ⟨t, b, h⟩)
    refine ⟨r, h1, fun he => ?_, h2⟩
    exact Classical.byContradiction fun hn => by obtain ⟨x, hx, -⟩ := h3 hn; rw [he] at hx; cases hx

/-- C90: **a packet cannot flood the log**: the records about a packet are at most four, and three more for every 26 bytes. -/
theorem C90_count (K : KEnv) (C : ConsoleEnv) {O : Oracle} (hO : O.Fair) (pkt : RecvPacket) (hs : GoString pkt.bytes) :
    ∃ r, dhtPacketL K C O pkt = some r ∧ r.logs.length ≤ 4 + 3 * (pkt.bytes.length / 26) := by
  by_cases hq : ∃ d t q, IsQuery pkt.bytes d t q
  · obtain ⟨d, t, q, hq⟩ := hq
    obtain ⟨r, mid, u, b, f, h1, -, -, h4, h5⟩ := C90_query K C hO hq
    refine ⟨r, h1, ?_⟩
    have : mid.length ≤ 1 := by
      rcases h5 with ⟨-, x, -, rfl⟩ | ⟨-, rfl | ⟨x, -, rfl⟩⟩ <;> simp
    rw [h4]
    simp only [List.length_append, List.length_cons, List.length_nil]
    omega
  by_cases hr : ∃ t body, IsResponse pkt.bytes t body
  · obtain ⟨t, body, hr⟩ := hr
    obtain ⟨id, hid⟩ := hr.id
    obtain ⟨r, rest, h1, h2, h3, h4, h5⟩ := responseL_logs K C hO hr hid
    refine ⟨r, h1, ?_⟩
    rw [h2]
    cases hl : O.lookup [] t with
    | none => rw [h3 hl]; simp only [List.length_cons, List.length_nil]; omega
    | some req =>
      cases hh : req.handler with
      | none => have := h4 req hl hh; simp only [List.length_cons]; omega
      | some i =>
        obtain ⟨mid, b1, b2, b3⟩ := h5 req hl (by simp [hh])
        rw [b1]
        by_cases hf : req.qType = b!"find_node" ∧ ∃ x, body.lookup b!"nodes" = some (.str x)
        · obtain ⟨hf, x, hx⟩ := hf
          obtain ⟨ns, hns, hlen, -⟩ := C15_parse_total x
          obtain ⟨tr, ls, size, -, c2, c3, -⟩ := b2 x ns hf hx hns
          obtain ⟨d, n, hd, -, -, hb⟩ := hr.decodes
          have w1 := decodeDict_weight hs hd
          have w2 := weightD_ge [(b!"r", .dict body)] d (by simp) (by simp [hb])
          have w3 := weightD_ge [(b!"nodes", .str x)] body (by simp) (by simp [hx])
          simp only [GoVal.weightD, GoVal.weight, encodeString_length] at w2 w3
          rw [c2]
          simp only [List.length_cons, List.length_append, List.length_nil]
          clear h1 h2 h3 h4 h5 hr hid hl hh b1 b2 b3 hf hx hns c2 hd hb hq
          have : x.length ≤ pkt.bytes.length := by omega
          have : x.length / 26 ≤ pkt.bytes.length / 26 := Nat.div_le_div_right this
          omega
        · have := b3 hf
          simp only [List.length_cons]
          omega
  · obtain ⟨r, h1, h2, h3⟩ := ignoredL K C O pkt (fun d t q h => hq ⟨d, t, q, h⟩) (fun t b h => hr ⟨t, b, h⟩)
    refine ⟨r, h1, ?_⟩
    by_cases hf : ForeignPacket pkt.bytes
    · rw [h2 hf]; simp
    · obtain ⟨x, hx, -⟩ := h3 hf
      rw [hx]; simp only [List.length_cons, List.length_nil]; omega

/-! ## Lines -/

theorem printed_eq {r : LogRec} (h : r.method = .Info ∨ r.method = .Error) (time : Bytes) (ctx : Option (List (Bytes × LogVal))) :
    r.printed time ctx = (ConsoleLogger.mk r.pfx .info).record time r.method.levelName r.msg ctx := by
  unfold LogRec.printed
  rcases h with h | h <;> simp [h, ConsoleLogger.call, LogLevel.num]

theorem infix_intercalate {a : Bytes} {l : List Bytes} (h : a ∈ l) (sep : Bytes) : a <:+: List.intercalate sep l := by
  induction l with
  | nil => cases h
  | cons x r ih =>
    cases r with
    | nil =>
      cases List.mem_singleton.1 h
      simp [List.intercalate]
    | cons y r =>
      have e : List.intercalate sep (x :: y :: r) = x ++ sep ++ List.intercalate sep (y :: r) := by
        simp [List.intercalate, List.intersperse]
      rw [e]
      rcases List.mem_cons.1 h with rfl | h
      · exact ⟨[], sep ++ List.intercalate sep (y :: r), by simp⟩
      · exact (ih h).trans (List.suffix_append _ _).isInfix

/-- a value of the context is printed as it is, whatever the order of the map -/
theorem printed_value {r : LogRec} (h : r.method = .Info ∨ r.method = .Error) (time : Bytes) {es : List (Bytes × LogVal)} {k v : Bytes}
    (hm : (k, lstr v) ∈ es) : v <:+: r.printed time (some es) := by
  rw [printed_eq h]
  have h1 : v <:+: entryText (k, lstr v) := (List.suffix_append _ _).isInfix
  have h2 := infix_intercalate (List.mem_map_of_mem (f := entryText) hm) b!"|"
  have h3 : List.intercalate b!"|" (es.map entryText) <:+: appendCtx r.msg (some es) := by
    rw [(C66_text _ _).2]; exact (List.suffix_append _ _).isInfix
  refine (h1.trans h2).trans (h3.trans ?_)
  unfold ConsoleLogger.record
  simp only
  split
  · exact ⟨_, b!"\r\n", rfl⟩
  · exact ⟨_, b!"\r\n", rfl⟩

/-- C90: **the log can be forged.** For every text there is a packet that fits in the receive buffer and puts this text into the log as a line of its own,
wherever it comes from, at any time, and in whatever order Go visits the map. -/
theorem C90_forged (line : Bytes) (hl : line.length ≤ 980) :
    ∃ bytes : Bytes, bytes.length ≤ 1024 ∧ ∀ (K : KEnv) (C : ConsoleEnv) (O : Oracle), O.Fair → ∀ addr,
      ∃ r x es, dhtPacketL K C O { addr, bytes } = some r ∧ x ∈ r.logs ∧ x.ctx = some es ∧
        ∀ time es', es.Perm es' → (b!"\r\n" ++ line ++ b!"\r\n") <:+: x.printed time (some es') := by
  obtain ⟨b, hb, -, hdec⟩ := encode_decode exO_fair [] (d := [(b!"q", .str b!"x"), (b!"t", .str (b!"\r\n" ++ line ++ b!"\r\n")), (b!"y", .str b!"q")])
    ⟨by simp, by simp [GoVal.WFD, GoVal.WF]⟩ (by simp [Encodable, EncodableD])
  have hlen : b.length ≤ 1024 := by
    simp only [EncodeDict, exO, encodeItem, encodeEntries, Res.bind_ok, Res.pure_eq] at hb
    cases hb
    have e1 : (EncodeString b!"q").length = 3 := by decide +kernel
    have e2 : (EncodeString b!"x").length = 3 := by decide +kernel
    have e3 : (EncodeString b!"t").length = 3 := by decide +kernel
    have e4 : (EncodeString b!"y").length = 3 := by decide +kernel
    have e5 : (b!"\r\n" ++ line ++ b!"\r\n").length = line.length + 4 := by simp
    have e6 : (natDec (b!"\r\n" ++ line ++ b!"\r\n").length).length ≤ 3 := natDec_length_le (by omega) (by rw [e5]; omega)
    have e7 := encodeString_length (b!"\r\n" ++ line ++ b!"\r\n")
    simp only [List.length_append, e1, e2, e3, e4, List.length_cons, List.length_nil] at e5 e6 e7 ⊢
    omega
  obtain ⟨e, he, hde⟩ := hdec (by unfold GoString; omega)
  refine ⟨b, hlen, fun K C O hO addr => ?_⟩
  have hq : IsQuery b e (b!"\r\n" ++ line ++ b!"\r\n") b!"x" :=
    ⟨⟨_, he⟩, deepEq_lookup_str hde rfl, deepEq_lookup_str hde rfl, deepEq_lookup_str hde rfl⟩
  obtain ⟨r, mid, u, b', f, h1, -, -, h4, -⟩ := C90_query K C hO (pkt := { addr, bytes := b }) hq
  refine ⟨r, queryRec (b!"\r\n" ++ line ++ b!"\r\n") b!"x", _, h1, by rw [h4]; simp, rfl, fun time es' hp => ?_⟩
  exact printed_value (.inl rfl) time (hp.mem_iff.1 (List.mem_cons_self ..))

/-- the texts that do not come from the packet contain no line feed -/
structure PlainTexts (K : KEnv) (C : ConsoleEnv) (O : Oracle) : Prop where
  addr : ∀ a, lineFeeds a.zone = 0 → lineFeeds (addrString K.env a) = 0
  laddr : lineFeeds C.laddr = 0
  runtimeErr : ∀ tr, lineFeeds (C.runtimeErr tr) = 0
  errText : ∀ e, lineFeeds (C.errText e) = 0
  sendErr : ∀ tr, lineFeeds (C.sendErr tr) = 0
  json : ∀ v, lineFeeds (C.json v) = 0
  jsonAddrs : ∀ l, lineFeeds (C.jsonAddrs l) = 0
  jsonNodes : ∀ l, lineFeeds (C.jsonNodes l) = 0
  pending : ∀ tr t req, O.lookup tr t = some req → lineFeeds req.qType = 0
  table : ∀ tr n e, O.addNode tr n = some e → lineFeeds e = 0

theorem natDec_feeds (n : Nat) : lineFeeds (natDec n) = 0 := by
  refine List.count_eq_zero.2 fun h => ?_
  have := natDec_digit h
  exact absurd this (by decide)
theorem itoa_feeds (n : Int) : lineFeeds (itoa n) = 0 := by
  cases n with
  | ofNat n => exact natDec_feeds n
  | negSucc n =>
    have := natDec_feeds (n + 1)
    simp only [itoa, lineFeeds, List.count_cons] at this ⊢
    rw [this]; decide
theorem hexDigit_feeds {n : Nat} (h : n < 16) : hexDigit n ≠ 10 := by
  have : ∀ m : Fin 16, hexDigit m.val ≠ 10 := by decide
  exact this ⟨n, h⟩
theorem hexEncode_feeds (s : Bytes) : lineFeeds (hexEncode s) = 0 := by
  induction s with
  | nil => rfl
  | cons c r ih =>
    have h1 := hexDigit_feeds (n := c.toNat / 16) (by have := c.toNat_lt; omega)
    have h2 := hexDigit_feeds (n := c.toNat % 16) (by omega)
    simp only [lineFeeds, hexEncode, List.count_cons] at ih ⊢
    rw [ih]
    simp [h1, h2]

theorem source_feeds {K : KEnv} {C : ConsoleEnv} {O : Oracle} {pkt : RecvPacket} (hp : PlainTexts K C O) (hz : lineFeeds pkt.addr.zone = 0) (hraw : ∀ s, RawField pkt s → lineFeeds s = 0)
    {v : LogVal} (h : Source K C O pkt v) : lineFeeds (ToString v) = 0 := by
  cases h with
  | raw h => exact hraw _ h
  | hex s => exact hexEncode_feeds s
  | num n => exact itoa_feeds n
  | addr a ha => exact hp.addr a (ha.elim (fun h => h ▸ hz) (fun h => by rw [h]; rfl))
  | laddr => exact hp.laddr
  | pending h => exact hp.pending _ _ _ h
  | braces => rfl
  | json v => exact hp.json v
  | jsonStr v => exact hp.json v
  | jsonAddrs l => exact hp.jsonAddrs l
  | jsonNodes l => exact hp.jsonNodes l
  | err e => exact hp.errText e
  | sendErr tr => exact hp.sendErr tr
  | tableErr h => exact hp.table _ _ _ h

theorem ctxFeeds_perm {es es' : List (Bytes × LogVal)} (h : es.Perm es') : ctxFeeds (some es) = ctxFeeds (some es') :=
  (h.map _).sum_nat

theorem fixed_feeds : (∀ m ∈ logTexts, lineFeeds m = 0) ∧ (∀ k ∈ logKeys, lineFeeds k = 0) ∧ (∀ m ∈ fieldComplaints, lineFeeds m = 0) := by decide +kernel

/-- C90: **one line per record**, if the strings of the packet and the texts of the system contain no line feed – except for the records about a panic that is
a complaint about a field: they contain a stack trace. -/
theorem C90_lines {K : KEnv} {C : ConsoleEnv} {O : Oracle} {pkt : RecvPacket} {r : LoggedRun} (h : dhtPacketL K C O pkt = some r)
    (hp : PlainTexts K C O) (hz : lineFeeds pkt.addr.zone = 0) (hraw : ∀ s, RawField pkt s → lineFeeds s = 0) {time : Bytes} (ht : lineFeeds time = 0) :
    ∀ x ∈ r.logs,
      (x.ctx = none ∧ lineFeeds (x.printed time none) = 1) ∨
      ∃ es, x.ctx = some es ∧
        ((∀ es', es.Perm es' → lineFeeds (x.printed time (some es')) = 1) ∨
         ∃ m tr, m ∈ fieldComplaints ∧ (b!"err", lerr (bizText m (C.stack tr))) ∈ es ∧
           ∀ es', es.Perm es' → lineFeeds (x.printed time (some es')) = 3 + lineFeeds (C.stack tr)) := by
  have biz : ∀ m tr, m ∈ fieldComplaints → lineFeeds (bizText m (C.stack tr)) = 2 + lineFeeds (C.stack tr) := by
    intro m tr hm
    have := fixed_feeds.2.2 m hm
    simp only [lineFeeds] at this
    simp only [bizText, lineFeeds, List.count_append, this]
    simp
  have lv : ∀ k : LogMethod, lineFeeds k.levelName = 0 := by intro k; cases k <;> decide
  intro x hx
  cases C90_sources h x hx with
  | plain h1 h2 h3 h4 =>
    have hpfx : lineFeeds x.pfx = 0 := by
      simp only [List.mem_cons, List.not_mem_nil, or_false] at h1
      rcases h1 with h1 | h1 | h1 <;> rw [h1] <;> decide
    have hmsg := fixed_feeds.1 _ h3
    cases hc : x.ctx with
    | none =>
      refine .inl ⟨rfl, ?_⟩
      rw [printed_eq h2, (C66_lines _ _ _ _ _).2, ht, lv, hpfx, hmsg]
      rfl
    | some es =>
      refine .inr ⟨es, rfl, .inl fun es' hperm => ?_⟩
      rw [printed_eq h2, (C66_lines _ _ _ _ _).2, ht, lv, hpfx, hmsg, ← ctxFeeds_perm hperm]
      have h5 := h4 es hc
      have : ctxFeeds (some es) = 0 := by
        simp only [ctxFeeds]
        have : ∀ l : List (Bytes × LogVal), (∀ e ∈ l, e.1 ∈ logKeys ∧ Source K C O pkt e.2) →
            (l.map (fun e => lineFeeds e.1 + lineFeeds (ToString e.2))).sum = 0 := by
          intro l hl
          induction l with
          | nil => rfl
          | cons e r ih =>
            have a1 := hl e (List.mem_cons_self ..)
            simp only [List.map_cons, List.sum_cons, fixed_feeds.2.1 _ a1.1, source_feeds hp hz hraw a1.2, ih fun e' he' => hl e' (List.mem_cons_of_mem _ he')]
        exact this es h5
      omega
  | requestPanic tr hf =>
    refine .inr ⟨_, rfl, ?_⟩
    rcases hf with rfl | ⟨m, hm, rfl⟩
    · refine .inl fun es' hperm => ?_
      rw [printed_eq (.inr rfl), (C66_lines _ _ _ _ _).2, ht, lv, ← ctxFeeds_perm hperm]
      have e0 : lineFeeds (ToString (lerr (C.runtimeErr tr))) = 0 := hp.runtimeErr tr
      simp only [ctxFeeds, panicVal, List.map_cons, List.map_nil, List.sum_cons, List.sum_nil, e0]
      decide
    · refine .inr ⟨m, tr, hm, List.mem_singleton.2 rfl, fun es' hperm => ?_⟩
      rw [printed_eq (.inr rfl), (C66_lines _ _ _ _ _).2, ht, lv, ← ctxFeeds_perm hperm]
      have e0 : lineFeeds (ToString (lerr (bizText m (C.stack tr)))) = 2 + lineFeeds (C.stack tr) := biz m tr hm
      simp only [ctxFeeds, panicVal, List.map_cons, List.map_nil, List.sum_cons, List.sum_nil, e0,
        show lineFeeds b!"server" = 0 by decide, show lineFeeds b!"request handle panic" = 0 by decide, show lineFeeds b!"err" = 0 by decide]
      omega
  | packetPanic tr hf =>
    refine .inr ⟨_, rfl, ?_⟩
    have ea : lineFeeds (ToString (lstr (addrString K.env pkt.addr))) = 0 := hp.addr _ hz
    have en : lineFeeds (ToString (lint pkt.bytes.length)) = 0 := itoa_feeds (pkt.bytes.length : Int)
    rcases hf with rfl | ⟨m, hm, rfl⟩
    · refine .inl fun es' hperm => ?_
      rw [printed_eq (.inr rfl), (C66_lines _ _ _ _ _).2, ht, lv, ← ctxFeeds_perm hperm]
      have e0 : lineFeeds (ToString (lerr (C.runtimeErr tr))) = 0 := hp.runtimeErr tr
      simp only [ctxFeeds, panicVal, List.map_cons, List.map_nil, List.sum_cons, List.sum_nil, e0, ea, en]
      decide
    · refine .inr ⟨m, tr, hm, by simp [panicVal], fun es' hperm => ?_⟩
      rw [printed_eq (.inr rfl), (C66_lines _ _ _ _ _).2, ht, lv, ← ctxFeeds_perm hperm]
      have e0 : lineFeeds (ToString (lerr (bizText m (C.stack tr)))) = 2 + lineFeeds (C.stack tr) := biz m tr hm
      simp only [ctxFeeds, panicVal, List.map_cons, List.map_nil, List.sum_cons, List.sum_nil, e0, ea, en,
        show lineFeeds b!"server" = 0 by decide, show lineFeeds b!"recv packet handle panic" = 0 by decide, show lineFeeds b!"err" = 0 by decide,
        show lineFeeds b!"from" = 0 by decide, show lineFeeds b!"bytesLen" = 0 by decide]
      omega

/-! ## Concrete cases -/

/-- texts of a system -/
def exC : ConsoleEnv where
  laddr := b!"0.0.0.0:21000"
  runtimeErr := fun _ => b!"runtime error"
  stack := fun _ => b!"goroutine 1\r\nmain()"
  errText := fun _ => b!"wrong param"
  sendErr := fun _ => b!"sendto: no route to host"
  json := fun _ => b!"[]"
  jsonAddrs := fun _ => b!"[]"
  jsonNodes := fun _ => b!"[]"
  tableSize := fun tr => tr.length

/-- an announce_peer query: four records -/
example : (dhtPacketL exK exC exO { addr := peerAddr, bytes := exAnnounce }).map (fun r => r.logs.map fun x => (x.pfx, x.msg)) =
    some [(b!"server", b!"response handle"), (b!"dht", b!"get announce_peer request"), (b!"udp", b!">>> send Bytes"), (b!"server", b!">>>  Bytes sended")] := by
  decide +kernel
/-- one without a port, while the kernel refuses to send: "Bytes sended" all the same -/
example : (dhtPacketL exK exC { exO with sendFails := fun _ => true } { addr := peerAddr, bytes := exBad }).map (fun r => r.logs.map fun x => (x.pfx, x.msg)) =
    some [(b!"server", b!"response handle"), (b!"server", b!"request handle panic"), (b!"udp", b!">>> send udp err"), (b!"server", b!">>>  Bytes sended")] := by
  decide +kernel
/-- a response with two nodes -/
example : (dhtPacketL exK exC exO { addr := peerAddr, bytes := exResp }).map (fun r => r.logs.map fun x => (x.pfx, x.msg)) =
    some [(b!"server", b!"response handle"), (b!"dht", b!"handle response"), (b!"udp", b!">>> send Bytes"), (b!"server", b!">>>rpc sended"),
      (b!"udp", b!">>> send Bytes"), (b!"server", b!">>>rpc sended"), (b!"dht", b!"add nodes"), (b!"dht", b!"cannot match request ignore")] := by
  decide +kernel
/-- ... if the socket refuses: three records per node -/
example : (dhtPacketL exK exC { exO with sendFails := fun _ => true } { addr := peerAddr, bytes := exResp }).map (fun r => r.logs.length) = some 10 := by
  decide +kernel
/-- an unknown `y` -/
example : (dhtPacketL exK exC exO { addr := peerAddr, bytes := b!"d1:y1:xe" }).map (fun r => r.logs.length) = some 0 := by decide +kernel
example : ForeignPacket b!"d1:y1:xe" := ⟨[(b!"y", .str b!"x")], _, b!"x", (by decide +kernel : _ = Res.ok (_, 8)), rfl, by decide +kernel⟩
/-- the four kinds of records about other packets -/
example : [b!"xyz", b!"d1:t2:aae", b!"d1:eli201e5:errore1:t2:aa1:y1:ee", b!"d1:t2:aa1:y1:qe"].map (fun bytes =>
    (dhtPacketL exK exC exO { addr := peerAddr, bytes }).map fun r => r.logs.map fun x => x.msg) =
    [some [b!"decode bencode err"], some [b!"cannot handle packet err"], some [b!"return err"], some [b!"recv packet handle panic"]] := by decide +kernel
example : IsErrorMsg [(b!"e", .list [.int 201, .str b!"error"]), (b!"t", .str b!"aa"), (b!"y", .str b!"e")] b!"aa" [.int 201, .str b!"error"] :=
  ⟨rfl, rfl, .inl rfl⟩
/-- how the first record of a query with a two-line transaction id is printed -/
example : (queryRec b!"a\r\n12:00   Info: all is well" b!"ping").printed b!"11:59" (queryRec b!"a\r\n12:00   Info: all is well" b!"ping").ctx =
    b!"11:59   Info: [server]response handle, txId:a\r\n12:00   Info: all is well|queryType:ping\r\n" := by decide +kernel

/-- a system that prints 16-byte addresses in hexadecimal -/
def exKx : KEnv := { exK with env := { env0 with ip6 := hexEncode } }
/-- the hypotheses of `C90_lines` -/
theorem exPlain : PlainTexts exKx exC exO where
  addr := by
    intro a hz
    have hd : ∀ l : Bytes, lineFeeds (dotted l) = 0 := by
      intro l
      unfold dotted
      induction l with
      | nil => rfl
      | cons c r ih =>
        cases r with
        | nil => simpa [List.intercalate] using natDec_feeds c.toNat
        | cons c' r =>
          have e : List.intercalate b!"." ((c :: c' :: r).map fun c => natDec c.toNat) =
              natDec c.toNat ++ b!"." ++ List.intercalate b!"." ((c' :: r).map fun c => natDec c.toNat) := by
            simp [List.intercalate, List.intersperse]
          rw [e]
          have h1 := natDec_feeds c.toNat
          simp only [lineFeeds] at ih h1 ⊢
          rw [List.count_append, List.count_append, ih, h1]
          decide
    have hi : lineFeeds (ipString exKx.env a.ip) = 0 := by
      unfold ipString
      split
      · rfl
      · split
        · exact hd _
        · split
          · have := hexEncode_feeds a.ip
            simp only [lineFeeds, List.count_append] at this ⊢
            rw [this]; decide
          · exact hexEncode_feeds _
    have hp := itoa_feeds a.port
    have hh : lineFeeds (if a.zone = [] then ipString exKx.env a.ip else ipString exKx.env a.ip ++ b!"%" ++ a.zone) = 0 := by
      simp only [lineFeeds] at hi hz ⊢
      split
      · exact hi
      · simp only [List.count_append, hi, hz]; decide
    unfold addrString
    generalize (if a.zone = [] then ipString exKx.env a.ip else ipString exKx.env a.ip ++ b!"%" ++ a.zone) = h at hh
    simp only [lineFeeds] at hh hp ⊢
    split <;> simp only [List.count_append, hh, hp] <;> decide
  laddr := by decide
  runtimeErr := fun _ => rfl
  errText := fun _ => rfl
  sendErr := fun _ => rfl
  json := fun _ => rfl
  jsonAddrs := fun _ => rfl
  jsonNodes := fun _ => rfl
  pending := by
    intro tr t req h
    simp only [exO] at h
    split at h
    · cases h; decide
    · cases h
  table := by intro tr n e h; cases h

/-- a packet without line feeds, and one record of it over several lines -/
example : ∃ r x es, dhtPacketL exKx exC exO { addr := peerAddr, bytes := exBad } = some r ∧ x ∈ r.logs ∧ x.ctx = some es ∧
    lineFeeds (x.printed b!"11:59" (some es)) = 4 := by
  refine ⟨{ run := { trace := _, recycled := _, escaped := none }, logs := _ }, _, _, rfl, List.mem_cons_of_mem _ (List.mem_cons_self ..), rfl, ?_⟩
  decide +kernel

end P2P

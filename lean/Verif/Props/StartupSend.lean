import Verif.Props.Startup
import Verif.Props.KrpcExamples
/-! # Property C63, second part: every query is registered before it is sent; the listening state is reachable -/
namespace P2P

/-- the events of a fan-out before a send end with the registration of exactly the query sent -/
theorem Fanout.send_split {nodeId : Bytes} {ns : List NodeInfo} {tr : List Event} (h : Fanout nodeId ns tr)
    {p q : List Event} {to : UDPAddr} {b : Bytes} {f : Bool} (e : tr = p ++ .send to b f :: q) :
    ∃ p' n v, p = p' ++ [.addNode n none, .nextTx v, .put (crawlQuery nodeId v)] ∧ n ∈ ns ∧ to = n.addr ∧
      EncodingOf (.dict (queryDict (txIdText v) b!"find_node" [(b!"id", .str nodeId), (b!"target", .str nodeId)])) b := by
  induction h generalizing p with
  | nil => simp at e
  | @refused n x r tr _ ih =>
    cases p with
    | nil => simp at e
    | cons y p =>
      simp only [List.cons_append, List.cons.injEq] at e
      obtain ⟨p', n', v, rfl, hn, hto, hb⟩ := ih e.2
      exact ⟨y :: p', n', v, rfl, List.mem_cons_of_mem _ hn, hto, hb⟩
  | @accepted n v b' f' r tr hb' _ ih =>
    rcases p with _ | ⟨y1, _ | ⟨y2, _ | ⟨y3, _ | ⟨y4, p⟩⟩⟩⟩
    · simp at e
    · simp at e
    · simp at e
    · simp only [List.cons_append, List.nil_append, List.cons.injEq, Event.send.injEq] at e
      obtain ⟨rfl, rfl, rfl, ⟨rfl, rfl, rfl⟩, -⟩ := e
      exact ⟨[], n, v, rfl, List.mem_cons_self, rfl, hb'⟩
    · simp only [List.cons_append, List.cons.injEq] at e
      obtain ⟨rfl, rfl, rfl, rfl, e⟩ := e
      obtain ⟨p', n', v', rfl, hn, hto, hb⟩ := ih e
      exact ⟨_ :: _ :: _ :: _ :: p', n', v', rfl, List.mem_cons_of_mem _ hn, hto, hb⟩

/-- What an activity does before it sends a datagram. -/
theorem activity_send (K : KEnv) {O : Oracle} (hO : O.Fair) (a : Activity) {tr p q : List Event} {to : UDPAddr} {b : Bytes}
    {f : Bool} (h : a.trace K O = some tr) (e : tr = p ++ .send to b f :: q) :
    (∃ pkt d t qt, a = .packet pkt ∧ IsQuery pkt.bytes d t qt ∧ to = pkt.addr ∧ q = []) ∨
    (∃ p' v, p = p' ++ [.nextTx v, .put (crawlQuery K.nodeId v)] ∧
      EncodingOf (.dict (queryDict (txIdText v) b!"find_node" [(b!"id", .str K.nodeId), (b!"target", .str K.nodeId)])) b) := by
  cases a with
  | packet pkt =>
    simp only [Activity.trace, Option.map_eq_some_iff] at h
    obtain ⟨run, hrun, rfl⟩ := h
    by_cases hq : ∃ d t q, IsQuery pkt.bytes d t q
    · obtain ⟨d, t, qt, hq⟩ := hq
      obtain ⟨tr, b', f', reply, h1, -, h3⟩ := dhtPacket_query K hO hq
      rw [h1] at hrun; cases hrun
      left
      have ns : ∀ x y z, Event.send x y z ∉ tr := by
        rcases h3 with ⟨-, a, -, rfl, -⟩ | ⟨-, msg, -, rfl | ⟨a, -, rfl⟩, -⟩
        · intro x y z; simp only [answerTrace]; (repeat' split) <;> simp
        · simp
        · simp
      have key : to = pkt.addr ∧ q = [] := by
        have e' : tr ++ [.send pkt.addr b' f'] = p ++ .send to b f :: q := e
        rcases List.eq_nil_or_concat q with hq0 | ⟨q', y, hq'⟩
        · subst hq0
          have := List.append_inj' e' rfl
          simp only [List.cons.injEq, Event.send.injEq, and_true] at this
          exact ⟨this.2.1.symm, rfl⟩
        · exfalso
          subst hq'
          have e2 : tr ++ [.send pkt.addr b' f'] = (p ++ .send to b f :: q') ++ [y] := by rw [e']; simp
          have := (List.append_inj' e2 rfl).1
          exact ns to b f (by rw [this]; simp)
      exact ⟨pkt, d, t, qt, rfl, hq, key.1, key.2⟩
    · by_cases hr : ∃ t body, IsResponse pkt.bytes t body
      · obtain ⟨t, body, hr⟩ := hr
        obtain ⟨tr, h1, h2⟩ := dhtPacket_response K hO hr
        rw [h1] at hrun; cases hrun
        right
        simp only at e
        rcases h2 with ⟨-, rfl⟩ | ⟨req, tr', h3, -, rfl, h4⟩
        · rcases p with _ | ⟨y, p⟩ <;> simp at e
        · rcases h4 with ⟨-, s, ns, -, -, hf⟩ | ⟨rfl, -⟩
          · rcases p with _ | ⟨y1, _ | ⟨y2, p⟩⟩
            · simp at e
            · simp at e
            · simp only [List.cons_append, List.cons.injEq] at e
              obtain ⟨rfl, rfl, e⟩ := e
              obtain ⟨p', n, v, rfl, -, -, hb⟩ := hf.send_split e
              exact ⟨.lookup t (O.lookup [] t) ::
                .invoke req (some { txId := t, body := some body, isErr := false }) pkt.addr :: p' ++ [.addNode n none], v,
                by simp [h3], hb⟩
          · rcases p with _ | ⟨y1, _ | ⟨y2, p⟩⟩ <;> simp at e
      · rw [dhtPacket_ignored K O pkt (fun d t q h => hq ⟨d, t, q, h⟩) (fun t b h => hr ⟨t, b, h⟩)] at hrun
        cases hrun
        simp at e
  | bootstrap x =>
    right
    obtain ⟨tr', ret, h1, h2, h3⟩ := C63_bootstrap K hO x
    have htr : tr = tr' := by
      simp only [Activity.trace] at h
      cases ret with
      | true => rw [h2 rfl] at h; exact (Option.some.inj h).symm
      | false => obtain ⟨pp, hp⟩ := h3 rfl; rw [hp] at h; exact (Option.some.inj h).symm
    subst htr
    cases h1 with
    | unresolved v => rcases p with _ | ⟨y, p⟩ <;> simp at e
    | contacted a v b' f' hb' =>
      rcases p with _ | ⟨y1, _ | ⟨y2, _ | ⟨y3, p⟩⟩⟩
      · simp at e
      · simp at e
      · simp only [List.cons_append, List.nil_append, List.cons.injEq, Event.send.injEq] at e
        obtain ⟨rfl, rfl, ⟨rfl, rfl, rfl⟩, -⟩ := e
        exact ⟨[], v, rfl, hb'⟩
      · simp at e

/-- C63: in every history of the crawler, every datagram sent is either the reply to a query, sent to its source by the
goroutine handling that query, as its last action; or it is a find_node query for the own id under some transaction id, and the same goroutine drew this id
and registered the query under it before. -/
theorem C63_registered_before_sent {K : KEnv} {w0 w : World} {H pre post : List (Nat × Event)} (h : History K w0 w H)
    {i : Nat} {to : UDPAddr} {b : Bytes} {f : Bool} (hs : H = pre ++ (i, .send to b f) :: post) :
    (∃ pkt d t q O tr, O.Fair ∧ (Activity.packet pkt).trace K O = some tr ∧ projection i H = tr ∧
      IsQuery pkt.bytes d t q ∧ to = pkt.addr) ∨
    (∃ v pre1 pre2 pre3, pre = pre1 ++ (i, .nextTx v) :: pre2 ++ (i, .put (crawlQuery K.nodeId v)) :: pre3 ∧
      EncodingOf (.dict (queryDict (txIdText v) b!"find_node" [(b!"id", .str K.nodeId), (b!"target", .str K.nodeId)])) b) := by
  obtain ⟨a, O, tr, hO, ha, rest, hrest⟩ := h.goroutines i
  have hproj : projection i H = projection i pre ++ .send to b f :: projection i post := by
    rw [hs, projection_append]
    simp [projection]
  have e : tr = projection i pre ++ .send to b f :: (projection i post ++ rest) := by
    rw [← hrest, hproj]; simp
  rcases activity_send K hO a ha e with ⟨pkt, d, t, q, rfl, hq, hto, hnil⟩ | ⟨p', v, hp, hb⟩
  · refine .inl ⟨pkt, d, t, q, O, tr, hO, ha, ?_, hq, hto⟩
    simp only [List.append_eq_nil_iff] at hnil
    rw [hproj, e, hnil.2]; simp
  · right
    have split1 : ∃ pre1 r1, pre = pre1 ++ (i, .nextTx v) :: r1 ∧ projection i r1 = [.put (crawlQuery K.nodeId v)] := by
      clear hs hproj e hrest
      induction pre generalizing p' with
      | nil => simp [projection] at hp
      | cons x pre ih =>
        obtain ⟨j, ev⟩ := x
        by_cases hj : j = i
        · subst hj
          have hx : projection j ((j, ev) :: pre) = ev :: projection j pre := by simp [projection]
          rw [hx] at hp
          cases p' with
          | nil =>
            simp only [List.nil_append, List.cons.injEq] at hp
            obtain ⟨rfl, hp⟩ := hp
            exact ⟨[], pre, rfl, hp⟩
          | cons y p' =>
            simp only [List.cons_append, List.cons.injEq] at hp
            obtain ⟨pre1, r1, rfl, hr⟩ := ih p' hp.2
            exact ⟨(j, ev) :: pre1, r1, rfl, hr⟩
        · have hx : projection i ((j, ev) :: pre) = projection i pre := by simp [projection, hj]
          rw [hx] at hp
          obtain ⟨pre1, r1, rfl, hr⟩ := ih p' hp
          exact ⟨(j, ev) :: pre1, r1, rfl, hr⟩
    obtain ⟨pre1, r1, rfl, hr⟩ := split1
    have hm : (i, Event.put (crawlQuery K.nodeId v)) ∈ r1 := by rw [← mem_projection, hr]; simp
    obtain ⟨pre2, pre3, rfl⟩ := List.append_of_mem hm
    exact ⟨v, pre1, pre2, pre3, by simp, hb⟩

/-- what is registered in a history are the crawler's own find_node queries -/
theorem history_puts {K : KEnv} {w0 w : World} {H : List (Nat × Event)} (h : History K w0 w H) {i : Nat} {r : Request}
    (hm : (i, Event.put r) ∈ H) : ∃ v, r = crawlQuery K.nodeId v := by
  obtain ⟨a, O, tr, hO, ha, hp⟩ := h.goroutines i
  have hm' : Event.put r ∈ tr := hp.subset (mem_projection.2 hm)
  rcases activity_shape K hO a ha with ⟨h1, -⟩ | ⟨pkt, t, body, tr', -, -, rfl, h3⟩
  · exact h1 r hm'
  · rcases h3 with rfl | ⟨req, tr'', -, rfl, h4, -⟩
    · simp at hm'
    · simp only [List.mem_cons, reduceCtorEq, false_or] at hm'
      exact h4 r hm'

/-- C63: once the crawler has registered a query - hence, by `C63_registered_before_sent`, once it has sent it - every
later lookup of its transaction id, i.e. every response carrying the id, finds exactly this query. -/
theorem C63_response_finds_request {K : KEnv} {w0 w : World} {H pre mid post : List (Nat × Event)} (h : History K w0 w H)
    (h0 : w0.reqs = []) {i j : Nat} {req : Request} {found : Option Request}
    (hs : H = pre ++ (i, .put req) :: mid ++ (j, .lookup req.txId found) :: post) : found = some req := by
  have h1 := C30_found_is_last_registered h h0 (i := j) (t := req.txId) (found := found)
    (pre := pre ++ (i, .put req) :: mid) (post := post) (by rw [hs])
  obtain ⟨r, rfl, ht⟩ := C30_never_removed h hs
  obtain ⟨v, rfl⟩ := history_puts h (i := i) (r := req) (by rw [hs]; simp)
  have hr : r ∈ registered ((pre ++ (i, .put (crawlQuery K.nodeId v)) :: mid).map Prod.snd) := by
    have := List.mem_of_find?_eq_some h1.symm
    simpa using this
  simp only [registered, List.mem_filterMap, List.mem_map] at hr
  obtain ⟨e, ⟨⟨k, e'⟩, hk, rfl⟩, he⟩ := hr
  cases e' with
  | put r' =>
    simp only [Option.some.injEq] at he
    subst he
    obtain ⟨v', rfl⟩ := history_puts h (i := k) (r := r') (by rw [hs]; exact List.mem_append_left _ hk)
    have : v' = v := txIdText_inj ht
    rw [this]
  | _ => simp at he

/-! ## The listening state is reachable -/

theorem exBoot (a : UDPAddr) :
    ∃ c, BootStrap exK exO (some a) { resp := none, trace := [] } = .ok () c := by
  have hq : ∀ s, ∃ c, Query exO a (crawlQuery exId 1002) s = .ok none c := by
    intro s
    have he : ∃ b, EncodeDict (some (crawlQuery exId 1002).RawData) = .ok b := (encodeItem_ok_iff _).2 (by
      simp [Encodable, EncodableD, Request.RawData, crawlQuery, dictVal])
    obtain ⟨b, hb⟩ := he
    simp only [Query, putReq, emit, GoM.bind_apply, GoM.modify_apply, GoM.get_apply]
    have ho : ∀ tr d, exO.order tr d = d := fun _ _ => rfl
    simp only [ho, hb, SendPacket]
    exact ⟨_, rfl⟩
  obtain ⟨c, hc⟩ := hq { resp := none, trace := [.nextTx 1002] }
  refine ⟨c, ?_⟩
  have hn : exO.nextTx [] = 1002 := rfl
  simp only [BootStrap, GoM.bind_apply, nextTxId, List.nil_append, hn]
  have hm : WithFindNodeMsg (txIdText 1002) exK.nodeId exK.nodeId (some genericH) = crawlQuery exId 1002 := rfl
  simp only [hm, hc]
  rfl

/-- from a state that is about to contact resolvable hosts, the listening state can be reached -/
theorem reach_listen {hosts : List (Option UDPAddr)} {s : StSt} (h : StReach exK hosts s) {rest : List UDPAddr}
    (hp : s.pc = .boot (rest.map some)) :
    ∃ t, StReach exK hosts t ∧ t.pc = .listen ∧ t.queue = s.queue ∧ t.taken = s.taken := by
  induction rest generalizing s with
  | cons a r ih =>
    obtain ⟨c, hc⟩ := exBoot a
    exact ih (s := { s with pc := .boot (r.map some), boots := s.boots ++ [c.trace] })
      (h.step (.main (.bootOk (by simpa using hp) exO_fair hc))) rfl
  | nil =>
    have h1 := h.step (.main (.run (by simpa using hp)))
    have hrt : ∀ {s : StSt} {todo : List (Bytes × Handler)}, StReach exK hosts s → s.pc = .register todo →
        ∃ t, StReach exK hosts t ∧ t.pc = .register [] ∧ t.queue = s.queue ∧ t.taken = s.taken := by
      intro s todo
      induction todo generalizing s with
      | nil => intro h hp; exact ⟨s, h, hp, rfl, rfl⟩
      | cons x todo ih =>
        intro h hp
        obtain ⟨q, g⟩ := x
        have hi := (stReach_inv h).2.2.2
        rw [hp] at hi
        obtain ⟨hq, hn⟩ := registrations_split exK hi.2.1
        have h2 := h.step (.main (.register (O := exO) hp (registeHandler_method exK exO _ g hq hn)))
        obtain ⟨t, h3, h4, h5, h6⟩ := ih h2 rfl
        exact ⟨t, h3, h4, h5, h6⟩
    obtain ⟨t, ht, hp2, hq2, ht2⟩ := hrt h1 rfl
    exact ⟨_, ((ht.step (.main (.registered hp2))).step (.main (.fetch rfl))).step (.main (.clean rfl)), rfl, hq2, ht2⟩

/-- hypotheses of `C63_packets_wait`: for all resolvable hosts there is a run in which a packet that arrived before the
first host was contacted is handled. -/
theorem C63_early_packet (hosts : List UDPAddr) (p : RecvPacket) :
    ∃ s, StReach exK (hosts.map some) s ∧ p ∈ s.taken.map Prod.fst := by
  have h0 : StReach exK (hosts.map some)
      { pc := .boot (hosts.map some), router := [], queue := [], fetching := false, cleanup := false, boots := [],
        arrived := [], taken := [] } := .init rfl
  have h1 := h0.step (.arrive p (by simp) (by simp [recvqCap]))
  obtain ⟨t, ht, hp, hq, -⟩ := reach_listen h1 (rest := hosts) rfl
  have hq' : t.queue = p :: [] := by rw [hq]; rfl
  exact ⟨_, ht.step (.main (.take hp hq')), by simp⟩

/-- hypotheses of `C63_death`: a host that does not resolve -/
example (hosts : List (Option UDPAddr)) : ∃ s, StReach exK (none :: hosts) s ∧ s.pc = .dead := by
  refine ⟨_, (Reach.init (s := _) (show StSt.start (none :: hosts) _ from rfl)).step
    (.main (.bootPanic (O := exO) rfl exO_fair (p := .str b!"bootstrap resolve host err")
      (c := { resp := none, trace := [.nextTx 1002] }) rfl)), rfl⟩

end P2P

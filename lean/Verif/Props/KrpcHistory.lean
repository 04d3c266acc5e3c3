import Verif.Props.KrpcSafe
/-! # C30, C31, C32: histories of queries and packets, end-to-end exchange -/
namespace P2P

/-- the request registered last under transaction id `t` in a sequence of interactions -/
def lastRegistered (tr : List Event) (t : Bytes) : Option Request :=
  (registered tr).reverse.find? (fun r => r.txId == t)

/-! ## The pending-request map -/

theorem lookup_reqPut (m : List (Bytes × Request)) (k t : Bytes) (r : Request) :
    (reqPut m k r).lookup t = if t = k then some r else m.lookup t := by
  induction m with
  | nil =>
    by_cases h : t = k
    · subst h; simp [reqPut]
    · simp [reqPut, List.lookup, h, beq_eq_false_iff_ne.2 h]
  | cons x m ih =>
    obtain ⟨k', r'⟩ := x
    by_cases hk : k' = k
    · subst hk
      by_cases h : t = k'
      · subst h; simp [reqPut]
      · simp [reqPut, List.lookup, h, beq_eq_false_iff_ne.2 h]
    · by_cases h : t = k'
      · subst h; simp [reqPut, hk, List.lookup]
      · simp [reqPut, hk, List.lookup, beq_eq_false_iff_ne.2 h, ih]

theorem reqPut_keys (m : List (Bytes × Request)) (k : Bytes) (r : Request) :
    (reqPut m k r).map Prod.fst = if k ∈ m.map Prod.fst then m.map Prod.fst else m.map Prod.fst ++ [k] := by
  induction m with
  | nil => simp [reqPut]
  | cons x m ih =>
    obtain ⟨k', r'⟩ := x
    by_cases hk : k' = k
    · subst hk; simp [reqPut]
    · simp only [reqPut, hk, if_false, List.map_cons, ih, List.mem_cons, Ne.symm hk, false_or]
      split <;> rfl

theorem World.apply_reqs {env : Env} {w w' : World} {e : Event} (h : w.apply env e = some w') :
    w'.reqs = (match e with | .put r => reqPut w.reqs r.txId r | _ => w.reqs) := by
  cases e with
  | put r => simp only [World.apply, Option.some.injEq] at h; subst h; rfl
  | lookup t f => simp only [World.apply] at h; split at h <;> cases h; rfl
  | nextTx v => simp only [World.apply] at h; split at h <;> cases h; rfl
  | addNode n x =>
    simp only [World.apply] at h
    split at h
    · split at h <;> cases h; rfl
    · cases h
  | send _ _ _ => simp only [World.apply, Option.some.injEq] at h; subst h; rfl
  | enqueue _ => simp only [World.apply, Option.some.injEq] at h; subst h; rfl
  | record _ => simp only [World.apply, Option.some.injEq] at h; subst h; rfl
  | dispatch _ _ => simp only [World.apply, Option.some.injEq] at h; subst h; rfl
  | invoke _ _ _ => simp only [World.apply, Option.some.injEq] at h; subst h; rfl

theorem World.replay_append {env : Env} (a b : List Event) (w w' : World) :
    w.replay env (a ++ b) = some w' ↔ ∃ v, w.replay env a = some v ∧ v.replay env b = some w' := by
  induction a generalizing w with
  | nil => simp [World.replay]
  | cons e a ih =>
    simp only [List.cons_append, World.replay]
    cases w.apply env e with
    | none => simp
    | some v => exact ih v

theorem replay_lookup {env : Env} {tr : List Event} {w w' : World} (h : w.replay env tr = some w') (t : Bytes) :
    w'.reqs.lookup t = (lastRegistered tr t).or (w.reqs.lookup t) := by
  induction tr generalizing w with
  | nil => simp only [World.replay, Option.some.injEq] at h; subst h; rfl
  | cons e tr ih =>
    simp only [World.replay] at h
    cases ha : w.apply env e with
    | none => rw [ha] at h; cases h
    | some v =>
      rw [ha] at h
      rw [ih h, World.apply_reqs ha]
      cases e <;> try rfl
      rename_i r
      have : lastRegistered (.put r :: tr) t = (lastRegistered tr t).or (if r.txId = t then some r else none) := by
        simp only [lastRegistered, registered, List.filterMap_cons_some, List.reverse_cons, List.find?_append]
        congr 1
        by_cases hx : r.txId = t <;> simp [hx]
      rw [this, Option.or_assoc]
      congr 1
      simp only [lookup_reqPut]
      by_cases hx : r.txId = t
      · simp [hx]
      · simp [hx, Ne.symm hx]

/-! ## C30 -/

/-- C30: a response runs the handler of the request found under exactly its transaction id, once, with that request and
the response body – whatever address it comes from. If nothing is found (or the request has no handler) no handler runs
and nothing at all happens. -/
theorem C30_matched (K : KEnv) {O : Oracle} (hO : O.Fair) {pkt : RecvPacket} {t : Bytes} {body : Entries}
    (h : IsResponse pkt.bytes t body) :
    ∃ run tr, dhtPacket K O pkt = some run ∧ run.trace = .lookup t (O.lookup [] t) :: tr ∧
      (∀ req, O.lookup [] t = some req → req.handler.isSome = true →
        invoked run.trace = [(req, some { txId := t, body := some body, isErr := false }, pkt.addr)]) ∧
      ((∀ req, O.lookup [] t = some req → req.handler = none) → tr = []) := by
  obtain ⟨tr, h1, h2⟩ := dhtPacket_response K hO h
  refine ⟨_, tr, h1, rfl, ?_, ?_⟩
  · intro req hr hh
    rcases h2 with ⟨h3 | ⟨r, h3, h4⟩, -⟩ | ⟨r, tr', h3, -, rfl, h4⟩
    · rw [hr] at h3; cases h3
    · rw [hr] at h3; cases h3; rw [h4] at hh; cases hh
    · rw [hr] at h3; cases h3
      have : invoked tr' = [] := by
        rcases h4 with ⟨-, s, ns, -, -, hf⟩ | ⟨rfl, -⟩
        · clear h1
          induction hf with
          | nil => rfl
          | refused _ ih => simpa [invoked] using ih
          | accepted _ _ ih => simpa [invoked] using ih
        · rfl
      simp only [invoked] at this ⊢
      simp [this]
  · intro hn
    rcases h2 with ⟨-, rfl⟩ | ⟨r, tr', h3, h4, -⟩
    · rfl
    · rw [hn r h3] at h4; cases h4

/-- C30: in every history that starts without pending requests, what a response finds is the request registered last
under its transaction id. -/
theorem C30_found_is_last_registered {K : KEnv} {w0 w : World} {H pre post : List (Nat × Event)} (h : History K w0 w H)
    (h0 : w0.reqs = []) {i : Nat} {t : Bytes} {found : Option Request}
    (hs : H = pre ++ (i, .lookup t found) :: post) : found = lastRegistered (pre.map Prod.snd) t := by
  have ha := h.answers
  rw [hs, List.map_append, List.map_cons, World.replay_append] at ha
  obtain ⟨v, hv, hv'⟩ := ha
  simp only [World.replay, World.apply] at hv'
  split at hv'
  · rename_i hx
    split at hx
    · rename_i he
      rw [he, replay_lookup hv t, h0]
      simp
    · cases hx
  · cases hv'

/-- C30: no interaction ever removes a pending request: once something has been registered under an id, every later
lookup of this id finds a request. -/
theorem C30_never_removed {K : KEnv} {w0 w : World} {H pre mid post : List (Nat × Event)} (h : History K w0 w H)
    {i j : Nat} {req : Request} {found : Option Request}
    (hs : H = pre ++ (i, .put req) :: mid ++ (j, .lookup req.txId found) :: post) :
    ∃ r, found = some r ∧ r.txId = req.txId := by
  have ha := h.answers
  have key : ∀ (tr : List Event) (r : Request), r ∈ registered tr →
      ∃ r', lastRegistered tr r.txId = some r' ∧ r'.txId = r.txId := by
    intro tr r hr
    unfold lastRegistered
    cases hf : (registered tr).reverse.find? (fun x => x.txId == r.txId) with
    | none =>
      rw [List.find?_eq_none] at hf
      exact absurd (by simp : (r.txId == r.txId) = true) (hf r (by simpa using hr))
    | some r' =>
      have := List.find?_some hf
      exact ⟨r', rfl, by simpa using this⟩
  rw [hs, List.map_append, List.map_append, List.map_cons, List.map_cons, World.replay_append] at ha
  obtain ⟨v, hv, hv'⟩ := ha
  have hl := replay_lookup hv req.txId
  obtain ⟨r', h1, h2⟩ := key (pre.map Prod.snd ++ .put req :: mid.map Prod.snd) req (by simp [registered])
  rw [h1] at hl
  simp only [World.replay, World.apply] at hv'
  split at hv'
  · rename_i hx
    split at hx
    · rename_i he; exact ⟨r', by rw [he, hl]; rfl, h2⟩
    · cases hx
  · cases hv'

/-! ### the traces of activities -/

theorem Fanout.puts {nodeId : Bytes} {ns : List NodeInfo} {tr : List Event} (h : Fanout nodeId ns tr) :
    (∀ r, .put r ∈ tr → ∃ v, r = crawlQuery nodeId v) ∧ (∀ r p a, .invoke r p a ∉ tr) := by
  induction h with
  | nil => simp
  | refused _ ih => simpa using ih
  | accepted _ _ ih =>
    refine ⟨fun r hr => ?_, by simpa using ih.2⟩
    simp only [List.mem_cons, reduceCtorEq, false_or, Event.put.injEq] at hr
    rcases hr with hr | hr
    · exact ⟨_, hr⟩
    · exact ih.1 r hr

/-- the possible interactions of an activity, as far as requests and handlers are concerned -/
theorem activity_shape (K : KEnv) {O : Oracle} (hO : O.Fair) (a : Activity) {tr : List Event}
    (h : a.trace K O = some tr) :
    ((∀ r, .put r ∈ tr → ∃ v, r = crawlQuery K.nodeId v) ∧ (∀ r p x, .invoke r p x ∉ tr)) ∨
    ∃ pkt t body tr', a = .packet pkt ∧ IsResponse pkt.bytes t body ∧ tr = .lookup t (O.lookup [] t) :: tr' ∧
      (tr' = [] ∨ ∃ req tr'', O.lookup [] t = some req ∧
        tr' = .invoke req (some { txId := t, body := some body, isErr := false }) pkt.addr :: tr'' ∧
        ((∀ r, .put r ∈ tr'' → ∃ v, r = crawlQuery K.nodeId v) ∧ (∀ r p x, .invoke r p x ∉ tr''))) := by
  cases a with
  | packet pkt =>
    simp only [Activity.trace, Option.map_eq_some_iff] at h
    obtain ⟨run, hrun, rfl⟩ := h
    by_cases hq : ∃ d t q, IsQuery pkt.bytes d t q
    · obtain ⟨d, t, q, hq⟩ := hq
      obtain ⟨tr, b, f, reply, h1, -, h3⟩ := dhtPacket_query K hO hq
      rw [h1] at hrun; cases hrun
      left
      rcases h3 with ⟨-, a, -, rfl, -⟩ | ⟨-, msg, -, rfl | ⟨a, -, rfl⟩, -⟩
      · simp only [answerTrace]; (repeat' split) <;> simp
      · simp
      · simp
    · by_cases hr : ∃ t body, IsResponse pkt.bytes t body
      · obtain ⟨t, body, hr⟩ := hr
        obtain ⟨tr, h1, h2⟩ := dhtPacket_response K hO hr
        rw [h1] at hrun; cases hrun
        right
        refine ⟨pkt, t, body, tr, rfl, hr, rfl, ?_⟩
        rcases h2 with ⟨-, rfl⟩ | ⟨req, tr', h3, -, rfl, h4⟩
        · exact .inl rfl
        · refine .inr ⟨req, tr', h3, rfl, ?_⟩
          rcases h4 with ⟨-, s, ns, -, -, hf⟩ | ⟨rfl, -⟩
          · exact hf.puts
          · simp
      · rw [dhtPacket_ignored K O pkt (fun d t q h => hq ⟨d, t, q, h⟩) (fun t b h => hr ⟨t, b, h⟩)] at hrun
        cases hrun
        simp
  | bootstrap x =>
    left
    simp only [Activity.trace, BootStrap, GoM.bind_apply, nextTxId, List.nil_append] at h
    generalize O.nextTx [] = v at h
    cases x with
    | none => simp only [GoM.panic_apply, Option.some.injEq] at h; subst h; simp
    | some a =>
      have hm : WithFindNodeMsg (txIdText v) K.nodeId K.nodeId (some genericH) = crawlQuery K.nodeId v := rfl
      simp only [hm] at h
      obtain ⟨b, f, err, hb, hqq, -⟩ := Query_spec hO a (crawlQuery K.nodeId v)
        { resp := none, trace := [.nextTx v] }
        (args := [(b!"id", .str K.nodeId), (b!"target", .str K.nodeId)]) rfl
        ⟨by simp, by simp [GoVal.WFD, GoVal.WF]⟩ (by simp [Encodable, EncodableD])
      simp only [GoM.bind_apply, hqq] at h
      cases err with
      | none => simp only [GoM.pure_apply, Option.some.injEq] at h; subst h; simp; exact ⟨v, rfl⟩
      | some e => simp only [GoM.panic_apply, Option.some.injEq] at h; subst h; simp; exact ⟨v, rfl⟩

theorem mem_projection {i : Nat} {e : Event} {H : List (Nat × Event)} : e ∈ projection i H ↔ (i, e) ∈ H := by
  simp only [projection, List.mem_map, List.mem_filter, beq_iff_eq]
  constructor
  · rintro ⟨⟨j, e'⟩, ⟨h, rfl⟩, rfl⟩; exact h
  · intro h; exact ⟨(i, e), ⟨h, rfl⟩, rfl⟩

theorem projection_append (i : Nat) (a b : List (Nat × Event)) :
    projection i (a ++ b) = projection i a ++ projection i b := by
  simp [projection]

/-- C30 over histories: whenever a response handler is started, the same goroutine is handling a response packet, has
looked up exactly the packet's transaction id, and runs the handler of the request that was registered last under this
id at the moment of the lookup, with this request and the body of the packet. -/
theorem C30_history {K : KEnv} {w0 w : World} {H pre post : List (Nat × Event)} (h : History K w0 w H)
    (h0 : w0.reqs = []) {i : Nat} {req : Request} {resp : Option Response} {addr : UDPAddr}
    (hs : H = pre ++ (i, .invoke req resp addr) :: post) :
    ∃ bytes t body pre1 pre2, IsResponse bytes t body ∧
      resp = some { txId := t, body := some body, isErr := false } ∧
      pre = pre1 ++ (i, .lookup t (some req)) :: pre2 ∧
      lastRegistered (pre1.map Prod.snd) t = some req := by
  obtain ⟨a, O, tr, hO, ha, hp⟩ := h.goroutines i
  have hproj : projection i H = projection i pre ++ .invoke req resp addr :: projection i post := by
    rw [hs, projection_append]
    simp [projection]
  obtain ⟨rest, hrest⟩ := hp
  have hmem : Event.invoke req resp addr ∈ tr := by
    rw [← hrest, hproj]; simp
  rcases activity_shape K hO a ha with ⟨-, hn⟩ | ⟨pkt, t, body, tr', rfl, hr, rfl, h3⟩
  · exact absurd hmem (hn _ _ _)
  · rcases h3 with rfl | ⟨req', tr'', hl, rfl, -, hn⟩
    · simp at hmem
    · rw [hproj] at hrest
      have hE : Event.invoke req resp addr =
          .invoke req' (some { txId := t, body := some body, isErr := false }) pkt.addr := by
        simp only [List.mem_cons, reduceCtorEq, false_or] at hmem
        rcases hmem with h | h
        · exact h
        · exact absurd h (hn _ _ _)
      cases hE
      have hpre : Event.lookup t (some req) ∈ projection i pre := by
        cases hpp : projection i pre with
        | nil => rw [hpp] at hrest; simp at hrest
        | cons e es =>
          rw [hpp] at hrest
          simp only [List.cons_append, List.cons.injEq] at hrest
          rw [hrest.1, hl]; simp
      rw [mem_projection] at hpre
      obtain ⟨pre1, pre2, hsplit⟩ := List.append_of_mem hpre
      refine ⟨pkt.bytes, t, body, pre1, pre2, hr, rfl, hsplit, ?_⟩
      exact (C30_found_is_last_registered h h0 (i := i) (t := t) (found := some req) (pre := pre1)
        (post := pre2 ++ (i, .invoke req (some { txId := t, body := some body, isErr := false }) pkt.addr) :: post)
        (by rw [hs, hsplit]; simp)).symm

/-! ## C31 -/

theorem length_le_of_nodup_subset {α : Type} [DecidableEq α] {l m : List α} (hn : l.Nodup) (hs : ∀ x ∈ l, x ∈ m) :
    l.length ≤ m.length := by
  induction l generalizing m with
  | nil => simp
  | cons a r ih =>
    obtain ⟨h1, h2⟩ := List.nodup_cons.1 hn
    have ha : a ∈ m := hs a (by simp)
    have := ih (m := m.erase a) h2 (fun x hx => by
      refine (List.mem_erase_of_ne ?_).2 (hs x (by simp [hx]))
      rintro rfl; exact h1 hx)
    rw [List.length_erase_of_mem ha] at this
    have : 0 < m.length := List.length_pos_of_mem ha
    simp only [List.length_cons]; omega

theorem replay_keys {env : Env} {tr : List Event} {w w' : World} (h : w.replay env tr = some w')
    (hn : (w.reqs.map Prod.fst).Nodup) :
    (w'.reqs.map Prod.fst).Nodup ∧
    ∀ k ∈ w'.reqs.map Prod.fst, k ∈ w.reqs.map Prod.fst ∨ ∃ r ∈ registered tr, k = r.txId := by
  induction tr generalizing w with
  | nil => simp only [World.replay, Option.some.injEq] at h; subst h; exact ⟨hn, fun k hk => .inl hk⟩
  | cons e tr ih =>
    simp only [World.replay] at h
    cases ha : w.apply env e with
    | none => rw [ha] at h; cases h
    | some v =>
      rw [ha] at h
      have hv := World.apply_reqs ha
      cases e with
      | put r =>
        simp only at hv
        have hk : v.reqs.map Prod.fst =
            if r.txId ∈ w.reqs.map Prod.fst then w.reqs.map Prod.fst else w.reqs.map Prod.fst ++ [r.txId] := by
          rw [hv, reqPut_keys]
        have hvn : (v.reqs.map Prod.fst).Nodup := by
          rw [hk]
          split
          · exact hn
          · rename_i hm
            rw [List.nodup_append]
            refine ⟨hn, by simp, fun a ha b hb => ?_⟩
            simp at hb; subst hb; rintro rfl; exact hm ha
        obtain ⟨i1, i2⟩ := ih h hvn
        refine ⟨i1, fun k hkm => ?_⟩
        rcases i2 k hkm with h' | ⟨r', hr', he⟩
        · rw [hk] at h'
          split at h'
          · exact .inl h'
          · rcases List.mem_append.1 h' with h' | h'
            · exact .inl h'
            · exact .inr ⟨r, by simp [registered], by simpa using h'⟩
        · exact .inr ⟨r', by simp only [registered] at hr' ⊢; simp [hr'], he⟩
      | _ =>
        simp only at hv
        obtain ⟨i1, i2⟩ := ih h (by rw [hv]; exact hn)
        rw [hv] at i2
        exact ⟨i1, i2⟩

/-- C31: in every history of the crawler there are at most 65536 pending requests, all with different ids. -/
theorem C31_bounded {K : KEnv} {w0 w : World} {H : List (Nat × Event)} (h : History K w0 w H) (h0 : w0.reqs = []) :
    w.reqs.length ≤ 65536 ∧ (w.reqs.map Prod.fst).Nodup := by
  obtain ⟨h1, h2⟩ := replay_keys h.answers (by simp [h0])
  refine ⟨?_, h1⟩
  have hsub : ∀ k ∈ w.reqs.map Prod.fst, k ∈ (List.range 65536).map (fun n => txIdText (UInt16.ofNat n)) := by
    intro k hk
    rcases h2 k hk with h' | ⟨r, hr, rfl⟩
    · simp [h0] at h'
    · simp only [registered, List.mem_filterMap] at hr
      obtain ⟨e, he, her⟩ := hr
      cases e <;> simp at her
      subst her
      rename_i r
      obtain ⟨⟨i, e⟩, hie, rfl⟩ := List.mem_map.1 he
      obtain ⟨a, O, tr, hO, ha, hp⟩ := h.goroutines i
      have hm : Event.put r ∈ tr := hp.subset (mem_projection.2 hie)
      obtain ⟨v, hv⟩ : ∃ v, r = crawlQuery K.nodeId v := by
        rcases activity_shape K hO a ha with ⟨hput, -⟩ | ⟨pkt, t, body, tr', -, -, rfl, rfl | ⟨req, tr'', -, rfl, hput, -⟩⟩
        · exact hput r hm
        · simp at hm
        · simp only [List.mem_cons, reduceCtorEq, false_or] at hm
          exact hput r hm
      subst hv
      refine List.mem_map.2 ⟨v.toNat, ?_, by simp [crawlQuery]⟩
      simpa using v.toNat_lt
  have := length_le_of_nodup_subset h1 hsub
  simpa using this

/-! ## C32 -/

/-- a query made by one of the four constructors for a node with a 20-byte id -/
def Constructed (req : Request) : Prop :=
  ∃ (t id : Bytes) (h : Nat), id.length = 20 ∧
    (req = WithPingMsg t id (some h) ∨
     (∃ target, req = WithFindNodeMsg t id target (some h)) ∨
     (∃ infoHash, req = WithGetPeersMsg t id infoHash (some h)) ∨
     (∃ infoHash token port, IsInt64 port ∧ req = WithAnnouncePeerMsg t id infoHash token port (some h)))

theorem end_to_end_core (KA KB : KEnv) {OA OB OA' : Oracle} (hA : OA.Fair) (hB : OB.Fair) (hA' : OA'.Fair)
    (addrA addrB from' : UDPAddr) {req : Request} (hreq : Constructed req) :
    ∃ (qb rb : Bytes) (failed : Bool) (err : Option GoErr) (args : Entries),
      req.body = some args ∧
      -- A sends
      Query OA addrB req { resp := none, trace := [] } =
        .ok err { resp := none, trace := [.put req, .send addrB qb failed] } ∧
      -- B handles the datagram
      (GoString qb → ∃ runB args', dhtPacket KB OB { addr := addrA, bytes := qb } = some runB ∧
        dispatched runB.trace =
          [({ txId := req.txId, qType := req.qType, body := some args', handler := none }, addrA)] ∧
        DeepEq (.dict args) (.dict args') ∧
        sends runB.trace = [(addrA, rb)]) ∧
      -- A handles the reply
      (GoString qb → GoString rb → OA'.lookup [] req.txId = some req →
        ∃ runA body, dhtPacket KA OA' { addr := from', bytes := rb } = some runA ∧
          invoked runA.trace = [(req, some { txId := req.txId, body := some body, isErr := false }, from')] ∧
          DeepEq (.dict (replyBody KB.nodeId req.txId req.qType)) (.dict body)) ∧
      (GoString qb → EncodingOf (.dict [(b!"t", .str req.txId), (b!"y", .str b!"r"), (b!"r", .dict (replyBody KB.nodeId req.txId req.qType))]) rb) := by
  have hfacts : ∃ args id, req.body = some args ∧ GoVal.WF (.dict args) ∧ Encodable (.dict args) ∧
      req.handler.isSome = true ∧ req.qType ∈ methods ∧ args.lookup b!"id" = some (.str id) ∧ id.length = 20 ∧
      (req.qType = b!"get_peers" ∨ req.qType = b!"announce_peer" → ∃ h, args.lookup b!"info_hash" = some (.str h)) ∧
      (req.qType = b!"announce_peer" → ∃ p, args.lookup b!"port" = some (.int p)) := by
    obtain ⟨t, id, h, hid, rfl | ⟨target, rfl⟩ | ⟨ih, rfl⟩ | ⟨ih, tok, port, hport, rfl⟩⟩ := hreq
    · exact ⟨_, id, rfl, ⟨by simp, by simp [GoVal.WFD, GoVal.WF]⟩, by simp [Encodable, EncodableD], rfl,
        by simp [WithPingMsg, methods], rfl, hid, by simp [WithPingMsg], by simp [WithPingMsg]⟩
    · exact ⟨_, id, rfl, ⟨by simp, by simp [GoVal.WFD, GoVal.WF]⟩, by simp [Encodable, EncodableD], rfl,
        by simp [WithFindNodeMsg, methods], rfl, hid, by simp [WithFindNodeMsg], by simp [WithFindNodeMsg]⟩
    · exact ⟨_, id, rfl, ⟨by simp, by simp [GoVal.WFD, GoVal.WF]⟩, by simp [Encodable, EncodableD], rfl,
        by simp [WithGetPeersMsg, methods], rfl, hid, fun _ => ⟨ih, rfl⟩, by simp [WithGetPeersMsg]⟩
    · exact ⟨_, id, rfl, ⟨by simp, by simp only [GoVal.WFD, GoVal.WF]; exact ⟨trivial, trivial, hport, trivial, by decide, trivial⟩⟩,
        by simp [Encodable, EncodableD], rfl,
        by simp [WithAnnouncePeerMsg, methods], rfl, hid, fun _ => ⟨ih, rfl⟩, fun _ => ⟨port, rfl⟩⟩
  obtain ⟨args, id, hbody, hwf, henc, hhand, hmeth, hid, hidl, hih, hport⟩ := hfacts
  obtain ⟨qb, fq, err, hqb, hq, -⟩ := Query_spec hA addrB req { resp := none, trace := [] } hbody hwf henc
  obtain ⟨w, hw1, hw2, hw3⟩ := hqb
  have hdec : GoString qb → ∃ e, DecodeDictNoLimit qb = .ok (e, qb.length) ∧
      DeepEq (.dict (queryDict req.txId req.qType args)) (.dict e) := by
    intro hg
    obtain ⟨we, rfl⟩ : ∃ we, w = .dict we := by cases hw2 <;> exact ⟨_, rfl⟩
    have henc' : Encodable (.dict (queryDict req.txId req.qType args)) := by
      simp only [queryDict, Encodable, EncodableD]; exact ⟨trivial, trivial, trivial, henc, trivial⟩
    obtain ⟨b, h1, h2⟩ := C05_dict_before_payload _ we [] henc' ⟨hw1, hw2⟩
    have : b = qb := by
      have h3 : EncodeDict (some we) = .ok qb := hw3
      rw [h1] at h3; cases h3; rfl
    subst this
    simpa using h2 (by simpa using hg)
  by_cases hg : GoString qb
  case neg => exact ⟨qb, [], fq, err, args, hbody, hq, fun h => absurd h hg, fun h => absurd h hg, fun h => absurd h hg⟩
  obtain ⟨e, he1, he2⟩ := hdec hg
  obtain ⟨args', ha1, ha2⟩ := deepEq_lookup_dict he2 (k := b!"a") (a := args) rfl
  have hIs : IsQuery ({ addr := addrA, bytes := qb } : RecvPacket).bytes e req.txId req.qType :=
    ⟨⟨_, he1⟩, deepEq_lookup_str he2 rfl, deepEq_lookup_str he2 rfl, deepEq_lookup_str he2 rfl⟩
  have hAns : Answerable e req.qType := by
    refine ⟨hmeth, args', ha1, ⟨id, deepEq_lookup_str ha2 hid, hidl⟩, fun h => ?_, fun h => ?_⟩
    · obtain ⟨x, hx⟩ := hih h; exact ⟨x, deepEq_lookup_str ha2 hx⟩
    · obtain ⟨x, hx⟩ := hport h; exact ⟨x, deepEq_lookup_int ha2 hx⟩
  obtain ⟨tr, rb, fr, reply, h1, ⟨hE, h2⟩, h3⟩ := dhtPacket_query KB hB hIs
  rcases h3 with ⟨-, a'', ha'', rfl, rfl⟩ | ⟨hna, -⟩
  case inr => exact absurd hAns hna
  rw [ha1] at ha''; cases ha''
  refine ⟨qb, rb, fq, err, args, hbody, hq, fun _ => ⟨_, args', h1, ?_, ha2, ?_⟩, fun _ hgr hl => ?_, fun _ => hE⟩
  · simp only [answerTrace]; (repeat' split) <;> simp [dispatched]
  · simp only [answerTrace]; (repeat' split) <;> simp [sends]
  · obtain ⟨e', he', hde⟩ := h2 hgr
    obtain ⟨body, hb1, hb2⟩ := deepEq_lookup_dict hde (k := b!"r") rfl
    have hR : IsResponse ({ addr := from', bytes := rb } : RecvPacket).bytes req.txId body := by
      refine ⟨⟨e', _, he', deepEq_lookup_str hde rfl, deepEq_lookup_str hde rfl, hb1⟩, KB.nodeId, ?_⟩
      refine deepEq_lookup_str hb2 ?_
      unfold replyBody
      split
      · rfl
      · split <;> rfl
    obtain ⟨run, tr, hr1, -, hr2, -⟩ := C30_matched KA hA' hR
    exact ⟨run, body, hr1, hr2 req hl hhand, hb2⟩

/-- C32: server A queries server B (`Query`); B handles the datagram, and A handles B's reply. For each of the four
kinds of queries and whatever the map iteration orders, B's handler sees the transaction id, method and arguments of
A's request, B answers once, and A runs the handler of its request once, with the body B answered with. (`GoString`: the
datagrams are shorter than 2^63 bytes.) -/
theorem C32_end_to_end (KA KB : KEnv) {OA OB OA' : Oracle} (hA : OA.Fair) (hB : OB.Fair) (hA' : OA'.Fair)
    (addrA addrB from' : UDPAddr) {req : Request} (hreq : Constructed req) :
    ∃ (qb rb : Bytes) (failed : Bool) (err : Option GoErr) (args : Entries),
      req.body = some args ∧
      -- A sends
      Query OA addrB req { resp := none, trace := [] } =
        .ok err { resp := none, trace := [.put req, .send addrB qb failed] } ∧
      -- B handles the datagram
      (GoString qb → ∃ runB args', dhtPacket KB OB { addr := addrA, bytes := qb } = some runB ∧
        dispatched runB.trace =
          [({ txId := req.txId, qType := req.qType, body := some args', handler := none }, addrA)] ∧
        DeepEq (.dict args) (.dict args') ∧
        sends runB.trace = [(addrA, rb)]) ∧
      -- A handles the reply
      (GoString qb → GoString rb → OA'.lookup [] req.txId = some req →
        ∃ runA body, dhtPacket KA OA' { addr := from', bytes := rb } = some runA ∧
          invoked runA.trace = [(req, some { txId := req.txId, body := some body, isErr := false }, from')] ∧
          DeepEq (.dict (replyBody KB.nodeId req.txId req.qType)) (.dict body)) := by
  obtain ⟨qb, rb, f, e, args, h1, h2, h3, h4, -⟩ := end_to_end_core KA KB hA hB hA' addrA addrB from' hreq
  exact ⟨qb, rb, f, e, args, h1, h2, h3, h4⟩

end P2P

import Verif.Props.Crawl
import Verif.Props.Replay
import Verif.Props.CutPacket
/-! # C89: where the nodes of the route table come from -/
namespace P2P
open RouteTable

/-! ## Vocabulary -/

/-- At position `p` of the history goroutine `i` does `e`. -/
def Happens (H : List (Nat × Event)) (p : Nat) (i : Nat) (e : Event) : Prop := H[p]? = some (i, e)

/-- Goroutine `i` handles a response under transaction id `t` whose list of nodes contains `n`. -/
def ListedIn (K : KEnv) (H : List (Nat × Event)) (i : Nat) (t : Bytes) (n : NodeInfo) : Prop :=
  ∃ pkt body s ns, Doing K H i (.packet pkt) ∧ IsResponse pkt.bytes t body ∧
    body.lookup b!"nodes" = some (.str s) ∧ parseNodeInfo s = .ok ns ∧ n ∈ ns

/-- At position `p` goroutine `j` registers the find_node query with transaction number `v`; the next thing it does, if it gets that far, is to send
exactly this query to `to`. -/
def Asked (K : KEnv) (H : List (Nat × Event)) (p j : Nat) (v : UInt16) (to : UDPAddr) : Prop :=
  Happens H p j (.put (crawlQuery K.nodeId v)) ∧
  ∀ q e, p < q → Happens H q j e → (∀ r e', p < r → r < q → ¬ Happens H r j e') →
    ∃ b f, e = .send to b f ∧
      EncodingOf (.dict (queryDict (txIdText v) b!"find_node" [(b!"id", .str K.nodeId), (b!"target", .str K.nodeId)])) b

/-- After position `p` goroutine `i` handles a response with the transaction id of query `v`, finds this query pending, and at position `q` the table
accepts the node `n` listed in the response. -/
def Answered (K : KEnv) (H : List (Nat × Event)) (p : Nat) (v : UInt16) (n : NodeInfo) (q : Nat) : Prop :=
  ∃ i l, p < l ∧ l < q ∧ Happens H l i (.lookup (txIdText v) (some (crawlQuery K.nodeId v))) ∧ Happens H q i (.addNode n none) ∧
    ListedIn K H i (txIdText v) n

/-- The node `n`, accepted by the table at position `q`, was found by crawling: it was listed in a response carrying the transaction id of a query that the
crawler had addressed to a bootstrap host, or to a node found before. -/
inductive Crawled (K : KEnv) (H : List (Nat × Event)) : NodeInfo → Nat → Prop where
  | first {j : Nat} {host : UDPAddr} {p : Nat} {v : UInt16} {n : NodeInfo} {q : Nat} :
      Doing K H j (.bootstrap (some host)) → Asked K H p j v host → Answered K H p v n q → Crawled K H n q
  | next {m : NodeInfo} {o : Nat} {j : Nat} {p : Nat} {v : UInt16} {n : NodeInfo} {q : Nat} :
      Crawled K H m o → Happens H o j (.addNode m none) → o < p → Asked K H p j v m.addr → Answered K H p v n q → Crawled K H n q

/-! ## Single activities -/

/-- a node is offered to the table only by the handling of a response that lists it and whose query was found pending -/
theorem activity_add (K : KEnv) {O : Oracle} (hO : O.Fair) (a : Activity) {tr p q : List Event} {n : NodeInfo} {x : Option Bytes}
    (h : a.trace K O = some tr) (e : tr = p ++ .addNode n x :: q) :
    ∃ pkt t body s ns req, a = .packet pkt ∧ IsResponse pkt.bytes t body ∧ body.lookup b!"nodes" = some (.str s) ∧
      parseNodeInfo s = .ok ns ∧ n ∈ ns ∧ .lookup t (some req) ∈ p := by
  cases a with
  | packet pkt =>
    simp only [Activity.trace, Option.map_eq_some_iff] at h
    obtain ⟨run, hrun, rfl⟩ := h
    by_cases hq : ∃ d t q, IsQuery pkt.bytes d t q
    · obtain ⟨d, t, qt, hq⟩ := hq
      obtain ⟨tr, b', f', reply, h1, -, h3⟩ := dhtPacket_query K hO hq
      rw [h1] at hrun; cases hrun
      exfalso
      have hm : Event.addNode n x ∈ tr ++ [.send pkt.addr b' f'] := by
        have e' : tr ++ [.send pkt.addr b' f'] = _ := e
        rw [e']; simp
      revert hm
      rcases h3 with ⟨-, a, -, rfl, -⟩ | ⟨-, msg, -, rfl | ⟨a, -, rfl⟩, -⟩
      · simp only [answerTrace]; (repeat' split) <;> simp
      · simp
      · simp
    · by_cases hr : ∃ t body, IsResponse pkt.bytes t body
      · obtain ⟨t, body, hr⟩ := hr
        obtain ⟨tr, h1, h2⟩ := dhtPacket_response K hO hr
        rw [h1] at hrun; cases hrun
        simp only at e
        rcases h2 with ⟨-, rfl⟩ | ⟨req, tr', h3, -, rfl, h4⟩
        · rcases p with _ | ⟨y, p⟩ <;> simp at e
        · rcases h4 with ⟨-, s, ns, hs, hns, hf⟩ | ⟨rfl, -⟩
          · rcases p with _ | ⟨y1, _ | ⟨y2, p⟩⟩
            · simp at e
            · simp at e
            · simp only [List.cons_append, List.cons.injEq] at e
              obtain ⟨rfl, rfl, e⟩ := e
              exact ⟨pkt, t, body, s, ns, req, rfl, hr, hs, hns, hf.added (x := x) (by rw [e]; simp), by simp [h3]⟩
          · rcases p with _ | ⟨y1, _ | ⟨y2, p⟩⟩ <;> simp at e
      · rw [dhtPacket_ignored K O pkt (fun d t q h => hq ⟨d, t, q, h⟩) (fun t b h => hr ⟨t, b, h⟩)] at hrun
        cases hrun
        simp at e
  | bootstrap x' =>
    exfalso
    obtain ⟨tr', ret, h1, h2, h3⟩ := C63_bootstrap K hO x'
    have htr : tr = tr' := by
      simp only [Activity.trace] at h
      cases ret with
      | true => rw [h2 rfl] at h; exact (Option.some.inj h).symm
      | false => obtain ⟨pp, hp⟩ := h3 rfl; rw [hp] at h; exact (Option.some.inj h).symm
    subst htr
    have hm : Event.addNode n x ∈ tr := by rw [e]; simp
    cases h1 <;> simp at hm

theorem Fanout.put_split {nodeId : Bytes} {ns : List NodeInfo} {tr : List Event} (h : Fanout nodeId ns tr)
    {p q : List Event} {r : Request} (e : tr = p ++ .put r :: q) :
    ∃ n v b f q', .addNode n none ∈ p ∧ r = crawlQuery nodeId v ∧ q = .send n.addr b f :: q' ∧
      EncodingOf (.dict (queryDict (txIdText v) b!"find_node" [(b!"id", .str nodeId), (b!"target", .str nodeId)])) b := by
  induction h generalizing p with
  | nil => simp at e
  | @refused n x r' tr _ ih =>
    cases p with
    | nil => simp at e
    | cons y p =>
      simp only [List.cons_append, List.cons.injEq] at e
      obtain ⟨n', v, b, f, q', h1, h2⟩ := ih e.2
      exact ⟨n', v, b, f, q', List.mem_cons_of_mem _ h1, h2⟩
  | @accepted n v b' f' r' tr hb' _ ih =>
    rcases p with _ | ⟨y1, _ | ⟨y2, _ | ⟨y3, _ | ⟨y4, p⟩⟩⟩⟩
    · simp at e
    · simp at e
    · simp only [List.cons_append, List.nil_append, List.cons.injEq, Event.put.injEq] at e
      obtain ⟨rfl, rfl, rfl, rfl⟩ := e
      exact ⟨n, v, b', f', tr, by simp, rfl, rfl, hb'⟩
    · simp at e
    · simp only [List.cons_append, List.cons.injEq] at e
      obtain ⟨rfl, rfl, rfl, rfl, e⟩ := e
      obtain ⟨n', v', b, f, q', h1, h2⟩ := ih e
      exact ⟨n', v', b, f, q', by simp [h1], h2⟩

/-- what is around the registration of a query -/
theorem activity_put (K : KEnv) {O : Oracle} (hO : O.Fair) (a : Activity) {tr p q : List Event} {r : Request}
    (h : a.trace K O = some tr) (e : tr = p ++ .put r :: q) :
    ∃ v to b f q', r = crawlQuery K.nodeId v ∧ q = .send to b f :: q' ∧
      EncodingOf (.dict (queryDict (txIdText v) b!"find_node" [(b!"id", .str K.nodeId), (b!"target", .str K.nodeId)])) b ∧
      (a = .bootstrap (some to) ∨ ∃ n, .addNode n none ∈ p ∧ to = n.addr) := by
  cases a with
  | packet pkt =>
    simp only [Activity.trace, Option.map_eq_some_iff] at h
    obtain ⟨run, hrun, rfl⟩ := h
    by_cases hq : ∃ d t q, IsQuery pkt.bytes d t q
    · obtain ⟨d, t, qt, hq⟩ := hq
      obtain ⟨tr, b', f', reply, h1, -, h3⟩ := dhtPacket_query K hO hq
      rw [h1] at hrun; cases hrun
      exfalso
      have hm : Event.put r ∈ tr ++ [.send pkt.addr b' f'] := by
        have e' : tr ++ [.send pkt.addr b' f'] = _ := e
        rw [e']; simp
      revert hm
      rcases h3 with ⟨-, a, -, rfl, -⟩ | ⟨-, msg, -, rfl | ⟨a, -, rfl⟩, -⟩
      · simp only [answerTrace]; (repeat' split) <;> simp
      · simp
      · simp
    · by_cases hr : ∃ t body, IsResponse pkt.bytes t body
      · obtain ⟨t, body, hr⟩ := hr
        obtain ⟨tr, h1, h2⟩ := dhtPacket_response K hO hr
        rw [h1] at hrun; cases hrun
        simp only at e
        rcases h2 with ⟨-, rfl⟩ | ⟨req, tr', h3, -, rfl, h4⟩
        · rcases p with _ | ⟨y, p⟩ <;> simp at e
        · rcases h4 with ⟨-, s, ns, hs, hns, hf⟩ | ⟨rfl, -⟩
          · rcases p with _ | ⟨y1, _ | ⟨y2, p⟩⟩
            · simp at e
            · simp at e
            · simp only [List.cons_append, List.cons.injEq] at e
              obtain ⟨rfl, rfl, e⟩ := e
              obtain ⟨n, v, b, f, q', h1, h2, h3, h4⟩ := hf.put_split e
              exact ⟨v, n.addr, b, f, q', h2, h3, h4, .inr ⟨n, by simp [h1], rfl⟩⟩
          · rcases p with _ | ⟨y1, _ | ⟨y2, p⟩⟩ <;> simp at e
      · rw [dhtPacket_ignored K O pkt (fun d t q h => hq ⟨d, t, q, h⟩) (fun t b h => hr ⟨t, b, h⟩)] at hrun
        cases hrun
        simp at e
  | bootstrap x' =>
    obtain ⟨tr', ret, h1, h2, h3⟩ := C63_bootstrap K hO x'
    have htr : tr = tr' := by
      simp only [Activity.trace] at h
      cases ret with
      | true => rw [h2 rfl] at h; exact (Option.some.inj h).symm
      | false => obtain ⟨pp, hp⟩ := h3 rfl; rw [hp] at h; exact (Option.some.inj h).symm
    subst htr
    cases h1 with
    | unresolved v => rcases p with _ | ⟨y, p⟩ <;> simp at e
    | contacted a v b' f' hb' =>
      rcases p with _ | ⟨y1, _ | ⟨y2, _ | ⟨y3, p⟩⟩⟩
      · simp at e
      · simp only [List.cons_append, List.nil_append, List.cons.injEq, Event.put.injEq] at e
        obtain ⟨-, rfl, rfl⟩ := e
        exact ⟨v, a, b', f', [], rfl, rfl, hb', .inl rfl⟩
      · simp at e
      · simp at e

/-! ## Positions -/

theorem at_lt {H : List (Nat × Event)} {p i : Nat} {e : Event} (h : Happens H p i e) : p < H.length := (List.getElem?_eq_some_iff.1 h).1

theorem at_split {H : List (Nat × Event)} {p i : Nat} {e : Event} (h : Happens H p i e) : H = H.take p ++ (i, e) :: H.drop (p + 1) := by
  have hp := at_lt h
  have : H[p] = (i, e) := (List.getElem?_eq_some_iff.1 h).2
  rw [← this]
  simp

theorem at_of_mem {H : List (Nat × Event)} {i : Nat} {e : Event} (h : (i, e) ∈ H) : ∃ p, Happens H p i e := by
  obtain ⟨p, hp, he⟩ := List.getElem_of_mem h
  exact ⟨p, by simp [Happens, List.getElem?_eq_getElem hp, he]⟩

theorem at_take {H : List (Nat × Event)} {n p i : Nat} {e : Event} : Happens (H.take n) p i e ↔ p < n ∧ Happens H p i e := by
  unfold Happens
  rw [List.getElem?_take]
  by_cases h : p < n <;> simp [h]

theorem projection_at {H : List (Nat × Event)} {p i : Nat} {e : Event} (h : Happens H p i e) :
    projection i H = projection i (H.take p) ++ e :: projection i (H.drop (p + 1)) := by
  conv => lhs; rw [at_split h]
  rw [projection_append]
  congr 1
  simp [projection]

/-- the first event of a goroutine after a position is the head of what it does from there -/
theorem projection_next {H : List (Nat × Event)} {p q i : Nat} {e : Event} (hpq : p < q) (h : Happens H q i e)
    (hno : ∀ r e', p < r → r < q → ¬ Happens H r i e') : ∃ rest, projection i (H.drop (p + 1)) = e :: rest := by
  have hq : Happens (H.drop (p + 1)) (q - (p + 1)) i e := by
    unfold Happens at h ⊢
    rw [List.getElem?_drop]
    have : p + 1 + (q - (p + 1)) = q := by omega
    rw [this]; exact h
  have hsp := projection_at hq
  have hnil : projection i ((H.drop (p + 1)).take (q - (p + 1))) = [] := by
    cases hx : projection i ((H.drop (p + 1)).take (q - (p + 1))) with
    | nil => rfl
    | cons e' r =>
      exfalso
      have hm : (i, e') ∈ (H.drop (p + 1)).take (q - (p + 1)) := mem_projection.1 (by rw [hx]; simp)
      obtain ⟨k, hk⟩ := at_of_mem hm
      obtain ⟨hk1, hk2⟩ := at_take.1 hk
      unfold Happens at hk2
      rw [List.getElem?_drop] at hk2
      exact hno (p + 1 + k) e' (by omega) (by omega) hk2
  rw [hnil, List.nil_append] at hsp
  exact ⟨_, hsp⟩

/-! ## The property -/

/-- C89: the registration of a query, in a history: who did it, and to whom the query goes. -/
theorem C89_asked {K : KEnv} {w0 w : World} {H : List (Nat × Event)} (h : History K w0 w H) {p j : Nat} {r : Request} (hp : Happens H p j (.put r)) :
    ∃ v to, r = crawlQuery K.nodeId v ∧ Asked K H p j v to ∧
      (Doing K H j (.bootstrap (some to)) ∨ ∃ m o, o < p ∧ Happens H o j (.addNode m none) ∧ to = m.addr) := by
  obtain ⟨a, O, tr, hO, ha, rest, hrest⟩ := h.goroutines j
  have e : tr = projection j (H.take p) ++ .put r :: (projection j (H.drop (p + 1)) ++ rest) := by
    rw [← hrest, projection_at hp]; simp
  obtain ⟨v, to, b, f, q', rfl, hq, hb, hto⟩ := activity_put K hO a ha e
  refine ⟨v, to, rfl, ⟨hp, fun q ev hpq hat hno => ?_⟩, ?_⟩
  · obtain ⟨r2, hr2⟩ := projection_next hpq hat hno
    rw [hr2] at hq
    simp only [List.cons_append, List.cons.injEq] at hq
    exact ⟨b, f, hq.1, hb⟩
  · rcases hto with rfl | ⟨n, hn, rfl⟩
    · exact .inl ⟨O, tr, hO, ha, rest, hrest⟩
    · obtain ⟨o, ho⟩ := at_of_mem (mem_projection.1 hn)
      obtain ⟨ho1, ho2⟩ := at_take.1 ho
      exact .inr ⟨n, o, ho1, ho2, rfl⟩

/-- C89: a node is offered to the table only because a response lists it whose transaction id was registered before. -/
theorem C89_offered {K : KEnv} {w0 w : World} {H : List (Nat × Event)} (h : History K w0 w H) (h0 : w0.reqs = []) {q i : Nat} {n : NodeInfo}
    {x : Option Bytes} (hq : Happens H q i (.addNode n x)) :
    ∃ v p j l, p < l ∧ l < q ∧ Happens H p j (.put (crawlQuery K.nodeId v)) ∧
      Happens H l i (.lookup (txIdText v) (some (crawlQuery K.nodeId v))) ∧ ListedIn K H i (txIdText v) n := by
  obtain ⟨a, O, tr, hO, ha, rest, hrest⟩ := h.goroutines i
  have e : tr = projection i (H.take q) ++ .addNode n x :: (projection i (H.drop (q + 1)) ++ rest) := by
    rw [← hrest, projection_at hq]; simp
  obtain ⟨pkt, t, body, s, ns, req, rfl, h1, h2, h3, h4, h5⟩ := activity_add K hO a ha e
  obtain ⟨l, hl⟩ := at_of_mem (mem_projection.1 h5)
  obtain ⟨hl1, hl2⟩ := at_take.1 hl
  have hf := C30_found_is_last_registered h h0 (at_split hl2)
  have hmem := List.mem_of_find?_eq_some hf.symm
  have ht : req.txId = t := by
    have := List.find?_some hf.symm
    simpa using this
  have hmem' : req ∈ registered ((H.take l).map Prod.snd) := by simpa using hmem
  simp only [registered, List.mem_filterMap, List.mem_map] at hmem'
  obtain ⟨ev, ⟨⟨j, ev'⟩, hj, rfl⟩, he⟩ := hmem'
  cases ev' with
  | put r' =>
    simp only [Option.some.injEq] at he
    subst he
    obtain ⟨p, hp⟩ := at_of_mem hj
    obtain ⟨hp1, hp2⟩ := at_take.1 hp
    obtain ⟨v, hv⟩ := history_puts h (i := j) (r := r') (List.mem_of_mem_take hj)
    have htv : t = txIdText v := by rw [← ht, hv]; rfl
    subst hv htv
    exact ⟨v, p, j, l, hp1, hl1, hp2, hl2, pkt, body, s, ns, ⟨O, tr, hO, ha, rest, hrest⟩, h1, h2, h3, h4⟩
  | _ => simp at he

/-- C89: whatever the table accepts was found by crawling. -/
theorem C89_accepted {K : KEnv} {w0 w : World} {H : List (Nat × Event)} (h : History K w0 w H) (h0 : w0.reqs = []) {q i : Nat} {n : NodeInfo}
    (hq : Happens H q i (.addNode n none)) : Crawled K H n q := by
  induction q using Nat.strongRecOn generalizing i n with
  | _ q ih =>
    obtain ⟨v, p, j, l, hpl, hlq, hp, hl, hlist⟩ := C89_offered h h0 hq
    obtain ⟨v', to, e, hask, hto⟩ := C89_asked h hp
    have hv : v = v' := by
      have := congrArg Request.txId e
      exact txIdText_inj this
    subst hv
    have hans : Answered K H p v n q := ⟨i, l, hpl, hlq, hl, hq, hlist⟩
    rcases hto with hb | ⟨m, o, ho, hm, rfl⟩
    · exact .first hb hask hans
    · exact .next (ih o (by omega) hm) hm ho hask hans

/-- an addition that is answered with an error leaves no trace in the table -/
theorem replay_stored {env : Env} {tr : List Event} {w w' : World} (hs : Sound env w.table) (h : w.replay env tr = some w') :
    ∀ m ∈ w'.table.nodes, m ∈ w.table.nodes ∨ .addNode m none ∈ tr := by
  induction tr generalizing w with
  | nil => cases h; exact fun m hm => .inl hm
  | cons e tr ih =>
    simp only [World.replay] at h
    cases ha : w.apply env e with
    | none => rw [ha] at h; cases h
    | some v =>
      rw [ha] at h
      simp only at h
      intro m hm
      rcases World.apply_table ha with ⟨n, x, rfl, hadd⟩ | ⟨hne, ht⟩
      · obtain ⟨s1, -, s3, -⟩ := hs.add hadd
        rcases ih s1 h m hm with h1 | h1
        · cases x with
          | none =>
            rcases s3 m h1 with h1 | rfl
            · exact .inl h1
            · exact .inr (by simp)
          | some msg =>
            rw [(C21_error hs.reach hadd).1] at h1
            exact .inl h1
        · exact .inr (by simp [h1])
      · rw [← ht] at hs
        rcases ih hs h m hm with h1 | h1
        · rw [ht] at h1; exact .inl h1
        · exact .inr (by simp [h1])

/-- **C89: every node in the route table was found by crawling.** However long the crawler runs: every node in its table is its own node, or it was listed in
a response that carried the transaction id of a query the crawler had addressed to a bootstrap host or to a node found in this way before. -/
theorem C89_origin {K : KEnv} {w0 w : World} {H : List (Nat × Event)} (h : History K w0 w H) {port : Int} (h0 : initialTable port = .ok w0.table)
    (hr : w0.reqs = []) {n : NodeInfo} (hn : n ∈ w.table.nodes) :
    n = { id := localNodeId, addr := { ip := [], port } } ∨ ∃ q, Crawled K H n q := by
  obtain ⟨s0, -, -, n0, -, nodes0, -⟩ := initialTable_sound K.env h0
  rcases replay_stored s0 h.answers n hn with h1 | h1
  · rw [nodes0] at h1
    simp only [List.mem_cons, List.not_mem_nil, or_false] at h1
    exact .inl (h1.trans n0)
  · obtain ⟨⟨i, e⟩, hie, rfl⟩ := List.mem_map.1 h1
    obtain ⟨q, hq⟩ := at_of_mem hie
    exact .inr ⟨q, C89_accepted h hr hq⟩

/-- every chain begins at a bootstrap host -/
theorem Crawled.bootstrapped {K : KEnv} {H : List (Nat × Event)} {n : NodeInfo} {q : Nat} (h : Crawled K H n q) :
    ∃ j host p v, p < q ∧ Doing K H j (.bootstrap (some host)) ∧ Asked K H p j v host := by
  induction h with
  | @first j host p v n q hd ha hans =>
    obtain ⟨i, l, h1, h2, -⟩ := hans
    exact ⟨j, host, p, v, by omega, hd, ha⟩
  | @next m o j p v n q _ _ hop _ hans ih =>
    obtain ⟨j', host, p', v', h1, h2⟩ := ih
    obtain ⟨i, l, h3, h4, -⟩ := hans
    exact ⟨j', host, p', v', by omega, h2⟩

/-- C89: without a query to a bootstrap host nothing happens: the table holds the crawler's own node only, and all datagrams sent are replies to queries. -/
theorem C89_no_bootstrap {K : KEnv} {w0 w : World} {H : List (Nat × Event)} (h : History K w0 w H) {port : Int} (h0 : initialTable port = .ok w0.table)
    (hr : w0.reqs = []) (hb : ∀ i e host, (i, e) ∈ H → ¬ Doing K H i (.bootstrap (some host))) :
    (∀ n ∈ w.table.nodes, n = { id := localNodeId, addr := { ip := [], port } }) ∧
    ∀ i to b f, (i, .send to b f) ∈ H → ∃ pkt d t q, IsQuery pkt.bytes d t q ∧ to = pkt.addr ∧ Doing K H i (.packet pkt) := by
  have nocrawl : ∀ n q, ¬ Crawled K H n q := by
    intro n q hc
    obtain ⟨j, host, p, v, -, hd, ha⟩ := hc.bootstrapped
    exact hb j _ host (List.mem_of_getElem? ha.1) hd
  refine ⟨fun n hn => ?_, fun i to b f hm => ?_⟩
  · rcases C89_origin h h0 hr hn with h1 | ⟨q, hq⟩
    · exact h1
    · exact absurd hq (nocrawl n q)
  · obtain ⟨a, O, tr, hO, ha, hpr⟩ := h.goroutines i
    obtain ⟨p, q, hpq⟩ := List.append_of_mem (mem_projection.2 hm)
    obtain ⟨rest, hrest⟩ := hpr
    have e : tr = p ++ .send to b f :: (q ++ rest) := by rw [← hrest, hpq]; simp
    rcases (activity_crawl K hO a ha).2 _ _ _ _ _ e with ⟨pkt, d, t, qt, rfl, h1, h2⟩ | rfl | ⟨n, h1, rfl⟩
    · exact ⟨pkt, d, t, qt, h1, h2, O, tr, hO, ha, rest, hrest⟩
    · exact absurd ⟨O, tr, hO, ha, rest, hrest⟩ (hb i _ to hm)
    · have hn : (i, Event.addNode n none) ∈ H := mem_projection.1 (by rw [hpq]; simp [h1])
      obtain ⟨k, hk⟩ := at_of_mem hn
      exact absurd (C89_accepted h hr hk) (nocrawl n k)

/-! ## Whoever knows a transaction id can add nodes -/

/-- a goroutine that has done nothing yet -/
theorem fresh_goroutine (H : List (Nat × Event)) : ∃ i, projection i H = [] := by
  have : ∃ i, ∀ x ∈ H, x.1 < i := by
    induction H with
    | nil => exact ⟨0, by simp⟩
    | cons y H ih =>
      obtain ⟨i, hi⟩ := ih
      refine ⟨max i (y.1 + 1), fun x hx => ?_⟩
      rcases List.mem_cons.1 hx with rfl | hx
      · omega
      · have := hi x hx; omega
  obtain ⟨i, hi⟩ := this
  refine ⟨i, ?_⟩
  simp only [projection, List.map_eq_nil_iff, List.filter_eq_nil_iff, beq_iff_eq]
  intro x hx h
  have := hi x hx
  omega

/-- what is decoded from an encoding of a reply -/
theorem reply_decoded {t id b : Bytes} {ns : List NodeInfo}
    (hb : EncodingOf (.dict (replyDict t [(b!"id", .str id), (b!"nodes", .str (joinNodeInfos ns))])) b) (hg : GoString b) :
    ∃ body, IsResponse b t body ∧ body.lookup b!"nodes" = some (.str (joinNodeInfos ns)) := by
  obtain ⟨w, hw1, hw2, hw3⟩ := hb
  obtain ⟨we, rfl⟩ : ∃ we, w = .dict we := by cases hw2 <;> exact ⟨_, rfl⟩
  have henc : Encodable (.dict (replyDict t [(b!"id", .str id), (b!"nodes", .str (joinNodeInfos ns))])) := by
    simp [replyDict, Encodable, EncodableD]
  obtain ⟨b', h1, h2⟩ := C05_dict_before_payload _ we [] henc ⟨hw1, hw2⟩
  have : b' = b := by
    have h3 : EncodeDict (some we) = .ok b := hw3
    rw [h1] at h3; cases h3; rfl
  subst this
  obtain ⟨e, he1, he2⟩ := h2 (by simpa using hg)
  rw [List.append_nil] at he1
  obtain ⟨body, hb1, hb2⟩ := deepEq_lookup_dict he2 (k := b!"r") rfl
  exact ⟨body, ⟨⟨e, _, he1, deepEq_lookup_str he2 rfl, deepEq_lookup_str he2 rfl, hb1⟩, id, deepEq_lookup_str hb2 rfl⟩, deepEq_lookup_str hb2 rfl⟩

/-- **C89: whoever knows a transaction id can add nodes.** At any moment after the crawler has registered a query under number `v`, for every address - not
only the one the query went to - and every list of nodes: a reply from that address with this transaction id and these nodes can come next, and then the
crawler offers exactly these nodes to its table, in their order, and queries those accepted. -/
theorem C89_injection {K : KEnv} {w0 w : World} {H : List (Nat × Event)} (h : History K w0 w H) {port : Int} (h0 : initialTable port = .ok w0.table)
    (hr : w0.reqs = []) {j : Nat} {v : UInt16} (hp : (j, .put (crawlQuery K.nodeId v)) ∈ H) (addr : UDPAddr) {id : Bytes} {ns : List NodeInfo}
    (hns : ∀ n ∈ ns, CompactNode n) {b : Bytes}
    (hb : EncodingOf (.dict (replyDict (txIdText v) [(b!"id", .str id), (b!"nodes", .str (joinNodeInfos ns))])) b) (hg : GoString b) :
    ∃ i new w', History K w0 w' (H ++ new.map fun e => (i, e)) ∧ (∃ O, Oracle.Fair O ∧ (Activity.packet { addr, bytes := b }).trace K O = some new) ∧
      (offered new).map Prod.fst = ns ∧
      (sends new).map Prod.fst = ((offered new).filter (fun x => x.2.isNone)).map (fun x => x.1.addr) := by
  obtain ⟨body, hresp, hnodes⟩ := reply_decoded hb hg
  obtain ⟨s0, -, -, -, -, -, -⟩ := initialTable_sound K.env h0
  have hreach := World.replay_reachable s0.reach h.answers
  have hf := w.oracle_fair K.env []
  obtain ⟨tr, h1, h2⟩ := dhtPacket_response K hf (pkt := { addr, bytes := b }) hresp
  obtain ⟨w', hw'⟩ := replay_oracle hreach (dhtPacket_answered K h1)
  have hl : (w.oracle K.env []).lookup [] (txIdText v) = some (crawlQuery K.nodeId v) := by
    have e : (w.oracle K.env []).lookup [] (txIdText v) = w.reqs.lookup (txIdText v) := by
      simp [World.oracle, World.replay]
    rw [e, replay_lookup h.answers, hr]
    have hmem : crawlQuery K.nodeId v ∈ registered (H.map Prod.snd) := by
      simp only [registered, List.mem_filterMap, List.mem_map]
      exact ⟨_, ⟨_, hp, rfl⟩, rfl⟩
    cases hx : lastRegistered (H.map Prod.snd) (txIdText v) with
    | none =>
      exfalso
      unfold lastRegistered at hx
      rw [List.find?_eq_none] at hx
      exact hx (crawlQuery K.nodeId v) (by simpa using hmem) (by simp [crawlQuery])
    | some r =>
      have ht : r.txId = txIdText v := by simpa using List.find?_some hx
      have hr' := List.mem_of_find?_eq_some hx
      simp only [List.mem_reverse, registered, List.mem_filterMap, List.mem_map] at hr'
      obtain ⟨ev, ⟨⟨k, ev'⟩, hk, rfl⟩, he⟩ := hr'
      cases ev' with
      | put r' =>
        simp only [Option.some.injEq] at he
        subst he
        obtain ⟨v', rfl⟩ := history_puts h hk
        have : v' = v := txIdText_inj ht
        rw [this]; rfl
      | _ => simp at he
  obtain ⟨i, hi⟩ := fresh_goroutine H
  have htrace : (Activity.packet { addr, bytes := b }).trace K (w.oracle K.env []) =
      some (.lookup (txIdText v) ((w.oracle K.env []).lookup [] (txIdText v)) :: tr) := by simp only [Activity.trace, h1]; rfl
  refine ⟨i, _, w', ⟨?_, fun k => ?_⟩, ⟨_, hf, htrace⟩, ?_⟩
  · rw [List.map_append, List.map_map]
    have : (Prod.snd ∘ fun e : Event => (i, e)) = _root_.id := rfl
    rw [this, List.map_id, World.replay_append]
    exact ⟨w, h.answers, hw'⟩
  · by_cases hk : k = i
    · subst hk
      exact ⟨_, _, _, hf, htrace, by rw [projection_append, hi, projection_map_eq]; exact List.prefix_refl _⟩
    · obtain ⟨a, O, t, g1, g2, g3⟩ := h.goroutines k
      exact ⟨a, O, t, g1, g2, by rw [projection_append, projection_map_ne (Ne.symm hk), List.append_nil]; exact g3⟩
  · rcases h2 with ⟨hx, -⟩ | ⟨req, tr', hx, hh, rfl, hrt⟩
    · rw [hl] at hx
      simp [crawlQuery] at hx
    · rw [hl] at hx; cases hx
      rcases hrt with ⟨-, s, ns', hs, hns', hf'⟩ | ⟨-, hno⟩
      · rw [hnodes] at hs; cases hs
        rw [C15_parse_join ns hns] at hns'
        cases hns'
        have z1 : ∀ y (l : List Event), offered (.lookup (txIdText v) y :: .invoke (crawlQuery K.nodeId v)
          (some { txId := txIdText v, body := some body, isErr := false }) addr :: l) = offered l := fun _ _ => rfl
        have z2 : ∀ y (l : List Event), sends (.lookup (txIdText v) y :: .invoke (crawlQuery K.nodeId v)
          (some { txId := txIdText v, body := some body, isErr := false }) addr :: l) = sends l := fun _ _ => rfl
        simp only [z1, z2]
        exact ⟨(C33_queries hf').1, (C33_queries hf').2.1⟩
      · exfalso
        exact hno ⟨rfl, _, hnodes⟩

/-! ## A concrete case -/

/-- in the example history both nodes listed in the response end up in the table -/
theorem exOrigin : ∃ w, History realK realW0 w realH ∧ exNode 1 ∈ w.table.nodes ∧ exNode 2 ∈ w.table.nodes := by
  obtain ⟨-, ⟨w, hw⟩, -⟩ := realH_history
  have h1 : ∀ v, realW0.replay env0 (realH.map Prod.snd) = some v → exNode 1 ∈ v.table.nodes ∧ exNode 2 ∈ v.table.nodes := by
    have : ((realW0.replay env0 (realH.map Prod.snd)).map fun v => decide (exNode 1 ∈ v.table.nodes ∧ exNode 2 ∈ v.table.nodes)) = some true := by
      decide +kernel
    intro v hv
    rw [hv] at this
    simpa using this
  exact ⟨w, hw, h1 w hw.answers⟩

example : ∃ q, Crawled realK realH (exNode 2) q := by
  obtain ⟨w, hw, -, h2⟩ := exOrigin
  rcases C89_origin hw (port := 21000) realH_history.1 rfl h2 with h | h
  · exact absurd h (by decide +kernel)
  · exact h

/-- somebody who was never asked answers the crawler's first query: the example history can go on with the node he chooses -/
example : ∃ i new w', History realK realW0 w' (realH ++ new.map fun e => (i, e)) ∧
    (∃ O, Oracle.Fair O ∧ (Activity.packet { addr := { ip := [6, 6, 6, 6], port := 666 }, bytes :=
      b!"d1:t4:03e91:y1:r1:rd2:id20:aaaaaaaaaaaaaaaaaaaa5:nodes26:" ++ joinNodeInfos [exNode 7] ++ b!"ee" }).trace realK O = some new) ∧
    (offered new).map Prod.fst = [exNode 7] := by
  obtain ⟨h1, ⟨w, hw⟩, -⟩ := realH_history
  obtain ⟨i, new, w', g1, g2, g3, -⟩ := C89_injection hw h1 rfl (j := 0) (v := 1001) (by decide +kernel) { ip := [6, 6, 6, 6], port := 666 }
    (id := exId) (ns := [exNode 7]) (by intro n hn; simp only [List.mem_cons, List.not_mem_nil, or_false] at hn; subst hn; simp [CompactNode, exNode])
    (b := b!"d1:t4:03e91:y1:r1:rd2:id20:aaaaaaaaaaaaaaaaaaaa5:nodes26:" ++ joinNodeInfos [exNode 7] ++ b!"ee")
    ⟨.dict (replyDict (txIdText 1001) [(b!"id", .str exId), (b!"nodes", .str (joinNodeInfos [exNode 7]))]),
      ⟨by decide +kernel, by simp [replyDict, GoVal.WFD, GoVal.WF]⟩, .refl _, by decide +kernel⟩
    (by unfold GoString; decide +kernel)
  exact ⟨i, new, w', g1, g2, g3⟩

/-- what the crawler does for one query -/
def exQueryTrace : List Event := ((Activity.packet { addr := peerAddr, bytes := exAnnounce }).trace realK realO).getD []

/-- hypotheses of `C89_no_bootstrap`: a history in which one query is answered -/
example : (∃ w, History realK realW0 w (exQueryTrace.map fun e => (1, e))) ∧ sends exQueryTrace ≠ [] ∧
    ∀ i e host, (i, e) ∈ exQueryTrace.map (fun e => (1, e)) → ¬ Doing realK (exQueryTrace.map fun e => (1, e)) i (.bootstrap (some host)) := by
  have hs : (realW0.replay env0 ((exQueryTrace.map fun e => (1, e)).map Prod.snd)).isSome = true := by decide +kernel
  obtain ⟨w, hw⟩ := Option.isSome_iff_exists.1 hs
  refine ⟨⟨w, hw, fun i => ?_⟩, by decide +kernel, fun i e host hm hd => ?_⟩
  · by_cases h1 : i = 1
    · subst h1
      refine ⟨.packet { addr := peerAddr, bytes := exAnnounce }, realO, exQueryTrace, fun _ _ h => ⟨h, .refl _⟩, by decide +kernel, ?_⟩
      rw [projection_map_eq]; exact List.prefix_refl _
    · refine ⟨.packet { addr := peerAddr, bytes := [] }, realO, [], fun _ _ h => ⟨h, .refl _⟩, by decide +kernel, ?_⟩
      rw [projection_map_ne (Ne.symm h1)]; simp
  · simp only [List.mem_map, Prod.mk.injEq] at hm
    obtain ⟨-, -, rfl, -⟩ := hm
    obtain ⟨O, tr, hO, ht, hp⟩ := hd
    rw [projection_map_eq] at hp
    have h1 : ∃ d r, exQueryTrace = d :: r ∧ ∀ v, d ≠ .nextTx v := by
      have : (match exQueryTrace with | .dispatch _ _ :: _ => true | _ => false) = true := by decide +kernel
      revert this
      cases exQueryTrace with
      | nil => simp
      | cons d r => cases d <;> simp
    obtain ⟨d, r, hd, hnv⟩ := h1
    rw [hd] at hp
    obtain ⟨tr', ret, h1, h2, h3⟩ := C63_bootstrap realK hO (some host)
    have htr : tr = tr' := by
      simp only [Activity.trace] at ht
      cases ret with
      | true => rw [h2 rfl] at ht; exact (Option.some.inj ht).symm
      | false => obtain ⟨pp, hp⟩ := h3 rfl; rw [hp] at ht; exact (Option.some.inj ht).symm
    subst htr
    cases h1 with
    | contacted a v b f hb =>
      rw [List.cons_prefix_cons] at hp
      exact hnv v hp.1

end P2P

import Verif.Model.Network
import Verif.Props.CutPacket
import Verif.Props.Startup
import Verif.Props.KrpcExamples
/-! # C95: a network of crawlers does not feed itself -/
namespace P2P

/-! ## Specification -/

/-- The bytes, as received, are a response that lists the node `n`. -/
def Lists (b : Bytes) (n : NodeInfo) : Prop :=
  ∃ t body s ns, IsResponse b t body ∧ body.lookup b!"nodes" = some (.str s) ∧ parseNodeInfo s = .ok ns ∧ n ∈ ns

/-- How many datagrams one datagram of a stranger is worth: one, or two for each 26 bytes received. -/
def worth (d : Datagram) : Nat := max 1 (2 * (min d.bytes.length 1024 / 26))

/-! ## Weights -/

open Classical in
/-- how many datagrams the crawlers can still send because of these bytes -/
noncomputable def netWeight (b : Bytes) : Nat :=
  if ∃ d t q, IsQuery b d t q then 1
  else if ∃ t body s, IsResponse b t body ∧ body.lookup b!"nodes" = some (.str s) ∧ 26 ≤ s.length then 2 * (b.length / 26)
  else 0

theorem netWeight_le (b : Bytes) : netWeight b ≤ max 1 (2 * (b.length / 26)) := by
  unfold netWeight; split
  · omega
  · split <;> omega

/-- the two kinds of datagrams crawlers send: the query, -/
def OwnQuery (b : Bytes) : Prop :=
  ∃ t q args, EncodingOf (.dict (queryDict t q args)) b
/-- and the reply, which lists no nodes -/
def OwnReply (b : Bytes) : Prop :=
  (∃ t body, EncodingOf (.dict (replyDict t body)) b ∧ ∀ s, body.lookup b!"nodes" = some (.str s) → s = []) ∨
  ∃ t msg, EncodingOf (.dict [(b!"t", .str t), (b!"y", .str b!"e"), (b!"e", .list [.int 203, .str msg])]) b

theorem ownQuery_cut {b : Bytes} (h : OwnQuery b) (hm : InMemory b) (c : Nat) :
    netWeight (b.take c) ≤ 1 ∧ ∀ t body, ¬ IsResponse (b.take c) t body := by
  obtain ⟨t, q, args, hb⟩ := h
  have hr : ∀ t body, ¬ IsResponse (b.take c) t body := by
    intro t' body h
    obtain ⟨d, n, hdec, hy, -⟩ := h.decodes
    have := (C88_cut hb hm c hdec).lookup_str hy
    have g : (queryDict t q args).lookup b!"y" = some (.str b!"q") := rfl
    rw [g] at this
    exact absurd this (by decide)
  refine ⟨?_, hr⟩
  unfold netWeight; split
  · omega
  · rw [if_neg (fun ⟨t, body, s, h, _⟩ => hr t body h)]; omega

theorem ownReply_cut {b : Bytes} (h : OwnReply b) (hm : InMemory b) (c : Nat) :
    netWeight (b.take c) = 0 ∧ (∀ d t q, ¬ IsQuery (b.take c) d t q) ∧
    ∀ t body s, IsResponse (b.take c) t body → body.lookup b!"nodes" = some (.str s) → s = [] := by
  have key : (∀ d t q, ¬ IsQuery (b.take c) d t q) ∧
      ∀ t body s, IsResponse (b.take c) t body → body.lookup b!"nodes" = some (.str s) → s = [] := by
    rcases h with ⟨t, body, hb, hn⟩ | ⟨t, msg, hb⟩
    · refine ⟨fun d t' q' h => ?_, fun t' body' s h hs => ?_⟩
      · obtain ⟨n, hdec⟩ := h.decodes
        have := (C88_cut hb hm c hdec).lookup_str h.y
        have g : (replyDict t body).lookup b!"y" = some (.str b!"r") := rfl
        rw [g] at this
        exact absurd this (by decide)
      · obtain ⟨d, n, hdec, -, -, hbd⟩ := h.decodes
        obtain ⟨a', h1, h2⟩ := (C88_cut hb hm c hdec).lookup_dict hbd
        have g : (replyDict t body).lookup b!"r" = some (.dict body) := rfl
        rw [g] at h1; cases h1
        exact hn s (h2.lookup_str hs)
    · have g : List.lookup b!"y" [(b!"t", GoVal.str t), (b!"y", .str b!"e"), (b!"e", .list [.int 203, .str msg])] = some (.str b!"e") := rfl
      refine ⟨fun d t' q' h => ?_, fun t' body' s h hs => ?_⟩
      · obtain ⟨n, hdec⟩ := h.decodes
        have := (C88_cut hb hm c hdec).lookup_str h.y
        rw [g] at this
        exact absurd this (by decide)
      · obtain ⟨d, n, hdec, hy, -⟩ := h.decodes
        have := (C88_cut hb hm c hdec).lookup_str hy
        rw [g] at this
        exact absurd this (by decide)
  refine ⟨?_, key⟩
  unfold netWeight
  rw [if_neg (fun ⟨d, t, q, h⟩ => key.1 d t q h), if_neg]
  rintro ⟨t, body, s, h, hs, hl⟩
  rw [key.2 t body s h hs] at hl
  simp at hl

/-- total weight of the datagrams under way -/
noncomputable def flyWeight (l : List Datagram) : Nat := (l.map fun d => netWeight (d.bytes.take 1024)).sum

theorem flyWeight_append (a b : List Datagram) : flyWeight (a ++ b) = flyWeight a + flyWeight b := by simp [flyWeight]
theorem flyWeight_cons (d : Datagram) (b : List Datagram) : flyWeight (d :: b) = netWeight (d.bytes.take 1024) + flyWeight b := by
  simp [flyWeight]

theorem flyWeight_le {k : Nat} : ∀ l : List Datagram, (∀ d ∈ l, netWeight (d.bytes.take 1024) ≤ k) → flyWeight l ≤ k * l.length
  | [], _ => by simp [flyWeight]
  | d :: l, h => by
    have h1 := flyWeight_le l fun d' hd => h d' (List.mem_cons_of_mem _ hd)
    have h2 := h d List.mem_cons_self
    rw [flyWeight_cons, List.length_cons, Nat.mul_succ]; omega

theorem onWire_mem {self : UDPAddr} {tr : List Event} {d : Datagram} (h : d ∈ onWire self tr) :
    (d.dst, d.bytes) ∈ sends tr ∧ InMemory d.bytes := by
  simp only [onWire, List.mem_filterMap] at h
  obtain ⟨e, he, hd⟩ := h
  split at hd
  · split at hd
    · rename_i to b hb
      cases hd
      refine ⟨List.mem_filterMap.2 ⟨_, he, rfl⟩, ?_⟩
      simp only [InMemory]; omega
    · cases hd
  · cases hd

theorem departs_length (self : UDPAddr) (tr : List Event) : (departs self tr).length = (sends tr).length := by
  induction tr with
  | nil => rfl
  | cons e r ih =>
    cases e <;> simpa [departs, sends] using ih

theorem onWire_length (self : UDPAddr) (tr : List Event) : (onWire self tr).length ≤ (sends tr).length := by
  induction tr with
  | nil => simp [onWire, sends]
  | cons e r ih =>
    cases e with
    | send to b f =>
      cases f with
      | true => simp only [onWire, sends, List.filterMap_cons, List.length_cons] at ih ⊢; omega
      | false =>
        simp only [onWire, sends, List.filterMap_cons, List.length_cons] at ih ⊢
        by_cases hb : b.length ≤ 65507
        · simp only [hb, if_true, List.length_cons]; omega
        · simp only [hb, if_false]; omega
    | _ => simpa [onWire, sends] using ih

/-- handling one packet: what is sent and what it can lead to was paid for by the packet -/
theorem handled (K : KEnv) {O : Oracle} (hO : O.Fair) {pkt : RecvPacket} {run : PacketRun} (h : dhtPacket K O pkt = some run)
    (hs : GoString pkt.bytes) (self : UDPAddr) :
    (departs self run.trace).length + flyWeight (onWire self run.trace) ≤ netWeight pkt.bytes ∧
    (∀ d ∈ onWire self run.trace, InMemory d.bytes ∧ (OwnQuery d.bytes ∨ OwnReply d.bytes)) ∧
    ∀ x ∈ offered run.trace, Lists pkt.bytes x.1 := by
  by_cases hq : ∃ d t q, IsQuery pkt.bytes d t q
  · obtain ⟨d, t, q, hq⟩ := hq
    obtain ⟨tr, b, f, reply, h1, ⟨hb, -⟩, h3⟩ := dhtPacket_query K hO hq
    rw [h1] at h; cases h
    have hsend : sends (tr ++ [.send pkt.addr b f]) = [(pkt.addr, b)] := by
      rcases h3 with ⟨-, a, -, rfl, -⟩ | ⟨-, msg, -, rfl | ⟨a, -, rfl⟩, -⟩
      · simp only [answerTrace]; (repeat' split) <;> simp [sends]
      · simp [sends]
      · simp [sends]
    have hoff : offered (tr ++ [.send pkt.addr b f]) = [] := by
      rcases h3 with ⟨-, a, -, rfl, -⟩ | ⟨-, msg, -, rfl | ⟨a, -, rfl⟩, -⟩
      · simp only [answerTrace]; (repeat' split) <;> simp [offered]
      · simp [offered]
      · simp [offered]
    have hown : OwnReply b := by
      rcases h3 with ⟨-, a, -, -, rfl⟩ | ⟨-, msg, -, -, rfl⟩
      · refine .inl ⟨t, _, hb, fun s hl => ?_⟩
        revert hl
        simp only [replyBody]
        split
        · intro hl; exact (GoVal.str.inj (Option.some.inj hl)).symm
        · split
          · intro hl; exact (GoVal.str.inj (Option.some.inj hl)).symm
          · intro hl; exact nomatch (show (none : Option GoVal) = some (.str s) from hl)
      · exact .inr ⟨t, msg, hb⟩
    have hw : ∀ d ∈ onWire self (tr ++ [.send pkt.addr b f]), InMemory d.bytes ∧ d.bytes = b := by
      intro d hd
      obtain ⟨h1, h2⟩ := onWire_mem hd
      rw [hsend] at h1
      simp only [List.mem_singleton, Prod.mk.injEq] at h1
      exact ⟨h2, h1.2⟩
    refine ⟨?_, fun d hd => ⟨(hw d hd).1, .inr (by rw [(hw d hd).2]; exact hown)⟩, by simp [hoff]⟩
    have h0 : flyWeight (onWire self (tr ++ [.send pkt.addr b f])) ≤ 0 * _ := flyWeight_le _ fun d hd => by
      obtain ⟨i, e⟩ := hw d hd
      rw [(ownReply_cut (by rw [e]; exact hown) i 1024).1]; omega
    rw [departs_length, hsend]
    unfold netWeight
    rw [if_pos ⟨d, t, q, hq⟩]
    simp; omega
  · by_cases hr : ∃ t body, IsResponse pkt.bytes t body
    · obtain ⟨t, body, hr⟩ := hr
      obtain ⟨tr, h1, h2⟩ := dhtPacket_response K hO hr
      rw [h1] at h; cases h
      rcases h2 with ⟨-, rfl⟩ | ⟨req, tr', -, -, rfl, ⟨-, s, ns, hl, hp, hf⟩ | ⟨rfl, -⟩⟩
      · simp [departs, onWire, offered, flyWeight]
      · have e1 : ∀ x : Option Response, sends (.lookup t (O.lookup [] t) :: .invoke req x pkt.addr :: tr') = sends tr' := fun _ => rfl
        have e2 : ∀ x : Option Response, offered (.lookup t (O.lookup [] t) :: .invoke req x pkt.addr :: tr') = offered tr' := fun _ => rfl
        have e3 : ∀ x : Option Response, onWire self (.lookup t (O.lookup [] t) :: .invoke req x pkt.addr :: tr') = onWire self tr' := fun _ => rfl
        have hw : ∀ d ∈ onWire self tr', InMemory d.bytes ∧ OwnQuery d.bytes := by
          intro d hd
          obtain ⟨h1, h2⟩ := onWire_mem hd
          obtain ⟨m, -, -, v, hv⟩ := hf.sends_from _ _ h1
          exact ⟨h2, _, _, _, hv⟩
        refine ⟨?_, fun d hd => ?_, fun x hx => ?_⟩
        · rw [departs_length]
          simp only [e1, e3]
          have hlen := (C33_queries hf).2.2.1
          have h0 := flyWeight_le (k := 1) (onWire self tr') fun d hd => (ownQuery_cut (hw d hd).2 (hw d hd).1 1024).1
          have h3 := onWire_length self tr'
          rw [parseNodeInfo_length hp] at hlen
          unfold netWeight
          rw [if_neg hq]
          by_cases h26 : 26 ≤ s.length
          · rw [if_pos ⟨t, body, s, hr, hl, h26⟩]
            obtain ⟨d, n, hd, -, -, hb⟩ := hr.decodes
            have w1 := decodeDict_weight hs hd
            have w2 := weightD_ge [(b!"r", .dict body)] d (by simp) (by simp [hb])
            have w3 := weightD_ge [(b!"nodes", .str s)] body (by simp) (by simp [hl])
            simp only [GoVal.weightD, GoVal.weight, encodeString_length] at w2 w3
            omega
          · rw [if_neg]
            · omega
            · rintro ⟨t', body', s', hr', hl', h'⟩
              obtain ⟨d, n, hd, -, -, hb⟩ := hr.decodes
              obtain ⟨d', n', hd', -, -, hb'⟩ := hr'.decodes
              rw [hd] at hd'; cases hd'
              rw [hb] at hb'; cases hb'
              rw [hl] at hl'; cases hl'
              exact h26 h'
        · rw [e3] at hd
          exact ⟨(hw d hd).1, .inl (hw d hd).2⟩
        · rw [e2] at hx
          refine ⟨t, body, s, ns, hr, hl, hp, ?_⟩
          rw [← (C33_queries hf).1]
          exact List.mem_map.2 ⟨x, hx, rfl⟩
      · simp [departs, onWire, offered, flyWeight]
    · rw [dhtPacket_ignored K O pkt (fun d t q h => hq ⟨d, t, q, h⟩) (fun t b h => hr ⟨t, b, h⟩)] at h
      cases h
      simp [departs, onWire, offered, flyWeight]

/-- a bootstrap: one query at most -/
theorem booted (K : KEnv) {O : Oracle} (hO : O.Fair) {host : Option UDPAddr} {tr : List Event}
    (h : (Activity.bootstrap host).trace K O = some tr) (self : UDPAddr) :
    (departs self tr).length + flyWeight (onWire self tr) ≤ 2 ∧ (onWire self tr).length ≤ 1 ∧
    (∀ d ∈ onWire self tr, InMemory d.bytes ∧ OwnQuery d.bytes) ∧ offered tr = [] := by
  obtain ⟨tr', ret, h1, h2, h3⟩ := C63_bootstrap K hO host
  have htr : tr = tr' := by
    simp only [Activity.trace] at h
    cases ret with
    | true => rw [h2 rfl] at h; exact (Option.some.inj h).symm
    | false => obtain ⟨pp, hp⟩ := h3 rfl; rw [hp] at h; exact (Option.some.inj h).symm
  subst htr
  have hw : ∀ d ∈ onWire self tr, InMemory d.bytes ∧ OwnQuery d.bytes := by
    intro d hd
    obtain ⟨m1, m2⟩ := onWire_mem hd
    refine ⟨m2, ?_⟩
    cases h1 with
    | unresolved v => simp [sends] at m1
    | contacted a v b f hb =>
      simp only [sends, List.filterMap_cons, List.filterMap_nil, List.mem_singleton, Prod.mk.injEq] at m1
      rw [m1.2]; exact ⟨_, _, _, hb⟩
  have hl : (sends tr).length ≤ 1 ∧ offered tr = [] := by cases h1 <;> simp [sends, offered]
  have h0 := flyWeight_le (k := 1) (onWire self tr) fun d hd => (ownQuery_cut (hw d hd).2 (hw d hd).1 1024).1
  have h3 := onWire_length self tr
  rw [departs_length]
  exact ⟨by omega, by omega, hw, hl.2⟩

/-! ## The invariant -/

structure NetInv (s : NetSt) : Prop where
  paid : s.sent.length + flyWeight s.flying ≤ 2 * s.boots + (s.outside.map fun d => netWeight (d.bytes.take 1024)).sum
  kinds : ∀ d ∈ s.flying, d ∈ s.outside ∨ InMemory d.bytes ∧ (OwnQuery d.bytes ∨ OwnReply d.bytes)
  learned : ∀ n ∈ s.learned, ∃ d ∈ s.outside, Lists (d.bytes.take 1024) n

theorem own_lists_nothing {b : Bytes} (hm : InMemory b) (h : OwnQuery b ∨ OwnReply b) (c : Nat) (n : NodeInfo) : ¬ Lists (b.take c) n := by
  rintro ⟨t, body, s, ns, hr, hl, hp, hn⟩
  rcases h with h | h
  · exact (ownQuery_cut h hm c).2 t body hr
  · rw [(ownReply_cut h hm c).2.2 t body s hr hl] at hp
    have e := parseNodeInfo_length hp
    simp at e; subst e; simp at hn

theorem cut_goString (b : Bytes) : GoString (b.take 1024) := by
  simp only [GoString, List.length_take]; omega

theorem net_inv {crawlers : UDPAddr → Option KEnv} {s : NetSt} (h : Reach NetInit (NetStep crawlers) s) : NetInv s := by
  refine Reach.inv _ ?_ ?_ h
  · rintro s rfl
    exact ⟨by simp [flyWeight], by simp, by simp⟩
  · intro s s' I hs
    cases hs with
    | inject d =>
      refine ⟨?_, ?_, ?_⟩
      · have := I.paid
        simp only [flyWeight_append, flyWeight_cons, List.map_append, List.sum_append, List.map_cons, List.map_nil, List.sum_cons, List.sum_nil]
        simp only [flyWeight, List.map_nil, List.sum_nil] at this ⊢; omega
      · intro d' hd
        rcases List.mem_append.1 hd with hd | hd
        · rcases I.kinds d' hd with h | h
          · exact .inl (List.mem_append_left _ h)
          · exact .inr h
        · exact .inl (List.mem_append_right _ hd)
      · intro n hn
        obtain ⟨d', h1, h2⟩ := I.learned n hn
        exact ⟨d', List.mem_append_left _ h1, h2⟩
    | lose a b d hf =>
      refine ⟨?_, ?_, I.learned⟩
      · have := I.paid
        rw [hf, flyWeight_append, flyWeight_cons] at this
        simp only [flyWeight_append]; omega
      · intro d' hd
        refine I.kinds d' ?_
        rw [hf]
        rcases List.mem_append.1 hd with hd | hd <;> simp [hd]
    | deliver a b d K O run hf hK hO hrun =>
      obtain ⟨h1, h2, h3⟩ := handled K hO hrun (cut_goString _) d.dst
      have hd : d ∈ s.flying := by rw [hf]; simp
      refine ⟨?_, ?_, ?_⟩
      · have := I.paid
        rw [hf, flyWeight_append, flyWeight_cons] at this
        simp only [flyWeight_append, List.length_append]
        simp only [RecvPacketLen] at h1
        omega
      · intro d' hd'
        rcases List.mem_append.1 hd' with hd' | hd'
        · refine I.kinds d' ?_
          rw [hf]
          rcases List.mem_append.1 hd' with hd' | hd' <;> simp [hd']
        · exact .inr (h2 d' hd')
      · intro n hn
        rcases List.mem_append.1 hn with hn | hn
        · exact I.learned n hn
        · obtain ⟨x, hx, rfl⟩ := List.mem_map.1 hn
          have hx := h3 x hx
          rcases I.kinds d hd with ho | ⟨hm, ho⟩
          · exact ⟨d, ho, hx⟩
          · exact absurd hx (own_lists_nothing hm ho _ _)
    | boot self K O host tr hK hO htr =>
      obtain ⟨h1, -, h2, h3⟩ := booted K hO htr self
      refine ⟨?_, ?_, ?_⟩
      · have := I.paid
        simp only [flyWeight_append, List.length_append]; omega
      · intro d' hd'
        rcases List.mem_append.1 hd' with hd' | hd'
        · exact I.kinds d' hd'
        · exact .inr ⟨(h2 d' hd').1, .inl (h2 d' hd').2⟩
      · intro n hn
        rw [h3] at hn
        simp only [List.map_nil, List.append_nil] at hn
        exact I.learned n hn

/-! ## Theorems -/

/-- **C95** However many crawlers there are and whatever happens on the network: together they have never sent more than two datagrams for each
bootstrap, one for each datagram from outside, or two per 26 bytes of it. -/
theorem C95_bound {crawlers : UDPAddr → Option KEnv} {s : NetSt} (h : Reach NetInit (NetStep crawlers) s) :
    s.sent.length ≤ 2 * s.boots + (s.outside.map worth).sum := by
  have h1 := (net_inv h).paid
  have h2 : ∀ l : List Datagram, (l.map fun d => netWeight (d.bytes.take 1024)).sum ≤ (l.map worth).sum := by
    intro l
    induction l with
    | nil => simp
    | cons d r ih =>
      have := netWeight_le (d.bytes.take 1024)
      simp only [List.map_cons, List.sum_cons, worth]
      simp only [List.length_take] at this
      rw [Nat.min_comm 1024] at this
      omega
  have := h2 s.outside
  omega

/-- **C95** Every node that a crawler offers to its route table was listed in a datagram that did not come from a crawler. -/
theorem C95_learned {crawlers : UDPAddr → Option KEnv} {s : NetSt} (h : Reach NetInit (NetStep crawlers) s) :
    ∀ n ∈ s.learned, ∃ d ∈ s.outside, Lists (d.bytes.take 1024) n := (net_inv h).learned

/-- **C95** Crawlers alone learn nothing from each other: two datagrams per bootstrap, and no node is ever offered to a table. -/
theorem C95_closed {crawlers : UDPAddr → Option KEnv} {s : NetSt} (h : Reach NetInit (NetStep crawlers) s) (ho : s.outside = []) :
    s.sent.length ≤ 2 * s.boots ∧ s.learned = [] := by
  have h1 := C95_bound h
  have h2 := C95_learned h
  rw [ho] at h1 h2
  refine ⟨by simpa using h1, ?_⟩
  cases hl : s.learned with
  | nil => rfl
  | cons n r => obtain ⟨d, hd, -⟩ := h2 n (by rw [hl]; simp); simp at hd

/-- **C95** Strangers who never send a response make the crawlers send one datagram per datagram, and teach them nothing. -/
theorem C95_queries_only {crawlers : UDPAddr → Option KEnv} {s : NetSt} (h : Reach NetInit (NetStep crawlers) s)
    (ho : ∀ d ∈ s.outside, ∀ t body, ¬ IsResponse (d.bytes.take 1024) t body) :
    s.sent.length ≤ 2 * s.boots + s.outside.length ∧ s.learned = [] := by
  have h1 := (net_inv h).paid
  have h2 := C95_learned h
  refine ⟨?_, ?_⟩
  · have h3 : ∀ l : List Datagram, (∀ d ∈ l, ∀ t body, ¬ IsResponse (d.bytes.take 1024) t body) →
        (l.map fun d => netWeight (d.bytes.take 1024)).sum ≤ l.length := by
      intro l
      induction l with
      | nil => simp
      | cons d r ih =>
        intro hr
        have i1 := ih fun d' hd => hr d' (List.mem_cons_of_mem _ hd)
        have i2 : netWeight (d.bytes.take 1024) ≤ 1 := by
          unfold netWeight; split
          · omega
          · rw [if_neg (fun ⟨t, body, s, h, _⟩ => hr d List.mem_cons_self t body h)]; omega
        simp only [List.map_cons, List.sum_cons, List.length_cons]; omega
    have := h3 s.outside ho
    omega
  · cases hl : s.learned with
    | nil => rfl
    | cons n r =>
      obtain ⟨d, hd, t, body, s', ns, hr, -⟩ := h2 n (by rw [hl]; simp)
      exact absurd hr (ho d hd t body)

/-- **C95** The traffic dies out by itself: there is no infinite execution in which from some moment on nobody bootstraps and nothing comes from
outside. -/
theorem C95_dies_out {crawlers : UDPAddr → Option KEnv} (e : Nat → NetSt) (hs : ∀ i, NetStep crawlers (e i) (e (i + 1))) (N : Nat) :
    ∃ i, N ≤ i ∧ ((e i).outside ≠ (e N).outside ∨ (e i).boots ≠ (e N).boots) := by
  refine Classical.byContradiction fun hno => ?_
  have hst : ∀ i, N ≤ i → (e i).outside = (e N).outside ∧ (e i).boots = (e N).boots := by
    intro i hi
    refine ⟨Classical.byContradiction fun h => hno ⟨i, hi, .inl h⟩, Classical.byContradiction fun h => hno ⟨i, hi, .inr h⟩⟩
  have hdec : ∀ i, N ≤ i → (e (i + 1)).flying.length + flyWeight (e (i + 1)).flying + 1 ≤ (e i).flying.length + flyWeight (e i).flying := by
    intro i hi
    have hout := (hst i hi).1.trans (hst (i + 1) (by omega)).1.symm
    have hboot := (hst i hi).2.trans (hst (i + 1) (by omega)).2.symm
    have hstep := hs i
    generalize e i = s at *
    generalize e (i + 1) = s' at *
    cases hstep with
    | inject d =>
      have := congrArg List.length hout
      simp at this
    | lose a b d hf =>
      rw [hf]
      simp only [flyWeight_append, flyWeight_cons, List.length_append, List.length_cons]; omega
    | deliver a b d K O run hf hK hO hrun =>
      obtain ⟨h1, -, -⟩ := handled K hO hrun (cut_goString _) d.dst
      have h2 := onWire_length d.dst run.trace
      rw [departs_length] at h1
      simp only [RecvPacketLen] at h1
      rw [hf]
      simp only [flyWeight_append, flyWeight_cons, List.length_append, List.length_cons]; omega
    | boot self K O host tr hK hO htr => simp at hboot
  have : ∀ k, (e (N + k)).flying.length + flyWeight (e (N + k)).flying + k ≤ (e N).flying.length + flyWeight (e N).flying := by
    intro k
    induction k with
    | zero => simp
    | succ k ih =>
      have := hdec (N + k) (by omega)
      rw [show N + (k + 1) = N + k + 1 by omega]; omega
  have := this ((e N).flying.length + flyWeight (e N).flying + 1)
  omega

/-! ## Concrete cases -/

/-- two crawlers -/
def exNetA : UDPAddr := (exNode 1).addr
def exNetB : UDPAddr := (exNode 2).addr
def exNet (a : UDPAddr) : Option KEnv := if a = exNetA ∨ a = exNetB then some exK else none

/-- a trace as computed -/
def exTrace (a : Activity) : List Event := (a.trace exK exO).getD []

/-- the query A sends to B when it bootstraps, and B's reply -/
def exNetQ : Datagram := ((onWire exNetA (exTrace (.bootstrap (some exNetB))))[0]?).getD ⟨exNetA, exNetA, []⟩
def exNetRun (d : Datagram) : PacketRun :=
  (dhtPacket exK exO { addr := d.src, bytes := d.bytes.take RecvPacketLen }).getD { trace := [], recycled := [], escaped := none }
def exNetR : Datagram := ((onWire exNetB (exNetRun exNetQ).trace)[0]?).getD ⟨exNetA, exNetA, []⟩

/-- **C95** The bound is reached: A bootstraps from B, B answers, A ignores the empty list; two datagrams, then silence. -/
theorem C95_two_crawlers : ∃ s, Reach NetInit (NetStep exNet) s ∧ s.boots = 1 ∧ s.outside = [] ∧ s.sent.length = 2 ∧ s.flying = [] := by
  have r0 : Reach NetInit (NetStep exNet) { flying := [], sent := [], outside := [], boots := 0, learned := [] } := .init rfl
  have r1 := r0.step (.boot _ exNetA exK exO (some exNetB) (exTrace (.bootstrap (some exNetB))) (if_pos (by decide +kernel)) exO_fair (by decide +kernel))
  have e1 : onWire exNetA (exTrace (.bootstrap (some exNetB))) = [exNetQ] := by decide +kernel
  have r2 := r1.step (.deliver _ [] [] exNetQ exK exO (exNetRun exNetQ) e1 (if_pos (by decide +kernel)) exO_fair (by decide +kernel))
  have e2 : onWire exNetQ.dst (exNetRun exNetQ).trace = [exNetR] := by decide +kernel
  have r3 := r2.step (.deliver _ [] [] exNetR exK exO (exNetRun exNetR) e2 (if_pos (by decide +kernel)) exO_fair (by decide +kernel))
  exact ⟨_, r3, rfl, rfl, by decide +kernel, by decide +kernel⟩

/-- somebody answers A's query with a list of two nodes, A itself and B: A offers both to its table and queries both -/
def exNetO : Datagram := { src := peerAddr, dst := exNetA, bytes := exResp }

theorem C95_outsider : ∃ s, Reach NetInit (NetStep exNet) s ∧ s.outside = [exNetO] ∧ worth exNetO = 8 ∧ s.boots = 0 ∧ s.sent.length = 2 ∧
    s.learned = exNodes ∧ s.flying.map Datagram.dst = [exNetA, exNetB] := by
  have r0 : Reach NetInit (NetStep exNet) { flying := [], sent := [], outside := [], boots := 0, learned := [] } := .init rfl
  have r1 := r0.step (.inject _ exNetO)
  have r2 := r1.step (.deliver _ [] [] exNetO exK exO (exNetRun exNetO) rfl (if_pos (by decide +kernel)) exO_fair (by decide +kernel))
  exact ⟨_, r2, rfl, by decide +kernel, rfl, by decide +kernel, by decide +kernel, by decide +kernel⟩

end P2P

import Verif.Model.Local
import Verif.Props.Sha1
import Verif.Props.Identity
import Verif.Props.StartupSend
import Verif.Props.RouteTableFull
/-! # C82: how far a crawl can get -/
namespace P2P
open RouteTable

/-! ## Address texts -/

/-- digits, dots and colons -/
def NumText (s : Bytes) : Prop := ∀ c ∈ s, (48 ≤ c.toNat ∧ c.toNat ≤ 57) ∨ c = 46 ∨ c = 58

theorem numText_natDec (n : Nat) : NumText (natDec n) := by
  intro c hc
  have := isDigit_iff.1 (natDec_digit hc)
  exact .inl this

theorem equalFold_numText {fold : FoldTable} {s t : Bytes} (hs : NumText s) (ht : NumText t) (h : equalFold fold s t = true) : s = t := by
  have asc : ∀ {s : Bytes}, NumText s → ∀ c ∈ s, c.toNat < 64 := by
    intro s hs c hc
    rcases hs c hc with h | rfl | rfl
    · omega
    · decide
    · decide
  have plain : ∀ {s : Bytes}, NumText s → PlainId s := by
    intro s hs c hc
    refine .inl ?_
    have := asc hs c hc
    unfold Ascii
    simp only [UInt8.lt_iff_toNat_lt, UInt8.reduceToNat]; omega
  unfold equalFold runes at h
  rw [runes_plain (plain hs) _ (Nat.le_refl _), runes_plain (plain ht) _ (Nat.le_refl _)] at h
  have as := asc hs
  have at' := asc ht
  clear hs ht asc plain
  induction s generalizing t with
  | nil => cases t with
    | nil => rfl
    | cons b t => simp [foldRunes] at h
  | cons a s ih =>
    cases t with
    | nil => simp [foldRunes] at h
    | cons b t =>
      simp only [List.map_cons, foldRunes, Bool.and_eq_true] at h
      have h1 : a = b := by
        have ha := as a (by simp)
        have hb := at' b (by simp)
        have ha' : a < 0x80 := by simp only [UInt8.lt_iff_toNat_lt, UInt8.reduceToNat]; omega
        have hb' : b < 0x80 := by simp only [UInt8.lt_iff_toNat_lt, UInt8.reduceToNat]; omega
        have h := h.1
        simp only [byteRune, ha', hb', if_true, foldRune] at h
        rw [← UInt8.toNat_inj]
        by_cases hab : a.toNat = b.toNat
        · exact hab
        · rw [if_neg hab, if_pos (by omega)] at h
          simp at h
          omega
      rw [h1, ih h.2 (fun c hc => as c (by simp [hc])) (fun c hc => at' c (by simp [hc]))]

theorem split_at_sep {sep : UInt8} {a b a' b' : Bytes} (ha : sep ∉ a) (ha' : sep ∉ a') (h : a ++ sep :: b = a' ++ sep :: b') : a = a' ∧ b = b' := by
  induction a generalizing a' with
  | nil =>
    cases a' with
    | nil => simp at h; exact ⟨rfl, h⟩
    | cons x a' =>
      simp only [List.nil_append, List.cons_append, List.cons.injEq] at h
      exact absurd (by rw [h.1]; simp) ha'
  | cons y a ih =>
    cases a' with
    | nil =>
      simp only [List.nil_append, List.cons_append, List.cons.injEq] at h
      exact absurd (by rw [h.1]; simp) ha
    | cons x a' =>
      simp only [List.cons_append, List.cons.injEq] at h
      obtain ⟨h1, h2⟩ := ih (fun hm => ha (by simp [hm])) (fun hm => ha' (by simp [hm])) h.2
      exact ⟨by rw [h.1, h1], h2⟩

theorem dot_notin_natDec (n : Nat) : (46 : UInt8) ∉ natDec n := by
  intro h
  have := isDigit_iff.1 (natDec_digit h)
  simp at this

theorem colon_notin_natDec (n : Nat) : (58 : UInt8) ∉ natDec n := by
  intro h
  have := isDigit_iff.1 (natDec_digit h)
  simp at this

theorem dotted4 (a b c d : UInt8) :
    dotted [a, b, c, d] = natDec a.toNat ++ 46 :: (natDec b.toNat ++ 46 :: (natDec c.toNat ++ 46 :: natDec d.toNat)) := by
  simp [dotted, List.intercalate, List.intersperse]

theorem list4 {ip : Bytes} (h : ip.length = 4) : ∃ a b c d, ip = [a, b, c, d] := by
  match ip, h with
  | [a, b, c, d], _ => exact ⟨a, b, c, d, rfl⟩

theorem dotted4_inj {x y : Bytes} (hx : x.length = 4) (hy : y.length = 4) (h : dotted x = dotted y) : x = y := by
  obtain ⟨a, b, c, d, rfl⟩ := list4 hx
  obtain ⟨a', b', c', d', rfl⟩ := list4 hy
  rw [dotted4, dotted4] at h
  obtain ⟨h1, h⟩ := split_at_sep (dot_notin_natDec _) (dot_notin_natDec _) h
  obtain ⟨h2, h⟩ := split_at_sep (dot_notin_natDec _) (dot_notin_natDec _) h
  obtain ⟨h3, h4⟩ := split_at_sep (dot_notin_natDec _) (dot_notin_natDec _) h
  have e1 := UInt8.toNat_inj.1 (natDec_inj h1)
  have e2 := UInt8.toNat_inj.1 (natDec_inj h2)
  have e3 := UInt8.toNat_inj.1 (natDec_inj h3)
  have e4 := UInt8.toNat_inj.1 (natDec_inj h4)
  subst e1 e2 e3 e4; rfl

/-- an IPv4 address and port as text -/
theorem addrString_v4 (env : Env) {a : UDPAddr} (h : a.ip.length = 4) (hp : 0 ≤ a.port) (hz : a.zone = []) :
    addrString env a = dotted a.ip ++ 58 :: natDec a.port.toNat := by
  have h4 : to4 a.ip = a.ip := by simp [to4, h]
  have hne : to4 a.ip ≠ [] := by rw [h4]; intro h0; rw [h0] at h; simp at h
  have hc : (58 : UInt8) ∉ dotted a.ip := fun hm => (plain_dotted _ _ hm).1 rfl
  have hi : itoa a.port = natDec a.port.toNat := by
    cases hport : a.port with
    | ofNat n => rfl
    | negSucc n => rw [hport] at hp; exact absurd hp (by simp [Int.negSucc_not_nonneg])
  simp only [addrString, ipString_v4 env _ hne, h4, hz, if_true, hc, if_false, hi]
  simp

theorem numText_v4 (env : Env) {a : UDPAddr} (h : a.ip.length = 4) (hp : 0 ≤ a.port) (hz : a.zone = []) : NumText (addrString env a) := by
  rw [addrString_v4 env h hp hz]
  obtain ⟨x, y, z, w, e⟩ := list4 h
  rw [e, dotted4]
  intro c hc
  simp only [List.mem_append, List.mem_cons] at hc
  rcases hc with (hc | rfl | hc | rfl | hc | rfl | hc) | rfl | hc
  all_goals first | exact numText_natDec _ c hc | simp

/-- C82: nodes with IPv4 addresses that the table takes for the same have the same address. -/
theorem C82_same_address {env : Env} {m n : NodeInfo} (hm : CompactNode m) (hn : CompactNode n) (h : m.Equals env n = true) : m.addr = n.addr := by
  unfold NodeInfo.Equals at h
  simp only [Bool.and_eq_true] at h
  have e := equalFold_numText (numText_v4 env hm.2.1 hm.2.2.1.1 hm.2.2.2) (numText_v4 env hn.2.1 hn.2.2.1.1 hn.2.2.2) h.2
  rw [addrString_v4 env hm.2.1 hm.2.2.1.1 hm.2.2.2, addrString_v4 env hn.2.1 hn.2.2.1.1 hn.2.2.2] at e
  obtain ⟨h1, h2⟩ := split_at_sep (fun hx => (plain_dotted _ _ hx).1 rfl) (fun hx => (plain_dotted _ _ hx).1 rfl) e
  have h3 := dotted4_inj hm.2.1 hn.2.1 h1
  have h4 := natDec_inj h2
  have h5 : m.addr.port = n.addr.port := by
    have := hm.2.2.1.1
    have := hn.2.2.1.1
    omega
  have hz := hm.2.2.2.trans hn.2.2.2.symm
  cases hma : m.addr; cases hna : n.addr
  simp only [hma, hna] at h3 h5 hz
  rw [h3, h5, hz]

/-- the crawler's own node, listening on ":port", is no IPv4 node -/
theorem host_not_equals {env : Env} {id : Bytes} {port : Int} {n : NodeInfo} (hn : CompactNode n) (hp : 0 ≤ port) :
    ({ id, addr := { ip := [], port } } : NodeInfo).Equals env n = false := by
  cases h : ({ id, addr := { ip := [], port } } : NodeInfo).Equals env n with
  | false => rfl
  | true =>
    exfalso
    unfold NodeInfo.Equals at h
    simp only [Bool.and_eq_true] at h
    have hi : itoa port = natDec port.toNat := by
      cases hport : port with
      | ofNat n => rfl
      | negSucc n => rw [hport] at hp; exact absurd hp (by simp [Int.negSucc_not_nonneg])
    have e0 : addrString env { ip := [], port } = [] ++ 58 :: natDec port.toNat := by
      simp [addrString, ipString, hi]
    have hnum : NumText (addrString env { ip := [], port }) := by
      rw [e0]
      intro c hc
      simp only [List.nil_append, List.mem_cons] at hc
      rcases hc with rfl | hc
      · simp
      · exact numText_natDec _ c hc
    have e := equalFold_numText hnum (numText_v4 env hn.2.1 hn.2.2.1.1 hn.2.2.2) h.2
    rw [e0, addrString_v4 env hn.2.1 hn.2.2.1.1 hn.2.2.2] at e
    obtain ⟨h1, -⟩ := split_at_sep (by simp) (fun hx => (plain_dotted _ _ hx).1 rfl) e
    obtain ⟨x, y, z, w, e'⟩ := list4 hn.2.1
    rw [e', dotted4] at h1
    simp at h1

/-! ## What a sequence of interactions leaves in the table -/

/-- The host is stored, and the table has at most as many buckets as its id has bits. -/
structure Sound (env : Env) (t : RouteTable) : Prop where
  reach : Reachable env t
  host : t.hnode ∈ t.nodes
  cap : t.capacity ≤ 8 * t.hnode.id.length

theorem Sound.add {env : Env} {t t' : RouteTable} {n : NodeInfo} {e : Option Bytes} (h : Sound env t) (ha : t.AddNode env n = .ok (t', e)) :
    Sound env t' ∧ (∀ m ∈ t.nodes, m ∈ t'.nodes) ∧ (∀ m ∈ t'.nodes, m ∈ t.nodes ∨ m = n) ∧ t.last ≤ t'.last ∧
      t'.k = t.k ∧ t'.capacity = t.capacity ∧ t'.hnode = t.hnode := by
  obtain ⟨t1, e1, h1, hs⟩ := AddNode_spec h.reach.inv n
  rw [h1] at ha
  cases ha
  have hsub := (C20_never_evicted h.reach h1).1
  refine ⟨⟨.add h.reach h1, by rw [hs.hnode]; exact hsub _ h.host, by rw [hs.capacity, hs.hnode]; exact h.cap⟩, hsub, ?_, hs.last, hs.k, hs.capacity, hs.hnode⟩
  intro m hm
  rcases hs.nodes with hp | hp
  · exact .inl (hp.mem_iff.1 hm)
  · rcases List.mem_cons.1 (hp.mem_iff.1 hm) with h | h
    · exact .inr h
    · exact .inl h

theorem has_mem {env : Env} {t : RouteTable} {n : NodeInfo} (h : Reachable env t) (hh : t.Has env n) : ∃ m ∈ t.nodes, m.Equals env n = true := by
  obtain ⟨m, h1, h2⟩ := hh
  exact ⟨m, mem_nodes.2 ⟨_, t.place_le n.id, h1⟩, h2⟩

/-- what an interaction does to the table -/
theorem World.apply_table {env : Env} {w w' : World} {e : Event} (h : w.apply env e = some w') :
    (∃ n x, e = .addNode n x ∧ w.table.AddNode env n = .ok (w'.table, x)) ∨ ((∀ n x, e ≠ .addNode n x) ∧ w'.table = w.table) := by
  cases e with
  | addNode n x =>
    left
    simp only [World.apply] at h
    split at h
    · rename_i t' e' ha
      split at h
      · rename_i hx; cases h; exact ⟨n, x, rfl, by rw [ha, hx]⟩
      · cases h
    · cases h
  | lookup t f => right; simp only [World.apply] at h; split at h <;> cases h; simp
  | nextTx v => right; simp only [World.apply] at h; split at h <;> cases h; simp
  | put r => right; simp only [World.apply, Option.some.injEq] at h; subst h; simp
  | send _ _ _ => right; simp only [World.apply, Option.some.injEq] at h; subst h; simp
  | enqueue _ => right; simp only [World.apply, Option.some.injEq] at h; subst h; simp
  | record _ => right; simp only [World.apply, Option.some.injEq] at h; subst h; simp
  | dispatch _ _ => right; simp only [World.apply, Option.some.injEq] at h; subst h; simp
  | invoke _ _ _ => right; simp only [World.apply, Option.some.injEq] at h; subst h; simp

/-- Whatever is accepted has a stored node that counts as the same, except for at most one node. -/
theorem replay_accepted {env : Env} {tr : List Event} {w w' : World} (hs : Sound env w.table) (h : w.replay env tr = some w') :
    Sound env w'.table ∧ w'.table.k = w.table.k ∧ w'.table.capacity = w.table.capacity ∧ w'.table.hnode = w.table.hnode ∧
    (∀ m ∈ w.table.nodes, m ∈ w'.table.nodes) ∧
    (∀ m ∈ w'.table.nodes, m ∈ w.table.nodes ∨ ∃ x, .addNode m x ∈ tr) ∧
    ∃ D : List NodeInfo, D.length ≤ 1 ∧ (w.table.last = w.table.capacity → D = []) ∧
      ∀ n, .addNode n none ∈ tr → (∃ m ∈ w'.table.nodes, m.Equals env n = true) ∨ n ∈ D := by
  induction tr generalizing w with
  | nil => cases h; exact ⟨hs, rfl, rfl, rfl, fun m hm => hm, fun m hm => .inl hm, [], by simp, by simp, by simp⟩
  | cons e tr ih =>
    simp only [World.replay] at h
    cases ha : w.apply env e with
    | none => rw [ha] at h; cases h
    | some v =>
      rw [ha] at h
      simp only at h
      rcases World.apply_table ha with ⟨n, x, rfl, hadd⟩ | ⟨hne, ht⟩
      · obtain ⟨s1, s2, s3, s4, s5, s6, s7⟩ := hs.add hadd
        obtain ⟨i1, i2, i3, i4, i5, i6, D, i7, i8, i9⟩ := ih s1 h
        have low : ∀ m ∈ w.table.nodes, m ∈ w'.table.nodes := fun m hm => i5 m (s2 m hm)
        have up : ∀ m ∈ w'.table.nodes, m ∈ w.table.nodes ∨ ∃ y, .addNode m y ∈ Event.addNode n x :: tr := by
          intro m hm
          rcases i6 m hm with h | ⟨y, h⟩
          · rcases s3 m h with h | rfl
            · exact .inl h
            · exact .inr ⟨x, by simp⟩
          · exact .inr ⟨y, by simp [h]⟩
        refine ⟨i1, i2.trans s5, i3.trans s6, i4.trans s7, low, up, ?_⟩
        cases x with
        | some msg =>
          refine ⟨D, i7, fun hl => i8 ?_, ?_⟩
          · have := (C21_error hs.reach hadd).1
            rw [this]; exact hl
          · intro m hm
            simp only [List.mem_cons, Event.addNode.injEq, reduceCtorEq, and_false, false_or] at hm
            exact i9 m hm
        | none =>
          have hcases : v.table.Has env n ∨ (w.table.last < v.table.last ∧ v.table.last = v.table.capacity) := by
            rcases C21_nil_stored hs.reach hs.host hs.cap hadd with h1 | ⟨h1, -⟩
            · exact .inl h1
            · rcases C21_nil hs.reach hadd with h2 | ⟨h2, -⟩
              · exact .inl h2
              · exact .inr ⟨h2, h1⟩
          rcases hcases with hh | ⟨hlt, hcap⟩
          · refine ⟨D, i7, fun hl => i8 ?_, ?_⟩
            · have h1 := s4
              have h2 := (C19_structure s1.reach).1
              omega
            · intro m hm
              simp only [List.mem_cons, Event.addNode.injEq, and_true] at hm
              rcases hm with rfl | hm
              · obtain ⟨y, h1, h2⟩ := has_mem s1.reach hh
                exact .inl ⟨y, i5 y h1, h2⟩
              · exact i9 m hm
          · have hD := i8 hcap
            subst hD
            refine ⟨[n], by simp, fun hl => ?_, ?_⟩
            · have h2 := (C19_structure s1.reach).1
              omega
            · intro m hm
              simp only [List.mem_cons, Event.addNode.injEq, and_true] at hm
              rcases hm with rfl | hm
              · simp
              · rcases i9 m hm with h | h
                · exact .inl h
                · simp at h
      · rw [← ht] at hs
        obtain ⟨i1, i2, i3, i4, i5, i6, D, i7, i8, i9⟩ := ih hs h
        rw [ht] at i2 i3 i4 i5 i6 i8
        refine ⟨i1, i2, i3, i4, i5, ?_, D, i7, i8, ?_⟩
        · intro m hm
          rcases i6 m hm with h | ⟨y, h⟩
          · exact .inl h
          · exact .inr ⟨y, by simp [h]⟩
        · intro m hm
          rcases List.mem_cons.1 hm with h | h
          · exact absurd h.symm (hne _ _)
          · exact i9 m h

/-! ## Histories -/

theorem Fanout.added {nodeId : Bytes} {ns : List NodeInfo} {tr : List Event} (h : Fanout nodeId ns tr) {n : NodeInfo} {x : Option Bytes}
    (hm : .addNode n x ∈ tr) : n ∈ ns := by
  induction h with
  | nil => simp at hm
  | refused _ ih =>
    simp only [List.mem_cons, Event.addNode.injEq] at hm
    rcases hm with ⟨rfl, -⟩ | hm
    · simp
    · exact List.mem_cons_of_mem _ (ih hm)
  | accepted _ _ ih =>
    simp only [List.mem_cons, Event.addNode.injEq, reduceCtorEq, false_or] at hm
    rcases hm with ⟨rfl, -⟩ | hm
    · simp
    · exact List.mem_cons_of_mem _ (ih hm)

/-- The nodes an activity offers to the table are IPv4 nodes listed in the response it handles; a datagram is a reply to the query handled, goes to the host
of a bootstrap, or goes to a node the table has accepted just before. -/
theorem activity_crawl (K : KEnv) {O : Oracle} (hO : O.Fair) (a : Activity) {tr : List Event} (h : a.trace K O = some tr) :
    (∀ n x, .addNode n x ∈ tr → CompactNode n) ∧
    ∀ p q to b f, tr = p ++ .send to b f :: q →
      (∃ pkt d t qt, a = .packet pkt ∧ IsQuery pkt.bytes d t qt ∧ to = pkt.addr) ∨ a = .bootstrap (some to) ∨
      ∃ n, .addNode n none ∈ p ∧ to = n.addr := by
  cases a with
  | packet pkt =>
    have h' := h
    simp only [Activity.trace, Option.map_eq_some_iff] at h
    obtain ⟨run, hrun, rfl⟩ := h
    by_cases hq : ∃ d t q, IsQuery pkt.bytes d t q
    · obtain ⟨d, t, qt, hq⟩ := hq
      obtain ⟨tr, b', f', reply, h1, -, h3⟩ := dhtPacket_query K hO hq
      rw [h1] at hrun; cases hrun
      refine ⟨fun n x hm => ?_, fun p q to b f e => .inl ?_⟩
      · exfalso
        revert hm
        rcases h3 with ⟨-, a, -, rfl, -⟩ | ⟨-, msg, -, rfl | ⟨a, -, rfl⟩, -⟩
        · simp only [answerTrace]; (repeat' split) <;> simp
        · simp
        · simp
      · rcases activity_send K hO _ h' e with ⟨pkt', d', t', qt', e1, h2, h3, -⟩ | ⟨p', v, rfl, -⟩
        · exact ⟨pkt', d', t', qt', e1, h2, h3⟩
        · exfalso
          have : Event.nextTx v ∈ tr ++ [.send pkt.addr b' f'] := by
            have e' : tr ++ [.send pkt.addr b' f'] = _ := e
            rw [e']; simp
          revert this
          rcases h3 with ⟨-, a, -, rfl, -⟩ | ⟨-, msg, -, rfl | ⟨a, -, rfl⟩, -⟩
          · simp only [answerTrace]; (repeat' split) <;> simp
          · simp
          · simp
    · by_cases hr : ∃ t body, IsResponse pkt.bytes t body
      · obtain ⟨t, body, hr⟩ := hr
        obtain ⟨tr, h1, h2⟩ := dhtPacket_response K hO hr
        rw [h1] at hrun; cases hrun
        rcases h2 with ⟨-, rfl⟩ | ⟨req, tr', h3, -, rfl, h4⟩
        · refine ⟨by simp, fun p q to b f e => ?_⟩
          rcases p with _ | ⟨y, p⟩ <;> simp at e
        · rcases h4 with ⟨-, s, ns, -, hns, hf⟩ | ⟨rfl, -⟩
          · refine ⟨fun n x hm => ?_, fun p q to b f e => ?_⟩
            · simp only [List.mem_cons, reduceCtorEq, false_or] at hm
              obtain ⟨ns', e1, -, e3⟩ := C15_parse_total s
              rw [hns] at e1; cases e1
              exact e3 n (hf.added hm)
            · rcases p with _ | ⟨y1, _ | ⟨y2, p⟩⟩
              · simp at e
              · simp at e
              · simp only [List.cons_append, List.cons.injEq] at e
                obtain ⟨-, -, e⟩ := e
                obtain ⟨p', n, v, rfl, -, hto, -⟩ := hf.send_split e
                exact .inr (.inr ⟨n, by simp, hto⟩)
          · refine ⟨by simp, fun p q to b f e => ?_⟩
            rcases p with _ | ⟨y1, _ | ⟨y2, p⟩⟩ <;> simp at e
      · rw [dhtPacket_ignored K O pkt (fun d t q h => hq ⟨d, t, q, h⟩) (fun t b h => hr ⟨t, b, h⟩)] at hrun
        cases hrun
        refine ⟨by simp, fun p q to b f e => by simp at e⟩
  | bootstrap x =>
    obtain ⟨tr', ret, h1, h2, h3⟩ := C63_bootstrap K hO x
    have htr : tr = tr' := by
      simp only [Activity.trace] at h
      cases ret with
      | true => rw [h2 rfl] at h; exact (Option.some.inj h).symm
      | false => obtain ⟨pp, hp⟩ := h3 rfl; rw [hp] at h; exact (Option.some.inj h).symm
    subst htr
    cases h1 with
    | unresolved v =>
      refine ⟨by simp, fun p q to b f e => ?_⟩
      rcases p with _ | ⟨y, p⟩ <;> simp at e
    | contacted a v b' f' hb' =>
      refine ⟨by simp, fun p q to b f e => ?_⟩
      rcases p with _ | ⟨y1, _ | ⟨y2, _ | ⟨y3, p⟩⟩⟩
      · simp at e
      · simp at e
      · simp only [List.cons_append, List.nil_append, List.cons.injEq, Event.send.injEq] at e
        obtain ⟨-, -, ⟨rfl, -, -⟩, -⟩ := e
        exact .inr (.inl rfl)
      · simp at e

/-- The crawler's route table when the program starts. -/
theorem initialTable_sound (env : Env) {port : Int} {t : RouteTable} (h : initialTable port = .ok t) :
    Sound env t ∧ t.k = 8 ∧ t.capacity = 160 ∧ t.hnode = { id := localNodeId, addr := { ip := [], port } } ∧ 0 ≤ port ∧
      t.nodes = [t.hnode] ∧ t.last = 0 := by
  unfold initialTable NewNodeInfoFromHost resolveHostPort at h
  by_cases hp : 0 ≤ port ∧ port < 65536
  · rw [if_pos hp] at h
    cases h
    have hid : localNodeId.length = 20 := C81_length _
    refine ⟨⟨.new _ _ _, ?_, ?_⟩, rfl, rfl, rfl, hp.1, ?_, rfl⟩
    · simp [RouteTable.nodes, RouteTable.new, bucketNodes, Bucket.new, Bucket.Add, Bucket.Full, maxBucketLen]
    · simp [RouteTable.new, maxRouteTableSize, hid]
    · simp [RouteTable.nodes, RouteTable.new, bucketNodes, Bucket.new, Bucket.Add, Bucket.Full, maxBucketLen]
  · rw [if_neg hp] at h; cases h

/-- Goroutine `i` of the history is within this activity. -/
def Doing (K : KEnv) (H : List (Nat × Event)) (i : Nat) (a : Activity) : Prop :=
  ∃ O tr, Oracle.Fair O ∧ a.trace K O = some tr ∧ projection i H <+: tr

/-- The same for whatever is known about the goroutines. -/
theorem contacts_of {K : KEnv} {w0 w : World} {H : List (Nat × Event)} (h : History K w0 w H) {port : Int} (h0 : initialTable port = .ok w0.table) :
    ∃ A : List UDPAddr, A.length ≤ 1288 ∧ ∀ i to b f, (i, .send to b f) ∈ H → ∀ a, Doing K H i a →
      to ∈ A ∨ (∃ pkt d t q, a = .packet pkt ∧ IsQuery pkt.bytes d t q ∧ to = pkt.addr) ∨ a = .bootstrap (some to) := by
  obtain ⟨s0, k0, c0, n0, hp, nodes0, -⟩ := initialTable_sound K.env h0
  obtain ⟨s1, k1, c1, n1, low, up, D, hD, -, hacc⟩ := replay_accepted s0 h.answers
  have compact : ∀ n x, .addNode n x ∈ H.map Prod.snd → CompactNode n := by
    intro n x hm
    obtain ⟨⟨i, e⟩, hie, rfl⟩ := List.mem_map.1 hm
    obtain ⟨a, O, tr, hO, ha, hpr⟩ := h.goroutines i
    exact (activity_crawl K hO a ha).1 n x (hpr.subset (mem_projection.2 hie))
  have hlen := (C19_structure s1.reach).2.2.2.2.2.2
  rw [k1, c1, k0, c0] at hlen
  refine ⟨(w.table.nodes.erase w.table.hnode ++ D).map NodeInfo.addr, ?_, ?_⟩
  · simp only [List.length_map, List.length_append, List.length_erase_of_mem s1.host]
    omega
  · intro i to b f hm a ⟨O, tr, hO, ha, hpr⟩
    obtain ⟨p, q, hpq⟩ := List.append_of_mem (mem_projection.2 hm)
    obtain ⟨rest, hrest⟩ := hpr
    have e : tr = p ++ .send to b f :: (q ++ rest) := by rw [← hrest, hpq]; simp
    rcases (activity_crawl K hO a ha).2 _ _ _ _ _ e with ⟨pkt, d, t, qt, rfl, h1, h2⟩ | rfl | ⟨n, h1, rfl⟩
    · exact .inr (.inl ⟨pkt, d, t, qt, rfl, h1, h2⟩)
    · exact .inr (.inr rfl)
    · left
      have hn : (i, Event.addNode n none) ∈ H := mem_projection.1 (by rw [hpq]; simp [h1])
      have hn' : Event.addNode n none ∈ H.map Prod.snd := List.mem_map.2 ⟨_, hn, rfl⟩
      have hc := compact n none hn'
      rcases hacc n hn' with ⟨m, hm1, hm2⟩ | hd
      · have hne : m ≠ w.table.hnode := by
          rintro rfl
          rw [n1, n0, host_not_equals hc hp] at hm2
          cases hm2
        have hmc : CompactNode m := by
          rcases up m hm1 with hx | ⟨x, hx⟩
          · rw [nodes0] at hx
            simp only [List.mem_cons, List.not_mem_nil, or_false] at hx
            rw [hx] at hne
            exact absurd n1.symm hne
          · exact compact m x hx
        rw [← C82_same_address hmc hc hm2]
        exact List.mem_map.2 ⟨m, by simp [(List.mem_erase_of_ne hne).2 hm1], rfl⟩
      · exact List.mem_map.2 ⟨n, by simp [hd], rfl⟩

/-- **C82: the crawl is bounded.** However long the crawler runs, whatever the packets it receives and in whatever order its goroutines run: all
datagrams it ever sends, except replies to queries (sent to the query's source) and the messages to the bootstrap hosts, go to at most
1288 addresses. -/
theorem C82_contacts {K : KEnv} {w0 w : World} {H : List (Nat × Event)} (h : History K w0 w H) {port : Int} (h0 : initialTable port = .ok w0.table) :
    ∃ A : List UDPAddr, A.length ≤ 1288 ∧ ∀ i to b f, (i, .send to b f) ∈ H →
      to ∈ A ∨ (∃ pkt d t q, IsQuery pkt.bytes d t q ∧ to = pkt.addr ∧ Doing K H i (.packet pkt)) ∨ Doing K H i (.bootstrap (some to)) := by
  obtain ⟨A, hA, hs⟩ := contacts_of h h0
  refine ⟨A, hA, fun i to b f hm => ?_⟩
  obtain ⟨a, O, tr, hO, ha, hpr⟩ := h.goroutines i
  rcases hs i to b f hm a ⟨O, tr, hO, ha, hpr⟩ with hx | ⟨pkt, d, t, q, rfl, h1, h2⟩ | rfl
  · exact .inl hx
  · exact .inr (.inl ⟨pkt, d, t, q, h1, h2, O, tr, hO, ha, hpr⟩)
  · exact .inr (.inr ⟨O, tr, hO, ha, hpr⟩)

/-! ## Half of the key space gets eight nodes -/

theorem filter_range_flatMap_le {t : RouteTable} {env : Env} (h : Reachable env t) (p : Nat) :
    (t.nodes.filter (fun n => solvePrefixLen n.id t.hnode.id == p)).length ≤ t.k := by
  have hst := C19_structure h
  -- all of them lie in one bucket
  have hsub : ∀ n ∈ t.nodes.filter (fun n => solvePrefixLen n.id t.hnode.id == p), n ∈ t.bucketNodes (min p t.last) := by
    intro n hn
    simp only [List.mem_filter, beq_iff_eq] at hn
    obtain ⟨i, -, hi⟩ := mem_nodes.1 hn.1
    have := hst.2.2.2.1 i n hi
    rw [hn.2] at this
    rw [← this]; exact hi
  have hnd : (t.nodes.filter (fun n => solvePrefixLen n.id t.hnode.id == p)).Nodup := hst.2.2.2.2.2.1.filter _
  exact Nat.le_trans (length_le_of_nodup_subset hnd hsub) (hst.2.2.1 _)

/-- C82: in every history, for every `p`, at most eight of the stored nodes have an id that shares exactly the first `p` bits with the crawler's own id. -/
theorem C82_per_prefix {K : KEnv} {w0 w : World} {H : List (Nat × Event)} (h : History K w0 w H) {port : Int} (h0 : initialTable port = .ok w0.table)
    (p : Nat) : (w.table.nodes.filter (fun n => solvePrefixLen n.id localNodeId == p)).length ≤ 8 := by
  obtain ⟨s0, k0, c0, n0, hp, nodes0, -⟩ := initialTable_sound K.env h0
  obtain ⟨s1, k1, c1, n1, -⟩ := replay_accepted s0 h.answers
  have := filter_range_flatMap_le s1.reach p
  rw [n1, n0, k1, k0] at this
  exact this

/-- C82: at most eight of the stored nodes have an id whose first bit is 0 (first byte below 0x80): the crawler's own id begins with the bit 1, so this half
of the key space shares one bucket. -/
theorem C82_half {K : KEnv} {w0 w : World} {H : List (Nat × Event)} (h : History K w0 w H) {port : Int} (h0 : initialTable port = .ok w0.table) :
    (w.table.nodes.filter (fun n => match n.id with | c :: _ => decide (c.toNat < 128) | [] => false)).length ≤ 8 := by
  refine Nat.le_trans ?_ (C82_per_prefix h h0 0)
  rw [← List.countP_eq_length_filter, ← List.countP_eq_length_filter]
  refine List.countP_mono_left ?_
  intro n _ hn
  rw [C81_ids.1]
  cases hid : n.id with
  | nil => rw [hid] at hn; simp at hn
  | cons c r =>
    rw [hid] at hn
    simp only [decide_eq_true_eq] at hn
    have : solvePrefixLen (c :: r) [0x9b, 0xe1, 0x69, 0x60, 0x18, 0xa6, 0x9b, 0xa1, 0x61, 0x65, 0x19, 0x78, 0xc7, 0x6c, 0x46, 0xf3, 0x4a, 0x6a, 0xba, 0x74] = 0 := by
      rw [C18_prefix_length]
      refine ⟨by simp [commonBits], by simp, ?_⟩
      intro _ he
      simp only [bitAt, Nat.zero_div, List.getD_cons_zero, Nat.zero_mod, Nat.sub_zero] at he
      rw [Nat.testBit_lt_two_pow (by omega : c.toNat < 2 ^ 7)] at he
      revert he; decide
    rw [this]; rfl

/-! ## A concrete case -/

/-- the running program: its node id, its port -/
def realK : KEnv := { env := env0, cap := fun n => n + 2, nodeId := localNodeId }
def realTable : RouteTable := RouteTable.new { id := localNodeId, addr := { ip := [], port := 21000 } } 8 160
def realW0 : World := { reqs := [], txId := firstTxId, table := realTable }
def realO : Oracle := { exO with lookup := fun _ t => if t = b!"03e9" then some (crawlQuery localNodeId 1001) else none }
def realBoot : List Event := ((Activity.bootstrap (some peerAddr)).trace realK { realO with nextTx := fun _ => 1001 }).getD []
def realPkt : List Event := ((Activity.packet { addr := peerAddr, bytes := exResp }).trace realK realO).getD []
def realH : List (Nat × Event) := realBoot.map (fun e => (0, e)) ++ realPkt.map (fun e => (1, e))

theorem projection_map_ne {i j : Nat} (h : j ≠ i) (l : List Event) : projection i (l.map fun e => (j, e)) = [] := by
  simp [projection, h]
theorem projection_map_eq (i : Nat) (l : List Event) : projection i (l.map fun e => (i, e)) = l := by
  induction l with
  | nil => rfl
  | cons e l ih => simpa [projection] using ih

/-- the crawler bootstraps and gets a response with two nodes: a history that starts with the program's own table, in which three
queries are sent, two of them to the nodes listed in the response -/
theorem realH_history : initialTable 21000 = .ok realW0.table ∧ (∃ w, History realK realW0 w realH) ∧
    (sends (realH.map Prod.snd)).map Prod.fst = [peerAddr, (exNode 1).addr, (exNode 2).addr] := by
  refine ⟨rfl, ?_, by decide +kernel⟩
  have h1 : (realW0.replay env0 (realH.map Prod.snd)).isSome = true := by decide +kernel
  obtain ⟨w, hw⟩ := Option.isSome_iff_exists.1 h1
  refine ⟨w, hw, fun i => ?_⟩
  by_cases h0 : i = 0
  · subst h0
    refine ⟨.bootstrap (some peerAddr), { realO with nextTx := fun _ => 1001 }, realBoot, fun _ _ h => ⟨h, .refl _⟩, by decide +kernel, ?_⟩
    rw [realH, projection_append, projection_map_eq, projection_map_ne (by decide)]; simp
  · by_cases h1 : i = 1
    · subst h1
      refine ⟨.packet { addr := peerAddr, bytes := exResp }, realO, realPkt, fun _ _ h => ⟨h, .refl _⟩, by decide +kernel, ?_⟩
      rw [realH, projection_append, projection_map_eq, projection_map_ne (by decide)]; simp
    · refine ⟨.packet { addr := peerAddr, bytes := [] }, realO, [], fun _ _ h => ⟨h, .refl _⟩, by decide +kernel, ?_⟩
      rw [realH, projection_append, projection_map_ne (Ne.symm h0), projection_map_ne (Ne.symm h1)]; simp

/-- the ninth node of the other half of the key space is refused: `C82_half` is met with equality -/
example : (match realTable.addAll env0 ((List.range 9).map fun i => exNode (UInt8.ofNat (i + 1))) with
    | .ok (t, es) => (es, (t.nodes.filter (fun n => match n.id with | c :: _ => decide (c.toNat < 128) | [] => false)).length)
    | _ => ([], 0)) = ([none, none, none, none, none, none, none, none, some b!"the bucket is full"], 8) := by decide +kernel

end P2P

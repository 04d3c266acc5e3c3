import Verif.Model.System
import Verif.Props.Program
import Verif.Props.Whole
/-! # The system and its parts -/
namespace P2P

abbrev SysReach (S : SysEnv) (port : Int) (fs0 : Bytes → Option Bytes) : SysSt → Prop := Reach (SysInit S port fs0) (SysStep S)

/-! ## What handlers that have not run yet would do does not matter -/

/-- the same as far as the handlers have got -/
structure AgreeOn (s : PlSt) (tr tr' : Nat → List Event) : Prop where
  take : ∀ p, (tr' p).take (s.hdl p) = (tr p).take (s.hdl p)
  fin : ∀ p ∈ s.p1.finished, tr' p = tr p

theorem plStep_mono {tr : Nat → List Event} {W1 Q W2 : Nat} {s t : PlSt} (st : PlStep tr W1 Q W2 s t) :
    (∀ p, s.hdl p ≤ t.hdl p) ∧ s.p1.finished <+: t.p1.finished := by
  have up : ∀ p q, s.hdl q ≤ upd s.hdl p (s.hdl p + 1) q := by
    intro p q
    by_cases e : q = p
    · subst e; rw [upd_same]; omega
    · rw [upd_ne _ _ e]; omega
  cases st with
  | handle i p e _ _ _ => exact ⟨up p, List.prefix_refl _⟩
  | enqueue i p j _ _ _ => exact ⟨up p, List.prefix_refl _⟩
  | handoff i p j _ _ _ _ => exact ⟨up p, List.prefix_refl _⟩
  | done1 i p _ _ => exact ⟨fun _ => Nat.le_refl _, List.prefix_append _ _⟩
  | _ => exact ⟨fun _ => Nat.le_refl _, List.prefix_refl _⟩

theorem AgreeOn.back {tr tr' : Nat → List Event} {W1 Q W2 : Nat} {s t : PlSt} (st : PlStep tr W1 Q W2 s t) (h : AgreeOn t tr tr') : AgreeOn s tr tr' := by
  obtain ⟨h1, h2⟩ := plStep_mono st
  refine ⟨fun p => ?_, fun p hp => h.fin p (h2.subset hp)⟩
  have := congrArg (List.take (s.hdl p)) (h.take p)
  rwa [List.take_take, List.take_take, Nat.min_eq_left (h1 p)] at this

theorem AgreeOn.step {tr tr' : Nat → List Event} {W1 Q W2 : Nat} {s t : PlSt} (st : PlStep tr W1 Q W2 s t) (h : AgreeOn t tr tr') :
    PlStep tr' W1 Q W2 s t := by
  have get : ∀ p e, t.hdl p = s.hdl p + 1 → (tr p)[s.hdl p]? = some e → (tr' p)[s.hdl p]? = some e := by
    intro p e ht he
    have := congrArg (fun l => l[s.hdl p]?) (h.take p)
    simp only [ht, List.getElem?_take_of_lt (Nat.lt_succ_self _)] at this
    rw [this]; exact he
  cases st with
  | arrive a => exact .arrive a
  | listenTake p q a b => exact .listenTake p q a b
  | listenCheck p a b c => exact .listenCheck p a b c
  | listenSend p a b c => exact .listenSend p a b c
  | select1 i a => exact .select1 i a
  | recv1 i p q a b => exact .recv1 i p q a b
  | handle i p e a b c => exact .handle i p e a (get p e (upd_same _ _ _) b) c
  | enqueue i p j a b c => exact .enqueue i p j a (get p _ (upd_same _ _ _) b) c
  | handoff i p j a b c d => exact .handoff i p j a (get p _ (upd_same _ _ _) b) c d
  | done1 i p a b => exact .done1 i p a (by rw [h.fin p (by simp)]; exact b)
  | fetchTake p q a b => exact .fetchTake p q a b
  | fetchCheck p a b c => exact .fetchCheck p a b c
  | fetchSend p a b c => exact .fetchSend p a b c
  | select2 i a => exact .select2 i a
  | recv2 i p q a b => exact .recv2 i p q a b
  | done2 i p a => exact .done2 i p a

theorem cr_change {tr tr' : Nat → List Event} {out : Nat → HandlerOut} {dir : Bool} {W1 Q W2 : Nat} {fs0 : Bytes → Option Bytes} {s : CrSt}
    (h : CrReach tr out dir fs0 W1 Q W2 s) (ha : AgreeOn s.pl tr tr') : CrReach tr' out dir fs0 W1 Q W2 s := by
  induction h with
  | init h => exact .init h
  | @step s t h st ih =>
    cases st with
    | pipe hp hf => exact .step (ih (ha.back hp)) (.pipe (ha.step hp) hf)
    | file i p a b c => exact .step (ih ha) (.file i p a b c)
    | back p hp hf hr => exact .step (ih (ha.back hp)) (.back p (ha.step hp) hf hr)

/-- which files a crawl writes does not depend on the answers the handlers get -/
theorem crawlOut_same (K : KEnv) {O O' : Nat → Oracle} (hO : ∀ p, (O p).Fair) (hO' : ∀ p, (O' p).Fair) (pkts : Nat → RecvPacket) (conn : Nat → Bytes → PEnv)
    (sha1 : Bytes → Bytes) (fuel : Nat) (peerId : Bytes) (mem : Nat → Nat → Bytes) (pool : Nat → BPool) :
    crawlOut K O pkts conn sha1 fuel peerId mem pool = crawlOut K O' pkts conn sha1 fuel peerId mem pool := by
  funext p
  rcases crawlTraces_spec K hO pkts p with ⟨job, b, f, hj, -⟩ | ⟨hn, e⟩
  · rw [crawlOut_announce K hO pkts conn sha1 fuel peerId mem pool hj, crawlOut_announce K hO' pkts conn sha1 fuel peerId mem pool hj]
  · rcases crawlTraces_spec K hO' pkts p with ⟨job, b, f, hj, -⟩ | ⟨-, e'⟩
    · exact absurd hj (hn job)
    · unfold crawlOut; rw [e, e']

/-- what the downloads lead to -/
def SysEnv.out (S : SysEnv) (O : Nat → Oracle) : Nat → HandlerOut := crawlOut S.K O S.pkts S.conn sha1Sum S.fuel LocalPeerId S.mem S.pool

theorem SysEnv.out_same (S : SysEnv) {O O' : Nat → Oracle} (hO : ∀ p, (O p).Fair) (hO' : ∀ p, (O' p).Fair) : S.out O = S.out O' :=
  crawlOut_same S.K hO hO' S.pkts S.conn _ _ _ _ _

/-- a download's job is in the log -/
theorem outs_eq (S : SysEnv) {O : Nat → Oracle} (hO : ∀ p, (O p).Fair) {s : SysSt} (h : CrawlReach S.K O S.pkts S.W1 S.Q S.W2 s.pl) {i p : Nat}
    (hw : s.pl.p2.workers[i]? = some (.running p)) : s.outs S p = S.out O p := by
  have I := pl_inv h
  obtain ⟨h1, h2, h3⟩ := C62_downloads S.K hO S.pkts h
  obtain ⟨-, job, hj, hm⟩ := h3 p (h1.subset (started_of_running I.reach2 hw))
  have hlog : Event.enqueue job ∈ logOf p s.pl.log := List.mem_filterMap.2 ⟨(p, .enqueue job), hm, by simp⟩
  unfold SysSt.outs SysEnv.out
  rw [crawlOut_announce S.K hO S.pkts S.conn sha1Sum S.fuel LocalPeerId S.mem S.pool hj]
  have hx : enqueued (logOf p s.pl.log) = [job] := by
    rw [I.log] at hlog ⊢
    rcases crawlTraces_spec S.K hO S.pkts p with ⟨job', bb, f', hj', e'⟩ | ⟨hn, -⟩
    · have := hj'.unique hj; subst this
      rw [e'] at hlog ⊢
      match hh : s.pl.hdl p with
      | 0 => rw [hh] at hlog; simp at hlog
      | 1 => rw [hh] at hlog; simp at hlog
      | 2 => rw [hh] at hlog; simp at hlog
      | 3 => simp [enqueued]
      | n + 4 => simp [enqueued]
    · exact absurd hj (hn job)
  rw [hx]

/-! ## The parts -/

/-- the life of the process, of which C83 speaks -/
theorem sys_program {S : SysEnv} {port : Int} {fs0 : Bytes → Option Bytes} {s : SysSt} (h : SysReach S port fs0 s) : PgReach S.K S.hosts s.pg := by
  induction h with
  | init h => exact .init h.1
  | @step s t h st ih =>
    cases st with
    | life _ a _ _ _ => exact .step ih a
    | boot tr _ a _ _ => exact .step ih a
    | read _ a _ => exact .step ih a
    | deliver x _ a _ => exact .step ih a
    | take x p q _ a _ _ _ => exact .step ih a
    | _ => exact ih

/-- what a step of the process does to the datagrams and the interactions of the bootstrap -/
inductive PgKind (s t : PgSt) : Prop where
  | quiet : t.got = s.got → t.st.boots = s.st.boots → t.st.queue = s.st.queue → t.st.arrived = s.st.arrived → t.st.taken = s.st.taken → PgKind s t
  | boot (tr : List Event) : t.got = s.got → t.st.boots = s.st.boots ++ [tr] → t.st.queue = s.st.queue → t.st.arrived = s.st.arrived →
      t.st.taken = s.st.taken → (∃ l, s.st.pc = .boot l) → PgKind s t
  | read (p : RecvPacket) : t.got = s.got ++ [p] → t.st.boots = s.st.boots → t.st.queue = s.st.queue → t.st.arrived = s.st.arrived →
      t.st.taken = s.st.taken → s.connOpen = true → PgKind s t
  | deliver (p : RecvPacket) : s.rcv = .sending p → t.got = s.got → t.st.boots = s.st.boots → t.st.queue = s.st.queue ++ [p] →
      t.st.arrived = s.st.arrived ++ [p] → t.st.taken = s.st.taken → s.st.queue.length < recvqCap → PgKind s t
  | take (p : RecvPacket) (r : List (Bytes × Handler)) : t.got = s.got → t.st.boots = s.st.boots → s.st.queue = p :: t.st.queue → t.st.arrived = s.st.arrived →
      t.st.taken = s.st.taken ++ [(p, r)] → s.st.pc = .listen → PgKind s t

theorem pgKind {K : KEnv} {s t : PgSt} (st : PgStep K s t) : PgKind s t := by
  cases st with
  | main _ m => cases m <;> exact .quiet rfl rfl rfl rfl rfl
  | other _ m =>
    cases m with
    | startup sm =>
      cases sm with
      | bootOk a _ _ => exact .boot _ rfl rfl rfl rfl rfl ⟨_, a⟩
      | bootPanic a _ _ => exact .boot _ rfl rfl rfl rfl rfl ⟨_, a⟩
      | take a b => exact .take _ _ rfl rfl b rfl rfl a
      | _ => exact .quiet rfl rfl rfl rfl rfl
    | read p a b => exact .read p rfl rfl rfl rfl rfl b
    | deliver a b => exact .deliver _ a rfl rfl rfl rfl rfl b
    | _ => exact .quiet rfl rfl rfl rfl rfl

/-- the datagrams the program has read, and where they are -/
structure SysLink (S : SysEnv) (s : SysSt) : Prop where
  got : s.pg.got = (List.range s.pg.got.length).map S.pkts
  arrived : s.pg.st.arrived = (List.range s.pl.arrived).map S.pkts
  queue : s.pg.st.queue = s.pl.recvq.map S.pkts
  taken : s.pg.st.taken.length + s.pl.recvq.length = s.pl.arrived

theorem snoc_ne {α : Type} {l : List α} {x : α} (h : l = l ++ [x]) : False := by
  have := congrArg List.length h; simp at this

/-- what a step of the pipeline other than an arrival and a receive of `Listen` leaves alone -/
theorem pl_same {tr : Nat → List Event} {W1 Q W2 : Nat} {s t : PlSt} (st : PlStep tr W1 Q W2 s t) (ha : t.arrived = s.arrived) (hq : t.recvq = s.recvq) :
    (∃ p, s.l = .hold p) ∨ t.l = s.l := by
  cases st with
  | arrive _ => simp at ha
  | listenTake p q a b => simp only [b] at hq; have := congrArg List.length hq; simp at this
  | listenCheck p a b c => exact .inl ⟨p, a⟩
  | listenSend p a b c => exact .inl ⟨p, a⟩
  | _ => exact .inr rfl

theorem sys_link {S : SysEnv} {port : Int} {fs0 : Bytes → Option Bytes} {s : SysSt} (h : SysReach S port fs0 s) : SysLink S s := by
  induction h with
  | @init s h =>
    obtain ⟨⟨h1, -, -, -, -, -, -, -, -, -, -, -, -, h14⟩, ⟨a, b, -⟩, -⟩ := h
    rw [StSt.start] at h1
    constructor
    · rw [h14]; rfl
    · rw [h1, b]; rfl
    · rw [h1, a]; rfl
    · rw [h1, a, b]; rfl
  | @step s t h st ih =>
    have hlost := C83_none_lost (sys_program h)
    have hall := C63_none_lost (C83_startup (sys_program h))
    obtain ⟨g, a, q, k⟩ := ih
    cases st with
    | life _ st e1 e2 e3 =>
      cases pgKind st with
      | quiet x1 x2 x3 x4 x5 => exact ⟨by simp only [x1]; exact g, by simp only [x4]; exact a, by simp only [x3]; exact q, by simp only [x5]; exact k⟩
      | boot tr x1 x2 x3 x4 x5 => exact (snoc_ne (e2.symm.trans x2)).elim
      | read p x1 x2 x3 x4 x5 => exact (snoc_ne (e1.symm.trans x1)).elim
      | deliver p x0 x1 x2 x3 x4 x5 => exact (snoc_ne (e3.symm.trans x3)).elim
      | take p r x1 x2 x3 x4 x5 =>
        rw [e3] at x3
        have := congrArg List.length x3; simp at this
    | boot tr _ st e1 e2 =>
      cases pgKind st with
      | boot tr x1 x2 x3 x4 x5 => exact ⟨by simp only [x1]; exact g, by simp only [x4]; exact a, by simp only [x3]; exact q, by simp only [x5]; exact k⟩
      | quiet x1 x2 x3 x4 x5 => exact (snoc_ne (x2.symm.trans e1)).elim
      | read p x1 x2 x3 x4 x5 => exact (snoc_ne (x2.symm.trans e1)).elim
      | deliver p x0 x1 x2 x3 x4 x5 => exact (snoc_ne (x2.symm.trans e1)).elim
      | take p r x1 x2 x3 x4 x5 => exact (snoc_ne (x2.symm.trans e1)).elim
    | read _ st e1 =>
      cases pgKind st with
      | read p x1 x2 x3 x4 x5 =>
        refine ⟨?_, by simp only [x4]; exact a, by simp only [x3]; exact q, by simp only [x5]; exact k⟩
        simp only [e1, List.length_append, List.length_singleton, List.range_succ, List.map_append, List.map_cons, List.map_nil]
        rw [← g]
      | boot tr x1 x2 x3 x4 x5 => exact (snoc_ne (x1.symm.trans e1)).elim
      | quiet x1 x2 x3 x4 x5 => exact (snoc_ne (x1.symm.trans e1)).elim
      | deliver p x0 x1 x2 x3 x4 x5 => exact (snoc_ne (x1.symm.trans e1)).elim
      | take p r x1 x2 x3 x4 x5 => exact (snoc_ne (x1.symm.trans e1)).elim
    | deliver x _ st e1 =>
      cases pgKind st with
      | deliver p x0 x1 x2 x3 x4 x5 =>
        have hx : p = S.pkts s.pl.arrived := by
          rw [x0, hall.1, a] at hlost
          simp only at hlost
          rw [g] at hlost
          have hl := congrArg List.length hlost
          simp only [List.length_map, List.length_range, List.length_append, List.length_singleton] at hl
          rw [hl, List.range_succ, List.map_append] at hlost
          simpa using (List.append_cancel_left hlost).symm
        subst hx
        refine ⟨by simp only [x1]; exact g, ?_, ?_, ?_⟩
        · simp only [x4, a, List.range_succ, List.map_append, List.map_cons, List.map_nil]
        · simp only [x3, q, List.map_append, List.map_cons, List.map_nil]
        · simp only [x5, List.length_append, List.length_singleton]; omega
      | boot tr x1 x2 x3 x4 x5 => exact (snoc_ne (x4.symm.trans e1)).elim
      | quiet x1 x2 x3 x4 x5 => exact (snoc_ne (x4.symm.trans e1)).elim
      | read p x1 x2 x3 x4 x5 => exact (snoc_ne (x4.symm.trans e1)).elim
      | take p r x1 x2 x3 x4 x5 => exact (snoc_ne (x4.symm.trans e1)).elim
    | take x p' q' _ st e1 e2 e3 =>
      cases pgKind st with
      | take p r x1 x2 x3 x4 x5 =>
        refine ⟨by simp only [x1]; exact g, by simp only [x4]; exact a, ?_, ?_⟩
        · rw [x3, e3, List.map_cons] at q
          exact (List.cons.inj q).2
        · rw [e3, List.length_cons] at k
          simp only [x5, List.length_append, List.length_singleton]; omega
      | boot tr x1 x2 x3 x4 x5 => exact (snoc_ne (x5.symm.trans e1)).elim
      | quiet x1 x2 x3 x4 x5 => exact (snoc_ne (x5.symm.trans e1)).elim
      | read p x1 x2 x3 x4 x5 => exact (snoc_ne (x5.symm.trans e1)).elim
      | deliver p x0 x1 x2 x3 x4 x5 => exact (snoc_ne (x5.symm.trans e1)).elim
    | pipe new _ _ _ e1 e2 => exact ⟨g, by simp only [e1]; exact a, by simp only [e2]; exact q, by simp only [e1, e2]; exact k⟩
    | file i p _ _ _ _ => exact ⟨g, a, q, k⟩
    | back i p _ _ _ => exact ⟨g, a, q, k⟩
    | fatal i p _ _ _ => exact ⟨g, a, q, k⟩

/-- the crawler, of which C62, C92 speak -/
theorem sys_crawler {S : SysEnv} {port : Int} {fs0 : Bytes → Option Bytes} {s : SysSt} (h : SysReach S port fs0 s) :
    ∃ O : Nat → Oracle, (∀ p, (O p).Fair) ∧ CrReach (crawlTraces S.K O S.pkts) (S.out O) S.dir fs0 S.W1 S.Q S.W2 ⟨s.pl, s.fs⟩ := by
  have hrun : ∀ {O : Oracle} {pkt run}, dhtPacket S.K O pkt = some run → ∀ {f : Nat → Oracle} {p}, f p = O → S.pkts p = pkt →
      crawlTraces S.K f S.pkts p = run.trace := by
    intro O pkt run h f p e1 e2
    unfold crawlTraces
    rw [e1, e2, h]
  induction h with
  | @init s h => exact ⟨fun _ => exO, fun _ => exO_fair, .init ⟨h.2.1, h.2.2.1⟩⟩
  | @step s t h st ih =>
    have link := sys_link h
    have prog := sys_program h
    obtain ⟨O, hO, hc⟩ := ih
    have hpl := (C92_refines hc).1
    cases st with
    | life _ _ _ _ _ => exact ⟨O, hO, hc⟩
    | boot tr _ _ _ _ => exact ⟨O, hO, hc⟩
    | read _ _ _ => exact ⟨O, hO, hc⟩
    | deliver x _ st e1 =>
      refine ⟨O, hO, .step hc (.pipe (.arrive ?_) rfl)⟩
      cases pgKind st with
      | deliver p x0 x1 x2 x3 x4 x5 x6 => rw [link.queue, List.length_map] at x6; exact x6
      | boot tr x1 x2 x3 x4 x5 => exact (snoc_ne (x4.symm.trans e1)).elim
      | quiet x1 x2 x3 x4 x5 => exact (snoc_ne (x4.symm.trans e1)).elim
      | read p x1 x2 x3 x4 x5 => exact (snoc_ne (x4.symm.trans e1)).elim
      | take p r x1 x2 x3 x4 x5 => exact (snoc_ne (x4.symm.trans e1)).elim
    | take x p q _ st e1 e2 e3 => exact ⟨O, hO, .step hc (.pipe (.listenTake p q e2 e3) rfl)⟩
    | @pipe pl w tr new _ hcont st e1 e2 e3 e4 e5 e6 e7 =>
      have I := pl_inv hpl
      obtain ⟨O', hO'⟩ := Classical.axiomOfChoice (fun p => (hcont p).1)
      have hf : ∀ p, (O' p).Fair := fun p => (hO' p).choose_spec.1
      have htr : crawlTraces S.K O' S.pkts = tr := by
        funext p
        obtain ⟨run, -, h2, h3⟩ := hO' p
        rw [hrun h2 rfl rfl, h3]
      refine ⟨O', hf, ?_⟩
      rw [htr, S.out_same hf hO]
      refine .step (cr_change hc ?_) (.pipe st e3)
      refine ⟨fun p => ?_, fun p hp => ?_⟩
      · have hl := I.log p
        have := (hcont p).2.1
        rw [hl] at this
        have hlen : ((crawlTraces S.K O S.pkts p).take (s.pl.hdl p)).length = s.pl.hdl p := by
          rw [List.length_take]; exact Nat.min_eq_left (I.hdl p)
        have e := List.prefix_iff_eq_take.1 this
        rw [hlen] at e
        exact e.symm
      · rw [(hcont p).2.2 hp, I.log p, I.fin p hp, List.take_length]
    | @file fs i p _ hw st hd =>
      refine ⟨O, hO, .step hc (.file i p hw ?_ hd)⟩
      have : (fun j => if j = p then flushes (s.outs S) j else none) = (fun j => if j = p then flushes (S.out O) j else none) := by
        funext j
        split
        · rename_i e; subst e
          unfold flushes; rw [outs_eq S hO hpl hw]
        · rfl
      rw [← this]; exact st
    | back i p _ hw hr =>
      refine ⟨O, hO, .step hc (.back p (.done2 i p hw) rfl ?_)⟩
      unfold HandlerReturns at hr ⊢
      rw [outs_eq S hO hpl hw] at hr
      exact hr
    | fatal i p _ _ _ => exact ⟨O, hO, hc⟩

end P2P

import Verif.Lemmas.SystemBounds
import Verif.Props.Program
/-! # Runs of the whole system that exist

From the start to listening; then any number of datagrams, each of which is handled completely. -/
namespace P2P

section
variable {S : SysEnv} {port : Int} {fs0 : Bytes → Option Bytes} {s : SysSt}

/-- **Start-up is never stuck**: its next step exists, and brings the server nearer to listening (or ends the process). -/
theorem sys_boot (h : SysReach S port fs0 s) (up : s.up) (hl : s.pg.st.pc ≠ .listen) :
    ∃ t, SysStep S s t ∧ t.pg.st.pc.left < s.pg.st.pc.left ∧ t.pl = s.pl ∧ t.fs = s.fs ∧ t.oom = s.oom ∧ (∃ st, t.pg = { s.pg with st := st }) ∧
      t.pg.st.queue = s.pg.st.queue ∧ ((∀ a ∈ S.hosts, a ≠ none) → t.pg.st.pc ≠ .dead) := by
  have hst := C83_startup (sys_program h)
  have hi := stReach_inv hst
  have quiet : ∀ st', StMain S.K s.pg.st st' → st'.boots = s.pg.st.boots → st'.queue = s.pg.st.queue → st'.pc ≠ .dead →
      ∃ t, SysStep S s t ∧ t.pg.st.pc.left < s.pg.st.pc.left ∧ t.pl = s.pl ∧ t.fs = s.fs ∧ t.oom = s.oom ∧ (∃ st, t.pg = { s.pg with st := st }) ∧
        t.pg.st.queue = s.pg.st.queue ∧ ((∀ a ∈ S.hosts, a ≠ none) → t.pg.st.pc ≠ .dead) := by
    intro st' m h1 h2 h3
    exact ⟨_, .life up (.other up.1 (.startup m)) rfl h1 h2, (C63_progress hst (O := s.w.oracle S.K.env []) (World.oracle_fair _ _ _)).2.1 _ m hl,
      rfl, rfl, rfl, ⟨_, rfl⟩, h2, fun _ => h3⟩
  obtain ⟨-, -, -, h4⟩ := hi
  cases hp : s.pg.st.pc with
  | boot rest =>
    cases rest with
    | nil => rw [← hp]; exact quiet _ (.run hp) rfl rfl (by simp)
    | cons x r =>
      obtain ⟨O, hOe⟩ : ∃ O, O = s.w.oracle S.K.env [] := ⟨_, rfl⟩
      have hO : O.Fair := by rw [hOe]; exact World.oracle_fair _ _ _
      obtain ⟨tr, ret, h1, h2, h3⟩ := C63_bootstrap S.K hO x
      have hans : AnsweredBy O tr := by
        have := pres_BootStrap S.K O x { resp := none, trace := [] } (answeredBy_nil O)
        cases ret with
        | true => rw [h2 rfl] at this; exact this
        | false => obtain ⟨p, hpp⟩ := h3 rfl; rw [hpp] at this; exact this
      obtain ⟨w, hw⟩ := replay_oracle (stack := []) (sys_table h) (tr := tr) (by rw [← hOe]; exact hans)
      have hlen : ∀ r', StPc.left (.boot r) < StPc.left (.boot (r' :: r)) := by intro r'; simp [StPc.left]
      cases ret with
      | true =>
        have m := StMain.bootOk hp hO (h2 rfl)
        refine ⟨_, .boot tr up (.other up.1 (.startup m)) rfl hw, ?_, rfl, rfl, rfl, ⟨_, rfl⟩, rfl, fun _ => by simp⟩
        rw [← hp]
        exact (C63_progress hst (O := O) hO).2.1 _ m hl
      | false =>
        obtain ⟨p, hpp⟩ := h3 rfl
        have m := StMain.bootPanic hp hO hpp
        refine ⟨_, .boot tr up (.other up.1 (.startup m)) rfl hw, ?_, rfl, rfl, rfl, ⟨_, rfl⟩, rfl, fun hall => ?_⟩
        · rw [← hp]
          exact (C63_progress hst (O := O) hO).2.1 _ m hl
        · exfalso
          have hx : x ∈ S.hosts := by
            rw [((pg_boots (sys_program h)).2 _ hp).1]; simp
          cases h1' : x with
          | none => exact hall x hx h1'
          | some a =>
            subst h1'
            cases hf : false with
            | true => cases hf
            | false =>
              generalize hr : false = ret at h1
              cases h1 with
              | contacted a v b failed he =>
                have hft : failed = true := by simpa using hr
                subst hft
                have := hans [.nextTx v, .put (crawlQuery S.K.nodeId v)] (.send a b true) [] rfl
                rw [hOe] at this
                simp [Event.answeredBy, World.oracle] at this
  | register todo =>
    cases todo with
    | nil => rw [← hp]; exact quiet _ (.registered hp) rfl rfl (by simp)
    | cons x r =>
      obtain ⟨q, g⟩ := x
      rw [hp] at h4
      obtain ⟨hq, hn⟩ := registrations_split S.K h4.2.1
      rw [← hp]
      exact quiet _ (.register (O := s.w.oracle S.K.env []) hp (registeHandler_method S.K _ _ _ hq hn)) rfl rfl (by simp)
  | spawnFetch => rw [← hp]; exact quiet _ (.fetch hp) rfl rfl (by simp)
  | registerClean => rw [← hp]; exact quiet _ (.clean hp) rfl rfl (by simp)
  | listen => exact absurd hp hl
  | dead => exact absurd hp up.1.2.1

end

/-- the server listens, no signal has arrived, no call of the file system has failed, no file is half written -/
structure Calmly (S : SysEnv) (port : Int) (fs0 : Bytes → Option Bytes) (s : SysSt) : Prop where
  reach : SysReach S port fs0 s
  listen : s.pg.st.pc = .listen
  mem : s.oom = false
  pc : ∀ p, s.fs.pc p = .start ∨ s.fs.pc p = .done
  fresh : ∀ p, p ∉ s.pl.p2.finished → s.fs.pc p = .start
  pg : ∃ st got, s.pg = { pgStart S.hosts with st := st, got := got }

theorem Calmly.up {S : SysEnv} {port : Int} {fs0 : Bytes → Option Bytes} {s : SysSt} (h : Calmly S port fs0 s) : s.up := by
  obtain ⟨st, got, e⟩ := h.pg
  have hl := h.listen
  refine ⟨⟨by rw [e]; rfl, by rw [hl]; simp, fun b => by rw [e]; simp [pgStart]⟩, h.mem⟩

section
variable {S : SysEnv} {port : Int} {fs0 : Bytes → Option Bytes} {s : SysSt}

/-- the first state -/
def sysStart (S : SysEnv) (fs0 : Bytes → Option Bytes) (t : RouteTable) : SysSt where
  pg := pgStart S.hosts
  pl := { recvq := [], arrived := 0, l := .recv, p1 := wp0 S.W1, hdl := fun _ => 0, jobs := [], f := .recv, p2 := wp0 S.W2, log := [], accepted := [] }
  fs := ⟨fs0, fun _ => .start, fun _ => none⟩
  w := { reqs := [], txId := firstTxId, table := t }
  oom := false

theorem sysStart_init {t : RouteTable} (h : initialTable port = .ok t) : SysInit S port fs0 (sysStart S fs0 t) :=
  ⟨pgStart_init _, ⟨rfl, rfl, rfl, wp0_init _, fun _ => rfl, rfl, rfl, wp0_init _, rfl, rfl⟩, ⟨rfl, fun _ => rfl, fun _ => rfl⟩, h, rfl, rfl, rfl⟩

/-- the server gets to listen if the bootstrap hosts resolve -/
theorem sys_listens {t : RouteTable} (h : initialTable port = .ok t) (hh : ∀ a ∈ S.hosts, a ≠ none) :
    ∃ s, Calmly S port fs0 s ∧ s.pl = (sysStart S fs0 t).pl ∧ s.fs = (sysStart S fs0 t).fs ∧ s.pg.got = [] := by
  have key : ∀ n s, s.pg.st.pc.left ≤ n → SysReach S port fs0 s → s.pl = (sysStart S fs0 t).pl → s.fs = (sysStart S fs0 t).fs → s.oom = false →
      s.pg.st.pc ≠ .dead → (∃ st, s.pg = { pgStart S.hosts with st := st }) →
      ∃ s, Calmly S port fs0 s ∧ s.pl = (sysStart S fs0 t).pl ∧ s.fs = (sysStart S fs0 t).fs ∧ s.pg.got = [] := by
    intro n
    induction n with
    | zero =>
      intro s hn hr h1 h2 h3 hd ⟨st, h4⟩
      have hl : s.pg.st.pc = .listen := by
        rcases (C63_progress (C83_startup (sys_program hr)) (O := s.w.oracle S.K.env []) (World.oracle_fair _ _ _)).2.2.2.2.1 (Nat.le_zero.1 hn) with h | h
        · exact h
        · exact absurd h hd
      exact ⟨s, ⟨hr, hl, h3, fun p => .inl (by rw [h2]; rfl), fun p _ => by rw [h2]; rfl, st, [], h4⟩, h1, h2, by rw [h4]; rfl⟩
    | succ n ih =>
      intro s hn hr h1 h2 h3 hd ⟨st, h4⟩
      by_cases hl : s.pg.st.pc = .listen
      · exact ⟨s, ⟨hr, hl, h3, fun p => .inl (by rw [h2]; rfl), fun p _ => by rw [h2]; rfl, st, [], h4⟩, h1, h2, by rw [h4]; rfl⟩
      · have hup : s.up := ⟨⟨by rw [h4]; rfl, hd, fun b => by rw [h4]; simp [pgStart]⟩, h3⟩
        obtain ⟨u, hs, a1, a2, a3, a4, ⟨st', a5⟩, -, a6⟩ := sys_boot hr hup hl
        exact ih u (by omega) (.step hr hs) (a2.trans h1) (a3.trans h2) (a4.trans h3) (a6 hh) ⟨st', by rw [a5, h4]⟩
  exact key _ (sysStart S fs0 t) (Nat.le_refl _) (.init (sysStart_init h)) rfl rfl rfl (by simp [sysStart, pgStart]) ⟨_, rfl⟩

/-- all downloads come to an end -/
def SysEnv.Ends (S : SysEnv) : Prop := ∀ p job, IsAnnounce (S.pkts p) job →
  (fetchHandler S.K.env (S.conn p) sha1Sum S.fuel LocalPeerId (S.mem p) (S.pool p) job).Ends

theorem SysEnv.Ends.out (h : S.Ends) {O : Nat → Oracle} (hO : ∀ p, (O p).Fair) (p : Nat) : (S.out O p).Ends := by
  rcases crawlTraces_spec S.K hO S.pkts p with ⟨job, b, f, hj, -⟩ | ⟨-, e⟩
  · unfold SysEnv.out; rw [crawlOut_announce S.K hO S.pkts S.conn sha1Sum S.fuel LocalPeerId S.mem S.pool hj]; exact h p job hj
  · unfold SysEnv.out crawlOut; rw [e]; trivial

/-- a download that ends, and its file, without a failing call -/
theorem calm_download (h : Calmly S port fs0 s) (hd : S.dir = true) {i p : Nat} (hw : s.pl.p2.workers[i]? = some (.running p))
    (hnf : p ∉ s.pl.p2.finished) (hend : (s.outs S p).Ends) :
    ∃ t, Calmly S port fs0 t ∧
      t.pl = { s.pl with p2 := { s.pl.p2 with workers := s.pl.p2.workers.set i .select, finished := s.pl.p2.finished ++ [p] } } ∧
      t.pg = s.pg ∧ (∀ q, q ≠ p → t.fs.pc q = s.fs.pc q) := by
  have hstart := h.fresh p hnf
  have hup := h.up
  have fin : ∀ fs' : FsSt, SysReach S port fs0 { s with fs := fs' } → HandlerReturns (s.outs S) fs' p → (fs'.pc p = .start ∨ fs'.pc p = .done) →
      (∀ q, q ≠ p → fs'.pc q = s.fs.pc q) → ∃ t, Calmly S port fs0 t ∧
        t.pl = { s.pl with p2 := { s.pl.p2 with workers := s.pl.p2.workers.set i .select, finished := s.pl.p2.finished ++ [p] } } ∧
        t.pg = s.pg ∧ (∀ q, q ≠ p → t.fs.pc q = s.fs.pc q) := by
    intro fs' hr hret hpc hoth
    refine ⟨_, ⟨.step hr (.back i p hup hw hret), h.listen, h.mem, fun q => ?_, fun q hq => ?_, h.pg⟩, rfl, rfl, hoth⟩
    · by_cases e : q = p
      · rw [e]; exact hpc
      · show fs'.pc q = _ ∨ fs'.pc q = _
        rw [hoth q e]; exact h.pc q
    · simp only [List.mem_append, List.mem_singleton, not_or] at hq
      show fs'.pc q = _
      rw [hoth q hq.2]; exact h.fresh q hq.1
  cases ho : s.outs S p with
  | fatal => rw [ho] at hend; cases hend
  | diverge => rw [ho] at hend; cases hend
  | nothing => exact fin s.fs h.reach (by unfold HandlerReturns; rw [ho]; trivial) (h.pc p) fun _ _ => rfl
  | flush hash data =>
    have hfl : (fun j => if j = p then flushes (s.outs S) j else none) p = some (hash, data) := by simp [flushes, ho]
    have nd : ∀ {x : JobPc}, S.dir = false → x = .failed := fun h => by rw [hd] at h; cases h
    have r1 := Reach.step h.reach (SysStep.file i p hup hw (.create p hash data hfl hstart) nd)
    have last : ∀ fs' : FsSt, SysReach S port fs0 { s with fs := fs' } → fs'.pc p = .writing data.length → (∀ q, q ≠ p → fs'.pc q = s.fs.pc q) →
        ∃ t, Calmly S port fs0 t ∧
          t.pl = { s.pl with p2 := { s.pl.p2 with workers := s.pl.p2.workers.set i .select, finished := s.pl.p2.finished ++ [p] } } ∧
          t.pg = s.pg ∧ (∀ q, q ≠ p → t.fs.pc q = s.fs.pc q) := by
      intro fs' r2 hpc hoth
      have r3 := Reach.step r2 (SysStep.file i p (s := { s with fs := fs' }) hup hw (.finish p hash data data.length hfl hpc rfl) nd)
      refine fin _ r3 ?_ (.inr (upd_same _ _ _)) fun q hq => ?_
      · unfold HandlerReturns; rw [ho]; exact .inl (upd_same _ _ _)
      · show upd fs'.pc p .done q = _
        rw [upd_ne _ _ hq, hoth q hq]
    by_cases hdata : data = []
    · subst hdata
      exact last _ r1 (upd_same _ _ _) fun q hq => upd_ne _ _ hq
    · have hpos : 0 < data.length := List.length_pos_iff.2 hdata
      have r2 := Reach.step r1 (SysStep.file i p (s := { s with fs := _ }) hup hw
        (.write p hash data [] 0 data.length hfl (upd_same _ _ _) (upd_same _ _ _) hpos (by omega)) nd)
      refine last _ r2 ?_ ?_
      · simp
      · intro q hq
        show upd (upd s.fs.pc p _) p _ q = _
        rw [upd_ne _ _ hq, upd_ne _ _ hq]

/-- one step towards the state in which everything is done -/
theorem calm_step (h : Calmly S port fs0 s) (hd : S.dir = true) (hends : S.Ends) {O : Nat → Oracle} (hO : ∀ p, (O p).Fair)
    (hc : CrReach (crawlTraces S.K O S.pkts) (S.out O) S.dir fs0 S.W1 S.Q S.W2 ⟨s.pl, s.fs⟩) (hcont : Continues S s (crawlTraces S.K O S.pkts))
    (hnext : ∀ p e, p ∉ s.pl.p1.finished → (crawlTraces S.K O S.pkts p)[s.pl.hdl p]? = some e →
        (∃ w, s.w.replay S.K.env [e] = some w) ∧ ∀ to b f, e = .send to b f → s.pg.connOpen = false → f = true)
    {pl : PlSt} (st : PlQuiet (crawlTraces S.K O S.pkts) S.W1 S.Q S.W2 s.pl pl) :
    ∃ t, Calmly S port fs0 t ∧ t.pl = pl ∧ t.pg.got = s.pg.got := by
  have hpl := (C92_refines hc).1
  have I := pl_inv hpl
  have go : pl.p2.finished = s.pl.p2.finished → ∃ t, Calmly S port fs0 t ∧ t.pl = pl ∧ t.pg.got = s.pg.got := by
    intro hf
    rcases sys_lift h.reach h.up h.listen hO hc hcont (.pipe st.1 hf) with h1 | ⟨i, p, e, hw, he, hne, hx⟩ | ⟨t, ht, a1, a2, a3, st', a4, a5⟩
    · exact absurd st.2 h1
    · obtain ⟨⟨w, hw'⟩, hsend⟩ := hnext p e (not_finished_of_running I.reach1 hw) he
      have hx : pl = { s.pl with hdl := upd s.pl.hdl p (s.pl.hdl p + 1), log := s.pl.log ++ [(p, e)] } := congrArg CrSt.pl hx
      subst hx
      refine ⟨_, ⟨.step h.reach (.pipe (w := w) [(p, e)] h.up hcont st.1 rfl rfl rfl rfl hw' ?_ (.inr ⟨rfl, rfl⟩)), h.listen, h.mem, h.pc, h.fresh, h.pg⟩, rfl, rfl⟩
      intro q to b f hm hcl
      simp only [List.mem_singleton, Prod.mk.injEq] at hm
      exact hsend to b f hm.2.symm hcl
    · obtain ⟨st0, got, hg⟩ := h.pg
      have a1 : t.pl = pl := a1
      have a2 : t.fs = s.fs := a2
      refine ⟨t, ⟨.step h.reach ht, by rw [a4]; exact a5.trans h.listen, a3.trans h.mem, fun p => by rw [a2]; exact h.pc p, fun p hp => ?_, ?_⟩, a1, by rw [a4]⟩
      · rw [a2]; exact h.fresh p (by rw [← hf, ← a1]; exact hp)
      · exact ⟨st', got, by rw [a4, hg]⟩
  obtain ⟨st, harr⟩ := st
  have st' := st
  cases st with
  | done2 i p hw =>
    obtain ⟨t, h1, h2, h3, -⟩ := calm_download h hd hw (not_finished_of_running I.reach2 hw) (by rw [outs_eq S hO hpl hw]; exact hends.out hO p)
    exact ⟨t, h1, h2, by rw [h3]⟩
  | _ => exact go rfl

/-- everything that has been handed on is handled, without further datagrams -/
theorem calm_settle (h : Calmly S port fs0 s) (hd : S.dir = true) (hends : S.Ends) :
    ∃ t O, Calmly S port fs0 t ∧ t.pg.got = s.pg.got ∧ t.pl.arrived = s.pl.arrived ∧ (∀ p, (O p).Fair) ∧
      CrReach (crawlTraces S.K O S.pkts) (S.out O) S.dir fs0 S.W1 S.Q S.W2 ⟨t.pl, t.fs⟩ ∧
      ∀ u, ¬ PlQuiet (crawlTraces S.K O S.pkts) S.W1 S.Q S.W2 t.pl u := by
  obtain ⟨B, hB⟩ := traces_bound S.K S.pkts
  have key : ∀ n s, backlog B s.pl ≤ n → Calmly S port fs0 s → ∃ t O, Calmly S port fs0 t ∧ t.pg.got = s.pg.got ∧ t.pl.arrived = s.pl.arrived ∧
      (∀ p, (O p).Fair) ∧ CrReach (crawlTraces S.K O S.pkts) (S.out O) S.dir fs0 S.W1 S.Q S.W2 ⟨t.pl, t.fs⟩ ∧
      ∀ u, ¬ PlQuiet (crawlTraces S.K O S.pkts) S.W1 S.Q S.W2 t.pl u := by
    intro n
    induction n with
    | zero =>
      intro s hn h
      obtain ⟨O, hO, hc, hcont, hnext⟩ := sys_answers h.reach
      refine ⟨s, O, h, rfl, rfl, hO, hc, fun u hu => ?_⟩
      have : backlog B u < backlog B s.pl := backlog_decreases (C92_refines hc).1 (hB O hO) hu
      omega
    | succ n ih =>
      intro s hn h
      obtain ⟨O, hO, hc, hcont, hnext⟩ := sys_answers h.reach
      by_cases hq : ∃ u, PlQuiet (crawlTraces S.K O S.pkts) S.W1 S.Q S.W2 s.pl u
      · obtain ⟨u, hu⟩ := hq
        have hdec : backlog B u < backlog B s.pl := backlog_decreases (C92_refines hc).1 (hB O hO) hu
        obtain ⟨t, ht, e1, e2⟩ := calm_step h hd hends hO hc hcont hnext hu
        obtain ⟨v, O', a1, a2, a3, a4⟩ := ih t (by rw [e1]; omega) ht
        exact ⟨v, O', a1, a2.trans e2, a3.trans (by rw [e1]; exact hu.2), a4⟩
      · exact ⟨s, O, h, rfl, rfl, hO, hc, fun u hu => hq ⟨u, hu⟩⟩
  exact key _ s (Nat.le_refl _) h

/-- a datagram is read and handed on -/
theorem calm_arrive (h : Calmly S port fs0 s) (hq : s.pl.recvq.length < 100) :
    ∃ t, Calmly S port fs0 t ∧ t.pg.got = s.pg.got ++ [S.pkts s.pg.got.length] ∧
      t.pl = { s.pl with recvq := s.pl.recvq ++ [s.pl.arrived], arrived := s.pl.arrived + 1 } := by
  obtain ⟨st, got, hg⟩ := h.pg
  have hl := h.listen
  have hup := h.up
  have alive : ∀ r g, ({ s.pg with rcv := r, got := g } : PgSt).alive := fun r g => ⟨hup.1.1, hup.1.2.1, hup.1.2.2⟩
  have htop : s.pg.rcv = .top := by rw [hg]; rfl
  have hopen : s.pg.connOpen = true := by rw [hg]; rfl
  have hcl : s.pg.closed = false := by rw [hg]; rfl
  have hqq : s.pg.st.queue.length < recvqCap := by rw [(sys_link h.reach).queue, List.length_map]; exact hq
  have r1 : SysReach S port fs0 { s with pg := { s.pg with rcv := .reading } } := by
    have hp : PgStep S.K s.pg { s.pg with rcv := .reading } := by
      have := PgStep.other (K := S.K) hup.1 (.test htop)
      simpa [hcl] using this
    exact .step h.reach (.life hup hp rfl rfl rfl)
  have r2 : SysReach S port fs0 { s with pg := { s.pg with rcv := .sending (S.pkts s.pg.got.length), got := s.pg.got ++ [S.pkts s.pg.got.length] } } :=
    .step r1 (SysStep.read (s := { s with pg := { s.pg with rcv := .reading } }) ⟨alive .reading s.pg.got, hup.2⟩
      (.other (alive .reading s.pg.got) (.read (S.pkts s.pg.got.length) rfl hopen)) rfl)
  have r3 := Reach.step r2 (SysStep.deliver (S := S)
    (s := { s with pg := { s.pg with rcv := .sending (S.pkts s.pg.got.length), got := s.pg.got ++ [S.pkts s.pg.got.length] } })
    (S.pkts s.pg.got.length) ⟨alive _ _, hup.2⟩ (.other (alive _ _) (.deliver rfl hqq)) rfl)
  exact ⟨_, ⟨r3, hl, h.mem, h.pc, h.fresh, _, _, by rw [hg]; rfl⟩, rfl, rfl⟩

/-- any number of datagrams is read and handled completely -/
theorem calm_runs (hW1 : 1 ≤ S.W1) (hW2 : 1 ≤ S.W2) {t0 : RouteTable} (h0 : initialTable port = .ok t0) (hh : ∀ a ∈ S.hosts, a ≠ none) (hd : S.dir = true)
    (hends : S.Ends) (n : Nat) : ∃ s O, Calmly S port fs0 s ∧ s.pg.got.length = n ∧ s.pl.arrived = n ∧ (∀ p, (O p).Fair) ∧
      CrReach (crawlTraces S.K O S.pkts) (S.out O) S.dir fs0 S.W1 S.Q S.W2 ⟨s.pl, s.fs⟩ ∧
      ∀ u, ¬ PlQuiet (crawlTraces S.K O S.pkts) S.W1 S.Q S.W2 s.pl u := by
  induction n with
  | zero =>
    obtain ⟨s, hs, h1, h2, h3⟩ := sys_listens (fs0 := fs0) h0 hh
    obtain ⟨t, O, a1, a2, a3, a4⟩ := calm_settle hs hd hends
    exact ⟨t, O, a1, by rw [a2, h3]; rfl, by rw [a3, h1]; rfl, a4⟩
  | succ n ih =>
    obtain ⟨s, O, hs, h1, h2, hO, hc, hq⟩ := ih
    have hpl := (C92_refines hc).1
    have hqe : s.pl.recvq = [] := by
      have hfin := (C62_all_done hW1 hW2 (crawl_single S.K hO S.pkts) hpl hq).1
      have hfifo : s.pl.p1.started ++ s.pl.p1.queue ++ s.pl.l.item ++ s.pl.recvq = List.range s.pl.arrived := (C62_fifo hpl).1
      have hlen := congrArg List.length hfifo
      have hle : s.pl.p1.finished.length ≤ s.pl.p1.started.length := by
        have := ((C48_fifo_once (pl_inv hpl).reach1).2.2.2.1).length_eq
        rw [List.length_append] at this
        show s.pl.p1.finished.length ≤ s.pl.p1.started.length
        have e : (CrSt.mk s.pl s.fs).pl = s.pl := rfl
        rw [e] at this
        omega
      have hl2 : s.pl.p1.finished.length = (List.range s.pl.arrived).length := hfin.length_eq
      simp only [List.length_append] at hlen
      exact List.eq_nil_of_length_eq_zero (by omega)
    obtain ⟨t, ht, e1, e2⟩ := calm_arrive hs (by rw [hqe]; decide)
    obtain ⟨u, O', a1, a2, a3, a4⟩ := calm_settle ht hd hends
    exact ⟨u, O', a1, by rw [a2, e1, List.length_append, h1]; rfl, by rw [a3, e2]; exact congrArg (· + 1) h2, a4⟩

end

end P2P

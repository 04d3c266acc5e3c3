import Verif.Props.SystemNetEnd
/-! # Executions of `Model/SystemNet` in which everything is done -/
namespace P2P

/-- the program listens, and nothing has gone wrong -/
structure NetCalm (S : SysEnv) (port : Int) (fs0 : Bytes → Option Bytes) (s : SysNetSt) : Prop where
  reach : SysNetReach S port fs0 s
  listen : s.sys.pg.st.pc = .listen
  mem : s.sys.oom = false
  pc : ∀ p, s.sys.fs.pc p = .start ∨ s.sys.fs.pc p = .done
  fresh : ∀ p, p ∉ s.sys.pl.p2.finished → s.sys.fs.pc p = .start
  pg : ∃ st got, s.sys.pg = { pgStart S.hosts with st := st, got := got }

theorem NetCalm.up {S : SysEnv} {port : Int} {fs0 : Bytes → Option Bytes} {s : SysNetSt} (h : NetCalm S port fs0 s) : s.sys.up := by
  obtain ⟨st, got, e⟩ := h.pg
  have hl := h.listen
  exact ⟨⟨by rw [e]; rfl, by rw [hl]; simp, fun b => by rw [e]; simp [pgStart]⟩, h.mem⟩

/-- every download that comes out ends -/
def SysEnv.NetEnds (S : SysEnv) (port : Int) (fs0 : Bytes → Option Bytes) : Prop := ∀ s, SysNetReach S port fs0 s → ∀ p out, s.outcome S p = some out → out.Ends

section
variable {S : SysEnv} {port : Int} {fs0 : Bytes → Option Bytes} {s : SysNetSt}

theorem net_sys (h : SysNetReach S port fs0 s) : ∃ conn mem pool, SysReach (S.instead conn mem pool) port fs0 s.sys :=
  let ⟨_, _, _, _, _, hr, _⟩ := C113_refines h; ⟨_, _, _, hr⟩

/-- what `Model/System` can do here -/
theorem net_answers (h : SysNetReach S port fs0 s) :
    ∃ conn mem pool, ∃ O : Nat → Oracle, (∀ p, (O p).Fair) ∧ SysReach (S.instead conn mem pool) port fs0 s.sys ∧
      CrReach (crawlTraces S.K O S.pkts) ((S.instead conn mem pool).out O) S.dir fs0 S.W1 S.Q S.W2 ⟨s.sys.pl, s.sys.fs⟩ ∧
      Continues S s.sys (crawlTraces S.K O S.pkts) ∧
      ∀ p e, p ∉ s.sys.pl.p1.finished → (crawlTraces S.K O S.pkts p)[s.sys.pl.hdl p]? = some e →
        (∃ w, s.sys.w.replay S.K.env [e] = some w) ∧ ∀ to b f, e = .send to b f → s.sys.pg.connOpen = false → f = true := by
  obtain ⟨conn, mem, pool, hr⟩ := net_sys h
  obtain ⟨O, hO, hc, hcont, hnext⟩ := sys_answers hr
  exact ⟨conn, mem, pool, O, hO, hr, hc, hcont, hnext⟩

/-- a step of `Model/System` in which no download ends -/
theorem net_rest (h : NetCalm S port fs0 s) {conn : Nat → Bytes → PEnv} {mem : Nat → Nat → Bytes} {pool : Nat → BPool} {t : SysSt}
    (st : SysStep (S.instead conn mem pool) s.sys t) (hfs : t.fs = s.sys.fs) (hfin : t.pl.p2.finished = s.sys.pl.p2.finished) (hoom : t.oom = s.sys.oom)
    (hpg : ∃ st' got, t.pg = { s.sys.pg with st := st', got := got } ∧ st'.pc = s.sys.pg.st.pc) : NetCalm S port fs0 { s with sys := t } := by
  have hr : SysNetReach S port fs0 { s with sys := t } := by
    rcases sysStep_instead st hfs hfin hoom S.conn S.mem S.pool with h1 | h1
    · exact .step h.reach (.rest (show SysStep S s.sys t from h1) hfs hfin hoom)
    · rw [h1]; exact h.reach
  obtain ⟨st', got, e, epc⟩ := hpg
  obtain ⟨st0, got0, hg⟩ := h.pg
  exact ⟨hr, by simp only [e]; exact epc.trans h.listen, hoom.trans h.mem, fun p => by simp only [hfs]; exact h.pc p, fun p hp => by
    simp only [hfs]; exact h.fresh p (by rw [← hfin]; exact hp), st', got, by simp only [e, hg]⟩

/-- a step of the pipeline in which no download ends -/
theorem net_pipe (h : NetCalm S port fs0 s) {conn : Nat → Bytes → PEnv} {mem : Nat → Nat → Bytes} {pool : Nat → BPool} {O : Nat → Oracle} (hO : ∀ p, (O p).Fair)
    (hr : SysReach (S.instead conn mem pool) port fs0 s.sys)
    (hc : CrReach (crawlTraces S.K O S.pkts) ((S.instead conn mem pool).out O) S.dir fs0 S.W1 S.Q S.W2 ⟨s.sys.pl, s.sys.fs⟩)
    (hcont : Continues S s.sys (crawlTraces S.K O S.pkts))
    (hnext : ∀ p e, p ∉ s.sys.pl.p1.finished → (crawlTraces S.K O S.pkts p)[s.sys.pl.hdl p]? = some e →
        (∃ w, s.sys.w.replay S.K.env [e] = some w) ∧ ∀ to b f, e = .send to b f → s.sys.pg.connOpen = false → f = true)
    {pl : PlSt} (st : PlQuiet (crawlTraces S.K O S.pkts) S.W1 S.Q S.W2 s.sys.pl pl) (hf : pl.p2.finished = s.sys.pl.p2.finished) :
    ∃ t : SysSt, NetCalm S port fs0 { s with sys := t } ∧ t.pl = pl ∧ t.fs = s.sys.fs ∧ t.pg.got = s.sys.pg.got := by
  have I := pl_inv (C92_refines hc).1
  rcases sys_lift (S := S.instead conn mem pool) hr h.up h.listen hO hc hcont (.pipe st.1 hf) with h1 | ⟨i, p, e, hw, he, hne, hx⟩ | ⟨t, ht, a1, a2, a3, st', a4, a5⟩
  · exact absurd st.2 h1
  · obtain ⟨⟨w, hw'⟩, hsend⟩ := hnext p e (not_finished_of_running I.reach1 hw) he
    have hx : pl = { s.sys.pl with hdl := upd s.sys.pl.hdl p (s.sys.pl.hdl p + 1), log := s.sys.pl.log ++ [(p, e)] } := congrArg CrSt.pl hx
    subst hx
    refine ⟨_, net_rest h (.pipe (w := w) [(p, e)] h.up hcont st.1 rfl rfl rfl rfl hw' ?_ (.inr ⟨rfl, rfl⟩)) rfl rfl rfl ⟨_, _, rfl, rfl⟩, rfl, rfl, rfl⟩
    intro q to b f hm hcl
    simp only [List.mem_singleton, Prod.mk.injEq] at hm
    exact hsend to b f hm.2.symm hcl
  · have a1 : t.pl = pl := a1
    exact ⟨t, net_rest h ht a2 (by rw [a1]; exact hf) a3 ⟨st', _, a4, a5⟩, a1, a2, by rw [a4]⟩

/-- a download is run until it comes out -/
theorem net_download (h : NetCalm S port fs0 s) {i p : Nat} (hw : s.sys.pl.p2.workers[i]? = some (.running p)) :
    ∃ t, NetCalm S port fs0 t ∧ t.sys = s.sys ∧ (∃ out, t.outcome S p = some out) ∧ ∀ q, q ≠ p → t.dl q = s.dl q := by
  have key : ∀ th, Acc (fun b a => Thread.Goes a b) th → ∀ s : SysNetSt, s.dl p = th → NetCalm S port fs0 s → s.sys.pl.p2.workers[i]? = some (.running p) →
      ∃ t, NetCalm S port fs0 t ∧ t.sys = s.sys ∧ (∃ out, t.outcome S p = some out) ∧ ∀ q, q ≠ p → t.dl q = s.dl q := by
    intro th hacc
    induction hacc with
    | intro th _ ih =>
      intro s hs h hw
      cases ho : s.outcome S p with
      | some out => exact ⟨s, h, rfl, ⟨out, ho⟩, fun _ _ => rfl⟩
      | none =>
        obtain ⟨t, ht, hg, hsys, hoth⟩ := C113_never_stuck h.reach h.up hw ho
        have hcalm : NetCalm S port fs0 t := ⟨.step h.reach ht, by rw [hsys]; exact h.listen, by rw [hsys]; exact h.mem, by rw [hsys]; exact h.pc, by rw [hsys]; exact h.fresh, by rw [hsys]; exact h.pg⟩
        obtain ⟨u, b1, b2, b3, b4⟩ := ih _ (hs ▸ hg) t rfl hcalm (by rw [hsys]; exact hw)
        exact ⟨u, b1, b2.trans hsys, b3, fun q hq => (b4 q hq).trans (hoth q hq)⟩
  exact key _ (thread_acc _) s rfl h hw

/-- and its file written, without a failing call -/
theorem net_save (h : NetCalm S port fs0 s) (hd : S.dir = true) (hends : S.NetEnds port fs0) {i p : Nat} (hw : s.sys.pl.p2.workers[i]? = some (.running p))
    (hnf : p ∉ s.sys.pl.p2.finished) {out : HandlerOut} (ho : s.outcome S p = some out) :
    ∃ t, NetCalm S port fs0 t ∧
      t.sys.pl = { s.sys.pl with p2 := { s.sys.pl.p2 with workers := s.sys.pl.p2.workers.set i .select, finished := s.sys.pl.p2.finished ++ [p] } } ∧
      t.sys.pg = s.sys.pg ∧ t.dl = s.dl ∧ (∀ hash data, out = .flush hash data → t.sys.fs.fs (torrentPath hash) = some data) ∧
        ∀ path, (∀ hash data, out = .flush hash data → path ≠ torrentPath hash) → t.sys.fs.fs path = s.sys.fs.fs path := by
  have hstart := h.fresh p hnf
  have hup := h.up
  have hend := hends s h.reach p out ho
  have fin : ∀ fs' : FsSt, SysNetReach S port fs0 { s with sys := { s.sys with fs := fs' } } → HandlerReturns (fun _ => out) fs' p →
      (fs'.pc p = .start ∨ fs'.pc p = .done) → (∀ q, q ≠ p → fs'.pc q = s.sys.fs.pc q) → (∀ hash data, out = .flush hash data → fs'.fs (torrentPath hash) = some data) →
      (∀ path, (∀ hash data, out = .flush hash data → path ≠ torrentPath hash) → fs'.fs path = s.sys.fs.fs path) →
      ∃ t, NetCalm S port fs0 t ∧
        t.sys.pl = { s.sys.pl with p2 := { s.sys.pl.p2 with workers := s.sys.pl.p2.workers.set i .select, finished := s.sys.pl.p2.finished ++ [p] } } ∧
        t.sys.pg = s.sys.pg ∧ t.dl = s.dl ∧ (∀ hash data, out = .flush hash data → t.sys.fs.fs (torrentPath hash) = some data) ∧
        ∀ path, (∀ hash data, out = .flush hash data → path ≠ torrentPath hash) → t.sys.fs.fs path = s.sys.fs.fs path := by
    intro fs' hr hret hpc hoth hfile hpaths
    refine ⟨_, ⟨.step hr (.back i p out hup hw ho hret), h.listen, h.mem, fun q => ?_, fun q hq => ?_, h.pg⟩, rfl, rfl, rfl, hfile, hpaths⟩
    · by_cases e : q = p
      · rw [e]; exact hpc
      · show fs'.pc q = _ ∨ fs'.pc q = _
        rw [hoth q e]; exact h.pc q
    · simp only [List.mem_append, List.mem_singleton, not_or] at hq
      show fs'.pc q = _
      rw [hoth q hq.2]; exact h.fresh q hq.1
  cases out with
  | fatal => cases hend
  | diverge => cases hend
  | nothing => exact fin s.sys.fs h.reach (by unfold HandlerReturns; trivial) (h.pc p) (fun _ _ => rfl) (fun _ _ e => nomatch e) fun _ _ => rfl
  | flush hash data =>
    have hfl : (fun j => if j = p then flushes (fun _ => .flush hash data) j else none) p = some (hash, data) := by simp [flushes]
    have nd : ∀ {x : JobPc}, S.dir = false → x = .failed := fun h => by rw [hd] at h; cases h
    have r1 := Reach.step h.reach (SysNetStep.file i p _ hup hw ho (.create p hash data hfl hstart) nd)
    have last : ∀ fs' : FsSt, SysNetReach S port fs0 { s with sys := { s.sys with fs := fs' } } → fs'.pc p = .writing data.length → (∀ q, q ≠ p → fs'.pc q = s.sys.fs.pc q) →
        fs'.fs (torrentPath hash) = some data → (∀ path, path ≠ torrentPath hash → fs'.fs path = s.sys.fs.fs path) →
        ∃ t, NetCalm S port fs0 t ∧
          t.sys.pl = { s.sys.pl with p2 := { s.sys.pl.p2 with workers := s.sys.pl.p2.workers.set i .select, finished := s.sys.pl.p2.finished ++ [p] } } ∧
          t.sys.pg = s.sys.pg ∧ t.dl = s.dl ∧ (∀ h d, HandlerOut.flush hash data = .flush h d → t.sys.fs.fs (torrentPath h) = some d) ∧
          ∀ path, (∀ h d, HandlerOut.flush hash data = .flush h d → path ≠ torrentPath h) → t.sys.fs.fs path = s.sys.fs.fs path := by
      intro fs' r2 hpc hoth hdata hpaths
      have r3 := Reach.step r2 (SysNetStep.file i p (s := { s with sys := { s.sys with fs := fs' } }) _ hup hw ho (.finish p hash data data.length hfl hpc rfl) nd)
      refine fin _ r3 ?_ (.inr (upd_same _ _ _)) (fun q hq => ?_) (fun h d e => ?_) fun path hp => hpaths path (hp _ _ rfl)
      · unfold HandlerReturns; exact .inl (upd_same _ _ _)
      · show upd fs'.pc p .done q = _
        rw [upd_ne _ _ hq, hoth q hq]
      · cases e; exact hdata
    by_cases hdata : data = []
    · subst hdata
      exact last _ r1 (upd_same _ _ _) (fun q hq => upd_ne _ _ hq) (upd_same _ _ _) fun path hp => upd_ne _ _ hp
    · have hpos : 0 < data.length := List.length_pos_iff.2 hdata
      have r2 := Reach.step r1 (SysNetStep.file i p (s := { s with sys := { s.sys with fs := _ } }) _ hup hw ho
        (.write p hash data [] 0 data.length hfl (upd_same _ _ _) (upd_same _ _ _) hpos (by omega)) nd)
      refine last _ r2 ?_ ?_ ?_ ?_
      · simp
      · intro q hq
        show upd (upd s.sys.fs.pc p _) p _ q = _
        rw [upd_ne _ _ hq, upd_ne _ _ hq]
      · show upd _ (torrentPath hash) _ (torrentPath hash) = _
        rw [upd_same]
        simp [writeAt]
      · intro path hp
        show upd (upd s.sys.fs.fs (torrentPath hash) _) (torrentPath hash) _ path = _
        rw [upd_ne _ _ hp, upd_ne _ _ hp]

/-- without a download ending: until nothing else can happen -/
theorem net_park (h : NetCalm S port fs0 s) :
    ∃ t conn mem pool O, NetCalm S port fs0 { s with sys := t } ∧ t.pg.got = s.sys.pg.got ∧ t.pl.arrived = s.sys.pl.arrived ∧ t.fs = s.sys.fs ∧
      t.pl.p2.finished = s.sys.pl.p2.finished ∧ (∀ p, (O p).Fair) ∧
      CrReach (crawlTraces S.K O S.pkts) ((S.instead conn mem pool).out O) S.dir fs0 S.W1 S.Q S.W2 ⟨t.pl, t.fs⟩ ∧
      ∀ u, PlQuiet (crawlTraces S.K O S.pkts) S.W1 S.Q S.W2 t.pl u → u.p2.finished ≠ t.pl.p2.finished := by
  obtain ⟨B, hB⟩ := traces_bound S.K S.pkts
  have key : ∀ n s, backlog B s.sys.pl ≤ n → NetCalm S port fs0 s → ∃ t conn mem pool O, NetCalm S port fs0 { s with sys := t } ∧ t.pg.got = s.sys.pg.got ∧
      t.pl.arrived = s.sys.pl.arrived ∧ t.fs = s.sys.fs ∧
      t.pl.p2.finished = s.sys.pl.p2.finished ∧ (∀ p, (O p).Fair) ∧
      CrReach (crawlTraces S.K O S.pkts) ((S.instead conn mem pool).out O) S.dir fs0 S.W1 S.Q S.W2 ⟨t.pl, t.fs⟩ ∧
      ∀ u, PlQuiet (crawlTraces S.K O S.pkts) S.W1 S.Q S.W2 t.pl u → u.p2.finished ≠ t.pl.p2.finished := by
    intro n
    induction n with
    | zero =>
      intro s hn h
      obtain ⟨conn, mem, pool, O, hO, hr, hc, hcont, hnext⟩ := net_answers h.reach
      refine ⟨s.sys, conn, mem, pool, O, h, rfl, rfl, rfl, rfl, hO, hc, fun u hu => ?_⟩
      have : backlog B u < backlog B s.sys.pl := backlog_decreases (C92_refines hc).1 (hB O hO) hu
      omega
    | succ n ih =>
      intro s hn h
      obtain ⟨conn, mem, pool, O, hO, hr, hc, hcont, hnext⟩ := net_answers h.reach
      by_cases hq : ∃ u, PlQuiet (crawlTraces S.K O S.pkts) S.W1 S.Q S.W2 s.sys.pl u ∧ u.p2.finished = s.sys.pl.p2.finished
      · obtain ⟨u, hu, hf⟩ := hq
        have hdec : backlog B u < backlog B s.sys.pl := backlog_decreases (C92_refines hc).1 (hB O hO) hu
        obtain ⟨t, ht, e1, e2, e3⟩ := net_pipe h hO hr hc hcont hnext hu hf
        obtain ⟨v, conn', mem', pool', O', a1, a2, a3, a4, a5, a6⟩ := ih { s with sys := t } (by simp only [e1]; omega) ht
        exact ⟨v, conn', mem', pool', O', a1, a2.trans e3, a3.trans (by simp only [e1]; exact hu.2), a4.trans e2, a5.trans (by simp only [e1]; exact hf), a6⟩
      · exact ⟨s.sys, conn, mem, pool, O, h, rfl, rfl, rfl, rfl, hO, hc, fun u hu hf => hq ⟨u, hu, hf⟩⟩
  exact key _ s (Nat.le_refl _) h

/-- everything that has been handed on is handled, without further datagrams -/
theorem net_settle (h : NetCalm S port fs0 s) (hd : S.dir = true) (hends : S.NetEnds port fs0) :
    ∃ t conn mem pool O, NetCalm S port fs0 t ∧ t.sys.pg.got = s.sys.pg.got ∧ t.sys.pl.arrived = s.sys.pl.arrived ∧ (∀ p, (O p).Fair) ∧
      CrReach (crawlTraces S.K O S.pkts) ((S.instead conn mem pool).out O) S.dir fs0 S.W1 S.Q S.W2 ⟨t.sys.pl, t.sys.fs⟩ ∧
      ∀ u, ¬ PlQuiet (crawlTraces S.K O S.pkts) S.W1 S.Q S.W2 t.sys.pl u := by
  obtain ⟨B, hB⟩ := traces_bound S.K S.pkts
  have key : ∀ n s, backlog B s.sys.pl ≤ n → NetCalm S port fs0 s → ∃ t conn mem pool O, NetCalm S port fs0 t ∧ t.sys.pg.got = s.sys.pg.got ∧ t.sys.pl.arrived = s.sys.pl.arrived ∧
      (∀ p, (O p).Fair) ∧ CrReach (crawlTraces S.K O S.pkts) ((S.instead conn mem pool).out O) S.dir fs0 S.W1 S.Q S.W2 ⟨t.sys.pl, t.sys.fs⟩ ∧
      ∀ u, ¬ PlQuiet (crawlTraces S.K O S.pkts) S.W1 S.Q S.W2 t.sys.pl u := by
    intro n
    induction n with
    | zero =>
      intro s hn h
      obtain ⟨conn, mem, pool, O, hO, hr, hc, hcont, hnext⟩ := net_answers h.reach
      refine ⟨s, conn, mem, pool, O, h, rfl, rfl, hO, hc, fun u hu => ?_⟩
      have : backlog B u < backlog B s.sys.pl := backlog_decreases (C92_refines hc).1 (hB O hO) hu
      omega
    | succ n ih =>
      intro s hn h
      obtain ⟨conn, mem, pool, O, hO, hr, hc, hcont, hnext⟩ := net_answers h.reach
      by_cases hq : ∃ u, PlQuiet (crawlTraces S.K O S.pkts) S.W1 S.Q S.W2 s.sys.pl u
      · obtain ⟨u, hu⟩ := hq
        have hdec : backlog B u < backlog B s.sys.pl := backlog_decreases (C92_refines hc).1 (hB O hO) hu
        have step : ∃ t, NetCalm S port fs0 t ∧ t.sys.pl = u ∧ t.sys.pg.got = s.sys.pg.got := by
          have go : u.p2.finished = s.sys.pl.p2.finished → ∃ t, NetCalm S port fs0 t ∧ t.sys.pl = u ∧ t.sys.pg.got = s.sys.pg.got := fun hf =>
            let ⟨t, ht, e1, _, e3⟩ := net_pipe h hO hr hc hcont hnext hu hf; ⟨_, ht, e1, e3⟩
          have hu' := hu.1
          cases hu' with
          | done2 i p hw =>
            obtain ⟨v, hv, e1, ⟨out, ho⟩, -⟩ := net_download h hw
            obtain ⟨t, ht, a1, a2, -⟩ := net_save hv hd hends (by rw [e1]; exact hw) (by rw [e1]; exact not_finished_of_running (pl_inv (C92_refines hc).1).reach2 hw) ho
            exact ⟨t, ht, by rw [a1, e1], by rw [a2, e1]⟩
          | _ => exact go rfl
        obtain ⟨t, ht, e1, e2⟩ := step
        obtain ⟨v, conn', mem', pool', O', a1, a2, a3, a4⟩ := ih t (by rw [e1]; omega) ht
        exact ⟨v, conn', mem', pool', O', a1, a2.trans e2, a3.trans (by rw [e1]; exact hu.2), a4⟩
      · exact ⟨s, conn, mem, pool, O, h, rfl, rfl, hO, hc, fun u hu => hq ⟨u, hu⟩⟩
  exact key _ s (Nat.le_refl _) h

/-- a datagram is read and handed on -/
theorem net_arrive (h : NetCalm S port fs0 s) (hq : s.sys.pl.recvq.length < 100) :
    ∃ t, NetCalm S port fs0 { s with sys := t } ∧ t.pg.got = s.sys.pg.got ++ [S.pkts s.sys.pg.got.length] ∧ t.fs = s.sys.fs ∧
      t.pl = { s.sys.pl with recvq := s.sys.pl.recvq ++ [s.sys.pl.arrived], arrived := s.sys.pl.arrived + 1 } := by
  obtain ⟨st, got, hg⟩ := h.pg
  have hup := h.up
  obtain ⟨conn, mem, pool, hr⟩ := net_sys h.reach
  have alive : ∀ r g, ({ s.sys.pg with rcv := r, got := g } : PgSt).alive := fun r g => ⟨hup.1.1, hup.1.2.1, hup.1.2.2⟩
  have htop : s.sys.pg.rcv = .top := by rw [hg]; rfl
  have hopen : s.sys.pg.connOpen = true := by rw [hg]; rfl
  have hcl : s.sys.pg.closed = false := by rw [hg]; rfl
  have hqq : s.sys.pg.st.queue.length < recvqCap := by rw [(sys_link hr).queue, List.length_map]; exact hq
  have r1 : SysNetReach S port fs0 { s with sys := { s.sys with pg := { s.sys.pg with rcv := .reading } } } := by
    have hp : PgStep S.K s.sys.pg { s.sys.pg with rcv := .reading } := by
      have := PgStep.other (K := S.K) hup.1 (.test htop)
      simpa [hcl] using this
    exact .step h.reach (.rest (.life hup hp rfl rfl rfl) rfl rfl rfl)
  have r2 : SysNetReach S port fs0 { s with sys := { s.sys with pg := { s.sys.pg with rcv := .sending (S.pkts s.sys.pg.got.length), got := s.sys.pg.got ++ [S.pkts s.sys.pg.got.length] } } } :=
    .step r1 (.rest (s := { s with sys := { s.sys with pg := { s.sys.pg with rcv := .reading } } })
      (SysStep.read (s := { s.sys with pg := { s.sys.pg with rcv := .reading } }) ⟨alive .reading s.sys.pg.got, hup.2⟩
      (.other (alive .reading s.sys.pg.got) (.read (S.pkts s.sys.pg.got.length) rfl hopen)) rfl) rfl rfl rfl)
  have r3 := Reach.step r2 (.rest (SysStep.deliver (S := S)
    (s := { s.sys with pg := { s.sys.pg with rcv := .sending (S.pkts s.sys.pg.got.length), got := s.sys.pg.got ++ [S.pkts s.sys.pg.got.length] } })
    (S.pkts s.sys.pg.got.length) ⟨alive _ _, hup.2⟩ (.other (alive _ _) (.deliver rfl hqq)) rfl) rfl rfl rfl)
  exact ⟨_, ⟨r3, h.listen, h.mem, h.pc, h.fresh, _, _, by simp only [hg]; rfl⟩, rfl, rfl, rfl⟩

/-- the program comes to listen -/
theorem net_listens {t : RouteTable} (h : initialTable port = .ok t) (hh : ∀ a ∈ S.hosts, a ≠ none) :
    ∃ s, NetCalm S port fs0 s ∧ s.sys.pl = (sysStart S fs0 t).pl ∧ s.sys.fs = (sysStart S fs0 t).fs ∧ s.sys.pg.got = [] ∧ (s.dl = fun _ => .idle) ∧ s.shared.1 = (fun _ => []) ∧ NewBytesPool 10000 4 0 = .ok s.shared.2 := by
  have hpool : ∃ p, NewBytesPool 10000 4 0 = .ok p := ⟨_, rfl⟩
  obtain ⟨p0, hp0⟩ := hpool
  have key : ∀ n (s : SysSt), s.pg.st.pc.left ≤ n → SysNetReach S port fs0 ⟨s, (fun _ => [], p0), fun _ => .idle⟩ → s.pl = (sysStart S fs0 t).pl → s.fs = (sysStart S fs0 t).fs →
      s.oom = false → s.pg.st.pc ≠ .dead → (∃ st, s.pg = { pgStart S.hosts with st := st }) →
      ∃ s, NetCalm S port fs0 s ∧ s.sys.pl = (sysStart S fs0 t).pl ∧ s.sys.fs = (sysStart S fs0 t).fs ∧ s.sys.pg.got = [] ∧ (s.dl = fun _ => .idle) ∧ s.shared.1 = (fun _ => []) ∧ NewBytesPool 10000 4 0 = .ok s.shared.2 := by
    intro n
    induction n with
    | zero =>
      intro s hn hr h1 h2 h3 hd ⟨st, h4⟩
      obtain ⟨conn, mem, pool, hsr⟩ := net_sys hr
      have hl : s.pg.st.pc = .listen := by
        rcases (C63_progress (C83_startup (sys_program hsr)) (O := s.w.oracle S.K.env []) (World.oracle_fair _ _ _)).2.2.2.2.1 (Nat.le_zero.1 hn) with h | h
        · exact h
        · exact absurd h hd
      exact ⟨_, ⟨hr, hl, h3, fun p => .inl (by simp only [h2]; rfl), fun p _ => by simp only [h2]; rfl, st, [], h4⟩, h1, h2, by simp only [h4]; rfl, rfl, rfl, hp0⟩
    | succ n ih =>
      intro s hn hr h1 h2 h3 hd ⟨st, h4⟩
      by_cases hl : s.pg.st.pc = .listen
      · exact ⟨_, ⟨hr, hl, h3, fun p => .inl (by simp only [h2]; rfl), fun p _ => by simp only [h2]; rfl, st, [], h4⟩, h1, h2, by simp only [h4]; rfl, rfl, rfl, hp0⟩
      · have hup : s.up := ⟨⟨by rw [h4]; rfl, hd, fun b => by rw [h4]; simp [pgStart]⟩, h3⟩
        obtain ⟨conn, mem, pool, hsr⟩ := net_sys hr
        obtain ⟨u, hs, a1, a2, a3, a4, ⟨st', a5⟩, -, a6⟩ := sys_boot hsr hup hl
        have hu : SysNetReach S port fs0 ⟨u, (fun _ => [], p0), fun _ => .idle⟩ := by
          rcases sysStep_instead hs a3 (by rw [a2]) a4 S.conn S.mem S.pool with g | g
          · exact .step hr (.rest (show SysStep S s u from g) a3 (by rw [a2]) a4)
          · rw [g]; exact hr
        have a1 : u.pg.st.pc.left < s.pg.st.pc.left := a1
        exact ih u (by omega) hu (a2.trans h1) (a3.trans h2) (a4.trans h3) (a6 hh) ⟨st', by rw [a5, h4]⟩
  exact key _ (sysStart S fs0 t) (Nat.le_refl _) (.init ⟨sysStart_init h, hp0, rfl⟩) rfl rfl rfl (by simp [sysStart, pgStart]) ⟨_, rfl⟩

end
end P2P

import Verif.Lemmas.SystemProgress
/-! # What the parts can do, the whole can do -/
namespace P2P

section
variable {S : SysEnv} {port : Int} {fs0 : Bytes → Option Bytes} {s : SysSt}

theorem sys_fetching (h : SysReach S port fs0 s) (hl : s.pg.st.pc = .listen) : s.pg.st.fetching = true := by
  obtain ⟨-, -, -, h4⟩ := stReach_inv (C83_startup (sys_program h))
  rw [hl] at h4
  exact h4.2.2.1

/-- Once the server listens, every step of the crawler (`Model/Whole`) is a step of the system, except that datagrams arrive by the receive goroutine and that
handlers are answered by the shared objects. -/
theorem sys_lift (h : SysReach S port fs0 s) (up : s.up) (hl : s.pg.st.pc = .listen) {O : Nat → Oracle} (hO : ∀ p, (O p).Fair)
    (hc : CrReach (crawlTraces S.K O S.pkts) (S.out O) S.dir fs0 S.W1 S.Q S.W2 ⟨s.pl, s.fs⟩) (hcont : Continues S s (crawlTraces S.K O S.pkts))
    {c : CrSt} (st : CrStep (crawlTraces S.K O S.pkts) (S.out O) S.dir S.W1 S.Q S.W2 ⟨s.pl, s.fs⟩ c) :
    c.pl.arrived ≠ s.pl.arrived ∨
    (∃ (i p : Nat) (e : Event), s.pl.p1.workers[i]? = some (.running p) ∧ (crawlTraces S.K O S.pkts p)[s.pl.hdl p]? = some e ∧ e.isEnqueue = false ∧
      c = ⟨{ s.pl with hdl := upd s.pl.hdl p (s.pl.hdl p + 1), log := s.pl.log ++ [(p, e)] }, s.fs⟩) ∨
    ∃ t, SysStep S s t ∧ t.pl = c.pl ∧ t.fs = c.fs ∧ t.oom = s.oom ∧ ∃ st, t.pg = { s.pg with st := st } ∧ st.pc = s.pg.st.pc := by
  have hf := sys_fetching h hl
  have hpl := (C92_refines hc).1
  have mk : ∀ {pl : PlSt}, PlStep (crawlTraces S.K O S.pkts) S.W1 S.Q S.W2 s.pl pl → pl.arrived = s.pl.arrived → pl.recvq = s.pl.recvq →
      pl.p2.finished = s.pl.p2.finished → pl.log = s.pl.log → ∃ t, SysStep S s t ∧ t.pl = pl ∧ t.fs = s.fs ∧ t.oom = s.oom ∧ ∃ st, t.pg = { s.pg with st := st } ∧ st.pc = s.pg.st.pc := by
    intro pl st h1 h2 h3 h4
    exact ⟨_, .pipe (w := s.w) [] up hcont st h1 h2 h3 (by simpa using h4) rfl (by simp) (.inl hf), rfl, rfl, rfl, _, rfl, rfl⟩
  have enq : ∀ {pl : PlSt} {p : Nat} {job : Job}, PlStep (crawlTraces S.K O S.pkts) S.W1 S.Q S.W2 s.pl pl → pl.arrived = s.pl.arrived → pl.recvq = s.pl.recvq →
      pl.p2.finished = s.pl.p2.finished → pl.log = s.pl.log ++ [(p, .enqueue job)] → ∃ t, SysStep S s t ∧ t.pl = pl ∧ t.fs = s.fs ∧ t.oom = s.oom ∧ ∃ st, t.pg = { s.pg with st := st } ∧ st.pc = s.pg.st.pc := by
    intro pl p job st h1 h2 h3 h4
    exact ⟨_, .pipe (w := s.w) [(p, .enqueue job)] up hcont st h1 h2 h3 h4 rfl (by simp) (.inl hf), rfl, rfl, rfl, _, rfl, rfl⟩
  have outs : ∀ {i p : Nat}, s.pl.p2.workers[i]? = some (.running p) → s.outs S p = S.out O p := fun hw => outs_eq S hO hpl hw
  cases st with
  | pipe st hfin =>
    have st' := st
    cases st with
    | arrive _ => left; simp
    | listenTake p q a b =>
      right; right
      have hq : s.pg.st.queue = S.pkts p :: q.map S.pkts := by
        rw [(sys_link h).queue]; simp only at b; rw [b]; rfl
      exact ⟨_, .take _ p q up (.other up.1 (.startup (.take hl hq))) rfl a b, rfl, rfl, rfl, _, rfl, rfl⟩
    | handle i p e a b c => exact .inr (.inl ⟨i, p, e, a, b, c, rfl⟩)
    | enqueue i p j a b c => exact .inr (.inr (enq st' rfl rfl rfl rfl))
    | handoff i p j a b c d => exact .inr (.inr (enq st' rfl rfl rfl rfl))
    | done2 i p a => exact absurd hfin fun e => snoc_ne (Eq.symm e)
    | _ => exact .inr (.inr (mk st' rfl rfl rfl rfl))
  | file i p hw st hd =>
    right; right
    refine ⟨_, .file i p up hw ?_ hd, rfl, rfl, rfl, _, rfl, rfl⟩
    have e : (fun j => if j = p then flushes (s.outs S) j else none) = fun j => if j = p then flushes (S.out O) j else none := by
      funext j
      by_cases hj : j = p
      · subst hj; simp [flushes, outs hw]
      · simp [hj]
    rw [e]; exact st
  | back p st hfin hr =>
    right; right
    cases st with
    | done2 i q a =>
      have : q = p := by simpa using hfin
      subst this
      refine ⟨_, .back i q up a ?_, rfl, rfl, rfl, _, rfl, rfl⟩
      unfold HandlerReturns at hr ⊢
      rw [outs a]; exact hr
    | _ => exact absurd hfin fun e => snoc_ne e

end

end P2P

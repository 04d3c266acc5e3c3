import Verif.Props.ProgramLog2
/-! # C100: every run has a log; the log goes on; examples -/
namespace P2P
variable {K : KEnv} {L : LifeEnv} {H : List (Bytes × Option UDPAddr)}

theorem runs_from {u : PLogSt} (h : PLogReach K L H u) (hd : u.dying = none) {p : PgSt} (hp : Reach (· = u.pg) (PgStep K) p) :
    ∃ t, PLogReach K L H t ∧ t.pg = p ∧ u.log <+: t.log ∧ (p.st.pc ≠ .dead → t.dying = none) := by
  induction hp with
  | init e => exact ⟨u, h, e.symm, List.prefix_rfl, fun _ => hd⟩
  | @step p q hr st ih =>
    obtain ⟨t, h1, h2, h3, h4⟩ := ih
    have ha : p.alive := by cases st <;> assumption
    rw [← h2] at st
    obtain ⟨v, v1, v2, v3, v4⟩ := C100_runs_step h1 (h4 ha.2.1) st
    exact ⟨v, v1, v2, h3.trans v3, v4⟩

/-- C100: **logging prevents nothing**: every run of the program of C83 is the run of a program that logs. -/
theorem C100_runs {p : PgSt} (h : PgReach K (H.map Prod.snd) p) : ∃ t, PLogReach K L H t ∧ t.pg = p := by
  have : ∃ p0, PgInit (H.map Prod.snd) p0 ∧ Reach (· = p0) (PgStep K) p := by
    induction h with
    | @init p hi => exact ⟨p, hi, .init rfl⟩
    | step _ st ih => obtain ⟨p0, h1, h2⟩ := ih; exact ⟨p0, h1, h2.step st⟩
  obtain ⟨p0, h1, h2⟩ := this
  have hi : PLogInit H { pg := p0, hosts := H, pend := upd (fun _ => []) .main (nextHello H), dying := none, log := [] } := ⟨h1, rfl, rfl, rfl, rfl⟩
  obtain ⟨t, t1, t2, -, -⟩ := runs_from (K := K) (L := L) (.init hi) rfl h2
  exact ⟨t, t1, t2⟩

/-- what the main goroutine still has to do -/
def PLogSt.weight (s : PLogSt) : Nat := 3 * s.pg.main.left + (s.pend .main).length

theorem weight_write (s : PLogSt) {r : LogRec} {q : List LogRec} {g : Gor} (hp : s.pend g = r :: q) :
    ({ s with pend := upd s.pend g q, log := s.log ++ [(g, r)] } : PLogSt).weight ≤ s.weight ∧
    (g = .main → ({ s with pend := upd s.pend g q, log := s.log ++ [(g, r)] } : PLogSt).weight < s.weight) := by
  unfold PLogSt.weight
  by_cases e : g = .main
  · subst e; simp only [upd_same, hp, List.length_cons]; omega
  · simp only [upd_ne s.pend q (fun x => e x.symm : Gor.main ≠ g)]
    exact ⟨Nat.le_refl _, fun x => absurd x e⟩

theorem weight_wait {s : PLogSt} {p : PgSt} {sig : Bytes} (hp : s.pend .main = []) (m : PgMain s.pg p) :
    (s.act p .main (waitSays sig p.main)).weight < s.weight := by
  unfold PLogSt.weight
  rw [act_pend, hp, act_pg]
  cases m with
  | wake _ e _ => rw [e]; simp [WaitPc.left, waitSays]
  | store e => rw [e]; simp [WaitPc.left, waitSays]
  | runCleans e => rw [e]; simp [WaitPc.left, waitSays]
  | finished e _ => rw [e]; simp [WaitPc.left, waitSays]
  | timeout e => rw [e]; simp [WaitPc.left, waitSays]
  | exit e => rw [e]; simp [WaitPc.left, waitSays]

/-- C100: **the log of an ending program goes on to its last record**: once a signal has arrived and bootstrapping is over, the main goroutine always has a
step of its own to take until the process has ended, every such step brings it nearer to the end, and nothing anybody else does takes it away. -/
theorem C100_main_moves {s : PLogSt} (h : PLogReach K L H s) (hs : 1 ≤ s.pg.signals) (hb : s.pg.st.pc.booted = true) :
    (s.pg.alive → ∃ t, PLogStep K L s t ∧ t.weight < s.weight) ∧
    (∀ t, PLogStep K L s t → t.weight ≤ s.weight ∧ 1 ≤ t.pg.signals ∧ t.pg.st.pc.booted = true) := by
  have hx := C83_one_signal_suffices (C100_erases h) hs hb
  constructor
  · intro ha
    cases hp : s.pend .main with
    | cons r q => exact ⟨_, .write .main ha hp, (weight_write s hp).2 rfl⟩
    | nil =>
      obtain ⟨p, m⟩ := hx.2.2.1 ha
      exact ⟨_, .main ha hp (.wait (sig := b!"interrupt") (by simp) m), weight_wait hp m⟩
  · intro t st
    refine ⟨?_, ?_⟩
    · cases st with
      | write g a hp => exact (weight_write s hp).1
      | main a hp m =>
        cases m with
        | bootOk _ _ e => rw [e] at hb; cases hb
        | bootFails _ _ e => rw [e] at hb; cases hb
        | bootPanic => exact Nat.le_refl _
        | run e => rw [e] at hb; cases hb
        | wait hs m => exact Nat.le_of_lt (weight_wait hp m)
      | run a hp m => cases m <;> (unfold PLogSt.weight; rw [act_pend_ne _ _ (by decide)]; exact Nat.le_refl _)
      | closer a hp m => cases m <;> (unfold PLogSt.weight; rw [act_pend_ne _ _ (by decide)]; exact Nat.le_refl _)
      | rcv a hp m => cases m <;> (unfold PLogSt.weight; rw [act_pend_ne _ _ (by decide)]; exact Nat.le_refl _)
      | quiet a m =>
        cases m with
        | rangeOne => unfold PLogSt.weight; rw [act_pend_ne _ _ (by decide)]; exact Nat.le_refl _
        | _ => exact Nat.le_refl _
    · rcases pg_of_step h st with x | x
      · exact (hx.2.2.2.2 _ x).2
      · rw [x]; exact ⟨hs, hb⟩

/-! ## Examples -/

theorem recsOf_split {g : Gor} {log : List (Gor × LogRec)} : ∀ {p q : List LogRec} {r : LogRec}, recsOf g log = p ++ r :: q →
    ∃ a b, log = a ++ (g, r) :: b ∧ recsOf g a = p ∧ recsOf g b = q := by
  induction log with
  | nil => intro p q r e; simp [recsOf] at e
  | cons x log ih =>
    obtain ⟨g', r'⟩ := x
    intro p q r e
    by_cases hg : g' = g
    · subst hg
      have e' : recsOf g' ((g', r') :: log) = r' :: recsOf g' log := by simp [recsOf]
      rw [e'] at e
      cases p with
      | nil => obtain ⟨rfl, e2⟩ := List.cons.inj e; exact ⟨[], log, rfl, rfl, e2⟩
      | cons r0 p =>
        obtain ⟨rfl, e2⟩ := List.cons.inj e
        obtain ⟨a, b, h1, h2, h3⟩ := ih e2
        exact ⟨(g', r') :: a, b, by rw [h1]; rfl, by rw [← h2]; simp [recsOf], h3⟩
    · have e' : recsOf g ((g', r') :: log) = recsOf g log := by simp [recsOf, hg]
      rw [e'] at e
      obtain ⟨a, b, h1, h2, h3⟩ := ih e
      exact ⟨(g', r') :: a, b, by rw [h1]; rfl, by rw [← h2]; simp [recsOf, hg], h3⟩

/-- as long as it waits, the main goroutine has said nothing of the shutdown but that it waits -/
theorem select_said {s : PLogSt} (h : PLogReach K L H s) (hm : s.pg.main = .select) {r : LogRec} (hr : r ∈ recsOf .main s.log) (hp : r.pfx = b!"shutdown") :
    r = sdRec b!"blocking in main goroutinue..." none := by
  have hr := (List.prefix_append _ (s.pend .main)).subset hr
  cases plogReach_main h with
  | dying e0 e1 e2 e3 e4 e5 =>
    rw [show recsOf .main s.log ++ s.pend .main = s.said .main from rfl, e5] at hr
    rcases List.mem_append.1 hr with hr | hr
    · exact absurd hp (bootsDone_msg e3 _ hr)
    · exact absurd hp (bootLines_msg e4 _ hr)
  | boot e0 e1 e2 e3 e4 =>
    rw [show recsOf .main s.log ++ s.pend .main = s.said .main from rfl, e4] at hr
    rcases List.mem_append.1 hr with hr | hr
    · exact absurd hp (bootsDone_msg e3 _ hr)
    · cases hh : s.hosts with
      | nil => rw [hh] at hr; cases hr
      | cons y r => rw [hh] at hr; simp only [nextHello, List.mem_singleton] at hr; subst hr; revert hp; show b!"dht" = _ → _; intro x; exact absurd x (by decide)
  | up e0 e1 e2 e3 e4 =>
    rw [show recsOf .main s.log ++ s.pend .main = s.said .main from rfl, e4, hm] at hr
    rcases List.mem_append.1 hr with hr | hr
    · exact absurd hp (bootsDone_msg e3 _ hr)
    · simpa [saidWait] using hr

/-- hypotheses of `C100_cleaned`, `C100_deaf`, `C100_main_log` at an end, `C100_read_log`: the log of an orderly end, with a datagram -/
theorem C100_example_orderly (L : LifeEnv) (hosts : List (Bytes × UDPAddr)) (p : RecvPacket) :
    ∃ s a b c, PLogReach exK L (hosts.map fun x => (x.1, some x.2)) s ∧ s.pg.main = .exited false ∧ p ∈ s.pg.got ∧
      s.log = a ++ (.main, ⟨b!"shutdown", .Trace, b!"start cleaning...", none⟩) :: b ++ (.main, ⟨b!"shutdown", .Trace, b!"shutdown clean all", none⟩) :: c ∧
      (⟨b!"dht", .Info, b!"enter listen loop...", none⟩ : LogRec) ∈ recsOf .run a ∧
      (∃ x y, s.log = x ++ (.closer, ⟨b!"server", .Info, b!"close udp conn", none⟩) :: y) := by
  have hH : (hosts.map fun x => (x.1, some x.2)).map Prod.snd = (hosts.map Prod.snd).map some := by simp
  obtain ⟨p0, p1, q1, q2, q3, q4, q5, q6, q7, q8, q9⟩ := C83_orderly_end (hosts.map Prod.snd) p
  rw [← hH] at q1
  have hi0 := pgReach_inv q1
  have hm0 : p0.main = .select := by
    by_cases hm : p0.main = .select
    · exact hm
    · have := (hi0.left hm).2; omega
  have hl0 : p0.st.pc = .listen := by
    have hs := (stReach_inv hi0.st).2.2.2
    cases hx : p0.st.pc <;> rw [hx] at hs <;> obtain ⟨x, hs⟩ := hs <;> simp_all
  have hal : p0.alive := by
    refine ⟨?_, by rw [hl0]; simp, by rw [hm0]; simp⟩
    cases hk : p0.killed with
    | false => rfl
    | true => have := (C83_killed q1 hk).2.2.1; omega
  obtain ⟨u0, u1, u2⟩ := C100_runs (L := L) q1
  obtain ⟨u, v1, v2, v3, v4, v5, v6⟩ := flush u1 (by rw [u2]; exact hal)
  rw [u2] at v2
  have hdy : u.dying = none := by
    cases hd : u.dying with
    | none => rfl
    | some tr =>
      rcases (plogReach_base v1).dying tr hd with e | ⟨_, _, _, _, _, e, -⟩
      · rw [v2, hl0] at e; cases e
      · rw [v2, hl0] at e; cases e
  have hlisten : (⟨b!"dht", .Info, b!"enter listen loop...", none⟩ : LogRec) ∈ recsOf .run u.log := by
    have := plogReach_run v1
    rw [said_of_pend_nil (v6 _), v2, hl0] at this
    rw [this]; simp [saidRun, runLines]
  rw [← v2] at q4
  obtain ⟨t, t1, t2, t3, -⟩ := runs_from v1 hdy q4
  obtain ⟨e, full, m1, m2, m3, -⟩ := C100_main_log t1
  obtain ⟨m4, m5⟩ := m3 false (by rw [t2]; exact q5)
  subst m4
  rw [← m5] at m1
  obtain ⟨l, sig, n3, n4⟩ : ∃ l sig, BootsDone exK L (hosts.map fun x => (x.1, some x.2)) l ∧ recsOf .main t.log = l ++
        [⟨b!"shutdown", .Trace, b!"blocking in main goroutinue...", none⟩, ⟨b!"shutdown", .Trace, b!"received shutdown signal", some [(b!"sig", lstr sig)]⟩] ++
        ⟨b!"shutdown", .Trace, b!"start cleaning...", none⟩ :: ([] ++ ⟨b!"shutdown", .Trace, b!"shutdown clean all", none⟩ ::
         [⟨b!"shutdown", .Trace, b!"shutdown finish...", none⟩]) := by
    generalize hrec : recsOf .main t.log = w at m1
    cases m1 with
    | @ended l sig _ w1 w2 => exact ⟨l, sig, w1, by simp⟩
  obtain ⟨a, b0, s1, s2, s3⟩ := recsOf_split n4
  obtain ⟨b, c, s4, s5, s6⟩ := recsOf_split s3
  have hpre : u.log <+: a := by
    rw [s1] at t3
    rcases List.prefix_or_prefix_of_prefix t3 (List.prefix_append a _) with x | x
    · exact x
    · obtain ⟨y, hy⟩ := x
      rw [← hy] at t3
      have t4 := (List.prefix_append_right_inj a).1 t3
      cases y with
      | nil => simp only [List.append_nil] at hy; rw [hy]; exact List.prefix_rfl
      | cons z y =>
        obtain ⟨w, hw⟩ := t4
        obtain ⟨hz, -⟩ := List.cons.inj hw
        subst hz
        have hmem : (⟨b!"shutdown", .Trace, b!"start cleaning...", none⟩ : LogRec) ∈ recsOf .main u.log := by
          rw [← hy, recsOf_append]; exact List.mem_append_right _ (by simp [recsOf])
        have := select_said v1 (by rw [v2]; exact hm0) hmem rfl
        exact absurd this (by intro e; have := congrArg LogRec.msg e; revert this; simp [sdRec])
  refine ⟨t, a, b, c, t1, by rw [t2]; exact q5, by rw [t2]; exact q8, by rw [s1, s4]; simp, (recsOf_prefix _ hpre).subset hlisten, ?_⟩
  have hcl := C100_cleaned t1 (a := a) (b := b) (c := c) (by rw [s1, s4]; simp) ((recsOf_prefix _ hpre).subset hlisten)
  have : recsOf .closer t.log = [⟨b!"udp", .Trace, b!"conn closing...", some [(b!"laddr", lstringer L.C.laddr)]⟩] ++
      ⟨b!"server", .Info, b!"close udp conn", none⟩ :: [⟨b!"dht", .Info, b!"rpcserver closed...", none⟩] := by
    obtain ⟨x, hx⟩ := (C100_close_log t1).1
    have hlog : t.log = (a ++ (.main, ⟨b!"shutdown", .Trace, b!"start cleaning...", none⟩) :: b) ++ (.main, ⟨b!"shutdown", .Trace, b!"shutdown clean all", none⟩) :: c := by
      rw [s1, s4]; simp
    rw [hlog, recsOf_append, hcl] at hx ⊢
    rw [show recsOf .closer ((.main, (⟨b!"shutdown", .Trace, b!"shutdown clean all", none⟩ : LogRec)) :: c) = recsOf .closer c by simp [recsOf]] at hx ⊢
    have : recsOf .closer c = [] := by
      have := congrArg List.length hx
      simp only [List.length_append] at this
      exact List.eq_nil_of_length_eq_zero (by omega)
    rw [this]; rfl
  obtain ⟨x, y, hxy, -⟩ := recsOf_split this
  exact ⟨x, y, hxy⟩

/-- the signal comes before the clean-up is registered, and the process ends with the socket open -/
theorem pg_race_run (hs : List UDPAddr) : ∃ p, PgReach exK (hs.map some) p ∧ p.main = .exited false ∧ p.connOpen = true ∧ p.closer = .notYet := by
  have h0 : PgReach exK (hs.map some) (pgStart (hs.map some)) := .init (pgStart_init _)
  obtain ⟨u, hu, hp, hq, hc⟩ := reach_before_clean hs (s0 := (pgStart (hs.map some)).st) (.init rfl) rfl rfl rfl
  have h1 := pg_lift h0 rfl (by simp [pgStart]) hu
  have k0 := reach_other h1 ⟨rfl, by simp [hp], by simp [pgStart]⟩ .signal
  have k1 := reach_main k0 ⟨rfl, by simp [hp], by simp [pgStart]⟩ (.wake (by simp [StPc.booted, hp]) rfl rfl)
  have k2 := reach_main k1 ⟨rfl, by simp [hp], by simp [pgStart]⟩ (.store rfl)
  have k3 := reach_main k2 ⟨rfl, by simp [hp], by simp [pgStart]⟩ (.runCleans rfl)
  have k4 := reach_other k3 ⟨rfl, by simp [hp], by simp [pgStart]⟩ (.add rfl)
  have k5 := reach_other k4 ⟨rfl, by simp [hp], by simp [pgStart]⟩ (.rangeNone rfl (by simp [PgSt.cleans, hc]))
  have k6 := reach_other k5 ⟨rfl, by simp [hp], by simp [pgStart]⟩ (.wait rfl (by simp [PgSt.cleans, hc]))
  have k7 := reach_main k6 ⟨rfl, by simp [hp], by simp [pgStart]⟩ (.finished rfl rfl)
  have k8 := reach_main k7 ⟨rfl, by simp [hp], by simp [pgStart]⟩ (.exit rfl)
  exact ⟨_, k8, rfl, rfl, rfl⟩

/-- a packet has been taken, and a signal has come -/
theorem pg_taken_run (hs : List UDPAddr) (p : RecvPacket) : ∃ q, PgReach exK (hs.map some) q ∧ q.signals = 1 ∧ q.st.pc = .listen ∧ q.alive ∧
    ∃ ts o, q.st.taken = ts ++ [(p, o)] := by
  have h0 : PgReach exK (hs.map some) (pgStart (hs.map some)) := .init (pgStart_init _)
  obtain ⟨u, hu, hp, hq, hc⟩ := reach_before_clean hs (s0 := (pgStart (hs.map some)).st) (.init rfl) rfl rfl rfl
  have h1 := pg_lift h0 rfl (by simp [pgStart]) (hu.step (.clean hp))
  have hq0 : u.queue = [] := hq
  have k0 := reach_other h1 ⟨rfl, by simp [hp], by simp [pgStart]⟩ (.test rfl)
  have k1 := reach_other k0 ⟨rfl, by simp [hp], by simp [pgStart]⟩ (.read p rfl rfl)
  have k2 := reach_other k1 ⟨rfl, by simp [hp], by simp [pgStart]⟩ (.deliver rfl (by simp [hq0, recvqCap]))
  have k3 := reach_other k2 ⟨rfl, by simp [hp], by simp [pgStart]⟩ .signal
  have k4 := reach_other k3 ⟨rfl, by simp [hp], by simp [pgStart]⟩ (.startup (.take (p := p) (q := []) rfl (by simp [hq0])))
  exact ⟨_, k4, rfl, rfl, ⟨rfl, by simp, by simp [pgStart]⟩, _, _, rfl⟩

/-- C100: **without the order the log may say "shutdown clean all" although nothing was closed**: the signal came before the clean-up was registered. -/
theorem C100_example_race (L : LifeEnv) (hosts : List (Bytes × UDPAddr)) :
    ∃ s, PLogReach exK L (hosts.map fun x => (x.1, some x.2)) s ∧ s.pg.main = .exited false ∧ s.pg.connOpen = true ∧ recsOf .closer s.log = [] ∧
      (⟨b!"shutdown", .Trace, b!"shutdown clean all", none⟩ : LogRec) ∈ recsOf .main s.log := by
  have hH : (hosts.map fun x => (x.1, some x.2)).map Prod.snd = (hosts.map Prod.snd).map some := by simp
  obtain ⟨p, q1, q2, q3, q4⟩ := pg_race_run (hosts.map Prod.snd)
  rw [← hH] at q1
  obtain ⟨t, t1, t2⟩ := C100_runs (L := L) q1
  have hm : t.pg.main = .exited false := by rw [t2]; exact q2
  refine ⟨t, t1, hm, by rw [t2]; exact q3, ?_, ?_⟩
  · have := (plogReach_closer t1).1
    rw [t2, q4] at this
    have h2 : t.said .closer = [] := this
    exact (List.append_eq_nil_iff.1 h2).1
  · obtain ⟨e, full, m1, m2, m3, -⟩ := C100_main_log t1
    obtain ⟨m4, m5⟩ := m3 false hm
    subst m4
    rw [m5]
    cases m1 with
    | ended _ w1 w2 => simp

/-- a host that does not resolve: the log ends with the reason, and the program never waits for a signal -/
theorem C100_example_died (L : LifeEnv) (host : Bytes) :
    ∃ s, PLogReach exK L [(host, none)] s ∧ s.pg.st.pc = .dead ∧ recsOf .main s.log =
      [⟨b!"dht", .Info, b!"bootstrap dht...", some [(b!"host", lstr host)]⟩,
       ⟨b!"dht", .Panic, b!"bootstrap resolve host err", some [(b!"host", lstr host), (b!"err", lerr (L.resolveErr host))]⟩] := by
  have h0 : PgReach exK [none] (pgStart [none]) := .init (pgStart_init _)
  have h1 := reach_other h0 ⟨rfl, by simp [pgStart], by simp [pgStart]⟩ (.startup (.bootPanic (h := none) (r := []) (O := exO) rfl exO_fair rfl))
  obtain ⟨t, t1, t2⟩ := C100_runs (L := L) (H := [(host, none)]) h1
  have hd : t.pg.st.pc = .dead := by rw [t2]
  refine ⟨t, t1, hd, ?_⟩
  obtain ⟨e, full, m1, m2, -, m3⟩ := C100_main_log t1
  obtain ⟨m4, m5⟩ := m3 hd
  subst m4
  rw [m5]
  cases m1 with
  | @died hs h rest l l' w1 w2 w3 =>
    cases w2 with
    | nil =>
      obtain ⟨rfl, -⟩ := List.cons.inj w1
      cases w3; rfl
    | @snoc hs' l0 h' l1 w4 w5 =>
      have := congrArg List.length w1
      simp only [List.length_append, List.length_cons, List.length_nil] at this
      omega

/-- hypotheses of `C100_main_moves`, `C100_after_boot`, `C100_run_keeps_up`: a packet has been taken, and a signal has come -/
example (L : LifeEnv) (hosts : List (Bytes × UDPAddr)) (p : RecvPacket) :
    ∃ s, PLogReach exK L (hosts.map fun x => (x.1, some x.2)) s ∧ 1 ≤ s.pg.signals ∧ s.pg.st.pc.booted = true ∧ s.pg.alive ∧
      s.pg.st.taken ≠ [] ∧ (∃ a r b, s.log = a ++ (.run, r) :: b) ∧ takenLine exK p ∈ recsOf .run s.log := by
  have hH : (hosts.map fun x => (x.1, some x.2)).map Prod.snd = (hosts.map Prod.snd).map some := by simp
  obtain ⟨q, q1, q2, q3, q4, ts, o, q5⟩ := pg_taken_run (hosts.map Prod.snd) p
  rw [← hH] at q1
  obtain ⟨t0, t1, t2⟩ := C100_runs (L := L) q1
  obtain ⟨t, v1, v2, v3, v4, v5, v6⟩ := flush t1 (by rw [t2]; exact q4)
  rw [t2] at v2
  have hr := plogReach_run v1
  rw [said_of_pend_nil (v6 _), v2, q3, q5] at hr
  have hmem : takenLine exK p ∈ recsOf .run t.log := by
    rw [hr]; simp only [saidRun]
    exact List.mem_append_right _ (by simp [rpcReceived, takenLine])
  refine ⟨t, v1, by rw [v2, q2]; exact Nat.le_refl _, by rw [v2, q3]; rfl, by rw [v2]; exact q4, by rw [v2, q5]; simp, ?_, hmem⟩
  obtain ⟨x, y, hxy⟩ := List.append_of_mem hmem
  obtain ⟨a, b, h5, -, -⟩ := recsOf_split hxy
  exact ⟨a, _, b, h5⟩

end P2P

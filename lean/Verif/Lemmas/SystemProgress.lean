import Verif.Lemmas.SystemHistory
import Verif.Lemmas.Causal
/-! # What the handlers can do next -/
namespace P2P

open Classical in
/-- the answers so far, then those of the shared objects as they are now; writes fail if the socket is closed -/
noncomputable def patched (env : Env) (P : List Event) (O : Oracle) (w : World) (down : Bool) : Oracle where
  lookup := fun l t => if Short P l then O.lookup l t else (w.oracle env []).lookup (l.drop P.length) t
  addNode := fun l n => if Short P l then O.addNode l n else (w.oracle env []).addNode (l.drop P.length) n
  nextTx := fun l => if Short P l then O.nextTx l else (w.oracle env []).nextTx (l.drop P.length)
  sendFails := fun l => if Short P l then O.sendFails l else down
  order := O.order
  stack := O.stack

theorem patched_fair {env : Env} {P : List Event} {O : Oracle} {w : World} {down : Bool} (h : O.Fair) : (patched env P O w down).Fair := h

theorem patched_agree (env : Env) (P : List Event) (O : Oracle) (w : World) (down : Bool) : AgreeUntil P O (patched env P O w down) := by
  intro l hl
  refine ⟨?_, ?_, ?_, ?_, rfl, rfl⟩ <;> simp [patched, hl]

theorem not_short (P : List Event) : ¬ Short P P := fun h => h.2 rfl

/-- the next interaction is answered by the shared objects -/
theorem patched_next {env : Env} {P : List Event} {O : Oracle} {w : World} {down : Bool} (hr : RouteTable.Reachable env w.table) {e : Event}
    (h : e.answeredBy (patched env P O w down) P) :
    (∃ w', w.replay env [e] = some w') ∧ ∀ to b f, e = .send to b f → f = down := by
  have hn := not_short P
  have one : ∀ e : Event, e.answeredBy (w.oracle env []) [] → ∃ w', w.replay env [e] = some w' := by
    intro e he
    refine replay_oracle hr (stack := []) (tr := [e]) ?_
    intro pre e' post hp
    rcases pre with _ | ⟨x, pre⟩
    · simp only [List.nil_append, List.cons.injEq] at hp
      obtain ⟨rfl, -⟩ := hp
      exact he
    · simp at hp
  refine ⟨?_, ?_⟩
  · cases e with
    | lookup t f => exact one _ (by simpa [Event.answeredBy, patched, hn] using h)
    | addNode n x => exact one _ (by simpa [Event.answeredBy, patched, hn] using h)
    | nextTx v => exact one _ (by simpa [Event.answeredBy, patched, hn] using h)
    | _ => exact ⟨_, rfl⟩
  · rintro to b f rfl
    simpa [Event.answeredBy, patched, hn] using h

theorem sys_table {S : SysEnv} {port : Int} {fs0 : Bytes → Option Bytes} {s : SysSt} (h : SysReach S port fs0 s) : RouteTable.Reachable S.K.env s.w.table := by
  obtain ⟨w0, h0, -, -, hh⟩ := sys_history h
  exact World.replay_reachable (initialTable_sound S.K.env h0).1.reach hh.answers

/-- A way the handlers may go on that the shared objects, as they are now, allow for whatever handler goes on next. -/
theorem sys_answers {S : SysEnv} {port : Int} {fs0 : Bytes → Option Bytes} {s : SysSt} (h : SysReach S port fs0 s) :
    ∃ O : Nat → Oracle, (∀ p, (O p).Fair) ∧ CrReach (crawlTraces S.K O S.pkts) (S.out O) S.dir fs0 S.W1 S.Q S.W2 ⟨s.pl, s.fs⟩ ∧
      Continues S s (crawlTraces S.K O S.pkts) ∧
      ∀ p e, p ∉ s.pl.p1.finished → (crawlTraces S.K O S.pkts p)[s.pl.hdl p]? = some e →
        (∃ w, s.w.replay S.K.env [e] = some w) ∧ ∀ to b f, e = .send to b f → s.pg.connOpen = false → f = true := by
  obtain ⟨O, hO, hc⟩ := sys_crawler h
  have hpl := (C92_refines hc).1
  have I := pl_inv hpl
  obtain ⟨O', hO'⟩ : ∃ O' : Nat → Oracle, O' = fun p => if p ∈ s.pl.p1.finished then O p else patched S.K.env (logOf p s.pl.log) (O p) s.w (!s.pg.connOpen) :=
    ⟨_, rfl⟩
  have fair : ∀ p, (O' p).Fair := by
    intro p; rw [hO']; dsimp only; split
    · exact hO p
    · exact patched_fair (hO p)
  have fin : ∀ p ∈ s.pl.p1.finished, crawlTraces S.K O' S.pkts p = crawlTraces S.K O S.pkts p := by
    intro p hp
    have : O' p = O p := by rw [hO']; exact if_pos hp
    unfold crawlTraces; rw [this]
  have pre : ∀ p, logOf p s.pl.log <+: crawlTraces S.K O' S.pkts p := by
    intro p
    by_cases hp : p ∈ s.pl.p1.finished
    · rw [fin p hp, I.log]; exact List.take_prefix _ _
    · obtain ⟨run, hr, -⟩ := C29_crawler S.K (O p) (S.pkts p)
      obtain ⟨run', hr', -⟩ := C29_crawler S.K (O' p) (S.pkts p)
      have ht : crawlTraces S.K O S.pkts p = run.trace := by simp [crawlTraces, hr]
      have ht' : crawlTraces S.K O' S.pkts p = run'.trace := by simp [crawlTraces, hr']
      rw [ht']
      have e : O' p = patched S.K.env (logOf p s.pl.log) (O p) s.w (!s.pg.connOpen) := by rw [hO']; exact if_neg hp
      refine dhtPacket_causal (O := O p) (O' := O' p) ?_ S.K hr hr' ?_
      · rw [e]; exact patched_agree _ _ _ _ _
      · rw [I.log, ht]; exact List.take_prefix _ _
  have agree : AgreeOn s.pl (crawlTraces S.K O S.pkts) (crawlTraces S.K O' S.pkts) := by
    refine ⟨fun p => ?_, fin⟩
    have := pre p
    rw [I.log] at this
    have hlen : ((crawlTraces S.K O S.pkts p).take (s.pl.hdl p)).length = s.pl.hdl p := by
      rw [List.length_take]; exact Nat.min_eq_left (I.hdl p)
    have e := List.prefix_iff_eq_take.1 this
    rw [hlen] at e
    exact e.symm
  refine ⟨O', fair, ?_, fun p => ⟨?_, pre p, fun hp => ?_⟩, fun p e hp he => ?_⟩
  · rw [S.out_same fair hO]; exact cr_change hc agree
  · obtain ⟨run', hr', -⟩ := C29_crawler S.K (O' p) (S.pkts p)
    exact ⟨O' p, run', fair p, hr', by simp [crawlTraces, hr']⟩
  · rw [fin p hp, I.log, I.fin p hp, List.take_length]
  · have e1 : O' p = patched S.K.env (logOf p s.pl.log) (O p) s.w (!s.pg.connOpen) := by rw [hO']; exact if_neg hp
    obtain ⟨run', hr', -⟩ := C29_crawler S.K (O' p) (S.pkts p)
    have ht' : crawlTraces S.K O' S.pkts p = run'.trace := by simp [crawlTraces, hr']
    have ha := dhtPacket_answered S.K hr'
    rw [← ht'] at ha
    obtain ⟨hlt, hx⟩ := List.getElem?_eq_some_iff.1 he
    have hsplit : crawlTraces S.K O' S.pkts p = logOf p s.pl.log ++ e :: (crawlTraces S.K O' S.pkts p).drop (s.pl.hdl p + 1) := by
      rw [I.log, ← agree.take p, ← hx, ← List.drop_eq_getElem_cons hlt, List.take_append_drop]
    have := ha _ _ _ hsplit
    rw [e1] at this
    obtain ⟨a, b⟩ := patched_next (sys_table h) this
    refine ⟨a, fun to bb f hf hc => ?_⟩
    rw [b to bb f hf, hc]; rfl

/-- where a handler that waits for the channel of the jobs is -/
structure AtEnqueue (S : SysEnv) (s : SysSt) (p : Nat) (job : Job) : Prop where
  announce : IsAnnounce (S.pkts p) job
  log : logOf p s.pl.log = [.dispatch job.req (S.pkts p).addr, .record (announceRecord S.K.env (asMap job.req.body) (S.pkts p).addr)]

theorem sys_listening {S : SysEnv} {port : Int} {fs0 : Bytes → Option Bytes} {s : SysSt} (h : SysReach S port fs0 s) (hs : s.pl.p1.submitted ≠ [] ∨ s.pl.l ≠ .recv) :
    s.pg.st.pc = .listen ∧ s.pg.st.fetching = true := by
  have hp : s.pg.st.pc = .listen := by
    refine Classical.byContradiction fun hn => ?_
    obtain ⟨-, h2, h3, -⟩ := sys_quiet h hn
    rcases hs with hs | hs
    · exact hs h2
    · exact hs h3
  refine ⟨hp, ?_⟩
  obtain ⟨-, -, -, h4⟩ := stReach_inv (C83_startup (sys_program h))
  rw [hp] at h4
  exact h4.2.2.1

theorem submitted_of_started {size : Nat} {s : WpSt} (h : WpReach size s) {p : Nat} (hp : p ∈ s.started) : s.submitted ≠ [] := by
  rw [(wp_inv h).fifo]
  intro e
  rw [(List.append_eq_nil_iff.1 e).1] at hp
  cases hp

/-- **A running handler is never stuck**, except at a full channel. -/
theorem sys_handler {S : SysEnv} {port : Int} {fs0 : Bytes → Option Bytes} {s : SysSt} (h : SysReach S port fs0 s) (up : s.up) {i p : Nat}
    (hw : s.pl.p1.workers[i]? = some (.running p)) :
    (∃ t, SysStep S s t ∧ ((∃ e, t.pl.log = s.pl.log ++ [(p, e)] ∧ t.pl.hdl = upd s.pl.hdl p (s.pl.hdl p + 1)) ∨
      (t.pl.p1.finished = s.pl.p1.finished ++ [p] ∧ t.pl.p1.workers = s.pl.p1.workers.set i .select))) ∨
    (∃ job, AtEnqueue S s p job) ∧ S.Q ≤ s.pl.jobs.length ∧ (s.pl.jobs = [] → s.pl.f ≠ .recv) := by
  obtain ⟨O, hO, hc, hcont, hnext⟩ := sys_answers h
  have hpl := (C92_refines hc).1
  have I := pl_inv hpl
  have hnf := not_finished_of_running I.reach1 hw
  have hst := started_of_running I.reach1 hw
  have hfetch := (sys_listening h (.inl (submitted_of_started I.reach1 hst))).2
  cases he : (crawlTraces S.K O S.pkts p)[s.pl.hdl p]? with
  | none =>
    left
    have hlen : s.pl.hdl p = (crawlTraces S.K O S.pkts p).length := by
      have := List.getElem?_eq_none_iff.1 he
      have := I.hdl p
      simp only at *; omega
    exact ⟨_, .pipe (w := s.w) [] up hcont (.done1 i p hw hlen) rfl rfl rfl (by simp) rfl (by simp) (.inr ⟨rfl, rfl⟩), .inr ⟨rfl, rfl⟩⟩
  | some e =>
    obtain ⟨⟨w, hw'⟩, hsend⟩ := hnext p e hnf he
    have hs : ∀ q to b f, (q, Event.send to b f) ∈ [(p, e)] → s.pg.connOpen = false → f = true := by
      intro q to b f hm hcl
      simp only [List.mem_singleton, Prod.mk.injEq] at hm
      exact hsend to b f hm.2.symm hcl
    by_cases hq : e.isEnqueue = true
    · cases e with
      | enqueue job =>
        by_cases h1 : s.pl.jobs.length < S.Q
        · exact .inl ⟨_, .pipe (w := w) [(p, .enqueue job)] up hcont (.enqueue i p job hw he h1) rfl rfl rfl rfl hw' hs (.inl hfetch), .inl ⟨_, rfl, rfl⟩⟩
        · by_cases h2 : s.pl.jobs = [] ∧ s.pl.f = .recv
          · exact .inl ⟨_, .pipe (w := w) [(p, .enqueue job)] up hcont (.handoff i p job hw he h2.1 h2.2) rfl rfl rfl rfl hw' hs (.inl hfetch), .inl ⟨_, rfl, rfl⟩⟩
          · right
            refine ⟨?_, by omega, fun hj hf => h2 ⟨hj, hf⟩⟩
            rcases crawlTraces_spec S.K hO S.pkts p with ⟨job', b, f, hj, e'⟩ | ⟨-, e'⟩
            · refine ⟨job', hj, ?_⟩
              rw [e'] at he
              rw [I.log, e']
              match hh : s.pl.hdl p with
              | 0 => rw [hh] at he; simp at he
              | 1 => rw [hh] at he; simp at he
              | 2 => rfl
              | 3 => rw [hh] at he; simp at he
              | n + 4 => rw [hh] at he; simp at he
            · exfalso
              have : job ∈ enqueued (crawlTraces S.K O S.pkts p) := List.mem_filterMap.2 ⟨_, List.mem_of_getElem? he, rfl⟩
              rw [e'] at this; cases this
      | _ => cases hq
    · exact .inl ⟨_, .pipe (w := w) [(p, e)] up hcont (.handle i p e hw he (by simpa using hq)) rfl rfl rfl rfl hw' hs (.inr ⟨rfl, rfl⟩), .inl ⟨_, rfl, rfl⟩⟩

end P2P

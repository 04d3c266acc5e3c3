import Verif.Lemmas.SystemRefine
import Verif.Props.Crawl
/-! # The history of the shared objects in the system -/
namespace P2P

/-- The interactions with the shared objects so far: those of the bootstrap calls (the `k`-th as goroutine `2 k`), then those of the packet handlers (the `p`-th as
goroutine `2 p + 1`). -/
def SysSt.history (s : SysSt) : List (Nat × Event) :=
  s.pg.st.boots.zipIdx.flatMap (fun x => x.1.map fun e => (2 * x.2, e)) ++ s.pl.log.map fun x => (2 * x.1 + 1, x.2)

/-! ## Bootstrapping comes first -/

/-- before the server listens nothing has gone through the pipeline -/
theorem sys_quiet {S : SysEnv} {port : Int} {fs0 : Bytes → Option Bytes} {s : SysSt} (h : SysReach S port fs0 s) (hl : s.pg.st.pc ≠ .listen) :
    s.pg.st.taken = [] ∧ s.pl.p1.submitted = [] ∧ s.pl.l = .recv ∧ s.pl.p1.started = [] ∧ s.pl.log = [] ∧ s.pl.accepted = [] ∧ s.pl.p2.started = [] := by
  have ht : s.pg.st.taken = [] := by
    obtain ⟨-, -, -, h4⟩ := stReach_inv (C83_startup (sys_program h))
    revert h4
    cases hp : s.pg.st.pc with
    | boot rest => rintro ⟨dn, -, -, -, hn, -⟩; exact hn
    | register todo => rintro ⟨-, -, hn, -⟩; exact hn
    | spawnFetch => rintro ⟨-, -, hn, -⟩; exact hn
    | registerClean => rintro ⟨-, -, hn, -⟩; exact hn
    | listen => exact absurd hp hl
    | dead => rintro ⟨_, _, _, _, _, -, -, -, -, -, hn, -⟩; exact hn
  have hlink := (sys_link h).taken
  obtain ⟨O, hO, hc⟩ := sys_crawler h
  have hpl := (C92_refines hc).1
  have I := pl_inv hpl
  rw [ht] at hlink
  simp only [List.length_nil, Nat.zero_add] at hlink
  have hlen := congrArg List.length I.in1
  simp only [List.length_range, List.length_append] at hlen
  have h1 : s.pl.p1.submitted.length = 0 := by omega
  have h2 : s.pl.l.item.length = 0 := by omega
  have h1 := List.length_eq_zero_iff.1 h1
  have h3 : s.pl.p1.started = [] := by
    have := (wp_inv I.reach1).fifo
    rw [h1] at this
    exact (List.append_eq_nil_iff.1 this.symm).1
  have h4 : s.pl.log = [] := by
    have hz : ∀ p, logOf p s.pl.log = [] := by
      intro p; rw [I.log, I.idle p (by rw [h3]; simp)]; simp
    cases hx : s.pl.log with
    | nil => rfl
    | cons x r =>
      have := hz x.1
      rw [hx] at this
      simp [logOf] at this
  have h5 : s.pl.accepted = [] := by rw [I.acc, h4]; rfl
  refine ⟨ht, h1, ?_, h3, h4, h5, ?_⟩
  · cases hx : s.pl.l with
    | recv => rfl
    | hold p => rw [hx] at h2; simp [FwdPc.item] at h2
  · have := (C62_fifo hpl).2.1
    rw [h5] at this
    simp only [List.append_eq_nil_iff] at this
    exact this.1.1.1

/-! ## Every bootstrap call -/

theorem pg_boots {K : KEnv} {hosts : List (Option UDPAddr)} {s : PgSt} (h : PgReach K hosts s) :
    (∀ (k : Nat) tr, s.st.boots[k]? = some tr → ∃ a O, hosts[k]? = some a ∧ Oracle.Fair O ∧ (Activity.bootstrap a).trace K O = some tr) ∧
    ∀ rest, s.st.pc = .boot rest → hosts = hosts.take s.st.boots.length ++ rest ∧ s.st.boots.length ≤ hosts.length := by
  have := C83_startup h
  refine Reach.inv (fun s : StSt => (∀ (k : Nat) tr, s.boots[k]? = some tr → ∃ a O, hosts[k]? = some a ∧ Oracle.Fair O ∧
    (Activity.bootstrap a).trace K O = some tr) ∧ ∀ rest, s.pc = .boot rest → hosts = hosts.take s.boots.length ++ rest ∧ s.boots.length ≤ hosts.length) ?_ ?_ this
  · intro s hs
    rw [StSt.start] at hs
    subst hs
    refine ⟨by simp, fun rest h => ?_⟩
    cases h
    exact ⟨rfl, Nat.zero_le _⟩
  · rintro s t ⟨h1, h2⟩ st
    have grow : ∀ {x : Option UDPAddr} {r : List (Option UDPAddr)} {O : Oracle} {tr : List Event}, s.pc = .boot (x :: r) → O.Fair →
        (Activity.bootstrap x).trace K O = some tr →
        (∀ (k : Nat) tr', (s.boots ++ [tr])[k]? = some tr' → ∃ a O, hosts[k]? = some a ∧ Oracle.Fair O ∧ (Activity.bootstrap a).trace K O = some tr') ∧
        hosts = hosts.take (s.boots.length + 1) ++ r ∧ s.boots.length + 1 ≤ hosts.length := by
      intro x r O tr hp hO htr
      obtain ⟨e, hle⟩ := h2 _ hp
      have hx : hosts[s.boots.length]? = some x := by
        rw [e, List.getElem?_append_right (by rw [List.length_take]; omega), List.length_take, Nat.min_eq_left hle]
        simp
      have hlt := (List.getElem?_eq_some_iff.1 hx).1
      refine ⟨fun k tr' hk => ?_, ?_, hlt⟩
      · by_cases hlt' : k < s.boots.length
        · rw [List.getElem?_append_left hlt'] at hk; exact h1 k tr' hk
        · by_cases he : k = s.boots.length
          · subst he
            rw [List.getElem?_append_right (Nat.le_refl _)] at hk
            simp at hk; subst hk
            exact ⟨x, O, hx, hO, htr⟩
          · rw [List.getElem?_eq_none (by simp; omega)] at hk; cases hk
      · rw [List.take_add_one, hx]
        simpa using e
    cases st with
    | arrive p _ _ => exact ⟨h1, h2⟩
    | main m =>
      cases m with
      | bootOk hp hO hb =>
        rename_i x r O c'
        have htr : (Activity.bootstrap x).trace K O = some c'.trace := by simp only [Activity.trace, hb]
        obtain ⟨a, b, c⟩ := grow hp hO htr
        refine ⟨a, fun rest hr => ?_⟩
        cases hr
        simp only [List.length_append, List.length_singleton]
        exact ⟨b, c⟩
      | bootPanic hp hO hb =>
        rename_i x r O q c'
        have htr : (Activity.bootstrap x).trace K O = some c'.trace := by simp only [Activity.trace, hb]
        obtain ⟨a, -, -⟩ := grow hp hO htr
        exact ⟨a, fun rest hr => nomatch hr⟩
      | run hp => exact ⟨h1, fun rest hr => nomatch hr⟩
      | register hp _ => exact ⟨h1, fun rest hr => nomatch hr⟩
      | registered hp => exact ⟨h1, fun rest hr => nomatch hr⟩
      | fetch hp => exact ⟨h1, fun rest hr => nomatch hr⟩
      | clean hp => exact ⟨h1, fun rest hr => nomatch hr⟩
      | take hp _ => exact ⟨h1, h2⟩

/-! ## The history -/

theorem projection_log (p : Nat) (s : SysSt) : projection (2 * p + 1) s.history = logOf p s.pl.log := by
  unfold projection SysSt.history
  rw [List.filter_append, List.map_append]
  have h1 : (s.pg.st.boots.zipIdx.flatMap (fun x => x.1.map fun e => (2 * x.2, e))).filter (fun x => x.1 == 2 * p + 1) = [] := by
    rw [List.filter_eq_nil_iff]
    rintro ⟨i, e⟩ hx
    simp only [List.mem_flatMap, List.mem_map] at hx
    obtain ⟨x, -, e', -, he⟩ := hx
    simp only [Prod.mk.injEq] at he
    simp only [beq_iff_eq]; omega
  rw [h1, List.map_nil, List.nil_append]
  unfold logOf
  induction s.pl.log with
  | nil => rfl
  | cons x r ih =>
    simp only [List.map_cons, List.filter_cons, List.filterMap_cons]
    by_cases e : x.1 = p
    · have : (2 * x.1 + 1 == 2 * p + 1) = true := by rw [beq_iff_eq]; omega
      rw [this, if_pos e]
      simp only [if_true, List.map_cons]
      exact congrArg _ ih
    · have : (2 * x.1 + 1 == 2 * p + 1) = false := by rw [beq_eq_false_iff_ne]; omega
      rw [this, if_neg e]
      simp only [Bool.false_eq_true, if_false]
      exact ih

theorem projection_boot (k : Nat) (s : SysSt) : projection (2 * k) s.history = (s.pg.st.boots[k]?).getD [] := by
  unfold projection SysSt.history
  rw [List.filter_append, List.map_append]
  have h1 : (s.pl.log.map fun x => (2 * x.1 + 1, x.2)).filter (fun x => x.1 == 2 * k) = [] := by
    rw [List.filter_eq_nil_iff]
    rintro ⟨i, e⟩ hx
    simp only [List.mem_map] at hx
    obtain ⟨x, -, he⟩ := hx
    simp only [Prod.mk.injEq] at he
    simp only [beq_iff_eq]; omega
  rw [h1, List.map_nil, List.append_nil]
  have key : ∀ (l : List (List Event)) (n : Nat), (((l.zipIdx n).flatMap (fun x => x.1.map fun e => (2 * x.2, e))).filter (fun x => x.1 == 2 * k)).map Prod.snd =
      if n ≤ k then (l[k - n]?).getD [] else [] := by
    intro l
    induction l with
    | nil => intro n; simp
    | cons a r ih =>
      intro n
      rw [List.zipIdx_cons, List.flatMap_cons, List.filter_append, List.map_append, ih]
      by_cases e : n = k
      · subst e
        rw [if_neg (by omega), if_pos (Nat.le_refl _), Nat.sub_self]
        have : (a.map fun e => (2 * n, e)).filter (fun x => x.1 == 2 * n) = a.map fun e => (2 * n, e) := by
          rw [List.filter_eq_self]; rintro x hx; obtain ⟨e, -, rfl⟩ := List.mem_map.1 hx; simp
        rw [this, List.map_map]
        simp [Function.comp_def]
      · have : (a.map fun e => (2 * n, e)).filter (fun x => x.1 == 2 * k) = [] := by
          rw [List.filter_eq_nil_iff]; rintro x hx; obtain ⟨e, -, rfl⟩ := List.mem_map.1 hx; simp; omega
        rw [this]
        by_cases hlt : n ≤ k
        · rw [if_pos (by omega), if_pos hlt]
          have : k - n = (k - (n + 1)) + 1 := by omega
          rw [this]; simp
        · rw [if_neg (by omega), if_neg hlt]; rfl
  have := key s.pg.st.boots 0
  rw [if_pos (Nat.zero_le _)] at this
  simpa using this

theorem history_events (s : SysSt) : s.history.map Prod.snd = s.pg.st.boots.flatten ++ s.pl.log.map Prod.snd := by
  unfold SysSt.history
  rw [List.map_append, List.map_map]
  congr 1
  · have key : ∀ (l : List (List Event)) (n : Nat), ((l.zipIdx n).flatMap (fun x => x.1.map fun e => (2 * x.2, e))).map Prod.snd = l.flatten := by
      intro l
      induction l with
      | nil => intro n; rfl
      | cons a r ih => intro n; rw [List.zipIdx_cons, List.flatMap_cons, List.map_append, ih]; simp [Function.comp_def]
    exact key _ _

/-- who does what: the handler of packet `p` is goroutine `2 p + 1`, the call of `BootStrap` for host `k` is goroutine `2 k` -/
theorem sys_doing {S : SysEnv} {port : Int} {fs0 : Bytes → Option Bytes} {s : SysSt} (h : SysReach S port fs0 s) :
    (∀ p, Doing S.K s.history (2 * p + 1) (.packet (S.pkts p))) ∧
    (∀ k a, S.hosts[k]? = some a → Doing S.K s.history (2 * k) (.bootstrap a)) ∧
    ∀ k, S.hosts[k]? = none → projection (2 * k) s.history = [] := by
  obtain ⟨O, hO, hc⟩ := sys_crawler h
  have I := pl_inv (C92_refines hc).1
  have hb := (pg_boots (sys_program h)).1
  refine ⟨fun p => ?_, fun k a ha => ?_, fun k hk => ?_⟩
  · obtain ⟨run, hr, -⟩ := C29_crawler S.K (O p) (S.pkts p)
    refine ⟨O p, run.trace, hO p, by simp [Activity.trace, hr], ?_⟩
    rw [projection_log, I.log]
    have : crawlTraces S.K O S.pkts p = run.trace := by simp [crawlTraces, hr]
    rw [this]; exact List.take_prefix _ _
  · rw [Doing, projection_boot]
    cases hx : s.pg.st.boots[k]? with
    | none =>
      obtain ⟨tr, ret, h1, h2, h3⟩ := C63_bootstrap S.K exO_fair a
      refine ⟨exO, tr, exO_fair, ?_, List.nil_prefix⟩
      simp only [Activity.trace]
      cases ret with
      | true => rw [h2 rfl]
      | false => obtain ⟨q, hq⟩ := h3 rfl; rw [hq]
    | some tr =>
      obtain ⟨a', O', h1, h2, h3⟩ := hb k tr hx
      rw [ha] at h1; cases h1
      exact ⟨O', tr, h2, h3, List.prefix_refl _⟩
  · rw [projection_boot]
    cases hx : s.pg.st.boots[k]? with
    | none => rfl
    | some tr =>
      obtain ⟨a', O', h1, -⟩ := hb k tr hx
      rw [hk] at h1; cases h1

/-- the shared objects answer all of it -/
theorem sys_history {S : SysEnv} {port : Int} {fs0 : Bytes → Option Bytes} {s : SysSt} (h : SysReach S port fs0 s) :
    ∃ w0 : World, initialTable port = .ok w0.table ∧ w0.reqs = [] ∧ w0.txId = firstTxId ∧ History S.K w0 s.w s.history := by
  suffices H : ∃ w0 : World, initialTable port = .ok w0.table ∧ w0.reqs = [] ∧ w0.txId = firstTxId ∧
      w0.replay S.K.env (s.history.map Prod.snd) = some s.w by
    obtain ⟨w0, h1, h2, h3, h4⟩ := H
    refine ⟨w0, h1, h2, h3, h4, fun i => ?_⟩
    obtain ⟨d1, d2, d3⟩ := sys_doing h
    rcases Nat.mod_two_eq_zero_or_one i with hi | hi
    · obtain ⟨k, rfl⟩ : ∃ k, i = 2 * k := ⟨i / 2, by omega⟩
      cases hk : S.hosts[k]? with
      | some a => obtain ⟨O, tr, a1, a2, a3⟩ := d2 k a hk; exact ⟨_, O, tr, a1, a2, a3⟩
      | none =>
        rw [d3 k hk]
        obtain ⟨O, tr, a1, a2, a3⟩ := d1 0
        exact ⟨_, O, tr, a1, a2, List.nil_prefix⟩
    · obtain ⟨p, rfl⟩ : ∃ k, i = 2 * k + 1 := ⟨i / 2, by omega⟩
      obtain ⟨O, tr, a1, a2, a3⟩ := d1 p
      exact ⟨_, O, tr, a1, a2, a3⟩
  induction h with
  | @init s h =>
    obtain ⟨⟨h1, -⟩, ⟨-, -, -, -, -, -, -, -, h9, -⟩, -, a, b, c, -⟩ := h
    rw [StSt.start] at h1
    refine ⟨s.w, a, b, c, ?_⟩
    rw [history_events, h1, h9]; rfl
  | @step s t h st ih =>
    obtain ⟨w0, h1, h2, h3, h4⟩ := ih
    refine ⟨w0, h1, h2, h3, ?_⟩
    rw [history_events] at h4 ⊢
    cases st with
    | life _ st e1 e2 e3 => simp only [e2]; exact h4
    | boot tr _ st e1 e2 =>
      have hl : s.pl.log = [] := by
        cases pgKind st with
        | boot tr' x1 x2 x3 x4 x5 x6 => obtain ⟨l, hl⟩ := x6; exact (sys_quiet h (by rw [hl]; simp)).2.2.2.2.1
        | quiet x1 x2 x3 x4 x5 => exact (snoc_ne (x2.symm.trans e1)).elim
        | read p x1 x2 x3 x4 x5 => exact (snoc_ne (x2.symm.trans e1)).elim
        | deliver p x0 x1 x2 x3 x4 x5 => exact (snoc_ne (x2.symm.trans e1)).elim
        | take p r x1 x2 x3 x4 x5 => exact (snoc_ne (x2.symm.trans e1)).elim
      rw [hl, List.map_nil, List.append_nil] at h4
      simp only [e1, hl, List.map_nil, List.append_nil, List.flatten_append, List.flatten_cons, List.flatten_nil]
      exact (World.replay_append _ _ _ _).2 ⟨s.w, h4, e2⟩
    | read _ st e1 =>
      cases pgKind st with
      | read p x1 x2 x3 x4 x5 => simp only [x2]; exact h4
      | boot tr x1 x2 x3 x4 x5 => exact (snoc_ne (x1.symm.trans e1)).elim
      | quiet x1 x2 x3 x4 x5 => exact (snoc_ne (x1.symm.trans e1)).elim
      | deliver p x0 x1 x2 x3 x4 x5 => exact (snoc_ne (x1.symm.trans e1)).elim
      | take p r x1 x2 x3 x4 x5 => exact (snoc_ne (x1.symm.trans e1)).elim
    | deliver x _ st e1 =>
      cases pgKind st with
      | deliver p x0 x1 x2 x3 x4 x5 => simp only [x2]; exact h4
      | boot tr x1 x2 x3 x4 x5 => exact (snoc_ne (x4.symm.trans e1)).elim
      | quiet x1 x2 x3 x4 x5 => exact (snoc_ne (x4.symm.trans e1)).elim
      | read p x1 x2 x3 x4 x5 => exact (snoc_ne (x4.symm.trans e1)).elim
      | take p r x1 x2 x3 x4 x5 => exact (snoc_ne (x4.symm.trans e1)).elim
    | take x p q _ st e1 _ _ =>
      cases pgKind st with
      | take p r x1 x2 x3 x4 x5 => simp only [x2]; exact h4
      | boot tr x1 x2 x3 x4 x5 => exact (snoc_ne (x5.symm.trans e1)).elim
      | quiet x1 x2 x3 x4 x5 => exact (snoc_ne (x5.symm.trans e1)).elim
      | read p x1 x2 x3 x4 x5 => exact (snoc_ne (x5.symm.trans e1)).elim
      | deliver p x0 x1 x2 x3 x4 x5 => exact (snoc_ne (x5.symm.trans e1)).elim
    | pipe new _ _ _ e1 e2 e3 e4 e5 _ _ =>
      simp only [e4, List.map_append]
      rw [← List.append_assoc]
      exact (World.replay_append _ _ _ _).2 ⟨s.w, h4, e5⟩
    | file i p _ _ _ _ => exact h4
    | back i p _ _ _ => exact h4
    | fatal i p _ _ _ => exact h4

end P2P

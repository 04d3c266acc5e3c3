import Verif.Lemmas.RouteTableLocks
import Verif.Props.RouteTableConc
/-! # C99: the table's lock and the buckets' locks together -/
namespace P2P
open RouteTable

/-- the locks `L` are those that the goroutines hold according to `hold` -/
def LockMatch (L : Nat → RwLock) (hold : Nat → Option (Nat × Bool)) : Prop :=
  (∀ a g, (L a).writer = some g ↔ hold g = some (a, true)) ∧ (∀ a g, (L a).readers g = if hold g = some (a, false) then 1 else 0)

theorem LStep.disc {α : Type} {ro : Bool} {g : Nat} {p p' : LProg α} {m m' : TMem} {L L' : Nat → RwLock} {hold : Nat → Option (Nat × Bool)}
    (hs : LStep g p m L p' m' L') (hd : p.Disc ro (hold g)) (hm : LockMatch L hold) :
    (ro = true → m' = m) ∧ ∃ h', p'.Disc ro h' ∧ (ro = true → (∀ a, hold g ≠ some (a, true)) → ∀ a, h' ≠ some (a, true)) ∧
      LockMatch L' (upd hold g h') := by
  have hself : upd hold g (hold g) = hold := by
    funext u; by_cases hu : u = g
    · subst hu; simp
    · exact upd_ne _ _ hu
  have same : LockMatch L (upd hold g (hold g)) := by rw [hself]; exact hm
  cases hs with
  | getConst => exact ⟨fun _ => rfl, _, hd _ _ _, fun _ h => h, same⟩
  | getLast => exact ⟨fun _ => rfl, _, hd _, fun _ h => h, same⟩
  | getSize => exact ⟨fun _ => rfl, _, hd _, fun _ h => h, same⟩
  | getMap => exact ⟨fun _ => rfl, _, hd _, fun _ h => h, same⟩
  | readB => exact ⟨fun _ => rfl, _, hd.2 _, fun _ h => h, same⟩
  | setLast => exact ⟨fun h => (by rw [hd.1] at h; cases h), _, hd.2, fun _ h => h, same⟩
  | setSize => exact ⟨fun h => (by rw [hd.1] at h; cases h), _, hd.2, fun _ h => h, same⟩
  | setMap => exact ⟨fun h => (by rw [hd.1] at h; cases h), _, hd.2, fun _ h => h, same⟩
  | alloc => exact ⟨fun h => (by rw [hd.1] at h; cases h), _, hd.2 _, fun _ h => h, same⟩
  | writeB => exact ⟨fun h => (by rw [hd.1] at h; cases h), _, hd.2.2, fun _ h => h, same⟩
  | @rlock a r _ _ hw =>
    refine ⟨fun _ => rfl, _, hd.2.2, fun _ _ x e => (by cases e), ?_, ?_⟩
    · intro b u
      have : (upd L a { L a with readers := upd (L a).readers g ((L a).readers g + 1) } b).writer = (L b).writer := by
        by_cases hb : b = a
        · subst hb; simp
        · rw [upd_ne _ _ hb]
      rw [this, hm.1 b u]
      by_cases hu : u = g
      · subst hu; simp [hd.1]
      · rw [upd_ne _ _ hu]
    · intro b u
      by_cases hb : b = a
      · subst hb
        by_cases hu : u = g
        · subst hu
          have := hm.2 b u
          simp only [hd.1, reduceCtorEq, if_false] at this
          simp [this]
        · simp only [upd_same, upd_ne _ _ hu]; exact hm.2 b u
      · rw [upd_ne _ _ hb, hm.2 b u]
        by_cases hu : u = g
        · subst hu
          simp only [hd.1, upd_same, reduceCtorEq, if_false, Option.some.injEq, Prod.mk.injEq, and_true]
          rw [if_neg (fun e => hb e.symm)]
        · rw [upd_ne _ _ hu]
  | @lock a r _ _ hw hr =>
    refine ⟨fun _ => rfl, _, hd.2.2, fun hro _ => absurd (hd.2.1 hro) (by decide), ?_, ?_⟩
    · intro b u
      by_cases hb : b = a
      · subst hb
        by_cases hu : u = g
        · subst hu; simp
        · have h1 := hm.1 b u
          rw [hw] at h1
          simp only [upd_same, upd_ne _ _ hu]
          rw [← h1]
          simp only [reduceCtorEq, iff_false, Option.some.injEq]
          exact fun e => hu e.symm
      · rw [upd_ne _ _ hb, hm.1 b u]
        by_cases hu : u = g
        · subst hu
          simp only [hd.1, upd_same, reduceCtorEq, false_iff, Option.some.injEq, Prod.mk.injEq, and_true]
          exact fun e => hb e.symm
        · rw [upd_ne _ _ hu]
    · intro b u
      have : (upd L a { L a with writer := some g } b).readers = (L b).readers := by
        by_cases hb : b = a
        · subst hb; simp
        · rw [upd_ne _ _ hb]
      rw [this, hm.2 b u]
      by_cases hu : u = g
      · subst hu; simp [hd.1]
      · rw [upd_ne _ _ hu]
  | @runlock a r _ _ hw =>
    refine ⟨fun _ => rfl, _, hd.2, fun _ _ x e => (by cases e), ?_, ?_⟩
    · intro b u
      have : (upd L a { L a with readers := upd (L a).readers g ((L a).readers g - 1) } b).writer = (L b).writer := by
        by_cases hb : b = a
        · subst hb; simp
        · rw [upd_ne _ _ hb]
      rw [this, hm.1 b u]
      by_cases hu : u = g
      · subst hu; simp [hd.1]
      · rw [upd_ne _ _ hu]
    · intro b u
      by_cases hb : b = a
      · subst hb
        by_cases hu : u = g
        · subst hu
          have := hm.2 b u
          simp only [hd.1, if_true] at this
          simp [this]
        · simp only [upd_same, upd_ne _ _ hu]; exact hm.2 b u
      · rw [upd_ne _ _ hb, hm.2 b u]
        by_cases hu : u = g
        · subst hu
          simp only [hd.1, upd_same, reduceCtorEq, if_false, Option.some.injEq, Prod.mk.injEq, and_true]
          rw [if_neg (fun e => hb e.symm)]
        · rw [upd_ne _ _ hu]
  | @unlock a r _ _ hw =>
    refine ⟨fun _ => rfl, _, hd.2, fun _ _ x e => (by cases e), ?_, ?_⟩
    · intro b u
      by_cases hb : b = a
      · subst hb
        by_cases hu : u = g
        · subst hu; simp
        · have h1 := hm.1 b u
          rw [hw] at h1
          simp only [upd_same, upd_ne _ _ hu]
          rw [← h1]
          simp only [reduceCtorEq, false_iff, Option.some.injEq]
          exact fun e => hu e.symm
      · rw [upd_ne _ _ hb, hm.1 b u]
        by_cases hu : u = g
        · subst hu
          simp only [hd.1, upd_same, reduceCtorEq, iff_false, Option.some.injEq, Prod.mk.injEq, and_true]
          exact fun e => hb e.symm
        · rw [upd_ne _ _ hu]
    · intro b u
      have : (upd L a { L a with writer := none } b).readers = (L b).readers := by
        by_cases hb : b = a
        · subst hb; simp
        · rw [upd_ne _ _ hb]
      rw [this, hm.2 b u]
      by_cases hu : u = g
      · subst hu; simp [hd.1]
      · rw [upd_ne _ _ hu]

/-- the same place in the model without bucket locks, with the section still to be run -/
def NtPc.abs (env : Env) : NtPc → RtPc
  | .idle => .idle
  | .wait op st => .wait op st
  | .inside op st _ => .inside op st (op.prog env)
  | .leave op st i r => .leave op st i r

section
variable {env : Env} {h : NodeInfo} {k c : Nat}

/-- `t` is the state of the model without bucket locks in which every open section is still to be run; `hold` the bucket locks held -/
structure NtRel (env : Env) (h : NodeInfo) (k c : Nat) (s : NtSt) (t : RtSt) (hold : Nat → Option (Nat × Bool)) : Prop where
  reach : RtReach env h k c t
  log : t.log = s.log
  done : t.done = s.done
  readers : t.readers = s.readers
  writer : t.writer = s.writer
  pc : ∀ g, t.pc g = (s.pc g).abs env
  free : s.writer = none → s.mem.Wf ∧ s.mem.abs = t.table
  wsec : ∀ g op st p, s.pc g = .inside op st p → op.writes = true →
    ∃ m', p.run s.mem = (((op.prog env).run t.table).1, m') ∧ m'.Wf ∧ m'.abs = ((op.prog env).run t.table).2
  rsec : ∀ g op st p, s.pc g = .inside op st p → op.writes = false → p.run s.mem = (((op.prog env).run t.table).1, s.mem)
  disc : ∀ g op st p, s.pc g = .inside op st p → p.Disc (!op.writes) (hold g)
  mode : ∀ g op st p, s.pc g = .inside op st p → op.writes = false → ∀ a, hold g ≠ some (a, true)
  out : ∀ g, (∀ op st p, s.pc g ≠ .inside op st p) → hold g = none
  locks : LockMatch s.locks hold

theorem rt_section {g : Nat} {op : RtOp} {st : Nat} (n : Nat) : ∀ {t : RtSt} {P : TProg RtVal}, RtReach env h k c t → t.pc g = .inside op st P →
    P.len t.table = n → ∃ P', RtReach env h k c { t with table := (P.run t.table).2, pc := upd t.pc g (.inside op st P') } ∧
      P'.outcome = some (P.run t.table).1 := by
  induction n with
  | zero =>
    intro t P hr hp hl
    rcases P.step_or_outcome t.table with ⟨P', t', hst⟩ | ⟨r, ho⟩
    · rw [TProg.step_len hst] at hl; cases hl
    · refine ⟨P, ?_, by rw [TProg.outcome_run ho]; exact ho⟩
      rw [TProg.outcome_run ho]
      have : upd t.pc g (.inside op st P) = t.pc := by
        funext u; by_cases hu : u = g
        · subst hu; simp [hp]
        · exact upd_ne _ _ hu
      rw [this]; exact hr
  | succ n ih =>
    intro t P hr hp hl
    rcases P.step_or_outcome t.table with ⟨P', t', hst⟩ | ⟨r, ho⟩
    · have h1 := Reach.step hr ⟨g, .access op st P P' t' hp hst⟩
      obtain ⟨Q, a1, a2⟩ := ih h1 (P := P') (by simp only [upd_same]) (by
        have := TProg.step_len hst; simp only; omega)
      refine ⟨Q, ?_, by rw [TProg.step_run hst]; exact a2⟩
      rw [TProg.step_run hst]
      have : upd (upd t.pc g (.inside op st P')) g (.inside op st Q) = upd t.pc g (.inside op st Q) := by
        funext u; by_cases hu : u = g
        · subst hu; simp
        · rw [upd_ne _ _ hu, upd_ne _ _ hu, upd_ne _ _ hu]
      simp only [this] at a1
      exact a1
    · exfalso
      have : P.len t.table = 0 := by cases P <;> simp_all [TProg.outcome, TProg.len]
      omega

theorem ntRel_init {s : NtSt} (hi : NtInit h k c s) : ∃ t hold, NtRel env h k c s t hold := by
  obtain ⟨h1, h2, h3, h4, h5, h6, h7⟩ := hi
  refine ⟨{ table := RouteTable.new h k c, readers := s.readers, writer := s.writer, pc := fun _ => .idle, log := s.log, done := s.done },
    fun _ => none, ⟨.init ⟨rfl, h3, h4, fun _ => rfl, h6, h7⟩, rfl, rfl, rfl, rfl, ?_, ?_, ?_, ?_, ?_, ?_, ?_, ?_⟩⟩
  · intro g; rw [h5]; rfl
  · intro _; rw [h1]; exact ⟨TMem.new_wf _ _ _, TMem.new_abs _ _ _⟩
  · intro g op st p hp; rw [h5] at hp; cases hp
  · intro g op st p hp; rw [h5] at hp; cases hp
  · intro g op st p hp; rw [h5] at hp; cases hp
  · intro g op st p hp; rw [h5] at hp; cases hp
  · intro g _; rfl
  · exact ⟨fun a g => by simp [h2], fun a g => by simp [h2]⟩

theorem NtRel.inside {s : NtSt} {t : RtSt} {hold : Nat → Option (Nat × Bool)} (hr : NtRel env h k c s t hold) {g : Nat} {op : RtOp} {st : Nat}
    {p : LProg RtVal} (hp : s.pc g = .inside op st p) : t.pc g = .inside op st (op.prog env) := by rw [hr.pc g, hp]; rfl

/-- nobody is inside together with a writer -/
theorem NtRel.excl {s : NtSt} {t : RtSt} {hold : Nat → Option (Nat × Bool)} (hr : NtRel env h k c s t hold) {g g' : Nat} {op op' : RtOp}
    {st st' : Nat} {p p' : LProg RtVal} (h1 : s.pc g = .inside op st p) (h2 : s.pc g' = .inside op' st' p') (hw : op.writes = true) : g = g' :=
  C73_exclusive hr.reach (hr.inside h1) (hr.inside h2) hw

theorem ntRel_step {s s' : NtSt} {t : RtSt} {hold : Nat → Option (Nat × Bool)} (hr : NtRel env h k c s t hold) (hs : NtStep env s s') :
    ∃ t' hold', NtRel env h k c s' t' hold' := by
  obtain ⟨g, hs⟩ := hs
  have pcg : ∀ (x : NtPc) (u : Nat), upd s.pc g x u = if u = g then x else s.pc u := fun x u => rfl
  have pcabs : ∀ (x : NtPc) (u : Nat), upd t.pc g (x.abs env) u = (upd s.pc g x u).abs env := by
    intro x u; simp only [upd]; split
    · rfl
    · exact hr.pc u
  cases hs with
  | call op hp =>
    have ng : ∀ u a b p, upd s.pc g (.wait op s.log.length) u = .inside a b p ↔ s.pc u = .inside a b p := by
      intro u a b p; rw [pcg]; split
      · rename_i hu; subst hu; simp [hp]
      · rfl
    refine ⟨_, hold, ⟨Reach.step hr.reach ⟨g, .call op (by rw [hr.pc g, hp]; rfl)⟩, hr.log, hr.done, hr.readers, hr.writer, ?_, hr.free, ?_, ?_, ?_, ?_, ?_, hr.locks⟩⟩
    · intro u; simp only [hr.log]; exact pcabs (.wait op s.log.length) u
    · intro u a b p hu; exact hr.wsec u a b p ((ng u a b p).1 hu)
    · intro u a b p hu; exact hr.rsec u a b p ((ng u a b p).1 hu)
    · intro u a b p hu; exact hr.disc u a b p ((ng u a b p).1 hu)
    · intro u a b p hu; exact hr.mode u a b p ((ng u a b p).1 hu)
    · intro u hu; exact hr.out u fun a b p hx => hu a b p ((ng u a b p).2 hx)
  | rlock op st hp hw hn =>
    have hold0 : hold g = none := hr.out g (by intro a b p; rw [hp]; exact NtPc.noConfusion)
    obtain ⟨hwf, hab⟩ := hr.free hn
    refine ⟨_, hold, ⟨Reach.step hr.reach ⟨g, .rlock op st (by rw [hr.pc g, hp]; rfl) hw (by rw [hr.writer]; exact hn)⟩, hr.log, hr.done, ?_, hr.writer, ?_, hr.free, ?_, ?_, ?_, ?_, ?_, hr.locks⟩⟩
    · simp only [hr.readers]
    · intro u; exact pcabs (.inside op st (op.progMem env)) u
    · intro u a b p hu ha
      simp only [pcg] at hu
      split at hu
      · cases hu; rw [hw] at ha; cases ha
      · exact hr.wsec u a b p hu ha
    · intro u a b p hu ha
      simp only [pcg] at hu
      split at hu
      · cases hu
        rw [prog_read _ _ hw, ← hab]
        exact progMem_read _ _ hw
      · exact hr.rsec u a b p hu ha
    · intro u a b p hu
      simp only [pcg] at hu
      split at hu
      · rename_i e; cases hu; rw [e, hold0]; exact progMem_disc env _
      · exact hr.disc u a b p hu
    · intro u a b p hu hx y
      simp only [pcg] at hu
      split at hu
      · rename_i e; rw [e, hold0]; exact fun e' => nomatch e'
      · exact hr.mode u a b p hu hx y
    · intro u hu
      by_cases e : u = g
      · rw [e]; exact hold0
      · refine hr.out u fun a b p hx => hu a b p ?_
        simp only [upd_ne _ _ e]; exact hx
  | lock op st hp hw hn hrd =>
    have hold0 : hold g = none := hr.out g (by intro a b p; rw [hp]; exact NtPc.noConfusion)
    obtain ⟨hwf, hab⟩ := hr.free hn
    refine ⟨_, hold, ⟨Reach.step hr.reach ⟨g, .lock op st (by rw [hr.pc g, hp]; rfl) hw (by rw [hr.writer]; exact hn) (by rw [hr.readers]; exact hrd)⟩, hr.log, hr.done, hr.readers, rfl, ?_, ?_, ?_, ?_, ?_, ?_, ?_, hr.locks⟩⟩
    · intro u; exact pcabs (.inside op st (op.progMem env)) u
    · intro hx; cases hx
    · intro u a b p hu ha
      simp only [pcg] at hu
      split at hu
      · cases hu
        obtain ⟨n, rfl⟩ := writes_add hw
        have hT : TableAfter env h k c t.log t.table := (rtReach_inv hr.reach).free (by rw [hr.writer]; exact hn)
        obtain ⟨t', e, a1, -⟩ := AddNode_spec hT.reach.inv n
        rw [prog_add a1]
        rw [← hab] at a1
        exact progMem_add hwf a1
      · exact hr.wsec u a b p hu ha
    · intro u a b p hu ha
      simp only [pcg] at hu
      split at hu
      · cases hu; rw [hw] at ha; cases ha
      · exact hr.rsec u a b p hu ha
    · intro u a b p hu
      simp only [pcg] at hu
      split at hu
      · rename_i e; cases hu; rw [e, hold0]; exact progMem_disc env _
      · exact hr.disc u a b p hu
    · intro u a b p hu hx y
      simp only [pcg] at hu
      split at hu
      · rename_i e; rw [e, hold0]; exact fun e' => nomatch e'
      · exact hr.mode u a b p hu hx y
    · intro u hu
      by_cases e : u = g
      · rw [e]; exact hold0
      · refine hr.out u fun a b p hx => hu a b p ?_
        simp only [upd_ne _ _ e]; exact hx
  | body op st p p' m' L' hp hst =>
    obtain ⟨hsame, h', hd', hmd, hm'⟩ := hst.disc (hr.disc g op st p hp) hr.locks
    have hmem : op.writes = false → m' = s.mem := fun hw => hsame (by simp [hw])
    have hoth : ∀ u a b q, u ≠ g → s.pc u = .inside a b q → m' = s.mem := by
      intro u a b q hu hq
      cases hw : op.writes with
      | false => exact hmem hw
      | true => exact absurd (hr.excl hp hq hw).symm hu
    refine ⟨t, upd hold g h', ⟨hr.reach, hr.log, hr.done, hr.readers, hr.writer, ?_, ?_, ?_, ?_, ?_, ?_, ?_, hm'⟩⟩
    · intro u
      rw [hr.pc u]
      simp only [pcg]
      split
      · rename_i e; subst e; rw [hp]; rfl
      · rfl
    · intro hn
      cases hw : op.writes with
      | false => simp only [hmem hw]; exact hr.free hn
      | true =>
        have := ((rtReach_inv hr.reach).wr g).2 ⟨_, _, _, hr.inside hp, hw⟩
        rw [hr.writer] at this
        simp only at hn
        rw [hn] at this; cases this
    · intro u a b q hu ha
      simp only [pcg] at hu
      split at hu
      · cases hu
        rw [← LProg.step_run hst]
        exact hr.wsec g _ _ p hp ha
      · rename_i hne
        simp only [hoth u _ _ _ hne hu]
        exact hr.wsec u a b q hu ha
    · intro u a b q hu ha
      simp only [pcg] at hu
      split at hu
      · cases hu
        have e := hmem ha
        rw [← LProg.step_run hst]
        simp only [e]
        exact hr.rsec g _ _ p hp ha
      · rename_i hne
        simp only [hoth u _ _ _ hne hu]
        exact hr.rsec u a b q hu ha
    · intro u a b q hu
      by_cases e : u = g
      · subst e
        simp only [upd_same] at hu ⊢
        cases hu; exact hd'
      · simp only [upd_ne _ _ e] at hu ⊢
        exact hr.disc u a b q hu
    · intro u a b q hu hx y
      by_cases e : u = g
      · subst e
        simp only [upd_same] at hu ⊢
        cases hu; exact hmd (by simp [hx]) (hr.mode u op st p hp hx) y
      · simp only [upd_ne _ _ e] at hu ⊢
        exact hr.mode u a b q hu hx y
    · intro u hu
      by_cases e : u = g
      · subst e
        exact absurd (by simp only [upd_same]) (hu op st p')
      · simp only [upd_ne _ _ e] at hu ⊢
        exact hr.out u hu
  | runlock op st p r hp ho hw =>
    have hin := hr.inside hp
    obtain ⟨P', b1, b2⟩ := rt_section _ hr.reach hin rfl
    have htab : ((op.prog env).run t.table).2 = t.table := by rw [prog_read _ _ hw]
    have hres : ((op.prog env).run t.table).1 = r := by
      have := hr.rsec g op st p hp hw
      rw [LProg.outcome_run ho] at this
      exact (congrArg Prod.fst this).symm
    rw [htab] at b1
    rw [hres] at b2
    have c1 := Reach.step b1 ⟨g, .runlock op st P' r (by simp only [upd_same]) b2 hw⟩
    have hcol : upd (upd t.pc g (.inside op st P')) g (.leave op st t.log.length r) = upd t.pc g (.leave op st t.log.length r) := by
      funext u; by_cases hu : u = g
      · subst hu; simp
      · rw [upd_ne _ _ hu, upd_ne _ _ hu, upd_ne _ _ hu]
    simp only [hcol] at c1
    have hold0 : hold g = none := by
      have := hr.disc g op st p hp
      cases p <;> simp only [LProg.outcome, reduceCtorEq] at ho <;> exact this
    refine ⟨_, hold, ⟨c1, hr.log, hr.done, ?_, hr.writer, ?_, hr.free, ?_, ?_, ?_, ?_, ?_, hr.locks⟩⟩
    · simp only [hr.readers]
    · intro u; simp only [hr.log]; exact pcabs (.leave op st s.log.length r) u
    · intro u a b q hu ha
      simp only [pcg] at hu
      split at hu
      · cases hu
      · exact hr.wsec u a b q hu ha
    · intro u a b q hu ha
      simp only [pcg] at hu
      split at hu
      · cases hu
      · exact hr.rsec u a b q hu ha
    · intro u a b q hu
      simp only [pcg] at hu
      split at hu
      · cases hu
      · exact hr.disc u a b q hu
    · intro u a b q hu hx y
      simp only [pcg] at hu
      split at hu
      · cases hu
      · exact hr.mode u a b q hu hx y
    · intro u hu
      by_cases e : u = g
      · rw [e]; exact hold0
      · refine hr.out u fun a b p hx => hu a b p ?_
        simp only [upd_ne _ _ e]; exact hx
  | unlock op st p r hp ho hw =>
    have hin := hr.inside hp
    obtain ⟨P', b1, b2⟩ := rt_section _ hr.reach hin rfl
    obtain ⟨m1, w1, w2, w3⟩ := hr.wsec g op st p hp hw
    rw [LProg.outcome_run ho] at w1
    obtain ⟨hres, hmm⟩ : r = ((op.prog env).run t.table).1 ∧ s.mem = m1 := by simpa using w1
    rw [← hres] at b2
    have c1 := Reach.step b1 ⟨g, .unlock op st P' r (by simp only [upd_same]) b2 hw⟩
    have hcol : upd (upd t.pc g (.inside op st P')) g (.leave op st t.log.length r) = upd t.pc g (.leave op st t.log.length r) := by
      funext u; by_cases hu : u = g
      · subst hu; simp
      · rw [upd_ne _ _ hu, upd_ne _ _ hu, upd_ne _ _ hu]
    simp only [hcol] at c1
    have hold0 : hold g = none := by
      have := hr.disc g op st p hp
      cases p <;> simp only [LProg.outcome, reduceCtorEq] at ho <;> exact this
    have hnone : ∀ u a b q, upd s.pc g (.leave op st s.log.length r) u ≠ .inside a b q := by
      intro u a b q hu
      rw [pcg] at hu
      split at hu
      · cases hu
      · rename_i hne; exact hne (hr.excl hp hu hw).symm
    refine ⟨_, hold, ⟨c1, ?_, hr.done, hr.readers, rfl, ?_, ?_, ?_, ?_, ?_, ?_, ?_, hr.locks⟩⟩
    · simp only [hr.log]
    · intro u; simp only [hr.log]; exact pcabs (.leave op st s.log.length r) u
    · intro _; simp only; rw [hmm]; exact ⟨w2, w3⟩
    · intro u a b q hu; exact absurd hu (hnone u a b q)
    · intro u a b q hu; exact absurd hu (hnone u a b q)
    · intro u a b q hu; exact absurd hu (hnone u a b q)
    · intro u a b q hu; exact absurd hu (hnone u a b q)
    · intro u hu
      by_cases e : u = g
      · rw [e]; exact hold0
      · refine hr.out u fun a b p hx => hu a b p ?_
        simp only [upd_ne _ _ e]; exact hx
  | ret op st i r hp =>
    have ng : ∀ u a b p, upd s.pc g .idle u = .inside a b p ↔ s.pc u = .inside a b p := by
      intro u a b p; rw [pcg]; split
      · rename_i hu; subst hu; simp [hp]
      · rfl
    refine ⟨_, hold, ⟨Reach.step hr.reach ⟨g, .ret op st i r (by rw [hr.pc g, hp]; rfl)⟩, hr.log, ?_, hr.readers, hr.writer, ?_, hr.free, ?_, ?_, ?_, ?_, ?_, hr.locks⟩⟩
    · simp only [hr.done, hr.log]
    · intro u; exact pcabs .idle u
    · intro u a b p hu; exact hr.wsec u a b p ((ng u a b p).1 hu)
    · intro u a b p hu; exact hr.rsec u a b p ((ng u a b p).1 hu)
    · intro u a b p hu; exact hr.disc u a b p ((ng u a b p).1 hu)
    · intro u a b p hu; exact hr.mode u a b p ((ng u a b p).1 hu)
    · intro u hu; exact hr.out u fun a b p hx => hu a b p ((ng u a b p).2 hx)

abbrev NtReach (env : Env) (h : NodeInfo) (k c : Nat) (s : NtSt) : Prop := Reach (NtInit h k c) (NtStep env) s

theorem ntReach_rel {s : NtSt} (hr : NtReach env h k c s) : ∃ t hold, NtRel env h k c s t hold :=
  hr.inv (fun s => ∃ t hold, NtRel env h k c s t hold) (fun _ => ntRel_init) (fun _ _ ⟨_, _, h1⟩ h2 => ntRel_step h1 h2)

/-- C99: with the buckets' locks and pointers in the model, every completed call still answers what the sequential table answers
after some prefix of the insertions, taken between the call and its return, and an insertion stands itself at this position (as
C73). -/
theorem C99_linearizable {s : NtSt} (hr : NtReach env h k c s) {d : RtDone} (hd : d ∈ s.done) :
    ∃ t es, (RouteTable.new h k c).addAll env (s.log.take d.at') = .ok (t, es) ∧ Reachable env t ∧ d.res = d.op.answer env t ∧
      d.start ≤ d.at' ∧ d.at' ≤ d.stop ∧ d.stop ≤ s.log.length ∧
      ∀ n, d.op = .add n → s.log[d.at']? = some n ∧ d.at' < d.stop := by
  obtain ⟨t, hold, hR⟩ := ntReach_rel hr
  have := C73_linearizable hR.reach (d := d) (by rw [hR.done]; exact hd)
  rwa [hR.log] at this

/-- C99: while nobody holds the table's write lock, the pointers lead to pairwise different buckets, and the table they make up is
the one a sequential program has after the completed insertions. -/
theorem C99_quiescent {s : NtSt} (hr : NtReach env h k c s) (hw : s.writer = none) :
    (∃ t es, (RouteTable.new h k c).addAll env s.log = .ok (t, es) ∧ t.hnode = s.mem.hnode ∧ t.k = s.mem.k ∧ t.capacity = s.mem.capacity ∧
      t.size = s.mem.size ∧ t.last = s.mem.last ∧ ∀ i, t.nodeMap i = (s.mem.nodeMap i).map s.mem.heap) ∧
    ∀ i j a, s.mem.nodeMap i = some a → s.mem.nodeMap j = some a → i = j := by
  obtain ⟨t, hold, hR⟩ := ntReach_rel hr
  obtain ⟨h1, h2⟩ := hR.free hw
  obtain ⟨es, h3⟩ := C73_quiescent hR.reach (by rw [hR.writer]; exact hw)
  rw [hR.log, ← h2] at h3
  exact ⟨⟨_, es, h3, rfl, rfl, rfl, rfl, rfl, fun _ => rfl⟩, h1.inj⟩

/-- C99: no call panics, except `FindClosest` with a negative count. -/
theorem C99_no_panic {s : NtSt} (hr : NtReach env h k c s) {d : RtDone} (hd : d ∈ s.done)
    (hk : ∀ id z, d.op = .closest id z → 0 ≤ z) : ∃ v, d.res = .ok v := by
  obtain ⟨t, hold, hR⟩ := ntReach_rel hr
  exact C73_no_panic hR.reach (d := d) (by rw [hR.done]; exact hd) hk

/-- whoever holds a bucket's lock is inside a section of the table -/
theorem NtRel.holder {s : NtSt} {t : RtSt} {hold : Nat → Option (Nat × Bool)} (hR : NtRel env h k c s t hold) {u : Nat} {x : Nat × Bool}
    (hx : hold u = some x) : ∃ op st p, s.pc u = .inside op st p ∧ (x.2 = true → op.writes = true) := by
  cases hu : s.pc u with
  | inside a b q =>
    refine ⟨a, b, q, rfl, fun h2 => ?_⟩
    cases hw : a.writes with
    | true => rfl
    | false =>
      obtain ⟨y, w⟩ := x
      cases h2
      exact absurd hx (hR.mode u a b q hu hw y)
  | idle => have := hR.out u (by intro a b q; rw [hu]; exact NtPc.noConfusion); rw [this] at hx; cases hx
  | wait => have := hR.out u (by intro a b q; rw [hu]; exact NtPc.noConfusion); rw [this] at hx; cases hx
  | leave => have := hR.out u (by intro a b q; rw [hu]; exact NtPc.noConfusion); rw [this] at hx; cases hx

theorem NtRel.wants {s : NtSt} {t : RtSt} {hold : Nat → Option (Nat × Bool)} (hR : NtRel env h k c s t hold) {u a : Nat} {op : RtOp} {st : Nat}
    {w : Bool} {r : LProg RtVal} (hp : s.pc u = .inside op st (.lock a w r)) : hold u = none ∧ (w = true → op.writes = true) := by
  obtain ⟨h1, h2, -⟩ := hR.disc u op st _ hp
  refine ⟨h1, fun hw => ?_⟩
  cases hx : op.writes with
  | true => rfl
  | false => have := h2 (by simp [hx]); rw [hw] at this; cases this

theorem NtRel.lock_free {s : NtSt} {t : RtSt} {hold : Nat → Option (Nat × Bool)} (hR : NtRel env h k c s t hold) {g : Nat} {op : RtOp} {st a : Nat}
    {w : Bool} {r : LProg RtVal} (hp : s.pc g = .inside op st (.lock a w r)) :
    (s.locks a).writer = none ∧ (w = true → ∀ u, (s.locks a).readers u = 0) ∧
    ∀ u op' st' a' r', u ≠ g → s.pc u ≠ .inside op' st' (.lock a' true r') := by
  obtain ⟨hg, hro⟩ := hR.wants hp
  refine ⟨?_, ?_, ?_⟩
  · cases hx : (s.locks a).writer with
    | none => rfl
    | some u =>
      exfalso
      have hu := (hR.locks.1 a u).1 hx
      obtain ⟨o, b, q, hq, hw⟩ := hR.holder hu
      have e := hR.excl hq hp (hw rfl)
      rw [e, hg] at hu; cases hu
  · intro hw u
    rw [hR.locks.2 a u]
    split
    · rename_i hu
      exfalso
      obtain ⟨o, b, q, hq, -⟩ := hR.holder hu
      have e := hR.excl hp hq (hro hw)
      rw [← e, hg] at hu; cases hu
    · rfl
  · intro u op' st' a' r' hne hq
    exact hne (hR.excl hq hp ((hR.wants hq).2 rfl))

/-- C99: a goroutine that comes to a bucket's lock gets it at once: nobody holds it in a conflicting mode, and no other goroutine
waits for the write lock of any bucket (so that Go's preference for writers does not delay it either). -/
theorem C99_never_waits {s : NtSt} (hr : NtReach env h k c s) {g : Nat} {op : RtOp} {st a : Nat} {w : Bool} {r : LProg RtVal}
    (hp : s.pc g = .inside op st (.lock a w r)) :
    (s.locks a).writer = none ∧ (w = true → ∀ u, (s.locks a).readers u = 0) ∧
    ∀ u op' st' a' r', u ≠ g → s.pc u ≠ .inside op' st' (.lock a' true r') := by
  obtain ⟨t, hold, hR⟩ := ntReach_rel hr
  exact hR.lock_free hp

/-- C99: a goroutine inside a section of the table can always take its own next step, whatever the others do. -/
theorem C99_inside_moves {s : NtSt} (hr : NtReach env h k c s) {g : Nat} {op : RtOp} {st : Nat} {p : LProg RtVal}
    (hp : s.pc g = .inside op st p) : ∃ s', NtStep' g env s s' := by
  obtain ⟨t, hold, hR⟩ := ntReach_rel hr
  have fin : ∀ r, p.outcome = some r → ∃ s', NtStep' g env s s' := by
    intro r ho
    cases hw : op.writes with
    | true => exact ⟨_, .unlock op st p r hp ho hw⟩
    | false => exact ⟨_, .runlock op st p r hp ho hw⟩
  have hd := hR.disc g op st p hp
  cases p with
  | ret a => exact fin _ rfl
  | panic q => exact fin _ rfl
  | diverge => exact fin _ rfl
  | getConst f => exact ⟨_, .body _ _ _ _ _ _ hp .getConst⟩
  | getLast f => exact ⟨_, .body _ _ _ _ _ _ hp .getLast⟩
  | getSize f => exact ⟨_, .body _ _ _ _ _ _ hp .getSize⟩
  | getMap i f => exact ⟨_, .body _ _ _ _ _ _ hp .getMap⟩
  | setLast n r => exact ⟨_, .body _ _ _ _ _ _ hp .setLast⟩
  | setSize z r => exact ⟨_, .body _ _ _ _ _ _ hp .setSize⟩
  | setMap i a r => exact ⟨_, .body _ _ _ _ _ _ hp .setMap⟩
  | alloc k f => exact ⟨_, .body _ _ _ _ _ _ hp .alloc⟩
  | readB a f => exact ⟨_, .body _ _ _ _ _ _ hp .readB⟩
  | writeB a b r => exact ⟨_, .body _ _ _ _ _ _ hp .writeB⟩
  | lock a w r =>
    obtain ⟨h1, h2, -⟩ := hR.lock_free hp
    cases w with
    | false => exact ⟨_, .body _ _ _ _ _ _ hp (.rlock h1)⟩
    | true => exact ⟨_, .body _ _ _ _ _ _ hp (.lock h1 (h2 rfl))⟩
  | unlock a w r =>
    cases w with
    | false =>
      have := hR.locks.2 a g
      rw [if_pos hd.1] at this
      exact ⟨_, .body _ _ _ _ _ _ hp (.runlock (by omega))⟩
    | true => exact ⟨_, .body _ _ _ _ _ _ hp (.unlock ((hR.locks.1 a g).2 hd.1))⟩

/-- steps that a goroutine inside its section still has to make before the table's lock is released -/
def NtSt.left (s : NtSt) (g : Nat) : Nat :=
  match s.pc g with
  | .inside _ _ p => p.len s.mem
  | _ => 0

/-- C99: sections end: the number of steps left - lock operations included - is fixed when the section begins, each own step
lowers it by one and nobody else changes it. -/
theorem C99_sections_end {s s' : NtSt} (hr : NtReach env h k c s) {u : Nat} (hs : NtStep' u env s s') {g : Nat} {op : RtOp} {st : Nat}
    {p : LProg RtVal} (hg : s.pc g = .inside op st p) :
    (u ≠ g ∧ s'.pc g = s.pc g ∧ s'.left g = s.left g) ∨
    (u = g ∧ ((∃ p', s'.pc g = .inside op st p' ∧ s'.left g + 1 = s.left g) ∨ ∃ i r, s'.pc g = .leave op st i r)) := by
  obtain ⟨t, hold, hR⟩ := ntReach_rel hr
  by_cases hu : u = g
  · subst hu
    right
    refine ⟨rfl, ?_⟩
    cases hs with
    | call op hp => rw [hg] at hp; cases hp
    | rlock op st hp => rw [hg] at hp; cases hp
    | lock op st hp => rw [hg] at hp; cases hp
    | ret op st i r hp => rw [hg] at hp; cases hp
    | body op' st' q q' m' L' hp hst =>
      rw [hg] at hp; cases hp
      refine .inl ⟨q', by simp, ?_⟩
      simp only [NtSt.left, upd_same, hg]
      exact (LProg.step_len hst).symm
    | runlock op' st' q r hp =>
      rw [hg] at hp; cases hp
      exact .inr ⟨s.log.length, r, by simp only [upd_same]⟩
    | unlock op' st' q r hp =>
      rw [hg] at hp; cases hp
      exact .inr ⟨s.log.length, r, by simp only [upd_same]⟩
  · left
    have e : ∀ x, upd s.pc u x g = s.pc g := fun x => upd_ne _ _ (fun e => hu e.symm)
    refine ⟨hu, ?_, ?_⟩
    · cases hs <;> exact e _
    · cases hs with
      | call => simp only [NtSt.left, e]
      | rlock => simp only [NtSt.left, e]
      | lock => simp only [NtSt.left, e]
      | runlock => simp only [NtSt.left, e]
      | unlock => simp only [NtSt.left, e]
      | ret => simp only [NtSt.left, e]
      | body op' st' q q' m' L' hp hst =>
        have : m' = s.mem := by
          cases hw : op'.writes with
          | false => exact (hst.disc (hR.disc _ _ _ _ hp) hR.locks).1 (by simp [hw])
          | true => exact absurd (hR.excl hp hg hw) hu
        simp only [NtSt.left, e, this]

/-- some goroutine waits for the table's write lock -/
def NtSt.WriterWaits (s : NtSt) : Prop := ∃ v op st, s.pc v = .wait op st ∧ op.writes = true

/-- C99: no deadlock among the table's lock and the buckets' locks, with Go's preference for waiting writers: whenever a goroutine is
within a call, some goroutine within a call can take a step that does not acquire the table's read lock while a writer waits. -/
theorem C99_progress {s : NtSt} (hr : NtReach env h k c s) {g : Nat} (hg : s.pc g ≠ .idle) :
    ∃ u s', s.pc u ≠ .idle ∧ NtStep' u env s s' ∧ (s.readers u = false → s'.readers u = true → ¬ s.WriterWaits) := by
  obtain ⟨t, hold, hR⟩ := ntReach_rel hr
  have hi := rtReach_inv hR.reach
  have hin : ∀ u op st p, s.pc u = .inside op st p → ∃ u s', s.pc u ≠ .idle ∧ NtStep' u env s s' ∧
      (s.readers u = false → s'.readers u = true → ¬ s.WriterWaits) := by
    intro u op st p hu
    have hne : s.pc u ≠ .idle := by rw [hu]; exact NtPc.noConfusion
    obtain ⟨s', hs⟩ := C99_inside_moves hr hu
    refine ⟨u, s', hne, hs, fun h1 h2 => ?_⟩
    exfalso
    cases hs with
    | call op hp => rw [hu] at hp; cases hp
    | rlock op st hp => rw [hu] at hp; cases hp
    | lock op st hp => rw [hu] at hp; cases hp
    | ret op st i r hp => rw [hu] at hp; cases hp
    | body => rw [h1] at h2; cases h2
    | unlock => rw [h1] at h2; cases h2
    | runlock => simp at h2
  -- whoever the lock says is inside is inside
  have hinside : ∀ u, (∃ op st p, t.pc u = .inside op st p) → ∃ op st p, s.pc u = .inside op st p := by
    rintro u ⟨op, st, p, hu⟩
    rw [hR.pc u] at hu
    cases hx : s.pc u with
    | inside a b q => exact ⟨a, b, q, rfl⟩
    | idle => rw [hx] at hu; cases hu
    | wait => rw [hx] at hu; cases hu
    | leave => rw [hx] at hu; cases hu
  have busy : (∃ u op st p, s.pc u = .inside op st p) ∨ (s.writer = none ∧ ∀ u, s.readers u = false) := by
    cases hwr : s.writer with
    | some u =>
      obtain ⟨a, b, p, hu, -⟩ := (hi.wr u).1 (by rw [hR.writer]; exact hwr)
      obtain ⟨x, y, z, hz⟩ := hinside u ⟨a, b, p, hu⟩
      exact .inl ⟨u, x, y, z, hz⟩
    | none =>
      by_cases hrd : ∃ u, s.readers u = true
      · obtain ⟨u, hu⟩ := hrd
        obtain ⟨a, b, p, hu, -⟩ := (hi.rd u).1 (by rw [hR.readers]; exact hu)
        obtain ⟨x, y, z, hz⟩ := hinside u ⟨a, b, p, hu⟩
        exact .inl ⟨u, x, y, z, hz⟩
      · refine .inr ⟨rfl, fun u => ?_⟩
        cases hx : s.readers u
        · rfl
        · exact absurd ⟨u, hx⟩ hrd
  rcases busy with ⟨u, op, st, p, hu⟩ | ⟨hw, hrd⟩
  · exact hin u op st p hu
  · by_cases hww : s.WriterWaits
    · obtain ⟨v, op, st, hv, hwr⟩ := hww
      exact ⟨v, _, (by rw [hv]; exact NtPc.noConfusion), .lock op st hv hwr hw hrd, fun h1 h2 => (by rw [h1] at h2; cases h2)⟩
    · cases hp : s.pc g with
      | idle => exact absurd hp hg
      | inside op st p => exact hin g op st p hp
      | leave op st i r => exact ⟨g, _, hg, .ret op st i r hp, fun _ _ => hww⟩
      | wait op st =>
        cases hwr : op.writes with
        | false => exact ⟨g, _, hg, .rlock op st hp hwr hw, fun _ _ => hww⟩
        | true => exact absurd ⟨g, op, st, hp, hwr⟩ hww

/-- C99: the fields of a bucket are read only under its lock and written only under its write lock, and while someone holds the
write lock nobody else holds a lock of this bucket. -/
theorem C99_guarded {s : NtSt} (hr : NtReach env h k c s) :
    (∀ g op st a f, s.pc g = .inside op st (.readB a f) → (s.locks a).readers g = 1 ∨ (s.locks a).writer = some g) ∧
    (∀ g op st a b r, s.pc g = .inside op st (.writeB a b r) → (s.locks a).writer = some g) ∧
    ∀ a g, (s.locks a).writer = some g → ∀ u, (s.locks a).readers u = 0 := by
  obtain ⟨t, hold, hR⟩ := ntReach_rel hr
  refine ⟨?_, ?_, ?_⟩
  · intro g op st a f hp
    obtain ⟨⟨w, hw⟩, -⟩ := hR.disc g op st _ hp
    cases w with
    | false => left; rw [hR.locks.2, if_pos hw]
    | true => exact .inr ((hR.locks.1 a g).2 hw)
  · intro g op st a b r hp
    obtain ⟨-, hw, -⟩ := hR.disc g op st _ hp
    exact (hR.locks.1 a g).2 hw
  · intro a g hw u
    have h1 := (hR.locks.1 a g).1 hw
    rw [hR.locks.2]
    split
    · rename_i h2
      exfalso
      obtain ⟨o1, s1, p1, q1, w1⟩ := hR.holder h1
      obtain ⟨o2, s2, p2, q2, -⟩ := hR.holder h2
      have e := hR.excl q1 q2 (w1 rfl)
      subst e
      rw [h1] at h2; cases h2
    · rfl

/-- C99: a goroutine holds a lock of at most one bucket, holds it at most once, and holds none outside the sections of the table - so
a call that has returned, normally or by a panic, leaves no lock behind. -/
theorem C99_one_lock {s : NtSt} (hr : NtReach env h k c s) (g : Nat) :
    (∀ a b, ((s.locks a).writer = some g ∨ 0 < (s.locks a).readers g) → ((s.locks b).writer = some g ∨ 0 < (s.locks b).readers g) → a = b) ∧
    (∀ a, (s.locks a).readers g ≤ 1 ∧ ((s.locks a).writer = some g → (s.locks a).readers g = 0)) ∧
    ((∀ op st p, s.pc g ≠ .inside op st p) → ∀ a, (s.locks a).writer ≠ some g ∧ (s.locks a).readers g = 0) := by
  obtain ⟨t, hold, hR⟩ := ntReach_rel hr
  have key : ∀ a, ((s.locks a).writer = some g ∨ 0 < (s.locks a).readers g) → ∃ w, hold g = some (a, w) := by
    rintro a (h1 | h1)
    · exact ⟨true, (hR.locks.1 a g).1 h1⟩
    · rw [hR.locks.2] at h1
      split at h1
      · rename_i h2; exact ⟨false, h2⟩
      · omega
  refine ⟨?_, ?_, ?_⟩
  · intro a b ha hb
    obtain ⟨w, h1⟩ := key a ha
    obtain ⟨w', h2⟩ := key b hb
    rw [h1] at h2; cases h2; rfl
  · intro a
    rw [hR.locks.2]
    refine ⟨by split <;> omega, fun hw => ?_⟩
    rw [(hR.locks.1 a g).1 hw]
    simp
  · intro hout a
    have h0 := hR.out g hout
    refine ⟨fun hw => ?_, ?_⟩
    · have := (hR.locks.1 a g).1 hw; rw [h0] at this; cases this
    · rw [hR.locks.2, h0]; simp

/-- a goroutine inside its section can run on, alone, up to its return -/
theorem nt_finish {g : Nat} {op : RtOp} {st : Nat} (n : Nat) : ∀ {s : NtSt} {p : LProg RtVal}, NtReach env h k c s → s.pc g = .inside op st p →
    p.len s.mem = n → ∃ s', NtReach env h k c s' ∧ s'.pc g = .idle ∧ (∀ u, u ≠ g → s'.pc u = s.pc u) ∧ s'.log = s.log ++ op.logged ∧
      s'.done = s.done ++ [{ op, res := (p.run s.mem).1, start := st, at' := s.log.length, stop := s.log.length + op.logged.length }] := by
  induction n with
  | zero =>
    intro s p hr hp hl
    obtain ⟨r, ho⟩ : ∃ r, p.outcome = some r := by cases p <;> simp [LProg.len] at hl <;> exact ⟨_, rfl⟩
    rw [LProg.outcome_run ho]
    cases hw : op.writes with
    | true =>
      have h1 := Reach.step hr ⟨g, .unlock op st p r hp ho hw⟩
      have h2 := Reach.step h1 ⟨g, .ret op st s.log.length r (by simp only [upd_same])⟩
      refine ⟨_, h2, by simp only [upd_same], fun u hu => ?_, rfl, ?_⟩
      · simp only [upd_ne _ _ hu]
      · simp
    | false =>
      have h1 := Reach.step hr ⟨g, .runlock op st p r hp ho hw⟩
      have h2 := Reach.step h1 ⟨g, .ret op st s.log.length r (by simp only [upd_same])⟩
      have hlg : op.logged = [] := by cases op <;> simp_all [RtOp.writes, RtOp.logged]
      refine ⟨_, h2, by simp only [upd_same], fun u hu => ?_, (by simp [hlg]), (by simp [hlg])⟩
      simp only [upd_ne _ _ hu]
  | succ n ih =>
    intro s p hr hp hl
    obtain ⟨s1, hs⟩ := C99_inside_moves hr hp
    cases hs with
    | call op hp' => rw [hp] at hp'; cases hp'
    | rlock op st hp' => rw [hp] at hp'; cases hp'
    | lock op st hp' => rw [hp] at hp'; cases hp'
    | ret op st i r hp' => rw [hp] at hp'; cases hp'
    | body op' st' q q' m' L' hp' hst =>
      rw [hp] at hp'; cases hp'
      have h1 := Reach.step hr ⟨g, .body op st p q' m' L' hp hst⟩
      obtain ⟨s', a1, a2, a3, a4, a5⟩ := ih h1 (p := q') (by simp only [upd_same]) (by
        have := LProg.step_len hst; simp only; omega)
      refine ⟨s', a1, a2, fun u hu => ?_, a4, ?_⟩
      · rw [a3 u hu]; exact upd_ne _ _ hu
      · rw [a5, LProg.step_run hst]
    | runlock op' st' q r hp' ho => rw [hp] at hp'; cases hp'; cases p <;> simp_all [LProg.outcome, LProg.len]
    | unlock op' st' q r hp' ho => rw [hp] at hp'; cases hp'; cases p <;> simp_all [LProg.outcome, LProg.len]

/-- C99: a call whose goroutine has entered its section ends by the goroutine's own steps alone - it depends on no other goroutine -,
and the call is then among the completed ones. -/
theorem C99_call_ends {s : NtSt} (hr : NtReach env h k c s) {g : Nat} {op : RtOp} {st : Nat} {p : LProg RtVal}
    (hp : s.pc g = .inside op st p) : ∃ s', NtReach env h k c s' ∧ s'.pc g = .idle ∧ (∀ u, u ≠ g → s'.pc u = s.pc u) ∧
      ∃ d, s'.done = s.done ++ [d] ∧ d.op = op ∧ d.start = st := by
  obtain ⟨s', h1, h2, h3, -, h5⟩ := nt_finish _ hr hp rfl
  exact ⟨s', h1, h2, h3, _, h5, rfl, rfl⟩

/-! ## examples: the hypotheses are met -/

/-- the program and memory after `n` own steps -/
def LProg.after {α : Type} : Nat → LProg α → TMem → LProg α × TMem
  | 0, p, m => (p, m)
  | _ + 1, .ret a, m => (.ret a, m)
  | _ + 1, .panic q, m => (.panic q, m)
  | _ + 1, .diverge, m => (.diverge, m)
  | n + 1, .getConst f, m => (f m.hnode m.k m.capacity).after n m
  | n + 1, .getLast f, m => (f m.last).after n m
  | n + 1, .getSize f, m => (f m.size).after n m
  | n + 1, .getMap i f, m => (f (m.nodeMap i)).after n m
  | n + 1, .setLast x r, m => r.after n { m with last := x }
  | n + 1, .setSize z r, m => r.after n { m with size := z }
  | n + 1, .setMap i a r, m => r.after n { m with nodeMap := upd m.nodeMap i (some a) }
  | n + 1, .alloc k f, m => (f m.next).after n { m with heap := upd m.heap m.next (Bucket.new k), next := m.next + 1 }
  | n + 1, .lock _ _ r, m => r.after n m
  | n + 1, .unlock _ _ r, m => r.after n m
  | n + 1, .readB a f, m => (f (m.heap a)).after n m
  | n + 1, .writeB a b r, m => r.after n { m with heap := upd m.heap a b }

theorem nt_after {g : Nat} {op : RtOp} {st : Nat} (n : Nat) : ∀ {s : NtSt} {p : LProg RtVal}, NtReach env h k c s → s.pc g = .inside op st p →
    ∃ s', NtReach env h k c s' ∧ s'.pc g = .inside op st (p.after n s.mem).1 ∧ s'.mem = (p.after n s.mem).2 ∧ ∀ u, u ≠ g → s'.pc u = s.pc u := by
  induction n with
  | zero => intro s p hr hp; exact ⟨s, hr, hp, rfl, fun _ _ => rfl⟩
  | succ n ih =>
    intro s p hr hp
    cases ho : p.outcome with
    | some r =>
      refine ⟨s, hr, ?_, ?_, fun _ _ => rfl⟩ <;> cases p <;> simp only [LProg.outcome, reduceCtorEq] at ho
      all_goals first | exact hp | rfl
    | none =>
      obtain ⟨s1, hs⟩ := C99_inside_moves hr hp
      cases hs with
      | call op hp' => rw [hp] at hp'; cases hp'
      | rlock op st hp' => rw [hp] at hp'; cases hp'
      | lock op st hp' => rw [hp] at hp'; cases hp'
      | ret op st i r hp' => rw [hp] at hp'; cases hp'
      | body op' st' q q' m' L' hp' hst =>
        rw [hp] at hp'; cases hp'
        have h1 := Reach.step hr ⟨g, .body op st p q' m' L' hp hst⟩
        obtain ⟨s', a1, a2, a3, a4⟩ := ih h1 (p := q') (by simp only [upd_same])
        have e : p.after (n + 1) s.mem = q'.after n m' := by cases hst <;> rfl
        refine ⟨s', a1, by rw [e]; exact a2, by rw [e]; exact a3, fun u hu => ?_⟩
        rw [a4 u hu]; exact upd_ne _ _ hu
      | runlock op' st' q r hp' ho' => rw [hp] at hp'; cases hp'; rw [ho] at ho'; cases ho'
      | unlock op' st' q r hp' ho' => rw [hp] at hp'; cases hp'; rw [ho] at ho'; cases ho'

/-- reads bucket `a` next -/
def LProg.readsB {α : Type} : LProg α → Option Nat
  | .readB a _ => some a
  | _ => none
/-- writes bucket `a` next -/
def LProg.writesB {α : Type} : LProg α → Option Nat
  | .writeB a _ _ => some a
  | _ => none
/-- wants the write lock of bucket `a` next -/
def LProg.wantsB {α : Type} : LProg α → Option Nat
  | .lock a true _ => some a
  | _ => none

theorem readsB_eq {α : Type} {p : LProg α} {a : Nat} (h : p.readsB = some a) : ∃ f, p = .readB a f := by
  cases p <;> simp_all [LProg.readsB]
theorem writesB_eq {α : Type} {p : LProg α} {a : Nat} (h : p.writesB = some a) : ∃ b r, p = .writeB a b r := by
  cases p <;> simp_all [LProg.writesB]
theorem wantsB_eq {α : Type} {p : LProg α} {a : Nat} (h : p.wantsB = some a) : ∃ r, p = .lock a true r := by
  cases p with
  | lock b w r => cases w <;> simp_all [LProg.wantsB]
  | _ => simp_all [LProg.wantsB]

def ntS0 (h : NodeInfo) (k c : Nat) : NtSt :=
  { mem := TMem.new h k c, locks := fun _ => { readers := fun _ => 0, writer := none }, readers := fun _ => false, writer := none
    pc := fun _ => .idle, log := [], done := [] }

theorem ntS0_reach : NtReach env h k c (ntS0 h k c) := .init ⟨rfl, fun _ => rfl, fun _ => rfl, rfl, fun _ => rfl, rfl, rfl⟩

/-- a goroutine is about to take the write lock of a bucket, and later about to write the bucket, while another one waits for the table -/
theorem nt_example_writer : ∃ s : NtSt, NtReach env0 (nd 1 1) 2 3 s ∧ (∃ r, s.pc 1 = .inside (.add (nd 2 2)) 0 (.lock 0 true r)) ∧
    s.pc 2 = .wait (.find [1]) 0 ∧
    ∃ s' : NtSt, NtReach env0 (nd 1 1) 2 3 s' ∧ (∃ b r, s'.pc 1 = .inside (.add (nd 2 2)) 0 (.writeB 0 b r)) ∧ s'.pc 2 = .wait (.find [1]) 0 := by
  have r1 := Reach.step (ntS0_reach (env := env0) (h := nd 1 1) (k := 2) (c := 3)) ⟨1, .call (.add (nd 2 2)) rfl⟩
  have r2 := Reach.step r1 ⟨2, .call (.find [1]) rfl⟩
  have r3 := Reach.step r2 ⟨1, .lock (.add (nd 2 2)) 0 rfl rfl rfl (fun _ => rfl)⟩
  obtain ⟨s, a1, a2, a3, a4⟩ := nt_after (g := 1) (op := .add (nd 2 2)) (st := 0) 21 (p := (RtOp.add (nd 2 2)).progMem env0) r3 rfl
  obtain ⟨r, hr⟩ := wantsB_eq (p := (((RtOp.add (nd 2 2)).progMem env0).after 21 (TMem.new (nd 1 1) 2 3)).1) (a := 0) (by decide +kernel)
  refine ⟨s, a1, ⟨r, by rw [a2]; exact congrArg _ hr⟩, (a4 2 (by decide)).trans rfl, ?_⟩
  obtain ⟨s', b1, b2, b3, b4⟩ := nt_after (g := 1) (op := .add (nd 2 2)) (st := 0) 23 (p := (RtOp.add (nd 2 2)).progMem env0) r3 rfl
  obtain ⟨b, r', hr'⟩ := writesB_eq (p := (((RtOp.add (nd 2 2)).progMem env0).after 23 (TMem.new (nd 1 1) 2 3)).1) (a := 0) (by decide +kernel)
  exact ⟨s', b1, ⟨b, r', by rw [b2]; exact congrArg _ hr'⟩, (b4 2 (by decide)).trans rfl⟩

/-- two goroutines read the same bucket at the same time, both holding its read lock, while a third one waits to insert -/
theorem nt_example_readers : ∃ s : NtSt, NtReach env0 (nd 1 1) 2 3 s ∧ (∃ f, s.pc 1 = .inside (.find [1]) 0 (.readB 0 f)) ∧
    (∃ f, s.pc 2 = .inside (.closest [7] 3) 0 (.readB 0 f)) ∧ s.pc 3 = .wait (.add (nd 2 2)) 0 ∧
    (s.locks 0).readers 1 = 1 ∧ (s.locks 0).readers 2 = 1 := by
  have r1 := Reach.step (ntS0_reach (env := env0) (h := nd 1 1) (k := 2) (c := 3)) ⟨1, .call (.find [1]) rfl⟩
  have r2 := Reach.step r1 ⟨2, .call (.closest [7] 3) rfl⟩
  have r3 := Reach.step r2 ⟨3, .call (.add (nd 2 2)) rfl⟩
  have r4 := Reach.step r3 ⟨1, .rlock (.find [1]) 0 rfl rfl rfl⟩
  have r5 := Reach.step r4 ⟨2, .rlock (.closest [7] 3) 0 rfl rfl rfl⟩
  obtain ⟨s, a1, a2, a3, a4⟩ := nt_after (g := 1) (op := .find [1]) (st := 0) 5 (p := (RtOp.find [1]).progMem env0) r5 rfl
  obtain ⟨f, hf⟩ := readsB_eq (p := (((RtOp.find [1]).progMem env0).after 5 (TMem.new (nd 1 1) 2 3)).1) (a := 0) (by decide +kernel)
  obtain ⟨s', b1, b2, b3, b4⟩ := nt_after (g := 2) (op := .closest [7] 3) (st := 0) 5 (p := (RtOp.closest [7] 3).progMem env0) a1
    ((a4 2 (by decide)).trans rfl)
  have hsame : s.mem.nodeMap = (TMem.new (nd 1 1) 2 3).nodeMap := by rw [a3]; rfl
  obtain ⟨f', hf'⟩ := readsB_eq (p := (((RtOp.closest [7] 3).progMem env0).after 5 s.mem).1) (a := 0) (by rw [a3]; decide +kernel)
  have e1 : s'.pc 1 = .inside (.find [1]) 0 (.readB 0 f) := by rw [b4 1 (by decide), a2]; exact congrArg _ hf
  have e2 : s'.pc 2 = .inside (.closest [7] 3) 0 (.readB 0 f') := by rw [b2]; exact congrArg _ hf'
  have guard := (C99_guarded b1).1
  have nw : ∀ g, (s'.locks 0).writer ≠ some g := by
    intro g hg
    obtain ⟨t, hold, hR⟩ := ntReach_rel b1
    obtain ⟨o, st, p, hp, hw⟩ := hR.holder ((hR.locks.1 0 g).1 hg)
    have x1 := hR.excl hp e1 (hw rfl)
    have x2 := hR.excl hp e2 (hw rfl)
    omega
  refine ⟨s', b1, ⟨f, e1⟩, ⟨f', e2⟩, by rw [b4 3 (by decide), a4 3 (by decide)]; rfl, ?_, ?_⟩
  · exact (guard 1 _ _ _ _ e1).resolve_right (nw 1)
  · exact (guard 2 _ _ _ _ e2).resolve_right (nw 2)

/-- an insertion that has returned is among the completed calls, and the table holds the node behind the pointer -/
example : ∃ s : NtSt, NtReach env0 (nd 1 1) 2 3 s ∧ s.pc 1 = .idle ∧ s.log = [nd 2 2] ∧
    s.done = [{ op := .add (nd 2 2), res := .ok (.err none), start := 0, at' := 0, stop := 1 }] := by
  have r1 := Reach.step (ntS0_reach (env := env0) (h := nd 1 1) (k := 2) (c := 3)) ⟨1, .call (.add (nd 2 2)) rfl⟩
  have r3 := Reach.step r1 ⟨1, .lock (.add (nd 2 2)) 0 rfl rfl rfl (fun _ => rfl)⟩
  obtain ⟨s, a1, a2, -, a4, a5⟩ := nt_finish (g := 1) (op := .add (nd 2 2)) (st := 0) _ (p := (RtOp.add (nd 2 2)).progMem env0) r3 rfl rfl
  refine ⟨s, a1, a2, a4, a5.trans ?_⟩
  have : (((RtOp.add (nd 2 2)).progMem env0).run (TMem.new (nd 1 1) 2 3)).1 = .ok (.err none) := by decide +kernel
  exact congrArg (fun x => [({ op := .add (nd 2 2), res := x, start := 0, at' := 0, stop := 1 } : RtDone)]) this

end
end P2P

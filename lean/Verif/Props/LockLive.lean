import Verif.Locks
import Verif.Props.BucketLive
import Verif.Props.RouteTableConc
import Verif.Props.SyncMap
import Verif.Props.LoggerConc
import Verif.Props.Node
/-! # C96: calls on the shared data structures return

The other properties of the route table, its buckets, the table of pending requests, the generator of transaction ids and the registry of
loggers say what the calls return and that there is no deadlock. Here: under a scheduler that forgets nobody and locks that starve nobody
(`LockFair`, Verif/Locks.lean) every call does return, whatever the other goroutines do - they may go on calling for ever. -/
namespace P2P

/-- finitely many goroutines are within a call, if every step moves one -/
theorem finite_pcs {S P : Type} {init : S → Prop} {step : S → S → Prop} (pc : S → Nat → P) (p0 : P) (h0 : ∀ s, init s → ∀ g, pc s g = p0)
    (h1 : ∀ s t, step s t → ∃ g p, pc t = upd (pc s) g p) {s : S} (h : Reach init step s) : ∃ N, ∀ g, N ≤ g → pc s g = p0 := by
  induction h with
  | init h => exact ⟨0, fun g _ => h0 _ h g⟩
  | step _ st ih =>
    obtain ⟨N, hN⟩ := ih
    obtain ⟨g, p, hp⟩ := h1 _ _ st
    refine ⟨max N (g + 1), fun u hu => ?_⟩
    rw [hp, upd_ne _ _ (by omega)]
    exact hN u (by omega)

/-! ## a bucket (dht/routetable.go:13-84) -/

/-- what a goroutine inside a bucket method does with the bucket's lock -/
def BkPc.mode : BkPc → LMode
  | .idle => .idle
  | .addR0 .. | .q0 .. => .needR
  | .addR1 .. | .addR2 .. | .q1 .. | .q2 .. => .hasR
  | .addW0 .. => .needW
  | .addW1 .. | .addW2 .. | .addW3 .. | .addW4 .. => .hasW
  | .addRet .. | .q3 .. => .busy

/-- a step of goroutine `t` -/
def BkMoves (env : Env) (t : Nat) (s s' : BkSt) : Prop := BkStep env s s' ∧ s'.pc t ≠ s.pc t

theorem bk_upd {env : Env} {s s' : BkSt} (h : BkStep env s s') : ∃ g p, s'.pc = upd s.pc g p ∧
    (p.mode = .hasW → (s.pc g).mode = .hasW ∨ (s.pc g).mode = .needW) := by
  cases h <;> refine ⟨_, _, rfl, ?_⟩ <;> simp_all [BkPc.mode]

theorem upd_only {P : Type} {f f' : Nat → P} {g t : Nat} {p : P} (e : f' = upd f g p) (h : f' t ≠ f t) {u : Nat} (hu : u ≠ t) : f' u = f u := by
  by_cases ht : t = g
  · subst ht; rw [e, upd_ne _ _ hu]
  · exact absurd (by rw [e, upd_ne _ _ ht]) h

theorem upd_acq {P : Type} {f f' : Nat → P} {m : P → LMode} {g t : Nat} {p : P} (e : f' = upd f g p) (h : f' t ≠ f t) (ht : m (f' t) = .hasW)
    (hp : m p = .hasW → m (f g) = .hasW ∨ m (f g) = .needW) : m (f t) = .hasW ∨ m (f t) = .needW := by
  by_cases hg : t = g
  · subst hg; rw [e, upd_same] at ht; exact hp ht
  · exact absurd (by rw [e, upd_ne _ _ hg]) h

theorem bk_can {env : Env} {s : BkSt} (t : Nat) (hm : (s.pc t).mode.runs = true ∨ ((s.pc t).mode = .needR ∧ s.writer = none) ∨
    ((s.pc t).mode = .needW ∧ s.writer = none ∧ ∀ u, s.readers u = false)) : ∃ s', BkMoves env t s s' := by
  cases hp : s.pc t with
  | idle => rw [hp] at hm; simp [BkPc.mode, LMode.runs] at hm
  | addR0 c n => rw [hp] at hm; simp [BkPc.mode, LMode.runs] at hm; exact ⟨_, .addRLock s t c n hp hm, by simp [hp]⟩
  | addR1 c n => exact ⟨_, .addTest s t c n hp, by simp [hp]⟩
  | addR2 c n f =>
    cases f with
    | true => exact ⟨_, .addRUnlockFull s t c n hp, by simp [hp]⟩
    | false => exact ⟨_, .addRUnlock s t c n hp, by simp [hp]⟩
  | addW0 c n => rw [hp] at hm; simp [BkPc.mode, LMode.runs] at hm; exact ⟨_, .addLock s t c n hp hm.1 hm.2, by simp [hp]⟩
  | addW1 c n =>
    by_cases hf : s.size ≥ s.cap
    · exact ⟨_, .addFull s t c n hp hf, by simp [hp]⟩
    · exact ⟨_, .addRoom s t c n hp hf, by simp [hp]⟩
  | addW2 c n => exact ⟨_, .addStore s t c n hp, by simp [hp]⟩
  | addW3 c n => exact ⟨_, .addInc s t c n hp, by simp [hp]⟩
  | addW4 c n r => exact ⟨_, .addUnlock s t c n r hp, by simp [hp]⟩
  | addRet c n r => exact ⟨_, .addReturn s t c n r hp, by simp [hp]⟩
  | q0 op => rw [hp] at hm; simp [BkPc.mode, LMode.runs] at hm; exact ⟨_, .rdLock s t op hp hm, by simp [hp]⟩
  | q1 op => exact ⟨_, .rdEval s t op hp, by simp [hp]⟩
  | q2 op r => exact ⟨_, .rdUnlock s t op r hp, by simp [hp]⟩
  | q3 op r => exact ⟨_, .rdReturn s t op r hp, by simp [hp]⟩

theorem bk_mode {p : BkPc} : (p.mode = .hasW ↔ p.isWriting = true) ∧ (p.mode = .hasR ↔ p.isReading = true) := by
  cases p <;> simp [BkPc.mode, BkPc.isWriting, BkPc.isReading]

/-- the lock of a bucket (dht/routetable.go:14) -/
def bucketLock (env : Env) (capacity : Nat) : Locking BkSt (BkMoves env) (BkReach env capacity) where
  mode s t := (s.pc t).mode
  stage _ _ := 0
  left s t := (s.pc t).left
  others := by
    intro s t g h _ hst hne
    obtain ⟨u, p, e, -⟩ := bk_upd hst.1
    rw [upd_only e hst.2 hne]; exact ⟨rfl, rfl, rfl⟩
  own := by
    intro s t g _ hst hm
    rcases C25_calls_end hst.1 g with h | ⟨h, -⟩ | h
    · exact absurd h hst.2
    · rw [h] at hm; exact absurd rfl hm
    · exact .inr (.inr ⟨rfl, h⟩)
  excl := by
    intro s g h hr hg hh
    have I := bkReach_inv hr
    have hw := (I.wr g).2 (bk_mode.1.1 hg)
    rcases hh with hh | hh
    · have := (I.wr h).2 (bk_mode.1.1 hh)
      rw [hw] at this; exact Option.some.inj this
    · have h1 := I.excl g hw h
      rw [I.rd h, bk_mode.2.1 hh] at h1; cases h1
  acq := by
    intro s t g _ hst ht
    obtain ⟨u, p, e, hp⟩ := bk_upd hst.1
    exact upd_acq e hst.2 ht hp
  run := fun {s g} _ hm => bk_can g (.inl hm)
  readable := by
    intro s g hr hm hw
    refine bk_can g (.inr (.inl ⟨hm, ?_⟩))
    cases hx : s.writer with
    | none => rfl
    | some u => exact absurd (bk_mode.1.2 (((bkReach_inv hr).wr u).1 hx)) (hw u)
  writable := by
    intro s g hr hm hw
    have I := bkReach_inv hr
    refine bk_can g (.inr (.inr ⟨hm, ?_, fun u => ?_⟩))
    · cases hx : s.writer with
      | none => rfl
      | some u => exact absurd (bk_mode.1.2 ((I.wr u).1 hx)) (hw u).1
    · rw [I.rd u]
      cases hx : (s.pc u).isReading with
      | false => rfl
      | true => exact absurd (bk_mode.2.2 hx) (hw u).2
  finite := by
    intro s hr
    obtain ⟨N, hN⟩ := finite_pcs (fun s => s.pc) BkPc.idle (fun s h => h.2.2.2.2.2.1) (fun s t h => let ⟨g, p, e, _⟩ := bk_upd h; ⟨g, p, e⟩) hr
    exact ⟨N, fun h hh => by rw [show s.pc h = .idle from hN h hh]; rfl⟩

/-- the call a goroutine is in: an `Add` with its number, or a read -/
def BkPc.inCall : BkPc → Option ((Nat × NodeInfo) ⊕ BkOp)
  | .idle => none
  | .addR0 c n | .addR1 c n | .addR2 c n _ | .addW0 c n | .addW1 c n | .addW2 c n | .addW3 c n | .addW4 c n _ | .addRet c n _ => some (.inl (c, n))
  | .q0 op | .q1 op | .q2 op _ | .q3 op _ => some (.inr op)

theorem bk_mover {env : Env} {s s' : BkSt} (h : BkStep env s s') : ∃ g, BkMoves env g s s' := by
  have h' := h
  cases h with
  | addCall t n hp => exact ⟨t, h', by simp [hp]⟩
  | addRLock t c n hp => exact ⟨t, h', by simp [hp]⟩
  | addTest t c n hp => exact ⟨t, h', by simp [hp]⟩
  | addRUnlockFull t c n hp => exact ⟨t, h', by simp [hp]⟩
  | addRUnlock t c n hp => exact ⟨t, h', by simp [hp]⟩
  | addLock t c n hp => exact ⟨t, h', by simp [hp]⟩
  | addFull t c n hp => exact ⟨t, h', by simp [hp]⟩
  | addRoom t c n hp => exact ⟨t, h', by simp [hp]⟩
  | addStore t c n hp => exact ⟨t, h', by simp [hp]⟩
  | addInc t c n hp => exact ⟨t, h', by simp [hp]⟩
  | addUnlock t c n r hp => exact ⟨t, h', by simp [hp]⟩
  | addReturn t c n r hp => exact ⟨t, h', by simp [hp]⟩
  | rdCall t op hp => exact ⟨t, h', by simp [hp]⟩
  | rdLock t op hp => exact ⟨t, h', by simp [hp]⟩
  | rdEval t op hp => exact ⟨t, h', by simp [hp]⟩
  | rdUnlock t op r hp => exact ⟨t, h', by simp [hp]⟩
  | rdReturn t op r hp => exact ⟨t, h', by simp [hp]⟩

theorem bk_same {env : Env} {P : BkSt → Prop} (s s' : BkSt) (g h : Nat) (_ : P s) (hm : BkMoves env g s s')
    (hh : h ≠ g ∨ (s.pc g).mode ≠ .idle ∧ (s'.pc g).mode ≠ .idle) : (s'.pc h).inCall = (s.pc h).inCall := by
  by_cases hne : h = g
  · subst hne
    obtain ⟨h1, h2⟩ := hh.resolve_left (fun hx => hx rfl)
    obtain ⟨hs, hc⟩ := hm
    have key : ∀ u p, s'.pc = upd s.pc u p → (s.pc u ≠ .idle → p ≠ .idle → p.inCall = (s.pc u).inCall) → (s'.pc h).inCall = (s.pc h).inCall := by
      intro u p e hk
      by_cases hu : h = u
      · subst hu
        rw [e, upd_same] at h2 ⊢
        exact hk (fun hx => h1 (by rw [hx]; rfl)) (fun hx => h2 (by rw [hx]; rfl))
      · rw [e, upd_ne _ _ hu]
    cases hs <;> refine key _ _ rfl ?_ <;> simp_all [BkPc.inCall]
  · obtain ⟨u, p, e, -⟩ := bk_upd hm.1
    rw [upd_only e hm.2 hne]

theorem bk_last {env : Env} {s s' : BkSt} {t : Nat} (hm : BkMoves env t s s') (h1 : (s.pc t).mode ≠ .idle) (h2 : (s'.pc t).mode = .idle) :
    s'.pc t = .idle ∧ (∀ c n, (s.pc t).inCall = some (.inl (c, n)) → ∃ r, s'.adds = s.adds ++ [(c, n, r)]) ∧
    (∀ op, (s.pc t).inCall = some (.inr op) → ∃ r, s'.reads = s.reads ++ [(op, r)]) := by
  have hi : s'.pc t = .idle := by cases hp : s'.pc t <;> rw [hp] at h2 <;> simp [BkPc.mode] at h2
  refine ⟨hi, ?_⟩
  obtain ⟨hs, hc⟩ := hm
  have key : ∀ u p, s'.pc = upd s.pc u p → p ≠ .idle → False := by
    intro u p e hp
    by_cases hu : t = u
    · subst hu; rw [e, upd_same] at hi; exact hp hi
    · exact hc (by rw [e, upd_ne _ _ hu])
  have own : ∀ u, s'.pc = upd s.pc u .idle → u = t := by
    intro u e
    exact Classical.byContradiction fun hu => hc (by rw [e, upd_ne _ _ (Ne.symm hu)])
  cases hs with
  | addReturn u c n r hp =>
    cases own u rfl
    simp only [hp, BkPc.inCall]
    refine ⟨fun c' n' hx => ?_, fun op hx => (by cases hx)⟩
    cases hx; exact ⟨r, rfl⟩
  | rdReturn u op r hp =>
    cases own u rfl
    simp only [hp, BkPc.inCall]
    refine ⟨fun c' n' hx => (by cases hx), fun op hx => ?_⟩
    cases hx; exact ⟨r, rfl⟩
  | _ => exact (key _ _ rfl (by simp)).elim

/-- **C96, bucket.** Every `Add`, `Exist`, `All`, `Size` and `Full` returns: if goroutine `t` is within a call at moment `i`, there is a later
step of `t` with which this very call ends and its result is handed out. -/
theorem C96_bucket {env : Env} {capacity : Nat} {e : Nat → BkSt} (hrun : Run (BkSt.init capacity) (BkStep env) e)
    (fair : LockFair (bucketLock env capacity) e) {i t : Nat} :
    (∀ c n, ((e i).pc t).inCall = some (.inl (c, n)) → ∃ j r, i ≤ j ∧ (e (j + 1)).pc t = .idle ∧
      (e (j + 1)).adds = (e j).adds ++ [(c, n, r)]) ∧
    (∀ op, ((e i).pc t).inCall = some (.inr op) → ∃ j r, i ≤ j ∧ (e (j + 1)).pc t = .idle ∧
      (e (j + 1)).reads = (e j).reads ++ [(op, r)]) := by
  have good : ∀ i, BkReach env capacity (e i) := fun i => hrun.reach i
  have hstep : ∀ i, e (i + 1) = e i ∨ ∃ g, BkMoves env g (e i) (e (i + 1)) := by
    intro i
    rcases hrun.next i with h | h
    · exact .inl h
    · exact .inr (bk_mover h)
  have go := fun hg => (bucketLock env capacity).lastSame good hstep fair (fun s t => (s.pc t).inCall) bk_same (g := t) (i := i) hg
  have ne : ∀ {x}, ((e i).pc t).inCall = some x → (bucketLock env capacity).mode (e i) t ≠ .idle := by
    intro x hx hm
    have : ((e i).pc t).mode = .idle := hm
    cases hp : (e i).pc t <;> rw [hp] at hx this <;> simp [BkPc.mode, BkPc.inCall] at hx this
  refine ⟨fun c n hc => ?_, fun op hc => ?_⟩
  · obtain ⟨j, h1, h2, h3, h4, h5⟩ := go (ne hc)
    have h2 : ((e j).pc t).inCall = some (.inl (c, n)) := h2.trans hc
    obtain ⟨h6, h7⟩ := bk_last h5 h3 h4
    obtain ⟨r, hr⟩ := h7.1 c n h2
    exact ⟨j, r, h1, h6, hr⟩
  · obtain ⟨j, h1, h2, h3, h4, h5⟩ := go (ne hc)
    have h2 : ((e j).pc t).inCall = some (.inr op) := h2.trans hc
    obtain ⟨h6, h7⟩ := bk_last h5 h3 h4
    obtain ⟨r, hr⟩ := h7.2 op h2
    exact ⟨j, r, h1, h6, hr⟩

/-! ## the route table (dht/routetable.go:86-223) -/

/-- what a goroutine inside a method of the route table does with the table's lock -/
def RtPc.mode : RtPc → LMode
  | .idle => .idle
  | .wait op _ => if op.writes then .needW else .needR
  | .inside op _ _ => if op.writes then .hasW else .hasR
  | .leave .. => .busy

/-- the part of the call a goroutine is in, counted backwards -/
def RtPc.stage : RtPc → Nat
  | .wait .. => 2
  | .inside .. => 1
  | _ => 0

theorem rt_upd {env : Env} {s s' : RtSt} {g : Nat} (h : RtStep' g env s s') : ∃ p, s'.pc = upd s.pc g p ∧
    (p.mode = .hasW → (s.pc g).mode = .hasW ∨ (s.pc g).mode = .needW) := by
  cases h <;> refine ⟨_, rfl, ?_⟩ <;> simp_all [RtPc.mode]
  intro h; split at h <;> cases h

theorem rt_mode {p : RtPc} : (p.mode = .hasW ↔ ∃ op st q, p = .inside op st q ∧ op.writes = true) ∧
    (p.mode = .hasR ↔ ∃ op st q, p = .inside op st q ∧ op.writes = false) := by
  cases p with
  | inside op st q => cases hw : op.writes <;> simp [RtPc.mode, hw] <;> exact hw
  | wait op st => cases hw : op.writes <;> simp [RtPc.mode, hw]
  | _ => simp [RtPc.mode]

theorem rt_can {env : Env} {s : RtSt} (g : Nat) (hm : (s.pc g).mode.runs = true ∨ ((s.pc g).mode = .needR ∧ s.writer = none) ∨
    ((s.pc g).mode = .needW ∧ s.writer = none ∧ ∀ u, s.readers u = false)) : ∃ s', RtStep' g env s s' := by
  cases hp : s.pc g with
  | idle => rw [hp] at hm; simp [RtPc.mode, LMode.runs] at hm
  | wait op st =>
    rw [hp] at hm
    cases hw : op.writes with
    | true => simp [RtPc.mode, LMode.runs, hw] at hm; exact ⟨_, .lock op st hp hw hm.1 hm.2⟩
    | false => simp [RtPc.mode, LMode.runs, hw] at hm; exact ⟨_, .rlock op st hp hw hm⟩
  | inside op st p =>
    rcases p.step_or_outcome s.table with ⟨p', t', hst⟩ | ⟨r, ho⟩
    · exact ⟨_, .access op st p p' t' hp hst⟩
    · cases hw : op.writes with
      | true => exact ⟨_, .unlock op st p r hp ho hw⟩
      | false => exact ⟨_, .runlock op st p r hp ho hw⟩
  | leave op st i r => exact ⟨_, .ret op st i r hp⟩

/-- the lock of the route table (dht/routetable.go:87) -/
def tableLock (env : Env) (h : NodeInfo) (k c : Nat) : Locking RtSt (fun g => RtStep' g env) (RtReach env h k c) where
  mode s g := (s.pc g).mode
  stage s g := (s.pc g).stage
  left s g := s.left g
  others := by
    intro s t g u hr hst hne
    obtain ⟨p, e, -⟩ := rt_upd hst
    have hp : t.pc u = s.pc u := by rw [e, upd_ne _ _ hne]
    refine ⟨by rw [hp], by rw [hp], ?_⟩
    cases hx : s.pc u with
    | inside op st q =>
      rcases C73_sections_end hr hst hx with ⟨_, _, h⟩ | ⟨h, _⟩
      · exact h
      · exact absurd h.symm hne
    | _ => simp only [RtSt.left, hp, hx]
  own := by
    intro s t g hr hst hm
    cases hx : s.pc g with
    | idle => rw [hx] at hm; exact absurd rfl hm
    | wait op st =>
      cases hst with
      | rlock op st hp => right; left; simp [RtPc.stage]
      | lock op st hp => right; left; simp [RtPc.stage]
      | call op hp | access op st p p' t' hp | runlock op st p r hp | unlock op st p r hp | ret op st a r hp => rw [hx] at hp; cases hp
    | inside op st p =>
      rcases C73_sections_end hr hst hx with ⟨h, _⟩ | ⟨_, h | ⟨i, r, h⟩⟩
      · exact absurd rfl h
      · obtain ⟨p', h1, h2⟩ := h
        right; right
        rw [h1]
        exact ⟨rfl, by omega⟩
      · right; left; rw [h]; simp [RtPc.stage]
    | leave op st i r =>
      cases hst with
      | ret op st a r hp => left; simp [RtPc.mode]
      | call op hp | access op st p p' t' hp | runlock op st p r hp | unlock op st p r hp | rlock op st hp | lock op st hp => rw [hx] at hp; cases hp
  excl := by
    intro s g u hr hg hu
    have I := rtReach_inv hr
    have hw := (I.wr g).2 (rt_mode.1.1 hg)
    rcases hu with hu | hu
    · have := (I.wr u).2 (rt_mode.1.1 hu)
      rw [hw] at this; exact Option.some.inj this
    · have := I.excl u ((I.rd u).2 (rt_mode.2.1 hu))
      rw [hw] at this; cases this
  acq := by
    intro s t g _ hst ht
    obtain ⟨p, e, hp⟩ := rt_upd hst
    rw [e, upd_same] at ht
    exact hp ht
  run := fun {s g} _ hm => rt_can g (.inl hm)
  readable := by
    intro s g hr hm hw
    refine rt_can g (.inr (.inl ⟨hm, ?_⟩))
    cases hx : s.writer with
    | none => rfl
    | some u => exact absurd (rt_mode.1.2 (((rtReach_inv hr).wr u).1 hx)) (hw u)
  writable := by
    intro s g hr hm hw
    have I := rtReach_inv hr
    refine rt_can g (.inr (.inr ⟨hm, ?_, fun u => ?_⟩))
    · cases hx : s.writer with
      | none => rfl
      | some u => exact absurd (rt_mode.1.2 ((I.wr u).1 hx)) (hw u).1
    · cases hx : s.readers u with
      | false => rfl
      | true => exact absurd (rt_mode.2.2 ((I.rd u).1 hx)) (hw u).2
  finite := by
    intro s hr
    obtain ⟨N, hN⟩ := finite_pcs (fun s => s.pc) RtPc.idle (fun s h => h.2.2.2.1)
      (fun s t ⟨g, h⟩ => let ⟨p, e, _⟩ := rt_upd h; ⟨g, p, e⟩) hr
    exact ⟨N, fun h hh => by rw [show s.pc h = .idle from hN h hh]; rfl⟩

/-- the call a goroutine is in: the method with its arguments, and when it began -/
def RtPc.inCall : RtPc → Option (RtOp × Nat)
  | .idle => none
  | .wait op st | .inside op st _ | .leave op st _ _ => some (op, st)

/-- **C96, route table.** Every `AddNode`, `Find`, `FindClosest`, `Size` and `Full` returns, however many goroutines use the table: if goroutine
`g` is within a call of `op` at moment `i`, there is a later step of `g` with which this very call ends and its result is handed out. -/
theorem C96_route_table {env : Env} {h : NodeInfo} {k c : Nat} {e : Nat → RtSt} (hrun : Run (RtInit h k c) (RtStep env) e)
    (fair : LockFair (tableLock env h k c) e) {i g : Nat} {op : RtOp} {st : Nat} (hc : ((e i).pc g).inCall = some (op, st)) :
    ∃ j d, i ≤ j ∧ (e (j + 1)).pc g = .idle ∧ (e (j + 1)).done = (e j).done ++ [d] ∧ d.op = op ∧ d.start = st := by
  have good : ∀ i, RtReach env h k c (e i) := fun i => hrun.reach i
  have same : ∀ (s t : RtSt) (g u : Nat), RtReach env h k c s → RtStep' g env s t →
      (u ≠ g ∨ (s.pc g).mode ≠ .idle ∧ (t.pc g).mode ≠ .idle) → (t.pc u).inCall = (s.pc u).inCall := by
    intro s t g u _ hst hu
    by_cases hne : u = g
    · subst hne
      obtain ⟨h1, h2⟩ := hu.resolve_left (fun hx => hx rfl)
      cases hst with
      | call op hp => rw [hp] at h1; exact absurd rfl h1
      | rlock op st hp | lock op st hp | access op st p p' t' hp | runlock op st p r hp | unlock op st p r hp =>
        simp only [upd_same, hp, RtPc.inCall]
      | ret op st a r hp => simp only [upd_same] at h2; exact absurd rfl h2
    · obtain ⟨p, e, -⟩ := rt_upd hst
      rw [e, upd_ne _ _ hne]
  obtain ⟨j, h1, h2, h3, h4, h5⟩ := (tableLock env h k c).lastSame good hrun.next fair (fun s t => (s.pc t).inCall) same (g := g) (i := i) (by
    intro hm
    have hm : ((e i).pc g).mode = .idle := hm
    cases hp : (e i).pc g with
    | idle => rw [hp] at hc; cases hc
    | wait op' st' => rw [hp] at hm; simp only [RtPc.mode] at hm; split at hm <;> cases hm
    | inside op' st' p => rw [hp] at hm; simp only [RtPc.mode] at hm; split at hm <;> cases hm
    | leave op' st' a r => rw [hp] at hm; cases hm)
  have h2 : ((e j).pc g).inCall = some (op, st) := h2.trans hc
  have h4 : ((e (j + 1)).pc g).mode = .idle := h4
  have hi : (e (j + 1)).pc g = .idle := by
    cases hp : (e (j + 1)).pc g with
    | idle => rfl
    | wait op' st' => rw [hp] at h4; simp only [RtPc.mode] at h4; split at h4 <;> cases h4
    | inside op' st' p => rw [hp] at h4; simp only [RtPc.mode] at h4; split at h4 <;> cases h4
    | leave op' st' a r => rw [hp] at h4; cases h4
  refine ⟨j, ?_⟩
  generalize e (j + 1) = t at h5 hi
  cases h5 with
  | ret op' st' a r hp =>
    rw [hp] at h2; cases h2
    exact ⟨_, h1, hi, rfl, rfl, rfl⟩
  | call op' hp | rlock op' st' hp | lock op' st' hp | access op' st' p p' t' hp | runlock op' st' p r hp | unlock op' st' p r hp =>
    simp at hi

/-! ## the generator of transaction ids (dht/node.go:14-34) -/

/-- what a goroutine inside `Next` does with the mutex -/
def TxPc.mode : TxPc → LMode
  | .idle => .idle
  | .waiting => .needW
  | .locked _ | .bumped _ | .read _ _ => .hasW
  | .unlocked _ _ => .busy

/-- own steps left until `Next` returns -/
def TxPc.left : TxPc → Nat
  | .idle => 0
  | .unlocked _ _ => 1
  | .read _ _ => 2
  | .bumped _ => 3
  | .locked _ => 4
  | .waiting => 5

/-- a step of goroutine `t` -/
def TxMoves (t : Nat) (s s' : TxSt) : Prop := TxStep s s' ∧ s'.pc t ≠ s.pc t

theorem tx_upd {s s' : TxSt} (h : TxStep s s') : ∃ g p, s'.pc = upd s.pc g p ∧ p ≠ s.pc g ∧
    (p.mode = .hasW → (s.pc g).mode = .hasW ∨ (s.pc g).mode = .needW) ∧ ((s.pc g).mode ≠ .idle → p.mode = .idle ∨ p.left < (s.pc g).left) := by
  cases h <;> refine ⟨_, _, rfl, ?_⟩ <;> simp_all [TxPc.mode, TxPc.left]

theorem upd_own {P : Type} {f f' : Nat → P} {g t : Nat} {p : P} (e : f' = upd f g p) (h : f' t ≠ f t) : t = g ∧ f' t = p := by
  by_cases ht : t = g
  · subst ht; exact ⟨rfl, by rw [e, upd_same]⟩
  · exact absurd (by rw [e, upd_ne _ _ ht]) h

theorem tx_mode {p : TxPc} : (p.mode = .hasW ↔ p.holds = true) ∧ p.mode ≠ .hasR ∧ p.mode ≠ .needR := by
  cases p <;> simp [TxPc.mode, TxPc.holds]

/-- the mutex of the generator (dht/node.go:15) -/
def txIdLock (init : UInt16) : Locking TxSt TxMoves (Reach (TxSt.init init) TxStep) where
  mode s t := (s.pc t).mode
  stage _ _ := 0
  left s t := (s.pc t).left
  others := by
    intro s t g h _ hst hne
    obtain ⟨u, p, e, -⟩ := tx_upd hst.1
    rw [upd_only e hst.2 hne]; exact ⟨rfl, rfl, rfl⟩
  own := by
    intro s t g _ hst hm
    obtain ⟨u, p, e, -, -, h⟩ := tx_upd hst.1
    obtain ⟨rfl, h2⟩ := upd_own e hst.2
    rw [h2]
    rcases h hm with h | h
    · exact .inl h
    · exact .inr (.inr ⟨rfl, h⟩)
  excl := by
    intro s g h hr hg hh
    have I := Reach.inv (TxInv init) (fun _ h => TxInv.init h) (fun _ _ h hs => h.step hs) hr
    have h1 := (I.owner g).1 (tx_mode.1.1 hg)
    have h2 := (I.owner h).1 (tx_mode.1.1 (hh.resolve_right tx_mode.2.1))
    rw [h1] at h2; exact Option.some.inj h2
  acq := by
    intro s t g _ hst ht
    obtain ⟨u, p, e, -, hp, -⟩ := tx_upd hst.1
    exact upd_acq e hst.2 ht hp
  run := by
    intro s g _ hm
    cases hp : s.pc g with
    | locked k => exact ⟨_, .inc s g k hp, by simp [hp]⟩
    | bumped k => exact ⟨_, .read s g k hp, by simp [hp]⟩
    | read k v => exact ⟨_, .unlock s g k v hp, by simp [hp]⟩
    | unlocked k v => exact ⟨_, .ret s g k v hp, by simp [hp]⟩
    | _ => rw [hp] at hm; cases hm
  readable := fun _ hm _ => absurd hm tx_mode.2.2
  writable := by
    intro s g hr hm hw
    have I := Reach.inv (TxInv init) (fun _ h => TxInv.init h) (fun _ _ h hs => h.step hs) hr
    cases hp : s.pc g with
    | waiting =>
      refine ⟨_, .lock s g hp ?_, by simp [hp]⟩
      cases hx : s.owner with
      | none => rfl
      | some u => exact absurd (tx_mode.1.2 ((I.owner u).2 hx)) (hw u).1
    | _ => rw [hp] at hm; cases hm
  finite := by
    intro s hr
    obtain ⟨N, hN⟩ := finite_pcs (fun s => s.pc) TxPc.idle (fun s h => h.2.2.2.1)
      (fun s t h => let ⟨g, p, e, _⟩ := tx_upd h; ⟨g, p, e⟩) hr
    exact ⟨N, fun h hh => by rw [show s.pc h = .idle from hN h hh]; rfl⟩

/-- **C96, transaction ids.** Every `Next` returns an id. -/
theorem C96_txid {init : UInt16} {e : Nat → TxSt} (hrun : Run (TxSt.init init) TxStep e) (fair : LockFair (txIdLock init) e) {i t : Nat}
    (hc : (e i).pc t ≠ .idle) :
    ∃ j k id, i ≤ j ∧ (e (j + 1)).pc t = .idle ∧ (e (j + 1)).done = (e j).done ++ [(t, k, id)] := by
  have good : ∀ i, Reach (TxSt.init init) TxStep (e i) := fun i => hrun.reach i
  have mover : ∀ i, e (i + 1) = e i ∨ ∃ g, TxMoves g (e i) (e (i + 1)) := by
    intro i
    rcases hrun.next i with h | h
    · exact .inl h
    · obtain ⟨g, p, e', h1, -⟩ := tx_upd h
      exact .inr ⟨g, h, by rw [e', upd_same]; exact h1⟩
  have idle : ∀ p : TxPc, p.mode = .idle → p = .idle := by intro p hp; cases p <;> first | rfl | cases hp
  obtain ⟨j, h1, h2, h3, h4⟩ := (txIdLock init).last good mover fair (g := t) (i := i) (fun h => hc (idle _ h))
  have hi : (e (j + 1)).pc t = .idle := idle _ h3
  obtain ⟨hs, hne⟩ := h4
  refine ⟨j, ?_⟩
  generalize e (j + 1) = s' at hs hi hne
  cases hs with
  | ret u k v hp =>
    obtain ⟨rfl, -⟩ := upd_own rfl hne
    exact ⟨k, _, h1, hi, rfl⟩
  | _ => exact TxPc.noConfusion (hi.symm.trans (upd_own rfl hne).2)

/-! ## the table of pending requests (misc/syncmap.go) -/

section
variable {V : Type}

/-- what a goroutine inside a method of the map does with the mutex -/
def SmPc.mode : SmPc V → LMode
  | .idle => .idle
  | .peek _ _ | .peeking _ _ | .ret _ _ => .busy
  | .lock _ _ => .needW
  | .inside _ _ | .access _ _ | .delW _ _ | .deleting _ _ | .unlock _ _ => .hasW

/-- own steps left, at most -/
def SmPc.left : SmPc V → Nat
  | .idle => 0
  | .ret _ _ => 1
  | .unlock _ _ => 2
  | .deleting _ _ => 3
  | .delW _ _ => 4
  | .access _ _ => 5
  | .inside _ _ => 6
  | .lock _ _ => 7
  | .peeking _ _ => 8
  | .peek _ _ => 9

/-- a step of goroutine `g`: its position in the code changes -/
def SmMoves (g : Nat) (s t : SmSt V) : Prop := SmStep s t ∧ ∃ p, t.pcs = upd s.pcs g p ∧ p.left ≠ (s.pcs g).left

theorem sm_upd {s t : SmSt V} (h : SmStep s t) : ∃ g p, t.pcs = upd s.pcs g p ∧ p.left ≠ (s.pcs g).left ∧
    (p.mode = .hasW → (s.pcs g).mode = .hasW ∨ (s.pcs g).mode = .needW) ∧ ((s.pcs g).mode ≠ .idle → p.mode = .idle ∨ p.left < (s.pcs g).left) ∧
    ((s.pcs g).mode ≠ .idle → p.mode ≠ .idle → p.callOf = (s.pcs g).callOf) ∧
    ((s.pcs g).mode ≠ .idle → p.mode = .idle → ∀ c, (s.pcs g).callOf = some c → ∃ r, t.hist = s.hist ++ [.ret c r]) := by
  obtain ⟨-, h⟩ := h
  cases h with
  | call g op hp => cases op <;> exact ⟨_, _, rfl, by simp_all [SmPc.mode, SmPc.left, smStart]⟩
  | _ => exact ⟨_, _, rfl, by simp_all [SmPc.mode, SmPc.left, SmPc.callOf]⟩

theorem sm_mode {p : SmPc V} : (p.mode = .hasW ↔ p.holds = true) ∧ p.mode ≠ .hasR ∧ p.mode ≠ .needR := by
  cases p <;> simp [SmPc.mode, SmPc.holds]

theorem upd_inj {P : Type} {f : Nat → P} {m : P → Nat} {g u : Nat} {p q : P} (e : upd f g p = upd f u q) (hp : m p ≠ m (f g)) : g = u ∧ p = q := by
  by_cases h : g = u
  · subst h
    have := congrFun e g
    simp only [upd_same] at this
    exact ⟨rfl, this⟩
  · have := congrFun e g
    rw [upd_same, upd_ne _ _ h] at this
    exact absurd (by rw [this]) hp

theorem sm_can {s : SmSt V} (hr : ¬ SmRacy s) (g : Nat) (hm : (s.pcs g).mode.runs = true ∨ ((s.pcs g).mode = .needW ∧ s.mutex = none)) :
    ∃ t, SmMoves g s t := by
  cases hp : s.pcs g with
  | idle => rw [hp] at hm; simp [SmPc.mode, LMode.runs] at hm
  | peek c k => exact ⟨_, ⟨hr, .peekBegin g c k hp⟩, _, rfl, by simp [hp, SmPc.left]⟩
  | peeking c k =>
    cases hk : s.mapping k with
    | none => exact ⟨_, ⟨hr, .peekMiss g c k hp hk⟩, _, rfl, by simp [hp, SmPc.left]⟩
    | some v => exact ⟨_, ⟨hr, .peekHit g c k v hp hk⟩, _, rfl, by simp [hp, SmPc.left]⟩
  | lock c op =>
    rw [hp] at hm; simp [SmPc.mode, LMode.runs] at hm
    exact ⟨_, ⟨hr, .lock g c op hp hm⟩, _, rfl, by simp [hp, SmPc.left]⟩
  | inside c op => exact ⟨_, ⟨hr, .begin g c op hp⟩, _, rfl, by simp [hp, SmPc.left]⟩
  | access c op =>
    cases op with
    | put k v => exact ⟨_, ⟨hr, .putEnd g c k v hp⟩, _, rfl, by simp [hp, SmPc.left]⟩
    | get k => exact ⟨_, ⟨hr, .getEnd g c k hp⟩, _, rfl, by simp [hp, SmPc.left]⟩
    | del k =>
      cases hk : s.mapping k with
      | none => exact ⟨_, ⟨hr, .delMiss g c k hp hk⟩, _, rfl, by simp [hp, SmPc.left]⟩
      | some v => exact ⟨_, ⟨hr, .delHit g c k v hp hk⟩, _, rfl, by simp [hp, SmPc.left]⟩
  | delW c k => exact ⟨_, ⟨hr, .delBegin g c k hp⟩, _, rfl, by simp [hp, SmPc.left]⟩
  | deleting c k => exact ⟨_, ⟨hr, .delEnd g c k hp⟩, _, rfl, by simp [hp, SmPc.left]⟩
  | unlock c r => exact ⟨_, ⟨hr, .unlock g c r hp⟩, _, rfl, by simp [hp, SmPc.left]⟩
  | ret c r => exact ⟨_, ⟨hr, .ret g c r hp⟩, _, rfl, by simp [hp, SmPc.left]⟩

theorem sm_own {s t : SmSt V} {g : Nat} (h : SmMoves g s t) : ∃ p, t.pcs = upd s.pcs g p ∧
    (p.mode = .hasW → (s.pcs g).mode = .hasW ∨ (s.pcs g).mode = .needW) ∧ ((s.pcs g).mode ≠ .idle → p.mode = .idle ∨ p.left < (s.pcs g).left) ∧
    ((s.pcs g).mode ≠ .idle → p.mode ≠ .idle → p.callOf = (s.pcs g).callOf) ∧
    ((s.pcs g).mode ≠ .idle → p.mode = .idle → ∀ c, (s.pcs g).callOf = some c → ∃ r, t.hist = s.hist ++ [.ret c r]) := by
  obtain ⟨hs, p, e, hp⟩ := h
  obtain ⟨u, q, e', hq⟩ := sm_upd hs
  obtain ⟨rfl, rfl⟩ := upd_inj (m := SmPc.left) (e.symm.trans e') hp
  exact ⟨p, e, hq.2⟩

/-- the mutex of the map (misc/syncmap.go:6) -/
def mapLock (V : Type) : Locking (SmSt V) SmMoves (fun s => SmReach s ∧ ¬ SmRacy s) where
  mode s g := (s.pcs g).mode
  stage _ _ := 0
  left s g := (s.pcs g).left
  others := by
    intro s t g h _ hst hne
    obtain ⟨-, p, e, -⟩ := hst
    rw [e, upd_ne _ _ hne]; exact ⟨rfl, rfl, rfl⟩
  own := by
    intro s t g _ hst hm
    obtain ⟨p, e, -, h, -⟩ := sm_own hst
    rw [e, upd_same]
    rcases h hm with h | h
    · exact .inl h
    · exact .inr (.inr ⟨rfl, h⟩)
  excl := by
    intro s g h hr hg hh
    have I := sm_inv hr.1
    have h1 := (I.mutex g).1 (sm_mode.1.1 hg)
    have h2 := (I.mutex h).1 (sm_mode.1.1 (hh.resolve_right sm_mode.2.1))
    rw [h1] at h2; exact Option.some.inj h2
  acq := by
    intro s t g _ hst ht
    obtain ⟨p, e, hp, -⟩ := sm_own hst
    rw [e, upd_same] at ht
    exact hp ht
  run := fun {s g} hr hm => sm_can hr.2 g (.inl hm)
  readable := fun _ hm _ => absurd hm sm_mode.2.2
  writable := by
    intro s g hr hm hw
    refine sm_can hr.2 g (.inr ⟨hm, ?_⟩)
    cases hx : s.mutex with
    | none => rfl
    | some u => exact absurd (sm_mode.1.2 (((sm_inv hr.1).mutex u).2 hx)) (hw u).1
  finite := by
    intro s hr
    obtain ⟨N, hN⟩ := finite_pcs (fun s => s.pcs) SmPc.idle (fun s h => h.2.2.1)
      (fun s t h => let ⟨g, p, e, _⟩ := sm_upd h; ⟨g, p, e⟩) hr.1
    exact ⟨N, fun h hh => by rw [show s.pcs h = .idle from hN h hh]; rfl⟩

/-- **C96, pending requests.** Every `Put` and `Get` - and every `Del`, if no access overlaps a write - returns: if goroutine `g` is within call
number `c` at moment `i`, there is a later step of `g` with which this call ends. -/
theorem C96_map {e : Nat → SmSt V} (hrun : Run SmInit SmStep e) (hrace : ∀ i, ¬ SmRacy (e i)) (fair : LockFair (mapLock V) e) {i g c : Nat}
    (hc : ((e i).pcs g).callOf = some c) :
    ∃ j r, i ≤ j ∧ (e (j + 1)).pcs g = .idle ∧ (e (j + 1)).hist = (e j).hist ++ [.ret c r] := by
  have good : ∀ i, SmReach (e i) ∧ ¬ SmRacy (e i) := fun i => ⟨hrun.reach i, hrace i⟩
  have mover : ∀ i, e (i + 1) = e i ∨ ∃ g, SmMoves g (e i) (e (i + 1)) := by
    intro i
    rcases hrun.next i with h | h
    · exact .inl h
    · obtain ⟨g, p, e', h1, -⟩ := sm_upd h
      exact .inr ⟨g, h, p, e', h1⟩
  have idle : ∀ p : SmPc V, p.mode = .idle → p = .idle := by intro p hp; cases p <;> first | rfl | cases hp
  have same : ∀ (s t : SmSt V) (g u : Nat), SmReach s ∧ ¬ SmRacy s → SmMoves g s t →
      (u ≠ g ∨ (s.pcs g).mode ≠ .idle ∧ (t.pcs g).mode ≠ .idle) → (t.pcs u).callOf = (s.pcs u).callOf := by
    intro s t g u _ hm hu
    obtain ⟨p, e, -, -, h, -⟩ := sm_own hm
    by_cases hne : u = g
    · subst hne
      obtain ⟨h1, h2⟩ := hu.resolve_left (fun hx => hx rfl)
      rw [e, upd_same] at h2 ⊢
      exact h h1 h2
    · rw [e, upd_ne _ _ hne]
  obtain ⟨j, h1, h2, h3, h4, h5⟩ := (mapLock V).lastSame good mover fair (fun s t => (s.pcs t).callOf) same (g := g) (i := i)
    (fun h => by rw [idle _ h] at hc; cases hc)
  obtain ⟨p, e', -, -, -, h⟩ := sm_own h5
  have h4 : ((e (j + 1)).pcs g).mode = .idle := h4
  have hi := idle _ h4
  rw [e', upd_same] at h4
  obtain ⟨r, hr⟩ := h h3 h4 c (h2.trans hc)
  exact ⟨j, r, h1, hi, hr⟩

/-- If nobody calls `Del` - in the crawler nobody does - nothing has to be assumed about overlapping accesses. -/
theorem C96_map_no_del {e : Nat → SmSt V} (hrun : Run SmInit (fun a b => SmStep a b ∧ ∀ c k, SmEv.call c (.del k) ∉ b.hist) e)
    (fair : LockFair (mapLock V) e) {i g c : Nat} (hc : ((e i).pcs g).callOf = some c) :
    ∃ j r, i ≤ j ∧ (e (j + 1)).pcs g = .idle ∧ (e (j + 1)).hist = (e j).hist ++ [.ret c r] :=
  C96_map ⟨hrun.start, fun i => (hrun.next i).imp id And.left⟩ (fun i => C52_put_get_no_race (hrun.reach i)) fair hc

end

/-! ## the registry of loggers (misc/logger.go:46-85) -/

/-- what a goroutine inside `GetLogger` or `SetLevel` does with the mutex -/
def LgPc.mode : LgPc → LMode
  | .idle => .idle
  | .peek _ | .peeking _ => .busy
  | .lock _ | .slLock _ => .needW
  | .inside _ | .looking _ | .make _ | .store _ _ | .storing _ _ | .unlock _ _ | .slInside _ | .slUnlock => .hasW

/-- own steps left, at most -/
def LgPc.left : LgPc → Nat
  | .idle => 0
  | .unlock _ _ | .slUnlock => 1
  | .storing _ _ | .slInside _ => 2
  | .store _ _ | .slLock _ => 3
  | .make _ => 4
  | .looking _ => 5
  | .inside _ => 6
  | .lock _ => 7
  | .peeking _ => 8
  | .peek _ => 9

/-- the name asked for -/
def LgPc.asks : LgPc → Option Bytes
  | .peek n | .peeking n | .lock n | .inside n | .looking n | .make n | .store n _ | .storing n _ | .unlock n _ => some n
  | _ => none

theorem lg_upd {s t : LgSt} {g : Nat} (h : LgStep' g s t) : ∃ p, t.pcs = upd s.pcs g p ∧
    (p.mode = .hasW → (s.pcs g).mode = .hasW ∨ (s.pcs g).mode = .needW) ∧ ((s.pcs g).mode ≠ .idle → p.mode = .idle ∨ p.left < (s.pcs g).left) ∧
    ((s.pcs g).mode ≠ .idle → p.mode ≠ .idle → p.asks = (s.pcs g).asks) ∧
    ((s.pcs g).mode ≠ .idle → p.mode = .idle → ∀ n, (s.pcs g).asks = some n → ∃ i, t.results = s.results ++ [(n, i)]) := by
  cases h <;> exact ⟨_, rfl, by simp_all [LgPc.mode, LgPc.left, LgPc.asks]⟩

/-- whoever holds the mutex is inside -/
theorem lg_holder {s : LgSt} (h : LgReach s) (g : Nat) (hg : s.mutex = some g) : (s.pcs g).locked = true := by
  have : ∀ s : LgSt, LgReach s → ∀ g, s.mutex = some g → (s.pcs g).locked = true := by
    intro s h
    induction h with
    | init h => intro g hg; rw [h.2.2.1] at hg; cases hg
    | @step s t hr st ih =>
      obtain ⟨-, u, st⟩ := st
      intro g hg
      have key : ∀ p, t.mutex = s.mutex → t.pcs = upd s.pcs u p → ((s.pcs u).locked = true → p.locked = true) → (t.pcs g).locked = true := by
        intro p h1 h2 h3
        have := ih g (h1 ▸ hg)
        by_cases hu : g = u
        · subst hu; rw [h2, upd_same]; exact h3 this
        · rw [h2, upd_ne _ _ hu]; exact this
      cases st with
      | lock name hp hm => simp only [Option.some.injEq] at hg; subst hg; simp [LgPc.locked]
      | slLock l hp hm => simp only [Option.some.injEq] at hg; subst hg; simp [LgPc.locked]
      | unlock name i hp => cases hg
      | slUnlock hp => cases hg
      | _ => exact key _ rfl rfl (by simp_all [LgPc.locked])
  exact this s h g hg

theorem lg_mode {p : LgPc} : (p.mode = .hasW ↔ p.locked = true) ∧ p.mode ≠ .hasR ∧ p.mode ≠ .needR := by
  cases p <;> simp [LgPc.mode, LgPc.locked]

theorem lg_can {s : LgSt} (g : Nat) (hm : (s.pcs g).mode.runs = true ∨ ((s.pcs g).mode = .needW ∧ s.mutex = none)) : ∃ t, LgStep' g s t := by
  cases hp : s.pcs g with
  | idle => rw [hp] at hm; simp [LgPc.mode, LMode.runs] at hm
  | peek n => exact ⟨_, .peekBegin n hp⟩
  | peeking n =>
    cases hk : s.reg n with
    | none => exact ⟨_, .peekMiss n hp hk⟩
    | some i => exact ⟨_, .peekHit n i hp hk⟩
  | lock n => rw [hp] at hm; simp [LgPc.mode, LMode.runs] at hm; exact ⟨_, .lock n hp hm⟩
  | inside n => exact ⟨_, .lookBegin n hp⟩
  | looking n =>
    cases hk : s.reg n with
    | none => exact ⟨_, .lookMiss n hp hk⟩
    | some i => exact ⟨_, .lookHit n i hp hk⟩
  | make n => exact ⟨_, .make n hp⟩
  | store n i => exact ⟨_, .storeBegin n i hp⟩
  | storing n i => exact ⟨_, .storeEnd n i hp⟩
  | unlock n i => exact ⟨_, .unlock n i hp⟩
  | slLock l => rw [hp] at hm; simp [LgPc.mode, LMode.runs] at hm; exact ⟨_, .slLock l hp hm⟩
  | slInside l => exact ⟨_, .slSet l hp⟩
  | slUnlock => exact ⟨_, .slUnlock hp⟩

/-- the mutex of the registry (misc/logger.go:47) -/
def registryLock : Locking LgSt LgStep' (fun s => LgReach s ∧ ¬ LgRacy s) where
  mode s g := (s.pcs g).mode
  stage _ _ := 0
  left s g := (s.pcs g).left
  others := by
    intro s t g h _ hst hne
    obtain ⟨p, e, -⟩ := lg_upd hst
    rw [e, upd_ne _ _ hne]; exact ⟨rfl, rfl, rfl⟩
  own := by
    intro s t g _ hst hm
    obtain ⟨p, e, -, h, -⟩ := lg_upd hst
    rw [e, upd_same]
    rcases h hm with h | h
    · exact .inl h
    · exact .inr (.inr ⟨rfl, h⟩)
  excl := by
    intro s g h hr hg hh
    have I := lg_inv hr.1
    have h1 := I.mutex g (lg_mode.1.1 hg)
    have h2 := I.mutex h (lg_mode.1.1 (hh.resolve_right lg_mode.2.1))
    rw [h1] at h2; exact Option.some.inj h2
  acq := by
    intro s t g _ hst ht
    obtain ⟨p, e, hp, -⟩ := lg_upd hst
    rw [e, upd_same] at ht
    exact hp ht
  run := fun {s g} _ hm => lg_can g (.inl hm)
  readable := fun _ hm _ => absurd hm lg_mode.2.2
  writable := by
    intro s g hr hm hw
    refine lg_can g (.inr ⟨hm, ?_⟩)
    cases hx : s.mutex with
    | none => rfl
    | some u => exact absurd (lg_mode.1.2 (lg_holder hr.1 u hx)) (hw u).1
  finite := by
    intro s hr
    obtain ⟨N, hN⟩ := finite_pcs (fun s => s.pcs) LgPc.idle (fun s h => h.2.2.2.1)
      (fun s t ⟨_, g, h⟩ => let ⟨p, e, _⟩ := lg_upd h; ⟨g, p, e⟩) hr.1
    exact ⟨N, fun h hh => by rw [show s.pcs h = .idle from hN h hh]; rfl⟩

/-- **C96, loggers.** As long as no look-up overlaps a registration, every `GetLogger` returns a logger and every `SetLevel` returns. -/
theorem C96_registry {e : Nat → LgSt} (hrun : Run LgInit LgStep e) (hrace : ∀ i, ¬ LgRacy (e i)) (fair : LockFair registryLock e) {i g : Nat} :
    (∀ name, ((e i).pcs g).asks = some name → ∃ j n, i ≤ j ∧ (e (j + 1)).pcs g = .idle ∧ (e (j + 1)).results = (e j).results ++ [(name, n)]) ∧
    ∃ j, i ≤ j ∧ (e j).pcs g = .idle := by
  have good : ∀ i, LgReach (e i) ∧ ¬ LgRacy (e i) := fun i => ⟨hrun.reach i, hrace i⟩
  have mover : ∀ i, e (i + 1) = e i ∨ ∃ g, LgStep' g (e i) (e (i + 1)) := fun i => (hrun.next i).imp id And.right
  have idle : ∀ p : LgPc, p.mode = .idle → p = .idle := by intro p hp; cases p <;> first | rfl | cases hp
  refine ⟨fun name hc => ?_, ?_⟩
  · have same : ∀ (s t : LgSt) (g u : Nat), LgReach s ∧ ¬ LgRacy s → LgStep' g s t →
        (u ≠ g ∨ (s.pcs g).mode ≠ .idle ∧ (t.pcs g).mode ≠ .idle) → (t.pcs u).asks = (s.pcs u).asks := by
      intro s t g u _ hm hu
      obtain ⟨p, e, -, -, h, -⟩ := lg_upd hm
      by_cases hne : u = g
      · subst hne
        obtain ⟨h1, h2⟩ := hu.resolve_left (fun hx => hx rfl)
        rw [e, upd_same] at h2 ⊢
        exact h h1 h2
      · rw [e, upd_ne _ _ hne]
    obtain ⟨j, h1, h2, h3, h4, h5⟩ := registryLock.lastSame good mover fair (fun s t => (s.pcs t).asks) same (g := g) (i := i)
      (fun h => by rw [idle _ h] at hc; cases hc)
    obtain ⟨p, e', -, -, -, h⟩ := lg_upd h5
    have h4 : ((e (j + 1)).pcs g).mode = .idle := h4
    have hi := idle _ h4
    rw [e', upd_same] at h4
    obtain ⟨r, hr⟩ := h h3 h4 name (h2.trans hc)
    exact ⟨j, r, h1, hi, hr⟩
  · obtain ⟨j, h1, h2⟩ := registryLock.returns good mover fair g i
    exact ⟨j, h1, idle _ h2⟩

/-! ## Fair executions exist: every finite execution is the beginning of one -/

theorem fair_through {S : Type} {step : Nat → S → S → Prop} {istep : S → S → Prop} {init Good : S → Prop} (L : Locking S step Good)
    (good : ∀ s, Reach init istep s → Good s)
    (sub : ∀ g s t, Reach init istep s → L.mode s g ≠ .idle → step g s t → istep s t) {s : S}
    (h : Reach init istep s) : ∃ e N, Run init istep e ∧ e N = s ∧ LockFair L e := by
  obtain ⟨t, -, h2, h3⟩ := (L.within (Good' := fun t => Reach init istep t ∧ Reach (· = s) istep t) (fun t ht => good t ht.1)).calm
    (fun a b g ha hi hst => ⟨.step ha.1 (sub g a b ha.1 hi hst), .step ha.2 (sub g a b ha.1 hi hst)⟩) (s := s) ⟨h, .init rfl⟩
  obtain ⟨e, M, N, r, hM, -, hN⟩ := run_through h h2.2
  exact ⟨e, M, r, hM, .of_rest L hN h3⟩

/-- Whatever has happened to a bucket, to a route table, to a generator of transaction ids, to the table of pending requests (without `Del`),
to the registry of loggers (in one goroutine) so far: it can be continued fairly. So the theorems above speak about every situation a call can
find itself in. -/
theorem C96_fair_runs_exist :
    (∀ env capacity s, BkReach env capacity s → ∃ e N, Run (BkSt.init capacity) (BkStep env) e ∧ e N = s ∧ LockFair (bucketLock env capacity) e) ∧
    (∀ env h k c s, RtReach env h k c s → ∃ e N, Run (RtInit h k c) (RtStep env) e ∧ e N = s ∧ LockFair (tableLock env h k c) e) ∧
    (∀ init s, Reach (TxSt.init init) TxStep s → ∃ e N, Run (TxSt.init init) TxStep e ∧ e N = s ∧ LockFair (txIdLock init) e) ∧
    (∀ (V : Type) (s : SmSt V), Reach SmInit (fun a b => SmStep a b ∧ ∀ c k, SmEv.call c (.del k) ∉ b.hist) s →
      ∃ e N, Run SmInit (fun a b => SmStep a b ∧ ∀ c k, SmEv.call c (.del k) ∉ b.hist) e ∧ e N = s ∧ LockFair (mapLock V) e) ∧
    (∀ s, Reach LgInit (LgStep' 0) s → ∃ e N, Run LgInit LgStep e ∧ (∀ i, ¬ LgRacy (e i)) ∧ e N = s ∧ LockFair registryLock e) := by
  refine ⟨fun env capacity _ h => fair_through (bucketLock env capacity) (fun _ h => h) (fun _ _ _ _ _ h => h.1) h,
   fun env h k c _ hr => fair_through (tableLock env h k c) (fun _ h => h) (fun g _ _ _ _ h => ⟨g, h⟩) hr,
   fun init _ h => fair_through (txIdLock init) (fun _ h => h) (fun _ _ _ _ _ h => h.1) h, fun V s h => ?_, fun s h => ?_⟩
  · have red : ∀ s : SmSt V, Reach SmInit (fun a b => SmStep a b ∧ ∀ c k, SmEv.call c (.del k) ∉ b.hist) s → SmReach s := by
      intro s h
      induction h with
      | init h => exact .init h
      | step _ hs ih => exact .step ih hs.1
    refine fair_through (mapLock V) (fun s h => ⟨red s h, C52_put_get_no_race h⟩) (fun g s t hr hm hst => ⟨hst.1, fun c k hin => ?_⟩) h
    have hno : ∀ c k, SmEv.call c (.del k) ∉ s.hist := by
      cases hr with
      | init h => intro c k; rw [h.2.2.2.2]; simp
      | step _ st => exact st.2
    obtain ⟨hs, p, e, hp⟩ := hst
    obtain ⟨-, hs⟩ := hs
    cases hs with
    | call g' op hp' =>
      obtain ⟨rfl, rfl⟩ := upd_inj (m := SmPc.left) e.symm hp
      have hm : (s.pcs g).mode ≠ .idle := hm
      rw [hp'] at hm; exact hm rfl
    | _ => exact hno c k (by simpa using hin)
  · obtain ⟨e, N, h1, h2, h3⟩ := fair_through registryLock (init := LgInit) (istep := LgStep' 0)
      (fun s h => (C61_one_goroutine h).symm) (fun g s t hr hm hst => by
        have : ∀ s, Reach LgInit (LgStep' 0) s → ∀ g, g ≠ 0 → s.pcs g = .idle := by
          intro s hr
          induction hr with
          | init h => exact fun g _ => h.2.2.2.1 g
          | step _ hs ih =>
            intro g hg
            obtain ⟨p, e, -⟩ := lg_upd hs
            rw [e, upd_ne _ _ hg]; exact ih g hg
        by_cases hg : g = 0
        · subst hg; exact hst
        · have hm : (s.pcs g).mode ≠ .idle := hm
          rw [this s hr g hg] at hm; exact absurd rfl hm) h
    have nr : ∀ i, ¬ LgRacy (e i) := fun i => (C61_one_goroutine (h1.reach i)).1
    exact ⟨e, N, ⟨h1.start, fun i => (h1.next i).imp id fun h => ⟨nr i, 0, h⟩⟩, nr, h2, h3⟩

end P2P

import Verif.Model.ShutdownReg
import Verif.Props.Shutdown
/-! # C60: registering clean-up functions while the shutdown begins -/
namespace P2P

abbrev RgReach (pre : List Nat) (regs : List (List Nat)) : RgSt → Prop := Reach (RgInit pre regs) RgStep
abbrev RgFrom (s : RgSt) : RgSt → Prop := Reach (fun x => x = s) RgStep

/-- functions of the loop iterations that have been called -/
def calledOf : List CleanPc → List Nat → List Nat
  | p :: ps, f :: fs => if p.called then f :: calledOf ps fs else calledOf ps fs
  | _, _ => []

theorem calledOf_no (n : Nat) (fs : List Nat) : calledOf (List.replicate n .no) fs = [] := by
  induction n generalizing fs with
  | zero => cases fs <;> rfl
  | succ n ih => cases fs with
    | nil => rfl
    | cons f fs => simp [List.replicate_succ, calledOf, CleanPc.called, ih]

theorem calledOf_same {ps : List CleanPc} {fs : List Nat} {k : Nat} {old new : CleanPc} (h : ps[k]? = some old)
    (e : new.called = old.called) : calledOf (ps.set k new) fs = calledOf ps fs := by
  induction ps generalizing k fs with
  | nil => simp at h
  | cons p ps ih =>
    cases fs with
    | nil => cases k <;> rfl
    | cons f fs =>
      cases k with
      | zero => simp at h; subst h; simp [calledOf, e]
      | succ k => simp at h; simp [calledOf, ih h]

theorem calledOf_start {ps : List CleanPc} {fs : List Nat} {k f : Nat} {old new : CleanPc} (h : ps[k]? = some old)
    (ho : old.called = false) (hn : new.called = true) (hf : fs[k]? = some f) :
    (calledOf (ps.set k new) fs).Perm (calledOf ps fs ++ [f]) := by
  induction ps generalizing k fs with
  | nil => simp at h
  | cons p ps ih =>
    cases fs with
    | nil => simp at hf
    | cons g fs =>
      cases k with
      | zero =>
        simp at h hf; subst h; subst hf
        simp only [List.set_cons_zero, calledOf, ho, hn, if_true, Bool.false_eq_true, if_false]
        exact (List.perm_append_singleton _ _).symm
      | succ k =>
        simp at h hf
        have := ih h hf
        simp only [List.set_cons_succ, calledOf]
        split
        · exact this.cons g
        · exact this

theorem calledOf_all {ps : List CleanPc} {fs : List Nat} (hl : ps.length = fs.length) (h : ∀ p ∈ ps, p.called = true) :
    calledOf ps fs = fs := by
  induction ps generalizing fs with
  | nil => cases fs with
    | nil => rfl
    | cons f fs => simp at hl
  | cons p ps ih =>
    cases fs with
    | nil => simp at hl
    | cons f fs =>
      have h1 := h p (by simp)
      simp only [calledOf, h1, if_true]
      rw [ih (by simpa using hl) (fun q hq => h q (by simp [hq]))]

theorem calledOf_sublist (ps : List CleanPc) (fs : List Nat) : (calledOf ps fs).Sublist fs := by
  induction ps generalizing fs with
  | nil => cases fs <;> simp [calledOf]
  | cons p ps ih =>
    cases fs with
    | nil => simp [calledOf]
    | cons f fs =>
      simp only [calledOf]
      split
      · exact (ih fs).cons_cons f
      · exact (ih fs).cons f

theorem countP_le_of_length {l : List CleanPc} : l.countP CleanPc.notDone ≤ l.length := List.countP_le_length

structure RgInv (s : RgSt) : Prop where
  len : s.tasks.length = s.snap.length
  early : s.runner = .blocked ∨ s.runner = .add → s.added = 0 ∧ s.wg = 0
  none : s.runner = .blocked ∨ s.runner = .add ∨ s.runner = .range → s.snap = [] ∧ s.spawned = 0
  le : s.runner = .range → s.added ≤ s.cleans.length
  lt : s.runner ≠ .range → s.added ≤ s.snap.length
  later : ∀ k, s.spawned ≤ k → k < s.snap.length → s.tasks[k]? = some .no
  bound : s.spawned ≤ s.snap.length
  full : s.runner = .waiting ∨ s.runner = .returned → s.spawned = s.snap.length
  notNo : ∀ k, k < s.spawned → s.tasks[k]? ≠ some .no
  wg : s.wg = (s.added : Int) - (s.tasks.length - s.tasks.countP CleanPc.notDone : Int)
  called : s.called.Perm (calledOf s.tasks s.snap)
  pre : s.snap <+: s.cleans
  dead : s.dead = true → s.wg < 0
  live : s.dead = false → 0 ≤ s.wg
  zero : s.runner = .returned → s.wg ≤ 0

theorem RgInv.task {s : RgSt} (I : RgInv s) {k : Nat} {old new : CleanPc} (h : s.tasks[k]? = some old) (ho : old ≠ .no)
    (ho' : old.notDone = true) (hn : new ≠ .no) (called' : List Nat) (wg' : Int) (dead' : Bool)
    (hc : called'.Perm (calledOf (s.tasks.set k new) s.snap))
    (hwg : wg' = s.wg - (if new.notDone then 0 else 1))
    (hd : dead' = decide (wg' < 0)) :
    RgInv { s with tasks := s.tasks.set k new, called := called', wg := wg', dead := dead' } := by
  have hlt : k < s.tasks.length := (List.getElem?_eq_some_iff.1 h).1
  have hks : k < s.spawned := by
    rcases Nat.lt_or_ge k s.spawned with h' | h'
    · exact h'
    · have := I.later k h' (by rw [← I.len]; exact hlt)
      rw [h] at this; injection this with this; exact absurd this ho
  have hsp : s.runner ≠ .blocked ∧ s.runner ≠ .add ∧ s.runner ≠ .range := by
    refine ⟨?_, ?_, ?_⟩ <;> intro e <;> have := (I.none (by simp [e])).2 <;> omega
  have hcount := countP_set (new := new) h
  rw [ho'] at hcount
  refine ⟨by simpa using I.len, ?_, ?_, ?_, I.lt, ?_, I.bound, I.full, ?_, ?_, hc, I.pre, ?_, ?_, ?_⟩
  · intro e; exact absurd e (by simp [hsp.1, hsp.2.1])
  · intro e; exact absurd e (by simp [hsp.1, hsp.2.1, hsp.2.2])
  · intro e; exact absurd e hsp.2.2
  · intro j h1 h2
    show (s.tasks.set k new)[j]? = _
    have : k ≠ j := by intro e; subst e; exact absurd hks (by simpa using h1)
    rw [List.getElem?_set_ne this]; exact I.later j h1 h2
  · intro j h1
    show (s.tasks.set k new)[j]? ≠ _
    by_cases hj : k = j
    · subst hj; rw [List.getElem?_set_self hlt]; simpa using hn
    · rw [List.getElem?_set_ne hj]; exact I.notNo j h1
  · show wg' = (s.added : Int) - ((s.tasks.set k new).length - (s.tasks.set k new).countP CleanPc.notDone : Int)
    rw [hwg, I.wg, List.length_set]
    cases hn' : new.notDone <;> rw [hn'] at hcount <;> simp at hcount ⊢ <;> omega
  · intro h; simp only at h; rw [hd] at h; simpa using h
  · intro h; simp only at h; rw [hd] at h; simpa using h
  · intro h; have := I.zero h; show wg' ≤ 0; rw [hwg]; split <;> omega

theorem rg_inv {pre : List Nat} {regs : List (List Nat)} {s : RgSt} (h : RgReach pre regs s) : RgInv s := by
  refine h.inv RgInv ?_ ?_
  · rintro s rfl
    constructor <;> simp [calledOf]
  · intro s t I st
    cases st with
    | register hd hp =>
      exact { I with
        le := fun e => by have := I.le e; simp; omega
        pre := List.IsPrefix.trans I.pre (List.prefix_append _ _) }
    | signal hd => exact { I with }
    | start hd hr hs =>
      have he := I.early (.inl hr)
      have hn := I.none (.inl hr)
      exact { I with
        early := fun _ => he
        none := fun _ => hn
        le := fun e => by cases e
        lt := fun _ => I.lt (by simp [hr])
        full := fun e => by simp at e
        zero := fun e => by cases e }
    | add hd hr =>
      have he := I.early (.inr hr)
      have hn := I.none (.inr (.inl hr))
      have hw := I.wg
      exact { I with
        early := fun e => by simp at e
        none := fun _ => hn
        le := fun _ => Nat.le_refl _
        lt := fun e => by simp at e
        full := fun e => by simp at e
        zero := fun e => by cases e
        wg := by simp only; rw [he.1, he.2] at hw; omega
        dead := fun h => by simp only at h; rw [hd] at h; cases h
        live := fun _ => by simp only; omega }
    | range hd hr =>
      have hn := I.none (.inr (.inr hr))
      have hle := I.le hr
      have hw := I.wg
      have hlen := I.len
      rw [hn.1] at hlen
      have ht : s.tasks = [] := by simpa using hlen
      have hcalled := I.called
      rw [ht] at hcalled hw
      have hc : s.called = [] := by simpa [calledOf] using hcalled
      refine ⟨by simp, fun e => by simp at e, fun e => by simp at e, fun e => by simp at e, fun _ => hle, ?_, ?_, fun e => by simp at e,
        ?_, ?_, ?_, List.prefix_refl _, I.dead, I.live, fun e => by cases e⟩
      · intro k h1 h2; simp only at h2 ⊢; rw [List.getElem?_replicate, if_pos h2]
      · show s.spawned ≤ _; rw [hn.2]; exact Nat.zero_le _
      · intro k hk; simp only at hk; rw [hn.2] at hk; omega
      · simp only
        have : (List.replicate s.cleans.length CleanPc.no).countP CleanPc.notDone = s.cleans.length := by
          rw [List.countP_replicate]; simp [CleanPc.notDone]
        rw [this, List.length_replicate]; simp at hw; omega
      · simp only; rw [calledOf_no, hc]
    | spawn hd hr hlt =>
      have hk := I.later s.spawned (Nat.le_refl _) hlt
      have hcount := countP_set (new := .ready) hk
      have hl : s.spawned < s.tasks.length := by rw [I.len]; exact hlt
      refine ⟨by simpa using I.len, fun e => by simp [hr] at e, fun e => by simp [hr] at e, fun e => by simp [hr] at e, I.lt, ?_, hlt, fun e => by simp [hr] at e,
        ?_, ?_, ?_, I.pre, I.dead, I.live, I.zero⟩
      · intro k h1 h2
        show (s.tasks.set s.spawned .ready)[k]? = _
        simp only at h1
        rw [List.getElem?_set_ne (by omega)]; exact I.later k (by omega) h2
      · intro k h1
        show (s.tasks.set s.spawned .ready)[k]? ≠ _
        simp only at h1
        by_cases hj : s.spawned = k
        · subst hj; rw [List.getElem?_set_self hl]; simp
        · rw [List.getElem?_set_ne hj]; exact I.notNo k (by omega)
      · have hw := I.wg
        simp only [List.length_set]
        simp [CleanPc.notDone] at hcount
        omega
      · simp only; rw [calledOf_same (new := .ready) hk rfl]; exact I.called
    | spawnEnd hd hr hs =>
      exact { I with
        early := fun e => by simp at e
        none := fun e => by simp at e
        le := fun e => by cases e
        lt := fun _ => I.lt (by simp [hr])
        full := fun _ => hs
        zero := fun e => by cases e }
    | @cleanStart k f hd hk hf =>
      refine I.task (new := .running) hk (by simp) rfl (by simp) _ s.wg s.dead ?_ (by simp [CleanPc.notDone]) ?_
      · exact ((I.called.append_right [f])).trans (calledOf_start hk rfl rfl hf).symm
      · have := I.live hd; rw [hd]; symm; simpa using this
    | @cleanReturn k hd hk =>
      refine I.task (new := .returned) hk (by simp) rfl (by simp) s.called s.wg s.dead ?_ (by simp [CleanPc.notDone]) ?_
      · rw [calledOf_same (new := .returned) hk rfl]; exact I.called
      · have := I.live hd; rw [hd]; symm; simpa using this
    | @cleanDone k hd hk =>
      refine I.task (new := .done) hk (by simp) rfl (by simp) s.called (s.wg - 1) _ ?_ (by simp [CleanPc.notDone]) rfl
      rw [calledOf_same (new := .done) hk rfl]; exact I.called
    | finish hd hr hw =>
      exact { I with
        early := fun e => by simp at e
        none := fun e => by simp at e
        le := fun e => by cases e
        lt := fun _ => I.lt (by simp [hr])
        full := fun _ => I.full (.inl hr)
        zero := fun _ => by simp [hw] }

/-- **Only registered functions are called, each at most as often as it was registered.** -/
theorem C60_only_registered {pre : List Nat} {regs : List (List Nat)} {s : RgSt} (h : RgReach pre regs s) (f : Nat) :
    s.called.count f ≤ s.cleans.count f ∧ s.cleans <+: pre ++ regs.flatten := by
  have I := rg_inv h
  refine ⟨?_, ?_⟩
  · rw [I.called.count_eq]
    exact Nat.le_trans ((calledOf_sublist _ _).count_le f) (I.pre.sublist.count_le f)
  · have : s.cleans ++ s.pending.flatten = pre ++ regs.flatten := by
      refine h.inv (fun s => s.cleans ++ s.pending.flatten = pre ++ regs.flatten) ?_ ?_
      · rintro s rfl; rfl
      · intro s t e st
        cases st <;> first | exact e | skip
        case register hd hp => rw [← e, hp]; simp
    rw [← this]; exact List.prefix_append _ _

/-- **The process dies of the counter only if a registration came between the two reads of the list.** -/
theorem C60_dies_only_by_race {pre : List Nat} {regs : List (List Nat)} {s : RgSt} (h : RgReach pre regs s) (hd : s.dead = true) :
    s.added < s.snap.length := by
  have I := rg_inv h
  have h1 := I.dead hd
  have h2 := I.wg
  have h3 := I.len
  have h4 : s.tasks.countP CleanPc.notDone ≤ s.tasks.length := List.countP_le_length
  have h5 : s.runner ≠ .range := by
    intro e; have := (I.none (.inr (.inr e))).1; rw [this] at h3; simp at h3; rw [h3] at h2; simp at h2; omega
  have h6 := I.lt h5
  omega

theorem rgFrom_reach {pre : List Nat} {regs : List (List Nat)} {s t : RgSt} (h : RgReach pre regs s) (ht : RgFrom s t) :
    RgReach pre regs t := by
  refine ht.inv (RgReach pre regs) ?_ (fun a b ha st => .step ha st)
  rintro x rfl; exact h

/-- **Registrations that are finished before the shutdown begins are safe**: the process does not die, and when the shutdown has
finished every registered function has been called exactly once (as often as registered) and has returned. -/
theorem C60_registered_before {pre : List Nat} {regs : List (List Nat)} {s t : RgSt} (h : RgReach pre regs s)
    (hp : s.pending = []) (hb : s.runner = .blocked) (ht : RgFrom s t) :
    t.dead = false ∧ t.cleans = s.cleans ∧
    (t.runner = .returned → t.called.Perm (pre ++ regs.flatten) ∧ ∀ p ∈ t.tasks, p = .done) := by
  have I := rg_inv (rgFrom_reach h ht)
  have hq : t.pending = [] ∧ t.cleans = s.cleans ∧
      (t.runner = .blocked ∨ t.runner = .add ∨ (t.added = s.cleans.length ∧ (t.runner = .range ∨ t.snap = s.cleans))) := by
    refine ht.inv (fun t => t.pending = [] ∧ t.cleans = s.cleans ∧
      (t.runner = .blocked ∨ t.runner = .add ∨ (t.added = s.cleans.length ∧ (t.runner = .range ∨ t.snap = s.cleans)))) ?_ ?_
    · rintro x rfl; exact ⟨hp, rfl, .inl hb⟩
    · rintro a b ⟨h1, h2, h3⟩ st
      cases st with
      | register hd hp' => rw [h1] at hp'; cases hp'
      | signal hd => exact ⟨h1, h2, h3⟩
      | start hd hr hs => exact ⟨h1, h2, .inr (.inl rfl)⟩
      | add hd hr => exact ⟨h1, h2, .inr (.inr ⟨by simp [h2], .inl rfl⟩)⟩
      | range hd hr =>
        rcases h3 with e | e | e
        · rw [hr] at e; cases e
        · rw [hr] at e; cases e
        · exact ⟨h1, h2, .inr (.inr ⟨e.1, .inr h2⟩)⟩
      | spawn hd hr hl =>
        refine ⟨h1, h2, ?_⟩
        simpa [hr] using h3
      | spawnEnd hd hr hl =>
        refine ⟨h1, h2, ?_⟩
        simpa [hr] using h3
      | cleanStart hd hk hf => exact ⟨h1, h2, h3⟩
      | cleanReturn hd hk => exact ⟨h1, h2, h3⟩
      | cleanDone hd hk => exact ⟨h1, h2, h3⟩
      | finish hd hr hw =>
        refine ⟨h1, h2, ?_⟩
        simpa [hr] using h3
  have hall : s.cleans = pre ++ regs.flatten := by
    have : s.cleans ++ s.pending.flatten = pre ++ regs.flatten := by
      refine h.inv (fun s => s.cleans ++ s.pending.flatten = pre ++ regs.flatten) ?_ ?_
      · rintro s rfl; rfl
      · intro s t e st
        cases st <;> first | exact e | skip
        case register hd hp => rw [← e, hp]; simp
    rw [hp] at this; simpa using this
  refine ⟨?_, hq.2.1, ?_⟩
  · cases hd : t.dead with
    | false => rfl
    | true =>
      have h1 := C60_dies_only_by_race (rgFrom_reach h ht) hd
      have h2 := I.pre.length_le
      rw [hq.2.1] at h2
      rcases hq.2.2 with e | e | e
      · have := (I.none (.inl e)).1; rw [this] at h1; simp at h1
      · have := (I.none (.inr (.inl e))).1; rw [this] at h1; simp at h1
      · omega
  · intro hr
    have hs : t.added = s.cleans.length ∧ t.snap = s.cleans := by simpa [hr] using hq.2.2
    have hw := I.wg
    have hz := I.zero hr
    have hl := I.len
    have hc : t.tasks.countP CleanPc.notDone ≤ t.tasks.length := List.countP_le_length
    have h0 : t.tasks.countP CleanPc.notDone = 0 := by rw [hs.2] at hl; omega
    rw [List.countP_eq_zero] at h0
    have hdone : ∀ p ∈ t.tasks, p = .done := by
      intro p hp; have := h0 p hp; cases p <;> simp [CleanPc.notDone] at this ⊢
    refine ⟨?_, hdone⟩
    have := I.called
    rw [calledOf_all hl (fun p hp => by rw [hdone p hp]; rfl), hs.2, hall] at this
    exact this

/-- **A function registered after the loop has begun is never called by this shutdown.** -/
theorem C60_registered_too_late {pre : List Nat} {regs : List (List Nat)} {s t : RgSt} (h : RgReach pre regs s)
    (hb : s.runner ≠ .blocked ∧ s.runner ≠ .add ∧ s.runner ≠ .range) (ht : RgFrom s t) {f : Nat} (hf : f ∉ s.snap) : f ∉ t.called := by
  have I := rg_inv (rgFrom_reach h ht)
  have hq : t.snap = s.snap ∧ t.runner ≠ .blocked ∧ t.runner ≠ .add ∧ t.runner ≠ .range := by
    refine ht.inv (fun t => t.snap = s.snap ∧ t.runner ≠ .blocked ∧ t.runner ≠ .add ∧ t.runner ≠ .range) ?_ ?_
    · rintro x rfl; exact ⟨rfl, hb⟩
    · rintro a b ⟨h1, h2, h3, h4⟩ st
      cases st with
      | start hd hr hs => exact absurd hr h2
      | add hd hr => exact absurd hr h3
      | range hd hr => exact absurd hr h4
      | spawnEnd hd hr hl => exact ⟨h1, by simp⟩
      | finish hd hr hw => exact ⟨h1, by simp⟩
      | register hd hp => exact ⟨h1, h2, h3, h4⟩
      | signal hd => exact ⟨h1, h2, h3, h4⟩
      | spawn hd hr hl => exact ⟨h1, h2, h3, h4⟩
      | cleanStart hd hk hf => exact ⟨h1, h2, h3, h4⟩
      | cleanReturn hd hk => exact ⟨h1, h2, h3, h4⟩
      | cleanDone hd hk => exact ⟨h1, h2, h3, h4⟩
  intro hm
  have := (I.called.mem_iff).1 hm
  exact hf (hq.1 ▸ (calledOf_sublist _ _).subset this)

/-! ## The program: nothing registered at first, one registration of one function -/

private def rg0 : RgSt :=
  { cleans := [], pending := [[0]], signalled := false, runner := .blocked, added := 0, wg := 0, snap := [], tasks := [],
    spawned := 0, called := [], dead := false }

private def rg1 : RgSt :=
  { cleans := [0], pending := [], signalled := true, runner := .returned, added := 0, wg := 0, snap := [0], tasks := [.running],
    spawned := 1, called := [0], dead := false }
private def rg2 : RgSt := { rg1 with tasks := [.done], wg := -1, dead := true }

/-- **The race of the program can kill it**: the signal arrives just before `dht.Run` registers its clean-up. Before that the shutdown
has already been reported as finished although the function had not returned. -/
theorem C60_race_kills : ∃ s t, RgReach [] [[0]] s ∧ s.runner = .returned ∧ s.called = [0] ∧ s.tasks = [.running] ∧ s.dead = false ∧
    RgFrom s t ∧ t.dead = true := by
  have r0 : RgReach [] [[0]] rg0 := .init rfl
  have r1 := Reach.step r0 (.signal rfl)
  have r2 := Reach.step r1 (.start rfl rfl rfl)
  have r3 := Reach.step r2 (.add rfl rfl)
  have r4 := Reach.step r3 (.register rfl rfl)
  have r5 := Reach.step r4 (.range rfl rfl)
  have r6 := Reach.step r5 (.spawn rfl rfl (by decide))
  have r7 := Reach.step r6 (.spawnEnd rfl rfl rfl)
  have r8 := Reach.step r7 (.finish rfl rfl rfl)
  have r9 := Reach.step r8 (.cleanStart (k := 0) (f := 0) rfl rfl rfl)
  refine ⟨rg1, rg2, r9, rfl, rfl, rfl, rfl, ?_, rfl⟩
  exact Reach.step (Reach.step (Reach.init rfl) (.cleanReturn (k := 0) rfl rfl)) (.cleanDone (k := 0) rfl rfl)

/-- a signal that arrives before the registration: the function is never called -/
theorem C60_race_misses : ∃ s, RgReach [] [[0]] s ∧ s.runner = .returned ∧ s.cleans = [0] ∧ s.snap = [] ∧ s.called = [] := by
  have r0 : RgReach [] [[0]] rg0 := .init rfl
  have r1 := Reach.step r0 (.signal rfl)
  have r2 := Reach.step r1 (.start rfl rfl rfl)
  have r3 := Reach.step r2 (.add rfl rfl)
  have r4 := Reach.step r3 (.range rfl rfl)
  have r5 := Reach.step r4 (.spawnEnd rfl rfl rfl)
  have r6 := Reach.step r5 (.finish rfl rfl rfl)
  have r7 := Reach.step r6 (.register rfl rfl)
  exact ⟨_, r7, rfl, rfl, rfl, rfl⟩

/-- a registration in time: hypotheses of `C60_registered_before`, with a finished shutdown -/
theorem C60_before_example : ∃ s t, RgReach [] [[0]] s ∧ s.pending = [] ∧ s.runner = .blocked ∧ RgFrom s t ∧ t.runner = .returned ∧
    t.called = [0] := by
  have r0 : RgReach [] [[0]] rg0 := .init rfl
  have r1 := Reach.step r0 (.register rfl rfl)
  have q0 := Reach.init (init := fun x => x = { rg0 with cleans := [0], pending := [] }) (step := RgStep) (s := _) rfl
  have q1 := Reach.step q0 (.signal rfl)
  have q2 := Reach.step q1 (.start rfl rfl rfl)
  have q3 := Reach.step q2 (.add rfl rfl)
  have q4 := Reach.step q3 (.range rfl rfl)
  have q5 := Reach.step q4 (.spawn rfl rfl (by decide))
  have q6 := Reach.step q5 (.spawnEnd rfl rfl rfl)
  have q7 := Reach.step q6 (.cleanStart (k := 0) (f := 0) rfl rfl rfl)
  have q8 := Reach.step q7 (.cleanReturn (k := 0) rfl rfl)
  have q9 := Reach.step q8 (.cleanDone (k := 0) rfl rfl)
  have q10 := Reach.step q9 (.finish rfl rfl rfl)
  exact ⟨_, _, r1, rfl, rfl, q10, rfl, rfl⟩

end P2P

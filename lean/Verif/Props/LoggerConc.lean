import Verif.Model.LoggerConc
/-! # C61: the logger registry under concurrency -/
namespace P2P

abbrev LgReach : LgSt → Prop := Reach LgInit LgStep

/-- the goroutine holds the lock -/
def LgPc.locked : LgPc → Bool
  | .inside _ | .looking _ | .make _ | .store _ _ | .storing _ _ | .unlock _ _ | .slInside _ | .slUnlock => true
  | _ => false

structure LgInv (s : LgSt) : Prop where
  mutex : ∀ g, (s.pcs g).locked = true → s.mutex = some g
  /-- a registered logger was created under its name -/
  reg : ∀ name i, s.reg name = some i → ∃ l, s.created[i]? = some (name, l)
  /-- a created logger is registered, or about to be -/
  made : ∀ i name l, s.created[i]? = some (name, l) →
    s.reg name = some i ∨ ∃ g, s.pcs g = .store name i ∨ s.pcs g = .storing name i
  missing : ∀ g name, s.pcs g = .make name → s.reg name = none
  storing : ∀ g name i, s.pcs g = .store name i ∨ s.pcs g = .storing name i →
    s.reg name = none ∧ ∃ l, s.created[i]? = some (name, l)
  unl : ∀ g name i, s.pcs g = .unlock name i → s.reg name = some i
  res : ∀ name i, (name, i) ∈ s.results → s.reg name = some i

theorem lg_inv {s : LgSt} (h : LgReach s) : LgInv s := by
  refine h.inv LgInv ?_ ?_
  · rintro s ⟨h1, h2, h3, h4, h5, h6⟩
    constructor <;> simp [h1, h3, h4, h5, h6, LgPc.locked]
  · rintro s t I ⟨-, g, st⟩
    -- a step that only moves the program counter between points outside the lock
    have pcs : ∀ (p : LgPc) (g' : Nat) (P : LgPc → Prop), P (upd s.pcs g p g') → (g' = g ∧ P p) ∨ (g' ≠ g ∧ P (s.pcs g')) := by
      intro p g' P hP
      by_cases e : g' = g
      · subst e; rw [upd_same] at hP; exact .inl ⟨rfl, hP⟩
      · rw [upd_ne _ _ e] at hP; exact .inr ⟨e, hP⟩
    have keep : ∀ (p : LgPc) (name : Bytes) (i : Nat), (∃ g', s.pcs g' = .store name i ∨ s.pcs g' = .storing name i) →
        (∀ name i, s.pcs g = .store name i → p = .storing name i) → (∀ name i, s.pcs g ≠ .storing name i) →
        ∃ g', upd s.pcs g p g' = .store name i ∨ upd s.pcs g p g' = .storing name i := by
      rintro p name i ⟨g', h'⟩ h1 h2
      by_cases e : g' = g
      · subst e
        rcases h' with h' | h'
        · exact ⟨g', .inr (by rw [upd_same]; exact h1 _ _ h')⟩
        · exact absurd h' (h2 _ _)
      · exact ⟨g', by rw [upd_ne _ _ e]; exact h'⟩
    -- the same lock, map and loggers
    have move : ∀ (p : LgPc) (m : Option Nat), (p.locked = true → m = some g) → (∀ g', g' ≠ g → (s.pcs g').locked = true → m = some g') →
        (∀ name, p = .make name → s.reg name = none) →
        (∀ name i, p = .store name i ∨ p = .storing name i → s.reg name = none ∧ ∃ l, s.created[i]? = some (name, l)) →
        (∀ name i, p = .unlock name i → s.reg name = some i) →
        (∀ name i, s.pcs g = .store name i → p = .storing name i) → (∀ name i, s.pcs g ≠ .storing name i) →
        ∀ (lv : LogLevel) (rs : List (Bytes × Nat)), (∀ name i, (name, i) ∈ rs → s.reg name = some i) →
        LgInv { s with pcs := upd s.pcs g p, mutex := m, level := lv, results := rs } := by
      intro p m h1 h2 h3 h4 h5 h6 h7 lv rs h8
      refine ⟨?_, I.reg, ?_, ?_, ?_, ?_, h8⟩
      · intro g' h
        rcases pcs p g' (fun q => q.locked = true) h with ⟨e, h⟩ | ⟨e, h⟩
        · simp only; rw [e]; exact h1 h
        · exact h2 g' e h
      · intro i name l h
        exact (I.made i name l h).imp id (fun h => keep p name i h h6 h7)
      · intro g' name h
        rcases pcs p g' (fun q => q = .make name) h with ⟨e, h⟩ | ⟨e, h⟩
        · exact h3 name h
        · exact I.missing g' name h
      · intro g' name i h
        rcases pcs p g' (fun q => q = .store name i ∨ q = .storing name i) h with ⟨e, h⟩ | ⟨e, h⟩
        · exact h4 name i h
        · exact I.storing g' name i h
      · intro g' name i h
        rcases pcs p g' (fun q => q = .unlock name i) h with ⟨e, h⟩ | ⟨e, h⟩
        · exact h5 name i h
        · exact I.unl g' name i h
    have alone : (s.pcs g).locked = true → ∀ g', g' ≠ g → (s.pcs g').locked = false := by
      intro h g' e
      cases h' : (s.pcs g').locked with
      | false => rfl
      | true => have h1 := I.mutex g h; have h2 := I.mutex g' h'; rw [h1] at h2; injection h2 with h2; exact absurd h2.symm e
    cases st with
    | get name hp =>
      exact move _ s.mutex (by simp [LgPc.locked]) (fun g' _ h => I.mutex g' h) (by simp) (by simp) (by simp) (by simp [hp]) (by simp [hp])
        s.level s.results I.res
    | set l hp =>
      exact move _ s.mutex (by simp [LgPc.locked]) (fun g' _ h => I.mutex g' h) (by simp) (by simp) (by simp) (by simp [hp]) (by simp [hp])
        s.level s.results I.res
    | peekBegin name hp =>
      exact move _ s.mutex (by simp [LgPc.locked]) (fun g' _ h => I.mutex g' h) (by simp) (by simp) (by simp) (by simp [hp]) (by simp [hp])
        s.level s.results I.res
    | peekHit name i hp hr =>
      refine move _ s.mutex (by simp [LgPc.locked]) (fun g' _ h => I.mutex g' h) (by simp) (by simp) (by simp) (by simp [hp]) (by simp [hp])
        s.level _ ?_
      intro n j h
      rw [List.mem_append] at h
      rcases h with h | h
      · exact I.res n j h
      · simp at h; rw [h.1, h.2]; exact hr
    | peekMiss name hp hr =>
      exact move _ s.mutex (by simp [LgPc.locked]) (fun g' _ h => I.mutex g' h) (by simp) (by simp) (by simp) (by simp [hp]) (by simp [hp])
        s.level s.results I.res
    | lock name hp hm =>
      refine move _ (some g) (fun _ => rfl) ?_ (by simp) (by simp) (by simp) (by simp [hp]) (by simp [hp]) s.level s.results I.res
      intro g' _ h; have := I.mutex g' h; rw [hm] at this; cases this
    | lookBegin name hp =>
      exact move _ s.mutex (fun _ => I.mutex g (by simp [hp, LgPc.locked])) (fun g' _ h => I.mutex g' h) (by simp) (by simp) (by simp)
        (by simp [hp]) (by simp [hp]) s.level s.results I.res
    | lookHit name i hp hr =>
      refine move _ s.mutex (fun _ => I.mutex g (by simp [hp, LgPc.locked])) (fun g' _ h => I.mutex g' h) (by simp) (by simp) ?_
        (by simp [hp]) (by simp [hp]) s.level s.results I.res
      intro n j h; injection h with h1 h2; rw [← h1, ← h2]; exact hr
    | lookMiss name hp hr =>
      refine move _ s.mutex (fun _ => I.mutex g (by simp [hp, LgPc.locked])) (fun g' _ h => I.mutex g' h) ?_ (by simp) (by simp)
        (by simp [hp]) (by simp [hp]) s.level s.results I.res
      intro n h; injection h with h1; rw [← h1]; exact hr
    | make name hp =>
      have hal := alone (by simp [hp, LgPc.locked])
      have hmx := I.mutex g (by simp [hp, LgPc.locked])
      refine ⟨?_, ?_, ?_, ?_, ?_, ?_, I.res⟩
      · intro g' h
        rcases pcs _ g' (fun q => q.locked = true) h with ⟨e, h⟩ | ⟨e, h⟩
        · simp only; rw [e]; exact hmx
        · exact I.mutex g' h
      · intro n i h
        obtain ⟨l, hl⟩ := I.reg n i h
        exact ⟨l, by simp only; rw [List.getElem?_append_left (List.getElem?_eq_some_iff.1 hl).1]; exact hl⟩
      · intro i n l h
        simp only at h
        by_cases hi : i < s.created.length
        · rw [List.getElem?_append_left hi] at h
          rcases I.made i n l h with h | ⟨g', h⟩
          · exact .inl h
          · right
            by_cases e : g' = g
            · subst e; rw [hp] at h; simp at h
            · exact ⟨g', by simp only; rw [upd_ne _ _ e]; exact h⟩
        · have : i = s.created.length := by
            have := (List.getElem?_eq_some_iff.1 h).1
            simp at this; omega
          subst this
          simp at h
          right
          exact ⟨g, .inl (by simp only; rw [upd_same, h.1])⟩
      · intro g' n h
        rcases pcs _ g' (fun q => q = .make n) h with ⟨e, h⟩ | ⟨e, h⟩
        · cases h
        · exact I.missing g' n h
      · intro g' n i h
        rcases pcs _ g' (fun q => q = .store n i ∨ q = .storing n i) h with ⟨e, h⟩ | ⟨e, h⟩
        · simp at h
          obtain ⟨rfl, rfl⟩ := h
          exact ⟨I.missing _ _ hp, by simp⟩
        · have := hal g' e
          rcases h with h | h <;> rw [h] at this <;> simp [LgPc.locked] at this
      · intro g' n i h
        rcases pcs _ g' (fun q => q = .unlock n i) h with ⟨e, h⟩ | ⟨e, h⟩
        · cases h
        · exact I.unl g' n i h
    | storeBegin name i hp =>
      refine move _ s.mutex (fun _ => I.mutex g (by simp [hp, LgPc.locked])) (fun g' _ h => I.mutex g' h) (by simp) ?_ (by simp)
        ?_ (by simp [hp]) s.level s.results I.res
      · intro n j h
        simp at h
        obtain ⟨rfl, rfl⟩ := h
        exact I.storing g _ _ (.inl hp)
      · intro n j h; rw [hp] at h; injection h with h1 h2; rw [h1, h2]
    | storeEnd name i hp =>
      have hal := alone (by simp [hp, LgPc.locked])
      have hmx := I.mutex g (by simp [hp, LgPc.locked])
      obtain ⟨hnone, l0, hl0⟩ := I.storing g name i (.inr hp)
      have hreg : ∀ n j, s.reg n = some j → upd s.reg name (some i) n = some j := by
        intro n j h
        by_cases e : n = name
        · subst e; rw [hnone] at h; cases h
        · rw [upd_ne _ _ e]; exact h
      refine ⟨?_, ?_, ?_, ?_, ?_, ?_, ?_⟩
      · intro g' h
        rcases pcs _ g' (fun q => q.locked = true) h with ⟨e, h⟩ | ⟨e, h⟩
        · simp only; rw [e]; exact hmx
        · exact I.mutex g' h
      · intro n j h
        simp only at h
        by_cases e : n = name
        · subst e; rw [upd_same] at h; injection h with h; subst h; exact ⟨l0, hl0⟩
        · rw [upd_ne _ _ e] at h; exact I.reg n j h
      · intro j n l h
        rcases I.made j n l h with h | ⟨g', h⟩
        · exact .inl (hreg n j h)
        · by_cases e : g' = g
          · rw [e, hp] at h; simp at h
            left; simp only; rw [← h.1, ← h.2, upd_same]
          · have := hal g' e
            rcases h with h | h <;> rw [h] at this <;> simp [LgPc.locked] at this
      · intro g' n h
        rcases pcs _ g' (fun q => q = .make n) h with ⟨e, h⟩ | ⟨e, h⟩
        · cases h
        · have := hal g' e; rw [h] at this; simp [LgPc.locked] at this
      · intro g' n j h
        rcases pcs _ g' (fun q => q = .store n j ∨ q = .storing n j) h with ⟨e, h⟩ | ⟨e, h⟩
        · simp at h
        · have := hal g' e
          rcases h with h | h <;> rw [h] at this <;> simp [LgPc.locked] at this
      · intro g' n j h
        rcases pcs _ g' (fun q => q = .unlock n j) h with ⟨e, h⟩ | ⟨e, h⟩
        · injection h with h1 h2; simp only; rw [h1, h2, upd_same]
        · have := hal g' e; rw [h] at this; simp [LgPc.locked] at this
      · intro n j h; exact hreg n j (I.res n j h)
    | unlock name i hp =>
      have hal := alone (by simp [hp, LgPc.locked])
      refine move _ none (by simp [LgPc.locked]) ?_ (by simp) (by simp) (by simp) (by simp [hp]) (by simp [hp]) s.level _ ?_
      · intro g' e h; rw [hal g' e] at h; cases h
      · intro n j h
        rw [List.mem_append] at h
        rcases h with h | h
        · exact I.res n j h
        · simp at h; rw [h.1, h.2]; exact I.unl g name i hp
    | slLock l hp hm =>
      refine move _ (some g) (fun _ => rfl) ?_ (by simp) (by simp) (by simp) (by simp [hp]) (by simp [hp]) s.level s.results I.res
      intro g' _ h; have := I.mutex g' h; rw [hm] at this; cases this
    | slSet l hp =>
      exact move _ s.mutex (fun _ => I.mutex g (by simp [hp, LgPc.locked])) (fun g' _ h => I.mutex g' h) (by simp) (by simp) (by simp)
        (by simp [hp]) (by simp [hp]) l s.results I.res
    | slUnlock hp =>
      have hal := alone (by simp [hp, LgPc.locked])
      refine move _ none (by simp [LgPc.locked]) ?_ (by simp) (by simp) (by simp) (by simp [hp]) (by simp [hp]) s.level s.results I.res
      intro g' e h; rw [hal g' e] at h; cases h

/-- **One logger per name**: all finished `GetLogger` calls with the same name returned the same logger, which was created under that
name, and no second one was created. -/
theorem C61_one_logger_per_name {s : LgSt} (h : LgReach s) :
    (∀ name i j, (name, i) ∈ s.results → (name, j) ∈ s.results → i = j) ∧
    (∀ name i, (name, i) ∈ s.results → ∃ l, s.created[i]? = some (name, l)) ∧
    (∀ (i j : Nat) name l l', s.created[i]? = some (name, l) → s.created[j]? = some (name, l') → i = j) := by
  have I := lg_inv h
  refine ⟨?_, ?_, ?_⟩
  · intro name i j h1 h2
    have := I.res _ _ h1; rw [I.res _ _ h2] at this; injection this with this; exact this.symm
  · intro name i h1; exact I.reg _ _ (I.res _ _ h1)
  · intro i j name l l' h1 h2
    have key : ∀ g n k, (s.pcs g = .store n k ∨ s.pcs g = .storing n k) → (s.pcs g).locked = true := by
      intro g n k h; rcases h with h | h <;> rw [h] <;> rfl
    rcases I.made i name l h1 with a | ⟨g, a⟩ <;> rcases I.made j name l' h2 with b | ⟨g', b⟩
    · rw [a] at b; injection b
    · have := (I.storing _ _ _ b).1; rw [a] at this; cases this
    · have := (I.storing _ _ _ a).1; rw [b] at this; cases this
    · have m1 := I.mutex _ (key _ _ _ a); have m2 := I.mutex _ (key _ _ _ b)
      rw [m1] at m2; injection m2 with m2; subst m2
      rcases a with a | a <;> rcases b with b | b <;> rw [a] at b <;> simp at b <;> exact b

/-- **The only overlap**: the assignment on line 70 with the look-up on line 61. -/
theorem C61_only_race {s : LgSt} (h : LgReach s) {g g' : Nat} (hne : g ≠ g') (hw : (s.pcs g).writing = true)
    (ho : (s.pcs g').reading = true ∨ (s.pcs g').writing = true) : s.mutex = some g ∧ ∃ name, s.pcs g' = .peeking name := by
  have I := lg_inv h
  have hl : (s.pcs g).locked = true := by
    cases hp : s.pcs g <;> rw [hp] at hw <;> simp [LgPc.writing] at hw; rfl
  have hm := I.mutex g hl
  refine ⟨hm, ?_⟩
  have hl' : (s.pcs g').locked = false := by
    cases h' : (s.pcs g').locked with
    | false => rfl
    | true => have := I.mutex _ h'; rw [hm] at this; injection this with this; exact absurd this hne
  cases hp : s.pcs g' <;> rw [hp] at ho hl' <;> simp [LgPc.reading, LgPc.writing, LgPc.locked] at ho hl'
  exact ⟨_, rfl⟩

/-- **No race if one goroutine does all the work** – as in this program, whose loggers are all fetched during package initialisation. -/
theorem C61_one_goroutine {s : LgSt} (h : Reach LgInit (LgStep' 0) s) : ¬ LgRacy s ∧ LgReach s := by
  have idle : ∀ s, Reach LgInit (LgStep' 0) s → ∀ g, g ≠ 0 → s.pcs g = .idle := by
    intro s h
    refine h.inv (fun s => ∀ g, g ≠ 0 → s.pcs g = .idle) ?_ ?_
    · rintro s ⟨-, -, -, h4, -⟩ g _; exact h4 g
    · intro s t I st g hg
      cases st <;> (simp only; rw [upd_ne _ _ hg]; exact I g hg)
  have norace : ∀ s, Reach LgInit (LgStep' 0) s → ¬ LgRacy s := by
    rintro s h ⟨g, g', hne, hw, ho⟩
    by_cases e : g = 0
    · have := idle s h g' (by omega); rw [this] at ho; simp [LgPc.reading, LgPc.writing] at ho
    · have := idle s h g e; rw [this] at hw; cases hw
  refine ⟨norace s h, ?_⟩
  induction h with
  | init h => exact .init h
  | step h st ih => exact .step ih ⟨norace _ h, 0, st⟩

private def lg0 : LgSt :=
  { reg := fun _ => none, level := .info, mutex := none, pcs := fun _ => .idle, created := [], results := [] }

private theorem notRacy1 {s : LgSt} (h : ∀ g, (s.pcs g).writing = false) : ¬ LgRacy s := by
  rintro ⟨g, _, -, hw, -⟩; rw [h g] at hw; cases hw

/-- **Two goroutines can race**: one is storing a new logger while the other looks the name up. -/
theorem C61_race_possible : ∃ s, LgReach s ∧ LgRacy s := by
  have nr : ∀ (p q : LgPc) (s : LgSt), s.pcs = upd (upd (fun _ => .idle) 0 p) 1 q → p.writing = false → q.writing = false → ¬ LgRacy s := by
    intro p q s h hp hq
    refine notRacy1 (fun g => ?_)
    rw [h]; unfold upd
    split
    · exact hq
    · split
      · exact hp
      · rfl
  have u : ∀ p q p', upd (upd (upd (fun _ => LgPc.idle) 0 p) 1 q) 0 p' = upd (upd (fun _ => .idle) 0 p') 1 q := by
    intro p q p'; funext x; unfold upd; split <;> split <;> simp_all
  have u1 : ∀ p q q', upd (upd (upd (fun _ => LgPc.idle) 0 p) 1 q) 1 q' = upd (upd (fun _ => .idle) 0 p) 1 q' := by
    intro p q q'; funext x; unfold upd; split <;> simp_all
  let S : LgPc → LgPc → Option Nat → List (Bytes × ConsoleLogger) → LgSt :=
    fun p q m c => { lg0 with pcs := upd (upd (fun _ => .idle) 0 p) 1 q, mutex := m, created := c }
  have h0 : LgReach (S .idle .idle none []) := by
    refine .init ⟨rfl, rfl, rfl, ?_, rfl, rfl⟩
    intro g; show upd (upd _ 0 _) 1 _ g = _; unfold upd; split <;> (try split) <;> rfl
  have step0 : ∀ p q p' m c m' c', p.writing = false → q.writing = false → LgReach (S p q m c) →
      LgStep' 0 (S p q m c) { S p q m c with pcs := upd (S p q m c).pcs 0 p', mutex := m', created := c' } → LgReach (S p' q m' c') := by
    intro p q p' m c m' c' hp hq hr st
    have := Reach.step hr (step := LgStep) ⟨nr p q _ rfl hp hq, 0, st⟩
    have e : ({ S p q m c with pcs := upd (S p q m c).pcs 0 p', mutex := m', created := c' } : LgSt) = S p' q m' c' := by
      simp only [S]; rw [u]
    rw [e] at this; exact this
  have step1 : ∀ p q q' m c, p.writing = false → q.writing = false → LgReach (S p q m c) →
      LgStep' 1 (S p q m c) { S p q m c with pcs := upd (S p q m c).pcs 1 q' } → LgReach (S p q' m c) := by
    intro p q q' m c hp hq hr st
    have := Reach.step hr (step := LgStep) ⟨nr p q _ rfl hp hq, 1, st⟩
    have e : ({ S p q m c with pcs := upd (S p q m c).pcs 1 q' } : LgSt) = S p q' m c := by
      simp only [S]; rw [u1]
    rw [e] at this; exact this
  let L : ConsoleLogger := { pfx := [], level := .info }
  have r1 := step1 .idle .idle (.peek []) none [] rfl rfl h0 (.get [] rfl)
  have r1 := step1 .idle (.peek []) (.peeking []) none [] rfl rfl r1 (.peekBegin [] rfl)
  have r1 := step0 .idle (.peeking []) (.peek []) none [] none [] rfl rfl r1 (.get [] rfl)
  have r1 := step0 (.peek []) (.peeking []) (.peeking []) none [] none [] rfl rfl r1 (.peekBegin [] rfl)
  have r1 := step0 (.peeking []) (.peeking []) (.lock []) none [] none [] rfl rfl r1 (.peekMiss [] rfl rfl)
  have r1 := step0 (.lock []) (.peeking []) (.inside []) none [] (some 0) [] rfl rfl r1 (.lock [] rfl rfl)
  have r1 := step0 (.inside []) (.peeking []) (.looking []) (some 0) [] (some 0) [] rfl rfl r1 (.lookBegin [] rfl)
  have r1 := step0 (.looking []) (.peeking []) (.make []) (some 0) [] (some 0) [] rfl rfl r1 (.lookMiss [] rfl rfl)
  have r1 := step0 (.make []) (.peeking []) (.store [] 0) (some 0) [] (some 0) [([], L)] rfl rfl r1 (.make [] rfl)
  have r1 := step0 (.store [] 0) (.peeking []) (.storing [] 0) (some 0) [([], L)] (some 0) [([], L)] rfl rfl r1 (.storeBegin [] 0 rfl)
  exact ⟨_, r1, 0, 1, by decide, rfl, .inl rfl⟩

/-- a run of one goroutine in which two calls return the same logger -/
theorem C61_example : ∃ s, Reach LgInit (LgStep' 0) s ∧ s.results = [(b!"x", 0), (b!"x", 0)] ∧ s.created.length = 1 := by
  have r0 : Reach LgInit (LgStep' 0) lg0 := .init ⟨rfl, rfl, rfl, fun _ => rfl, rfl, rfl⟩
  have r := Reach.step r0 (.get b!"x" rfl)
  have r := Reach.step r (.peekBegin b!"x" rfl)
  have r := Reach.step r (.peekMiss b!"x" rfl rfl)
  have r := Reach.step r (.lock b!"x" rfl rfl)
  have r := Reach.step r (.lookBegin b!"x" rfl)
  have r := Reach.step r (.lookMiss b!"x" rfl rfl)
  have r := Reach.step r (.make b!"x" rfl)
  have r := Reach.step r (.storeBegin b!"x" 0 rfl)
  have r := Reach.step r (.storeEnd b!"x" 0 rfl)
  have r := Reach.step r (.unlock b!"x" 0 rfl)
  have r := Reach.step r (.get b!"x" rfl)
  have r := Reach.step r (.peekBegin b!"x" rfl)
  have r := Reach.step r (.peekHit b!"x" 0 rfl rfl)
  exact ⟨_, r, rfl, rfl⟩

end P2P

import Verif.Fair
/-! # Programs that share a readers-writer lock: every call returns

The rule behind C96. A mutex is a readers-writer lock without readers. Nothing here speaks about the crawler; `Props/LockLive.lean` applies it
to the code. -/
namespace P2P

/-- What a goroutine is doing, as far as the lock is concerned. -/
inductive LMode where
  /-- not in a call -/
  | idle
  /-- in a call, neither holding nor waiting for the lock -/
  | busy
  /-- before `RLock` -/
  | needR
  /-- before `Lock` -/
  | needW
  /-- between `RLock` and `RUnlock` -/
  | hasR
  /-- between `Lock` and `Unlock` -/
  | hasW
deriving DecidableEq

/-- The goroutine does not wait for the lock: nothing can keep it from going on. -/
def LMode.runs : LMode → Bool
  | .busy | .hasR | .hasW => true
  | _ => false

/-- Goroutines `step g` that protect their critical sections with a readers-writer lock and go through finitely many steps in every call
(`stage`, then `left`, go down). `Good` are the states the facts are needed for. -/
structure Locking (S : Type) (step : Nat → S → S → Prop) (Good : S → Prop) where
  mode : S → Nat → LMode
  stage : S → Nat → Nat
  left : S → Nat → Nat
  others : ∀ {s t g h}, Good s → step g s t → h ≠ g → mode t h = mode s h ∧ stage t h = stage s h ∧ left t h = left s h
  own : ∀ {s t g}, Good s → step g s t → mode s g ≠ .idle →
    mode t g = .idle ∨ stage t g < stage s g ∨ (stage t g = stage s g ∧ left t g < left s g)
  excl : ∀ {s g h}, Good s → mode s g = .hasW → mode s h = .hasW ∨ mode s h = .hasR → g = h
  acq : ∀ {s t g}, Good s → step g s t → mode t g = .hasW → mode s g = .hasW ∨ mode s g = .needW
  run : ∀ {s g}, Good s → (mode s g).runs = true → ∃ t, step g s t
  readable : ∀ {s g}, Good s → mode s g = .needR → (∀ h, mode s h ≠ .hasW) → ∃ t, step g s t
  writable : ∀ {s g}, Good s → mode s g = .needW → (∀ h, mode s h ≠ .hasW ∧ mode s h ≠ .hasR) → ∃ t, step g s t
  finite : ∀ {s}, Good s → ∃ N, ∀ h, N ≤ h → mode s h = .idle

/-- The scheduler and the lock behave: a goroutine within a call that does not wait is scheduled in the end; a goroutine that waits for the
lock and finds it free for itself again and again gets it; and - the documented guarantee of `sync.RWMutex` - while a goroutine waits for the
write lock and no other obtains it, readers are not admitted for ever. -/
structure LockFair {S : Type} {step : Nat → S → S → Prop} {Good : S → Prop} (L : Locking S step Good) (e : Nat → S) : Prop where
  scheduled : ∀ g, WeaklyFair e fun s t => step g s t ∧ (L.mode s g).runs = true
  granted : ∀ g, StronglyFair e fun s t => step g s t ∧ (L.mode s g = .needR ∨ L.mode s g = .needW)
  writersFirst : ∀ i g, (∀ j, i ≤ j → L.mode (e j) g = .needW) →
    (∀ j h, i ≤ j → L.mode (e j) h ≠ .hasW → L.mode (e (j + 1)) h ≠ .hasW) →
    ∃ k, i ≤ k ∧ ∀ j h, k ≤ j → L.mode (e j) h ≠ .hasR → L.mode (e (j + 1)) h ≠ .hasR

section
variable {S : Type} {step : Nat → S → S → Prop} {Good : S → Prop} (L : Locking S step Good) {e : Nat → S}
  (good : ∀ i, Good (e i)) (run : ∀ i, e (i + 1) = e i ∨ ∃ g, step g (e i) (e (i + 1)))
include good run

/-- what `g` is at -/
def Locking.at (L : Locking S step Good) (s : S) (g : Nat) : LMode × Nat × Nat := (L.mode s g, L.stage s g, L.left s g)

omit good run in
theorem Locking.at_ne {s t : S} {g : Nat} (hg : Good s) (h : step g s t) (hm : L.mode s g ≠ .idle) : L.at t g ≠ L.at s g := by
  intro e
  have h1 := congrArg Prod.fst e
  have h2 := congrArg (fun x => x.2.1) e
  have h3 := congrArg (fun x => x.2.2) e
  simp only [Locking.at] at h1 h2 h3
  rcases L.own hg h hm with h | h | ⟨_, h⟩
  · exact hm (h1.symm.trans h)
  · omega
  · omega

/-- As long as `g` is within a call, what it is at changes only by a step of `g`. -/
theorem Locking.changes {g i : Nat} (hc : L.at (e (i + 1)) g ≠ L.at (e i) g) : step g (e i) (e (i + 1)) := by
  rcases run i with h | ⟨u, h⟩
  · rw [h] at hc; exact absurd rfl hc
  · by_cases eq : g = u
    · rw [eq]; exact h
    · obtain ⟨h1, h2, h3⟩ := L.others (good i) h eq
      exact absurd (by simp only [Locking.at, h1, h2, h3]) hc

/-- What is at least as long as it takes `g` to move stays; the moment of the move is found. -/
theorem Locking.firstMove {g i : Nat} (hm : ∃ j, i ≤ j ∧ L.at (e j) g ≠ L.at (e i) g) :
    ∃ j, i ≤ j ∧ L.at (e j) g = L.at (e i) g ∧ step g (e j) (e (j + 1)) := by
  obtain ⟨j, hij, hj⟩ := hm
  obtain ⟨m, h1, _, h3, h4⟩ := becomes (P := fun j => L.at (e j) g ≠ L.at (e i) g) hij (by simp) hj
  have h3 : L.at (e m) g = L.at (e i) g := Classical.not_not.1 h3
  exact ⟨m, h1, h3, L.changes good run (by rw [h3]; exact h4)⟩

/-- A goroutine whose every position moves on comes back to idle - or leaves the set `P` of positions for which that is known. -/
theorem Locking.comes {g : Nat} (P : LMode → Prop) (moves : ∀ i, P (L.mode (e i) g) → L.mode (e i) g ≠ .idle →
      ∃ j, i ≤ j ∧ L.at (e j) g ≠ L.at (e i) g) (i : Nat) : ∃ j, i ≤ j ∧ (L.mode (e j) g = .idle ∨ ¬ P (L.mode (e j) g)) := by
  have key : ∀ a b i, L.stage (e i) g = a → L.left (e i) g = b →
      ∃ j, i ≤ j ∧ (L.mode (e j) g = .idle ∨ ¬ P (L.mode (e j) g)) := by
    intro a
    induction a using Nat.strongRecOn with
    | _ a iha =>
      intro b
      induction b using Nat.strongRecOn with
      | _ b ihb =>
        intro i ha hb
        by_cases hidle : L.mode (e i) g = .idle
        · exact ⟨i, Nat.le_refl _, .inl hidle⟩
        by_cases hP : P (L.mode (e i) g)
        · obtain ⟨j, hij, hat, hst⟩ := L.firstMove good run (moves i hP hidle)
          have e1 : L.mode (e j) g = L.mode (e i) g := congrArg Prod.fst hat
          have e2 : L.stage (e j) g = L.stage (e i) g := congrArg (fun x => x.2.1) hat
          have e3 : L.left (e j) g = L.left (e i) g := congrArg (fun x => x.2.2) hat
          rcases L.own (good j) hst (by rw [e1]; exact hidle) with h | h | ⟨h1, h2⟩
          · exact ⟨j + 1, by omega, .inl h⟩
          · obtain ⟨k, h1, h2⟩ := iha (L.stage (e (j + 1)) g) (by omega) _ (j + 1) rfl rfl
            exact ⟨k, by omega, h2⟩
          · obtain ⟨k, h1, h2⟩ := ihb (L.left (e (j + 1)) g) (by omega) (j + 1) (by omega) rfl
            exact ⟨k, by omega, h2⟩
        · exact ⟨i, Nat.le_refl _, .inr hP⟩
  exact key _ _ i rfl rfl

variable (fair : LockFair L e)
include fair

theorem Locking.runs_move {g i : Nat} (hr : (L.mode (e i) g).runs = true) : ∃ j, i ≤ j ∧ L.at (e j) g ≠ L.at (e i) g := by
  obtain ⟨j, h1, h2⟩ : ∃ j, i ≤ j ∧ (False ∨ L.at (e j) g ≠ L.at (e i) g) := by
    by_cases hex : ∃ j, i ≤ j ∧ (False ∨ L.at (e j) g ≠ L.at (e i) g)
    · exact hex
    · have hno : ∀ j, i ≤ j → L.at (e j) g = L.at (e i) g := fun j hj =>
        Classical.byContradiction fun hne => hex ⟨j, hj, .inr hne⟩
      have hmode : ∀ j, i ≤ j → (L.mode (e j) g).runs = true := fun j hj => by
        rw [show L.mode (e j) g = L.mode (e i) g from congrArg Prod.fst (hno j hj)]; exact hr
      obtain ⟨j, hj, ha, hr'⟩ := fair.scheduled g i fun j hj => by
        obtain ⟨t, ht⟩ := L.run (good j) (hmode j hj)
        exact ⟨t, ht, hmode j hj⟩
      have := L.at_ne (good j) ha (by intro h; rw [h] at hr'; cases hr')
      rw [hno j hj, hno (j + 1) (by omega)] at this
      exact absurd rfl this
  exact ⟨j, h1, h2.resolve_left id⟩

/-- Critical sections end: a goroutine that holds the lock, or a part of it, lets it go. -/
theorem Locking.releases {g i : Nat} : ∃ j, i ≤ j ∧ L.mode (e j) g ≠ .hasR ∧ L.mode (e j) g ≠ .hasW := by
  obtain ⟨j, h1, h2⟩ := L.comes good run (g := g) (fun m => m = .hasR ∨ m = .hasW) (fun i hP _ =>
    L.runs_move good run fair (by rcases hP with h | h <;> rw [h] <;> rfl)) i
  refine ⟨j, h1, ?_⟩
  rcases h2 with h | h
  · rw [h]; exact ⟨LMode.noConfusion, LMode.noConfusion⟩
  · exact ⟨fun h' => h (.inl h'), fun h' => h (.inr h')⟩

/-- Again and again nobody holds the write lock. -/
theorem Locking.noWriter (i : Nat) : ∃ j, i ≤ j ∧ ∀ h, L.mode (e j) h ≠ .hasW := by
  by_cases hw : ∃ h, L.mode (e i) h = .hasW
  · obtain ⟨w, hw⟩ := hw
    obtain ⟨j, hij, -, hj⟩ := L.releases good run fair (g := w) (i := i)
    obtain ⟨m, h1, _, h3, h4⟩ := becomes (P := fun j => L.mode (e j) w ≠ .hasW) hij (by simpa using hw) hj
    have h3 : L.mode (e m) w = .hasW := Classical.not_not.1 h3
    have hst := L.changes good run (g := w) (i := m) (by
      intro he; exact h4 ((congrArg Prod.fst he : L.mode (e (m + 1)) w = L.mode (e m) w).trans h3))
    refine ⟨m + 1, by omega, fun h hh => ?_⟩
    by_cases he : h = w
    · subst he; exact h4 hh
    · rw [(L.others (good m) hst he).1] at hh
      exact he (L.excl (good m) h3 (.inl hh)).symm
  · exact ⟨i, Nat.le_refl _, fun h hh => hw ⟨h, hh⟩⟩

/-- If readers are not admitted any more, the readers inside leave. -/
theorem Locking.noReader {i : Nat} (closed : ∀ j h, i ≤ j → L.mode (e j) h ≠ .hasR → L.mode (e (j + 1)) h ≠ .hasR) :
    ∃ k, i ≤ k ∧ ∀ j h, k ≤ j → L.mode (e j) h ≠ .hasR := by
  have stays : ∀ h k, i ≤ k → L.mode (e k) h ≠ .hasR → ∀ d, L.mode (e (k + d)) h ≠ .hasR := by
    intro h k hk hn d
    induction d with
    | zero => exact hn
    | succ d ih => exact closed (k + d) h (by omega) ih
  have all : ∀ N, ∃ k, i ≤ k ∧ ∀ h, h < N → L.mode (e k) h ≠ .hasR := by
    intro N
    induction N with
    | zero => exact ⟨i, Nat.le_refl _, fun h hh => absurd hh (by omega)⟩
    | succ N ih =>
      obtain ⟨k, h1, h2⟩ := ih
      obtain ⟨j, h3, h4, -⟩ := L.releases good run fair (g := N) (i := k)
      refine ⟨j, by omega, fun h hh => ?_⟩
      by_cases he : h = N
      · rw [he]; exact h4
      · obtain ⟨d, rfl⟩ := Nat.exists_eq_add_of_le h3
        exact stays h k h1 (h2 h (by omega)) d
  obtain ⟨N, hN⟩ := L.finite (good i)
  obtain ⟨k, h1, h2⟩ := all N
  refine ⟨k, h1, fun j h hj => ?_⟩
  by_cases hh : h < N
  · obtain ⟨d, rfl⟩ := Nat.exists_eq_add_of_le hj
    exact stays h k h1 (h2 h hh) d
  · have h0 : L.mode (e i) h ≠ .hasR := by rw [hN h (by omega)]; exact LMode.noConfusion
    obtain ⟨d, rfl⟩ := Nat.exists_eq_add_of_le (Nat.le_trans h1 hj)
    exact stays h i (Nat.le_refl _) h0 d

/-- A goroutine within a call moves on. -/
theorem Locking.moves {g i : Nat} (hidle : L.mode (e i) g ≠ .idle) : ∃ j, i ≤ j ∧ L.at (e j) g ≠ L.at (e i) g := by
  by_cases hex : ∃ j, i ≤ j ∧ L.at (e j) g ≠ L.at (e i) g
  · exact hex
  exfalso
  have hno : ∀ j, i ≤ j → L.at (e j) g = L.at (e i) g := fun j hj => Classical.byContradiction fun hne => hex ⟨j, hj, hne⟩
  have hmode : ∀ j, i ≤ j → L.mode (e j) g = L.mode (e i) g := fun j hj => congrArg Prod.fst (hno j hj)
  -- it is enough that the step can be taken again and again
  have grant : L.mode (e i) g = .needR ∨ L.mode (e i) g = .needW →
      (∀ k, i ≤ k → ∃ j, k ≤ j ∧ ∃ t, step g (e j) t) → False := by
    intro hn hen
    obtain ⟨j, hj, ha, -⟩ := fair.granted g i fun k hk => by
      obtain ⟨j, h1, t, h2⟩ := hen k hk
      exact ⟨j, h1, t, h2, by rw [hmode j (by omega)]; exact hn⟩
    have := L.at_ne (good j) ha (by rw [hmode j hj]; exact hidle)
    rw [hno j hj, hno (j + 1) (by omega)] at this
    exact this rfl
  cases hm : L.mode (e i) g with
  | idle => exact hidle hm
  | busy => exact hex (L.runs_move good run fair (by rw [hm]; rfl))
  | hasR => exact hex (L.runs_move good run fair (by rw [hm]; rfl))
  | hasW => exact hex (L.runs_move good run fair (by rw [hm]; rfl))
  | needR =>
    refine grant (.inl hm) fun k hk => ?_
    obtain ⟨j, h1, h2⟩ := L.noWriter good run fair k
    exact ⟨j, h1, L.readable (good j) ((hmode j (by omega)).trans hm) h2⟩
  | needW =>
    refine grant (.inr hm) fun k hk => ?_
    -- either somebody obtains the write lock after `k` ...
    by_cases hw : ∃ j h, k ≤ j ∧ L.mode (e j) h ≠ .hasW ∧ L.mode (e (j + 1)) h = .hasW
    · obtain ⟨j, h, hj, h1, h2⟩ := hw
      refine ⟨j, hj, L.writable (good j) ((hmode j (by omega)).trans hm) fun u => ?_⟩
      have hst := L.changes good run (g := h) (i := j) (by
        intro he; exact h1 ((congrArg Prod.fst he : L.mode (e (j + 1)) h = L.mode (e j) h).symm.trans h2))
      have hneed := (L.acq (good j) hst h2).resolve_left h1
      by_cases hu : u = h
      · subst hu; rw [hneed]; exact ⟨LMode.noConfusion, LMode.noConfusion⟩
      · have hoth := (L.others (good j) hst hu).1
        refine ⟨fun hx => ?_, fun hx => ?_⟩
        · exact hu (L.excl (good (j + 1)) h2 (.inl (hoth.trans hx))).symm
        · exact hu (L.excl (good (j + 1)) h2 (.inr (hoth.trans hx))).symm
    -- ... or nobody does: then the lock becomes free and stays so
    · obtain ⟨k1, hk1, hf⟩ := L.noWriter good run fair k
      have nw : ∀ d h, L.mode (e (k1 + d)) h ≠ .hasW := by
        intro d
        induction d with
        | zero => exact hf
        | succ d ih => exact fun h hh => hw ⟨k1 + d, h, by omega, ih h, hh⟩
      obtain ⟨k2, hk2, hr⟩ := fair.writersFirst k1 g (fun j hj => (hmode j (by omega)).trans hm)
        (fun j h hj hh hh' => hw ⟨j, h, by omega, hh, hh'⟩)
      obtain ⟨k3, hk3, hr3⟩ := L.noReader good run fair hr
      refine ⟨k3, by omega, L.writable (good k3) ((hmode k3 (by omega)).trans hm) fun u => ⟨?_, hr3 k3 u (Nat.le_refl _)⟩⟩
      obtain ⟨d, hd⟩ := Nat.exists_eq_add_of_le (show k1 ≤ k3 by omega)
      rw [hd]; exact nw d u

/-- **Every call returns.** -/
theorem Locking.returns (g i : Nat) : ∃ j, i ≤ j ∧ L.mode (e j) g = .idle := by
  obtain ⟨j, h1, h2⟩ := L.comes good run (g := g) (fun _ => True) (fun i _ h => L.moves good run fair h) i
  exact ⟨j, h1, h2.resolve_right fun h => h trivial⟩

/-- The moment at which it does: the goroutine takes its last step of the call. -/
theorem Locking.last {g i : Nat} (hg : L.mode (e i) g ≠ .idle) :
    ∃ j, i ≤ j ∧ (∀ k, i ≤ k → k ≤ j → L.mode (e k) g ≠ .idle) ∧ L.mode (e (j + 1)) g = .idle ∧ step g (e j) (e (j + 1)) := by
  have key : ∀ n i, (∃ j, i ≤ j ∧ j < i + n ∧ L.mode (e j) g = .idle) → L.mode (e i) g ≠ .idle →
      ∃ j, i ≤ j ∧ (∀ k, i ≤ k → k ≤ j → L.mode (e k) g ≠ .idle) ∧ L.mode (e (j + 1)) g = .idle := by
    intro n
    induction n with
    | zero => rintro i ⟨j, h1, h2, _⟩ _; omega
    | succ n ih =>
      rintro i ⟨j, h1, h2, h3⟩ hi
      by_cases hn : L.mode (e (i + 1)) g = .idle
      · exact ⟨i, Nat.le_refl _, fun k h1 h2 => by rw [show k = i by omega]; exact hi, hn⟩
      · have hij : i ≠ j := by rintro rfl; exact hi h3
        obtain ⟨j', a, b, c⟩ := ih (i + 1) ⟨j, by omega, by omega, h3⟩ hn
        refine ⟨j', by omega, fun k h1 h2 => ?_, c⟩
        by_cases hk : k = i
        · rw [hk]; exact hi
        · exact b k (by omega) h2
  obtain ⟨j, h1, h2⟩ := L.returns good run fair g i
  obtain ⟨j', a, b, c⟩ := key (j - i + 1) i ⟨j, h1, by omega, h2⟩ hg
  refine ⟨j', a, b, c, L.changes good run fun he => ?_⟩
  exact b j' a (Nat.le_refl _) ((congrArg Prod.fst he : L.mode (e (j' + 1)) g = L.mode (e j') g).symm.trans c)

/-- The same with what identifies the call (`f`): the call that ends is the one that was going on. -/
theorem Locking.lastSame {X : Type} (f : S → Nat → X)
    (keep : ∀ s t g h, Good s → step g s t → (h ≠ g ∨ L.mode s g ≠ .idle ∧ L.mode t g ≠ .idle) → f t h = f s h)
    {g i : Nat} (hg : L.mode (e i) g ≠ .idle) :
    ∃ j, i ≤ j ∧ f (e j) g = f (e i) g ∧ L.mode (e j) g ≠ .idle ∧ L.mode (e (j + 1)) g = .idle ∧ step g (e j) (e (j + 1)) := by
  obtain ⟨j, h1, h2, h3, h4⟩ := L.last good run fair hg
  refine ⟨j, h1, ?_, h2 j h1 (Nat.le_refl _), h3, h4⟩
  have key : ∀ d, i + d ≤ j → f (e (i + d)) g = f (e i) g := by
    intro d
    induction d with
    | zero => intro _; rfl
    | succ d ih =>
      intro hd
      refine Eq.trans ?_ (ih (by omega))
      show f (e (i + d + 1)) g = f (e (i + d)) g
      rcases run (i + d) with h | ⟨u, h⟩
      · rw [h]
      · refine keep _ _ u g (good _) h ?_
        by_cases hu : g = u
        · subst hu
          exact .inr ⟨h2 _ (by omega) (by omega), h2 _ (by omega) (by omega)⟩
        · exact .inl hu
  obtain ⟨d, rfl⟩ := Nat.exists_eq_add_of_le h1
  exact key d (Nat.le_refl _)

end

/-- The same programs, looked at in fewer states. -/
def Locking.within {S : Type} {step : Nat → S → S → Prop} {Good Good' : S → Prop} (L : Locking S step Good) (sub : ∀ s, Good' s → Good s) :
    Locking S step Good' where
  mode := L.mode
  stage := L.stage
  left := L.left
  others h := L.others (sub _ h)
  own h := L.own (sub _ h)
  excl h := L.excl (sub _ h)
  acq h := L.acq (sub _ h)
  run h := L.run (sub _ h)
  readable h := L.readable (sub _ h)
  writable h := L.writable (sub _ h)
  finite h := L.finite (sub _ h)

/-- An execution that comes to rest with nobody within a call is fair. -/
theorem LockFair.of_rest {S : Type} {step : Nat → S → S → Prop} {Good : S → Prop} (L : Locking S step Good) {e : Nat → S} {N : Nat} {s : S}
    (rest : ∀ i, N ≤ i → e i = s) (idle : ∀ g, L.mode s g = .idle) : LockFair L e := by
  refine ⟨fun g i hi => ?_, fun g i hi => ?_, fun i g hi _ => ?_⟩
  · obtain ⟨t, _, ht⟩ := hi (max i N) (by omega)
    rw [rest _ (by omega), idle] at ht; cases ht
  · obtain ⟨j, hj, t, _, ht⟩ := hi (max i N) (by omega)
    rw [rest _ (by omega), idle] at ht; rcases ht with h | h <;> cases h
  · have := hi (max i N) (by omega)
    rw [rest _ (by omega), idle] at this; cases this

/-- The execution that goes on with a given one. -/
theorem run_through {S : Type} {init : S → Prop} {step : S → S → Prop} {s t : S} (h : Reach init step s) (h2 : Reach (· = s) step t) :
    ∃ e M N, Run init step e ∧ e M = s ∧ M ≤ N ∧ ∀ i, N ≤ i → e i = t := by
  induction h2 with
  | @init t ht =>
    obtain ⟨e, N, h1, h2⟩ := run_of_reach h
    subst ht
    exact ⟨e, N, N, h1, h2 N (Nat.le_refl _), Nat.le_refl _, h2⟩
  | @step t u ht hs ih =>
    obtain ⟨e, M, N, r, hM, hMN, hN⟩ := ih
    refine ⟨fun i => if i ≤ N then e i else u, M, N + 1, ⟨?_, fun i => ?_⟩, ?_, by omega, fun i hi => ?_⟩
    · show init (if 0 ≤ N then e 0 else u)
      rw [if_pos (Nat.zero_le N)]; exact r.start
    · show (if i + 1 ≤ N then e (i + 1) else u) = (if i ≤ N then e i else u) ∨
        step (if i ≤ N then e i else u) (if i + 1 ≤ N then e (i + 1) else u)
      by_cases h1 : i + 1 ≤ N
      · rw [if_pos h1, if_pos (by omega)]; exact r.next i
      · rw [if_neg h1]
        by_cases h2 : i ≤ N
        · rw [if_pos h2]
          have : i = N := by omega
          subst this
          rw [hN i (Nat.le_refl i)]; exact .inr hs
        · rw [if_neg h2]; exact .inl rfl
    · show (if M ≤ N then e M else u) = s
      rw [if_pos hMN]; exact hM
    · show (if i ≤ N then e i else u) = u
      rw [if_neg (by omega)]

section
variable {S : Type} {step : Nat → S → S → Prop} {Good : S → Prop} (L : Locking S step Good)
  (closed : ∀ s t g, Good s → L.mode s g ≠ .idle → step g s t → Good t)
include closed

/-- the states that can be reached from `s` -/
abbrev Locking.Onward (_ : Locking S step Good) (s : S) : S → Prop := Reach (· = s) fun a b => ∃ g, step g a b

/-- One goroutine goes on, as long as `P` holds of its mode and makes it able to, all others standing still. -/
theorem Locking.alone (g : Nat) (P : LMode → Prop) {s0 : S} (dec : ∀ m, P m ∨ ¬ P m)
    (can : ∀ t, Good t → (∀ h, h ≠ g → L.mode t h = L.mode s0 h) → P (L.mode t g) → L.mode t g ≠ .idle → ∃ u, step g t u) (h0 : Good s0) :
    ∃ t, L.Onward s0 t ∧ Good t ∧ (∀ h, h ≠ g → L.mode t h = L.mode s0 h) ∧ (L.mode t g = .idle ∨ ¬ P (L.mode t g)) := by
  have key : ∀ a b s, L.Onward s0 s → Good s → (∀ h, h ≠ g → L.mode s h = L.mode s0 h) → L.stage s g = a → L.left s g = b →
      ∃ t, L.Onward s0 t ∧ Good t ∧ (∀ h, h ≠ g → L.mode t h = L.mode s0 h) ∧ (L.mode t g = .idle ∨ ¬ P (L.mode t g)) := by
    intro a
    induction a using Nat.strongRecOn with
    | _ a iha =>
      intro b
      induction b using Nat.strongRecOn with
      | _ b ihb =>
        intro s hs hgood hoth ha hb
        by_cases hidle : L.mode s g = .idle
        · exact ⟨s, hs, hgood, hoth, .inl hidle⟩
        rcases dec (L.mode s g) with hP | hP
        · obtain ⟨u, hu⟩ := can s hgood hoth hP hidle
          have h1 : L.Onward s0 u := .step hs ⟨g, hu⟩
          have h2 := closed _ _ _ hgood hidle hu
          have h3 : ∀ h, h ≠ g → L.mode u h = L.mode s0 h := fun h hh => (L.others hgood hu hh).1.trans (hoth h hh)
          rcases L.own hgood hu hidle with h | h | ⟨h4, h5⟩
          · exact ⟨u, h1, h2, h3, .inl h⟩
          · exact iha _ (by omega) _ u h1 h2 h3 rfl rfl
          · exact ihb _ (by omega) u h1 h2 h3 (by omega) rfl
        · exact ⟨s, hs, hgood, hoth, .inr hP⟩
  exact key _ _ s0 (.init rfl) h0 (fun _ _ => rfl) rfl rfl

omit closed in
theorem Locking.Onward.trans {L : Locking S step Good} {a b c : S} (h1 : L.Onward a b) (h2 : L.Onward b c) : L.Onward a c := by
  induction h2 with
  | init h => subst h; exact h1
  | step _ hs ih => exact .step ih hs

/-- From every state the calls can be brought to their ends. -/
theorem Locking.calm {s : S} (hs : Good s) : ∃ t, L.Onward s t ∧ Good t ∧ ∀ g, L.mode t g = .idle := by
  -- first everybody who can go on does
  have first : ∀ N, ∃ t, L.Onward s t ∧ Good t ∧ (∀ h, h < N → (L.mode t h).runs = false) ∧ ∀ h, N ≤ h → L.mode t h = L.mode s h := by
    intro N
    induction N with
    | zero => exact ⟨s, .init rfl, hs, fun h hh => absurd hh (by omega), fun _ _ => rfl⟩
    | succ N ih =>
      obtain ⟨t, h1, h2, h3, h4⟩ := ih
      obtain ⟨u, a1, a2, a3, a4⟩ := L.alone closed N (fun m => m.runs = true) (fun m => Classical.em _)
        (fun v hv _ hr _ => L.run hv hr) h2
      refine ⟨u, h1.trans a1, a2, fun h hh => ?_, fun h hh => ?_⟩
      · by_cases he : h = N
        · subst he
          rcases a4 with h | h
          · rw [h]; rfl
          · simpa using h
        · rw [a3 h he]; exact h3 h (by omega)
      · rw [a3 h (by omega)]; exact h4 h (by omega)
  obtain ⟨N, hN⟩ := L.finite hs
  obtain ⟨t, h1, h2, h3, h4⟩ := first N
  have quiet : ∀ h, (L.mode t h).runs = false := by
    intro h
    by_cases hh : h < N
    · exact h3 h hh
    · rw [h4 h (by omega), hN h (by omega)]; rfl
  -- then one after the other finishes
  have second : ∀ n, ∃ u, L.Onward s u ∧ Good u ∧ (∀ h, h < n → L.mode u h = .idle) ∧ ∀ h, n ≤ h → L.mode u h = L.mode t h := by
    intro n
    induction n with
    | zero => exact ⟨t, h1, h2, fun h hh => absurd hh (by omega), fun _ _ => rfl⟩
    | succ n ih =>
      obtain ⟨u, b1, b2, b3, b4⟩ := ih
      have nobody : ∀ h, (L.mode u h).runs = false := by
        intro h
        by_cases hh : h < n
        · rw [b3 h hh]; rfl
        · rw [b4 h (by omega)]; exact quiet h
      obtain ⟨v, a1, a2, a3, a4⟩ := L.alone closed n (fun _ => True) (s0 := u) (fun _ => .inl trivial) (fun w hw ho _ hi => by
        have free : ∀ h, h ≠ n → L.mode w h ≠ .hasW ∧ L.mode w h ≠ .hasR := by
          intro h hh
          have := nobody h
          rw [ho h hh]
          exact ⟨fun hx => (by rw [hx] at this; cases this), fun hx => (by rw [hx] at this; cases this)⟩
        cases hm : L.mode w n with
        | idle => exact absurd hm hi
        | busy => exact L.run hw (by rw [hm]; rfl)
        | hasR => exact L.run hw (by rw [hm]; rfl)
        | hasW => exact L.run hw (by rw [hm]; rfl)
        | needR =>
          refine L.readable hw hm fun h => ?_
          by_cases hh : h = n
          · subst hh; rw [hm]; exact LMode.noConfusion
          · exact (free h hh).1
        | needW =>
          refine L.writable hw hm fun h => ?_
          by_cases hh : h = n
          · subst hh; rw [hm]; exact ⟨LMode.noConfusion, LMode.noConfusion⟩
          · exact free h hh) b2
      refine ⟨v, b1.trans a1, a2, fun h hh => ?_, fun h hh => ?_⟩
      · by_cases he : h = n
        · subst he; exact a4.resolve_right fun hx => hx trivial
        · rw [a3 h he]; exact b3 h (by omega)
      · rw [a3 h (by omega)]; exact b4 h (by omega)
  obtain ⟨u, c1, c2, c3, c4⟩ := second N
  refine ⟨u, c1, c2, fun g => ?_⟩
  by_cases hg : g < N
  · exact c3 g hg
  · rw [c4 g (by omega), h4 g (by omega), hN g (by omega)]

end

end P2P

import Verif.Lts
/-! # Infinite executions and fairness

`Reach` speaks about finite executions, which is enough to say that something bad never happens. To say that something good happens in the end
one has to exclude the executions in which a goroutine that can go on is never scheduled again. -/
namespace P2P

/-- `e 0, e 1, …` is an execution: it starts in an initial state and at every moment either a step is taken or nothing happens (so executions
that come to an end are included: they stand still from some moment on). -/
structure Run {S : Type} (init : S → Prop) (step : S → S → Prop) (e : Nat → S) : Prop where
  start : init (e 0)
  next : ∀ i, e (i + 1) = e i ∨ step (e i) (e (i + 1))

/-- An action that can be taken at every moment from some moment on is taken. -/
def WeaklyFair {S : Type} (e : Nat → S) (A : S → S → Prop) : Prop :=
  ∀ i, (∀ j, i ≤ j → ∃ t, A (e j) t) → ∃ j, i ≤ j ∧ A (e j) (e (j + 1))

/-- An action that can be taken again and again is taken. -/
def StronglyFair {S : Type} (e : Nat → S) (A : S → S → Prop) : Prop :=
  ∀ i, (∀ k, i ≤ k → ∃ j, k ≤ j ∧ ∃ t, A (e j) t) → ∃ j, i ≤ j ∧ A (e j) (e (j + 1))

theorem StronglyFair.weak {S : Type} {e : Nat → S} {A : S → S → Prop} (h : StronglyFair e A) : WeaklyFair e A :=
  fun i hi => h i fun k hk => ⟨k, Nat.le_refl k, hi k hk⟩

theorem Run.reach {S : Type} {init : S → Prop} {step : S → S → Prop} {e : Nat → S} (h : Run init step e) (i : Nat) :
    Reach init step (e i) := by
  induction i with
  | zero => exact .init h.start
  | succ i ih =>
    rcases h.next i with h' | h'
    · rw [h']; exact ih
    · exact .step ih h'

/-- A finite execution is (the beginning of) an infinite one: it comes to rest where it ends. -/
theorem run_of_reach {S : Type} {init : S → Prop} {step : S → S → Prop} {s : S} (h : Reach init step s) :
    ∃ e N, Run init step e ∧ ∀ i, N ≤ i → e i = s := by
  induction h with
  | @init s h => exact ⟨fun _ => s, 0, ⟨h, fun _ => .inl rfl⟩, fun _ _ => rfl⟩
  | @step s t h hs ih =>
    obtain ⟨e, N, r, hN⟩ := ih
    refine ⟨fun i => if i ≤ N then e i else t, N + 1, ⟨?_, fun i => ?_⟩, fun i hi => ?_⟩
    · show init (if 0 ≤ N then e 0 else t)
      rw [if_pos (Nat.zero_le N)]; exact r.start
    · show (if i + 1 ≤ N then e (i + 1) else t) = (if i ≤ N then e i else t) ∨
        step (if i ≤ N then e i else t) (if i + 1 ≤ N then e (i + 1) else t)
      by_cases h1 : i + 1 ≤ N
      · rw [if_pos h1, if_pos (by omega)]; exact r.next i
      · rw [if_neg h1]
        by_cases h2 : i ≤ N
        · rw [if_pos h2]
          have : i = N := by omega
          subst this
          rw [hN i (Nat.le_refl i)]; exact .inr hs
        · rw [if_neg h2]; exact .inl rfl
    · show (if i ≤ N then e i else t) = t
      rw [if_neg (by omega)]

/-- A property preserved by all steps is preserved over time. -/
theorem Run.stays {S : Type} {init : S → Prop} {step : S → S → Prop} {e : Nat → S} (h : Run init step e) (P : S → Prop)
    (hp : ∀ i, P (e i) → step (e i) (e (i + 1)) → P (e (i + 1))) {i j : Nat} (hij : i ≤ j) (hi : P (e i)) : P (e j) := by
  induction j with
  | zero => have : i = 0 := by omega
            subst this; exact hi
  | succ j ih =>
    by_cases h' : i = j + 1
    · subst h'; exact hi
    · have := ih (by omega)
      rcases h.next j with h2 | h2
      · rw [h2]; exact this
      · exact hp j this h2

/-- If `P` is false at `i` and true at `j`, there is a moment in between at which it becomes true. -/
theorem becomes {P : Nat → Prop} {i j : Nat} (hij : i ≤ j) (hi : ¬ P i) (hj : P j) : ∃ m, i ≤ m ∧ m < j ∧ ¬ P m ∧ P (m + 1) := by
  induction j with
  | zero => have : i = 0 := by omega
            subst this; exact absurd hj hi
  | succ j ih =>
    have hne : i ≠ j + 1 := by rintro rfl; exact hi hj
    by_cases h : P j
    · obtain ⟨m, a, b, c, d⟩ := ih (by omega) h
      exact ⟨m, a, by omega, c, d⟩
    · exact ⟨j, by omega, by omega, h, hj⟩

/-- The rule behind all liveness proofs here. `f` is what one watches, `μ` measures the distance to the goal `G`. As long as the goal is not
reached, no step increases the distance, every change of `f` decreases it, and `f` changes in the end. -/
theorem eventually {X : Type} (f : Nat → X) (μ : Nat → Nat) (G : Nat → Prop) (i0 : Nat)
    (step : ∀ i, i0 ≤ i → ¬ G i → G (i + 1) ∨ (μ (i + 1) ≤ μ i ∧ (f (i + 1) ≠ f i → μ (i + 1) < μ i)))
    (moves : ∀ i, i0 ≤ i → ¬ G i → ∃ j, i ≤ j ∧ (G j ∨ f j ≠ f i)) : ∃ j, i0 ≤ j ∧ G j := by
  have key : ∀ d i, i0 ≤ i → (∃ k, i0 ≤ k ∧ k ≤ i + d ∧ G k) ∨
      (μ (i + d) ≤ μ i ∧ (f (i + d) ≠ f i → μ (i + d) < μ i)) := by
    intro d
    induction d with
    | zero => intro i _; exact .inr ⟨Nat.le_refl _, fun h => absurd rfl h⟩
    | succ d ih =>
      intro i hi
      rcases ih i hi with ⟨k, hk, hk2, hG⟩ | ⟨h1, h2⟩
      · exact .inl ⟨k, hk, by omega, hG⟩
      · by_cases hG : G (i + d)
        · exact .inl ⟨i + d, by omega, by omega, hG⟩
        · rcases step (i + d) (by omega) hG with h | ⟨h3, h4⟩
          · exact .inl ⟨i + d + 1, by omega, by omega, h⟩
          · refine .inr ⟨Nat.le_trans h3 h1, fun hne => ?_⟩
            show μ (i + d + 1) < μ i
            by_cases hc : f (i + d + 1) = f (i + d)
            · have : f (i + d) ≠ f i := by rw [← hc]; exact hne
              have := h2 this
              omega
            · have := h4 hc
              omega
  have main : ∀ n i, i0 ≤ i → μ i < n → ∃ j, i0 ≤ j ∧ G j := by
    intro n
    induction n with
    | zero => intro i _ h; omega
    | succ n ih =>
      intro i hi hm
      by_cases hG : G i
      · exact ⟨i, hi, hG⟩
      · obtain ⟨j, hj, h | h⟩ := moves i hi hG
        · exact ⟨j, by omega, h⟩
        · obtain ⟨d, rfl⟩ := Nat.exists_eq_add_of_le hj
          rcases key d i hi with ⟨k, hk, -, hG⟩ | ⟨-, h2⟩
          · exact ⟨k, hk, hG⟩
          · exact ih (i + d) (by omega) (by have := h2 h; omega)
  exact main (μ i0 + 1) i0 (Nat.le_refl _) (Nat.lt_succ_self _)

/-- What a weakly fair goroutine does: if from `i` on it can move as long as it has not moved, it moves. -/
theorem WeaklyFair.moves {S X : Type} {e : Nat → S} {A : S → S → Prop} (h : WeaklyFair e A) (f : S → X) (hA : ∀ s t, A s t → f t ≠ f s)
    (i : Nat) (G : Nat → Prop) (en : ∀ j, i ≤ j → ¬ G j → f (e j) = f (e i) → ∃ t, A (e j) t) :
    ∃ j, i ≤ j ∧ (G j ∨ f (e j) ≠ f (e i)) := by
  by_cases hex : ∃ j, i ≤ j ∧ (G j ∨ f (e j) ≠ f (e i))
  · exact hex
  · have hno : ∀ j, i ≤ j → ¬ G j ∧ f (e j) = f (e i) := by
      intro j hj
      refine ⟨fun hg => hex ⟨j, hj, .inl hg⟩, ?_⟩
      exact Classical.byContradiction fun hne => hex ⟨j, hj, .inr hne⟩
    obtain ⟨j, hj, ha⟩ := h i fun j hj => en j hj (hno j hj).1 (hno j hj).2
    have := hA _ _ ha
    rw [(hno j hj).2, (hno (j + 1) (by omega)).2] at this
    exact absurd rfl this

/-- The same for a strongly fair goroutine: it is enough that it can move again and again. -/
theorem StronglyFair.moves {S X : Type} {e : Nat → S} {A : S → S → Prop} (h : StronglyFair e A) (f : S → X) (hA : ∀ s t, A s t → f t ≠ f s)
    (i : Nat) (G : Nat → Prop) (en : ∀ k, i ≤ k → (∀ j, i ≤ j → ¬ G j ∧ f (e j) = f (e i)) → ∃ j, k ≤ j ∧ ∃ t, A (e j) t) :
    ∃ j, i ≤ j ∧ (G j ∨ f (e j) ≠ f (e i)) := by
  by_cases hex : ∃ j, i ≤ j ∧ (G j ∨ f (e j) ≠ f (e i))
  · exact hex
  · have hno : ∀ j, i ≤ j → ¬ G j ∧ f (e j) = f (e i) := by
      intro j hj
      refine ⟨fun hg => hex ⟨j, hj, .inl hg⟩, ?_⟩
      exact Classical.byContradiction fun hne => hex ⟨j, hj, .inr hne⟩
    obtain ⟨j, hj, ha⟩ := h i fun k hk => en k hk hno
    have := hA _ _ ha
    rw [(hno j hj).2, (hno (j + 1) (by omega)).2] at this
    exact absurd rfl this

end P2P

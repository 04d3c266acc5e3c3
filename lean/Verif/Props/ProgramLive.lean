import Verif.Fair
import Verif.Props.Program
/-! # C87: a signal ends the program -/
namespace P2P

/-- The main goroutine takes a step. -/
def MainMoves (K : KEnv) (s t : PgSt) : Prop := PgStep K s t ∧ t.main ≠ s.main

/-- **C87** In every execution that does not forget the main goroutine, once a signal has arrived and bootstrapping is
over, the process ends: `main` returns, or the process dies in the clean-up goroutine (C60, C83). Nothing that the network, the
handlers, the downloads or the clean-up do can prevent it. -/
theorem C87_ends {K : KEnv} {hosts : List (Option UDPAddr)} {e : Nat → PgSt} (r : Run (PgInit hosts) (PgStep K) e)
    (fair : WeaklyFair e (MainMoves K)) {k : Nat} (hs : 1 ≤ (e k).signals) (hb : (e k).st.pc.booted = true) :
    ∃ j, k ≤ j ∧ ((∃ b, (e j).main = .exited b) ∨ (e j).killed = true) := by
  have reg : ∀ i, k ≤ i → 1 ≤ (e i).signals ∧ (e i).st.pc.booted = true := by
    intro i hi
    refine r.stays (fun s => 1 ≤ s.signals ∧ s.st.pc.booted = true) ?_ hi ⟨hs, hb⟩
    intro j hj st
    exact ((C83_one_signal_suffices (r.reach j) hj.1 hj.2).2.2.2.2 _ st).2
  refine eventually (fun i => (e i).main) (fun i => (e i).main.left) (fun i => (∃ b, (e i).main = .exited b) ∨ (e i).killed = true) k ?_ ?_
  · intro i hi _
    right
    obtain ⟨-, -, -, hdec, hle⟩ := C83_one_signal_suffices (r.reach i) (reg i hi).1 (reg i hi).2
    rcases r.next i with h | h
    · rw [h]; exact ⟨Nat.le_refl _, fun h => absurd rfl h⟩
    · refine ⟨(hle _ h).1, fun hne => ?_⟩
      generalize e (i + 1) = t at h hne
      cases h with
      | main ha m => exact hdec _ m
      | other ha o => exfalso; cases o <;> exact hne rfl
  · intro i hi hno
    refine fair.moves (fun s => s.main) (fun s t h => h.2) i _ ?_
    intro j hj hnj _
    obtain ⟨-, hz, hen, hdec, -⟩ := C83_one_signal_suffices (r.reach j) (reg j (by omega)).1 (reg j (by omega)).2
    have hal : (e j).alive := by
      refine ⟨?_, ?_, ?_⟩
      · cases hk : (e j).killed with
        | false => rfl
        | true => exact absurd (.inr hk) hnj
      · intro hd
        have := (reg j (by omega)).2
        rw [hd] at this; cases this
      · intro b hb; exact hnj (.inl ⟨b, hb⟩)
    obtain ⟨t, ht⟩ := hen hal
    refine ⟨t, .main hal ht, fun h => ?_⟩
    have := hdec t ht
    rw [h] at this; omega

/-- Non-vacuity: the hypotheses are met by a run in which a signal arrives while the server listens; it comes to rest with `main` returned. -/
example : ∃ e N, Run (PgInit (([peerAddr] : List UDPAddr).map some)) (PgStep exK) e ∧ WeaklyFair e (MainMoves exK) ∧ 1 ≤ (e N).signals ∧ (e N).st.pc.booted = true := by
  obtain ⟨s, t, hs, -, -, hst, he, -⟩ := C83_orderly_end [peerAddr] { addr := peerAddr, bytes := b!"hello" }
  have ht : PgReach exK (([peerAddr] : List UDPAddr).map some) t := by
    clear he
    induction hst with
    | init h => rw [h]; exact hs
    | step _ h ih => exact .step ih h
  obtain ⟨e, N, r, hN⟩ := run_of_reach ht
  refine ⟨e, N, r, ?_, ?_, ?_⟩
  · intro i h
    obtain ⟨u, hu, -⟩ := h (N + i) (by omega)
    rw [hN _ (by omega)] at hu
    have hna : ¬ t.alive := fun ha => ha.2.2 _ he
    cases hu with
    | main ha _ => exact absurd ha hna
    | other ha _ => exact absurd ha hna
  · rw [hN N (Nat.le_refl N)]; exact (C83_needs_signal ht he).1
  · rw [hN N (Nat.le_refl N)]; exact ((pgReach_inv ht).left (by rw [he]; simp)).1

end P2P

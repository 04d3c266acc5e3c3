import Verif.Props.InterleaveMemory
import Verif.Props.InterleaveNV
/-! # C112: concrete schedules -/
namespace P2P

def fewBusy (P : Nat) (tasks : List Task) (n : Net) : List Nat → Bool
  | [] => true
  | i :: l => decide ((turn tasks n i).busy ≤ P) && fewBusy P tasks (turn tasks n i) l

theorem fewBusy_reach {P : Nat} {tasks : List Task} {init : Net → Prop} (l : List Nat) {n : Net} (hs : fewBusy P tasks n l = true)
    (h : Reach init (fun n m => TurnStepAny tasks n m ∧ m.busy ≤ P) n) : Reach init (fun n m => TurnStepAny tasks n m ∧ m.busy ≤ P) (turns tasks n l) := by
  induction l generalizing n with
  | nil => exact h
  | cons i l ih =>
    simp only [fewBusy, Bool.and_eq_true, decide_eq_true_eq] at hs
    refine ih hs.2 ?_
    have hb := hs.1
    revert hb
    unfold turn
    split
    · rename_i t h1 h2
      by_cases hd : t.E.dialFails = true
      · rw [if_pos hd]; exact fun _ => h
      · rw [if_neg hd]; exact fun hb => .step h ⟨⟨i, .start t h2 h1 (by simpa using hd)⟩, hb⟩
    · rename_i s k h1
      exact fun hb => .step h ⟨⟨i, .resume s k h1⟩, hb⟩
    · exact fun _ => h

/-- one after the other: the second takes the big buffer of the first, and there is only one -/
def oneByOne : List Nat := List.replicate 24 0 ++ List.replicate 24 1

example : inPool maxReadLength (pairNet oneByOne).shared.2 = 1 ∧ (endsWith (pairNet oneByOne) 0 exMeta && endsWith (pairNet oneByOne) 1 exMeta2) = true := by decide +kernel
example : inPool maxReadLength (pairNet oneByOne).shared.2 + (pairNet oneByOne).inUse ≤ 1 :=
  C112_memory pairTasks _ exPool_own 1 (by decide +kernel) _ (fewBusy_reach _ (by decide +kernel) (.init rfl))

/-- turn and turn about they need two -/
example : inPool maxReadLength (pairNet fairTurns).shared.2 = 2 := by decide +kernel
example : inPool maxReadLength (pairNet fairTurns).shared.2 + (pairNet fairTurns).inUse ≤ 2 :=
  C112_memory pairTasks _ exPool_own 2 (by decide +kernel) _ (fewBusy_reach _ (by decide +kernel) (.init rfl))

/-- the numbers of big buffers in use and in the pool at each moment of this schedule -/
def usage (l : List Nat) : Nat × Nat := ((pairNet l).inUse, inPool maxReadLength (pairNet l).shared.2)
/-- both are in use, one is, none is -/
example : ∃ k, usage (fairTurns.take k) = (2, 0) := ⟨20, by decide +kernel⟩

def bufCount (n : Net) (i : Nat) : Option (Nat × Nat) :=
  match n.threads[i]? with
  | some (.running (.wait s _)) => some (taken maxReadLength s.trace, returned maxReadLength s.trace)
  | _ => none

/-- C112_so_far, C112_one_buffer: the first download under way, with one big buffer in its hands -/
example : ∃ s k, (pairNet (fairTurns.take 20)).threads[0]? = some (.running (.wait s k)) ∧ taken maxReadLength s.trace = 1 ∧ returned maxReadLength s.trace = 0 ∧
    taken maxReadLength s.trace ≤ returned maxReadLength s.trace + 1 ∧
    ∃ f mem pool o, FetchMetaData (pairTasks[0].E.among f) toyHash pairTasks[0].fold 3 pairTasks[0].peerId pairTasks[0].infoHash mem pool = .of o ∧ s.trace <+: o.state.trace := by
  have hr : Reach (· = Net.fresh (fun _ => [], exPool) pairTasks) (TurnStepAny pairTasks) (pairNet (fairTurns.take 20)) := turns_reach _ (.init rfl)
  have hc : bufCount (pairNet (fairTurns.take 20)) 0 = some (1, 0) := by decide +kernel
  generalize pairNet (fairTurns.take 20) = n at hr hc
  unfold bufCount at hc
  split at hc
  · rename_i s k hs
    simp only [Option.some.injEq, Prod.mk.injEq] at hc
    obtain ⟨f, mem, pool, o, -, -, h1, -, h2⟩ := C112_so_far pairTasks _ exPool_own n hr 0 pairTasks[0] rfl _ hs
    exact ⟨s, k, hs, hc.1, hc.2, (C112_one_buffer pairTasks _ exPool_own n hr 0 pairTasks[0] rfl _ hs).2.1, f, mem, pool, o, h1, h2⟩
  · cases hc

end P2P

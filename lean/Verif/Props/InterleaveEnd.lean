import Verif.Props.Interleave
/-! # C111: every schedule comes to an end -/
namespace P2P

/-- what a goroutine can become in one turn -/
inductive Thread.Goes : Thread → Thread → Prop where
  | start (st : Step (Option Bytes × Option Bytes)) : Goes .idle (.running st)
  | resume (s : PSt) (k : Shared → Step (Option Bytes × Option Bytes)) (x : Shared) : Goes (.running (.wait s k)) (.running (k x))

theorem running_acc (st : Step (Option Bytes × Option Bytes)) : Acc (fun b a => Thread.Goes a b) (.running st) := by
  induction st with
  | done o => exact ⟨_, fun y h => by cases h⟩
  | wait s k ih => exact ⟨_, fun y h => by cases h with | resume _ _ x => exact ih x⟩

theorem thread_acc (th : Thread) : Acc (fun b a => Thread.Goes a b) th := by
  cases th with
  | idle => exact ⟨_, fun y h => by cases h with | start st => exact running_acc st⟩
  | running st => exact running_acc st

/-- one of several takes a turn -/
def OneGoes (l l' : List Thread) : Prop := ∃ (i : Nat) (a b : Thread), l[i]? = some a ∧ a.Goes b ∧ l' = l.set i b

theorem threads_acc (l : List Thread) : Acc (fun l' l => OneGoes l l') l := by
  induction l with
  | nil => exact ⟨_, fun y h => by obtain ⟨i, a, b, h, -⟩ := h; simp at h⟩
  | cons a l ih =>
    have ha := thread_acc a
    induction ha generalizing l with
    | intro a _ iha =>
      induction ih with
      | intro l hl ihl =>
        refine ⟨_, fun y h => ?_⟩
        obtain ⟨i, c, d, h1, h2, rfl⟩ := h
        match i with
        | 0 =>
          simp only [List.getElem?_cons_zero, Option.some.injEq] at h1
          subst h1
          exact iha d h2 l (Acc.intro l hl)
        | i + 1 =>
          simp only [List.getElem?_cons_succ] at h1
          exact ihl (l.set i d) ⟨i, c, d, h1, h2, rfl⟩

theorem netStep_goes {tasks : List Task} {n m : Net} (h : TurnStepAny tasks n m) : OneGoes n.threads m.threads := by
  obtain ⟨i, h⟩ := h
  cases h with
  | start t _ h2 _ => exact ⟨i, _, _, h2, .start _, rfl⟩
  | resume s k h1 => exact ⟨i, _, _, h1, .resume s k _, rfl⟩

/-- C111: downloads taking turns do not go on for ever (each makes at most `fuel` rounds of its loop; for how long it really lasts see C71 and C75). -/
theorem C111_no_endless_schedule (tasks : List Task) (r : Nat → Net) : ¬ ∀ k, TurnStepAny tasks (r k) (r (k + 1)) := by
  intro h
  have key : ∀ l, Acc (fun l' l => OneGoes l l') l → ∀ k, (r k).threads = l → False := by
    intro l hl
    induction hl with
    | intro l _ ih => exact fun k hk => ih _ (hk ▸ netStep_goes (h k)) (k + 1) rfl
  exact key _ (threads_acc _) 0 rfl

/-- C111: and none waits for another: as long as a download that got a connection has not ended, it can take a turn, whatever the others do. So when nothing
goes on, all have ended. -/
theorem C111_never_stuck (tasks : List Task) (x : Shared) (hx : Own [] x) (n : Net) (h : Reach (· = Net.fresh x tasks) (TurnStepAny tasks) n)
    (i : Nat) (t : Task) (ht : tasks[i]? = some t) (hd : t.E.dialFails = false) :
    (∃ m, TurnStep tasks n i m) ∨ ∃ o, n.threads[i]? = some (.running (.done o)) := by
  have key := Reach.inv (TurnInv (fun _ _ _ => True) tasks) (fun s hs => by subst hs; exact inv_fresh _ tasks hx)
    (fun _ _ h hs => turnStep_inv h (by obtain ⟨i, hs⟩ := hs; exact ⟨i, hs, fun _ _ _ => trivial⟩)) h
  have hl : i < n.threads.length := by rw [key.len]; exact (List.getElem?_eq_some_iff.1 ht).1
  cases hth : n.threads[i]'hl with
  | idle => exact .inl ⟨_, .start t ht (by rw [List.getElem?_eq_getElem hl, hth]) hd⟩
  | running st =>
    cases st with
    | done o => exact .inr ⟨o, by rw [List.getElem?_eq_getElem hl, hth]⟩
    | wait s k => exact .inl ⟨_, .resume s k (by rw [List.getElem?_eq_getElem hl, hth])⟩

end P2P

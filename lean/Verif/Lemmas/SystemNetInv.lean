import Verif.Lemmas.SystemNet
import Verif.Props.Capture
/-! # Where the downloads of `Model/SystemNet` are -/
namespace P2P

/-- the first `N` downloads, with what they share, by themselves -/
def SysNetSt.net (s : SysNetSt) (N : Nat) : Net := { shared := s.shared, threads := (List.range N).map s.dl }

structure DlInv (S : SysEnv) (s : SysNetSt) : Prop where
  task : ∀ p st, s.dl p = .running st → ∃ t, s.sys.task S p = some t ∧ t.E.dialFails = false
  worker : ∀ p st k, s.dl p = .running (.wait st k) → ∃ i : Nat, s.sys.pl.p2.workers[i]? = some (.running p)
  workers : s.sys.pl.p2.workers.length = S.W2
  most : ∃ N, ∀ p, N ≤ p → s.dl p = .idle

/-- a worker leaves a download only at its end -/
theorem sysStep_running {S : SysEnv} {s t : SysSt} (h : SysStep S s t) (hf : t.pl.p2.finished = s.pl.p2.finished) {i p : Nat}
    (hw : s.pl.p2.workers[i]? = some (.running p)) : t.pl.p2.workers[i]? = some (.running p) := by
  have hset : ∀ {l : List WPc} {j : Nat} {a b : WPc}, l[i]? = some (.running p) → l[j]? = some a → a ≠ .running p → (l.set j b)[i]? = some (.running p) := by
    intro l j a b h1 h2 h3
    rw [List.getElem?_set]
    split
    · rename_i e; subst e; rw [h1] at h2; exact absurd (Option.some.inj h2).symm h3
    · exact h1
  cases h with
  | pipe new _ _ st _ _ hfin _ _ _ _ =>
    cases st with
    | select2 j hj => exact hset hw hj (by simp)
    | recv2 j q r hj _ => exact hset hw hj (by simp)
    | done2 j q hj => exact (snoc_ne hfin.symm).elim
    | _ => exact hw
  | back j q _ _ _ => exact (snoc_ne hf.symm).elim
  | _ => exact hw

theorem sysStep_workers {S : SysEnv} {s t : SysSt} (h : SysStep S s t) : t.pl.p2.workers.length = s.pl.p2.workers.length := by
  cases h with
  | pipe new _ _ st _ _ _ _ _ _ _ => cases st <;> first | rfl | exact List.length_set
  | back j q _ _ _ => exact List.length_set
  | _ => rfl

/-- a download that is under way has led to nothing yet -/
theorem waiting_outcome {S : SysEnv} {s : SysNetSt} {p : Nat} {st : PSt} {k : Shared → Step (Option Bytes × Option Bytes)} (hp : s.dl p = .running (.wait st k)) {t : Task}
    (ht : s.sys.task S p = some t) (hd : t.E.dialFails = false) : s.outcome S p = none := by
  unfold SysSt.task at ht
  unfold SysNetSt.outcome
  cases he : enqueued (logOf p s.sys.pl.log) with
  | nil => rfl
  | cons job l =>
    rw [he] at ht
    simp only at ht ⊢
    cases ha : fetchArgs S.K.env job with
    | ok a =>
      rw [ha] at ht
      simp only [Option.some.injEq] at ht ⊢
      subst ht
      have hd : (S.conn p a.2).dialFails = false := hd
      rw [hd, hp]
      rfl
    | _ => rw [ha] at ht; cases ht

theorem dlInv_step {S : SysEnv} {s t : SysNetSt} (h : DlInv S s) (st : SysNetStep S s t) : DlInv S t := by
  obtain ⟨h1, h2, h3, N, h4⟩ := h
  cases st with
  | rest a b c d =>
    refine ⟨fun p st hp => ?_, fun p st k hp => ?_, (sysStep_workers a).trans h3, N, h4⟩
    · obtain ⟨x, hx, hd⟩ := h1 p st hp
      exact ⟨x, task_stays (sysStep_log a) hx, hd⟩
    · obtain ⟨i, hi⟩ := h2 p st k hp
      exact ⟨i, sysStep_running a c hi⟩
  | start i q x up hw hx hd hq =>
    refine ⟨fun p st hp => ?_, fun p st k hp => ?_, h3, max N (q + 1), fun p hp => ?_⟩
    · by_cases e : p = q
      · subst e; exact ⟨x, hx, hd⟩
      · exact h1 p st (by simpa [upd, e] using hp)
    · by_cases e : p = q
      · subst e; exact ⟨i, hw⟩
      · exact h2 p st k (by simpa [upd, e] using hp)
    · have e : p ≠ q := by omega
      simp only [upd, if_neg e]
      exact h4 p (by omega)
  | turn i q st k up hw hq =>
    refine ⟨fun p st' hp => ?_, fun p st' k' hp => ?_, h3, max N (q + 1), fun p hp => ?_⟩
    · by_cases e : p = q
      · subst e; exact h1 p _ hq
      · exact h1 p st' (by simpa [upd, e] using hp)
    · by_cases e : p = q
      · subst e; exact ⟨i, hw⟩
      · exact h2 p st' k' (by simpa [upd, e] using hp)
    · have e : p ≠ q := by omega
      simp only [upd, if_neg e]
      exact h4 p (by omega)
  | file i q out up hw ho hs hd => exact ⟨h1, h2, h3, N, h4⟩
  | back i q out up hw ho hr =>
    refine ⟨h1, fun p st k hp => ?_, List.length_set.trans h3, N, h4⟩
    obtain ⟨x, hx, hd⟩ := h1 p _ hp
    have hno := waiting_outcome hp hx hd
    have hne : p ≠ q := by
      rintro rfl
      have hno : s.outcome S p = none := hno
      rw [ho] at hno; cases hno
    obtain ⟨j, hj⟩ := h2 p st k hp
    refine ⟨j, ?_⟩
    show (s.sys.pl.p2.workers.set i .select)[j]? = some (.running p)
    rw [List.getElem?_set]
    split
    · rename_i e
      subst e
      rw [hw] at hj
      simp only [Option.some.injEq, WPc.running.injEq] at hj
      exact absurd hj.symm hne
    · exact hj
  | fatal i q up hw ho => exact ⟨h1, h2, h3, N, h4⟩

theorem dlInv {S : SysEnv} {port : Int} {fs0 : Bytes → Option Bytes} {s : SysNetSt} (h : SysNetReach S port fs0 s) : DlInv S s := by
  refine Reach.inv (DlInv S) (fun s hs => ?_) (fun _ _ h st => dlInv_step h st) h
  obtain ⟨h1, -, h3⟩ := hs
  refine ⟨fun p st hp => (by rw [h3] at hp; cases hp), fun p st k hp => (by rw [h3] at hp; cases hp), ?_, 0, fun p _ => (by rw [h3])⟩
  exact (wp_inv (pl_inv (C92_refines (sys_crawler (.init h1)).choose_spec.2).1).reach2).len

theorem busy_sum (f : Nat → Thread) : ∀ l : List Nat, ((l.map f).map Thread.busy).sum = (l.filter fun p => (f p).busy == 1).length
  | [] => rfl
  | a :: l => by
    have ih := busy_sum f l
    simp only [List.map_cons, List.sum_cons, List.filter_cons]
    split
    · rename_i h
      have h : (f a).busy = 1 := by simpa using h
      rw [List.length_cons, ← ih, h]; omega
    · rename_i h
      have h : (f a).busy = 0 := by
        revert h
        cases f a with
        | idle => exact fun _ => rfl
        | running st => cases st with
          | done _ => exact fun _ => rfl
          | wait _ _ => exact fun h => absurd rfl h
      rw [← ih, h]; omega

/-- at most as many downloads are under way as there are workers -/
theorem busy_bound {S : SysEnv} {s : SysNetSt} (h : DlInv S s) (N : Nat) : (s.net N).busy ≤ S.W2 := by
  unfold Net.busy SysNetSt.net
  rw [busy_sum]
  refine Nat.le_trans (length_le_of_nodup_subset (m := runningTasks s.sys.pl.p2.workers) (List.nodup_range.filter _) fun p hp => ?_) ?_
  · have hp := (List.mem_filter.1 hp).2
    have : ∃ st k, s.dl p = .running (.wait st k) := by
      revert hp
      cases s.dl p with
      | idle => intro h; cases h
      | running st => cases st with
        | done _ => intro h; cases h
        | wait st k => exact fun _ => ⟨st, k, rfl⟩
    obtain ⟨st, k, hp⟩ := this
    obtain ⟨i, hi⟩ := h.worker p st k hp
    exact List.mem_filterMap.2 ⟨_, List.mem_of_getElem? hi, rfl⟩
  · rw [← h.workers]
    exact List.length_filterMap_le _ _

theorem map_upd {α : Type} (f : Nat → α) (p : Nat) (v : α) (N : Nat) : (List.range N).map (upd f p v) = ((List.range N).map f).set p v := by
  apply List.ext_getElem?
  intro i
  rw [List.getElem?_set]
  simp only [List.getElem?_map, List.length_map, List.length_range]
  by_cases hi : i < N
  · rw [List.getElem?_range hi]
    by_cases e : p = i
    · subst e; simp [upd, hi]
    · have e' : i ≠ p := fun h => e h.symm
      simp [upd, e, e']
  · have : (List.range N)[i]? = none := by simp; omega
    rw [this]
    by_cases e : p = i
    · subst e; simp [hi]
    · simp [e]

/-- The downloads of the program are downloads taking turns (C111, C112), as many as there are workers at most at the same time. -/
theorem net_turns {S : SysEnv} {port : Int} {fs0 : Bytes → Option Bytes} {s : SysNetSt} (h : SysNetReach S port fs0 s) (N : Nat) (hN : ∀ p, N ≤ p → s.dl p = .idle)
    (τ : Nat → Task) (hτ : ∀ p t, s.sys.task S p = some t → τ p = t) :
    ∃ x : Shared, NewBytesPool 10000 4 0 = .ok x.2 ∧
      Reach (· = Net.fresh x ((List.range N).map τ)) (fun n m => TurnStepAny ((List.range N).map τ) n m ∧ m.busy ≤ S.W2) (s.net N) := by
  induction h with
  | @init s h =>
    refine ⟨s.shared, h.2.1, .init ?_⟩
    unfold SysNetSt.net Net.fresh
    rw [h.2.2]
    simp
  | @step s t hr st ih =>
    have hbusy := busy_bound (dlInv (.step hr st)) N
    have log := netStep_log st
    have go : ∀ {q v}, t.dl = upd s.dl q v → v ≠ .idle → q < N := by
      intro q v e hv
      refine Classical.byContradiction fun hq => hv ?_
      have := hN q (by omega)
      rw [e] at this
      simpa [upd] using this
    have ih := fun hN => ih hN fun p x hx => hτ p x (task_stays log hx)
    cases st with
    | start i q x up hw hx hd hq =>
      have hlt := go rfl (fun e => by cases e)
      obtain ⟨y, hy, hn⟩ := ih fun p hp => by
        have := hN p hp
        have e : p ≠ q := by omega
        simpa [upd, e] using this
      refine ⟨y, hy, .step hn ⟨⟨q, ?_⟩, hbusy⟩⟩
      unfold SysNetSt.net
      rw [map_upd]
      refine .start x ?_ ?_ hd
      · rw [List.getElem?_map, List.getElem?_range hlt]
        exact congrArg some (hτ q x hx)
      · rw [List.getElem?_map, List.getElem?_range hlt]
        exact congrArg some hq
    | turn i q st k up hw hq =>
      have hlt : q < N := by
        refine Classical.byContradiction fun hlt => ?_
        have hNq := hN q (by omega)
        have : upd s.dl q (.running (k s.shared)) q = .idle := hNq
        simp [upd] at this
      obtain ⟨y, hy, hn⟩ := ih fun p hp => by
        have := hN p hp
        have e : p ≠ q := by omega
        simpa [upd, e] using this
      refine ⟨y, hy, .step hn ⟨⟨q, ?_⟩, hbusy⟩⟩
      unfold SysNetSt.net
      rw [map_upd]
      refine .resume st k ?_
      rw [List.getElem?_map, List.getElem?_range hlt]
      exact congrArg some hq
    | rest a b c d => exact ih hN
    | file i q out up hw ho hs hd => exact ih hN
    | back i q out up hw ho hr => exact ih hN
    | fatal i q up hw ho => exact ih hN

end P2P

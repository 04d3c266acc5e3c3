import Verif.Model.WorkPool
/-! # C48–C50: the work pool -/
namespace P2P

/-- the tasks being executed -/
def runningTasks (ws : List WPc) : List Nat :=
  ws.filterMap fun w => match w with | .running t => some t | _ => none

/-- `WpReach size s`: some interleaving of a pool of `size` workers leads to `s` -/
abbrev WpReach (size : Nat) : WpSt → Prop := Reach (WpInit size) (WpStep size)

/-- `t` is reached from `s` by further steps -/
abbrev WpFrom (size : Nat) (s : WpSt) : WpSt → Prop := Reach (fun x => x = s) (WpStep size)

theorem runningTasks_set {ws : List WPc} {i : Nat} {old new : WPc} (h : ws[i]? = some old) :
    (runningTasks ws ++ runningTasks [new]).Perm (runningTasks (ws.set i new) ++ runningTasks [old]) := by
  induction ws generalizing i with
  | nil => simp at h
  | cons w r ih =>
    cases i with
    | zero =>
      simp at h; subst h
      have e : ∀ x : WPc, runningTasks (x :: r) = runningTasks [x] ++ runningTasks r := by
        intro x; unfold runningTasks; rw [← List.filterMap_append]; rfl
      rw [List.set_cons_zero, e w, e new]
      refine (List.Perm.trans ?_ (List.perm_append_comm (l₁ := runningTasks [w])))
      rw [List.append_assoc]
      exact List.Perm.append_left _ List.perm_append_comm
    | succ i =>
      simp at h
      have e : ∀ (x : WPc) r, runningTasks (x :: r) = runningTasks [x] ++ runningTasks r := by
        intro x r; unfold runningTasks; rw [← List.filterMap_append]; rfl
      rw [List.set_cons_succ, e w r, e w (r.set i new), List.append_assoc, List.append_assoc]
      exact List.Perm.append_left _ (ih h)

structure WpInv (size : Nat) (s : WpSt) : Prop where
  len : s.workers.length = size
  alive : ∀ w ∈ s.workers, w ≠ .afterLoop ∧ w ≠ .exited
  wg : s.wg = size
  fifo : s.submitted = s.started ++ s.queue
  room : s.queue.length ≤ size
  once : s.submitted.Nodup
  sent : ∀ c, c ∈ s.submitted ↔ s.subs c = .sent
  exec : s.started.Perm (s.finished ++ runningTasks s.workers)
  run : s.status = .running → s.closed = false ∧ ∀ c, s.shuts c = .listening ∨ s.shuts c = .check ∨ s.shuts c = .store
  shut : s.status = .shutdowned → s.closed = true
  past : ∀ c, s.shuts c = .wait ∨ (∃ b, s.shuts c = .final b) ∨ s.shuts c = .panicked → s.closed = true
  ret : ∀ c b, s.shuts c = .returned (some b) → s.closed = true
  timeout : 1 ≤ size → ∀ c, s.shuts c ≠ .final false ∧ s.shuts c ≠ .returned (some false)

theorem wp_step {size : Nat} {s t : WpSt} (I : WpInv size s) (st : WpStep size s t) : WpInv size t := by
  have mem_set : ∀ {i : Nat} {w x : WPc}, x ∈ s.workers.set i w → x ∈ s.workers ∨ x = w := by
    intro i w x h
    exact (List.mem_or_eq_of_mem_set h)
  cases st with
  | select i hd hw =>
    refine { I with len := ?_, alive := ?_, exec := ?_ }
    · simpa using I.len
    · intro w hwm
      rcases mem_set hwm with h | h
      · exact I.alive w h
      · subst h; simp
    · have := runningTasks_set (new := .recv) hw
      simp only [show runningTasks [WPc.recv] = [] from rfl, show runningTasks [WPc.select] = [] from rfl, List.append_nil] at this
      exact I.exec.trans (List.Perm.append_left _ this)
  | recv i t q hd hw hq =>
    refine { I with len := ?_, alive := ?_, exec := ?_, fifo := ?_, room := ?_ }
    · simpa using I.len
    · intro w hwm
      rcases mem_set hwm with h | h
      · exact I.alive w h
      · subst h; simp
    · simp [I.fifo, hq]
    · have := I.room; simp only [hq, List.length_cons] at this; show q.length ≤ size; omega
    · have := runningTasks_set (new := .running t) hw
      simp only [show runningTasks [WPc.recv] = [] from rfl, show runningTasks [WPc.running t] = [t] from rfl, List.append_nil] at this
      refine (I.exec.append_right [t]).trans ?_
      rw [List.append_assoc]
      exact List.Perm.append_left _ this
  | taskDone i t hd hw =>
    refine { I with len := ?_, alive := ?_, exec := ?_ }
    · simpa using I.len
    · intro w hwm
      rcases mem_set hwm with h | h
      · exact I.alive w h
      · subst h; simp
    · have := runningTasks_set (new := .select) hw
      simp only [show runningTasks [WPc.select] = [] from rfl, show runningTasks [WPc.running t] = [t] from rfl, List.append_nil] at this
      refine I.exec.trans ?_
      rw [List.append_assoc]
      exact List.Perm.append_left _ (this.trans List.perm_append_comm)
  | taskPanics i t hd hw => exact { I with }
  | wgDone i hd hw =>
    exact absurd rfl (I.alive _ (List.mem_of_getElem? hw)).1
  | subCheck c hd hc hs =>
    refine { I with sent := ?_ }
    intro k
    by_cases hk : k = c
    · subst hk
      have := I.sent k
      simp only [upd_same, this, hc]; simp
    · simp only [upd_ne _ _ hk]; exact I.sent k
  | subPanic c hd hc hs =>
    refine { I with sent := ?_ }
    intro k
    by_cases hk : k = c
    · subst hk
      have := I.sent k
      simp only [upd_same, this, hc]; simp
    · simp only [upd_ne _ _ hk]; exact I.sent k
  | subSend c hd hc hroom =>
    have hnot : c ∉ s.submitted := by intro h; rw [I.sent, hc] at h; cases h
    refine { I with sent := ?_, once := ?_, fifo := ?_, room := ?_ }
    · simp [I.fifo]
    · simp only [List.length_append, List.length_cons, List.length_nil]; omega
    · rw [List.nodup_append]
      refine ⟨I.once, by simp, ?_⟩
      intro a ha b hb
      simp at hb; subst hb
      rintro rfl; exact hnot ha
    · intro k
      by_cases hk : k = c
      · subst hk; simp
      · simp only [upd_ne _ _ hk, List.mem_append, List.mem_singleton, hk, or_false]; exact I.sent k
  | cancel hd => exact { I with }
  | listenCancel c hd hc hx =>
    refine { I with run := ?_, past := ?_, ret := ?_, timeout := ?_ }
    · intro h
      refine ⟨(I.run h).1, fun k => ?_⟩
      by_cases hk : k = c
      · subst hk; simp
      · simp only [upd_ne _ _ hk]; exact (I.run h).2 k
    · intro k; by_cases hk : k = c
      · subst hk; simp
      · simp only [upd_ne _ _ hk]; exact I.past k
    · intro k b; by_cases hk : k = c
      · subst hk; simp
      · simp only [upd_ne _ _ hk]; exact I.ret k b
    · intro hsz k; by_cases hk : k = c
      · subst hk; simp
      · simp only [upd_ne _ _ hk]; exact I.timeout hsz k
  | listenExit c hd hc hx =>
    refine { I with run := ?_, past := ?_, ret := ?_, timeout := ?_ }
    · intro h; have := (I.run h).1; rw [hx] at this; cases this
    · intro k; by_cases hk : k = c
      · subst hk; simp
      · simp only [upd_ne _ _ hk]; exact I.past k
    · intro k b; by_cases hk : k = c
      · subst hk; simp
      · simp only [upd_ne _ _ hk]; exact I.ret k b
    · intro hsz k; by_cases hk : k = c
      · subst hk; simp
      · simp only [upd_ne _ _ hk]; exact I.timeout hsz k
  | shCheck c hd hc hx =>
    refine { I with run := ?_, past := ?_, ret := ?_, timeout := ?_ }
    · intro h
      refine ⟨(I.run h).1, fun k => ?_⟩
      by_cases hk : k = c
      · subst hk; simp
      · simp only [upd_ne _ _ hk]; exact (I.run h).2 k
    · intro k; by_cases hk : k = c
      · subst hk; simp
      · simp only [upd_ne _ _ hk]; exact I.past k
    · intro k b; by_cases hk : k = c
      · subst hk; simp
      · simp only [upd_ne _ _ hk]; exact I.ret k b
    · intro hsz k; by_cases hk : k = c
      · subst hk; simp
      · simp only [upd_ne _ _ hk]; exact I.timeout hsz k
  | shSkip c hd hc hx =>
    refine { I with run := ?_, past := ?_, ret := ?_, timeout := ?_ }
    · intro h; exact absurd h hx
    · intro k; by_cases hk : k = c
      · subst hk; simp
      · simp only [upd_ne _ _ hk]; exact I.past k
    · intro k b; by_cases hk : k = c
      · subst hk; simp
      · simp only [upd_ne _ _ hk]; exact I.ret k b
    · intro hsz k; by_cases hk : k = c
      · subst hk; simp
      · simp only [upd_ne _ _ hk]; exact I.timeout hsz k
  | shStore c hd hc =>
    refine { I with run := ?_, past := ?_, ret := ?_, timeout := ?_, shut := ?_ }
    · intro h; cases h
    · intro h; cases h
    · intro k; by_cases hk : k = c
      · subst hk; simp
      · simp only [upd_ne _ _ hk]; exact I.past k
    · intro k b; by_cases hk : k = c
      · subst hk; simp
      · simp only [upd_ne _ _ hk]; exact I.ret k b
    · intro hsz k; by_cases hk : k = c
      · subst hk; simp
      · simp only [upd_ne _ _ hk]; exact I.timeout hsz k
  | shClose c hd hc hx =>
    refine { I with run := ?_, past := ?_, ret := ?_, timeout := ?_, shut := ?_ }
    · intro h; have := (I.run h).2 c; rw [hc] at this; simp at this
    · intro _; rfl
    · intro _ _; rfl
    · intro _ _ _; rfl
    · intro hsz k; by_cases hk : k = c
      · subst hk; simp
      · simp only [upd_ne _ _ hk]; exact I.timeout hsz k
  | shPanic c hd hc hx =>
    refine { I with run := ?_, past := ?_, ret := ?_, timeout := ?_ }
    · intro h; have := (I.run h).1; rw [hx] at this; cases this
    · intro _ _; exact hx
    · intro _ _ _; exact hx
    · intro hsz k; by_cases hk : k = c
      · subst hk; simp
      · simp only [upd_ne _ _ hk]; exact I.timeout hsz k
  | shTimeout c hd hc =>
    have hcl := I.past c (.inl hc)
    refine { I with run := ?_, past := ?_, ret := ?_, timeout := ?_ }
    · intro h; have := (I.run h).1; rw [hcl] at this; cases this
    · intro _ _; exact hcl
    · intro _ _ _; exact hcl
    · intro hsz k; by_cases hk : k = c
      · subst hk; simp
      · simp only [upd_ne _ _ hk]; exact I.timeout hsz k
  | shFinish c hd hc hwg =>
    have hcl := I.past c (.inl hc)
    refine { I with run := ?_, past := ?_, ret := ?_, timeout := ?_ }
    · intro h; have := (I.run h).1; rw [hcl] at this; cases this
    · intro _ _; exact hcl
    · intro _ _ _; exact hcl
    · intro hsz; rw [I.wg] at hwg; omega
  | shFinal c b hd hc =>
    have hcl := I.past c (.inr (.inl ⟨b, hc⟩))
    refine { I with run := ?_, past := ?_, ret := ?_, timeout := ?_, shut := ?_ }
    · intro h; cases h
    · intro _; exact hcl
    · intro _ _; exact hcl
    · intro _ _ _; exact hcl
    · intro hsz k; by_cases hk : k = c
      · subst hk
        simp only [upd_same]
        refine ⟨by simp, ?_⟩
        cases b
        · exact absurd hc (I.timeout hsz k).1
        · simp
      · simp only [upd_ne _ _ hk]; exact I.timeout hsz k

theorem wp_inv {size : Nat} {s : WpSt} (h : WpReach size s) : WpInv size s := by
  refine h.inv (WpInv size) ?_ ?_
  · rintro s ⟨h1, h2, h3, h4, h5, h6, h7, h8, h9, h10, h11, h12⟩
    have hs : ∀ c, s.shuts c = .listening ∨ s.shuts c = .check := by
      intro c; by_cases hc : c = 0
      · subst hc; exact .inl h7
      · exact .inr (h8 c hc)
    have hrun : runningTasks (List.replicate size .select) = [] := by
      unfold runningTasks; rw [List.filterMap_eq_nil_iff]; intro w hw; rw [(List.mem_replicate.1 hw).2]
    constructor
    · rw [h5]; simp
    · intro w hw; rw [h5] at hw; rw [(List.mem_replicate.1 hw).2]; simp
    · exact h4
    · simp [h2, h10, h11]
    · simp [h2]
    · simp [h10]
    · intro c; simp [h10, h6]
    · simp [h5, h11, h12, hrun]
    · intro _; exact ⟨h3, fun c => (hs c).elim .inl (fun h => .inr (.inl h))⟩
    · intro h; rw [h1] at h; cases h
    · intro c h; rcases hs c with e | e <;> rw [e] at h <;> simp at h
    · intro c b h; rcases hs c with e | e <;> rw [e] at h <;> simp at h
    · intro _ c; rcases hs c with e | e <;> rw [e] <;> simp
  · intro s t I st; exact wp_step I st

/-! ## C48 -/

/-- **Tasks are executed once, in order.** In every interleaving the tasks accepted so far, in order of acceptance, are
those started so far, in the order they were started, followed by those waiting. No task is accepted twice, so none is
started twice; the started ones are exactly those finished and those running; at most `size` wait and at most `size` run. -/
theorem C48_fifo_once {size : Nat} {s : WpSt} (h : WpReach size s) :
    s.submitted = s.started ++ s.queue ∧ s.submitted.Nodup ∧ (∀ c, c ∈ s.submitted ↔ s.subs c = .sent) ∧
    s.started.Perm (s.finished ++ runningTasks s.workers) ∧ s.queue.length ≤ size ∧ (runningTasks s.workers).length ≤ size := by
  have I := wp_inv h
  refine ⟨I.fifo, I.once, I.sent, I.exec, I.room, ?_⟩
  exact Nat.le_trans (List.length_filterMap_le _ _) (Nat.le_of_eq I.len)

/-- **Progress**: while a task waits and some worker is not executing one, the oldest waiting task can be started. -/
theorem C48_progress {size : Nat} {s : WpSt} (h : WpReach size s) (hd : s.dead = false) (t : Nat) (q : List Nat)
    (hq : s.queue = t :: q) (hfree : (runningTasks s.workers).length < size) :
    ∃ u, WpFrom size s u ∧ u.started = s.started ++ [t] ∧ u.queue = q := by
  have I := wp_inv h
  have hex : ∃ (i : Nat) (w : WPc), s.workers[i]? = some w ∧ ∀ t, w ≠ .running t := by
    apply Classical.byContradiction
    intro hno
    have hall : ∀ w ∈ s.workers, ∃ t, w = .running t := by
      intro w hw
      obtain ⟨i, hi⟩ := List.getElem?_of_mem hw
      apply Classical.byContradiction
      intro h'
      exact hno ⟨i, w, hi, fun t ht => h' ⟨t, ht⟩⟩
    have : (runningTasks s.workers).length = s.workers.length := by
      clear hno
      generalize s.workers = ws at hall
      induction ws with
      | nil => rfl
      | cons w r ih =>
        obtain ⟨t, rfl⟩ := hall w (by simp)
        have := ih (fun w hw => hall w (by simp [hw]))
        simp [runningTasks] at this ⊢
        exact this
    rw [this, I.len] at hfree
    omega
  obtain ⟨i, w, hi, hnr⟩ := hex
  have ha := I.alive w (List.mem_of_getElem? hi)
  cases w with
  | running t => exact absurd rfl (hnr t)
  | afterLoop => exact absurd rfl ha.1
  | exited => exact absurd rfl ha.2
  | recv => exact ⟨_, .step (.init rfl) (.recv i t q hd hi hq), rfl, rfl⟩
  | select =>
    have hlt : i < s.workers.length := (List.getElem?_eq_some_iff.1 hi).1
    exact ⟨_, .step (.step (.init rfl) (.select i hd hi)) (.recv i t q hd (by simp [hlt]) hq), rfl, rfl⟩

/-- a pool without workers never accepts a task: every submission blocks for ever -/
theorem C48_empty_pool {s : WpSt} (h : WpReach 0 s) : s.submitted = [] := by
  have I := wp_inv h
  have : s.submitted = [] ∧ s.queue = [] := by
    refine h.inv (fun s => s.submitted = [] ∧ s.queue = []) ?_ ?_
    · rintro s ⟨h1, h2, h3, h4, h5, h6, h7, h8, h9, h10, h11, h12⟩; exact ⟨h10, h2⟩
    · intro s t hs st
      cases st <;> first | exact hs | skip
      · rename_i hq; rw [hs.2] at hq; cases hq
      · rename_i hq; omega
  exact this.1

/-! ## C49 -/

/-- the status never becomes `Running` again -/
theorem status_stays {size : Nat} {s t : WpSt} (h : WpFrom size s t) (hs : s.status ≠ .running) : t.status ≠ .running := by
  refine h.inv (fun t => t.status ≠ .running) (by rintro t rfl; exact hs) ?_
  intro a b ha st
  cases st <;> first | exact ha | simp

theorem returned_not_running {size : Nat} {s : WpSt} (h : WpReach size s) (c : Nat) (r : Option Bool)
    (hc : s.shuts c = .returned r) : s.status ≠ .running := by
  intro hr
  have := ((wp_inv h).run hr).2 c
  rw [hc] at this
  simp at this

/-- **No submission after shutdown.** Once some `Shutdown` call has returned (for whatever reason), an `AsyncSubmit`
that has not read the status yet never gets to the send, and its task is never accepted. -/
theorem C49_no_submit_after_shutdown {size : Nat} {s t : WpSt} (h : WpReach size s) (c : Nat) (r : Option Bool)
    (hc : s.shuts c = .returned r) (k : Nat) (hk : s.subs k = .start) (ht : WpFrom size s t) :
    (t.subs k = .start ∨ t.subs k = .panicked) ∧ k ∉ t.submitted := by
  have h0 := returned_not_running h c r hc
  have hns : k ∉ s.submitted := by rw [(wp_inv h).sent, hk]; simp
  have key := ht.inv (fun t => t.status ≠ .running ∧ (t.subs k = .start ∨ t.subs k = .panicked) ∧ k ∉ t.submitted)
    (by rintro t rfl; exact ⟨h0, .inl hk, hns⟩) (by
      rintro a b ⟨h1, h2, h3⟩ st
      cases st with
      | subCheck d _ _ hr => exact absurd hr h1
      | subPanic d _ _ _ =>
        refine ⟨h1, ?_, h3⟩
        by_cases hkd : k = d
        · subst hkd; simp
        · simp only [upd_ne _ _ hkd]; exact h2
      | subSend d _ hd _ =>
        have hkd : k ≠ d := by rintro rfl; rw [hd] at h2; simp at h2
        refine ⟨h1, ?_, ?_⟩
        · simp only [upd_ne _ _ hkd]; exact h2
        · simp [h3, hkd]
      | shStore d _ _ => exact ⟨by simp, h2, h3⟩
      | shFinal d _ _ _ => exact ⟨by simp, h2, h3⟩
      | _ => exact ⟨h1, h2, h3⟩)
  exact key.2

/-- such a call can panic right away -/
theorem C49_submit_panics {size : Nat} {s : WpSt} (h : WpReach size s) (hd : s.dead = false) (c : Nat) (r : Option Bool)
    (hc : s.shuts c = .returned r) (k : Nat) (hk : s.subs k = .start) :
    (∃ t, WpStep size s t ∧ t.subs k = .panicked ∧ t.queue = s.queue) ∧
    ∀ t, WpStep size s t → t.subs k = .start ∨ t.subs k = .panicked := by
  refine ⟨⟨_, .subPanic k hd hk (returned_not_running h c r hc), by simp, rfl⟩, ?_⟩
  intro t st
  exact (C49_no_submit_after_shutdown h c r hc k hk (.step (.init rfl) st)).1

/-- position in the order Running, Shutdowning, Shutdowned -/
def SdStatus.rank : SdStatus → Nat
  | .running => 0
  | .shutdowning => 1
  | .shutdowned => 2

/-- **The status only moves forward**, and never back to `Running`; the one exception is a second, overlapping `Shutdown`
call that stores `Shutdowning` over `Shutdowned`: it is about to close the closed channel, so all it can do is panic. -/
theorem C49_status {size : Nat} {s t : WpSt} (h : WpReach size s) (st : WpStep size s t) :
    s.status.rank ≤ t.status.rank ∨
    (s.status = .shutdowned ∧ t.status = .shutdowning ∧ ∃ c, s.shuts c = .store ∧ t.shuts c = .close ∧ t.closed = true) := by
  have I := wp_inv h
  cases st with
  | shStore c hd hc =>
    cases hs : s.status with
    | running => left; simp [SdStatus.rank]
    | shutdowning => left; simp [SdStatus.rank]
    | shutdowned => exact .inr ⟨rfl, rfl, c, hc, by simp, I.shut hs⟩
  | shFinal c b hd hc => left; cases s.status <;> simp [SdStatus.rank]
  | _ => exact .inl (Nat.le_refl _)

/-! ## C50 -/

/-- **Workers never terminate**, whatever happens; the wait group never reaches zero in a pool that has workers. -/
theorem C50_workers_never_exit {size : Nat} {s : WpSt} (h : WpReach size s) :
    s.workers.length = size ∧ (∀ w ∈ s.workers, w = .select ∨ w = .recv ∨ ∃ t, w = .running t) ∧ s.wg = size := by
  have I := wp_inv h
  refine ⟨I.len, ?_, I.wg⟩
  intro w hw
  have := I.alive w hw
  cases w <;> simp at this ⊢

/-- **So `Shutdown` returns only through its timeout** (or at once, if the status was not `Running`). -/
theorem C50_only_timeout {size : Nat} {s : WpSt} (h : WpReach size s) (hsize : 1 ≤ size) (c : Nat) (r : Option Bool)
    (hc : s.shuts c = .returned r) : r = none ∨ r = some true := by
  cases r with
  | none => exact .inl rfl
  | some b =>
    cases b
    · exact absurd hc ((wp_inv h).timeout hsize c).2
    · exact .inr rfl

/-- the call is between its check of the status and its `close` -/
def ShPc.busy : ShPc → Bool
  | .store => true
  | .close => true
  | _ => false

/-- **Without overlap no panic**: if at no time two `Shutdown` calls are between their check and their `close`, no call
panics. -/
theorem C50_no_overlap_no_panic {size : Nat} {s : WpSt}
    (h : Reach (WpInit size) (fun a b => WpStep size a b ∧ ∀ c d, (b.shuts c).busy = true → (b.shuts d).busy = true → c = d) s) :
    ∀ c, s.shuts c ≠ .panicked := by
  have key := h.inv (fun s => WpInv size s ∧ (∀ c, s.shuts c ≠ .panicked) ∧
      (∀ c, (s.shuts c).busy = true → s.closed = false) ∧ ∀ c d, (s.shuts c).busy = true → (s.shuts d).busy = true → c = d) ?_ ?_
  · exact key.2.1
  · intro s h0
    have I := wp_inv (size := size) (.init h0)
    obtain ⟨h1, h2, h3, h4, h5, h6, h7, h8, h9, h10, h11, h12⟩ := h0
    have hs : ∀ c, s.shuts c = .listening ∨ s.shuts c = .check := by
      intro c; by_cases hc : c = 0
      · subst hc; exact .inl h7
      · exact .inr (h8 c hc)
    refine ⟨I, ?_, ?_, ?_⟩
    · intro c; rcases hs c with e | e <;> rw [e] <;> simp
    · intro c hb; exact h3
    · intro c d hb; rcases hs c with e | e <;> rw [e] at hb <;> simp [ShPc.busy] at hb
  · rintro a b ⟨I, hp, hcl, hal⟩ ⟨st, halone⟩
    have I' : WpInv size b := by
      -- the invariant of the unrestricted system is inductive on its own
      exact wp_step I st
    refine ⟨I', ?_, ?_, halone⟩
    · intro k
      cases st with
      | shPanic c hd hc hx => have := hcl c (by rw [hc]; rfl); rw [hx] at this; cases this
      | listenCancel c _ _ _ | listenExit c _ _ _ | shCheck c _ _ _ | shSkip c _ _ _ | shStore c _ _ | shClose c _ _ _
      | shTimeout c _ _ | shFinish c _ _ _ | shFinal c _ _ _ =>
        by_cases hk : k = c
        · subst hk; simp
        · simp only [upd_ne _ _ hk]; exact hp k
      | _ => exact hp k
    · intro k hb
      cases st with
      | shClose c hd hc hx =>
        by_cases hk : k = c
        · subst hk; simp [ShPc.busy] at hb
        · simp only [upd_ne _ _ hk] at hb
          exact absurd (hal k c hb (by rw [hc]; rfl)) hk
      | shCheck c _ _ hr => exact (I.run hr).1
      | shStore c _ hc =>
        by_cases hk : k = c
        · subst hk; exact hcl k (by rw [hc]; rfl)
        · simp only [upd_ne _ _ hk] at hb; exact hcl k hb
      | shPanic c hd hc hx => have := hcl c (by rw [hc]; rfl); rw [hx] at this; cases this
      | listenCancel c _ _ _ | listenExit c _ _ _ | shSkip c _ _ _ | shTimeout c _ _ | shFinish c _ _ _ | shFinal c _ _ _ =>
        by_cases hk : k = c
        · subst hk; simp [ShPc.busy] at hb
        · simp only [upd_ne _ _ hk] at hb; exact hcl k hb
      | _ => exact hcl k hb


/-! ## Witnesses and examples -/

def wp0 (size : Nat) : WpSt :=
  { status := .running, queue := [], closed := false, wg := size, workers := List.replicate size .select, subs := fun _ => .start,
    shuts := fun c => if c = 0 then .listening else .check, cancelled := false, dead := false, submitted := [], started := [], finished := [] }

theorem wp0_init (size : Nat) : WpInit size (wp0 size) :=
  ⟨rfl, rfl, rfl, rfl, rfl, fun _ => rfl, rfl, fun c hc => by simp [wp0, hc], rfl, rfl, rfl, rfl⟩

/-- **Overlapping calls panic**: the context is cancelled while `Shutdown` is called; both read `Running`; the
listener's `close` hits the closed channel and the process dies. -/
theorem C50_overlap_kills (size : Nat) : ∃ s, WpReach size s ∧ s.shuts 0 = .panicked ∧ s.dead = true := by
  have r0 : WpReach size (wp0 size) := .init (wp0_init size)
  have r1 := Reach.step r0 (.cancel rfl)
  have r2 := Reach.step r1 (.listenCancel 0 rfl (by simp [wp0]) rfl)
  have r3 := Reach.step r2 (.shCheck 0 rfl (by simp [upd]) rfl)
  have r4 := Reach.step r3 (.shCheck 1 rfl (by simp [upd, wp0]) rfl)
  have r5 := Reach.step r4 (.shStore 1 rfl (by simp [upd]))
  have r6 := Reach.step r5 (.shClose 1 rfl (by simp [upd]) rfl)
  have r7 := Reach.step r6 (.shStore 0 rfl (by simp [upd]))
  have r8 := Reach.step r7 (.shPanic 0 rfl (by simp [upd]) rfl)
  exact ⟨_, r8, by simp [upd], by simp⟩

/-- … and the status can go back from `Shutdowned` to `Shutdowning` (and stay there: the second call panics). -/
theorem C49_status_backwards (size : Nat) : ∃ s t, WpReach size s ∧ WpStep size s t ∧ s.status = .shutdowned ∧ t.status = .shutdowning := by
  have r0 : WpReach size (wp0 size) := .init (wp0_init size)
  have r1 := Reach.step r0 (.shCheck 1 rfl (by simp [wp0]) rfl)
  have r2 := Reach.step r1 (.shCheck 2 rfl (by simp [upd, wp0]) rfl)
  have r3 := Reach.step r2 (.shStore 1 rfl (by simp [upd]))
  have r4 := Reach.step r3 (.shClose 1 rfl (by simp [upd]) rfl)
  have r5 := Reach.step r4 (.shTimeout 1 rfl (by simp [upd]))
  have r6 := Reach.step r5 (.shFinal 1 true rfl (by simp [upd]))
  exact ⟨_, _, r6, .shStore 2 rfl (by simp [upd]), rfl, rfl⟩

theorem wpFrom_self {size : Nat} {s : WpSt} (_ : WpReach size s) : WpFrom size s s := .init rfl

/-- A submission that had read the status is accepted — and even executed — after `Shutdown` has returned. -/
theorem C49_late_submission : ∃ s t, WpReach 1 s ∧ s.shuts 1 = .returned (some true) ∧ s.submitted = [] ∧ WpFrom 1 s t ∧ t.finished = [7] := by
  have r0 : WpReach 1 (wp0 1) := .init (wp0_init 1)
  have r1 := Reach.step r0 (.subCheck 7 rfl rfl rfl)
  have r2 := Reach.step r1 (.shCheck 1 rfl (by simp [wp0]) rfl)
  have r3 := Reach.step r2 (.shStore 1 rfl (by simp [upd]))
  have r4 := Reach.step r3 (.shClose 1 rfl (by simp [upd]) rfl)
  have r5 := Reach.step r4 (.shTimeout 1 rfl (by simp [upd]))
  have r6 := Reach.step r5 (.shFinal 1 true rfl (by simp [upd]))
  have t0 := wpFrom_self r6
  have t1 := Reach.step t0 (.subSend 7 rfl (by simp [upd]) (by simp [wp0]))
  have t2 := Reach.step t1 (.select 0 rfl (by rfl))
  have t3 := Reach.step t2 (.recv 0 7 [] rfl (by rfl) rfl)
  have t4 := Reach.step t3 (.taskDone 0 7 rfl (by rfl))
  exact ⟨_, _, r6, by simp [upd], rfl, t4, rfl⟩

/-- two workers, three tasks: the hypotheses of C48 and `C50_only_timeout` are met -/
example : ∃ s, WpReach 2 s ∧ s.submitted = [5, 3, 4] ∧ s.started = [5, 3] ∧ s.queue = [4] ∧ s.finished = [3] ∧
    runningTasks s.workers = [5] ∧ s.dead = false ∧ (runningTasks s.workers).length < 2 := by
  have r0 : WpReach 2 (wp0 2) := .init (wp0_init 2)
  have r1 := Reach.step r0 (.subCheck 3 rfl rfl rfl)
  have r2 := Reach.step r1 (.subCheck 4 rfl rfl rfl)
  have r3 := Reach.step r2 (.subCheck 5 rfl rfl rfl)
  have r4 := Reach.step r3 (.subSend 5 rfl (by simp [upd]) (by simp [wp0]))
  have r5 := Reach.step r4 (.subSend 3 rfl (by simp [upd]) (by simp [wp0]))
  have r6 := Reach.step r5 (.select 0 rfl rfl)
  have r7 := Reach.step r6 (.select 1 rfl rfl)
  have r8 := Reach.step r7 (.recv 1 5 [3] rfl rfl rfl)
  have r9 := Reach.step r8 (.recv 0 3 [] rfl rfl rfl)
  have r10 := Reach.step r9 (.subSend 4 rfl (by simp [upd]) (by simp))
  have r11 := Reach.step r10 (.taskDone 0 3 rfl rfl)
  exact ⟨_, r11, rfl, rfl, rfl, rfl, rfl, rfl, by decide⟩

/-- a run without overlap in which a call shuts the pool down and a second one returns at once -/
example : ∃ s, Reach (WpInit 1) (fun a b => WpStep 1 a b ∧ ∀ c d, (b.shuts c).busy = true → (b.shuts d).busy = true → c = d) s ∧
    s.shuts 1 = .returned (some true) ∧ s.shuts 2 = .returned none := by
  have hb : ∀ (s : WpSt) (k : Nat), (∀ c, c ≠ k → (s.shuts c).busy = false) →
      ∀ c d, (s.shuts c).busy = true → (s.shuts d).busy = true → c = d := by
    intro s k h c d hc hd
    have e1 : c = k := by apply Classical.byContradiction; intro hne; rw [h c hne] at hc; cases hc
    have e2 : d = k := by apply Classical.byContradiction; intro hne; rw [h d hne] at hd; cases hd
    rw [e1, e2]
  have h0 : ∀ c, ((wp0 1).shuts c).busy = false := by intro c; simp only [wp0]; split <;> rfl
  have r0 : Reach (WpInit 1) (fun a b => WpStep 1 a b ∧ ∀ c d, (b.shuts c).busy = true → (b.shuts d).busy = true → c = d) (wp0 1) :=
    .init (wp0_init 1)
  have r1 := Reach.step r0 ⟨.shCheck 1 rfl (by simp [wp0]) rfl, hb _ 1 (fun c hc => by simp only [upd_ne _ _ hc]; exact h0 c)⟩
  have r2 := Reach.step r1 ⟨.shStore 1 rfl (by simp [upd]), hb _ 1 (fun c hc => by simp only [upd_ne _ _ hc]; exact h0 c)⟩
  have r3 := Reach.step r2 ⟨.shClose 1 rfl (by simp [upd]) rfl, hb _ 1 (fun c hc => by simp only [upd_ne _ _ hc]; exact h0 c)⟩
  have r4 := Reach.step r3 ⟨.shTimeout 1 rfl (by simp [upd]), hb _ 1 (fun c hc => by simp only [upd_ne _ _ hc]; exact h0 c)⟩
  have r5 := Reach.step r4 ⟨.shFinal 1 true rfl (by simp [upd]), hb _ 1 (fun c hc => by simp only [upd_ne _ _ hc]; exact h0 c)⟩
  have r6 := Reach.step r5 ⟨.shSkip 2 rfl (by simp [upd, wp0]) (by simp), hb _ 1 (fun c hc => by
    by_cases h2 : c = 2
    · subst h2; simp [ShPc.busy]
    · simp only [upd_ne _ _ h2, upd_ne _ _ hc]; exact h0 c)⟩
  exact ⟨_, r6, by simp [upd], by simp⟩

end P2P

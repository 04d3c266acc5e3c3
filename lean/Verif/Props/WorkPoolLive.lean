import Verif.Fair
import Verif.Props.WorkPool
/-! # C85: under a fair scheduler the work pool gets everything done

`C48_progress` says that a step towards the execution of the oldest task can always be taken. Here: it is taken. The theorems speak about
infinite executions (`Run`, Verif/Fair.lean) in which other callers may go on submitting for ever. -/
namespace P2P

/-- Worker `w` takes a step of its own (the pool's code, or the task it runs comes to its end). -/
def WpWorkerMoves (size w : Nat) (s t : WpSt) : Prop := WpStep size s t ∧ t.workers[w]? ≠ s.workers[w]?

/-- Worker `w` is inside a task. -/
def WpSt.inTask (s : WpSt) (w : Nat) : Prop := ∃ t, s.workers[w]? = some (.running t)

/-- The scheduler does not forget worker `w` while it is in the pool's own code. -/
def WorkerScheduled (size : Nat) (e : Nat → WpSt) (w : Nat) : Prop :=
  WeaklyFair e fun s t => WpWorkerMoves size w s t ∧ ¬ s.inTask w

/-- The tasks that worker `w` executes return. -/
def TasksReturn (e : Nat → WpSt) (w : Nat) : Prop :=
  ∀ k t, (e k).workers[w]? = some (.running t) → ∃ j, k ≤ j ∧ (e j).workers[w]? ≠ some (.running t)

/-- position of a worker in its loop, as distance to the next receive -/
def WPc.phase : Option WPc → Nat
  | some .recv => 0
  | some .select => 1
  | some (.running _) => 2
  | _ => 0

/-- How one worker and the number of started tasks change together. -/
def PoolMove (a a' : Nat) (w w' : Option WPc) : Prop :=
  (w' = w ∧ (a' = a ∨ a' = a + 1)) ∨ (w = some .select ∧ w' = some .recv ∧ a' = a) ∨
  (∃ t, w = some (.running t) ∧ w' = some .select ∧ a' = a) ∨ (∃ t, w = some .recv ∧ w' = some (.running t) ∧ a' = a + 1)

/-- A worker that goes on moving as long as fewer than `n + 1` tasks have been started sees to it that `n + 1` tasks are started. -/
theorem pool_drains (a : Nat → Nat) (w : Nat → Option WPc) (n i0 : Nat)
    (step : ∀ i, i0 ≤ i → PoolMove (a i) (a (i + 1)) (w i) (w (i + 1)))
    (moves : ∀ i, i0 ≤ i → ¬ n < a i → ∃ j, i ≤ j ∧ (n < a j ∨ w j ≠ w i)) : ∃ j, i0 ≤ j ∧ n < a j := by
  refine eventually w (fun i => 3 * (n + 1 - a i) + WPc.phase (w i)) (fun i => n < a i) i0 ?_ moves
  intro i hi hn
  by_cases hn' : n < a (i + 1)
  · exact .inl hn'
  right
  rcases step i hi with ⟨h1, h2⟩ | ⟨h1, h2, h3⟩ | ⟨t, h1, h2, h3⟩ | ⟨t, h1, h2, h3⟩
  · rw [h1]
    refine ⟨?_, fun h => absurd rfl h⟩
    show 3 * (n + 1 - a (i + 1)) + WPc.phase (w i) ≤ 3 * (n + 1 - a i) + WPc.phase (w i)
    omega
  · simp only [h1, h2, h3, WPc.phase]; omega
  · simp only [h1, h2, h3, WPc.phase]; omega
  · simp only [h1, h2, h3, WPc.phase]; omega

theorem getElem?_set_cases {ws : List WPc} {i w : Nat} {old new : WPc} (h : ws[i]? = some old) :
    (ws.set i new)[w]? = ws[w]? ∨ (w = i ∧ ws[w]? = some old ∧ (ws.set i new)[w]? = some new) := by
  by_cases e : i = w
  · subst e
    have hl : i < ws.length := by
      rw [List.getElem?_eq_some_iff] at h; exact h.1
    exact .inr ⟨rfl, h, by rw [List.getElem?_set_self hl]⟩
  · exact .inl (List.getElem?_set_ne e)

theorem wp_poolMove {size : Nat} {s t : WpSt} (I : WpInv size s) (st : WpStep size s t) (w : Nat) :
    PoolMove s.started.length t.started.length s.workers[w]? t.workers[w]? := by
  have same : ∀ x : Option WPc, ∀ a : Nat, PoolMove a a x x := fun x a => .inl ⟨rfl, .inl rfl⟩
  cases st with
  | select i hd hw =>
    rcases getElem?_set_cases (w := w) (new := .recv) hw with h | ⟨-, h1, h2⟩
    · exact .inl ⟨h, .inl rfl⟩
    · exact .inr (.inl ⟨h1, h2, rfl⟩)
  | recv i t q hd hw hq =>
    have hl : (s.started ++ [t]).length = s.started.length + 1 := by simp
    rcases getElem?_set_cases (w := w) (new := .running t) hw with h | ⟨-, h1, h2⟩
    · exact .inl ⟨h, .inr hl⟩
    · exact .inr (.inr (.inr ⟨t, h1, h2, hl⟩))
  | taskDone i t hd hw =>
    rcases getElem?_set_cases (w := w) (new := .select) hw with h | ⟨-, h1, h2⟩
    · exact .inl ⟨h, .inl rfl⟩
    · exact .inr (.inr (.inl ⟨t, h1, h2, rfl⟩))
  | wgDone i hd hw => exact absurd rfl (I.alive _ (List.mem_of_getElem? hw)).1
  | taskPanics i t hd hw => exact same _ _
  | subCheck c hd hc hs => exact same _ _
  | subPanic c hd hc hs => exact same _ _
  | subSend c hd hc hr => exact same _ _
  | cancel hd => exact same _ _
  | listenCancel c hd hc hx => exact same _ _
  | listenExit c hd hc hx => exact same _ _
  | shCheck c hd hc hx => exact same _ _
  | shSkip c hd hc hx => exact same _ _
  | shStore c hd hc => exact same _ _
  | shClose c hd hc hx => exact same _ _
  | shPanic c hd hc hx => exact same _ _
  | shTimeout c hd hc => exact same _ _
  | shFinish c hd hc hx => exact same _ _
  | shFinal c b hd hc => exact same _ _

/-- The list of submitted tasks only grows at its end. -/
theorem wp_submitted_grows {size : Nat} {s t : WpSt} (st : WpStep size s t) : ∃ l, t.submitted = s.submitted ++ l := by
  cases st with
  | subSend c hd hc hr => exact ⟨[c], rfl⟩
  | _ => exact ⟨[], (List.append_nil _).symm⟩

theorem wp_started_grows {size : Nat} {s t : WpSt} (st : WpStep size s t) : ∃ l, t.started = s.started ++ l := by
  cases st with
  | recv i c q hd hw hq => exact ⟨[c], rfl⟩
  | _ => exact ⟨[], (List.append_nil _).symm⟩

theorem wp_submitted_stays {size : Nat} {e : Nat → WpSt} (r : Run (WpInit size) (WpStep size) e) {i j n c : Nat} (hij : i ≤ j)
    (h : (e i).submitted[n]? = some c) : (e j).submitted[n]? = some c := by
  refine r.stays (fun s => s.submitted[n]? = some c) ?_ hij h
  intro k hk st
  obtain ⟨l, hl⟩ := wp_submitted_grows st
  have hn := (List.getElem?_eq_some_iff.1 hk).1
  show (e (k + 1)).submitted[n]? = some c
  rw [hl, List.getElem?_append_left hn]; exact hk

/-- **C85** A task that has been submitted is started, even if only one worker of the pool ever returns from its tasks, whatever the other
workers, the submitters and the callers of `Shutdown` do. -/
theorem C85_started {size : Nat} {e : Nat → WpSt} (r : Run (WpInit size) (WpStep size) e) (live : ∀ i, (e i).dead = false)
    {w : Nat} (hw : w < size) (sched : WorkerScheduled size e w) (ret : TasksReturn e w) {k c : Nat} (hc : c ∈ (e k).submitted) :
    ∃ j, k ≤ j ∧ c ∈ (e j).started := by
  obtain ⟨n, hn, hnc⟩ := List.getElem_of_mem hc
  have hn? : (e k).submitted[n]? = some c := by rw [List.getElem?_eq_getElem hn, hnc]
  have inv : ∀ i, WpInv size (e i) := fun i => wp_inv (r.reach i)
  obtain ⟨j, hj, hlt⟩ := pool_drains (fun i => (e i).started.length) (fun i => (e i).workers[w]?) n k (by
      intro i _
      rcases r.next i with h | h
      · simp only [h]; exact .inl ⟨rfl, .inl rfl⟩
      · exact wp_poolMove (inv i) h w) (by
      intro i hi hni
      have hw? : ∃ x, (e i).workers[w]? = some x := by
        have : w < (e i).workers.length := by rw [(inv i).len]; exact hw
        exact ⟨_, List.getElem?_eq_getElem this⟩
      obtain ⟨x, hx⟩ := hw?
      have hal := (inv i).alive x (List.mem_of_getElem? hx)
      -- as long as not enough tasks have been started there is a task in the queue
      have hq : ∀ j, i ≤ j → ¬ n < (e j).started.length → ∃ t q, (e j).queue = t :: q := by
        intro j hij hnj
        have h1 := wp_submitted_stays r (by omega : k ≤ j) hn?
        have h2 := (List.getElem?_eq_some_iff.1 h1).1
        rw [(inv j).fifo] at h2
        cases hq : (e j).queue with
        | nil => rw [hq] at h2; simp at h2; omega
        | cons t q => exact ⟨t, q, rfl⟩
      cases x with
      | afterLoop => exact absurd rfl hal.1
      | exited => exact absurd rfl hal.2
      | running t =>
        obtain ⟨j, hj, hne⟩ := ret i t hx
        exact ⟨j, hj, .inr (by rw [hx]; exact hne)⟩
      | select =>
        refine sched.moves (fun s => s.workers[w]?) (fun s t h => h.1.2) i _ ?_
        intro j hij _ heq
        rw [hx] at heq
        have hl : w < (e j).workers.length := by rw [(inv j).len]; exact hw
        refine ⟨_, ⟨⟨.select w (live j) heq, ?_⟩, ?_⟩⟩
        · show ((e j).workers.set w .recv)[w]? ≠ _
          rw [List.getElem?_set_self hl, heq]; simp
        · rintro ⟨t, ht⟩; rw [heq] at ht; cases ht
      | recv =>
        refine sched.moves (fun s => s.workers[w]?) (fun s t h => h.1.2) i _ ?_
        intro j hij hg heq
        rw [hx] at heq
        have hl : w < (e j).workers.length := by rw [(inv j).len]; exact hw
        obtain ⟨t, q, hq⟩ := hq j hij hg
        refine ⟨_, ⟨⟨.recv w t q (live j) heq hq, ?_⟩, ?_⟩⟩
        · show ((e j).workers.set w (.running t))[w]? ≠ _
          rw [List.getElem?_set_self hl, heq]; simp
        · rintro ⟨t, ht⟩; rw [heq] at ht; cases ht)
  refine ⟨j, hj, ?_⟩
  have h1 := wp_submitted_stays r hj hn?
  rw [(inv j).fifo, List.getElem?_append_left hlt] at h1
  exact List.mem_of_getElem? h1

/-- **C85** If the tasks return, every submitted task is finished in the end. -/
theorem C85_finished {size : Nat} {e : Nat → WpSt} (r : Run (WpInit size) (WpStep size) e) (live : ∀ i, (e i).dead = false)
    (hsize : 1 ≤ size) (sched : ∀ w, w < size → WorkerScheduled size e w) (ret : ∀ w, w < size → TasksReturn e w)
    {k c : Nat} (hc : c ∈ (e k).submitted) : ∃ j, k ≤ j ∧ c ∈ (e j).finished := by
  obtain ⟨i, hi, hs⟩ := C85_started r live (by omega : 0 < size) (sched 0 (by omega)) (ret 0 (by omega)) hc
  have inv : ∀ i, WpInv size (e i) := fun i => wp_inv (r.reach i)
  have hp := (inv i).exec.mem_iff.1 hs
  rcases List.mem_append.1 hp with hf | hr
  · exact ⟨i, hi, hf⟩
  · obtain ⟨x, hx, hxc⟩ := List.mem_filterMap.1 hr
    obtain ⟨w, hw, hwx⟩ := List.getElem_of_mem hx
    have hsz : w < size := by rw [(inv i).len] at hw; exact hw
    have hrun : (e i).workers[w]? = some (.running c) := by
      rw [List.getElem?_eq_getElem hw, hwx]
      cases x <;> simp at hxc ⊢
      exact hxc
    obtain ⟨j, hj, hne⟩ := ret w hsz i c hrun
    obtain ⟨m, him, -, hm1, hm2⟩ := becomes (P := fun j => (e j).workers[w]? ≠ some (.running c)) hj (fun h => h hrun) hne
    have hm1 : (e m).workers[w]? = some (.running c) := Classical.byContradiction hm1
    rcases r.next m with h | h
    · rw [h] at hm2; exact absurd hm1 hm2
    · refine ⟨m + 1, by omega, ?_⟩
      generalize e (m + 1) = t at h hm2
      cases h with
      | select i hd hw =>
        rcases getElem?_set_cases (w := w) (new := .recv) hw with h' | ⟨-, h1, -⟩
        · exact absurd (h'.trans hm1) hm2
        · rw [hm1] at h1; cases h1
      | recv i t q hd hw hq =>
        rcases getElem?_set_cases (w := w) (new := .running t) hw with h' | ⟨-, h1, -⟩
        · exact absurd (h'.trans hm1) hm2
        · rw [hm1] at h1; cases h1
      | taskDone i t hd hw =>
        rcases getElem?_set_cases (w := w) (new := .select) hw with h' | ⟨-, h1, -⟩
        · exact absurd (h'.trans hm1) hm2
        · rw [hm1] at h1; cases h1
          exact List.mem_append_right _ (List.mem_singleton.2 rfl)
      | wgDone i hd hw => exact absurd rfl ((inv m).alive _ (List.mem_of_getElem? hw)).1
      | taskPanics i t hd hw => exact absurd hm1 hm2
      | subCheck c hd hc hs => exact absurd hm1 hm2
      | subPanic c hd hc hs => exact absurd hm1 hm2
      | subSend c hd hc hr => exact absurd hm1 hm2
      | cancel hd => exact absurd hm1 hm2
      | listenCancel c hd hc hx => exact absurd hm1 hm2
      | listenExit c hd hc hx => exact absurd hm1 hm2
      | shCheck c hd hc hx => exact absurd hm1 hm2
      | shSkip c hd hc hx => exact absurd hm1 hm2
      | shStore c hd hc => exact absurd hm1 hm2
      | shClose c hd hc hx => exact absurd hm1 hm2
      | shPanic c hd hc hx => exact absurd hm1 hm2
      | shTimeout c hd hc => exact absurd hm1 hm2
      | shFinish c hd hc hx => exact absurd hm1 hm2
      | shFinal c b hd hc => exact absurd hm1 hm2

/-- The queue is not full for ever: if one worker returns from its tasks, there is room again and again. -/
theorem wp_room_again {size : Nat} {e : Nat → WpSt} (r : Run (WpInit size) (WpStep size) e) (live : ∀ i, (e i).dead = false)
    {w : Nat} (hw : w < size) (sched : WorkerScheduled size e w) (ret : TasksReturn e w) (k : Nat) :
    ∃ j, k ≤ j ∧ (e j).queue.length < size := by
  have inv : ∀ i, WpInv size (e i) := fun i => wp_inv (r.reach i)
  by_cases hk : (e k).queue.length < size
  · exact ⟨k, Nat.le_refl k, hk⟩
  · cases hq : (e k).queue with
    | nil => rw [hq] at hk; simp at hk; omega
    | cons c q =>
      have hc : c ∈ (e k).submitted := by rw [(inv k).fifo, hq]; simp
      have hnd := (inv k).once
      have hns : c ∉ (e k).started := by
        rw [(inv k).fifo, hq, List.nodup_append] at hnd
        intro h; exact hnd.2.2 c h c (List.mem_cons_self ..) rfl
      obtain ⟨j, hj, hs⟩ := C85_started r live hw sched ret hc
      obtain ⟨m, hm, -, hm1, hm2⟩ := becomes (P := fun j => c ∈ (e j).started) hj hns hs
      refine ⟨m + 1, by omega, ?_⟩
      rcases r.next m with h | h
      · rw [h] at hm2; exact absurd hm2 hm1
      · have hroom := (inv m).room
        generalize e (m + 1) = t at h hm2
        cases h with
        | recv i t q hd hw hq => rw [hq] at hroom; simp at hroom; exact hroom
        | _ => exact absurd hm2 hm1

/-- **C85** A call of `AsyncSubmit` that has passed its check completes its send, provided the send is not overtaken for ever (Go serves the
goroutines blocked on a channel in the order in which they came). -/
theorem C85_submit {size : Nat} {e : Nat → WpSt} (r : Run (WpInit size) (WpStep size) e) (live : ∀ i, (e i).dead = false)
    {w : Nat} (hw : w < size) (sched : WorkerScheduled size e w) (ret : TasksReturn e w) {c : Nat}
    (turn : StronglyFair e fun s t => WpStep size s t ∧ s.subs c = .sending ∧ t.subs c = .sent) {k : Nat} (hc : (e k).subs c = .sending) :
    ∃ j, k ≤ j ∧ (e j).subs c = .sent := by
  by_cases hex : ∃ j, k ≤ j ∧ (e j).subs c = .sent
  · exact hex
  · have hs : ∀ j, k ≤ j → (e j).subs c = .sending := by
      intro j hj
      refine (r.stays (fun s => s.subs c = .sending ∨ s.subs c = .sent) ?_ hj (.inl hc)).resolve_right fun h => hex ⟨j, hj, h⟩
      intro i hi st
      generalize e (i + 1) = t at st
      have hcase : ∀ (d : Nat) (x : SubPc), (d = c → x = .sent) →
          upd (e i).subs d x c = .sending ∨ upd (e i).subs d x c = .sent := by
        intro d x hd
        by_cases h : c = d
        · subst h; rw [upd_same]; exact .inr (hd rfl)
        · rw [upd_ne _ _ h]; exact hi
      cases st with
      | subCheck d hd hx0 hs => exact hcase d _ (by rintro rfl; rw [hx0] at hi; simp at hi)
      | subPanic d hd hx0 hs => exact hcase d _ (by rintro rfl; rw [hx0] at hi; simp at hi)
      | subSend d hd hc hr => exact hcase d _ (fun _ => rfl)
      | _ => exact hi
    obtain ⟨j, hj, -, -, h⟩ := turn k fun i hi => by
      obtain ⟨j, hj, hroom⟩ := wp_room_again r live hw sched ret i
      exact ⟨j, hj, _, .subSend c (live j) (hs j (by omega)) hroom, hs j (by omega), upd_same _ _ _⟩
    exact ⟨j + 1, by omega, h⟩

/-- distance of a call of `Shutdown` to its end -/
def ShPc.togo : ShPc → Nat
  | .listening => 6
  | .check => 5
  | .store => 4
  | .close => 3
  | .wait => 2
  | .final _ => 1
  | _ => 0

/-- the call is over: it returned, or it panicked because another call had closed the channel before -/
def ShPc.over : ShPc → Bool
  | .returned _ => true
  | .panicked => true
  | _ => false

/-- **C85** A call of `Shutdown` that is scheduled comes to its end, whatever the workers do. -/
theorem C85_shutdown {size : Nat} {e : Nat → WpSt} (r : Run (WpInit size) (WpStep size) e) (live : ∀ i, (e i).dead = false) {c : Nat}
    (sched : WeaklyFair e fun s t => WpStep size s t ∧ t.shuts c ≠ s.shuts c) {k : Nat} (hc : (e k).shuts c ≠ .listening)
    (hc2 : (e k).shuts c ≠ .listenerExit) : ∃ j, k ≤ j ∧ ((e j).shuts c).over = true := by
  have hstep : ∀ {s t : WpSt}, WpStep size s t → s.shuts c ≠ .listening → s.shuts c ≠ .listenerExit →
      (t.shuts c ≠ .listening ∧ t.shuts c ≠ .listenerExit) ∧ (t.shuts c ≠ s.shuts c → (t.shuts c).togo < (s.shuts c).togo) := by
    intro s t st h1 h2
    have hcase : ∀ (d : Nat) (x : ShPc), (d = c → (x ≠ .listening ∧ x ≠ .listenerExit) ∧ x.togo < (s.shuts c).togo) →
        (upd s.shuts d x c ≠ .listening ∧ upd s.shuts d x c ≠ .listenerExit) ∧
        (upd s.shuts d x c ≠ s.shuts c → (upd s.shuts d x c).togo < (s.shuts c).togo) := by
      intro d x hd
      by_cases h : c = d
      · subst h; rw [upd_same]; exact ⟨(hd rfl).1, fun _ => (hd rfl).2⟩
      · rw [upd_ne _ _ h]; exact ⟨⟨h1, h2⟩, fun h => absurd rfl h⟩
    cases st with
    | listenCancel d hd hx0 hx => exact hcase d _ (by rintro rfl; exact absurd hx0 h1)
    | listenExit d hd hx0 hx => exact hcase d _ (by rintro rfl; exact absurd hx0 h1)
    | shCheck d hd hx0 hx => exact hcase d _ (by rintro rfl; rw [hx0]; simp [ShPc.togo])
    | shSkip d hd hx0 hx => exact hcase d _ (by rintro rfl; rw [hx0]; simp [ShPc.togo])
    | shStore d hd hx0 => exact hcase d _ (by rintro rfl; rw [hx0]; simp [ShPc.togo])
    | shClose d hd hx0 hx => exact hcase d _ (by rintro rfl; rw [hx0]; simp [ShPc.togo])
    | shPanic d hd hx0 hx => exact hcase d _ (by rintro rfl; rw [hx0]; simp [ShPc.togo])
    | shTimeout d hd hx0 => exact hcase d _ (by rintro rfl; rw [hx0]; simp [ShPc.togo])
    | shFinish d hd hx0 hx => exact hcase d _ (by rintro rfl; rw [hx0]; simp [ShPc.togo])
    | shFinal d b hd hx0 => exact hcase d _ (by rintro rfl; rw [hx0]; simp [ShPc.togo])
    | _ => exact ⟨⟨h1, h2⟩, fun h => absurd rfl h⟩
  have reg : ∀ i, k ≤ i → (e i).shuts c ≠ .listening ∧ (e i).shuts c ≠ .listenerExit := fun i hi =>
    r.stays (fun s => s.shuts c ≠ .listening ∧ s.shuts c ≠ .listenerExit) (fun j hj st => (hstep st hj.1 hj.2).1) hi ⟨hc, hc2⟩
  refine eventually (fun i => (e i).shuts c) (fun i => ((e i).shuts c).togo) (fun i => ((e i).shuts c).over = true) k ?_ ?_
  · intro i hi _
    right
    rcases r.next i with h | h
    · rw [h]; exact ⟨Nat.le_refl _, fun h => absurd rfl h⟩
    · have := (hstep h (reg i hi).1 (reg i hi).2).2
      by_cases he : (e (i + 1)).shuts c = (e i).shuts c
      · rw [he]; exact ⟨Nat.le_refl _, fun h => absurd rfl h⟩
      · exact ⟨Nat.le_of_lt (this he), fun _ => this he⟩
  · intro i hi hno
    refine sched.moves (fun s => s.shuts c) (fun s t h => h.2) i _ ?_
    intro j hij hov _
    have hne : ∀ x, (e j).shuts c ≠ x → upd (e j).shuts c x c ≠ (e j).shuts c := by
      intro x hx; rw [upd_same]; exact fun h => hx h.symm
    cases hs : (e j).shuts c with
    | listening => exact absurd hs (reg j (by omega)).1
    | listenerExit => exact absurd hs (reg j (by omega)).2
    | returned x => rw [hs] at hov; exact absurd rfl hov
    | panicked => rw [hs] at hov; exact absurd rfl hov
    | check =>
      by_cases hst : (e j).status = .running
      · exact ⟨_, .shCheck c (live j) hs hst, by rw [← hs]; exact hne _ (by rw [hs]; simp)⟩
      · exact ⟨_, .shSkip c (live j) hs hst, by rw [← hs]; exact hne _ (by rw [hs]; simp)⟩
    | store => exact ⟨_, .shStore c (live j) hs, by rw [← hs]; exact hne _ (by rw [hs]; simp)⟩
    | close =>
      cases hcl : (e j).closed with
      | false => exact ⟨_, .shClose c (live j) hs hcl, by rw [← hs]; exact hne _ (by rw [hs]; simp)⟩
      | true => exact ⟨_, .shPanic c (live j) hs hcl, by rw [← hs]; exact hne _ (by rw [hs]; simp)⟩
    | wait => exact ⟨_, .shTimeout c (live j) hs, by rw [← hs]; exact hne _ (by rw [hs]; simp)⟩
    | final b => exact ⟨_, .shFinal c b (live j) hs, by rw [← hs]; exact hne _ (by rw [hs]; simp)⟩

/-! A run that meets the hypotheses: a pool of one worker, one task is submitted, executed and returns; then
nothing happens any more. -/

/-- the states of that run -/
def liveDemo : Nat → WpSt
  | 0 => wp0 1
  | 1 => { wp0 1 with subs := upd (wp0 1).subs 7 .sending }
  | 2 => { wp0 1 with subs := upd (upd (wp0 1).subs 7 .sending) 7 .sent, queue := [7], submitted := [7] }
  | 3 => { wp0 1 with subs := upd (upd (wp0 1).subs 7 .sending) 7 .sent, queue := [7], submitted := [7], workers := [.recv] }
  | 4 => { wp0 1 with subs := upd (upd (wp0 1).subs 7 .sending) 7 .sent, submitted := [7], started := [7], workers := [.running 7] }
  | 5 => { wp0 1 with subs := upd (upd (wp0 1).subs 7 .sending) 7 .sent, submitted := [7], started := [7], finished := [7], workers := [.select] }
  | _ => { wp0 1 with subs := upd (upd (wp0 1).subs 7 .sending) 7 .sent, submitted := [7], started := [7], finished := [7], workers := [.recv] }

theorem liveDemo_run : Run (WpInit 1) (WpStep 1) liveDemo := by
  refine ⟨wp0_init 1, fun i => ?_⟩
  match i with
  | 0 => exact .inr (.subCheck 7 rfl rfl rfl)
  | 1 => exact .inr (WpStep.subSend (s := liveDemo 1) 7 rfl rfl (by decide))
  | 2 => exact .inr (WpStep.select (s := liveDemo 2) 0 rfl rfl)
  | 3 => exact .inr (WpStep.recv (s := liveDemo 3) 0 7 [] rfl rfl rfl)
  | 4 => exact .inr (WpStep.taskDone (s := liveDemo 4) 0 7 rfl rfl)
  | 5 => exact .inr (WpStep.select (s := liveDemo 5) 0 rfl rfl)
  | i + 6 => exact .inl rfl

theorem liveDemo_sched : WorkerScheduled 1 liveDemo 0 := by
  intro i h
  obtain ⟨t, ⟨st, hne⟩, -⟩ := h (i + 6) (by omega)
  exfalso
  have hw : (liveDemo (i + 6)).workers = [.recv] := rfl
  have hq : (liveDemo (i + 6)).queue = [] := rfl
  cases st with
  | select k hd hk => rw [hw] at hk; cases k <;> simp at hk
  | recv k t q hd hk h' => rw [hq] at h'; cases h'
  | taskDone k t hd hk => rw [hw] at hk; cases k <;> simp at hk
  | wgDone k hd hk => rw [hw] at hk; cases k <;> simp at hk
  | _ => exact hne rfl

theorem liveDemo_returns : TasksReturn liveDemo 0 := by
  intro k t _
  exact ⟨k + 6, by omega, by show (some WPc.recv : Option WPc) ≠ _; simp⟩

/-- Non-vacuity: in this run task 7 is submitted at moment 2 and the theorem says that it is finished. -/
example : ∃ j, 2 ≤ j ∧ 7 ∈ (liveDemo j).finished :=
  C85_finished (size := 1) liveDemo_run (by intro i; match i with | 0 => rfl | 1 => rfl | 2 => rfl | 3 => rfl | 4 => rfl | 5 => rfl | i + 6 => rfl)
    (by decide) (by intro w hw; have : w = 0 := by omega
                    subst this; exact liveDemo_sched)
    (by intro w hw; have : w = 0 := by omega
        subst this; exact liveDemo_returns) (k := 2) (c := 7) (by decide)

/-- Non-vacuity of `C85_submit`: the call number 7 is at its send at moment 1. -/
example : ∃ j, 1 ≤ j ∧ (liveDemo j).subs 7 = .sent :=
  C85_submit (size := 1) liveDemo_run (by intro i; match i with | 0 => rfl | 1 => rfl | 2 => rfl | 3 => rfl | 4 => rfl | 5 => rfl | i + 6 => rfl)
    (w := 0) (by decide) liveDemo_sched liveDemo_returns (c := 7)
    (by
      intro i h
      obtain ⟨j, hj, t, -, h1, -⟩ := h (i + 6) (by omega)
      obtain ⟨d, rfl⟩ := Nat.exists_eq_add_of_le hj
      have : (liveDemo (i + 6 + d)) = liveDemo (i + d + 6) := by congr 1; omega
      rw [this] at h1
      exact absurd (show (liveDemo (i + d + 6)).subs 7 = .sent from rfl) (by rw [h1]; decide)) (k := 1) rfl

/-- Non-vacuity of `C85_shutdown`: a call of `Shutdown` on an idle pool, which gives up waiting for the workers. -/
def shutDemo : Nat → WpSt
  | 0 => wp0 1
  | 1 => { wp0 1 with shuts := upd (wp0 1).shuts 3 .store }
  | 2 => { wp0 1 with shuts := upd (upd (wp0 1).shuts 3 .store) 3 .close, status := .shutdowning }
  | 3 => { wp0 1 with shuts := upd (upd (upd (wp0 1).shuts 3 .store) 3 .close) 3 .wait, status := .shutdowning, closed := true }
  | 4 => { wp0 1 with shuts := upd (upd (upd (upd (wp0 1).shuts 3 .store) 3 .close) 3 .wait) 3 (.final true), status := .shutdowning, closed := true }
  | _ => { wp0 1 with shuts := upd (upd (upd (upd (upd (wp0 1).shuts 3 .store) 3 .close) 3 .wait) 3 (.final true)) 3 (.returned (some true)),
                      status := .shutdowned, closed := true }

example : ∃ j, 0 ≤ j ∧ ((shutDemo j).shuts 3).over = true := by
  refine C85_shutdown (size := 1) (e := shutDemo) ⟨wp0_init 1, fun i => ?_⟩ ?_ ?_ (k := 0) (by decide) (by decide)
  · match i with
    | 0 => exact .inr (WpStep.shCheck (s := shutDemo 0) 3 rfl rfl rfl)
    | 1 => exact .inr (WpStep.shStore (s := shutDemo 1) 3 rfl rfl)
    | 2 => exact .inr (WpStep.shClose (s := shutDemo 2) 3 rfl rfl rfl)
    | 3 => exact .inr (WpStep.shTimeout (s := shutDemo 3) 3 rfl rfl)
    | 4 => exact .inr (WpStep.shFinal (s := shutDemo 4) 3 true rfl rfl)
    | i + 5 => exact .inl rfl
  · intro i; match i with | 0 => rfl | 1 => rfl | 2 => rfl | 3 => rfl | 4 => rfl | i + 5 => rfl
  · intro i h
    obtain ⟨t, st, hne⟩ := h (i + 5) (by omega)
    exfalso
    have h3 : (shutDemo (i + 5)).shuts 3 = .returned (some true) := rfl
    have hcase : ∀ (d : Nat) (x y : ShPc), (shutDemo (i + 5)).shuts d = y → y ≠ .returned (some true) →
        upd (shutDemo (i + 5)).shuts d x 3 = (shutDemo (i + 5)).shuts 3 := by
      intro d x y hy hyn
      refine upd_ne _ _ ?_
      rintro rfl
      exact hyn (hy.symm.trans h3)
    cases st with
    | listenCancel d hd hx0 hx => exact hne (hcase d _ _ hx0 (by simp))
    | listenExit d hd hx0 hx => exact hne (hcase d _ _ hx0 (by simp))
    | shCheck d hd hx0 hx => exact hne (hcase d _ _ hx0 (by simp))
    | shSkip d hd hx0 hx => exact hne (hcase d _ _ hx0 (by simp))
    | shStore d hd hx0 => exact hne (hcase d _ _ hx0 (by simp))
    | shClose d hd hx0 hx => exact hne (hcase d _ _ hx0 (by simp))
    | shPanic d hd hx0 hx => exact hne (hcase d _ _ hx0 (by simp))
    | shTimeout d hd hx0 => exact hne (hcase d _ _ hx0 (by simp))
    | shFinish d hd hx0 hx => exact hne (hcase d _ _ hx0 (by simp))
    | shFinal d b hd hx0 => exact hne (hcase d _ _ hx0 (by simp))
    | _ => exact hne rfl

/-- Without the assumption that tasks return the conclusion fails: in a pool of one worker whose first task never returns, a second task that
has been submitted is never started, although the scheduler is fair to everybody. -/
def stuckDemo : Nat → WpSt
  | 0 => wp0 1
  | 1 => { wp0 1 with subs := upd (wp0 1).subs 7 .sending }
  | 2 => { wp0 1 with subs := upd (upd (wp0 1).subs 7 .sending) 7 .sent, queue := [7], submitted := [7] }
  | 3 => { wp0 1 with subs := upd (upd (wp0 1).subs 7 .sending) 7 .sent, queue := [7], submitted := [7], workers := [.recv] }
  | 4 => { wp0 1 with subs := upd (upd (wp0 1).subs 7 .sending) 7 .sent, submitted := [7], started := [7], workers := [.running 7] }
  | 5 => { wp0 1 with subs := upd (upd (upd (wp0 1).subs 7 .sending) 7 .sent) 8 .sending, submitted := [7], started := [7], workers := [.running 7] }
  | _ => { wp0 1 with subs := upd (upd (upd (upd (wp0 1).subs 7 .sending) 7 .sent) 8 .sending) 8 .sent, queue := [8], submitted := [7, 8],
                      started := [7], workers := [.running 7] }

theorem C85_needs_return : Run (WpInit 1) (WpStep 1) stuckDemo ∧ WorkerScheduled 1 stuckDemo 0 ∧ (∀ i, 6 ≤ i → 8 ∈ (stuckDemo i).submitted) ∧
    ∀ i, 8 ∉ (stuckDemo i).started := by
  refine ⟨⟨wp0_init 1, fun i => ?_⟩, ?_, ?_, ?_⟩
  · match i with
    | 0 => exact .inr (.subCheck 7 rfl rfl rfl)
    | 1 => exact .inr (WpStep.subSend (s := stuckDemo 1) 7 rfl rfl (by decide))
    | 2 => exact .inr (WpStep.select (s := stuckDemo 2) 0 rfl rfl)
    | 3 => exact .inr (WpStep.recv (s := stuckDemo 3) 0 7 [] rfl rfl rfl)
    | 4 => exact .inr (WpStep.subCheck (s := stuckDemo 4) 8 rfl rfl rfl)
    | 5 => exact .inr (WpStep.subSend (s := stuckDemo 5) 8 rfl rfl (by decide))
    | i + 6 => exact .inl rfl
  · intro i h
    obtain ⟨t, -, hn⟩ := h (i + 6) (by omega)
    exact absurd ⟨7, rfl⟩ hn
  · intro i hi
    match i, hi with
    | i + 6, _ => show 8 ∈ [7, 8]; decide
  · intro i
    match i with
    | 0 => decide
    | 1 => decide
    | 2 => decide
    | 3 => decide
    | 4 => decide
    | 5 => decide
    | i + 6 => show 8 ∉ [7]; decide

end P2P

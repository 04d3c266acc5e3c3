import Verif.Props.WorkPoolLive
import Verif.Props.PipelineDht
import Verif.Props.HashLog
import Verif.Props.PipelineNV
/-! # C86: under a fair scheduler the crawler handles every packet and downloads every announced torrent

`C62_all_done` speaks about moments at which nothing but an arrival can happen. Here packets may go on arriving for ever. -/
namespace P2P

/-! ## A goroutine that forwards from a channel to a pool -/

/-- How a forwarding goroutine, the state of its calls of `AsyncSubmit` and the number `a` of items it has taken change together. -/
inductive FwdMove (a a' : Nat) : FwdPc → FwdPc → (Nat → SubPc) → (Nat → SubPc) → Prop where
  | same {f sub} : a' = a → FwdMove a a' f f sub sub
  | take {p sub} : a' = a + 1 → FwdMove a a' .recv (.hold p) sub sub
  | check {p sub} : sub p = .start → a' = a → FwdMove a a' (.hold p) (.hold p) sub (upd sub p .sending)
  | send {p sub} : sub p = .sending → a' = a → FwdMove a a' (.hold p) .recv sub (upd sub p .sent)

/-- what is left to do with the item in hand -/
def FwdPc.rank : FwdPc → (Nat → SubPc) → Nat
  | .recv, _ => 0
  | .hold p, sub => if sub p = .sending then 1 else 2

theorem fwd_drains (a : Nat → Nat) (f : Nat → FwdPc) (sub : Nat → Nat → SubPc) (n i0 : Nat)
    (step : ∀ i, i0 ≤ i → FwdMove (a i) (a (i + 1)) (f i) (f (i + 1)) (sub i) (sub (i + 1)))
    (moves : ∀ i, i0 ≤ i → ¬ n < a i → ∃ j, i ≤ j ∧ (n < a j ∨ (f j, sub j) ≠ (f i, sub i))) : ∃ j, i0 ≤ j ∧ n < a j := by
  refine eventually (fun i => (f i, sub i)) (fun i => 3 * (n + 1 - a i) + (f i).rank (sub i)) (fun i => n < a i) i0 ?_ moves
  intro i hi hn
  have st := step i hi
  by_cases hn' : n < a (i + 1)
  · exact .inl hn'
  right
  show 3 * (n + 1 - a (i + 1)) + (f (i + 1)).rank (sub (i + 1)) ≤ 3 * (n + 1 - a i) + (f i).rank (sub i) ∧
    ((f (i + 1), sub (i + 1)) ≠ (f i, sub i) → 3 * (n + 1 - a (i + 1)) + (f (i + 1)).rank (sub (i + 1)) < 3 * (n + 1 - a i) + (f i).rank (sub i))
  generalize f i = fi at *
  generalize f (i + 1) = fi' at *
  generalize sub i = si at *
  generalize sub (i + 1) = si' at *
  cases st with
  | same h => rw [h]; exact ⟨Nat.le_refl _, fun h => absurd rfl h⟩
  | take h => simp only [FwdPc.rank]; split <;> omega
  | check h1 h => simp only [FwdPc.rank, upd_same, h1]; simp; omega
  | send h1 h => simp only [FwdPc.rank, h1]; simp; omega

theorem fwd_returns (a : Nat → Nat) (f : Nat → FwdPc) (sub : Nat → Nat → SubPc) (i0 : Nat)
    (step : ∀ i, i0 ≤ i → FwdMove (a i) (a (i + 1)) (f i) (f (i + 1)) (sub i) (sub (i + 1)))
    (moves : ∀ i, i0 ≤ i → f i ≠ .recv → ∃ j, i ≤ j ∧ (f j = .recv ∨ (f j, sub j) ≠ (f i, sub i))) : ∃ j, i0 ≤ j ∧ f j = .recv := by
  refine eventually (fun i => (f i, sub i)) (fun i => (f i).rank (sub i)) (fun i => f i = .recv) i0 ?_ moves
  intro i hi hn
  have st := step i hi
  by_cases hn' : f (i + 1) = .recv
  · exact .inl hn'
  right
  show (f (i + 1)).rank (sub (i + 1)) ≤ (f i).rank (sub i) ∧
    ((f (i + 1), sub (i + 1)) ≠ (f i, sub i) → (f (i + 1)).rank (sub (i + 1)) < (f i).rank (sub i))
  generalize f i = fi at *
  generalize f (i + 1) = fi' at *
  generalize sub i = si at *
  generalize sub (i + 1) = si' at *
  cases st with
  | same h => exact ⟨Nat.le_refl _, fun h => absurd rfl h⟩
  | take h => exact absurd rfl hn
  | check h1 h => simp only [FwdPc.rank, upd_same, h1]; simp
  | send h1 h => exact absurd rfl hn'

/-- A weakly fair goroutine that waits for something (`room`) moves, if there is room again and again and room stays as long as the goroutine does
not move. -/
theorem WeaklyFair.moves_room {S X : Type} {e : Nat → S} {A : S → S → Prop} (h : WeaklyFair e A) (obs : S → X)
    (hA : ∀ s t, A s t → obs t ≠ obs s) (i : Nat) (room : Nat → Prop)
    (stay : ∀ j, room j → obs (e (j + 1)) = obs (e j) → room (j + 1)) (again : ∀ k, ∃ j, k ≤ j ∧ room j)
    (en : ∀ j, i ≤ j → obs (e j) = obs (e i) → room j → ∃ t, A (e j) t) : ∃ j, i ≤ j ∧ obs (e j) ≠ obs (e i) := by
  apply Classical.byContradiction
  intro hno
  have hsame : ∀ j, i ≤ j → obs (e j) = obs (e i) := fun j hj => Classical.byContradiction fun hne => hno ⟨j, hj, hne⟩
  obtain ⟨k, hk, hroom⟩ := again i
  have hr : ∀ d, room (k + d) := by
    intro d
    induction d with
    | zero => exact hroom
    | succ d ih => exact stay (k + d) ih (by rw [hsame (k + d + 1) (by omega), hsame (k + d) (by omega)])
  obtain ⟨j, hj, ha⟩ := h k fun j hj => by
    obtain ⟨d, rfl⟩ := Nat.exists_eq_add_of_le hj
    exact en _ (by omega) (hsame _ (by omega)) (hr d)
  have := hA _ _ ha
  rw [hsame _ (by omega), hsame j (by omega)] at this
  exact this rfl

/-! ## Views of a step of the pipeline -/

theorem pl_pool1 {tr : Nat → List Event} {W1 Q W2 : Nat} {s t : PlSt} (I : PlInv tr W1 Q W2 s) (st : PlStep tr W1 Q W2 s t) :
    t.p1 = s.p1 ∨ WpStep W1 s.p1 t.p1 := by
  cases st with
  | listenCheck p hl hs hr => exact .inr (.subCheck p I.ok1.1 hs hr)
  | listenSend p hl hs hq => exact .inr (.subSend p I.ok1.1 hs hq)
  | select1 i hw => exact .inr (.select i I.ok1.1 hw)
  | recv1 i p q hw hq => exact .inr (.recv i p q I.ok1.1 hw hq)
  | done1 i p hw hh => exact .inr (.taskDone i p I.ok1.1 hw)
  | _ => exact .inl rfl

theorem pl_pool2 {tr : Nat → List Event} {W1 Q W2 : Nat} {s t : PlSt} (I : PlInv tr W1 Q W2 s) (st : PlStep tr W1 Q W2 s t) :
    t.p2 = s.p2 ∨ WpStep W2 s.p2 t.p2 := by
  cases st with
  | fetchCheck p hl hs hr => exact .inr (.subCheck p I.ok2.1 hs hr)
  | fetchSend p hl hs hq => exact .inr (.subSend p I.ok2.1 hs hq)
  | select2 i hw => exact .inr (.select i I.ok2.1 hw)
  | recv2 i p q hw hq => exact .inr (.recv i p q I.ok2.1 hw hq)
  | done2 i p hw => exact .inr (.taskDone i p I.ok2.1 hw)
  | _ => exact .inl rfl

/-- number of packets the goroutine of `Listen` has taken -/
def PlSt.taken1 (s : PlSt) : Nat := s.arrived - s.recvq.length

/-- number of jobs the goroutine of `fetchTorrent` has taken -/
def PlSt.taken2 (s : PlSt) : Nat := s.accepted.length - s.jobs.length

theorem pl_len1 {tr : Nat → List Event} {W1 Q W2 : Nat} {s : PlSt} (I : PlInv tr W1 Q W2 s) :
    s.arrived = s.p1.submitted.length + s.l.item.length + s.recvq.length := by
  have := congrArg List.length I.in1
  simpa [Nat.add_assoc] using this

theorem pl_len2 {tr : Nat → List Event} {W1 Q W2 : Nat} {s : PlSt} (I : PlInv tr W1 Q W2 s) :
    s.accepted.length = s.p2.submitted.length + s.f.item.length + s.jobs.length := by
  have := congrArg List.length I.in2
  simpa [Nat.add_assoc] using this

theorem pl_fwd1 {tr : Nat → List Event} {W1 Q W2 : Nat} {s t : PlSt} (I : PlInv tr W1 Q W2 s) (st : PlStep tr W1 Q W2 s t) :
    FwdMove s.taken1 t.taken1 s.l t.l s.p1.subs t.p1.subs := by
  have hlen := pl_len1 I
  cases st with
  | arrive hr => exact .same (by simp only [PlSt.taken1, List.length_append, List.length_cons, List.length_nil]; omega)
  | listenTake p q hl hq =>
    rw [hl]
    refine .take ?_
    simp only [PlSt.taken1, hq, List.length_cons] at hlen ⊢
    omega
  | listenCheck p hl hs hr => simp only [hl]; exact .check hs rfl
  | listenSend p hl hs hr => simp only [hl]; exact .send hs rfl
  | _ => exact .same rfl

theorem pl_fwd2 {tr : Nat → List Event} {W1 Q W2 : Nat} {s t : PlSt} (I : PlInv tr W1 Q W2 s) (st : PlStep tr W1 Q W2 s t) :
    FwdMove s.taken2 t.taken2 s.f t.f s.p2.subs t.p2.subs := by
  have hlen := pl_len2 I
  cases st with
  | enqueue i p j hw he hq => exact .same (by simp only [PlSt.taken2, List.length_append, List.length_cons, List.length_nil]; omega)
  | handoff i p j hw he hq hf =>
    rw [hf]
    refine .take ?_
    simp only [PlSt.taken2, hq, List.length_append, List.length_cons, List.length_nil]
    omega
  | fetchTake p q hf hq =>
    rw [hf]
    refine .take ?_
    simp only [PlSt.taken2, hq, List.length_cons] at hlen ⊢
    omega
  | fetchCheck p hl hs hr => simp only [hl]; exact .check hs rfl
  | fetchSend p hl hs hr => simp only [hl]; exact .send hs rfl
  | _ => exact .same rfl

/-! ## Fair executions of the pipeline -/

/-- The goroutine of `Listen` takes a step. -/
def ListenMoves (tr : Nat → List Event) (W1 Q W2 : Nat) (s t : PlSt) : Prop :=
  PlStep tr W1 Q W2 s t ∧ (t.l, t.p1.subs) ≠ (s.l, s.p1.subs)

/-- The goroutine of `fetchTorrent` takes a step (of its own, or because a handler hands it a job). -/
def FetchMoves (tr : Nat → List Event) (W1 Q W2 : Nat) (s t : PlSt) : Prop :=
  PlStep tr W1 Q W2 s t ∧ (t.f, t.p2.subs) ≠ (s.f, s.p2.subs)

/-- The packet handler running on worker `w` takes a step. -/
def HandlerMoves (tr : Nat → List Event) (W1 Q W2 w : Nat) (s t : PlSt) : Prop :=
  PlStep tr W1 Q W2 s t ∧ ∃ p, s.p1.workers[w]? = some (.running p) ∧ (t.p1.workers[w]?, t.hdl p) ≠ (s.p1.workers[w]?, s.hdl p)

/-- A fair execution: nobody who can go on is forgotten; a handler that waits for a place in the queue of the downloads is not overtaken for ever
(Go serves the goroutines blocked on a channel in the order in which they came); and at least one worker of the downloads always returns from its
downloads (C59, C75: a download ends when its reads fail; C76: a peer that never reads can keep a worker for ever, so one uncaptured worker is assumed). -/
structure FairCrawl (tr : Nat → List Event) (W1 Q W2 : Nat) (e : Nat → PlSt) : Prop where
  run : Run (PlInit W1 W2) (PlStep tr W1 Q W2) e
  listen : WeaklyFair e (ListenMoves tr W1 Q W2)
  fetch : WeaklyFair e (FetchMoves tr W1 Q W2)
  worker1 : ∀ w, w < W1 → WorkerScheduled W1 (fun i => (e i).p1) w
  handler : ∀ w, w < W1 → StronglyFair e (HandlerMoves tr W1 Q W2 w)
  worker2 : ∃ w, w < W2 ∧ WorkerScheduled W2 (fun i => (e i).p2) w ∧ TasksReturn (fun i => (e i).p2) w

section
variable {tr : Nat → List Event} {W1 Q W2 : Nat} {e : Nat → PlSt}

theorem FairCrawl.inv (F : FairCrawl tr W1 Q W2 e) (i : Nat) : PlInv tr W1 Q W2 (e i) := pl_inv (F.run.reach i)

theorem FairCrawl.run1 (F : FairCrawl tr W1 Q W2 e) : Run (WpInit W1) (WpStep W1) (fun i => (e i).p1) :=
  ⟨F.run.start.2.2.2.1, fun i => by
    rcases F.run.next i with h | h
    · exact .inl (by rw [h])
    · exact pl_pool1 (F.inv i) h⟩

theorem FairCrawl.run2 (F : FairCrawl tr W1 Q W2 e) : Run (WpInit W2) (WpStep W2) (fun i => (e i).p2) :=
  ⟨F.run.start.2.2.2.2.2.2.2.1, fun i => by
    rcases F.run.next i with h | h
    · exact .inl (by rw [h])
    · exact pl_pool2 (F.inv i) h⟩

theorem FairCrawl.fwd1 (F : FairCrawl tr W1 Q W2 e) (i : Nat) :
    FwdMove (e i).taken1 (e (i + 1)).taken1 (e i).l (e (i + 1)).l (e i).p1.subs (e (i + 1)).p1.subs := by
  rcases F.run.next i with h | h
  · rw [h]; exact .same rfl
  · exact pl_fwd1 (F.inv i) h

theorem FairCrawl.fwd2 (F : FairCrawl tr W1 Q W2 e) (i : Nat) :
    FwdMove (e i).taken2 (e (i + 1)).taken2 (e i).f (e (i + 1)).f (e i).p2.subs (e (i + 1)).p2.subs := by
  rcases F.run.next i with h | h
  · rw [h]; exact .same rfl
  · exact pl_fwd2 (F.inv i) h

/-- The goroutine of `fetchTorrent` gets rid of a job in its hands. -/
theorem FairCrawl.fetch_hold (F : FairCrawl tr W1 Q W2 e) (h1 : SingleEnqueue tr) (i p : Nat) (hf : (e i).f = .hold p) :
    ∃ j, i ≤ j ∧ ((e j).f, (e j).p2.subs) ≠ ((e i).f, (e i).p2.subs) := by
  obtain ⟨w, hw, sched, ret⟩ := F.worker2
  have live : ∀ i, (e i).p2.dead = false := fun i => (F.inv i).ok2.1
  refine F.fetch.moves_room (fun s => (s.f, s.p2.subs)) (fun s t h => h.2) i (fun j => (e j).p2.queue.length < W2) ?_
    (fun k => wp_room_again F.run2 live hw sched ret k) ?_
  · intro j hroom hobs
    simp only [Prod.mk.injEq] at hobs
    rcases F.run.next j with h | h
    · rw [h]; exact hroom
    · generalize e (j + 1) = t at h hobs
      show t.p2.queue.length < W2
      cases h with
      | fetchSend p hl hs hr => rw [hl] at hobs; simp at hobs
      | recv2 k p q hk hq => rw [hq] at hroom; simp at hroom ⊢; omega
      | _ => exact hroom
  · intro j hj hobs hroom
    simp only [Prod.mk.injEq] at hobs
    have I := F.inv j
    have hfj : (e j).f = .hold p := hobs.1.trans hf
    have hns : (e j).p2.subs p ≠ .sent := by
      refine fun hsent => absurd (((wp_inv I.reach2).sent p).2 hsent) ?_
      have nd := (C62_once (F.run.reach j) h1).1
      rw [I.in2, hfj] at nd
      simp only [FwdPc.item, List.append_assoc] at nd
      rw [List.nodup_append] at nd
      intro hm
      exact nd.2.2 p hm p (by simp) rfl
    cases hs : (e j).p2.subs p with
    | start =>
      refine ⟨_, .fetchCheck p hfj hs I.ok2.2.1, ?_⟩
      intro h
      simp only [Prod.mk.injEq] at h
      have := congrFun h.2 p
      rw [upd_same, hs] at this; cases this
    | sending =>
      refine ⟨_, .fetchSend p hfj hs hroom, ?_⟩
      intro h
      simp only [Prod.mk.injEq] at h
      rw [hfj] at h; cases h.1
    | sent => exact absurd hs hns
    | panicked => exact absurd hs (I.ok2.2.2 p)

/-- The goroutine of `fetchTorrent` comes back to its receive again and again. -/
theorem FairCrawl.fetch_back (F : FairCrawl tr W1 Q W2 e) (h1 : SingleEnqueue tr) (i : Nat) : ∃ j, i ≤ j ∧ (e j).f = .recv := by
  refine fwd_returns (fun i => (e i).taken2) (fun i => (e i).f) (fun i => (e i).p2.subs) i (fun j _ => F.fwd2 j) ?_
  intro j hj hf
  cases h : (e j).f with
  | recv => exact absurd h hf
  | hold p =>
    obtain ⟨m, hm, hne⟩ := F.fetch_hold h1 j p h
    exact ⟨m, hm, .inr (by rw [← h]; exact hne)⟩

theorem FairCrawl.accepted_grows (F : FairCrawl tr W1 Q W2 e) {i j : Nat} (hij : i ≤ j) : ∃ l, (e j).accepted = (e i).accepted ++ l := by
  refine F.run.stays (fun s => ∃ l, s.accepted = (e i).accepted ++ l) ?_ hij ⟨[], (List.append_nil _).symm⟩
  rintro k ⟨l, hl⟩ st
  generalize e (k + 1) = t at st
  cases st with
  | enqueue w p j hw he hq => exact ⟨l ++ [p], by show (e k).accepted ++ [p] = _; rw [hl, List.append_assoc]⟩
  | handoff w p j hw he hq hf => exact ⟨l ++ [p], by show (e k).accepted ++ [p] = _; rw [hl, List.append_assoc]⟩
  | _ => exact ⟨l, hl⟩

/-- Every accepted job is taken from the queue. -/
theorem FairCrawl.fetch_takes (F : FairCrawl tr W1 Q W2 e) (h1 : SingleEnqueue tr) (n i : Nat) (hn : n < (e i).accepted.length) :
    ∃ j, i ≤ j ∧ n < (e j).taken2 := by
  refine fwd_drains (fun i => (e i).taken2) (fun i => (e i).f) (fun i => (e i).p2.subs) n i (fun j _ => F.fwd2 j) ?_
  intro j hj hnj
  cases h : (e j).f with
  | hold p =>
    obtain ⟨m, hm, hne⟩ := F.fetch_hold h1 j p h
    exact ⟨m, hm, .inr (by rw [← h]; exact hne)⟩
  | recv =>
    have := F.fetch.moves (fun s => (s.f, s.p2.subs)) (fun s t h => h.2) j (fun j => n < (e j).taken2) (by
      intro m hm hnm hobs
      simp only [Prod.mk.injEq] at hobs
      obtain ⟨l, hl⟩ := F.accepted_grows (by omega : i ≤ m)
      have hlen := congrArg List.length hl
      rw [List.length_append] at hlen
      have hfm : (e m).f = .recv := hobs.1.trans h
      cases hq : (e m).jobs with
      | nil => simp only [PlSt.taken2, hq, List.length_nil] at hnm; omega
      | cons p q =>
        refine ⟨_, .fetchTake p q hfm hq, ?_⟩
        intro h
        simp only [Prod.mk.injEq] at h
        rw [hfm] at h; cases h.1)
    simp only [h] at this ⊢
    exact this

/-- A handler that wants to enqueue gets the opportunity again and again: there is room in the queue, or the receiver is waiting. -/
theorem FairCrawl.jobs_room (F : FairCrawl tr W1 Q W2 e) (h1 : SingleEnqueue tr) (i : Nat) :
    ∃ j, i ≤ j ∧ ((e j).jobs.length < Q ∨ ((e j).jobs = [] ∧ (e j).f = .recv)) := by
  by_cases hQ : Q = 0
  · obtain ⟨j, hj, hf⟩ := F.fetch_back h1 i
    refine ⟨j, hj, .inr ⟨?_, hf⟩⟩
    have := (F.inv j).room
    rw [hQ] at this
    exact List.length_eq_zero_iff.1 (by omega)
  · by_cases hi : (e i).jobs.length < Q
    · exact ⟨i, Nat.le_refl i, .inl hi⟩
    · have hlen := pl_len2 (F.inv i)
      have hnt : ¬ (e i).taken2 < (e i).taken2 := Nat.lt_irrefl _
      obtain ⟨j, hj, ht⟩ := F.fetch_takes h1 (e i).taken2 i (by simp only [PlSt.taken2]; omega)
      obtain ⟨m, hm, -, hm1, hm2⟩ := becomes (P := fun j => (e i).taken2 < (e j).taken2) hj hnt ht
      refine ⟨m + 1, by omega, .inl ?_⟩
      have hroom := (F.inv m).room
      have hlm := pl_len2 (F.inv m)
      have hgrow : (e m).taken2 < (e (m + 1)).taken2 := by omega
      rcases F.run.next m with h | h
      · rw [h] at hgrow; omega
      · generalize e (m + 1) = t at h hgrow
        simp only [PlSt.taken2] at hgrow
        cases h with
        | enqueue w p j hw he hq => simp at hgrow
        | handoff w p j hw he hq hf => simp only [hq, List.length_nil]; omega
        | fetchTake p q hf hq => simp only [hq, List.length_cons] at hroom; simp only; omega
        | _ => exact absurd hgrow (Nat.lt_irrefl _)

/-- Every packet handler comes to its end. -/
theorem FairCrawl.handlers_return (F : FairCrawl tr W1 Q W2 e) (h1 : SingleEnqueue tr) {w : Nat} (hw : w < W1) :
    TasksReturn (fun i => (e i).p1) w := by
  intro k p hk
  have hk : (e k).p1.workers[w]? = some (.running p) := hk
  refine eventually (fun i => ((e i).p1.workers[w]?, (e i).hdl p)) (fun i => (tr p).length - (e i).hdl p)
    (fun i => (e i).p1.workers[w]? ≠ some (.running p)) k ?_ ?_
  · intro i hi hrun
    have hrun : (e i).p1.workers[w]? = some (.running p) := Classical.byContradiction hrun
    by_cases hw' : (e (i + 1)).p1.workers[w]? = some (.running p)
    · right
      have hle := (F.inv (i + 1)).hdl p
      have hmono : (e (i + 1)).hdl p = (e i).hdl p ∨ (e (i + 1)).hdl p = (e i).hdl p + 1 := by
        rcases F.run.next i with h | h
        · rw [h]; exact .inl rfl
        · have hup : ∀ q, upd (e i).hdl q ((e i).hdl q + 1) p = (e i).hdl p ∨ upd (e i).hdl q ((e i).hdl q + 1) p = (e i).hdl p + 1 := by
            intro q
            by_cases hq : p = q
            · subst hq; exact .inr (upd_same _ _ _)
            · exact .inl (upd_ne _ _ hq)
          generalize e (i + 1) = t at h
          cases h with
          | handle x q ev hx he hn => exact hup q
          | enqueue x q j hx he hq => exact hup q
          | handoff x q j hx he hq hf => exact hup q
          | _ => exact .inl rfl
      simp only [hrun, hw']
      constructor
      · omega
      · intro hne
        have : (e (i + 1)).hdl p ≠ (e i).hdl p := fun h => hne (by rw [h])
        omega
    · exact .inl hw'
  · intro i hi hrun
    have hrun : (e i).p1.workers[w]? = some (.running p) := Classical.byContradiction hrun
    apply Classical.byContradiction
    intro hno
    have hsame : ∀ j, i ≤ j → (e j).p1.workers[w]? = some (.running p) ∧ (e j).hdl p = (e i).hdl p := by
      intro j hj
      refine Classical.byContradiction fun hne => hno ⟨j, hj, .inr fun h => ?_⟩
      simp only [Prod.mk.injEq] at h
      exact hne ⟨h.1.trans hrun, h.2⟩
    have hopp : ∀ m, i ≤ m → ∃ j, m ≤ j ∧ ∃ t, HandlerMoves tr W1 Q W2 w (e j) t := by
      intro m hm
      have lt : w < (e m).p1.workers.length := (List.getElem?_eq_some_iff.1 (hsame m hm).1).1
      have step : ∀ (j : Nat) (t : PlSt), i ≤ j → PlStep tr W1 Q W2 (e j) t → t.hdl p = (e j).hdl p + 1 →
          HandlerMoves tr W1 Q W2 w (e j) t := by
        intro j t hj st ht
        refine ⟨st, p, (hsame j hj).1, fun h => ?_⟩
        simp only [Prod.mk.injEq] at h
        omega
      by_cases hend : (e m).hdl p = (tr p).length
      · refine ⟨m, Nat.le_refl m, _, .done1 w p (hsame m hm).1 hend, p, (hsame m hm).1, fun h => ?_⟩
        simp only [Prod.mk.injEq] at h
        rw [List.getElem?_set_self lt, (hsame m hm).1] at h
        cases h.1
      · have hlt : (e m).hdl p < (tr p).length := by have := (F.inv m).hdl p; omega
        cases hev : (tr p)[(e m).hdl p] with
        | enqueue jb =>
          obtain ⟨j, hj, hroom⟩ := F.jobs_room h1 m
          have hij : i ≤ j := by omega
          have hevj : (tr p)[(e j).hdl p]? = some (.enqueue jb) := by
            rw [(hsame j hij).2, ← (hsame m hm).2, List.getElem?_eq_getElem hlt, hev]
          rcases hroom with hr | ⟨hr, hf⟩
          · exact ⟨j, hj, _, step j _ hij (.enqueue w p jb (hsame j hij).1 hevj hr) (upd_same _ _ _)⟩
          · exact ⟨j, hj, _, step j _ hij (.handoff w p jb (hsame j hij).1 hevj hr hf) (upd_same _ _ _)⟩
        | _ =>
          refine ⟨m, Nat.le_refl m, _, step m _ hm (.handle w p _ (hsame m hm).1 (List.getElem?_eq_getElem hlt) ?_) (upd_same _ _ _)⟩
          rw [hev]; rfl
    obtain ⟨j, hj, -, q, hq, hne⟩ := F.handler w hw i hopp
    have hqp : q = p := by
      rw [(hsame j hj).1] at hq; injection hq with hq; injection hq with hq; exact hq.symm
    subst hqp
    have a := hsame j hj; have b := hsame (j + 1) (by omega)
    apply hne
    rw [a.1, a.2, b.1, b.2]

/-- The goroutine of `Listen` gets rid of a packet in its hands. -/
theorem FairCrawl.listen_hold (F : FairCrawl tr W1 Q W2 e) (h1 : SingleEnqueue tr) (hW1 : 1 ≤ W1) (i p : Nat) (hf : (e i).l = .hold p) :
    ∃ j, i ≤ j ∧ ((e j).l, (e j).p1.subs) ≠ ((e i).l, (e i).p1.subs) := by
  have live : ∀ i, (e i).p1.dead = false := fun i => (F.inv i).ok1.1
  have hw : 0 < W1 := hW1
  refine F.listen.moves_room (fun s => (s.l, s.p1.subs)) (fun s t h => h.2) i (fun j => (e j).p1.queue.length < W1) ?_
    (fun k => wp_room_again F.run1 live hw (F.worker1 0 hw) (F.handlers_return h1 hw) k) ?_
  · intro j hroom hobs
    simp only [Prod.mk.injEq] at hobs
    rcases F.run.next j with h | h
    · rw [h]; exact hroom
    · generalize e (j + 1) = t at h hobs
      show t.p1.queue.length < W1
      cases h with
      | listenSend p hl hs hr => rw [hl] at hobs; simp at hobs
      | recv1 k p q hk hq => rw [hq] at hroom; simp at hroom ⊢; omega
      | _ => exact hroom
  · intro j hj hobs hroom
    simp only [Prod.mk.injEq] at hobs
    have I := F.inv j
    have hfj : (e j).l = .hold p := hobs.1.trans hf
    have hns : (e j).p1.subs p ≠ .sent := by
      refine fun hsent => absurd (((wp_inv I.reach1).sent p).2 hsent) ?_
      have nd : (List.range (e j).arrived).Nodup := List.nodup_range
      rw [I.in1, hfj] at nd
      simp only [FwdPc.item, List.append_assoc] at nd
      rw [List.nodup_append] at nd
      intro hm
      exact nd.2.2 p hm p (by simp) rfl
    cases hs : (e j).p1.subs p with
    | start =>
      refine ⟨_, .listenCheck p hfj hs I.ok1.2.1, ?_⟩
      intro h
      simp only [Prod.mk.injEq] at h
      have := congrFun h.2 p
      rw [upd_same, hs] at this; cases this
    | sending =>
      refine ⟨_, .listenSend p hfj hs hroom, ?_⟩
      intro h
      simp only [Prod.mk.injEq] at h
      rw [hfj] at h; cases h.1
    | sent => exact absurd hs hns
    | panicked => exact absurd hs (I.ok1.2.2 p)

theorem FairCrawl.listen_back (F : FairCrawl tr W1 Q W2 e) (h1 : SingleEnqueue tr) (hW1 : 1 ≤ W1) (i : Nat) :
    ∃ j, i ≤ j ∧ (e j).l = .recv := by
  refine fwd_returns (fun i => (e i).taken1) (fun i => (e i).l) (fun i => (e i).p1.subs) i (fun j _ => F.fwd1 j) ?_
  intro j hj hf
  cases h : (e j).l with
  | recv => exact absurd h hf
  | hold p =>
    obtain ⟨m, hm, hne⟩ := F.listen_hold h1 hW1 j p h
    exact ⟨m, hm, .inr (by rw [← h]; exact hne)⟩

theorem FairCrawl.arrived_grows (F : FairCrawl tr W1 Q W2 e) {i j : Nat} (hij : i ≤ j) : (e i).arrived ≤ (e j).arrived := by
  refine F.run.stays (fun s => (e i).arrived ≤ s.arrived) ?_ hij (Nat.le_refl _)
  intro k hk st
  generalize e (k + 1) = t at st
  cases st with
  | arrive hr => exact Nat.le_succ_of_le hk
  | _ => exact hk

theorem FairCrawl.listen_takes (F : FairCrawl tr W1 Q W2 e) (h1 : SingleEnqueue tr) (hW1 : 1 ≤ W1) (n i : Nat) (hn : n < (e i).arrived) :
    ∃ j, i ≤ j ∧ n < (e j).taken1 := by
  refine fwd_drains (fun i => (e i).taken1) (fun i => (e i).l) (fun i => (e i).p1.subs) n i (fun j _ => F.fwd1 j) ?_
  intro j hj hnj
  cases h : (e j).l with
  | hold p =>
    obtain ⟨m, hm, hne⟩ := F.listen_hold h1 hW1 j p h
    exact ⟨m, hm, .inr (by rw [← h]; exact hne)⟩
  | recv =>
    have := F.listen.moves (fun s => (s.l, s.p1.subs)) (fun s t h => h.2) j (fun j => n < (e j).taken1) (by
      intro m hm hnm hobs
      simp only [Prod.mk.injEq] at hobs
      have hl := F.arrived_grows (by omega : i ≤ m)
      have hfm : (e m).l = .recv := hobs.1.trans h
      cases hq : (e m).recvq with
      | nil => simp only [PlSt.taken1, hq, List.length_nil] at hnm; omega
      | cons p q =>
        refine ⟨_, .listenTake p q hfm hq, ?_⟩
        intro h
        simp only [Prod.mk.injEq] at h
        rw [hfm] at h; cases h.1)
    simp only [h] at this ⊢
    exact this

theorem fwdMove_mono {a a' : Nat} {f f' : FwdPc} {s s' : Nat → SubPc} (h : FwdMove a a' f f' s s') : a ≤ a' := by
  cases h <;> omega

theorem mono_of_step {a : Nat → Nat} (h : ∀ i, a i ≤ a (i + 1)) {i j : Nat} (hij : i ≤ j) : a i ≤ a j := by
  induction j with
  | zero => have : i = 0 := by omega
            subst this; exact Nat.le_refl _
  | succ j ih =>
    by_cases h' : i = j + 1
    · subst h'; exact Nat.le_refl _
    · exact Nat.le_trans (ih (by omega)) (h j)

/-- Every packet that has arrived is submitted to the pool. -/
theorem FairCrawl.submitted1 (F : FairCrawl tr W1 Q W2 e) (h1 : SingleEnqueue tr) (hW1 : 1 ≤ W1) {i p : Nat} (hp : p < (e i).arrived) :
    ∃ j, i ≤ j ∧ p ∈ (e j).p1.submitted := by
  obtain ⟨k, hk, ht⟩ := F.listen_takes h1 hW1 p i hp
  obtain ⟨j, hj, hl⟩ := F.listen_back h1 hW1 k
  refine ⟨j, by omega, ?_⟩
  have hmono := mono_of_step (a := fun i => (e i).taken1) (fun i => fwdMove_mono (F.fwd1 i)) hj
  have I := F.inv j
  have hlen := pl_len1 I
  rw [hl] at hlen
  simp only [PlSt.taken1, FwdPc.item, List.length_nil] at *
  have hin := I.in1
  rw [hl] at hin
  simp only [FwdPc.item, List.append_nil] at hin
  have hlt : p < (e j).p1.submitted.length := by omega
  have : (List.range (e j).arrived)[p]? = some p := List.getElem?_range (by omega)
  rw [hin, List.getElem?_append_left hlt] at this
  exact List.mem_of_getElem? this

/-- Every job that has been accepted is submitted to the pool of the downloads. -/
theorem FairCrawl.submitted2 (F : FairCrawl tr W1 Q W2 e) (h1 : SingleEnqueue tr) {i p : Nat} (hp : p ∈ (e i).accepted) :
    ∃ j, i ≤ j ∧ p ∈ (e j).p2.submitted := by
  obtain ⟨n, hn, hnp⟩ := List.getElem_of_mem hp
  have hn? : (e i).accepted[n]? = some p := by rw [List.getElem?_eq_getElem hn, hnp]
  obtain ⟨k, hk, ht⟩ := F.fetch_takes h1 n i hn
  obtain ⟨j, hj, hl⟩ := F.fetch_back h1 k
  refine ⟨j, by omega, ?_⟩
  have hmono := mono_of_step (a := fun i => (e i).taken2) (fun i => fwdMove_mono (F.fwd2 i)) hj
  have I := F.inv j
  have hlen := pl_len2 I
  obtain ⟨l, hgr⟩ := F.accepted_grows (by omega : i ≤ j)
  have hin := I.in2
  rw [hl] at hlen hin
  simp only [PlSt.taken2, FwdPc.item, List.length_nil, List.append_nil] at *
  have hlt : n < (e j).p2.submitted.length := by omega
  have : (e j).accepted[n]? = some p := by rw [hgr, List.getElem?_append_left hn]; exact hn?
  rw [hin, List.getElem?_append_left hlt] at this
  exact List.mem_of_getElem? this

/-- **C86** Every packet that arrives is handled to the end. -/
theorem C86_packet_handled (F : FairCrawl tr W1 Q W2 e) (h1 : SingleEnqueue tr) (hW1 : 1 ≤ W1) {i p : Nat} (hp : p < (e i).arrived) :
    ∃ j, i ≤ j ∧ p ∈ (e j).p1.finished ∧ logOf p (e j).log = tr p := by
  obtain ⟨k, hk, hs⟩ := F.submitted1 h1 hW1 hp
  have live : ∀ i, (e i).p1.dead = false := fun i => (F.inv i).ok1.1
  obtain ⟨j, hj, hf⟩ := C85_finished F.run1 live hW1 F.worker1 (fun w hw => F.handlers_return h1 hw) (k := k) (c := p) hs
  refine ⟨j, by omega, hf, ?_⟩
  have I := F.inv j
  rw [I.log, I.fin p hf, List.take_length]

/-- **C86** Every job that is accepted is downloaded: the download is started; if the downloads of all workers return, it ends. -/
theorem C86_job_started (F : FairCrawl tr W1 Q W2 e) (h1 : SingleEnqueue tr) {i p : Nat} (hp : p ∈ (e i).accepted) :
    ∃ j, i ≤ j ∧ p ∈ (e j).p2.started := by
  obtain ⟨k, hk, hs⟩ := F.submitted2 h1 hp
  obtain ⟨w, hw, sched, ret⟩ := F.worker2
  have live : ∀ i, (e i).p2.dead = false := fun i => (F.inv i).ok2.1
  obtain ⟨j, hj, hf⟩ := C85_started F.run2 live hw sched ret (k := k) (c := p) hs
  exact ⟨j, by omega, hf⟩

theorem C86_job_finished (F : FairCrawl tr W1 Q W2 e) (h1 : SingleEnqueue tr)
    (sched : ∀ w, w < W2 → WorkerScheduled W2 (fun i => (e i).p2) w) (ret : ∀ w, w < W2 → TasksReturn (fun i => (e i).p2) w)
    {i p : Nat} (hp : p ∈ (e i).accepted) : ∃ j, i ≤ j ∧ p ∈ (e j).p2.finished := by
  obtain ⟨k, hk, hs⟩ := F.submitted2 h1 hp
  have live : ∀ i, (e i).p2.dead = false := fun i => (F.inv i).ok2.1
  obtain ⟨w, hw, -⟩ := F.worker2
  obtain ⟨j, hj, hf⟩ := C85_finished F.run2 live (by omega) sched ret (k := k) (c := p) hs
  exact ⟨j, by omega, hf⟩

/-- **C86** The receive goroutine is never blocked for ever: the queue of received packets has room again and again. -/
theorem C86_takes_in (F : FairCrawl tr W1 Q W2 e) (h1 : SingleEnqueue tr) (hW1 : 1 ≤ W1) (i : Nat) :
    ∃ j, i ≤ j ∧ (e j).recvq.length < 100 := by
  by_cases hi : (e i).recvq.length < 100
  · exact ⟨i, Nat.le_refl i, hi⟩
  · have hlen := pl_len1 (F.inv i)
    obtain ⟨j, hj, ht⟩ := F.listen_takes h1 hW1 (e i).taken1 i (by simp only [PlSt.taken1]; omega)
    obtain ⟨m, hm, -, hm1, hm2⟩ := becomes (P := fun j => (e i).taken1 < (e j).taken1) hj (Nat.lt_irrefl _) ht
    refine ⟨m + 1, by omega, ?_⟩
    have hroom := (F.inv m).room0
    have hlm := pl_len1 (F.inv m)
    have hgrow : (e m).taken1 < (e (m + 1)).taken1 := by omega
    rcases F.run.next m with h | h
    · rw [h] at hgrow; omega
    · generalize e (m + 1) = t at h hgrow
      simp only [PlSt.taken1] at hgrow
      cases h with
      | arrive hr => simp at hgrow
      | listenTake p q hf hq => simp only [hq, List.length_cons, recvChanLen] at hroom; simp only; omega
      | _ => exact absurd hgrow (Nat.lt_irrefl _)

end

/-- **C86** For the crawler: whatever arrives and however fast, in a fair execution every announce_peer that has arrived is answered and its torrent
is fetched. -/
theorem C86_announce (K : KEnv) {O : Nat → Oracle} (hO : ∀ p, (O p).Fair) (pkts : Nat → RecvPacket) {W1 Q W2 : Nat} (hW1 : 1 ≤ W1)
    {e : Nat → PlSt} (F : FairCrawl (crawlTraces K O pkts) W1 Q W2 e) {i p : Nat} (hp : p < (e i).arrived) {job : Job}
    (hj : IsAnnounce (pkts p) job) :
    ∃ j, i ≤ j ∧ (p, Event.enqueue job) ∈ (e j).log ∧ (∃ b failed, (p, Event.send (pkts p).addr b failed) ∈ (e j).log) ∧
      p ∈ (e j).p2.started := by
  have h1 := crawl_single K hO pkts
  obtain ⟨k, hk, -, hlog⟩ := C86_packet_handled F h1 hW1 hp
  have hmem : ∀ ev, ev ∈ logOf p (e k).log → (p, ev) ∈ (e k).log := by
    intro ev hev
    obtain ⟨⟨q, x⟩, hx, hqx⟩ := List.mem_filterMap.1 hev
    simp only at hqx
    split at hqx
    · injection hqx with hqx; subst hqx; rename_i hqp; subst hqp; exact hx
    · cases hqx
  rcases crawlTraces_spec K hO pkts p with ⟨job', b, failed, hj', htr⟩ | ⟨hn, -⟩
  · have hjj : job' = job := by
      obtain ⟨d, t, a, hq, -, ha, rfl⟩ := hj
      obtain ⟨d', t', a', hq', -, ha', rfl⟩ := hj'
      obtain ⟨e1, e2, -⟩ := query_functional hq hq'
      subst e1; subst e2
      rw [ha] at ha'; injection ha' with ha'; injection ha' with ha'; subst ha'; rfl
    subst hjj
    have hacc : p ∈ (e k).accepted := by
      rw [(F.inv k).acc]
      refine List.mem_map.2 ⟨(p, .enqueue job'), List.mem_filter.2 ⟨hmem _ ?_, rfl⟩, rfl⟩
      rw [hlog, htr]; simp
    obtain ⟨j, hj2, hs⟩ := C86_job_started F h1 hacc
    have grows : ∀ x, x ∈ (e k).log → x ∈ (e j).log := by
      intro x hx
      refine F.run.stays (fun s => x ∈ s.log) ?_ hj2 hx
      intro m hm st
      generalize e (m + 1) = t at st
      cases st with
      | handle y q ev hy he hn => exact List.mem_append_left _ hm
      | enqueue y q jb hy he hq => exact List.mem_append_left _ hm
      | handoff y q jb hy he hq hf => exact List.mem_append_left _ hm
      | _ => exact hm
    refine ⟨j, by omega, grows _ (hmem _ (by rw [hlog, htr]; simp)), ⟨b, failed, grows _ (hmem _ (by rw [hlog, htr]; simp))⟩, hs⟩
  · exact absurd hj (hn job)

/-- An execution that comes to rest where nothing but an arrival is possible is fair. -/
theorem fairCrawl_of_rest {tr : Nat → List Event} {W1 Q W2 : Nat} (hW1 : 1 ≤ W1) (hW2 : 1 ≤ W2) (h1 : SingleEnqueue tr) {e : Nat → PlSt} {N : Nat}
    {s : PlSt} (r : Run (PlInit W1 W2) (PlStep tr W1 Q W2) e) (hN : ∀ i, N ≤ i → e i = s) (hq : ∀ t, ¬ PlQuiet tr W1 Q W2 s t) :
    FairCrawl tr W1 Q W2 e ∧ (∀ w, WorkerScheduled W2 (fun i => (e i).p2) w) ∧ ∀ (i t : Nat), s.p2.workers[i]? ≠ some (WPc.running t) := by
  have hs : PlReach tr W1 Q W2 s := by rw [← hN N (Nat.le_refl N)]; exact r.reach N
  have I := pl_inv hs
  -- nothing but an arrival can happen in `s`
  have quiet : ∀ t, PlStep tr W1 Q W2 s t → t.arrived ≠ s.arrived := fun t st h => hq t ⟨st, h⟩
  have noWorker : ∀ (W : Nat) (p : WpSt) (w : Nat), WpInv W p → (∀ i : Nat, p.workers[i]? ≠ some WPc.select) →
      (∀ (i t : Nat), p.workers[i]? ≠ some (WPc.running t)) → (∀ (i t : Nat) (q : List Nat), p.workers[i]? = some WPc.recv → p.queue ≠ t :: q) →
      ∀ t, ¬ WpWorkerMoves W w p t := by
    intro W p w J hsel hrun hrecv t ⟨st, hne⟩
    cases st with
    | select i hd hw => exact hsel i hw
    | recv i t q hd hw h' => exact hrecv i t q hw h'
    | taskDone i t hd hw => exact hrun i t hw
    | wgDone i hd hw => exact absurd rfl (J.alive _ (List.mem_of_getElem? hw)).1
    | _ => exact hne rfl
  have no1 : ∀ w t, ¬ WpWorkerMoves W1 w s.p1 t := by
    intro w
    refine noWorker W1 s.p1 w (wp_inv I.reach1) (fun i h => quiet _ (.select1 i h) rfl) ?_ (fun i t q h hq' => quiet _ (.recv1 i t q h hq') rfl)
    intro i p hp
    obtain ⟨hfin, -⟩ := C62_all_done hW1 hW2 h1 hs hq
    have hm := started_of_running I.reach1 hp
    have hlt : p ∈ List.range s.arrived := by rw [← (C62_fifo hs).1]; simp [hm]
    exact not_finished_of_running I.reach1 hp ((hfin.mem_iff).2 hlt)
  have run2 : ∀ (i t : Nat), s.p2.workers[i]? ≠ some (WPc.running t) := fun i t h => quiet _ (.done2 i t h) rfl
  have no2 : ∀ w t, ¬ WpWorkerMoves W2 w s.p2 t := by
    intro w
    exact noWorker W2 s.p2 w (wp_inv I.reach2) (fun i h => quiet _ (.select2 i h) rfl) run2 (fun i t q h hq' => quiet _ (.recv2 i t q h hq') rfl)
  have sch2 : ∀ w, WorkerScheduled W2 (fun i => (e i).p2) w := by
    intro w i h
    obtain ⟨t, h', -⟩ := h (N + i) (by omega)
    simp only [hN (N + i) (by omega)] at h'
    exact absurd h' (no2 w t)
  refine ⟨⟨r, ?_, ?_, ?_, ?_, 0, hW2, sch2 0, ?_⟩, sch2, run2⟩
  · intro i h
    obtain ⟨t, st, hne⟩ := h (N + i) (by omega)
    rw [hN _ (by omega)] at st hne
    exfalso
    have := quiet t st
    cases st with
    | arrive hr => exact hne rfl
    | _ => exact this rfl
  · intro i h
    obtain ⟨t, st, hne⟩ := h (N + i) (by omega)
    rw [hN _ (by omega)] at st hne
    exfalso
    have := quiet t st
    cases st with
    | arrive hr => exact hne rfl
    | _ => exact this rfl
  · intro w hw i h
    obtain ⟨t, h', -⟩ := h (N + i) (by omega)
    simp only [hN (N + i) (by omega)] at h'
    exact absurd h' (no1 w t)
  · intro w hw i h
    obtain ⟨j, hj, t, st, p, hp, hne⟩ := h (N + i) (by omega)
    rw [hN _ (by omega)] at st hp hne
    exfalso
    have := quiet t st
    cases st with
    | arrive hr => exact hne rfl
    | _ => exact this rfl
  · intro k t _
    refine ⟨N + k, by omega, ?_⟩
    simp only [hN (N + k) (by omega)]
    exact run2 0 t

/-- Non-vacuity: for every number of packets there is a fair execution in which that many packets arrive (and which comes to rest when they have been
handled and the announced torrents fetched). -/
theorem C86_fair_runs {tr : Nat → List Event} {W1 Q W2 : Nat} (hW1 : 1 ≤ W1) (hW2 : 1 ≤ W2) (h1 : SingleEnqueue tr) (n : Nat) :
    ∃ e N, FairCrawl tr W1 Q W2 e ∧ (e N).arrived = n := by
  obtain ⟨s, hs, hn, hq⟩ := C62_all_done_reachable (Q := Q) hW1 hW2 h1 n
  obtain ⟨e, N, r, hN⟩ := run_of_reach hs
  exact ⟨e, N, (fairCrawl_of_rest hW1 hW2 h1 r hN hq).1, by rw [hN N (Nat.le_refl N)]; exact hn⟩

end P2P

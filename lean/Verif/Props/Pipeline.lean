import Verif.Model.Pipeline
import Verif.Props.WorkPool
import Verif.Props.Krpc
/-! # C62: the pipeline from packets to downloads -/
namespace P2P

abbrev PlReach (tr : Nat → List Event) (W1 Q W2 : Nat) : PlSt → Prop := Reach (PlInit W1 W2) (PlStep tr W1 Q W2)

/-- the item a forwarding goroutine has in its hands -/
def FwdPc.item : FwdPc → List Nat
  | .recv => []
  | .hold p => [p]

/-- the interactions of packet `p`'s handler in a log -/
def logOf (p : Nat) (log : List (Nat × Event)) : List Event :=
  log.filterMap fun x => if x.1 = p then some x.2 else none

/-- every handler enqueues at most once -/
def SingleEnqueue (tr : Nat → List Event) : Prop := ∀ p, (tr p).countP Event.isEnqueue ≤ 1

structure PlInv (tr : Nat → List Event) (W1 Q W2 : Nat) (s : PlSt) : Prop where
  reach1 : WpReach W1 s.p1
  reach2 : WpReach W2 s.p2
  ok1 : s.p1.dead = false ∧ s.p1.status = .running ∧ ∀ p, s.p1.subs p ≠ .panicked
  ok2 : s.p2.dead = false ∧ s.p2.status = .running ∧ ∀ p, s.p2.subs p ≠ .panicked
  in1 : List.range s.arrived = s.p1.submitted ++ s.l.item ++ s.recvq
  in2 : s.accepted = s.p2.submitted ++ s.f.item ++ s.jobs
  room0 : s.recvq.length ≤ recvChanLen
  room : s.jobs.length ≤ Q
  log : ∀ p, logOf p s.log = (tr p).take (s.hdl p)
  hdl : ∀ p, s.hdl p ≤ (tr p).length
  fin : ∀ p ∈ s.p1.finished, s.hdl p = (tr p).length
  idle : ∀ p, p ∉ s.p1.started → s.hdl p = 0
  acc : s.accepted = (s.log.filter fun x => x.2.isEnqueue).map Prod.fst

theorem mem_runningTasks {ws : List WPc} {i p : Nat} (h : ws[i]? = some (.running p)) : p ∈ runningTasks ws :=
  List.mem_filterMap.2 ⟨.running p, List.mem_of_getElem? h, rfl⟩

theorem started_of_running {size : Nat} {s : WpSt} (h : WpReach size s) {i p : Nat} (hw : s.workers[i]? = some (.running p)) :
    p ∈ s.started := (wp_inv h).exec.mem_iff.2 (List.mem_append_right _ (mem_runningTasks hw))

theorem started_nodup {size : Nat} {s : WpSt} (h : WpReach size s) : s.started.Nodup := by
  have I := wp_inv h
  have := I.once
  rw [I.fifo, List.nodup_append] at this
  exact this.1

theorem not_finished_of_running {size : Nat} {s : WpSt} (h : WpReach size s) {i p : Nat} (hw : s.workers[i]? = some (.running p)) :
    p ∉ s.finished := by
  have I := wp_inv h
  have nd := (I.exec.nodup_iff).1 (started_nodup h)
  rw [List.nodup_append] at nd
  intro hf
  exact nd.2.2 p hf p (mem_runningTasks hw) rfl

theorem logOf_append_same (p : Nat) (log : List (Nat × Event)) (e : Event) : logOf p (log ++ [(p, e)]) = logOf p log ++ [e] := by
  simp [logOf]

theorem logOf_append_ne {p q : Nat} (h : q ≠ p) (log : List (Nat × Event)) (e : Event) : logOf p (log ++ [(q, e)]) = logOf p log := by
  simp [logOf, h]

theorem pl_inv {tr : Nat → List Event} {W1 Q W2 : Nat} {s : PlSt} (h : PlReach tr W1 Q W2 s) : PlInv tr W1 Q W2 s := by
  refine h.inv _ ?_ ?_
  · rintro s ⟨h1, h2, h3, h4, h5, h6, h7, h8, h9, h10⟩
    have a := h4; have b := h8
    obtain ⟨a1, -, -, -, -, a6, -, -, a9, a10, a11, a12⟩ := a
    obtain ⟨b1, -, -, -, -, b6, -, -, b9, b10, b11, b12⟩ := b
    constructor
    · exact .init h4
    · exact .init h8
    · exact ⟨a9, a1, fun p => by rw [a6 p]; simp⟩
    · exact ⟨b9, b1, fun p => by rw [b6 p]; simp⟩
    · rw [h2, a10, h3, h1]; rfl
    · rw [h10, b10, h7, h6]; rfl
    · rw [h1]; simp
    · rw [h6]; simp
    · intro p; rw [h9, h5]; rfl
    · intro p; rw [h5]; omega
    · rw [a12]; simp
    · intro p _; exact h5 p
    · rw [h10, h9]; rfl
  · intro s t I st
    -- a handler performs its next interaction
    have logStep : ∀ (i p : Nat) (e : Event), s.p1.workers[i]? = some (.running p) → (tr p)[s.hdl p]? = some e →
        (∀ q, logOf q (s.log ++ [(p, e)]) = (tr q).take (upd s.hdl p (s.hdl p + 1) q)) ∧
        (∀ q, upd s.hdl p (s.hdl p + 1) q ≤ (tr q).length) ∧
        (∀ q ∈ s.p1.finished, upd s.hdl p (s.hdl p + 1) q = (tr q).length) ∧
        (∀ q, q ∉ s.p1.started → upd s.hdl p (s.hdl p + 1) q = 0) := by
      intro i p e hw he
      refine ⟨?_, ?_, ?_, ?_⟩ <;> intro q
      · by_cases e' : q = p
        · subst e'; rw [logOf_append_same, upd_same, I.log, List.take_add_one, he]; rfl
        · rw [logOf_append_ne (Ne.symm e'), upd_ne _ _ e', I.log]
      · by_cases e' : q = p
        · subst e'; rw [upd_same]; exact (List.getElem?_eq_some_iff.1 he).1
        · rw [upd_ne _ _ e']; exact I.hdl q
      · intro hq
        by_cases e' : q = p
        · subst e'; exact absurd hq (not_finished_of_running I.reach1 hw)
        · rw [upd_ne _ _ e']; exact I.fin q hq
      · intro hq
        by_cases e' : q = p
        · subst e'; exact absurd (started_of_running I.reach1 hw) hq
        · rw [upd_ne _ _ e']; exact I.idle q hq
    cases st with
    | arrive hr =>
      refine { I with in1 := ?_, room0 := ?_ }
      · simp only; rw [List.range_succ, I.in1]; simp
      · simp; omega
    | listenTake p q hl hq =>
      refine { I with in1 := ?_, room0 := ?_ }
      · simp only; rw [I.in1, hl, hq]; simp [FwdPc.item]
      · have := I.room0; rw [hq] at this; simp at this ⊢; omega
    | listenCheck p hl hs hr =>
      refine { I with reach1 := .step I.reach1 (.subCheck p I.ok1.1 hs hr), ok1 := ⟨I.ok1.1, I.ok1.2.1, ?_⟩ }
      intro q; simp only; unfold upd; split
      · simp
      · exact I.ok1.2.2 q
    | listenSend p hl hs hq =>
      refine { I with reach1 := .step I.reach1 (.subSend p I.ok1.1 hs hq), ok1 := ⟨I.ok1.1, I.ok1.2.1, ?_⟩, in1 := ?_ }
      · intro q; simp only; unfold upd; split
        · simp
        · exact I.ok1.2.2 q
      · simp only; rw [I.in1, hl]; simp [FwdPc.item]
    | select1 i hw => exact { I with reach1 := .step I.reach1 (.select i I.ok1.1 hw) }
    | recv1 i p q hw hq =>
      refine { I with reach1 := .step I.reach1 (.recv i p q I.ok1.1 hw hq), idle := ?_ }
      intro r hr
      exact I.idle r (fun h => hr (List.mem_append_left _ h))
    | handle i p e hw he hne =>
      obtain ⟨a, b, c, d⟩ := logStep i p e hw he
      refine { I with log := a, hdl := b, fin := c, idle := d, acc := ?_ }
      simp only; rw [I.acc]; simp [hne]
    | enqueue i p j hw he hq =>
      obtain ⟨a, b, c, d⟩ := logStep i p _ hw he
      refine { I with log := a, hdl := b, fin := c, idle := d, acc := ?_, in2 := ?_, room := ?_ }
      · simp only; rw [I.in2]; simp
      · simp; omega
      · simp only; rw [I.acc]; simp [Event.isEnqueue]
    | handoff i p j hw he hq hf =>
      obtain ⟨a, b, c, d⟩ := logStep i p _ hw he
      refine { I with log := a, hdl := b, fin := c, idle := d, acc := ?_, in2 := ?_ }
      · simp only; rw [I.in2, hq, hf]; simp [FwdPc.item]
      · simp only; rw [I.acc]; simp [Event.isEnqueue]
    | done1 i p hw hh =>
      refine { I with reach1 := .step I.reach1 (.taskDone i p I.ok1.1 hw), fin := ?_ }
      intro q hq
      simp at hq
      rcases hq with hq | rfl
      · exact I.fin q hq
      · exact hh
    | fetchTake p q hf hq =>
      refine { I with in2 := ?_, room := ?_ }
      · simp only; rw [I.in2, hf, hq]; simp [FwdPc.item]
      · have := I.room; rw [hq] at this; simp at this ⊢; omega
    | fetchCheck p hl hs hr =>
      refine { I with reach2 := .step I.reach2 (.subCheck p I.ok2.1 hs hr), ok2 := ⟨I.ok2.1, I.ok2.2.1, ?_⟩ }
      intro q; simp only; unfold upd; split
      · simp
      · exact I.ok2.2.2 q
    | fetchSend p hl hs hq =>
      refine { I with reach2 := .step I.reach2 (.subSend p I.ok2.1 hs hq), ok2 := ⟨I.ok2.1, I.ok2.2.1, ?_⟩, in2 := ?_ }
      · intro q; simp only; unfold upd; split
        · simp
        · exact I.ok2.2.2 q
      · simp only; rw [I.in2, hl]; simp [FwdPc.item]
    | select2 i hw => exact { I with reach2 := .step I.reach2 (.select i I.ok2.1 hw) }
    | recv2 i p q hw hq => exact { I with reach2 := .step I.reach2 (.recv i p q I.ok2.1 hw hq) }
    | done2 i p hw => exact { I with reach2 := .step I.reach2 (.taskDone i p I.ok2.1 hw) }

theorem FwdPc.item_length (l : FwdPc) : l.item.length ≤ 1 := by cases l <;> simp [FwdPc.item]

/-! ## Every packet and every job goes through once, in order -/

/-- The handlers are started in the order of arrival, each packet at most once; every accepted job becomes one download, in the order in
which the jobs were accepted. -/
theorem C62_fifo {tr : Nat → List Event} {W1 Q W2 : Nat} {s : PlSt} (h : PlReach tr W1 Q W2 s) :
    (s.p1.started ++ s.p1.queue ++ s.l.item ++ s.recvq = List.range s.arrived) ∧
    (s.p2.started ++ s.p2.queue ++ s.f.item ++ s.jobs = s.accepted) ∧
    (∀ p, logOf p s.log = (tr p).take (s.hdl p)) ∧ s.accepted = (s.log.filter fun x => x.2.isEnqueue).map Prod.fst := by
  have I := pl_inv h
  refine ⟨?_, ?_, I.log, I.acc⟩
  · rw [I.in1, (wp_inv I.reach1).fifo]
  · rw [I.in2, (wp_inv I.reach2).fifo]

theorem countP_logOf (p : Nat) (log : List (Nat × Event)) :
    (logOf p log).countP Event.isEnqueue = ((log.filter fun x => x.2.isEnqueue).map Prod.fst).count p := by
  induction log with
  | nil => rfl
  | cons x r ih =>
    obtain ⟨q, e⟩ := x
    simp only [logOf, List.filterMap_cons, List.filter_cons] at ih ⊢
    by_cases hq : q = p
    · subst hq
      cases he : e.isEnqueue <;> simp [he, ih]
    · cases he : e.isEnqueue <;> simp [hq, ih]

/-- no job is accepted, and no download started, twice -/
theorem C62_once {tr : Nat → List Event} {W1 Q W2 : Nat} {s : PlSt} (h : PlReach tr W1 Q W2 s) (h1 : SingleEnqueue tr) :
    s.accepted.Nodup ∧ s.p2.started.Nodup ∧ s.p2.started <+: s.accepted := by
  have I := pl_inv h
  have nd : s.accepted.Nodup := by
    rw [List.nodup_iff_count]
    intro p
    rw [I.acc, ← countP_logOf, I.log]
    exact Nat.le_trans (List.Sublist.countP_le (List.take_sublist _ _)) (h1 p)
  refine ⟨nd, started_nodup I.reach2, ?_⟩
  rw [← (C62_fifo h).2.1, List.append_assoc, List.append_assoc]
  exact List.prefix_append _ _

/-! ## Bounds -/

/-- **Backlog**: what has arrived but has not been handled, and what has been accepted but not been downloaded, is bounded. -/
theorem C62_bounded {tr : Nat → List Event} {W1 Q W2 : Nat} {s : PlSt} (h : PlReach tr W1 Q W2 s) :
    s.arrived ≤ s.p1.finished.length + (2 * W1 + 1 + 100) ∧
    s.accepted.length ≤ s.p2.finished.length + (2 * W2 + 1 + Q) := by
  have I := pl_inv h
  have k : ∀ {W : Nat} {p : WpSt}, WpReach W p → p.submitted.length ≤ p.finished.length + 2 * W := by
    intro W p hp
    obtain ⟨a1, -, -, a4, a5, a6⟩ := C48_fifo_once hp
    have := a4.length_eq
    rw [a1, List.length_append]
    rw [List.length_append] at this
    omega
  constructor
  · have := congrArg List.length I.in1
    simp at this
    have a := k I.reach1; have b := s.l.item_length; have c := I.room0
    simp only [recvChanLen] at c
    omega
  · have := congrArg List.length I.in2
    simp at this
    have a := k I.reach2; have b := s.f.item_length; have c := I.room
    omega

/-- **No packet is refused before a hundred wait**: while fewer than 100 received packets wait for the loop, the next one is taken in, whatever the
workers do. -/
theorem C62_takes_in (tr : Nat → List Event) (W1 Q W2 : Nat) (s : PlSt) (h : s.recvq.length < 100) :
    ∃ t, PlStep tr W1 Q W2 s t ∧ t.arrived = s.arrived + 1 ∧ t.recvq = s.recvq ++ [s.arrived] :=
  ⟨_, .arrive h, rfl, rfl⟩

/-! ## Everything gets done -/

/-- a step that is not the arrival of a packet -/
def PlQuiet (tr : Nat → List Event) (W1 Q W2 : Nat) (s t : PlSt) : Prop := PlStep tr W1 Q W2 s t ∧ t.arrived = s.arrived

private def evW (e : Event) : Nat := if e.isEnqueue then 8 else 1
private def rem (tr : Nat → List Event) (hdl : Nat → Nat) (p : Nat) : Nat := (((tr p).drop (hdl p)).map evW).sum
private def fwdW (l : FwdPc) (p : WpSt) : Nat :=
  match l with
  | .recv => 0
  | .hold x => if p.subs x = .start then 5 else 4
private def wW : WPc → Nat
  | .select => 1
  | .running _ => 2
  | _ => 0
private def poolW (p : WpSt) : Nat := 3 * p.queue.length + (p.workers.map wW).sum
private def mu (tr : Nat → List Event) (s : PlSt) : Nat :=
  ((List.range s.arrived).map (rem tr s.hdl)).sum + 6 * s.recvq.length + fwdW s.l s.p1 + poolW s.p1 + 6 * s.jobs.length +
    fwdW s.f s.p2 + poolW s.p2

private theorem sum_set {ws : List WPc} {i : Nat} {old new : WPc} (h : ws[i]? = some old) :
    ((ws.set i new).map wW).sum + wW old = (ws.map wW).sum + wW new := by
  induction ws generalizing i with
  | nil => simp at h
  | cons w r ih =>
    cases i with
    | zero => simp at h; subst h; simp; omega
    | succ i => simp at h; have := ih h; simp only [List.set_cons_succ, List.map_cons, List.sum_cons]; omega

private theorem rem_step {tr : Nat → List Event} {hdl : Nat → Nat} {p : Nat} {e : Event} (he : (tr p)[hdl p]? = some e) :
    rem tr hdl p = evW e + rem tr (upd hdl p (hdl p + 1)) p := by
  unfold rem
  rw [upd_same]
  obtain ⟨hlt, he⟩ := List.getElem?_eq_some_iff.1 he
  rw [List.drop_eq_getElem_cons hlt, he]; simp

private theorem sum_rem {tr : Nat → List Event} {hdl : Nat → Nat} {p : Nat} {e : Event} (he : (tr p)[hdl p]? = some e) :
    ∀ n : Nat, p < n → ((List.range n).map (rem tr hdl)).sum = evW e + ((List.range n).map (rem tr (upd hdl p (hdl p + 1)))).sum := by
  have same : ∀ n, n ≤ p → ((List.range n).map (rem tr hdl)).sum = ((List.range n).map (rem tr (upd hdl p (hdl p + 1)))).sum := by
    intro n hn
    congr 1
    apply List.map_congr_left
    intro q hq
    have : q ≠ p := by have := List.mem_range.1 hq; omega
    unfold rem; rw [upd_ne _ _ this]
  intro n
  induction n with
  | zero => omega
  | succ n ih =>
    intro hn
    rw [List.range_succ]
    simp only [List.map_append, List.sum_append, List.map_cons, List.map_nil, List.sum_cons, List.sum_nil]
    by_cases e' : p = n
    · subst e'
      rw [same p (Nat.le_refl _), rem_step he]; omega
    · rw [ih (by omega)]
      have : rem tr hdl n = rem tr (upd hdl p (hdl p + 1)) n := by
        unfold rem; rw [upd_ne _ _ (Ne.symm e')]
      omega

private theorem fwdW_le (l : FwdPc) (p : WpSt) : fwdW l p ≤ 5 := by
  unfold fwdW; split
  · omega
  · split <;> omega
private theorem fwdW_recv (p : WpSt) : fwdW .recv p = 0 := rfl

private theorem mu_decreases {tr : Nat → List Event} {W1 Q W2 : Nat} {s t : PlSt} (h : PlReach tr W1 Q W2 s)
    (st : PlQuiet tr W1 Q W2 s t) : mu tr t < mu tr s := by
  have I := pl_inv h
  have lt : ∀ (i p : Nat), s.p1.workers[i]? = some (WPc.running p) → p < s.arrived := by
    intro i p hw
    have := started_of_running I.reach1 hw
    have : p ∈ List.range s.arrived := by
      rw [← (C62_fifo h).1]; simp [this]
    exact List.mem_range.1 this
  obtain ⟨st, hq⟩ := st
  cases st with
  | arrive _ => simp at hq
  | listenTake p q hl hr =>
    have := fwdW_le (.hold p) s.p1; have := fwdW_le (.hold p) s.p2
    simp only [mu]; rw [hl, hr]; simp only [fwdW_recv, List.length_cons]; omega
  | listenCheck p hl hs _ =>
    simp only [mu, poolW]; rw [hl]; simp only [fwdW, hs, upd_same]; simp
  | listenSend p hl hs _ =>
    simp only [mu, poolW]; rw [hl]; simp only [fwdW, hs]; simp; omega
  | select1 i hw =>
    have := sum_set (new := .recv) hw
    simp only [mu, poolW]; simp only [fwdW, wW] at *; omega
  | recv1 i p q hw hr =>
    have := sum_set (new := .running p) hw
    simp only [mu, poolW]; rw [hr]; simp only [fwdW, wW, List.length_cons] at *; omega
  | handle i p e hw he hne =>
    have := sum_rem he s.arrived (lt i p hw)
    simp only [mu]; rw [this]; simp only [evW, hne]; simp
  | enqueue i p j hw he hr =>
    have := sum_rem he s.arrived (lt i p hw)
    simp only [mu]; rw [this]; simp only [evW, Event.isEnqueue, List.length_append]; simp; omega
  | handoff i p j hw he hr hf =>
    have := sum_rem he s.arrived (lt i p hw)
    simp only [mu]; rw [this, hf]; have := fwdW_le (.hold p) s.p2; have e8 : evW (.enqueue j) = 8 := rfl
    simp only [fwdW_recv, e8]; omega
  | done1 i p hw _ =>
    have := sum_set (new := .select) hw
    simp only [mu, poolW]; simp only [fwdW, wW] at *; omega
  | fetchTake p q hl hr =>
    have := fwdW_le (.hold p) s.p1; have := fwdW_le (.hold p) s.p2
    simp only [mu]; rw [hl, hr]; simp only [fwdW_recv, List.length_cons]; omega
  | fetchCheck p hl hs _ =>
    simp only [mu, poolW]; rw [hl]; simp only [fwdW, hs, upd_same]; simp
  | fetchSend p hl hs _ =>
    simp only [mu, poolW]; rw [hl]; simp only [fwdW, hs]; simp; omega
  | select2 i hw =>
    have := sum_set (new := .recv) hw
    simp only [mu, poolW]; simp only [fwdW, wW] at *; omega
  | recv2 i p q hw hr =>
    have := sum_set (new := .running p) hw
    simp only [mu, poolW]; rw [hr]; simp only [fwdW, wW, List.length_cons] at *; omega
  | done2 i p hw =>
    have := sum_set (new := .select) hw
    simp only [mu, poolW]; simp only [fwdW, wW] at *; omega

/-- **The backlog is worked off**: if no further packet arrives (and downloads return), only finitely many steps are possible, in
whatever order the goroutines run. -/
theorem C62_terminates {tr : Nat → List Event} {W1 Q W2 : Nat} {s : PlSt} (h : PlReach tr W1 Q W2 s) :
    ∃ N, ∀ (n : Nat) (run : Nat → PlSt), run 0 = s → (∀ i < n, PlQuiet tr W1 Q W2 (run i) (run (i + 1))) → n ≤ N := by
  refine ⟨mu tr s, fun n run h0 hr => ?_⟩
  have key : ∀ i, i ≤ n → PlReach tr W1 Q W2 (run i) ∧ mu tr (run i) + i ≤ mu tr s := by
    intro i
    induction i with
    | zero => intro _; rw [h0]; exact ⟨h, by omega⟩
    | succ i ih =>
      intro hi
      obtain ⟨h1, h2⟩ := ih (by omega)
      have st := hr i (by omega)
      have := mu_decreases h1 st
      exact ⟨.step h1 st.1, by omega⟩
  have := (key n (Nat.le_refl _)).2
  omega

/-- from every reachable state a state is reached, without further arrivals, in which nothing but an arrival is possible -/
theorem quiet_settle {tr : Nat → List Event} {W1 Q W2 : Nat} {s : PlSt} (h : PlReach tr W1 Q W2 s) :
    ∃ t, PlReach tr W1 Q W2 t ∧ t.arrived = s.arrived ∧ ∀ u, ¬ PlQuiet tr W1 Q W2 t u := by
  suffices key : ∀ n s, PlReach tr W1 Q W2 s → mu tr s ≤ n → ∃ t, PlReach tr W1 Q W2 t ∧ t.arrived = s.arrived ∧ ∀ u, ¬ PlQuiet tr W1 Q W2 t u from
    key _ s h (Nat.le_refl _)
  intro n
  induction n with
  | zero =>
    intro s h hm
    refine ⟨s, h, rfl, fun u hu => ?_⟩
    have := mu_decreases h hu
    omega
  | succ n ih =>
    intro s h hm
    by_cases hq : ∃ u, PlQuiet tr W1 Q W2 s u
    · obtain ⟨u, hu⟩ := hq
      have := mu_decreases h hu
      obtain ⟨t, a, b, c⟩ := ih u (.step h hu.1) (by omega)
      exact ⟨t, a, b.trans hu.2, c⟩
    · exact ⟨s, h, rfl, fun u hu => hq ⟨u, hu⟩⟩

/-- **and nothing is left over**: when no step but an arrival is possible, every packet has been handled completely and every accepted job
has been downloaded. -/
theorem C62_all_done {tr : Nat → List Event} {W1 Q W2 : Nat} (hW1 : 1 ≤ W1) (hW2 : 1 ≤ W2) (h1 : SingleEnqueue tr) {s : PlSt}
    (h : PlReach tr W1 Q W2 s) (hq : ∀ t, ¬ PlQuiet tr W1 Q W2 s t) :
    s.p1.finished.Perm (List.range s.arrived) ∧ (∀ p < s.arrived, logOf p s.log = tr p) ∧ s.p2.finished.Perm s.accepted := by
  have I := pl_inv h
  have dead : ∀ {t}, PlStep tr W1 Q W2 s t → t.arrived = s.arrived → False := fun st he => hq _ ⟨st, he⟩
  -- the pool of the downloads
  have ws2 : ∀ w ∈ s.p2.workers, w = .recv := by
    intro w hw
    obtain ⟨i, hi⟩ := List.getElem?_of_mem hw
    rcases (C50_workers_never_exit I.reach2).2.1 w hw with rfl | rfl | ⟨p, rfl⟩
    · exact (dead (.select2 i hi) rfl).elim
    · rfl
    · exact (dead (.done2 i p hi) rfl).elim
  have q2 : s.p2.queue = [] := by
    cases hq2 : s.p2.queue with
    | nil => rfl
    | cons p q =>
      have hl : 0 < s.p2.workers.length := by rw [(wp_inv I.reach2).len]; exact hW2
      have := ws2 s.p2.workers[0] (List.getElem_mem hl)
      exact (dead (.recv2 0 p q (by rw [List.getElem?_eq_getElem hl, this]) hq2) rfl).elim
  have f2 : s.f = .recv := by
    cases hf : s.f with
    | recv => rfl
    | hold p =>
      cases hs : s.p2.subs p with
      | start => exact (dead (.fetchCheck p hf hs I.ok2.2.1) rfl).elim
      | sending => exact (dead (.fetchSend p hf hs (by rw [q2]; exact hW2)) rfl).elim
      | panicked => exact absurd hs (I.ok2.2.2 p)
      | sent =>
        have hm := ((wp_inv I.reach2).sent p).2 hs
        have nd := (C62_once h h1).1
        rw [I.in2, hf, List.append_assoc, List.nodup_append] at nd
        exact absurd rfl (nd.2.2 p hm p (by simp [FwdPc.item]))
  have j2 : s.jobs = [] := by
    cases hj : s.jobs with
    | nil => rfl
    | cons p q => exact (dead (.fetchTake p q f2 hj) rfl).elim
  -- the pool of the server
  have ws1 : ∀ w ∈ s.p1.workers, w = .recv := by
    intro w hw
    obtain ⟨i, hi⟩ := List.getElem?_of_mem hw
    rcases (C50_workers_never_exit I.reach1).2.1 w hw with rfl | rfl | ⟨p, rfl⟩
    · exact (dead (.select1 i hi) rfl).elim
    · rfl
    · cases he : (tr p)[s.hdl p]? with
      | none =>
        have := List.getElem?_eq_none_iff.1 he
        exact (dead (.done1 i p hi (Nat.le_antisymm (I.hdl p) this)) rfl).elim
      | some e =>
        cases hen : e.isEnqueue with
        | false => exact (dead (.handle i p e hi he hen) rfl).elim
        | true =>
          cases e <;> simp [Event.isEnqueue] at hen
          exact (dead (.handoff i p _ hi he j2 f2) rfl).elim
  have q1 : s.p1.queue = [] := by
    cases hq1 : s.p1.queue with
    | nil => rfl
    | cons p q =>
      have hl : 0 < s.p1.workers.length := by rw [(wp_inv I.reach1).len]; exact hW1
      have := ws1 s.p1.workers[0] (List.getElem_mem hl)
      exact (dead (.recv1 0 p q (by rw [List.getElem?_eq_getElem hl, this]) hq1) rfl).elim
  have l1 : s.l = .recv := by
    cases hf : s.l with
    | recv => rfl
    | hold p =>
      cases hs : s.p1.subs p with
      | start => exact (dead (.listenCheck p hf hs I.ok1.2.1) rfl).elim
      | sending => exact (dead (.listenSend p hf hs (by rw [q1]; exact hW1)) rfl).elim
      | panicked => exact absurd hs (I.ok1.2.2 p)
      | sent =>
        have hm := ((wp_inv I.reach1).sent p).2 hs
        have nd := List.nodup_range (n := s.arrived)
        rw [I.in1, hf, List.append_assoc, List.nodup_append] at nd
        exact absurd rfl (nd.2.2 p hm p (by simp [FwdPc.item]))
  have r1 : s.recvq = [] := by
    cases hj : s.recvq with
    | nil => rfl
    | cons p q => exact (dead (.listenTake p q l1 hj) rfl).elim
  have none_running : ∀ {ws : List WPc}, (∀ w ∈ ws, w = .recv) → runningTasks ws = [] := by
    intro ws hws
    apply List.filterMap_eq_nil_iff.2
    intro w hw
    rw [hws w hw]
  have e1 := (wp_inv I.reach1).exec
  have e2 := (wp_inv I.reach2).exec
  rw [none_running ws1, List.append_nil] at e1
  rw [none_running ws2, List.append_nil] at e2
  have a1 := (C62_fifo h).1
  have a2 := (C62_fifo h).2.1
  rw [q1, l1, r1] at a1
  rw [q2, f2, j2] at a2
  simp [FwdPc.item] at a1 a2
  refine ⟨?_, ?_, ?_⟩
  · rw [← a1]; exact e1.symm
  · intro p hp
    have hm : p ∈ s.p1.finished := by
      rw [← e1.mem_iff, a1]; exact List.mem_range.2 hp
    rw [I.log, I.fin p hm, List.take_length]
  · rw [← a2]; exact e2.symm

/-! ## A stall of the downloads stalls the server -/

/-- **Stall**: all download workers are busy, their queue is full, the forwarding goroutine waits for room in it, the channel is full, and
every worker of the server wants to put a job into it. -/
structure Stalled (tr : Nat → List Event) (Q W2 : Nat) (s : PlSt) : Prop where
  busy2 : ∀ w ∈ s.p2.workers, ∃ p, w = .running p
  full2 : s.p2.queue.length = W2
  held : ∃ p, s.f = .hold p
  full : s.jobs.length = Q
  busy1 : ∀ w ∈ s.p1.workers, ∃ p j, w = .running p ∧ (tr p)[s.hdl p]? = some (.enqueue j)

/-- In a stall no handler makes any progress, nothing is sent, and no job is accepted, until a download returns. -/
theorem C62_stall {tr : Nat → List Event} {W1 Q W2 : Nat} {s t : PlSt} (hs : Stalled tr Q W2 s)
    (ht : Reach (fun x => x = s) (fun a b => PlStep tr W1 Q W2 a b ∧ b.p2.finished = s.p2.finished) t) :
    Stalled tr Q W2 t ∧ t.log = s.log ∧ t.accepted = s.accepted ∧ t.p1.finished = s.p1.finished := by
  refine ht.inv (fun t => Stalled tr Q W2 t ∧ t.p2.finished = s.p2.finished ∧ t.log = s.log ∧ t.accepted = s.accepted ∧
    t.p1.finished = s.p1.finished) ?_ ?_ |> fun ⟨a, _, b⟩ => ⟨a, b⟩
  · rintro t rfl; exact ⟨hs, rfl, rfl, rfl, rfl⟩
  · rintro a b ⟨S, h1, h2, h3, h4⟩ ⟨st, hf⟩
    have m1 : ∀ {i : Nat} {w : WPc}, a.p1.workers[i]? = some w → ∃ p j, w = .running p ∧ (tr p)[a.hdl p]? = some (.enqueue j) :=
      fun h => S.busy1 _ (List.mem_of_getElem? h)
    have m2 : ∀ {i : Nat} {w : WPc}, a.p2.workers[i]? = some w → ∃ p, w = .running p := fun h => S.busy2 _ (List.mem_of_getElem? h)
    obtain ⟨p0, hp0⟩ := S.held
    cases st with
    | arrive _ => exact ⟨{ S with }, hf, h2, h3, h4⟩
    | listenTake p q _ _ => exact ⟨{ S with }, hf, h2, h3, h4⟩
    | listenCheck p _ _ _ => exact ⟨{ S with }, hf, h2, h3, h4⟩
    | listenSend p _ _ _ => exact ⟨{ S with }, hf, h2, h3, h4⟩
    | select1 i hw => obtain ⟨p, j, e, -⟩ := m1 hw; cases e
    | recv1 i p q hw _ => obtain ⟨p, j, e, -⟩ := m1 hw; cases e
    | handle i p e hw he hne =>
      obtain ⟨p', j, e', hj⟩ := m1 hw
      injection e' with e'; subst e'
      rw [he] at hj; injection hj with hj; subst hj; simp [Event.isEnqueue] at hne
    | enqueue i p j hw he hr => have := S.full; omega
    | handoff i p j hw he _ hr => rw [hp0] at hr; cases hr
    | done1 i p hw hh =>
      obtain ⟨p', j, e', hj⟩ := m1 hw
      injection e' with e'; subst e'
      rw [hh] at hj; simp at hj
    | fetchTake p q hr _ => rw [hp0] at hr; cases hr
    | fetchCheck p _ _ _ => exact ⟨{ S with }, hf, h2, h3, h4⟩
    | fetchSend p _ _ hr => have := S.full2; omega
    | select2 i hw => obtain ⟨p, e⟩ := m2 hw; cases e
    | recv2 i p q hw _ => obtain ⟨p, e⟩ := m2 hw; cases e
    | done2 i p hw => simp only at hf; rw [h1] at hf; simp at hf

end P2P

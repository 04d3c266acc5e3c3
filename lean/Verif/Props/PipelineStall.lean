import Verif.Props.Pipeline
/-! # C62, continued: announces alone bring the server to a halt -/
namespace P2P

/-- every packet is an announce that the server accepts -/
def AllAnnounces (tr : Nat → List Event) : Prop := ∀ p, (tr p).countP Event.isEnqueue = 1

/-- nothing can happen but the arrival of a packet or the return of a download -/
private def Waiting (tr : Nat → List Event) (W1 Q W2 : Nat) (s : PlSt) : Prop :=
  ∀ t, PlStep tr W1 Q W2 s t → t.arrived ≠ s.arrived ∨ t.p2.finished ≠ s.p2.finished

/-- steps other than an arrival and the return of a download -/
private def Inner (tr : Nat → List Event) (W1 Q W2 : Nat) (s t : PlSt) : Prop :=
  PlStep tr W1 Q W2 s t ∧ t.arrived = s.arrived ∧ t.p2.finished = s.p2.finished

private theorem settle {tr : Nat → List Event} {W1 Q W2 : Nat} {s : PlSt} (h : PlReach tr W1 Q W2 s) :
    ∃ t, PlReach tr W1 Q W2 t ∧ Waiting tr W1 Q W2 t ∧ t.arrived = s.arrived ∧ t.p2.finished = s.p2.finished := by
  obtain ⟨N, hN⟩ := C62_terminates h
  apply Classical.byContradiction
  intro hno
  have key : ∀ n, ∃ run : Nat → PlSt, run 0 = s ∧ ∀ i < n, Inner tr W1 Q W2 (run i) (run (i + 1)) := by
    intro n
    induction n with
    | zero => exact ⟨fun _ => s, rfl, by intro i hi; omega⟩
    | succ n ih =>
      obtain ⟨run, h0, hr⟩ := ih
      have hall : ∀ i, i ≤ n → PlReach tr W1 Q W2 (run i) ∧ (run i).arrived = s.arrived ∧ (run i).p2.finished = s.p2.finished := by
        intro i
        induction i with
        | zero => intro _; rw [h0]; exact ⟨h, rfl, rfl⟩
        | succ i ih =>
          intro hi
          obtain ⟨a, b, c⟩ := ih (by omega)
          have st := hr i (by omega)
          exact ⟨.step a st.1, st.2.1.trans b, st.2.2.trans c⟩
      obtain ⟨a, b, c⟩ := hall n (Nat.le_refl _)
      have : ¬ Waiting tr W1 Q W2 (run n) := fun hw => hno ⟨_, a, hw, b, c⟩
      simp only [Waiting, Classical.not_forall, not_or, Classical.not_not] at this
      obtain ⟨t, st, e1, e2⟩ := this
      refine ⟨fun i => if i ≤ n then run i else t, by simp [h0], ?_⟩
      intro i hi
      by_cases hin : i < n
      · have h1 : i ≤ n := by omega
        have h2 : i + 1 ≤ n := by omega
        simp only [h1, h2, if_true]
        exact hr i hin
      · have : i = n := by omega
        subst this
        have h2 : ¬ i + 1 ≤ i := by omega
        simp only [Nat.le_refl, h2, if_true, if_false]
        exact ⟨st, e1, e2⟩
  obtain ⟨run, h0, hr⟩ := key (N + 1)
  have := hN (N + 1) run h0 (fun i hi => ⟨(hr i hi).1, (hr i hi).2.1⟩)
  omega

private theorem accepted_count {tr : Nat → List Event} {W1 Q W2 : Nat} {s : PlSt} (h : PlReach tr W1 Q W2 s) (ha : AllAnnounces tr)
    (p : Nat) (hp : p ∈ s.p1.finished) : p ∈ s.accepted := by
  have I := pl_inv h
  rw [← List.one_le_count_iff, I.acc, ← countP_logOf, I.log, I.fin p hp, List.take_length, ha p]
  exact Nat.le_refl _

private theorem len_le_of_subset : ∀ {l m : List Nat}, l.Nodup → (∀ x ∈ l, x ∈ m) → l.length ≤ m.length
  | [], _, _, _ => Nat.zero_le _
  | a :: l, m, hn, hs => by
    have hm := hs a (List.mem_cons_self ..)
    have := len_le_of_subset (l := l) (m := m.erase a) (List.nodup_cons.1 hn).2 (fun x hx => by
      have : x ≠ a := fun e => (List.nodup_cons.1 hn).1 (e ▸ hx)
      exact (List.mem_erase_of_ne this).2 (hs x (List.mem_cons_of_mem _ hx)))
    rw [List.length_erase_of_mem hm] at this
    have := List.length_pos_of_mem hm
    simp only [List.length_cons]; omega

private theorem waiting_cases {tr : Nat → List Event} {W1 Q W2 : Nat} (hW1 : 1 ≤ W1) (ha : AllAnnounces tr) {s : PlSt}
    (h : PlReach tr W1 Q W2 s) (hf : s.p2.finished = []) (hw : Waiting tr W1 Q W2 s) :
    Stalled tr Q W2 s ∨ (s.recvq = [] ∧ s.arrived < 2 * W2 + 1 + Q + W1) := by
  have I := pl_inv h
  have h1 : SingleEnqueue tr := fun p => Nat.le_of_eq (ha p)
  have dead : ∀ {t}, PlStep tr W1 Q W2 s t → t.arrived = s.arrived → t.p2.finished = s.p2.finished → False := by
    intro t st e1 e2
    rcases hw t st with h | h
    · exact h e1
    · exact h e2
  have ws2 : ∀ w ∈ s.p2.workers, w = .recv ∨ ∃ p, w = .running p := by
    intro w hm
    obtain ⟨i, hi⟩ := List.getElem?_of_mem hm
    rcases (C50_workers_never_exit I.reach2).2.1 w hm with rfl | rfl | ⟨p, rfl⟩
    · exact (dead (.select2 i hi) rfl rfl).elim
    · exact .inl rfl
    · exact .inr ⟨p, rfl⟩
  have ws1 : ∀ w ∈ s.p1.workers, w = .recv ∨ ∃ p j, w = .running p ∧ (tr p)[s.hdl p]? = some (.enqueue j) := by
    intro w hm
    obtain ⟨i, hi⟩ := List.getElem?_of_mem hm
    rcases (C50_workers_never_exit I.reach1).2.1 w hm with rfl | rfl | ⟨p, rfl⟩
    · exact (dead (.select1 i hi) rfl rfl).elim
    · exact .inl rfl
    · right
      cases he : (tr p)[s.hdl p]? with
      | none =>
        have := List.getElem?_eq_none_iff.1 he
        exact (dead (.done1 i p hi (Nat.le_antisymm (I.hdl p) this)) rfl rfl).elim
      | some e =>
        cases hen : e.isEnqueue with
        | false => exact (dead (.handle i p e hi he hen) rfl rfl).elim
        | true => cases e <;> simp [Event.isEnqueue] at hen; exact ⟨p, _, rfl, he⟩
  -- a waiting worker of the server means that everything before it is empty
  have up : (∃ w ∈ s.p1.workers, w = WPc.recv) → s.p1.queue = [] ∧ s.l = .recv ∧ s.recvq = [] := by
    rintro ⟨w, hm, rfl⟩
    obtain ⟨i, hi⟩ := List.getElem?_of_mem hm
    have q1 : s.p1.queue = [] := by
      cases hq1 : s.p1.queue with
      | nil => rfl
      | cons p q => exact (dead (.recv1 i p q hi hq1) rfl rfl).elim
    have l1 : s.l = .recv := by
      cases hl : s.l with
      | recv => rfl
      | hold p =>
        cases hs : s.p1.subs p with
        | start => exact (dead (.listenCheck p hl hs I.ok1.2.1) rfl rfl).elim
        | sending => exact (dead (.listenSend p hl hs (by rw [q1]; exact hW1)) rfl rfl).elim
        | panicked => exact absurd hs (I.ok1.2.2 p)
        | sent =>
          have hm := ((wp_inv I.reach1).sent p).2 hs
          have nd := List.nodup_range (n := s.arrived)
          rw [I.in1, hl, List.append_assoc, List.nodup_append] at nd
          exact absurd rfl (nd.2.2 p hm p (by simp [FwdPc.item]))
    refine ⟨q1, l1, ?_⟩
    cases hj : s.recvq with
    | nil => rfl
    | cons p q => exact (dead (.listenTake p q l1 hj) rfl rfl).elim
  by_cases hall : ∃ w ∈ s.p1.workers, w = WPc.recv
  · -- some worker waits: count
    right
    obtain ⟨q1, l1, r1⟩ := up hall
    refine ⟨r1, ?_⟩
    have a1 := (C62_fifo h).1
    rw [q1, l1, r1] at a1
    simp [FwdPc.item] at a1
    have len := congrArg List.length a1
    simp at len
    have ex := (wp_inv I.reach1).exec
    have exl := ex.length_eq
    rw [List.length_append] at exl
    have nd : s.p1.finished.Nodup := by
      have := (ex.nodup_iff).1 (started_nodup I.reach1)
      rw [List.nodup_append] at this
      exact this.1
    have hle : s.p1.finished.length ≤ s.accepted.length :=
      len_le_of_subset nd (fun p hp => accepted_count h ha p hp)
    have hb := (C62_bounded h).2
    rw [hf] at hb
    have hrun : (runningTasks s.p1.workers).length < W1 := by
      rw [← (wp_inv I.reach1).len]
      obtain ⟨w, hm, rfl⟩ := hall
      refine List.length_filterMap_lt_length_iff_exists.2 ⟨.recv, hm, rfl⟩
    simp at hb
    omega
  · -- all of them want to enqueue
    left
    have b1 : ∀ w ∈ s.p1.workers, ∃ p j, w = .running p ∧ (tr p)[s.hdl p]? = some (.enqueue j) := by
      intro w hm
      rcases ws1 w hm with e | e
      · exact absurd ⟨w, hm, e⟩ hall
      · exact e
    have hl : 0 < s.p1.workers.length := by rw [(wp_inv I.reach1).len]; exact hW1
    obtain ⟨p, j, ep, hj⟩ := b1 _ (List.getElem_mem hl)
    have hp : s.p1.workers[0]? = some (.running p) := by rw [List.getElem?_eq_getElem hl, ep]
    have full : s.jobs.length = Q := by
      refine Nat.le_antisymm I.room ?_
      apply Classical.byContradiction
      intro hlt
      exact dead (.enqueue 0 p j hp hj (by omega)) rfl rfl
    have held : ∃ p, s.f = .hold p := by
      cases hfs : s.f with
      | hold p => exact ⟨p, rfl⟩
      | recv =>
        cases hjs : s.jobs with
        | nil => exact (dead (.handoff 0 p j hp hj hjs hfs) rfl rfl).elim
        | cons x q => exact (dead (.fetchTake x q hfs hjs) rfl rfl).elim
    obtain ⟨x, hx⟩ := held
    have full2 : s.p2.queue.length = W2 := by
      refine Nat.le_antisymm (wp_inv I.reach2).room ?_
      apply Classical.byContradiction
      intro hlt
      cases hs : s.p2.subs x with
      | start => exact (dead (.fetchCheck x hx hs I.ok2.2.1) rfl rfl).elim
      | sending => exact (dead (.fetchSend x hx hs (by omega)) rfl rfl).elim
      | panicked => exact absurd hs (I.ok2.2.2 x)
      | sent =>
        have hm := ((wp_inv I.reach2).sent x).2 hs
        have nd := (C62_once h h1).1
        rw [I.in2, hx, List.append_assoc, List.nodup_append] at nd
        exact absurd rfl (nd.2.2 x hm x (by simp [FwdPc.item]))
    refine ⟨?_, full2, ⟨x, hx⟩, full, b1⟩
    intro w hm
    rcases ws2 w hm with rfl | e
    · obtain ⟨i, hi⟩ := List.getElem?_of_mem hm
      cases hq : s.p2.queue with
      | nil =>
        have : 0 < s.p2.workers.length := List.length_pos_of_mem hm
        rw [(wp_inv I.reach2).len] at this
        rw [hq] at full2; simp at full2; omega
      | cons y q => exact (dead (.recv2 i y q hi hq) rfl rfl).elim
    · exact e

/-- **Announces bring the server to a halt**: with pools of any sizes and a channel of any capacity, at most `2*W2 + 1 + Q + W1` accepted
announces whose downloads take long suffice for a stall (`C62_stall`). -/
theorem C62_stall_reachable {tr : Nat → List Event} {W1 Q W2 : Nat} (hW1 : 1 ≤ W1) (ha : AllAnnounces tr) :
    ∃ s, PlReach tr W1 Q W2 s ∧ Stalled tr Q W2 s ∧ s.arrived ≤ 2 * W2 + 1 + Q + W1 ∧ s.p2.finished = [] := by
  have wp : ∀ n, ∃ s, WpInit n s := fun n =>
    ⟨{ status := .running, queue := [], closed := false, wg := n, workers := List.replicate n .select, subs := fun _ => .start,
       shuts := fun c => if c = 0 then .listening else .check, cancelled := false, dead := false, submitted := [], started := [],
       finished := [] }, rfl, rfl, rfl, rfl, rfl, fun _ => rfl, rfl, fun c hc => by simp [hc], rfl, rfl, rfl, rfl⟩
  obtain ⟨w1, hw1⟩ := wp W1
  obtain ⟨w2, hw2⟩ := wp W2
  have key : ∀ k, k ≤ 2 * W2 + 1 + Q + W1 → ∃ s, PlReach tr W1 Q W2 s ∧ s.p2.finished = [] ∧ Waiting tr W1 Q W2 s ∧
      ((Stalled tr Q W2 s ∧ s.arrived ≤ k) ∨ s.arrived = k) := by
    intro k
    induction k with
    | zero =>
      intro _
      have r0 : PlReach tr W1 Q W2 ⟨[], 0, .recv, w1, fun _ => 0, [], .recv, w2, [], []⟩ := .init ⟨rfl, rfl, rfl, hw1, fun _ => rfl, rfl, rfl, hw2, rfl, rfl⟩
      obtain ⟨t, a, b, c, d⟩ := settle r0
      refine ⟨t, a, ?_, b, .inr c⟩
      rw [d]; exact hw2.2.2.2.2.2.2.2.2.2.2.2
    | succ k ih =>
      intro hk
      obtain ⟨s, a, b, c, d⟩ := ih (by omega)
      rcases d with ⟨d, e⟩ | d
      · exact ⟨s, a, b, c, .inl ⟨d, by omega⟩⟩
      · rcases waiting_cases hW1 ha a b c with hs | ⟨hr, -⟩
        · exact ⟨s, a, b, c, .inl ⟨hs, by omega⟩⟩
        · have r := Reach.step a (PlStep.arrive (by rw [hr]; decide))
          obtain ⟨t, a', b', c', d'⟩ := settle r
          exact ⟨t, a', by rw [d']; exact b, b', .inr (by rw [c']; simp [d])⟩
  obtain ⟨s, a, b, c, d⟩ := key _ (Nat.le_refl _)
  rcases d with ⟨d, e⟩ | d
  · exact ⟨s, a, d, e, b⟩
  · rcases waiting_cases hW1 ha a b c with hs | ⟨-, hlt⟩
    · exact ⟨s, a, hs, by omega, b⟩
    · omega

/-- traces as those of an announce -/
example : AllAnnounces fun _ => [.dispatch { txId := [], qType := [], body := none, handler := none } { ip := [], port := 0 },
    .enqueue { req := { txId := [], qType := [], body := none, handler := none }, addr := { ip := [], port := 0 } },
    .send { ip := [], port := 0 } [] false] := by
  intro p; rfl

end P2P

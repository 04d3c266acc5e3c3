import Verif.Lemmas.SystemNetSettle
/-! # C113: executions -/
namespace P2P

/-- The two stages, when nothing but the return of a download can happen: if one worker of the downloads waits for work, then everything that has arrived has been
handled, and every accepted job has been started. -/
theorem pl_parked {tr : Nat → List Event} {W1 Q W2 : Nat} (hW1 : 1 ≤ W1) (hW2 : 1 ≤ W2) (h1 : SingleEnqueue tr) {s : PlSt}
    (h : PlReach tr W1 Q W2 s) (hq : ∀ t, PlQuiet tr W1 Q W2 s t → t.p2.finished ≠ s.p2.finished) {j : Nat} (hj : s.p2.workers[j]? = some .recv) :
    s.p1.finished.Perm (List.range s.arrived) ∧ (∀ p < s.arrived, logOf p s.log = tr p) ∧ s.p2.started = s.accepted := by
  have I := pl_inv h
  have dead : ∀ {t}, PlStep tr W1 Q W2 s t → t.arrived = s.arrived → t.p2.finished = s.p2.finished → False := fun st he hf => hq _ ⟨st, he⟩ hf
  have q2 : s.p2.queue = [] := by
    cases hq2 : s.p2.queue with
    | nil => rfl
    | cons p q => exact (dead (.recv2 j p q hj hq2) rfl rfl).elim
  have f2 : s.f = .recv := by
    cases hf : s.f with
    | recv => rfl
    | hold p =>
      cases hs : s.p2.subs p with
      | start => exact (dead (.fetchCheck p hf hs I.ok2.2.1) rfl rfl).elim
      | sending => exact (dead (.fetchSend p hf hs (by rw [q2]; exact hW2)) rfl rfl).elim
      | panicked => exact absurd hs (I.ok2.2.2 p)
      | sent =>
        have hm := ((wp_inv I.reach2).sent p).2 hs
        have nd := (C62_once h h1).1
        rw [I.in2, hf, List.append_assoc, List.nodup_append] at nd
        exact absurd rfl (nd.2.2 p hm p (by simp [FwdPc.item]))
  have j2 : s.jobs = [] := by
    cases hj : s.jobs with
    | nil => rfl
    | cons p q => exact (dead (.fetchTake p q f2 hj) rfl rfl).elim
  have ws1 : ∀ w ∈ s.p1.workers, w = .recv := by
    intro w hw
    obtain ⟨i, hi⟩ := List.getElem?_of_mem hw
    rcases (C50_workers_never_exit I.reach1).2.1 w hw with rfl | rfl | ⟨p, rfl⟩
    · exact (dead (.select1 i hi) rfl rfl).elim
    · rfl
    · cases he : (tr p)[s.hdl p]? with
      | none =>
        have := List.getElem?_eq_none_iff.1 he
        exact (dead (.done1 i p hi (Nat.le_antisymm (I.hdl p) this)) rfl rfl).elim
      | some e =>
        cases hen : e.isEnqueue with
        | false => exact (dead (.handle i p e hi he hen) rfl rfl).elim
        | true =>
          cases e <;> simp [Event.isEnqueue] at hen
          exact (dead (.handoff i p _ hi he j2 f2) rfl rfl).elim
  have q1 : s.p1.queue = [] := by
    cases hq1 : s.p1.queue with
    | nil => rfl
    | cons p q =>
      have hl : 0 < s.p1.workers.length := by rw [(wp_inv I.reach1).len]; exact hW1
      have := ws1 s.p1.workers[0] (List.getElem_mem hl)
      exact (dead (.recv1 0 p q (by rw [List.getElem?_eq_getElem hl, this]) hq1) rfl rfl).elim
  have l1 : s.l = .recv := by
    cases hf : s.l with
    | recv => rfl
    | hold p =>
      cases hs : s.p1.subs p with
      | start => exact (dead (.listenCheck p hf hs I.ok1.2.1) rfl rfl).elim
      | sending => exact (dead (.listenSend p hf hs (by rw [q1]; exact hW1)) rfl rfl).elim
      | panicked => exact absurd hs (I.ok1.2.2 p)
      | sent =>
        have hm := ((wp_inv I.reach1).sent p).2 hs
        have nd := List.nodup_range (n := s.arrived)
        rw [I.in1, hf, List.append_assoc, List.nodup_append] at nd
        exact absurd rfl (nd.2.2 p hm p (by simp [FwdPc.item]))
  have r1 : s.recvq = [] := by
    cases hj : s.recvq with
    | nil => rfl
    | cons p q => exact (dead (.listenTake p q l1 hj) rfl rfl).elim
  have e1 := (wp_inv I.reach1).exec
  have hnone : runningTasks s.p1.workers = [] := by
    apply List.filterMap_eq_nil_iff.2
    intro w hw
    rw [ws1 w hw]
  rw [hnone, List.append_nil] at e1
  have a1 := (C62_fifo h).1
  have a2 := (C62_fifo h).2.1
  rw [q1, l1, r1] at a1
  rw [q2, f2, j2] at a2
  simp only [FwdPc.item, List.append_nil] at a1 a2
  refine ⟨by rw [← a1]; exact e1.symm, fun p hp => ?_, a2⟩
  have hm : p ∈ s.p1.finished := by
    rw [← e1.mem_iff, a1]; exact List.mem_range.2 hp
  rw [I.log p, I.fin p hm, List.take_length]

section
variable {S : SysEnv} {port : Int} {fs0 : Bytes → Option Bytes}

/-- any number of datagrams is read and handled completely -/
theorem net_runs (hW1 : 1 ≤ S.W1) (hW2 : 1 ≤ S.W2) {t0 : RouteTable} (h0 : initialTable port = .ok t0) (hh : ∀ a ∈ S.hosts, a ≠ none) (hd : S.dir = true)
    (hends : S.NetEnds port fs0) (n : Nat) : ∃ s conn mem pool O, NetCalm S port fs0 s ∧ s.sys.pg.got.length = n ∧ s.sys.pl.arrived = n ∧ (∀ p, (O p).Fair) ∧
      CrReach (crawlTraces S.K O S.pkts) ((S.instead conn mem pool).out O) S.dir fs0 S.W1 S.Q S.W2 ⟨s.sys.pl, s.sys.fs⟩ ∧
      ∀ u, ¬ PlQuiet (crawlTraces S.K O S.pkts) S.W1 S.Q S.W2 s.sys.pl u := by
  induction n with
  | zero =>
    obtain ⟨s, hs, h1, h2, h3, -⟩ := net_listens (fs0 := fs0) h0 hh
    obtain ⟨t, conn, mem, pool, O, a1, a2, a3, a4⟩ := net_settle hs hd hends
    exact ⟨t, conn, mem, pool, O, a1, by rw [a2, h3]; rfl, by rw [a3, h1]; rfl, a4⟩
  | succ n ih =>
    obtain ⟨s, conn, mem, pool, O, hs, h1, h2, hO, hc, hq⟩ := ih
    have hpl := (C92_refines hc).1
    have hqe : s.sys.pl.recvq = [] := by
      have hfin := (C62_all_done hW1 hW2 (crawl_single S.K hO S.pkts) hpl hq).1
      have hfifo : s.sys.pl.p1.started ++ s.sys.pl.p1.queue ++ s.sys.pl.l.item ++ s.sys.pl.recvq = List.range s.sys.pl.arrived := (C62_fifo hpl).1
      have hlen := congrArg List.length hfifo
      have hle : s.sys.pl.p1.finished.length ≤ s.sys.pl.p1.started.length := by
        have := ((C48_fifo_once (pl_inv hpl).reach1).2.2.2.1).length_eq
        rw [List.length_append] at this
        show s.sys.pl.p1.finished.length ≤ s.sys.pl.p1.started.length
        have e : (CrSt.mk s.sys.pl s.sys.fs).pl = s.sys.pl := rfl
        rw [e] at this
        omega
      have hl2 : s.sys.pl.p1.finished.length = (List.range s.sys.pl.arrived).length := hfin.length_eq
      simp only [List.length_append] at hlen
      exact List.eq_nil_of_length_eq_zero (by omega)
    obtain ⟨t, ht, e1, -, e2⟩ := net_arrive hs (by rw [hqe]; decide)
    obtain ⟨u, conn', mem', pool', O', a1, a2, a3, a4⟩ := net_settle ht hd hends
    refine ⟨u, conn', mem', pool', O', a1, ?_, ?_, a4⟩
    · rw [a2, e1, List.length_append, h1]; rfl
    · rw [a3, e2]; exact congrArg (· + 1) h2

/-- the announces among what has arrived are the jobs accepted -/
theorem announce_accepted {conn : Nat → Bytes → PEnv} {mem : Nat → Nat → Bytes} {pool : Nat → BPool} {O : Nat → Oracle} (hO : ∀ p, (O p).Fair) {s : SysNetSt}
    (hc : CrReach (crawlTraces S.K O S.pkts) ((S.instead conn mem pool).out O) S.dir fs0 S.W1 S.Q S.W2 ⟨s.sys.pl, s.sys.fs⟩) {p : Nat} {job : Job}
    (hj : IsAnnounce (S.pkts p) job) (hlog : logOf p s.sys.pl.log = crawlTraces S.K O S.pkts p) : p ∈ s.sys.pl.accepted := by
  have I := pl_inv (C92_refines hc).1
  rcases crawlTraces_spec S.K hO S.pkts p with ⟨job', b, f, hj', e⟩ | ⟨hn, -⟩
  · rw [show s.sys.pl.accepted = _ from I.acc]
    have : Event.enqueue job' ∈ logOf p s.sys.pl.log := by rw [hlog, e]; simp
    obtain ⟨⟨q, ev⟩, hq, he⟩ := List.mem_filterMap.1 this
    by_cases hqp : q = p
    · subst hqp; simp at he; subst he; exact List.mem_map.2 ⟨_, List.mem_filter.2 ⟨hq, rfl⟩, rfl⟩
    · simp [hqp] at he
  · exact absurd hj (hn job)

/-- **C113** Non-vacuity: whatever the network sends, if the bootstrap hosts resolve, the directory exists and the downloads end, there is, for every `n`, an execution in
which `n` datagrams are read and all of them handled completely, their downloads run step by step. -/
theorem C113_runs (hW1 : 1 ≤ S.W1) (hW2 : 1 ≤ S.W2) {t0 : RouteTable} (h0 : initialTable port = .ok t0) (hh : ∀ a ∈ S.hosts, a ≠ none) (hd : S.dir = true)
    (hends : S.NetEnds port fs0) (n : Nat) :
    ∃ s, SysNetReach S port fs0 s ∧ s.sys.up ∧ s.sys.pg.st.pc = .listen ∧ s.sys.pg.got.length = n ∧ s.sys.pl.p1.finished.Perm (List.range n) ∧
      (∀ p job, p < n → IsAnnounce (S.pkts p) job → p ∈ s.sys.pl.p2.finished) ∧ ∀ p, s.sys.fs.pc p = .start ∨ s.sys.fs.pc p = .done := by
  obtain ⟨s, conn, mem, pool, O, hs, h1, h2, hO, hc, hq⟩ := net_runs (fs0 := fs0) hW1 hW2 h0 hh hd hends n
  have hpl := (C92_refines hc).1
  obtain ⟨a1, a2, a3⟩ := C62_all_done hW1 hW2 (crawl_single S.K hO S.pkts) hpl hq
  refine ⟨s, hs.reach, hs.up, hs.listen, h1, by rw [← h2]; exact a1, fun p job hp hj => ?_, hs.pc⟩
  exact a3.mem_iff.2 (announce_accepted hO hc hj (a2 p (by rw [show (CrSt.mk s.sys.pl s.sys.fs).pl.arrived = n from h2]; exact hp)))

/-- **C113** Downloads do run at the same time: of up to 100 datagrams, there is an execution in which, before any download has ended, all announces among them have a
worker that runs them at the same time, or else all workers run one. -/
theorem C113_parallel (hW1 : 1 ≤ S.W1) (hW2 : 1 ≤ S.W2) {t0 : RouteTable} (h0 : initialTable port = .ok t0) (hh : ∀ a ∈ S.hosts, a ≠ none) (n : Nat) (hn : n ≤ 100) :
    ∃ s, NetCalm S port fs0 s ∧ s.sys.pg.got.length = n ∧ s.sys.pl.p2.finished = [] ∧ (s.dl = fun _ => .idle) ∧ s.shared.1 = (fun _ => []) ∧
      NewBytesPool 10000 4 0 = .ok s.shared.2 ∧
      ((∀ p job, p < n → IsAnnounce (S.pkts p) job → ∃ i : Nat, s.sys.pl.p2.workers[i]? = some (WPc.running p)) ∨ ∀ i < S.W2, ∃ p, s.sys.pl.p2.workers[i]? = some (WPc.running p)) := by
  have arrive : ∀ n, n ≤ 100 → ∃ s, NetCalm S port fs0 s ∧ s.sys.pg.got.length = n ∧ s.sys.pl.arrived = n ∧ s.sys.pl.recvq.length = n ∧ s.sys.pl.p2.finished = [] ∧
      (s.dl = fun _ => .idle) ∧ s.shared.1 = (fun _ => []) ∧ NewBytesPool 10000 4 0 = .ok s.shared.2 := by
    intro n
    induction n with
    | zero =>
      intro _
      obtain ⟨s, hs, h1, h2, h3, h4, h5, h6⟩ := net_listens (fs0 := fs0) h0 hh
      exact ⟨s, hs, by rw [h3]; rfl, by rw [h1]; rfl, by rw [h1]; rfl, by rw [h1]; rfl, h4, h5, h6⟩
    | succ n ih =>
      intro hn
      obtain ⟨s, hs, h1, h2, h3, h4, h5⟩ := ih (by omega)
      obtain ⟨t, ht, e1, -, e2⟩ := net_arrive hs (by omega)
      exact ⟨_, ht, by simp only [e1, List.length_append, h1]; rfl, by simp only [e2, h2], by simp only [e2, List.length_append, h3]; rfl, by simp only [e2, h4], h5⟩
  obtain ⟨s, hs, h1, h2, -, h4, h5, h6, h7⟩ := arrive n hn
  obtain ⟨t, conn, mem, pool, O, ht, b1, b2, -, b4, hO, hc, hq⟩ := net_park hs
  have hpl := (C92_refines hc).1
  have I := pl_inv hpl
  refine ⟨_, ht, by simp only [b1, h1], by simp only [b4, h4], h5, h6, h7, ?_⟩
  by_cases hall : ∀ i < S.W2, ∃ p, t.pl.p2.workers[i]? = some (.running p)
  · exact .inr hall
  · left
    obtain ⟨j, hj⟩ := Classical.not_forall.1 hall
    obtain ⟨hj, hno⟩ := Classical.not_imp.1 hj
    have hlen : t.pl.p2.workers.length = S.W2 := (C50_workers_never_exit I.reach2).1
    have hw : t.pl.p2.workers[j]? = some .recv := by
      have hw := List.getElem?_eq_getElem (l := t.pl.p2.workers) (i := j) (by rw [hlen]; exact hj)
      rcases (C50_workers_never_exit I.reach2).2.1 _ (List.mem_of_getElem? hw) with e | e | ⟨p, e⟩
      · rw [e] at hw; exact (hq _ ⟨PlStep.select2 j hw, rfl⟩ rfl).elim
      · rw [e] at hw; exact hw
      · rw [e] at hw; exact absurd ⟨p, hw⟩ hno
    obtain ⟨a1, a2, a3⟩ := pl_parked hW1 hW2 (crawl_single S.K hO S.pkts) hpl hq hw
    intro p job hp hj
    have hacc := announce_accepted (s := { s with sys := t }) hO hc hj (a2 p (by show p < t.pl.arrived; rw [b2, h2]; exact hp))
    have hacc : p ∈ t.pl.p2.started := by rw [show t.pl.p2.started = _ from a3]; exact hacc
    have hfin : t.pl.p2.finished = [] := b4.trans h4
    have hrun : p ∈ runningTasks t.pl.p2.workers := by
      have := (wp_inv I.reach2).exec.mem_iff.1 hacc
      rw [show (CrSt.mk t.pl t.fs).pl.p2.finished = [] from hfin] at this
      exact this
    obtain ⟨w, hw, e⟩ := List.mem_filterMap.1 hrun
    cases w <;> simp at e
    subst e
    exact List.getElem?_of_mem hw

end
end P2P

import Verif.Lemmas.SystemBounds
import Verif.Fair
/-! # Infinite executions of the whole system and of its parts -/
namespace P2P

section
variable {S : SysEnv} {port : Int} {fs0 : Bytes → Option Bytes} {s t : SysSt}

theorem agree_of_reach {tr tr' : Nat → List Event} {W1 Q W2 : Nat} {s : PlSt} (h : PlReach tr W1 Q W2 s) (h' : PlReach tr' W1 Q W2 s) : AgreeOn s tr tr' := by
  have I := pl_inv h
  have I' := pl_inv h'
  refine ⟨fun p => (I'.log p).symm.trans (I.log p), fun p hp => ?_⟩
  have a := I.log p
  have a' := I'.log p
  rw [I.fin p hp, List.take_length] at a
  rw [I'.fin p hp, List.take_length] at a'
  exact a'.symm.trans a

theorem continues_of_reach {O : Nat → Oracle} (hO : ∀ p, (O p).Fair) (h : CrawlReach S.K O S.pkts S.W1 S.Q S.W2 s.pl) : Continues S s (crawlTraces S.K O S.pkts) := by
  have I := pl_inv h
  intro p
  refine ⟨?_, ?_, fun hp => ?_⟩
  · obtain ⟨run, hr, -⟩ := C29_crawler S.K (O p) (S.pkts p)
    exact ⟨O p, run, hO p, hr, by simp [crawlTraces, hr]⟩
  · rw [I.log p]; exact List.take_prefix _ _
  · rw [I.log p, I.fin p hp, List.take_length]

/-- what a step of the system does to packets, jobs and files is a step of `Model/Whole` -/
theorem sys_step_cr (h : SysReach S port fs0 s) (st : SysStep S s t) :
    (CrSt.mk t.pl t.fs = CrSt.mk s.pl s.fs) ∨ ∃ O : Nat → Oracle, (∀ p, (O p).Fair) ∧
      CrReach (crawlTraces S.K O S.pkts) (S.out O) S.dir fs0 S.W1 S.Q S.W2 ⟨s.pl, s.fs⟩ ∧
      CrStep (crawlTraces S.K O S.pkts) (S.out O) S.dir S.W1 S.Q S.W2 ⟨s.pl, s.fs⟩ ⟨t.pl, t.fs⟩ := by
  obtain ⟨O, hO, hc⟩ := sys_crawler h
  have link := sys_link h
  have hpl := (C92_refines hc).1
  cases st with
  | life _ _ _ _ _ => exact .inl rfl
  | boot tr _ _ _ _ => exact .inl rfl
  | read _ _ _ => exact .inl rfl
  | deliver x _ st e1 =>
    refine .inr ⟨O, hO, hc, .pipe (.arrive ?_) rfl⟩
    cases pgKind st with
    | deliver p x0 x1 x2 x3 x4 x5 x6 => rw [link.queue, List.length_map] at x6; exact x6
    | boot tr x1 x2 x3 x4 x5 => exact (snoc_ne (x4.symm.trans e1)).elim
    | quiet x1 x2 x3 x4 x5 => exact (snoc_ne (x4.symm.trans e1)).elim
    | read p x1 x2 x3 x4 x5 => exact (snoc_ne (x4.symm.trans e1)).elim
    | take p r x1 x2 x3 x4 x5 => exact (snoc_ne (x4.symm.trans e1)).elim
  | take x p q _ st e1 e2 e3 => exact .inr ⟨O, hO, hc, .pipe (.listenTake p q e2 e3) rfl⟩
  | @pipe pl w tr new _ hcont st e1 e2 e3 e4 e5 e6 e7 =>
    have I := pl_inv hpl
    obtain ⟨O', hO'⟩ := Classical.axiomOfChoice (fun p => (hcont p).1)
    have hf : ∀ p, (O' p).Fair := fun p => (hO' p).choose_spec.1
    have htr : crawlTraces S.K O' S.pkts = tr := by
      funext p
      obtain ⟨run, -, h2, h3⟩ := hO' p
      rw [h3]; unfold crawlTraces; rw [h2]
    refine .inr ⟨O', hf, ?_⟩
    rw [htr, S.out_same hf hO]
    refine ⟨cr_change hc ?_, .pipe st e3⟩
    refine ⟨fun p => ?_, fun p hp => ?_⟩
    · have hl := I.log p
      have := (hcont p).2.1
      rw [hl] at this
      have hlen : ((crawlTraces S.K O S.pkts p).take (s.pl.hdl p)).length = s.pl.hdl p := by
        rw [List.length_take]; exact Nat.min_eq_left (I.hdl p)
      have e := List.prefix_iff_eq_take.1 this
      rw [hlen] at e
      exact e.symm
    · rw [(hcont p).2.2 hp, I.log p, I.fin p hp, List.take_length]
  | @file fs i p _ hw st hd =>
    refine .inr ⟨O, hO, hc, .file i p hw ?_ hd⟩
    have : (fun j => if j = p then flushes (s.outs S) j else none) = (fun j => if j = p then flushes (S.out O) j else none) := by
      funext j
      split
      · rename_i e; subst e
        unfold flushes; rw [outs_eq S hO hpl hw]
      · rfl
    rw [← this]; exact st
  | back i p _ hw hr =>
    refine .inr ⟨O, hO, hc, .back p (.done2 i p hw) rfl ?_⟩
    unfold HandlerReturns at hr ⊢
    rw [outs_eq S hO hpl hw] at hr
    exact hr
  | fatal i p _ _ _ => exact .inl rfl

/-- the same with answers that are right in the end -/
theorem sys_step_with (h : SysReach S port fs0 s) (st : SysStep S s t) {O : Nat → Oracle} (hO : ∀ p, (O p).Fair)
    (hc : CrReach (crawlTraces S.K O S.pkts) (S.out O) S.dir fs0 S.W1 S.Q S.W2 ⟨t.pl, t.fs⟩) :
    (CrSt.mk t.pl t.fs = CrSt.mk s.pl s.fs) ∨ CrStep (crawlTraces S.K O S.pkts) (S.out O) S.dir S.W1 S.Q S.W2 ⟨s.pl, s.fs⟩ ⟨t.pl, t.fs⟩ := by
  rcases sys_step_cr h st with e | ⟨O', hO', hc', st'⟩
  · exact .inl e
  · right
    have ag : AgreeOn t.pl (crawlTraces S.K O' S.pkts) (crawlTraces S.K O S.pkts) := agree_of_reach (C92_refines (hc'.step st')).1 (C92_refines hc).1
    rw [S.out_same hO hO']
    obtain ⟨tpg, tpl, tfs, tw, toom⟩ := t
    simp only at st' ag ⊢
    cases st' with
    | pipe hp hf => exact .pipe (ag.step hp) hf
    | file i p a b c => exact .file i p a b c
    | back p hp hf hr => exact .back p (ag.step hp) hf hr

/-! ## One oracle for a whole execution -/

theorem logOf_prefix {p : Nat} {l l' : List (Nat × Event)} (h : l <+: l') : logOf p l <+: logOf p l' := by
  obtain ⟨x, rfl⟩ := h
  unfold logOf
  rw [List.filterMap_append]
  exact List.prefix_append _ _

/-- how the work on one packet goes on over time -/
theorem sys_mono (h : SysReach S port fs0 s) (st : SysStep S s t) :
    s.pl.log <+: t.pl.log ∧ s.pl.p1.finished <+: t.pl.p1.finished ∧ (∀ p, s.pl.hdl p ≤ t.pl.hdl p) ∧ ∀ p ∈ s.pl.p1.finished, t.pl.hdl p = s.pl.hdl p := by
  have pl : ∀ {tr : Nat → List Event}, PlReach tr S.W1 S.Q S.W2 s.pl → PlStep tr S.W1 S.Q S.W2 s.pl t.pl → s.pl.log <+: t.pl.log ∧ s.pl.p1.finished <+: t.pl.p1.finished ∧
      (∀ p, s.pl.hdl p ≤ t.pl.hdl p) ∧ ∀ p ∈ s.pl.p1.finished, t.pl.hdl p = s.pl.hdl p := by
    intro tr hr st
    obtain ⟨m1, m2⟩ := plStep_mono st
    have I := pl_inv hr
    have up : ∀ {i p : Nat}, s.pl.p1.workers[i]? = some (.running p) → ∀ q ∈ s.pl.p1.finished, upd s.pl.hdl p (s.pl.hdl p + 1) q = s.pl.hdl q := by
      intro i p hw q hq
      exact upd_ne _ _ fun e => not_finished_of_running I.reach1 hw (e ▸ hq)
    refine ⟨?_, m2, m1, ?_⟩
    · generalize t.pl = u at st
      cases st with
      | handle i p e _ _ _ => exact List.prefix_append _ _
      | enqueue i p j _ _ _ => exact List.prefix_append _ _
      | handoff i p j _ _ _ _ => exact List.prefix_append _ _
      | _ => exact List.prefix_refl _
    · generalize t.pl = u at st
      cases st with
      | handle i p e a _ _ => exact up a
      | enqueue i p j a _ _ => exact up a
      | handoff i p j a _ _ _ => exact up a
      | _ => exact fun _ _ => rfl
  rcases sys_step_cr h st with e | ⟨O, hO, hc, st'⟩
  · injection e with e1 e2
    rw [e1]; exact ⟨List.prefix_refl _, List.prefix_refl _, fun _ => Nat.le_refl _, fun _ _ => rfl⟩
  · rcases cr_pl st' with e1 | e1
    · simp only at e1
      rw [e1]; exact ⟨List.prefix_refl _, List.prefix_refl _, fun _ => Nat.le_refl _, fun _ _ => rfl⟩
    · exact pl (C92_refines hc).1 e1

/-- a bounded number has a moment at which it is largest -/
theorem comes_to_rest (f : Nat → Nat) (b : Nat) (hb : ∀ i, f i ≤ b) : ∃ N, ∀ i, f i ≤ f N := by
  have key : ∀ d, (∃ N, ∀ i, f i ≤ f N) ∨ ∃ N, d ≤ f N := by
    intro d
    induction d with
    | zero => exact .inr ⟨0, Nat.zero_le _⟩
    | succ d ih =>
      rcases ih with h | ⟨N, h⟩
      · exact .inl h
      · by_cases hx : ∃ M, d + 1 ≤ f M
        · exact .inr hx
        · exact .inl ⟨N, fun i => by
            have : ¬ d + 1 ≤ f i := fun h => hx ⟨i, h⟩
            omega⟩
  rcases key (b + 1) with h | ⟨N, h⟩
  · exact h
  · exact absurd (hb N) (by omega)

/-- **One oracle for a whole execution**: the answers the handlers get in the course of an infinite execution are those of answers fixed in advance. -/
theorem sys_oracle {e : Nat → SysSt} (r : Run (SysInit S port fs0) (SysStep S) e) :
    ∃ O : Nat → Oracle, (∀ p, (O p).Fair) ∧
      (∀ i, CrReach (crawlTraces S.K O S.pkts) (S.out O) S.dir fs0 S.W1 S.Q S.W2 ⟨(e i).pl, (e i).fs⟩) ∧
      Run (CrInit fs0 S.W1 S.W2) (CrStep (crawlTraces S.K O S.pkts) (S.out O) S.dir S.W1 S.Q S.W2) (fun i => ⟨(e i).pl, (e i).fs⟩) := by
  obtain ⟨Os, hOs⟩ := Classical.axiomOfChoice (fun i => sys_crawler (r.reach i))
  obtain ⟨B, hB⟩ := traces_bound S.K S.pkts
  have mono : ∀ i, (e i).pl.log <+: (e (i + 1)).pl.log ∧ (e i).pl.p1.finished <+: (e (i + 1)).pl.p1.finished ∧ (∀ p, (e i).pl.hdl p ≤ (e (i + 1)).pl.hdl p) ∧
      ∀ p ∈ (e i).pl.p1.finished, (e (i + 1)).pl.hdl p = (e i).pl.hdl p := by
    intro i
    rcases r.next i with h | h
    · rw [h]; exact ⟨List.prefix_refl _, List.prefix_refl _, fun _ => Nat.le_refl _, fun _ _ => rfl⟩
    · exact sys_mono (r.reach i) h
  have mono' : ∀ i j, i ≤ j → (e i).pl.log <+: (e j).pl.log ∧ (e i).pl.p1.finished <+: (e j).pl.p1.finished ∧ (∀ p, (e i).pl.hdl p ≤ (e j).pl.hdl p) ∧
      ∀ p ∈ (e i).pl.p1.finished, (e j).pl.hdl p = (e i).pl.hdl p := by
    intro i j hij
    induction j with
    | zero => have : i = 0 := by omega
              subst this; exact ⟨List.prefix_refl _, List.prefix_refl _, fun _ => Nat.le_refl _, fun _ _ => rfl⟩
    | succ j ih =>
      by_cases hx : i = j + 1
      · subst hx; exact ⟨List.prefix_refl _, List.prefix_refl _, fun _ => Nat.le_refl _, fun _ _ => rfl⟩
      · obtain ⟨a, b, c, d⟩ := ih (by omega)
        obtain ⟨a', b', c', d'⟩ := mono j
        exact ⟨a.trans a', b.trans b', fun p => Nat.le_trans (c p) (c' p), fun p hp => (d' p (b.subset hp)).trans (d p hp)⟩
  have inv : ∀ i, PlInv (crawlTraces S.K (Os i) S.pkts) S.W1 S.Q S.W2 (e i).pl := fun i => pl_inv (C92_refines (hOs i).2).1
  have rest : ∀ p, ∃ N, (∀ i, (e i).pl.hdl p ≤ (e N).pl.hdl p) ∧ ∀ i, p ∈ (e i).pl.p1.finished → p ∈ (e N).pl.p1.finished := by
    intro p
    obtain ⟨N, hN⟩ := comes_to_rest (fun i => (e i).pl.hdl p) (B p) fun i => Nat.le_trans ((inv i).hdl p) (hB (Os i) (hOs i).1 p)
    by_cases hf : ∃ i, p ∈ (e i).pl.p1.finished
    · obtain ⟨i, hi⟩ := hf
      refine ⟨max i N, fun k => Nat.le_trans (hN k) ((mono' N (max i N) (Nat.le_max_right _ _)).2.2.1 p), fun _ _ => ?_⟩
      exact (mono' i (max i N) (Nat.le_max_left _ _)).2.1.subset hi
    · exact ⟨N, hN, fun i hi => absurd ⟨i, hi⟩ hf⟩
  obtain ⟨N, hN⟩ := Classical.axiomOfChoice rest
  have fair : ∀ p, (Os (N p) p).Fair := fun p => (hOs (N p)).1 p
  have same : ∀ p, crawlTraces S.K (fun p => Os (N p) p) S.pkts p = crawlTraces S.K (Os (N p)) S.pkts p := fun p => rfl
  have len : ∀ i p, (logOf p (e i).pl.log).length = (e i).pl.hdl p := by
    intro i p
    rw [(inv i).log p, List.length_take]
    exact Nat.min_eq_left ((inv i).hdl p)
  have pre : ∀ i p, logOf p (e i).pl.log <+: logOf p (e (N p)).pl.log := by
    intro i p
    rcases Nat.le_total i (N p) with h | h
    · exact logOf_prefix (mono' _ _ h).1
    · have a := logOf_prefix (p := p) (mono' _ _ h).1
      rw [a.eq_of_length_le (by rw [len, len]; exact (hN p).1 i)]
      exact List.prefix_refl _
  have agree : ∀ i, AgreeOn (e i).pl (crawlTraces S.K (Os i) S.pkts) (crawlTraces S.K (fun p => Os (N p) p) S.pkts) := by
    intro i
    refine ⟨fun p => ?_, fun p hp => ?_⟩
    · rw [same, ← (inv i).log p]
      have a := pre i p
      rw [(inv (N p)).log p] at a
      have b := a.trans (List.take_prefix _ _)
      have c := List.prefix_iff_eq_take.1 b
      rw [len] at c
      exact c.symm
    · have hf := (hN p).2 i hp
      rw [same]
      have a := (inv i).log p
      rw [(inv i).fin p hp, List.take_length] at a
      have b := (inv (N p)).log p
      rw [(inv (N p)).fin p hf, List.take_length] at b
      rw [← a, ← b]
      refine ((pre i p).eq_of_length_le ?_).symm
      rw [len, len]
      rcases Nat.le_total i (N p) with h | h
      · rw [(mono' _ _ h).2.2.2 p hp]; exact Nat.le_refl _
      · exact (mono' _ _ h).2.2.1 p
  have hc : ∀ i, CrReach (crawlTraces S.K (fun p => Os (N p) p) S.pkts) (S.out fun p => Os (N p) p) S.dir fs0 S.W1 S.Q S.W2 ⟨(e i).pl, (e i).fs⟩ := by
    intro i
    rw [S.out_same fair (hOs i).1]
    exact cr_change (hOs i).2 (agree i)
  refine ⟨fun p => Os (N p) p, fair, hc, ⟨⟨r.start.2.1, r.start.2.2.1⟩, fun i => ?_⟩⟩
  rcases r.next i with h | h
  · left; simp only [h]
  · exact sys_step_with (r.reach i) h fair (hc (i + 1))

end

end P2P

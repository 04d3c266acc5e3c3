import Verif.Lemmas.RouteTableConc
/-! # C73: the route table under concurrent use -/
namespace P2P
open RouteTable

/-- `t` is the table after the insertions `l`, one after the other -/
def TableAfter (env : Env) (h : NodeInfo) (k c : Nat) (l : List NodeInfo) (t : RouteTable) : Prop :=
  ∃ es, (RouteTable.new h k c).addAll env l = .ok (t, es)

theorem addAll_snoc {env : Env} {t t1 t2 : RouteTable} {l : List NodeInfo} {n : NodeInfo} {es : List (Option Bytes)} {e : Option Bytes}
    (h : t.addAll env l = .ok (t1, es)) (h2 : t1.AddNode env n = .ok (t2, e)) : t.addAll env (l ++ [n]) = .ok (t2, es ++ [e]) := by
  induction l generalizing t es with
  | nil => cases h; simp [addAll, h2]
  | cons m r ih =>
    simp only [addAll, List.cons_append] at h ⊢
    cases ha : t.AddNode env m with
    | ok x =>
      obtain ⟨t', e'⟩ := x
      rw [ha] at h
      simp only [Res.bind_ok] at h ⊢
      cases hb : t'.addAll env r with
      | ok y =>
        obtain ⟨t'', es'⟩ := y
        rw [hb] at h
        cases h
        rw [ih hb]; rfl
      | err _ => rw [hb] at h; cases h
      | panic _ => rw [hb] at h; cases h
      | diverge => rw [hb] at h; cases h
    | err _ => rw [ha] at h; cases h
    | panic _ => rw [ha] at h; cases h
    | diverge => rw [ha] at h; cases h

section
variable {env : Env} {h : NodeInfo} {k c : Nat}

theorem TableAfter.snoc {l : List NodeInfo} {t t' : RouteTable} {n : NodeInfo} {e : Option Bytes} (ht : TableAfter env h k c l t)
    (ha : t.AddNode env n = .ok (t', e)) : TableAfter env h k c (l ++ [n]) t' := by
  obtain ⟨es, hs⟩ := ht
  exact ⟨_, addAll_snoc hs ha⟩

theorem TableAfter.reach {l : List NodeInfo} {t : RouteTable} (ht : TableAfter env h k c l t) : Reachable env t := by
  obtain ⟨es, hs⟩ := ht
  obtain ⟨t', es', h1, h2⟩ := C19_runs env h k c l
  rw [hs] at h1; cases h1; exact h2

theorem TableAfter.unique {l : List NodeInfo} {t t' : RouteTable} (h1 : TableAfter env h k c l t) (h2 : TableAfter env h k c l t') : t = t' := by
  obtain ⟨es, h1⟩ := h1
  obtain ⟨es', h2⟩ := h2
  rw [h1] at h2; cases h2; rfl

/-- `r` is the answer of a call made on the table after the first `i` insertions of `log`, the call being the next insertion if
it is one -/
def AnswerAt (env : Env) (h : NodeInfo) (k c : Nat) (log : List NodeInfo) (op : RtOp) (i : Nat) (r : Res RtVal) : Prop :=
  i ≤ log.length ∧ (∃ t, TableAfter env h k c (log.take i) t ∧ r = op.answer env t) ∧ ∀ n, op = .add n → log[i]? = some n

theorem AnswerAt.mono {log l : List NodeInfo} {op : RtOp} {i : Nat} {r : Res RtVal} (ha : AnswerAt env h k c log op i r) :
    AnswerAt env h k c (log ++ l) op i r := by
  obtain ⟨h1, ⟨t, h2, h3⟩, h4⟩ := ha
  refine ⟨by simp; omega, ⟨t, by rwa [List.take_append_of_le_length h1], h3⟩, fun n hn => ?_⟩
  have := h4 n hn
  have hlt : i < log.length := by
    rcases Nat.lt_or_ge i log.length with h | h
    · exact h
    · rw [List.getElem?_eq_none h] at this; cases this
  rw [List.getElem?_append_left hlt, this]

structure RtInv (env : Env) (h : NodeInfo) (k c : Nat) (s : RtSt) : Prop where
  wr : ∀ g, s.writer = some g ↔ ∃ op st p, s.pc g = .inside op st p ∧ op.writes = true
  rd : ∀ g, s.readers g = true ↔ ∃ op st p, s.pc g = .inside op st p ∧ op.writes = false
  excl : ∀ g, s.readers g = true → s.writer = none
  free : s.writer = none → TableAfter env h k c s.log s.table
  wsec : ∀ g n st p, s.pc g = .inside (.add n) st p →
    ∃ t t' e, TableAfter env h k c s.log t ∧ t.AddNode env n = .ok (t', e) ∧ p.run s.table = (.ok (.err e), t')
  rsec : ∀ g op st p, s.pc g = .inside op st p → op.writes = false →
    p.ReadOnly ∧ p.run s.table = (op.answer env s.table, s.table)
  wait : ∀ g op st, s.pc g = .wait op st → st ≤ s.log.length
  inside : ∀ g op st p, s.pc g = .inside op st p → st ≤ s.log.length
  leave : ∀ g op st i r, s.pc g = .leave op st i r → st ≤ i ∧ AnswerAt env h k c s.log op i r
  done : ∀ d ∈ s.done, d.start ≤ d.at' ∧ d.at' ≤ d.stop ∧ (d.op.writes = true → d.at' < d.stop) ∧ d.stop ≤ s.log.length ∧
    AnswerAt env h k c s.log d.op d.at' d.res

theorem writes_add {op : RtOp} (hw : op.writes = true) : ∃ n, op = .add n := by
  cases op <;> simp_all [RtOp.writes]

theorem rtInv_init {s : RtSt} (hi : RtInit h k c s) : RtInv env h k c s := by
  obtain ⟨h1, h2, h3, h4, h5, h6⟩ := hi
  refine ⟨?_, ?_, ?_, ?_, ?_, ?_, ?_, ?_, ?_, ?_⟩ <;> intros <;> simp_all
  exact ⟨[], rfl⟩

theorem rtInv_step {s s' : RtSt} (hi : RtInv env h k c s) (hs : RtStep env s s') : RtInv env h k c s' := by
  obtain ⟨g, hs⟩ := hs
  have pcg : ∀ (x : RtPc) (u : Nat), upd s.pc g x u = if u = g then x else s.pc u := fun x u => rfl
  cases hs with
  | call op hp =>
    have ng : ∀ u (a : RtOp) (b : Nat) (p : TProg RtVal), (upd s.pc g (.wait op s.log.length) u = .inside a b p) ↔ s.pc u = .inside a b p := by
      intro u a b p; rw [pcg]; split
      · rename_i hu; subst hu; simp [hp]
      · rfl
    have nl : ∀ u (a : RtOp) (b i : Nat) (r : Res RtVal), (upd s.pc g (.wait op s.log.length) u = .leave a b i r) ↔ s.pc u = .leave a b i r := by
      intro u a b i r; rw [pcg]; split
      · rename_i hu; subst hu; simp [hp]
      · rfl
    refine ⟨?_, ?_, hi.excl, hi.free, ?_, ?_, ?_, ?_, ?_, hi.done⟩ <;> simp only [ng, nl]
    · exact hi.wr
    · exact hi.rd
    · exact hi.wsec
    · exact hi.rsec
    · intro u a b hu
      rw [pcg] at hu
      split at hu
      · cases hu; exact Nat.le_refl _
      · exact hi.wait u a b hu
    · exact hi.inside
    · exact hi.leave
  | rlock op st hp hw hn =>
    have nw : ∀ u (a : RtOp) (b : Nat), upd s.pc g (.inside op st (op.prog env)) u = .wait a b → s.pc u = .wait a b := by
      intro u a b hu; rw [pcg] at hu; split at hu
      · cases hu
      · exact hu
    have nl : ∀ u (a : RtOp) (b i : Nat) (r : Res RtVal), upd s.pc g (.inside op st (op.prog env)) u = .leave a b i r → s.pc u = .leave a b i r := by
      intro u a b i r hu; rw [pcg] at hu; split at hu
      · cases hu
      · exact hu
    refine ⟨?_, ?_, ?_, hi.free, ?_, ?_, ?_, ?_, ?_, hi.done⟩
    · intro u
      simp only [pcg]
      split
      · rename_i hu; subst hu
        simp only [hn, reduceCtorEq, false_iff, RtPc.inside.injEq]
        rintro ⟨a, b, p, ⟨rfl, -, -⟩, hx⟩
        rw [hw] at hx; cases hx
      · exact hi.wr u
    · intro u
      simp only [pcg, upd]
      split
      · simp only [true_iff]; exact ⟨_, _, _, rfl, hw⟩
      · exact hi.rd u
    · intro u _; exact hn
    · intro u n b p hu
      simp only [pcg] at hu
      split at hu
      · cases hu; cases hw
      · exact hi.wsec u n b p hu
    · intro u a b p hu ha
      simp only [pcg] at hu
      split at hu
      · cases hu; exact ⟨prog_ro _ hw, prog_read _ _ hw⟩
      · exact hi.rsec u a b p hu ha
    · exact fun u a b hu => hi.wait u a b (nw u a b hu)
    · intro u a b p hu
      simp only [pcg] at hu
      split at hu
      · cases hu; exact hi.wait g _ _ hp
      · exact hi.inside u a b p hu
    · exact fun u a b i r hu => hi.leave u a b i r (nl u a b i r hu)
  | lock op st hp hw hn hr =>
    have nl : ∀ u (a : RtOp) (b i : Nat) (r : Res RtVal), upd s.pc g (.inside op st (op.prog env)) u = .leave a b i r → s.pc u = .leave a b i r := by
      intro u a b i r hu; rw [pcg] at hu; split at hu
      · cases hu
      · exact hu
    refine ⟨?_, ?_, ?_, ?_, ?_, ?_, ?_, ?_, ?_, hi.done⟩
    · intro u
      simp only [pcg]
      split
      · rename_i hu; subst hu
        simp only [true_iff]; exact ⟨_, _, _, rfl, hw⟩
      · rename_i hu
        simp only [Option.some.injEq]
        refine ⟨fun e => absurd e.symm hu, fun hx => ?_⟩
        have := (hi.wr u).2 hx
        rw [hn] at this; cases this
    · intro u
      simp only [pcg]
      split
      · rename_i hu; subst hu
        simp only [hr, Bool.false_eq_true, false_iff, RtPc.inside.injEq]
        rintro ⟨a, b, p, ⟨rfl, -, -⟩, hx⟩
        rw [hw] at hx; cases hx
      · exact hi.rd u
    · intro u hu; simp only [hr] at hu; cases hu
    · intro hx; cases hx
    · intro u n b p hu
      simp only [pcg] at hu
      split at hu
      · cases hu
        have ht := hi.free hn
        obtain ⟨t', e, h1, -⟩ := AddNode_spec ht.reach.inv n
        exact ⟨_, t', e, ht, h1, prog_add h1⟩
      · exact hi.wsec u n b p hu
    · intro u a b p hu ha
      simp only [pcg] at hu
      split at hu
      · cases hu; rw [hw] at ha; cases ha
      · exact hi.rsec u a b p hu ha
    · intro u a b hu
      simp only [pcg] at hu
      split at hu
      · cases hu
      · exact hi.wait u a b hu
    · intro u a b p hu
      simp only [pcg] at hu
      split at hu
      · cases hu; exact hi.wait g _ _ hp
      · exact hi.inside u a b p hu
    · exact fun u a b i r hu => hi.leave u a b i r (nl u a b i r hu)
  | access op st p p' t' hp hst =>
    have hsame : op.writes = false → t' = s.table := fun hw => ((hi.rsec g op st p hp hw).1.step hst).1
    -- others in a section see no change
    have hoth : ∀ u a b q, u ≠ g → s.pc u = .inside a b q → t' = s.table := by
      intro u a b q hu hq
      cases hw : op.writes with
      | false => exact hsame hw
      | true =>
        exfalso
        have h1 := (hi.wr g).2 ⟨_, _, _, hp, hw⟩
        cases ha : a.writes with
        | true => have h2 := (hi.wr u).2 ⟨_, _, _, hq, ha⟩; rw [h1] at h2; cases h2; exact hu rfl
        | false => have h2 := hi.excl u ((hi.rd u).2 ⟨_, _, _, hq, ha⟩); rw [h1] at h2; cases h2
    refine ⟨?_, ?_, hi.excl, ?_, ?_, ?_, ?_, ?_, ?_, hi.done⟩
    · intro u
      simp only [pcg]
      split
      · rename_i hu; subst hu
        rw [hi.wr]
        constructor
        · rintro ⟨a, b, q, h1, h2⟩; rw [hp] at h1; cases h1; exact ⟨_, _, _, rfl, h2⟩
        · rintro ⟨a, b, q, h1, h2⟩; cases h1; exact ⟨_, _, _, hp, h2⟩
      · exact hi.wr u
    · intro u
      simp only [pcg]
      split
      · rename_i hu; subst hu
        rw [hi.rd]
        constructor
        · rintro ⟨a, b, q, h1, h2⟩; rw [hp] at h1; cases h1; exact ⟨_, _, _, rfl, h2⟩
        · rintro ⟨a, b, q, h1, h2⟩; cases h1; exact ⟨_, _, _, hp, h2⟩
      · exact hi.rd u
    · intro hn
      cases hw : op.writes with
      | false => simp only [hsame hw]; exact hi.free hn
      | true => have h1 := (hi.wr g).2 ⟨_, _, _, hp, hw⟩; simp only at hn; rw [h1] at hn; cases hn
    · intro u n b q hu
      simp only [pcg] at hu
      split at hu
      · cases hu
        obtain ⟨t, t2, e, h1, h2, h3⟩ := hi.wsec g n _ p hp
        exact ⟨t, t2, e, h1, h2, by rw [← h3]; exact (TProg.step_run hst).symm⟩
      · rename_i hne
        simp only [hoth u _ _ _ hne hu]
        exact hi.wsec u n b q hu
    · intro u a b q hu ha
      simp only [pcg] at hu
      split at hu
      · cases hu
        obtain ⟨h1, h2⟩ := hi.rsec g _ _ p hp ha
        obtain ⟨e1, e2⟩ := h1.step hst
        subst e1
        exact ⟨e2, by rw [← h2]; exact (TProg.step_run hst).symm⟩
      · rename_i hne
        simp only [hoth u _ _ _ hne hu]
        exact hi.rsec u a b q hu ha
    · intro u a b hu
      simp only [pcg] at hu
      split at hu
      · cases hu
      · exact hi.wait u a b hu
    · intro u a b q hu
      simp only [pcg] at hu
      split at hu
      · cases hu; exact hi.inside g _ _ _ hp
      · exact hi.inside u a b q hu
    · intro u a b i r hu
      simp only [pcg] at hu
      split at hu
      · cases hu
      · exact hi.leave u a b i r hu
  | runlock op st p r hp ho hw =>
    refine ⟨?_, ?_, ?_, hi.free, ?_, ?_, ?_, ?_, ?_, hi.done⟩
    · intro u
      simp only [pcg]
      split
      · rename_i hu; subst hu
        rw [hi.wr]
        constructor
        · rintro ⟨a, b, q, h1, h2⟩; rw [hp] at h1; cases h1; rw [hw] at h2; cases h2
        · rintro ⟨a, b, q, h1, h2⟩; cases h1
      · exact hi.wr u
    · intro u
      simp only [pcg, upd]
      split
      · simp
      · exact hi.rd u
    · intro u hu
      simp only [upd] at hu
      split at hu
      · cases hu
      · exact hi.excl u hu
    · intro u n b q hu
      simp only [pcg] at hu
      split at hu
      · cases hu
      · exact hi.wsec u n b q hu
    · intro u a b q hu ha
      simp only [pcg] at hu
      split at hu
      · cases hu
      · exact hi.rsec u a b q hu ha
    · intro u a b hu
      simp only [pcg] at hu
      split at hu
      · cases hu
      · exact hi.wait u a b hu
    · intro u a b q hu
      simp only [pcg] at hu
      split at hu
      · cases hu
      · exact hi.inside u a b q hu
    · intro u a b i r' hu
      simp only [pcg] at hu
      split at hu
      · cases hu
        refine ⟨hi.inside g _ _ _ hp, Nat.le_refl _, ⟨s.table, ?_, ?_⟩, ?_⟩
        · simp only [List.take_length]
          exact hi.free (hi.excl g ((hi.rd g).2 ⟨_, _, _, hp, hw⟩))
        · have := (hi.rsec g _ _ p hp hw).2
          rw [TProg.outcome_run ho] at this
          exact congrArg Prod.fst this
        · rintro n rfl; cases hw
      · exact hi.leave u a b i r' hu
  | unlock op st p r hp ho hw =>
    obtain ⟨n, rfl⟩ := writes_add hw
    obtain ⟨t, t', e, h1, h2, h3⟩ := hi.wsec g n st p hp
    rw [TProg.outcome_run ho] at h3
    obtain ⟨e1, e2⟩ : r = .ok (.err e) ∧ s.table = t' := by simpa using h3
    have hgw := (hi.wr g).2 ⟨_, _, _, hp, hw⟩
    have hnone : ∀ u a b q, u ≠ g → s.pc u ≠ .inside a b q := by
      intro u a b q hu hq
      cases ha : a.writes with
      | true => have h2 := (hi.wr u).2 ⟨_, _, _, hq, ha⟩; rw [hgw] at h2; cases h2; exact hu rfl
      | false => have h2 := hi.excl u ((hi.rd u).2 ⟨_, _, _, hq, ha⟩); rw [hgw] at h2; cases h2
    have hin : ∀ u a b q, upd s.pc g (.leave (.add n) st s.log.length r) u ≠ .inside a b q := by
      intro u a b q hu
      rw [pcg] at hu
      split at hu
      · cases hu
      · rename_i hne; exact hnone u a b q hne hu
    refine ⟨?_, ?_, ?_, ?_, ?_, ?_, ?_, ?_, ?_, ?_⟩
    · intro u
      simp only [reduceCtorEq, false_iff]
      rintro ⟨a, b, q, hq, -⟩
      exact hin u a b q hq
    · intro u
      constructor
      · intro hu
        have := hi.excl u hu
        rw [hgw] at this; cases this
      · rintro ⟨a, b, q, hq, -⟩
        exact absurd hq (hin u a b q)
    · intro u _; rfl
    · intro _
      simp only [RtOp.logged, e2]
      exact h1.snoc h2
    · exact fun u a b q hu => absurd hu (hin u _ b q)
    · exact fun u a b q hu _ => absurd hu (hin u a b q)
    · intro u a b hu
      simp only [pcg] at hu
      split at hu
      · cases hu
      · have := hi.wait u a b hu; simp; omega
    · exact fun u a b q hu => absurd hu (hin u a b q)
    · intro u a b i r' hu
      simp only [pcg] at hu
      split at hu
      · cases hu
        refine ⟨hi.inside g _ _ _ hp, by simp, ⟨t, ?_, ?_⟩, ?_⟩
        · simpa [RtOp.logged] using h1
        · rw [e1]; simp [RtOp.answer, h2]
        · intro m hm; cases hm; simp [RtOp.logged]
      · have := hi.leave u a b i r' hu
        exact ⟨this.1, this.2.mono⟩
    · intro d hd
      obtain ⟨a1, a2, a3, a4, a5⟩ := hi.done d hd
      exact ⟨a1, a2, a3, by simp; omega, a5.mono⟩
  | ret op st i r hp =>
    have ng : ∀ u (a : RtOp) (b : Nat) (p : TProg RtVal), (upd s.pc g .idle u = .inside a b p) ↔ s.pc u = .inside a b p := by
      intro u a b p; rw [pcg]; split
      · rename_i hu; subst hu; simp [hp]
      · rfl
    refine ⟨?_, ?_, hi.excl, hi.free, ?_, ?_, ?_, ?_, ?_, ?_⟩ <;> simp only [ng]
    · exact hi.wr
    · exact hi.rd
    · exact hi.wsec
    · exact hi.rsec
    · intro u a b hu
      rw [pcg] at hu
      split at hu
      · cases hu
      · exact hi.wait u a b hu
    · exact hi.inside
    · intro u a b j r' hu
      rw [pcg] at hu
      split at hu
      · cases hu
      · exact hi.leave u a b j r' hu
    · intro d hd
      simp only [List.mem_append, List.mem_singleton] at hd
      rcases hd with hd | rfl
      · exact hi.done d hd
      · obtain ⟨b1, b2, b3, b4⟩ := hi.leave g op st i r hp
        refine ⟨b1, b2, fun hw => ?_, Nat.le_refl _, b2, b3, b4⟩
        obtain ⟨n, rfl⟩ := writes_add hw
        have := b4 n rfl
        rcases Nat.lt_or_ge i s.log.length with hlt | hge
        · exact hlt
        · rw [List.getElem?_eq_none hge] at this; cases this

abbrev RtReach (env : Env) (h : NodeInfo) (k c : Nat) (s : RtSt) : Prop := Reach (RtInit h k c) (RtStep env) s

theorem rtReach_inv {s : RtSt} (hr : RtReach env h k c s) : RtInv env h k c s :=
  hr.inv (RtInv env h k c) (fun _ => rtInv_init) (fun _ _ => rtInv_step)

/-- C73: the table is linearizable. Whatever the schedule, there is one order of the insertions (`log`), and every completed
call answered exactly what the sequential table answers after some prefix of this order - a prefix that contains every insertion
completed before the call began and none that was still to begin its critical section when the call returned; an insertion stands itself at this
position. -/
theorem C73_linearizable {s : RtSt} (hr : RtReach env h k c s) {d : RtDone} (hd : d ∈ s.done) :
    ∃ t es, (RouteTable.new h k c).addAll env (s.log.take d.at') = .ok (t, es) ∧ Reachable env t ∧ d.res = d.op.answer env t ∧
      d.start ≤ d.at' ∧ d.at' ≤ d.stop ∧ d.stop ≤ s.log.length ∧
      ∀ n, d.op = .add n → s.log[d.at']? = some n ∧ d.at' < d.stop := by
  obtain ⟨h1, h2, h3, h4, -, ⟨t, ⟨es, h5⟩, h6⟩, h7⟩ := (rtReach_inv hr).done d hd
  exact ⟨t, es, h5, TableAfter.reach ⟨es, h5⟩, h6, h1, h2, h4, fun n hn => ⟨h7 n hn, h3 (by rw [hn]; rfl)⟩⟩

/-- positions of the completed insertions -/
def addPositions (s : RtSt) : List Nat := (s.done.filter (·.op.writes)).map (·.at')

structure RtOnce (s : RtSt) : Prop where
  nodup : (addPositions s).Nodup
  pend : ∀ g op st i r, s.pc g = .leave op st i r → op.writes = true → i ∉ addPositions s
  pend2 : ∀ g g' op op' st st' i r r', s.pc g = .leave op st i r → s.pc g' = .leave op' st' i r' → op.writes = true →
    op'.writes = true → g = g'
  cover : ∀ i, i < s.log.length → i ∈ addPositions s ∨ ∃ g op st r, s.pc g = .leave op st i r ∧ op.writes = true

theorem rtOnce_step {s s' : RtSt} (hi : RtInv env h k c s) (ho : RtOnce s) (hs : RtStep env s s') : RtOnce s' := by
  obtain ⟨g, hs⟩ := hs
  have pcg : ∀ (x : RtPc) (u : Nat), upd s.pc g x u = if u = g then x else s.pc u := fun x u => rfl
  -- steps that change neither the log, nor the completed calls, nor who is leaving
  have same : ∀ (s' : RtSt), s'.log = s.log → s'.done = s.done →
      (∀ u op st i r, op.writes = true → (s'.pc u = .leave op st i r ↔ s.pc u = .leave op st i r)) → RtOnce s' := by
    intro s' e1 e2 e3
    have e4 : addPositions s' = addPositions s := by unfold addPositions; rw [e2]
    refine ⟨by rw [e4]; exact ho.nodup, ?_, ?_, ?_⟩
    · intro u op st i r hu hw; rw [e4]; exact ho.pend u op st i r ((e3 u op st i r hw).1 hu) hw
    · intro u u' op op' st st' i r r' h1 h2 w1 w2
      exact ho.pend2 u u' op op' st st' i r r' ((e3 _ _ _ _ _ w1).1 h1) ((e3 _ _ _ _ _ w2).1 h2) w1 w2
    · intro i hlt
      rw [e1] at hlt; rw [e4]
      rcases ho.cover i hlt with h | ⟨u, op, st, r, hu, hw⟩
      · exact .inl h
      · exact .inr ⟨u, op, st, r, (e3 _ _ _ _ _ hw).2 hu, hw⟩
  have noleave : ∀ (x : RtPc), (∀ op st i r, op.writes = true → x ≠ .leave op st i r) → (∀ op st i r, s.pc g ≠ .leave op st i r) →
      ∀ u op st i r, op.writes = true → (upd s.pc g x u = .leave op st i r ↔ s.pc u = .leave op st i r) := by
    intro x hx hg u op st i r hw
    rw [pcg]
    split
    · rename_i hu; subst hu
      exact ⟨fun e => absurd e (hx _ _ _ _ hw), fun e => absurd e (hg _ _ _ _)⟩
    · rfl
  cases hs with
  | call op hp => exact same _ rfl rfl (noleave _ (by intros; exact RtPc.noConfusion) (by intros; rw [hp]; exact RtPc.noConfusion))
  | rlock op st hp hw hn => exact same _ rfl rfl (noleave _ (by intros; exact RtPc.noConfusion) (by intros; rw [hp]; exact RtPc.noConfusion))
  | lock op st hp hw hn hr => exact same _ rfl rfl (noleave _ (by intros; exact RtPc.noConfusion) (by intros; rw [hp]; exact RtPc.noConfusion))
  | access op st p p' t' hp hst => exact same _ rfl rfl (noleave _ (by intros; exact RtPc.noConfusion) (by intros; rw [hp]; exact RtPc.noConfusion))
  | runlock op st p r hp hout hw =>
    refine same _ rfl rfl (noleave _ ?_ (by intros; rw [hp]; exact RtPc.noConfusion))
    intro op' st' i' r' hw' e
    cases e
    rw [hw] at hw'; cases hw'
  | unlock op st p r hp hout hw =>
    have lt_of_ans : ∀ op' i' r', op'.writes = true → AnswerAt env h k c s.log op' i' r' → i' < s.log.length := by
      intro op' i' r' hw' ha
      obtain ⟨n, rfl⟩ := writes_add hw'
      have := ha.2.2 n rfl
      rcases Nat.lt_or_ge i' s.log.length with hlt | hge
      · exact hlt
      · rw [List.getElem?_eq_none hge] at this; cases this
    have hpos : s.log.length ∉ addPositions s := by
      intro hm
      obtain ⟨d, hd, e⟩ := List.mem_map.1 hm
      have hd := List.mem_filter.1 hd
      have := (hi.done d hd.1).2.2.2.2
      have := lt_of_ans _ _ _ hd.2 this
      omega
    refine ⟨ho.nodup, ?_, ?_, ?_⟩
    · intro u op' st' i' r' hu hw'
      simp only [pcg] at hu
      split at hu
      · cases hu; exact hpos
      · exact ho.pend u op' st' i' r' hu hw'
    · intro u u' a a' b b' i' q q' h1 h2 w1 w2
      simp only [pcg] at h1 h2
      split at h1
      · rename_i e1; cases h1
        split at h2
        · rename_i e2; rw [e1, e2]
        · have := lt_of_ans _ _ _ w2 (hi.leave _ _ _ _ _ h2).2; omega
      · split at h2
        · cases h2
          have := lt_of_ans _ _ _ w1 (hi.leave _ _ _ _ _ h1).2; omega
        · exact ho.pend2 _ _ _ _ _ _ _ _ _ h1 h2 w1 w2
    · intro i' hlt
      obtain ⟨n, rfl⟩ := writes_add hw
      simp only [RtOp.logged, List.length_append, List.length_cons, List.length_nil] at hlt
      by_cases hlast : i' = s.log.length
      · subst hlast
        exact .inr ⟨g, .add n, st, r, by simp only [upd_same], rfl⟩
      · rcases ho.cover i' (by omega) with h | ⟨u, op', st', r', hu, hw'⟩
        · exact .inl h
        · refine .inr ⟨u, op', st', r', ?_, hw'⟩
          simp only [pcg]
          split
          · rename_i e; subst e; rw [hp] at hu; cases hu
          · exact hu
  | ret op st i r hp =>
    have hadd : addPositions { s with pc := upd s.pc g .idle, done := s.done ++ [{ op, res := r, start := st, at' := i, stop := s.log.length }] } =
        addPositions s ++ (if op.writes = true then [i] else []) := by
      unfold addPositions
      simp only [List.filter_append, List.map_append]
      congr 1
      cases hw : op.writes <;> simp [List.filter, hw]
    refine ⟨?_, ?_, ?_, ?_⟩
    · rw [hadd]
      split
      · rename_i hw
        rw [List.nodup_append]
        refine ⟨ho.nodup, by simp, ?_⟩
        intro a ha b hb e
        simp only [List.mem_singleton] at hb
        subst hb; subst e
        exact ho.pend _ _ _ _ _ hp hw ha
      · simpa using ho.nodup
    · intro u op' st' i' r' hu hw' hm
      simp only [pcg] at hu
      split at hu
      · cases hu
      · rename_i hne
        rw [hadd, List.mem_append] at hm
        rcases hm with hm | hm
        · exact ho.pend _ _ _ _ _ hu hw' hm
        · split at hm
          · rename_i hw
            simp only [List.mem_singleton] at hm
            subst hm
            exact hne (ho.pend2 _ _ _ _ _ _ _ _ _ hu hp hw' hw)
          · cases hm
    · intro u u' a a' b b' j q q' h1 h2 w1 w2
      simp only [pcg] at h1 h2
      split at h1
      · cases h1
      · split at h2
        · cases h2
        · exact ho.pend2 _ _ _ _ _ _ _ _ _ h1 h2 w1 w2
    · intro j hlt
      rw [hadd, List.mem_append]
      rcases ho.cover j hlt with hm | ⟨u, op', st', r', hu, hw'⟩
      · exact .inl (.inl hm)
      · by_cases e : u = g
        · subst e
          rw [hp] at hu; cases hu
          exact .inl (.inr (by simp [hw']))
        · exact .inr ⟨u, op', st', r', by simp only [pcg, e, if_false]; exact hu, hw'⟩

/-- C73: every insertion takes effect exactly once: different completed `AddNode` calls stand at different positions of the
order, and every position belongs to a completed call or to one that has left its critical section and is about to return. -/
theorem C73_once {s : RtSt} (hr : RtReach env h k c s) :
    ((s.done.filter (·.op.writes)).map (·.at')).Nodup ∧
    ∀ i, i < s.log.length → (∃ d ∈ s.done, d.op.writes = true ∧ d.at' = i) ∨ ∃ g op st r, s.pc g = .leave op st i r ∧ op.writes = true := by
  have ho : RtOnce s := by
    have : RtInv env h k c s ∧ RtOnce s := by
      refine hr.inv (fun s => RtInv env h k c s ∧ RtOnce s) (fun s h0 => ⟨rtInv_init h0, ?_⟩) (fun s t h1 h2 => ⟨rtInv_step h1.1 h2, rtOnce_step h1.1 h1.2 h2⟩)
      obtain ⟨-, -, -, h4, h5, h6⟩ := h0
      refine ⟨by simp [addPositions, h6], ?_, ?_, ?_⟩
      · intro g op st i r hg; rw [h4] at hg; cases hg
      · intro g g' op op' st st' i r r' hg; rw [h4] at hg; cases hg
      · intro i hi; rw [h5] at hi; cases hi
    exact this.2
  refine ⟨ho.nodup, fun i hi => ?_⟩
  rcases ho.cover i hi with hm | hm
  · obtain ⟨d, hd, e⟩ := List.mem_map.1 hm
    have hd := List.mem_filter.1 hd
    exact .inl ⟨d, hd.1, hd.2, e⟩
  · exact .inr hm

/-- C73: nobody is in a critical section together with a writer, so no access of one method is interleaved with a write of another;
and while no writer is inside, the table is one that a sequential program could have. -/
theorem C73_exclusive {s : RtSt} (hr : RtReach env h k c s) {g g' : Nat} {op op' : RtOp} {st st' : Nat} {p p' : TProg RtVal}
    (h1 : s.pc g = .inside op st p) (h2 : s.pc g' = .inside op' st' p') (hw : op.writes = true) : g = g' := by
  have hi := rtReach_inv hr
  have e1 := (hi.wr g).2 ⟨_, _, _, h1, hw⟩
  cases hw' : op'.writes with
  | true => have e2 := (hi.wr g').2 ⟨_, _, _, h2, hw'⟩; rw [e1] at e2; cases e2; rfl
  | false => have e2 := hi.excl g' ((hi.rd g').2 ⟨_, _, _, h2, hw'⟩); rw [e1] at e2; cases e2

theorem C73_quiescent {s : RtSt} (hr : RtReach env h k c s) (hw : s.writer = none) :
    ∃ es, (RouteTable.new h k c).addAll env s.log = .ok (s.table, es) := (rtReach_inv hr).free hw

/-- C73: no call panics, except `FindClosest` with a negative count, and none diverges. -/
theorem C73_no_panic {s : RtSt} (hr : RtReach env h k c s) {d : RtDone} (hd : d ∈ s.done)
    (hk : ∀ id z, d.op = .closest id z → 0 ≤ z) : ∃ v, d.res = .ok v := by
  obtain ⟨t, es, -, hR, h2, -⟩ := C73_linearizable hr hd
  rw [h2]
  have key : ∀ {α : Type} (x : Res α) (f : α → RtVal), x.noPanic → (∀ e, x ≠ .err e) → ∃ v, (x >>= fun a => (pure (f a) : Res RtVal)) = .ok v := by
    intro α x f hx he
    cases x with
    | ok a => exact ⟨_, rfl⟩
    | err e => exact absurd rfl (he e)
    | panic p => exact hx.elim
    | diverge => exact hx.elim
  have hb : ∀ i e, t.bucket i ≠ .err e := by intro i e; unfold RouteTable.bucket; split <;> intro h <;> cases h
  cases hop : d.op with
  | add n =>
    obtain ⟨t', e, h1, -⟩ := AddNode_spec hR.inv n
    exact ⟨_, by simp [RtOp.answer, h1]; rfl⟩
  | find id =>
    refine key _ _ (C19_no_panic hR h id 0).2.1 fun e he => ?_
    unfold RouteTable.Find at he
    cases hx : t.bucket (t.solveMaxPreLen id) with
    | ok b => rw [hx] at he; cases he
    | err e => exact hb _ _ hx
    | panic p => rw [hx] at he; cases he
    | diverge => rw [hx] at he; cases he
  | closest id z =>
    have hz := hk id z hop
    obtain ⟨zn, rfl⟩ : ∃ n : Nat, z = n := ⟨z.toNat, by omega⟩
    refine key _ _ (C19_no_panic hR h id zn).2.2.1 fun e he => ?_
    unfold RouteTable.FindClosest at he
    rw [if_neg (by omega)] at he
    have : ∀ n acc, t.closestLoop zn n acc ≠ .err e := by
      intro n
      induction n with
      | zero => intro acc h; cases h
      | succ n ih =>
        intro acc h
        unfold closestLoop at h
        split at h
        · cases hx : t.bucket n with
          | ok b => rw [hx] at h; exact ih _ h
          | err e => exact hb _ _ hx
          | panic p => rw [hx] at h; cases h
          | diverge => rw [hx] at h; cases h
        · cases h
    exact this _ _ he
  | size => exact ⟨_, rfl⟩
  | full =>
    refine key _ _ (C19_no_panic hR h [] 0).2.2.2 fun e he => ?_
    unfold RouteTable.Full at he
    split at he
    · cases hx : t.bucket t.last with
      | ok b => rw [hx] at he; cases he
      | err e => exact hb _ _ hx
      | panic p => rw [hx] at he; cases he
      | diverge => rw [hx] at he; cases he
    · cases he

/-- C73: no deadlock: whenever a goroutine is within a call, some goroutine within a call can take its next step. -/
theorem C73_progress {s : RtSt} (hr : RtReach env h k c s) {g : Nat} (hg : s.pc g ≠ .idle) :
    ∃ u s', s.pc u ≠ .idle ∧ RtStep' u env s s' := by
  have hi := rtReach_inv hr
  have hin : ∀ u op st p, s.pc u = .inside op st p → ∃ u s', s.pc u ≠ .idle ∧ RtStep' u env s s' := by
    intro u op st p hu
    have hne : s.pc u ≠ .idle := by rw [hu]; exact RtPc.noConfusion
    rcases p.step_or_outcome s.table with ⟨p', t', hst⟩ | ⟨r, ho⟩
    · exact ⟨u, _, hne, .access op st p p' t' hu hst⟩
    · cases hw : op.writes with
      | true => exact ⟨u, _, hne, .unlock op st p r hu ho hw⟩
      | false => exact ⟨u, _, hne, .runlock op st p r hu ho hw⟩
  cases hp : s.pc g with
  | idle => exact absurd hp hg
  | inside op st p => exact hin g op st p hp
  | leave op st i r => exact ⟨g, _, hg, .ret op st i r hp⟩
  | wait op st =>
    cases hwr : s.writer with
    | some u =>
      obtain ⟨a, b, p, hu, -⟩ := (hi.wr u).1 hwr
      exact hin u a b p hu
    | none =>
      cases hw : op.writes with
      | false => exact ⟨g, _, hg, .rlock op st hp hw hwr⟩
      | true =>
        by_cases hrd : ∃ u, s.readers u = true
        · obtain ⟨u, hu⟩ := hrd
          obtain ⟨a, b, p, hu, -⟩ := (hi.rd u).1 hu
          exact hin u a b p hu
        · exact ⟨g, _, hg, .lock op st hp hw hwr fun u => by
            cases hx : s.readers u
            · rfl
            · exact absurd ⟨u, hx⟩ hrd⟩

/-- some goroutine waits for the write lock -/
def RtSt.WriterWaits (s : RtSt) : Prop := ∃ v op st, s.pc v = .wait op st ∧ op.writes = true

/-- C73: no deadlock with Go's `RWMutex` either, where a waiting writer keeps new readers out: whenever a goroutine is within a
call, some goroutine within a call can take a step that does not acquire the read lock while a writer waits. -/
theorem C73_progress_writers_first {s : RtSt} (hr : RtReach env h k c s) {g : Nat} (hg : s.pc g ≠ .idle) :
    ∃ u s', s.pc u ≠ .idle ∧ RtStep' u env s s' ∧ (s.readers u = false → s'.readers u = true → ¬ s.WriterWaits) := by
  have hi := rtReach_inv hr
  have hin : ∀ u op st p, s.pc u = .inside op st p → ∃ u s', s.pc u ≠ .idle ∧ RtStep' u env s s' ∧
      (s.readers u = false → s'.readers u = true → ¬ s.WriterWaits) := by
    intro u op st p hu
    have hne : s.pc u ≠ .idle := by rw [hu]; exact RtPc.noConfusion
    rcases p.step_or_outcome s.table with ⟨p', t', hst⟩ | ⟨r, ho⟩
    · exact ⟨u, _, hne, .access op st p p' t' hu hst, fun h1 h2 => by rw [h1] at h2; cases h2⟩
    · cases hw : op.writes with
      | true => exact ⟨u, _, hne, .unlock op st p r hu ho hw, fun h1 h2 => by rw [h1] at h2; cases h2⟩
      | false => exact ⟨u, _, hne, .runlock op st p r hu ho hw, fun _ h2 => by simp at h2⟩
  have hwait : ∀ v op st, s.pc v = .wait op st → op.writes = true → ∃ u s', s.pc u ≠ .idle ∧ RtStep' u env s s' ∧
      (s.readers u = false → s'.readers u = true → ¬ s.WriterWaits) := by
    intro v op st hv hw
    cases hwr : s.writer with
    | some u =>
      obtain ⟨a, b, p, hu, -⟩ := (hi.wr u).1 hwr
      exact hin u a b p hu
    | none =>
      by_cases hrd : ∃ u, s.readers u = true
      · obtain ⟨u, hu⟩ := hrd
        obtain ⟨a, b, p, hu, -⟩ := (hi.rd u).1 hu
        exact hin u a b p hu
      · refine ⟨v, _, by rw [hv]; exact RtPc.noConfusion, .lock op st hv hw hwr fun u => ?_, fun h1 h2 => by rw [h1] at h2; cases h2⟩
        cases hx : s.readers u
        · rfl
        · exact absurd ⟨u, hx⟩ hrd
  by_cases hww : s.WriterWaits
  · obtain ⟨v, op, st, hv, hw⟩ := hww
    exact hwait v op st hv hw
  · obtain ⟨u, s', h1, h2⟩ := C73_progress hr hg
    exact ⟨u, s', h1, h2, fun _ _ => hww⟩

/-- accesses that a goroutine inside its critical section still has to make -/
def RtSt.left (s : RtSt) (g : Nat) : Nat :=
  match s.pc g with
  | .inside _ _ p => p.len s.table
  | _ => 0

/-- C73: critical sections end: the number of accesses left is fixed when the section begins, each own access lowers it by one and
nobody else changes it. -/
theorem C73_sections_end {s s' : RtSt} (hr : RtReach env h k c s) {u : Nat} (hs : RtStep' u env s s') {g : Nat} {op : RtOp} {st : Nat} {p : TProg RtVal}
    (hg : s.pc g = .inside op st p) :
    (u ≠ g ∧ s'.pc g = s.pc g ∧ s'.left g = s.left g) ∨
    (u = g ∧ ((∃ p', s'.pc g = .inside op st p' ∧ s'.left g + 1 = s.left g) ∨ ∃ i r, s'.pc g = .leave op st i r)) := by
  have hi := rtReach_inv hr
  by_cases hu : u = g
  · subst hu
    right
    refine ⟨rfl, ?_⟩
    cases hs with
    | call op hp => rw [hg] at hp; cases hp
    | rlock op st hp => rw [hg] at hp; cases hp
    | lock op st hp => rw [hg] at hp; cases hp
    | ret op st i r hp => rw [hg] at hp; cases hp
    | access op' st' q q' t' hp hst =>
      rw [hg] at hp; cases hp
      refine .inl ⟨q', by simp, ?_⟩
      simp only [RtSt.left, upd_same, hg]
      exact (TProg.step_len hst).symm
    | runlock op' st' q r hp =>
      rw [hg] at hp; cases hp
      exact .inr ⟨s.log.length, r, by simp only [upd_same]⟩
    | unlock op' st' q r hp =>
      rw [hg] at hp; cases hp
      exact .inr ⟨s.log.length, r, by simp only [upd_same]⟩
  · left
    have e : ∀ x, upd s.pc u x g = s.pc g := fun x => upd_ne _ _ (fun e => hu e.symm)
    refine ⟨hu, ?_, ?_⟩
    · cases hs <;> exact e _
    · cases hs with
      | call => simp only [RtSt.left, e]
      | rlock => simp only [RtSt.left, e]
      | lock => simp only [RtSt.left, e]
      | runlock => simp only [RtSt.left, e]
      | unlock => simp only [RtSt.left, e]
      | ret => simp only [RtSt.left, e]
      | access op' st' q q' t' hp hst =>
        have : t' = s.table := by
          cases hw : op'.writes with
          | false => exact ((hi.rsec _ _ _ _ hp hw).1.step hst).1
          | true => exact absurd (C73_exclusive hr hp hg hw) hu
        simp only [RtSt.left, e, this]

theorem addAll_append {t t2 : RouteTable} {l m : List NodeInfo} {es : List (Option Bytes)} (ha : t.addAll env (l ++ m) = .ok (t2, es)) :
    ∃ t1 es1 es2, t.addAll env l = .ok (t1, es1) ∧ t1.addAll env m = .ok (t2, es2) := by
  induction l generalizing t es with
  | nil => exact ⟨t, [], es, rfl, ha⟩
  | cons n r ih =>
    simp only [addAll, List.cons_append] at ha
    obtain ⟨⟨t1, e⟩, h1, h2⟩ := Res.bind_eq_ok.mp ha
    obtain ⟨⟨t3, es'⟩, h3, h4⟩ := Res.bind_eq_ok.mp h2
    cases h4
    obtain ⟨t4, es4, es5, h5, h6⟩ := ih h3
    exact ⟨t4, e :: es4, es5, by simp [addAll, h1, h5], h6⟩

/-- C73: once a `Find(id)` has returned a node with exactly this id, every `Find(id)` called after its return finds a node. -/
theorem C73_found_stays {s : RtSt} (hr : RtReach env h k c s) {d d' : RtDone} (hd : d ∈ s.done) (hd' : d' ∈ s.done) {id : Bytes} {n : NodeInfo}
    (h1 : d.op = .find id) (h2 : d'.op = .find id) (h3 : d.res = .ok (.node (some n))) (h4 : n.id = id) (hlt : d.stop ≤ d'.start) :
    ∃ m, d'.res = .ok (.node (some m)) := by
  obtain ⟨t, es, a1, a2, a3, a4, a5, a6, -⟩ := C73_linearizable hr hd
  obtain ⟨t', es', b1, b2, b3, b4, b5, b6, -⟩ := C73_linearizable hr hd'
  have hsplit : s.log.take d'.at' = s.log.take d.at' ++ (s.log.take d'.at').drop d.at' := by
    conv => lhs; rw [← List.take_append_drop d.at' (s.log.take d'.at')]
    rw [List.take_take, Nat.min_eq_left (by omega)]
  rw [hsplit] at b1
  obtain ⟨t1, es1, es2, c1, c2⟩ := addAll_append b1
  rw [a1] at c1; cases c1
  obtain ⟨r, f1, f2, -⟩ := C23_find a2 id
  rw [h1, h3] at a3
  simp only [RtOp.answer, f1, Res.bind_ok] at a3
  cases a3
  have hmem := C20_history a2 c2 n (f2 n rfl).1
  obtain ⟨r', g1, -, -, g4⟩ := C23_find b2 id
  obtain ⟨m, rfl⟩ := g4 ⟨n, hmem, h4⟩
  exact ⟨m, by rw [b3, h2]; simp [RtOp.answer, g1]⟩

/-! ## runs -/

/-- a goroutine inside its section can run to the end of the call -/
theorem rt_finish {g : Nat} {op : RtOp} {st : Nat} (n : Nat) : ∀ {s : RtSt} {p : TProg RtVal}, RtReach env h k c s → s.pc g = .inside op st p →
    p.len s.table = n → ∃ s', RtReach env h k c s' ∧ s'.pc g = .idle ∧ (∀ u, u ≠ g → s'.pc u = s.pc u) ∧ s'.log = s.log ++ op.logged ∧
      s'.done = s.done ++ [{ op, res := (p.run s.table).1, start := st, at' := s.log.length, stop := s.log.length + op.logged.length }] ∧
      s'.table = (p.run s.table).2 ∧ (op.writes = true → s'.writer = none) ∧ (op.writes = false → s'.writer = s.writer) ∧
      (∀ u, u ≠ g → s'.readers u = s.readers u) ∧ (op.writes = true → s'.readers g = s.readers g) ∧ (op.writes = false → s'.readers g = false) := by
  induction n with
  | zero =>
    intro s p hr hp hl
    rcases p.step_or_outcome s.table with ⟨p', t', hst⟩ | ⟨r, ho⟩
    · rw [TProg.step_len hst] at hl; cases hl
    · rw [TProg.outcome_run ho]
      cases hw : op.writes with
      | true =>
        have h1 := Reach.step hr ⟨g, .unlock op st p r hp ho hw⟩
        have h2 := Reach.step h1 ⟨g, .ret op st s.log.length r (by simp only [upd_same])⟩
        refine ⟨_, h2, by simp only [upd_same], fun u hu => ?_, rfl, ?_, rfl, fun _ => rfl, (by simp), fun u _ => rfl, fun _ => rfl, by simp⟩
        · simp only [upd_ne _ _ hu]
        · simp
      | false =>
        have h1 := Reach.step hr ⟨g, .runlock op st p r hp ho hw⟩
        have h2 := Reach.step h1 ⟨g, .ret op st s.log.length r (by simp only [upd_same])⟩
        have hlg : op.logged = [] := by cases op <;> simp_all [RtOp.writes, RtOp.logged]
        refine ⟨_, h2, by simp only [upd_same], fun u hu => ?_, (by simp [hlg]), (by simp [hlg]), rfl, (by simp), fun _ => rfl, fun u hu => ?_, (by simp), fun _ => ?_⟩
        · simp only [upd_ne _ _ hu]
        · simp only [upd_ne _ _ hu]
        · simp only [upd_same]
  | succ n ih =>
    intro s p hr hp hl
    rcases p.step_or_outcome s.table with ⟨p', t', hst⟩ | ⟨r, ho⟩
    · have h1 := Reach.step hr ⟨g, .access op st p p' t' hp hst⟩
      obtain ⟨s', a1, a2, a3, a4, a5, a6, a7, a8, a9, a10, a11⟩ := ih h1 (p := p') (by simp only [upd_same]) (by
        have := TProg.step_len hst; simp only; omega)
      refine ⟨s', a1, a2, fun u hu => ?_, a4, ?_, ?_, a7, a8, a9, a10, a11⟩
      · rw [a3 u hu]; exact upd_ne _ _ hu
      · rw [a5, TProg.step_run hst]
      · rw [a6, TProg.step_run hst]
    · exfalso
      have : p.len s.table = 0 := by cases p <;> simp_all [TProg.outcome, TProg.len]
      omega

/-- Two goroutines add the nodes `a` and `b`, a third one calls `Find` before, but enters its critical section after the first
insertion: the table it sees is the one with `a` only, although the insertion of `b` was complete before it returned. -/
theorem rt_example (a b : NodeInfo) (id : Bytes) : ∃ (s : RtSt) (t : RouteTable) (e : Option Bytes), RtReach env h k c s ∧ s.log = [a, b] ∧
    (RouteTable.new h k c).AddNode env a = .ok (t, e) ∧ s.done.map (fun d => (d.op, d.start, d.at', d.stop)) =
      [(.add a, 0, 0, 1), (.add b, 0, 1, 2), (.find id, 0, 1, 2)] ∧
    (s.done[2]?).map (·.res) = some ((RtOp.find id).answer env t) := by
  let s0 : RtSt := { table := RouteTable.new h k c, readers := fun _ => false, writer := none, pc := fun _ => .idle, log := [], done := [] }
  have r0 : RtReach env h k c s0 := .init ⟨rfl, fun _ => rfl, rfl, fun _ => rfl, rfl, rfl⟩
  obtain ⟨t, e, ha, -⟩ := AddNode_spec (Reachable.new h k c (env := env)).inv a
  -- all three call
  have r1 := Reach.step r0 ⟨1, .call (.add a) rfl⟩
  have r2 := Reach.step r1 ⟨2, .call (.add b) rfl⟩
  have r3 := Reach.step r2 ⟨3, .call (.find id) rfl⟩
  -- the first insertion
  have r4 := Reach.step r3 ⟨1, .lock (.add a) 0 rfl rfl rfl (fun _ => rfl)⟩
  obtain ⟨s5, r5, p5, q5, l5, d5, t5, w5, -, b5, c5, -⟩ := rt_finish (g := 1) (op := .add a) (st := 0) (p := (RtOp.add a).prog env) _ r4 rfl rfl
  have hrun := prog_add (env := env) ha
  have t5 : s5.table = t := t5.trans (congrArg Prod.snd hrun)
  have w5 := w5 rfl
  have rd5 : ∀ u, s5.readers u = false := fun u => by
    by_cases hu : u = 1
    · subst hu; exact (c5 rfl).trans rfl
    · exact (b5 u hu).trans rfl
  have pc2 : s5.pc 2 = .wait (.add b) 0 := (q5 2 (by decide)).trans rfl
  have pc3 : s5.pc 3 = .wait (.find id) 0 := (q5 3 (by decide)).trans rfl
  have l5 : s5.log = [a] := l5.trans rfl
  -- `Find` reads and leaves its section
  have r6 := Reach.step r5 ⟨3, .rlock (.find id) 0 pc3 rfl w5⟩
  have reads : ∀ (n : Nat) {s : RtSt} {p : TProg RtVal}, RtReach env h k c s → s.pc 3 = .inside (.find id) 0 p → p.len s.table = n →
      ∃ s', RtReach env h k c s' ∧ s'.pc 3 = .leave (.find id) 0 s.log.length (p.run s.table).1 ∧ (∀ u, u ≠ 3 → s'.pc u = s.pc u) ∧
        s'.log = s.log ∧ s'.done = s.done ∧ s'.writer = s.writer ∧ s'.readers 3 = false ∧ (∀ u, u ≠ 3 → s'.readers u = s.readers u) := by
    intro n
    induction n with
    | zero =>
      intro s p hr hp hl
      rcases p.step_or_outcome s.table with ⟨p', t', hst⟩ | ⟨r, ho⟩
      · rw [TProg.step_len hst] at hl; cases hl
      · rw [TProg.outcome_run ho]
        refine ⟨_, .step hr ⟨3, .runlock _ _ p r hp ho rfl⟩, by simp only [upd_same], fun u hu => ?_, rfl, rfl, rfl, by simp only [upd_same], fun u hu => ?_⟩
        · simp only [upd_ne _ _ hu]
        · simp only [upd_ne _ _ hu]
    | succ n ih =>
      intro s p hr hp hl
      rcases p.step_or_outcome s.table with ⟨p', t', hst⟩ | ⟨r, ho⟩
      · obtain ⟨s', a1, a2, a3, a4, a5, a6, a7, a8⟩ := ih (.step hr ⟨3, .access _ _ p p' t' hp hst⟩) (p := p') (by simp only [upd_same]) (by
          have := TProg.step_len hst; simp only; omega)
        refine ⟨s', a1, ?_, fun u hu => ?_, a4, a5, a6, a7, a8⟩
        · rw [a2, TProg.step_run hst]
        · rw [a3 u hu]; exact upd_ne _ _ hu
      · exfalso
        have : p.len s.table = 0 := by cases p <;> simp_all [TProg.outcome, TProg.len]
        omega
  obtain ⟨s7, r7, p7, q7, l7, d7, w7, c7, b7⟩ := reads _ (p := (RtOp.find id).prog env) r6 rfl rfl
  -- the second insertion
  have pc2' : s7.pc 2 = .wait (.add b) 0 := by
    rw [q7 2 (by decide)]; exact pc2
  have rd7 : ∀ u, s7.readers u = false := fun u => by
    by_cases hu : u = 3
    · subst hu; exact c7
    · rw [b7 u hu]; exact (upd_ne _ _ hu).trans (rd5 u)
  have r8 := Reach.step r7 ⟨2, .lock (.add b) 0 pc2' rfl (w7.trans w5) rd7⟩
  obtain ⟨s9, r9, p9, q9, l9, d9, -⟩ := rt_finish (g := 2) (op := .add b) (st := 0) (p := (RtOp.add b).prog env) _ r8 rfl rfl
  have pc3' : s9.pc 3 = .leave (.find id) 0 s5.log.length ((((RtOp.find id).prog env).run s5.table).1) := by
    rw [q9 3 (by decide)]; exact p7
  -- `Find` returns
  have r10 := Reach.step r9 ⟨3, .ret _ _ _ _ pc3'⟩
  have l7' : s7.log = [a] := l7.trans l5
  have l9' : s9.log = [a, b] := by rw [l9]; simp [l7', RtOp.logged]
  have d5' : s5.done = [{ op := .add a, res := .ok (.err e), start := 0, at' := 0, stop := 1 }] := by
    rw [d5]
    show [] ++ [_] = _
    simp only [List.nil_append]
    exact congrArg (fun x => [({ op := .add a, res := x, start := 0, at' := 0, stop := 1 } : RtDone)]) (congrArg Prod.fst hrun)
  refine ⟨_, t, e, r10, l9', ha, ?_, ?_⟩
  · simp only [d9, d7, d5', l7', l5, l9', List.map_append, List.map_cons, List.map_nil]; rfl
  · simp only [d9, d7, d5', prog_read _ (.find id) rfl, t5]; rfl

end
end P2P

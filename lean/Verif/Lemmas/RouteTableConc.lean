import Verif.Model.RouteTableConc
import Verif.Props.RouteTable
/-! # The methods of `RouteTable`, access by access, compute the functions of `Model/RouteTable` when run alone -/
namespace P2P

namespace TProg
variable {α β : Type}

/-- the program run without interruption -/
def run : TProg α → RouteTable → Res α × RouteTable
  | .ret a, t => (.ok a, t)
  | .panic p, t => (.panic p, t)
  | .diverge, t => (.diverge, t)
  | .getConst f, t => (f t.hnode t.k t.capacity).run t
  | .getLast f, t => (f t.last).run t
  | .getSize f, t => (f t.size).run t
  | .getBucket i f, t => (f (t.nodeMap i)).run t
  | .setLast n r, t => r.run { t with last := n }
  | .setSize z r, t => r.run { t with size := z }
  | .setBucket i b r, t => r.run (t.setBucket i b)

/-- number of accesses -/
def len : TProg α → RouteTable → Nat
  | .ret _, _ => 0
  | .panic _, _ => 0
  | .diverge, _ => 0
  | .getConst f, t => (f t.hnode t.k t.capacity).len t + 1
  | .getLast f, t => (f t.last).len t + 1
  | .getSize f, t => (f t.size).len t + 1
  | .getBucket i f, t => (f (t.nodeMap i)).len t + 1
  | .setLast n r, t => r.len { t with last := n } + 1
  | .setSize z r, t => r.len { t with size := z } + 1
  | .setBucket i b r, t => r.len (t.setBucket i b) + 1

theorem run_bind (p : TProg α) (g : α → TProg β) (t : RouteTable) :
    (p >>= g).run t = match p.run t with
      | (.ok a, t') => (g a).run t'
      | (.panic q, t') => (.panic q, t')
      | (.err e, t') => (.err e, t')
      | (.diverge, t') => (.diverge, t') := by
  show (TProg.bind p g).run t = _
  induction p generalizing t with
  | ret a => rfl
  | panic q => rfl
  | diverge => rfl
  | getConst f ih => exact ih _ _ _ t
  | getLast f ih => exact ih _ t
  | getSize f ih => exact ih _ t
  | getBucket i f ih => exact ih _ t
  | setLast n r ih => exact ih _
  | setSize z r ih => exact ih _
  | setBucket i b r ih => exact ih _

theorem step_run {p p' : TProg α} {t t' : RouteTable} (h : p.step t = some (p', t')) : p.run t = p'.run t' := by
  cases p <;> simp only [step, Option.some.injEq, Prod.mk.injEq, reduceCtorEq] at h <;> obtain ⟨rfl, rfl⟩ := h <;> rfl

theorem step_len {p p' : TProg α} {t t' : RouteTable} (h : p.step t = some (p', t')) : p.len t = p'.len t' + 1 := by
  cases p <;> simp only [step, Option.some.injEq, Prod.mk.injEq, reduceCtorEq] at h <;> obtain ⟨rfl, rfl⟩ := h <;> rfl

theorem outcome_run {p : TProg α} {r : Res α} (h : p.outcome = some r) (t : RouteTable) : p.run t = (r, t) := by
  cases p <;> simp only [outcome, Option.some.injEq, reduceCtorEq] at h <;> subst h <;> rfl

theorem step_or_outcome (p : TProg α) (t : RouteTable) : (∃ p' t', p.step t = some (p', t')) ∨ ∃ r, p.outcome = some r := by
  cases p <;> simp [step, outcome]

/-- no writes -/
def ReadOnly : TProg α → Prop
  | .ret _ => True
  | .panic _ => True
  | .diverge => True
  | .getConst f => ∀ h k c, (f h k c).ReadOnly
  | .getLast f => ∀ n, (f n).ReadOnly
  | .getSize f => ∀ n, (f n).ReadOnly
  | .getBucket _ f => ∀ b, (f b).ReadOnly
  | .setLast _ _ => False
  | .setSize _ _ => False
  | .setBucket _ _ _ => False

theorem ReadOnly.step {p p' : TProg α} {t t' : RouteTable} (hr : p.ReadOnly) (h : p.step t = some (p', t')) : t' = t ∧ p'.ReadOnly := by
  cases p <;> simp only [TProg.step, Option.some.injEq, Prod.mk.injEq, reduceCtorEq] at h <;> obtain ⟨rfl, rfl⟩ := h
  · exact ⟨rfl, hr _ _ _⟩
  · exact ⟨rfl, hr _⟩
  · exact ⟨rfl, hr _⟩
  · exact ⟨rfl, hr _⟩
  all_goals exact hr.elim

theorem ReadOnly.bind {p : TProg α} {g : α → TProg β} (hp : p.ReadOnly) (hg : ∀ a, (g a).ReadOnly) : (p >>= g).ReadOnly := by
  show (TProg.bind p g).ReadOnly
  induction p with
  | ret a => exact hg a
  | panic q => trivial
  | diverge => trivial
  | getConst f ih => exact fun h k c => ih h k c (hp h k c)
  | getLast f ih => exact fun n => ih n (hp n)
  | getSize f ih => exact fun n => ih n (hp n)
  | getBucket i f ih => exact fun b => ih b (hp b)
  | setLast n r ih => exact hp.elim
  | setSize z r ih => exact hp.elim
  | setBucket i b r ih => exact hp.elim

end TProg
open TProg RouteTable

theorem run_pure {α : Type} (a : α) (t : RouteTable) : (pure a : TProg α).run t = (.ok a, t) := rfl

theorem bucketP_run (i : Nat) (t : RouteTable) : (bucketP i).run t = (t.bucket i, t) := by
  unfold bucketP RouteTable.bucket
  simp only [TProg.run]
  cases t.nodeMap i <;> rfl

theorem solveP_run (id : Bytes) (t : RouteTable) : (solveMaxPreLenP id).run t = (.ok (t.solveMaxPreLen id), t) := by
  simp only [solveMaxPreLenP, TProg.run, solveMaxPreLen]
  split <;> rfl

theorem incSizeP_run (t : RouteTable) : incSizeP.run t = (.ok (), { t with size := t.size + 1 }) := rfl

/-- `P` computes `f`, where `f` succeeds -/
def Computes (P : NodeInfo → TProg (Option Bytes)) (f : RouteTable → NodeInfo → AddRes) : Prop :=
  ∀ t n t' e, f t n = .ok (t', e) → (P n).run t = (.ok e, t')

theorem addNodeP_run {env : Env} {P : NodeInfo → TProg (Option Bytes)} {f : RouteTable → NodeInfo → AddRes} (hP : Computes P f)
    {t t' : RouteTable} {n : NodeInfo} {i : Nat} {e : Option Bytes} (h : addNodeWith env f t n i = .ok (t', e)) :
    (addNodeP env P n i).run t = (.ok e, t') := by
  unfold addNodeWith at h
  cases hb : t.bucket i with
  | ok b =>
    rw [hb] at h
    simp only [Res.bind_ok] at h
    unfold addNodeP
    simp only [run_bind, TProg.run]
    by_cases h1 : i ≥ t.last
    · by_cases h2 : b.Exist env n = true
      · simp only [h1, h2, Bool.not_true, Bool.and_false, Bool.false_and, Bool.false_eq_true, if_false, if_true, run_bind, bucketP_run, hb, run_pure] at h ⊢
        by_cases h3 : b.Full = true
        · simp only [h3, if_true] at h ⊢; cases h; rfl
        · simp only [h3, Bool.false_eq_true, if_false, run_bind, bucketP_run, hb, h2, Bool.not_true] at h ⊢; cases h; rfl
      · have h2 : b.Exist env n = false := by simpa using h2
        by_cases h3 : b.Full = true
        · simp only [h1, h2, h3, decide_true, Bool.not_false, Bool.and_self, if_true, run_bind, bucketP_run, hb, run_pure] at h ⊢
          exact hP _ _ _ _ h
        · have h3 : b.Full = false := by simpa using h3
          have h4 : b.Add n = ({ b with nodes := b.nodes ++ [n] }, true) := by simp [Bucket.Add, h3]
          simp only [h1, h2, h3, h4, Bool.not_false, Bool.and_false, Bool.false_eq_true, if_true, if_false, run_bind, bucketP_run, hb, run_pure] at h ⊢
          cases h; rfl
    · have hd : decide (i ≥ t.last) = false := by simpa using h1
      simp only [hd, Bool.false_and, Bool.false_eq_true, h1, if_false, run_bind, bucketP_run, hb, run_pure] at h ⊢
      by_cases h3 : b.Full = true
      · simp only [h3, if_true] at h ⊢; cases h; rfl
      · have h3 : b.Full = false := by simpa using h3
        have h4 : b.Add n = ({ b with nodes := b.nodes ++ [n] }, true) := by simp [Bucket.Add, h3]
        by_cases h2 : b.Exist env n = true
        · simp only [h3, Bool.false_eq_true, if_false, run_bind, bucketP_run, hb, h2, Bool.not_true] at h ⊢; cases h; rfl
        · have h2 : b.Exist env n = false := by simpa using h2
          simp only [h3, h4, Bool.false_eq_true, if_false, if_true, run_bind, bucketP_run, hb, h2, Bool.not_false] at h ⊢; cases h; rfl
  | err _ => rw [hb] at h; cases h
  | panic _ => rw [hb] at h; cases h
  | diverge => rw [hb] at h; cases h

theorem reAddP_run {env : Env} {P : NodeInfo → TProg (Option Bytes)} {f : RouteTable → NodeInfo → AddRes} (hP : Computes P f)
    (l : List NodeInfo) {t t' : RouteTable} (h : reAdd env f t l = .ok t') : (reAddP env P l).run t = (.ok (), t') := by
  induction l generalizing t with
  | nil => cases h; rfl
  | cons n r ih =>
    unfold reAdd at h
    cases h1 : addNodeWith env f t n (t.solveMaxPreLen n.id) with
    | ok x =>
      obtain ⟨t1, e⟩ := x
      rw [h1] at h
      simp only [reAddP, run_bind, solveP_run, addNodeP_run hP h1]
      exact ih h
    | err _ => rw [h1] at h; cases h
    | panic _ => rw [h1] at h; cases h
    | diverge => rw [h1] at h; cases h

theorem countLoopP_run (n i : Nat) (t : RouteTable) : (countLoopP n i).run t = (t.countLoop n i, t) := by
  induction n generalizing i with
  | zero => rfl
  | succ n ih =>
    simp only [countLoopP, countLoop, run_bind, bucketP_run]
    cases t.bucket i with
    | ok b =>
      simp only [run_bind, ih, Res.bind_ok]
      cases t.countLoop n (i + 1) <;> rfl
    | err _ => rfl
    | panic _ => rfl
    | diverge => rfl

theorem addSplitP_run (env : Env) (fuel : Nat) : Computes (addSplitP env fuel) (addSplit env fuel) := by
  induction fuel with
  | zero => intro t n t' e h; cases h
  | succ f ih =>
    intro t n t' e h
    unfold addSplit at h
    unfold addSplitP
    simp only [TProg.run]
    split at h
    · rename_i hc
      rw [if_pos hc]; cases h; rfl
    · rename_i hc
      rw [if_neg hc]
      simp only [run_bind, TProg.run, bucketP_run]
      cases hb : t.bucket t.last with
      | ok src =>
        rw [hb] at h
        simp only [Res.bind_ok] at h ⊢
        generalize hT : RouteTable.setBucket _ _ _ = T at h
        generalize hT' : RouteTable.setBucket _ _ _ = T'
        have hTT : T' = T := by rw [← hT, ← hT']
        subst hTT
        cases hr : reAdd env (addSplit env f) T' src.All with
        | ok t2 =>
          rw [hr] at h
          simp only [Res.bind_ok] at h
          simp only [reAddP_run ih _ hr, solveP_run]
          cases ha : addNodeWith env (addSplit env f) t2 n (t2.solveMaxPreLen n.id) with
          | ok x =>
            obtain ⟨t3, e3⟩ := x
            rw [ha] at h
            simp only [Res.bind_ok] at h
            simp only [addNodeP_run ih ha, countLoopP_run]
            unfold nodeCount at h
            cases hc : t3.countLoop (t3.last + 1) 0 with
            | ok c => rw [hc] at h; cases h; rfl
            | err _ => rw [hc] at h; cases h
            | panic _ => rw [hc] at h; cases h
            | diverge => rw [hc] at h; cases h
          | err _ => rw [ha] at h; cases h
          | panic _ => rw [ha] at h; cases h
          | diverge => rw [ha] at h; cases h
        | err _ => rw [hr] at h; cases h
        | panic _ => rw [hr] at h; cases h
        | diverge => rw [hr] at h; cases h
      | err _ => rw [hb] at h; cases h
      | panic _ => rw [hb] at h; cases h
      | diverge => rw [hb] at h; cases h

theorem closestLoopP_run (k : Int) (n : Nat) (acc : List NodeInfo) (t : RouteTable) :
    (closestLoopP k n acc).run t = (t.closestLoop k n acc, t) := by
  induction n generalizing acc with
  | zero => rfl
  | succ n ih =>
    simp only [closestLoopP, closestLoop]
    split
    · simp only [run_bind, bucketP_run]
      cases t.bucket n <;> simp [ih]
    · rfl

/-- What a call answers when it is made on `t` alone (`Model/RouteTable`). -/
def RtOp.answer (env : Env) (t : RouteTable) : RtOp → Res RtVal
  | .add n => do let (_, e) ← t.AddNode env n; pure (.err e)
  | .find id => do let r ← t.Find env id; pure (.node r)
  | .closest id k => do let r ← t.FindClosest id k; pure (.nodes r)
  | .size => pure (.num t.Size)
  | .full => do let b ← t.Full; pure (.bool b)

theorem prog_add {env : Env} {t t' : RouteTable} {n : NodeInfo} {e : Option Bytes} (h : t.AddNode env n = .ok (t', e)) :
    ((RtOp.add n).prog env).run t = (.ok (.err e), t') := by
  simp only [RtOp.prog, TProg.run, run_bind, solveP_run, addNodeP_run (addSplitP_run env _) h, run_pure]

theorem prog_read {env : Env} (t : RouteTable) (op : RtOp) (h : op.writes = false) :
    (op.prog env).run t = (op.answer env t, t) := by
  cases op with
  | add n => cases h
  | find id =>
    simp only [RtOp.prog, RtOp.answer, run_bind, solveP_run, bucketP_run, Find]
    cases t.bucket (t.solveMaxPreLen id) <;> rfl
  | closest id k =>
    simp only [RtOp.prog, RtOp.answer, run_bind, solveP_run, FindClosest]
    split
    · rfl
    · simp only [run_bind, closestLoopP_run]
      cases t.closestLoop k (t.solveMaxPreLen id + 1) [] <;> rfl
  | size => rfl
  | full =>
    simp only [RtOp.prog, RtOp.answer, TProg.run, RouteTable.Full]
    split
    · simp only [TProg.run, run_bind, bucketP_run]
      cases t.bucket t.last <;> rfl
    · rfl

theorem bucketP_ro (i : Nat) : (bucketP i).ReadOnly := fun b => by cases b <;> trivial
theorem solveP_ro (id : Bytes) : (solveMaxPreLenP id).ReadOnly := fun h k c n => by
  simp only
  split
  · trivial
  · exact fun _ => trivial
theorem closestLoopP_ro (k : Int) (n : Nat) : ∀ acc, (closestLoopP k n acc).ReadOnly := by
  induction n with
  | zero => exact fun _ => trivial
  | succ n ih =>
    intro acc
    unfold closestLoopP
    split
    · exact (bucketP_ro n).bind fun b => ih _
    · trivial

theorem prog_ro {env : Env} (op : RtOp) (h : op.writes = false) : (op.prog env).ReadOnly := by
  cases op with
  | add n => cases h
  | find id => exact (solveP_ro id).bind fun i => (bucketP_ro i).bind fun b => trivial
  | closest id k =>
    refine (solveP_ro id).bind fun i => ?_
    split
    · trivial
    · exact (closestLoopP_ro k _ []).bind fun l => trivial
  | size => exact fun _ => trivial
  | full =>
    intro last h k c
    dsimp only
    split
    · exact fun l => (bucketP_ro l).bind fun b => trivial
    · trivial

end P2P

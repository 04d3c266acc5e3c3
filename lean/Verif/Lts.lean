/-! # Labelled transition systems used for goroutine interleavings -/
namespace P2P

/-- `Reach init step s`: `s` is reachable from an initial state by finitely many steps
(any interleaving: each step may be taken by any goroutine). -/
inductive Reach {S : Type} (init : S → Prop) (step : S → S → Prop) : S → Prop where
  | init {s : S} : init s → Reach init step s
  | step {s t : S} : Reach init step s → step s t → Reach init step t

/-- Invariant rule. -/
theorem Reach.inv {S : Type} {init : S → Prop} {step : S → S → Prop} (I : S → Prop)
    (h0 : ∀ s, init s → I s) (h1 : ∀ s t, I s → step s t → I t) {s : S} (h : Reach init step s) : I s := by
  induction h with
  | init h => exact h0 _ h
  | step _ hs ih => exact h1 _ _ ih hs

/-- Function update, for per-goroutine program counters. -/
def upd {A B : Type} [DecidableEq A] (f : A → B) (a : A) (b : B) : A → B :=
  fun x => if x = a then b else f x

@[simp] theorem upd_same {A B : Type} [DecidableEq A] (f : A → B) (a : A) (b : B) : upd f a b a = b := by
  simp [upd]

theorem upd_ne {A B : Type} [DecidableEq A] (f : A → B) {a x : A} (b : B) (h : x ≠ a) :
    upd f a b x = f x := by simp [upd, h]

end P2P

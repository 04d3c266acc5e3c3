import Verif.Model.Peerwire
/-! # Reasoning about downloads: state triples -/
namespace P2P

/-- the state at the end of an outcome -/
def POut.state {α : Type} : POut α → PSt
  | .ok _ s => s
  | .panic _ s => s
  | .fatal s => s
  | .diverge s => s

/-- `I` before implies `Q` after a normal return and `X` after any other end. -/
def Triple {α : Type} (I : PSt → Prop) (m : PM α) (Q : α → PSt → Prop) (X : PSt → Prop) : Prop :=
  ∀ s, I s → match m s with
    | .ok a t => Q a t
    | .panic _ t => X t
    | .fatal t => X t
    | .diverge t => X t

theorem Triple.bind {α β : Type} {I : PSt → Prop} {m : PM α} {f : α → PM β} {Q : α → PSt → Prop} {R : β → PSt → Prop}
    {X : PSt → Prop} (h1 : Triple I m Q X) (h2 : ∀ a, Triple (Q a) (f a) R X) : Triple I (m >>= f) R X := by
  intro s hs
  have := h1 s hs
  rw [PM.bind_apply]
  cases hm : m s with
  | ok a t => rw [hm] at this; exact h2 a t this
  | panic p t => rw [hm] at this; exact this
  | fatal t => rw [hm] at this; exact this
  | diverge t => rw [hm] at this; exact this

theorem Triple.pure {α : Type} {I : PSt → Prop} {a : α} {Q : α → PSt → Prop} {X : PSt → Prop} (h : ∀ s, I s → Q a s) :
    Triple I (Pure.pure a : PM α) Q X := fun s hs => h s hs

theorem Triple.panic {α : Type} {I : PSt → Prop} {p : Panic} {Q : α → PSt → Prop} {X : PSt → Prop} (h : ∀ s, I s → X s) :
    Triple I (PM.panic p : PM α) Q X := fun s hs => h s hs

theorem Triple.modify {I : PSt → Prop} {f : PSt → PSt} {Q : Unit → PSt → Prop} {X : PSt → Prop} (h : ∀ s, I s → Q () (f s)) :
    Triple I (PM.modify f) Q X := fun s hs => h s hs

theorem Triple.get {I : PSt → Prop} {Q : PSt → PSt → Prop} {X : PSt → Prop} (h : ∀ s, I s → Q s s) :
    Triple I PM.get Q X := fun s hs => h s hs

theorem Triple.lift {α : Type} {I : PSt → Prop} {r : Res α} {Q : α → PSt → Prop} {X : PSt → Prop}
    (h : ∀ a s, r = .ok a → I s → Q a s) (hx : ∀ s, I s → X s) : Triple I (PM.lift r) Q X := by
  intro s hs
  cases r with
  | ok a => exact h a s rfl hs
  | err e => exact hx s hs
  | panic p => exact hx s hs
  | diverge => exact hx s hs

theorem Triple.weaken {α : Type} {I I' : PSt → Prop} {m : PM α} {Q Q' : α → PSt → Prop} {X X' : PSt → Prop}
    (h : Triple I m Q X) (h1 : ∀ s, I' s → I s) (h2 : ∀ a s, Q a s → Q' a s) (h3 : ∀ s, X s → X' s) :
    Triple I' m Q' X' := by
  intro s hs
  have := h s (h1 s hs)
  cases hm : m s with
  | ok a t => rw [hm] at this; exact h2 a t this
  | panic p t => rw [hm] at this; exact h3 t this
  | fatal t => rw [hm] at this; exact h3 t this
  | diverge t => rw [hm] at this; exact h3 t this

theorem Triple.ite {α : Type} {I : PSt → Prop} {c : Prop} [Decidable c] {m n : PM α} {Q : α → PSt → Prop} {X : PSt → Prop}
    (h1 : c → Triple I m Q X) (h2 : ¬ c → Triple I n Q X) : Triple I (if c then m else n) Q X := by
  by_cases h : c
  · rw [if_pos h]; exact h1 h
  · rw [if_neg h]; exact h2 h

theorem Triple.deferred {α : Type} {I : PSt → Prop} {m : PM α} {c : PM Unit} {Q R : α → PSt → Prop} {X Y : PSt → Prop}
    (h1 : Triple I m Q X) (h2 : ∀ a, Triple (Q a) c (fun _ => R a) Y) (h3 : Triple X c (fun _ => Y) Y)
    (h4 : ∀ s, X s → Y s) : Triple I (PM.deferred m c) R Y := by
  intro s hs
  have := h1 s hs
  unfold PM.deferred
  cases hm : m s with
  | ok a t =>
    rw [hm] at this
    have := h2 a t this
    simp only
    cases hc : c t with
    | ok u v => rw [hc] at this; exact this
    | panic p v => rw [hc] at this; exact this
    | fatal v => rw [hc] at this; exact this
    | diverge v => rw [hc] at this; exact this
  | panic p t =>
    rw [hm] at this
    have := h3 t this
    simp only
    cases hc : c t with
    | ok u v => rw [hc] at this; exact this
    | panic p v => rw [hc] at this; exact this
    | fatal v => rw [hc] at this; exact this
    | diverge v => rw [hc] at this; exact this
  | fatal t => rw [hm] at this; exact h4 t this
  | diverge t => rw [hm] at this; exact h4 t this

/-- `m` preserves `I`, however it ends -/
def Keeps {α : Type} (I : PSt → Prop) (m : PM α) : Prop := Triple I m (fun _ => I) I

theorem Keeps.bind {α β : Type} {I : PSt → Prop} {m : PM α} {f : α → PM β} (h1 : Keeps I m) (h2 : ∀ a, Keeps I (f a)) :
    Keeps I (m >>= f) := Triple.bind h1 h2

theorem Keeps.deferred {α : Type} {I : PSt → Prop} {m : PM α} {c : PM Unit} (h1 : Keeps I m) (h2 : Keeps I c) :
    Keeps I (PM.deferred m c) := Triple.deferred h1 (fun _ => h2) h2 (fun _ h => h)

theorem Keeps.pure {α : Type} {I : PSt → Prop} (a : α) : Keeps I (Pure.pure a : PM α) := fun _ h => h
theorem Keeps.panic {α : Type} {I : PSt → Prop} (p : Panic) : Keeps I (PM.panic p : PM α) := fun _ h => h
theorem Keeps.get {I : PSt → Prop} : Keeps I PM.get := fun _ h => h
theorem Keeps.lift {α : Type} {I : PSt → Prop} (r : Res α) : Keeps I (PM.lift r) :=
  Triple.lift (fun _ _ _ h => h) (fun _ h => h)
theorem Keeps.ite {α : Type} {I : PSt → Prop} {c : Prop} [Decidable c] {m n : PM α} (h1 : Keeps I m) (h2 : Keeps I n) :
    Keeps I (if c then m else n) := Triple.ite (fun _ => h1) (fun _ => h2)

/-- An invariant that looks at the trace only and is kept by the events that satisfy `ok`. -/
structure TraceInv (ok : PEvent → Prop) (J : List PEvent → Prop) : Prop where
  step : ∀ tr e, J tr → ok e → J (tr ++ [e])

section
variable {ok : PEvent → Prop} {J : List PEvent → Prop} (hJ : TraceInv ok J) (E : PEnv)
include hJ

theorem keeps_emit (e : PEvent) (h : ok e) : Keeps (fun s => J s.trace) (emitP e) := fun s hs => hJ.step _ _ hs h

omit hJ in
theorem keeps_others : Keeps (fun s => J s.trace) (others E) := fun _ h => h

omit hJ in
theorem keeps_modify {f : PSt → PSt} (h : ∀ s, (f s).trace = s.trace) : Keeps (fun s => J s.trace) (PM.modify f) := by
  intro s hs
  show J (f s).trace
  rw [h]; exact hs

theorem keeps_poolGet (n : Nat) (h : ∀ b, ok (.get b)) : Keeps (fun s => J s.trace) (poolGet E n) := by
  refine Keeps.bind (keeps_others E) fun _ => Keeps.bind Keeps.get fun s => ?_
  cases s.pool.GetBySize n with
  | ok r => exact Keeps.bind (keeps_modify fun _ => rfl) fun _ => Keeps.bind (keeps_emit hJ _ (h _)) fun _ => Keeps.pure _
  | err _ => exact Keeps.panic _
  | panic _ => exact Keeps.panic _
  | diverge => exact Keeps.panic _

theorem keeps_poolPut (b : Slice) (h : ok (.put b)) : Keeps (fun s => J s.trace) (poolPut E b) :=
  Keeps.bind (keeps_others E) fun _ => Keeps.bind (keeps_modify fun _ => rfl) fun _ => keeps_emit hJ _ h

theorem keeps_connRead (b : Slice) (h : ∀ n d e, ok (.read n d e)) : Keeps (fun s => J s.trace) (connRead E b) :=
  Keeps.bind (keeps_others E) fun _ => Keeps.bind Keeps.get fun _ => Keeps.bind (keeps_modify fun _ => rfl) fun _ =>
    Keeps.bind (keeps_emit hJ _ (h _ _ _)) fun _ => Keeps.pure _

theorem keeps_connReadNew (n : Nat) (h : ∀ n d e, ok (.read n d e)) : Keeps (fun s => J s.trace) (connReadNew E n) :=
  Keeps.bind (keeps_others E) fun _ => Keeps.bind Keeps.get fun _ => 
    Keeps.bind (keeps_emit hJ _ (h _ _ _)) fun _ => Keeps.pure _

theorem keeps_connWrite (d : Bytes) (h : ∀ d e, ok (.write d e)) : Keeps (fun s => J s.trace) (connWrite E d) :=
  Keeps.bind (keeps_others E) fun _ => Keeps.bind Keeps.get fun _ => 
    Keeps.bind (keeps_emit hJ _ (h _ _)) fun _ => Keeps.pure _

omit hJ in
theorem keeps_loadSlice (b : Slice) (h : ∀ tr, J tr → J (tr ++ [.load])) : Keeps (fun s => J s.trace) (loadSlice E b) :=
  Keeps.bind (keeps_others E) fun _ => Keeps.bind Keeps.get fun _ => Keeps.bind (fun s hs => h s.trace hs) fun _ => Keeps.pure _

theorem keeps_makeSized (n : Int) (w : Nat) (h : ∀ n, ok (.alloc n)) : Keeps (fun s => J s.trace) (makeSized E n w) := by
  refine Keeps.ite (Keeps.panic _) (Keeps.ite (Keeps.panic _) (Keeps.bind (keeps_emit hJ _ (h _)) fun _ =>
    Keeps.bind Keeps.get fun s => Keeps.ite (fun s hs => hs) (Keeps.pure _)))

theorem keeps_expire (h : ∀ e, ok (.expired e)) : Keeps (fun s => J s.trace) (IsReadLoopExpire E) :=
  Keeps.bind Keeps.get fun _ => Keeps.bind (keeps_emit hJ _ (h _)) fun _ => Keeps.pure _

theorem keeps_requestLoop (hw : ∀ d e, ok (.write d e)) : ∀ n i, Keeps (fun s => J s.trace) (requestLoop E n i) := by
  intro n
  induction n with
  | zero => intro i; exact Keeps.pure _
  | succ n ih =>
    intro i
    exact Keeps.bind Keeps.get fun _ => Keeps.bind (Keeps.lift _) fun _ => Keeps.bind (keeps_connWrite hJ E _ hw) fun _ =>
      Keeps.ite (Keeps.lift _) (ih _)

theorem keeps_handleExtendedMsg (hw : ∀ d e, ok (.write d e)) (ha : ∀ n, ok (.alloc n))
    (hn : ∀ n, ok (.announced n)) (hgp : ∀ n, ok (.gotPiece n)) : ∀ rb d, Keeps (fun s => J s.trace) (handleExtendedMsg E rb d) := by
  intro rb d
  unfold handleExtendedMsg
  cases d[1]? with
  | none => exact Keeps.panic _
  | some c =>
    refine Keeps.ite ?_ (Keeps.ite ?_ (Keeps.pure _))
    · refine Keeps.bind (Keeps.lift _) fun _ => Keeps.ite (Keeps.lift _) ?_
      refine Keeps.bind (Keeps.lift _) fun _ => Keeps.bind (keeps_modify fun _ => rfl) fun _ => ?_
      refine Keeps.bind (keeps_makeSized hJ E _ _ ha) fun _ => Keeps.bind (keeps_modify fun _ => rfl) fun _ => ?_
      refine Keeps.bind (keeps_makeSized hJ E _ _ ha) fun _ => Keeps.bind (keeps_modify fun _ => rfl) fun _ => ?_
      exact Keeps.bind (keeps_emit hJ _ (hn _)) fun _ => keeps_requestLoop hJ E hw _ _
    · refine Keeps.bind (Keeps.lift _) fun r => Keeps.ite (Keeps.pure _) (Keeps.bind Keeps.get fun s => ?_)
      simp only
      split
      · exact Keeps.panic _
      · refine Keeps.bind (keeps_modify fun _ => rfl) fun _ => ?_
        split
        · exact Keeps.panic _
        · exact Keeps.bind (keeps_modify fun _ => rfl) fun _ => keeps_emit hJ _ (hgp _)

omit hJ in
theorem keeps_mergeLoop (h : ∀ tr, J tr → J (tr ++ [.load])) : ∀ n i r, Keeps (fun s => J s.trace) (mergeLoop E n i r) := by
  intro n
  induction n with
  | zero => intro i r; exact Keeps.pure _
  | succ n ih =>
    intro i r
    refine Keeps.bind Keeps.get fun s => ?_
    split
    · exact Keeps.panic _
    · exact ih _ _
    · exact Keeps.bind (keeps_loadSlice E _ h) fun d => ih _ _

theorem keeps_readAfterPrefix (hr : ∀ n d e, ok (.read n d e)) (hg : ∀ b, ok (.get b)) (hp : ∀ b, ok (.put b)) (hd : ok .load) (b : Slice) :
    Keeps (fun s => J s.trace) (readAfterPrefix E b) := by
  unfold readAfterPrefix
  refine Keeps.bind (keeps_loadSlice E _ fun _ h => hJ.step _ _ h hd) fun _ => Keeps.ite (Keeps.panic _) ?_
  refine Keeps.ite (Keeps.pure _) (Keeps.bind (keeps_poolPut hJ E _ (hp _)) fun _ => Keeps.ite (Keeps.pure _) ?_)
  refine Keeps.bind (keeps_poolGet hJ E _ hg) fun _ => Keeps.bind (keeps_connRead hJ E _ hr) fun _ => ?_
  exact Keeps.ite (Keeps.pure _) (Keeps.pure _)

theorem keeps_handleMsg (hw : ∀ d e, ok (.write d e)) (ha : ∀ n, ok (.alloc n))
    (hn : ∀ n, ok (.announced n)) (hgp : ∀ n, ok (.gotPiece n)) (hd : ok .load) (ka : Bool) (rb : Option Slice) (er : Bool) :
    Keeps (fun s => J s.trace) (handleMsg E ka rb er) := by
  refine Keeps.ite (Keeps.pure _) (Keeps.ite (Keeps.lift _) ?_)
  cases rb with
  | none => exact Keeps.panic _
  | some rb =>
    exact Keeps.bind (keeps_loadSlice E _ fun _ h => hJ.step _ _ h hd) fun d => Keeps.bind (Keeps.lift _) fun t =>
      Keeps.ite (keeps_handleExtendedMsg hJ E hw ha hn hgp _ _) (Keeps.pure _)

theorem keeps_putBack (hp : ∀ b, ok (.put b)) (rb : Option Slice) : Keeps (fun s => J s.trace) (putBack E rb) := by
  cases rb with
  | none => exact Keeps.pure _
  | some rb => exact Keeps.ite (keeps_poolPut hJ E _ (hp _)) (Keeps.pure _)

theorem keeps_readMetaDataHandler (h : ∀ e, e ≠ .close → (∀ b, e ≠ .expired b) → ok e) : Keeps (fun s => J s.trace) (readMetaDataHandler E) := by
  refine Keeps.bind (Keeps.bind (keeps_poolGet hJ E _ fun _ => h _ (by simp) (by simp)) fun _ =>
    Keeps.bind (keeps_connRead hJ E _ fun _ _ _ => h _ (by simp) (by simp)) fun _ => Keeps.ite (Keeps.pure _)
      (keeps_readAfterPrefix hJ E (fun _ _ _ => h _ (by simp) (by simp)) (fun _ => h _ (by simp) (by simp)) (fun _ => h _ (by simp) (by simp)) (h _ (by simp) (by simp)) _)) fun r => ?_
  exact Keeps.deferred (keeps_handleMsg hJ E (fun _ _ => h _ (by simp) (by simp)) (fun _ => h _ (by simp) (by simp)) (fun _ => h _ (by simp) (by simp))
    (fun _ => h _ (by simp) (by simp)) (h _ (by simp) (by simp)) _ _ _) (keeps_putBack hJ E (fun _ => h _ (by simp) (by simp)) _)

/-- Everything a download does before the deferred function, if all events but `close` are fine. -/
theorem keeps_fetchBody (h : ∀ e, e ≠ .close → ok e) (sha1 : Bytes → Bytes) (fold : FoldTable) (fuel : Nat)
    (peerId infoHash : Bytes) : Keeps (fun s => J s.trace) (fetchBody E sha1 fold fuel peerId infoHash) := by
  have hr : ∀ n d e, ok (.read n d e) := fun _ _ _ => h _ (by simp)
  have hw : ∀ d e, ok (.write d e) := fun _ _ => h _ (by simp)
  have ha : ∀ n, ok (.alloc n) := fun _ => h _ (by simp)
  have he : ∀ n, ok (.expired n) := fun _ => h _ (by simp)
  have hh := keeps_readMetaDataHandler hJ E fun e he _ => h e he
  have hl : ∀ n, Keeps (fun s => J s.trace) (readMetaDataLoop E n) := by
    intro n
    induction n with
    | zero => intro s hs; exact hs
    | succ n ih =>
      exact Keeps.bind Keeps.get fun s => Keeps.ite (Keeps.pure _) (Keeps.bind (keeps_expire hJ E he) fun e =>
        Keeps.ite (Keeps.pure _) (Keeps.bind hh fun _ => ih))
  have hm : ∀ n i r, Keeps (fun s => J s.trace) (mergeLoop E n i r) := fun n i r => keeps_mergeLoop E (fun _ h' => hJ.step _ _ h' (h _ (by simp))) n i r
  unfold fetchBody
  refine Keeps.bind ?_ fun _ => Keeps.bind ?_ fun _ => Keeps.bind (hl _) fun _ => Keeps.bind Keeps.get fun s => ?_
  · unfold handshakePeer
    refine Keeps.bind (Keeps.lift _) fun _ => Keeps.bind (keeps_connWrite hJ E _ hw) fun _ => Keeps.ite (Keeps.lift _) ?_
    refine Keeps.bind (keeps_connReadNew hJ E _ hr) fun r => ?_
    refine Keeps.ite (Keeps.lift _) (Keeps.bind (Keeps.lift _) fun _ => Keeps.ite (Keeps.lift _) ?_)
    exact Keeps.bind (Keeps.lift _) fun _ => Keeps.ite (Keeps.lift _) (Keeps.pure _)
  · exact Keeps.bind Keeps.get fun _ => Keeps.bind (Keeps.lift _) fun _ => Keeps.bind (keeps_connWrite hJ E _ hw) fun _ =>
      Keeps.ite (Keeps.lift _) (Keeps.pure _)
  · refine Keeps.ite (Keeps.pure _) (Keeps.bind (keeps_makeSized hJ E _ _ ha) fun _ => Keeps.bind (hm _ _ _) fun r => ?_)
    exact Keeps.ite (Keeps.pure _) (Keeps.pure _)
end

end P2P

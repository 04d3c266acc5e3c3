import Verif.Props.DownloadVerdict
/-! # C97, continued: how much a peer can make the program log -/
namespace P2P

/-- Hoare triples for code with a log. -/
def LogTriple {α : Type} (I : PSt → List LogRec → Prop) (m : PL α) (Q : α → PSt → List LogRec → Prop) (X : PSt → List LogRec → Prop) : Prop :=
  ∀ s l, I s l → match m s l with
    | (.ok a t, l') => Q a t l'
    | (.panic _ t, l') => X t l'
    | (.fatal t, l') => X t l'
    | (.diverge t, l') => X t l'

namespace LogTriple
variable {α β : Type} {I : PSt → List LogRec → Prop} {X : PSt → List LogRec → Prop}

theorem bind {m : PL α} {f : α → PL β} {Q : α → PSt → List LogRec → Prop} {R : β → PSt → List LogRec → Prop}
    (h1 : LogTriple I m Q X) (h2 : ∀ a, LogTriple (Q a) (f a) R X) : LogTriple I (m >>= f) R X := by
  intro s l hs
  have h := h1 s l hs
  rw [PL.bind_apply]
  rcases hm : m s l with ⟨o, l'⟩
  rw [hm] at h
  cases o with
  | ok a t => exact h2 a t l' h
  | panic p t => exact h
  | fatal t => exact h
  | diverge t => exact h

theorem ite {c : Prop} [Decidable c] {m n : PL α} {Q : α → PSt → List LogRec → Prop} (h1 : c → LogTriple I m Q X) (h2 : ¬ c → LogTriple I n Q X) :
    LogTriple I (if c then m else n) Q X := by
  by_cases h : c
  · rw [if_pos h]; exact h1 h
  · rw [if_neg h]; exact h2 h

theorem weaken {m : PL α} {Q Q' : α → PSt → List LogRec → Prop} {I' X' : PSt → List LogRec → Prop} (h : LogTriple I m Q X)
    (h1 : ∀ s l, I' s l → I s l) (h2 : ∀ a s l, Q a s l → Q' a s l) (h3 : ∀ s l, X s l → X' s l) : LogTriple I' m Q' X' := by
  intro s l hs
  have h := h s l (h1 s l hs)
  rcases hm : m s l with ⟨o, l'⟩
  rw [hm] at h
  cases o with
  | ok a t => exact h2 _ _ _ h
  | panic p t => exact h3 _ _ h
  | fatal t => exact h3 _ _ h
  | diverge t => exact h3 _ _ h

end LogTriple

/-- at most `k` records more than reads -/
def Paid (k : Int) (s : PSt) (l : List LogRec) : Prop := (l.length : Int) ≤ reads s.trace + k

section count
variable (E : PEnv) (C : DlEnv) (laddr : Bytes) {α : Type}

theorem Paid.mono {k k' : Int} (h : k ≤ k') {s : PSt} {l : List LogRec} (hp : Paid k s l) : Paid k' s l := by
  unfold Paid at *; omega

/-- code that neither logs nor reads (reading can only help) -/
theorem paid_quiet {m : PM α} (h : ∀ k, Keeps (fun s => k ≤ reads s.trace) m) (k : Int) : LogTriple (Paid k) (PL.quiet m) (fun _ => Paid k) (Paid k) := by
  intro s l hs
  have := h (reads s.trace) s (Nat.le_refl _)
  unfold PL.quiet
  unfold Paid at *
  cases hm : m s <;> rw [hm] at this <;> simp only at this ⊢ <;> omega

theorem paid_log (x : LogRec) (k : Int) : LogTriple (Paid k) (PL.log x) (fun _ => Paid (k + 1)) (Paid (k + 1)) := by
  intro s l hs
  unfold Paid at *
  simp only [PL.log, List.length_append, List.length_singleton]
  omega

theorem paid_logPanic (p m : Bytes) (c : List (Bytes × LogVal)) (k : Int) (Q : α → PSt → List LogRec → Prop) :
    LogTriple (Paid k) (PL.logPanic p m c : PL α) Q (Paid (k + 1)) := by
  intro s l hs
  unfold Paid at *
  simp only [PL.logPanic, List.length_append, List.length_singleton]
  omega

theorem paid_lift {m : Res α} (k : Int) : LogTriple (Paid k) (PL.quiet (PM.lift m)) (fun _ => Paid k) (Paid k) :=
  paid_quiet (fun _ => Keeps.lift _) k

theorem paid_codec (r : Res α) (c : Bytes → List (Bytes × LogVal)) (k : Int) :
    LogTriple (Paid k) (PL.codec r c) (fun _ => Paid k) (Paid (k + 1)) := by
  unfold PL.codec
  split
  · exact paid_logPanic _ _ _ _ _
  · exact (paid_lift k).weaken (fun _ _ h => h) (fun _ _ _ h => h) fun _ _ h => h.mono (by omega)

theorem pays_emit (e : PEvent) (n : Nat) : Keeps (fun s => n ≤ reads s.trace) (emitP e) := keeps_emit (reads_mono n) e trivial
theorem paid_emit (e : PEvent) (k : Int) : LogTriple (Paid k) (PL.quiet (emitP e)) (fun _ => Paid k) (Paid k) := paid_quiet (pays_emit e) k
theorem paid_get (k : Int) : LogTriple (Paid k) (PL.quiet PM.get) (fun _ => Paid k) (Paid k) := paid_quiet (fun _ => Keeps.get) k
theorem paid_modify {f : PSt → PSt} (h : ∀ s, (f s).trace = s.trace) (k : Int) :
    LogTriple (Paid k) (PL.quiet (PM.modify f)) (fun _ => Paid k) (Paid k) := paid_quiet (fun n => keeps_modify (J := fun tr => n ≤ reads tr) h) k
theorem paid_write (d : Bytes) (k : Int) : LogTriple (Paid k) (PL.quiet (connWrite E d)) (fun _ => Paid k) (Paid k) :=
  paid_quiet (fun n => keeps_connWrite (reads_mono n) E d fun _ _ => trivial) k
theorem paid_makeSized (z : Int) (w : Nat) (k : Int) : LogTriple (Paid k) (PL.quiet (makeSized E z w)) (fun _ => Paid k) (Paid k) :=
  paid_quiet (fun n => keeps_makeSized (reads_mono n) E z w fun _ => trivial) k
theorem paid_load (b : Slice) (k : Int) : LogTriple (Paid k) (PL.quiet (loadSlice E b)) (fun _ => Paid k) (Paid k) :=
  paid_quiet (fun n => keeps_loadSlice (J := fun tr => n ≤ reads tr) E b fun _ h => (reads_mono n).step _ _ h trivial) k
theorem paid_runtime (k : Int) (Q : α → PSt → List LogRec → Prop) : LogTriple (Paid k) (PL.quiet (PM.panic .runtime)) Q (Paid k) := fun _ _ h => h
theorem paid_pure (a : α) (k : Int) (X : PSt → List LogRec → Prop) : LogTriple (Paid k) (pure a : PL α) (fun _ => Paid k) X := fun _ _ h => h

/-- weakening of the bounds -/
theorem LogTriple.up {m : PL α} {i q x i' q' x' : Int} (h : LogTriple (Paid i) m (fun _ => Paid q) (Paid x)) (h1 : i' ≤ i) (h2 : q ≤ q') (h3 : x ≤ x') :
    LogTriple (Paid i') m (fun _ => Paid q') (Paid x') := h.weaken (fun _ _ => Paid.mono h1) (fun _ _ _ => Paid.mono h2) fun _ _ => Paid.mono h3

theorem paid_modify1 {f : PSt → PSt} {k : Int} (h : ∀ s, (f s).trace = s.trace) :
    LogTriple (Paid (k - 1)) (PL.quiet (PM.modify f)) (fun _ => Paid (k - 1)) (Paid k) :=
  (paid_modify h (k - 1)).up (by omega) (by omega) (by omega)

theorem paid_requestLoop (k : Int) : ∀ n i, LogTriple (Paid k) (requestLoopL E C laddr n i) (fun _ => Paid k) (Paid (k + 1)) := by
  intro n
  induction n with
  | zero => intro i; exact paid_pure _ _ _
  | succ n ih =>
    intro i
    refine .bind ((paid_get k).up (by omega) (Int.le_refl _) (by omega)) fun s => .bind (paid_codec _ _ _) fun m =>
      .bind ((paid_write E _ k).up (by omega) (Int.le_refl _) (by omega)) fun f => .ite (fun _ => ?_) fun _ => ih _
    exact .bind ((paid_get k).up (by omega) (Int.le_refl _) (by omega)) fun s => paid_logPanic _ _ _ _ _

theorem paid_extended (rb : Slice) (d : Bytes) (k : Int) :
    LogTriple (Paid (k - 2)) (handleExtendedMsgL E C laddr rb d) (fun _ => Paid k) (Paid k) := by
  unfold handleExtendedMsgL
  cases d[1]? with
  | none => exact (paid_runtime (k - 2) _).weaken (fun _ _ h => h) (fun _ _ _ h => h) fun _ _ => Paid.mono (by omega)
  | some id =>
    refine .ite (fun _ => ?_) fun _ => .ite (fun _ => ?_) fun _ => .ite (fun _ => ?_) fun _ => ?_
    · refine .bind ((paid_codec _ _ (k - 2)).up (by omega) (Int.le_refl _) (by omega)) fun dict => ?_
      refine .bind ((paid_log _ (k - 2)).up (by omega) (q' := k - 1) (by omega) (by omega)) fun _ => .ite (fun _ => ?_) fun _ => ?_
      · exact (paid_logPanic _ _ _ (k - 1) _).weaken (fun _ _ h => h) (fun _ _ _ h => h) fun _ _ => Paid.mono (by omega)
      refine .bind ((paid_lift (k - 1)).up (by omega) (Int.le_refl _) (by omega)) fun z => ?_
      refine .bind (paid_modify1 fun _ => rfl) fun _ => ?_
      refine .bind ((paid_makeSized E _ _ (k - 1)).up (by omega) (Int.le_refl _) (by omega)) fun _ => ?_
      refine .bind (paid_modify1 fun _ => rfl) fun _ => ?_
      refine .bind ((paid_makeSized E _ _ (k - 1)).up (by omega) (Int.le_refl _) (by omega)) fun _ => ?_
      refine .bind (paid_modify1 fun _ => rfl) fun _ => ?_
      refine .bind ((paid_emit _ (k - 1)).up (by omega) (Int.le_refl _) (by omega)) fun _ => ?_
      refine .bind ((paid_requestLoop E C laddr (k - 1) _ _).up (by omega) (Int.le_refl _) (by omega)) fun _ => ?_
      exact (paid_log _ (k - 1)).up (by omega) (by omega) (by omega)
    · refine .bind ((paid_codec _ _ (k - 2)).up (by omega) (Int.le_refl _) (by omega)) fun resp => ?_
      refine .bind ((paid_log _ (k - 2)).up (by omega) (q' := k - 1) (by omega) (by omega)) fun _ => .ite (fun _ => ?_) fun _ => ?_
      · exact (paid_log _ (k - 1)).up (by omega) (by omega) (by omega)
      refine .bind ((paid_get (k - 1)).up (by omega) (Int.le_refl _) (by omega)) fun s => ?_
      dsimp only
      generalize setAt s.metaData resp.pieceNum _ = x
      cases x with
      | none => exact (paid_runtime (k - 1) _).weaken (fun _ _ h => h) (fun _ _ _ h => h) fun _ _ => Paid.mono (by omega)
      | some md =>
        refine .bind (paid_modify1 fun _ => rfl) fun _ => ?_
        generalize setAt s.requested resp.pieceNum true = y
        cases y with
        | none => exact (paid_runtime (k - 1) _).weaken (fun _ _ h => h) (fun _ _ _ h => h) fun _ _ => Paid.mono (by omega)
        | some rq =>
          exact .bind (paid_modify1 fun _ => rfl) fun _ =>
            (paid_emit _ (k - 1)).up (by omega) (by omega) (by omega)
    · exact (paid_log _ (k - 2)).up (by omega) (by omega) (by omega)
    · exact (paid_log _ (k - 2)).up (by omega) (by omega) (by omega)

/-- reads are counted -/
theorem pays_connRead (b : Slice) (n : Nat) :
    Triple (fun s => n ≤ reads s.trace) (connRead E b) (fun _ s => n + 1 ≤ reads s.trace) (fun s => n ≤ reads s.trace) := by
  intro s hs
  simp only [connRead, PM.bind_apply, others, PM.modify_apply, PM.get_apply, emitP, PM.pure_apply]
  unfold reads at *
  rw [List.countP_append]
  simp only [List.countP_singleton, if_true]
  omega

theorem pays_readBytes (n : Nat) : Triple (fun s => n ≤ reads s.trace) (readBytesByPrefixLenMsg E)
    (fun r s => n + 1 ≤ reads s.trace ∧ (r.1 = false → r.2.2 = false → n + 2 ≤ reads s.trace)) (fun s => n ≤ reads s.trace) := by
  have up : ∀ {β : Type} {m : PM β} {k : Nat}, n ≤ k → Keeps (fun s => k ≤ reads s.trace) m →
      Triple (fun s => k ≤ reads s.trace) m (fun _ s => k ≤ reads s.trace) (fun s => n ≤ reads s.trace) := fun hk h =>
    Triple.weaken h (fun _ h => h) (fun _ _ h => h) fun _ h => Nat.le_trans hk h
  refine Triple.bind (keeps_poolGet (reads_mono n) E _ fun _ => trivial) fun b => Triple.bind (pays_connRead E b n) fun r => ?_
  refine Triple.ite (fun _ => Triple.pure fun s hs => ⟨hs, by simp⟩) fun _ => ?_
  unfold readAfterPrefix
  refine Triple.bind (up (by omega) (keeps_loadSlice (J := fun tr => n + 1 ≤ reads tr) E _ fun _ h => (reads_mono (n + 1)).step _ _ h trivial)) fun _ => Triple.ite (fun _ => ?_) fun _ => ?_
  · exact Triple.panic fun s hs => by omega
  refine Triple.ite (fun _ => Triple.pure fun s hs => ⟨hs, by simp⟩) fun _ => ?_
  refine Triple.bind (up (by omega) (keeps_poolPut (reads_mono (n + 1)) E _ trivial)) fun _ => ?_
  refine Triple.ite (fun _ => Triple.pure fun s hs => ⟨hs, by simp⟩) fun _ => ?_
  refine Triple.bind (up (by omega) (keeps_poolGet (reads_mono (n + 1)) E _ fun _ => trivial)) fun _ => ?_
  refine Triple.bind (Q := fun _ s => n + 2 ≤ reads s.trace)
    (Triple.weaken (pays_connRead E _ (n + 1)) (fun _ h => h) (fun _ _ h => by omega) (fun _ h => by omega)) fun _ => ?_
  exact Triple.ite (fun _ => Triple.pure fun s hs => ⟨by omega, fun _ _ => hs⟩) (fun _ => Triple.pure fun s hs => ⟨by omega, fun _ _ => hs⟩)

theorem paid_handleMsg (a : Bool) (rb : Option Slice) (e : Bool) (k : Int) :
    LogTriple (fun s l => Paid (k - 1) s l ∧ (a = false → e = false → Paid (k - 2) s l)) (handleMsgL E C laddr a rb e) (fun _ => Paid k) (Paid k) := by
  unfold handleMsgL
  refine .ite (fun _ => ?_) fun ha => .ite (fun _ => ?_) fun he => ?_
  · exact (paid_pure _ (k - 1) (Paid k)).weaken (fun _ _ h => h.1) (fun _ _ _ => Paid.mono (by omega)) fun _ _ h => h
  · refine LogTriple.weaken (I := Paid (k - 1)) (Q := fun _ => Paid k) (X := Paid k) ?_ (fun _ _ h => h.1) (fun _ _ _ h => h) (fun _ _ h => h)
    refine .bind ((paid_get (k - 1)).up (by omega) (Int.le_refl _) (by omega)) fun s => ?_
    exact (paid_logPanic _ _ _ (k - 1) _).weaken (fun _ _ h => h) (fun _ _ _ h => h) fun _ _ => Paid.mono (by omega)
  · refine LogTriple.weaken (I := Paid (k - 2)) (Q := fun _ => Paid k) (X := Paid k) ?_ (fun _ _ h => h.2 (by simpa using ha) (by simpa using he)) (fun _ _ _ h => h) (fun _ _ h => h)
    cases rb with
    | none => exact (paid_runtime (k - 2) _).weaken (fun _ _ h => h) (fun _ _ _ h => h) fun _ _ => Paid.mono (by omega)
    | some rb =>
      refine .bind ((paid_load E rb (k - 2)).up (by omega) (Int.le_refl _) (by omega)) fun d =>
        .bind ((paid_lift (k - 2)).up (by omega) (Int.le_refl _) (by omega)) fun t => .ite (fun _ => paid_extended E C laddr rb d k) fun _ => ?_
      exact (paid_log _ (k - 2)).up (by omega) (by omega) (by omega)

theorem paid_deferred {I : PSt → List LogRec → Prop} {m : PL α} {c : PM Unit} {k : Int} (h : LogTriple I m (fun _ => Paid k) (Paid k))
    (hc : ∀ n, Keeps (fun s => n ≤ reads s.trace) c) : LogTriple I (PL.deferred m c) (fun _ => Paid k) (Paid k) := by
  intro s l hs
  have h := h s l hs
  unfold PL.deferred PM.deferred
  have key : ∀ (t : PSt) (l' : List LogRec), Paid k t l' → match c t with
      | .ok _ u => Paid k u l' | .panic _ u => Paid k u l' | .fatal u => Paid k u l' | .diverge u => Paid k u l' := by
    intro t l' ht
    have := hc (reads t.trace) t (Nat.le_refl _)
    unfold Paid at *
    cases hm : c t <;> rw [hm] at this <;> simp only at this ⊢ <;> omega
  rcases hm : m s l with ⟨o, l'⟩
  rw [hm] at h
  cases o with
  | ok a t =>
    simp only at h ⊢
    have := key t l' h
    cases hct : c t <;> rw [hct] at this <;> exact this
  | panic p t =>
    simp only at h ⊢
    have := key t l' h
    cases hct : c t <;> rw [hct] at this <;> exact this
  | fatal t => exact h
  | diverge t => exact h

theorem paid_handler (k : Int) : LogTriple (Paid k) (readMetaDataHandlerL E C laddr) (fun _ => Paid k) (Paid k) := by
  refine LogTriple.bind (Q := fun r s l => Paid (k - 1) s l ∧ (r.1 = false → r.2.2 = false → Paid (k - 2) s l)) ?_ fun r => ?_
  · intro s l hs
    have := pays_readBytes E (reads s.trace) s (Nat.le_refl _)
    unfold PL.quiet
    unfold Paid at *
    cases hm : readBytesByPrefixLenMsg E s with
    | ok r t =>
      rw [hm] at this
      exact ⟨by have := this.1; omega, fun h1 h2 => by have := this.2 h1 h2; omega⟩
    | panic p t => rw [hm] at this; simp only at this ⊢; omega
    | fatal t => rw [hm] at this; simp only at this ⊢; omega
    | diverge t => rw [hm] at this; simp only at this ⊢; omega
  · exact paid_deferred (paid_handleMsg E C laddr _ _ _ k) fun n => keeps_putBack (reads_mono n) E (fun _ => trivial) _

theorem paid_loop (k : Int) (f : Nat) : LogTriple (Paid k) (readMetaDataLoopL E C laddr f) (fun _ => Paid k) (Paid k) := by
  induction f with
  | zero => exact fun _ _ h => h
  | succ f ih =>
    exact .bind (paid_get k) fun s => .ite (fun _ => paid_pure _ _ _) fun _ =>
      .bind (paid_quiet (fun n => keeps_expire (reads_mono n) E fun _ => trivial) k) fun e => .ite (fun _ => paid_pure _ _ _) fun _ =>
        .bind (paid_handler E C laddr k) fun _ => ih

theorem paid_initial (k : Int) : LogTriple (Paid k) (initialMessagesL E C laddr) (fun _ => Paid k) (Paid (k + 1)) := by
  refine .bind ((paid_get k).up (by omega) (Int.le_refl _) (by omega)) fun s => .bind (paid_codec _ _ _) fun m =>
    .bind ((paid_write E _ k).up (by omega) (Int.le_refl _) (by omega)) fun f => .ite (fun _ => ?_) fun _ => paid_pure _ _ _
  exact .bind ((paid_get k).up (by omega) (Int.le_refl _) (by omega)) fun s => paid_logPanic _ _ _ _ _

theorem paid_handshake (fold : FoldTable) (peerId infoHash : Bytes) :
    LogTriple (Paid 0) (handshakePeerL E C laddr fold peerId infoHash) (fun _ => Paid (-1)) (Paid 1) := by
  refine .bind ((paid_codec _ _ 0).up (by omega) (Int.le_refl _) (by omega)) fun m =>
    .bind ((paid_write E _ 0).up (by omega) (Int.le_refl _) (by omega)) fun f => .ite (fun _ => ?_) fun _ => ?_
  · refine .bind ((paid_get 0).up (by omega) (Int.le_refl _) (by omega)) fun s => ?_
    exact (paid_logPanic _ _ _ 0 _).weaken (fun _ _ h => h) (fun _ _ _ h => h) fun _ _ => Paid.mono (by omega)
  · refine LogTriple.bind (Q := fun _ => Paid (-1)) ?_ fun r => ?_
    · intro s l hs
      simp only [PL.quiet, connReadNew, PM.bind_apply, others, PM.modify_apply, PM.get_apply, emitP, PM.pure_apply]
      unfold Paid reads at *
      rw [List.countP_append]
      simp only [List.countP_singleton, if_true]
      omega
    · refine .ite (fun _ => ?_) fun _ => ?_
      · refine .bind ((paid_get (-1)).up (by omega) (Int.le_refl _) (by omega)) fun s => ?_
        exact (paid_logPanic _ _ _ (-1) _).weaken (fun _ _ h => h) (fun _ _ _ h => h) fun _ _ => Paid.mono (by omega)
      · refine .bind ((paid_codec _ _ (-1)).up (by omega) (Int.le_refl _) (by omega)) fun resp => .ite (fun _ => ?_) fun _ => ?_
        · exact (paid_logPanic _ _ _ (-1) _).weaken (fun _ _ h => h) (fun _ _ _ h => h) fun _ _ => Paid.mono (by omega)
        · refine .bind ((paid_lift (-1)).up (by omega) (Int.le_refl _) (by omega)) fun x => .ite (fun _ => ?_) fun _ => ?_
          · exact (paid_logPanic _ _ _ (-1) _).weaken (fun _ _ h => h) (fun _ _ _ h => h) fun _ _ => Paid.mono (by omega)
          · exact (paid_pure _ _ _)

theorem paid_body (sha1 : Bytes → Bytes) (fold : FoldTable) (fuel : Nat) (peerId infoHash : Bytes) :
    LogTriple (Paid 0) (fetchBodyL E C laddr sha1 fold fuel peerId infoHash) (fun _ => Paid 0) (Paid 1) := by
  refine .bind (paid_handshake E C laddr fold peerId infoHash) fun _ => .bind ((paid_initial E C laddr (-1)).up (by omega) (Int.le_refl _) (by omega)) fun _ =>
    .bind ((paid_loop E C laddr (-1) fuel).up (by omega) (Int.le_refl _) (by omega)) fun _ =>
    .bind ((paid_get (-1)).up (by omega) (Int.le_refl _) (by omega)) fun s => .ite (fun _ => ?_) fun _ => ?_
  · exact (paid_pure _ (-1) (Paid 1)).weaken (fun _ _ h => h) (fun _ _ _ => Paid.mono (by omega)) fun _ _ h => h
  · refine .bind ((paid_makeSized E _ _ (-1)).up (by omega) (Int.le_refl _) (by omega)) fun _ => ?_
    refine .bind ((paid_quiet (fun n => keeps_mergeLoop (J := fun tr => n ≤ reads tr) E (fun _ h => (reads_mono n).step _ _ h trivial) _ _ _) (-1)).up (by omega) (Int.le_refl _) (by omega)) fun d => .ite (fun _ => ?_) fun _ => ?_
    · exact .bind ((paid_log _ (-1)).up (by omega) (q' := 0) (by omega) (by omega)) fun _ => paid_pure _ _ _
    · exact .bind ((paid_log _ (-1)).up (by omega) (q' := 0) (by omega) (by omega)) fun _ => paid_pure _ _ _

/-- the interactions of a call -/
def FetchOut.trace : FetchOut → List PEvent
  | .returned _ _ s => s.trace
  | .fatal s => s.trace
  | .diverge s => s.trace
  | _ => []

/-- **C97.** Whatever the peer sends, a download logs at most two records more than it reads from the connection. -/
theorem C97_count (sha1 : Bytes → Bytes) (fold : FoldTable) (fuel : Nat) (peerId infoHash : Bytes) (mem : Nat → Bytes) (pool : BPool)
    (o : FetchOut) (l : List LogRec) (h : FetchMetaDataL E C laddr sha1 fold fuel peerId infoHash mem pool = (o, l)) :
    l.length ≤ reads o.trace + 2 := by
  have hb := paid_body E C laddr sha1 fold fuel peerId infoHash (NewPeerConn mem pool) [] (by simp [Paid])
  have hclose : ∀ tr : List PEvent, reads (tr ++ [.close]) = reads tr := by
    intro tr; unfold reads; rw [List.countP_append]; simp
  unfold FetchMetaDataL at h
  split at h
  · cases h; simp
  rcases hf : fetchBodyL E C laddr sha1 fold fuel peerId infoHash (NewPeerConn mem pool) [] with ⟨r, l'⟩
  rw [hf] at h hb
  cases r with
  | ok a s =>
    simp only [Prod.mk.injEq] at h hb
    obtain ⟨rfl, rfl⟩ := h
    unfold Paid at hb
    show l'.length ≤ reads (s.trace ++ [.close]) + 2
    rw [hclose]; omega
  | panic p s =>
    simp only [Prod.mk.injEq] at h hb
    obtain ⟨rfl, rfl⟩ := h
    unfold Paid at hb
    show (l' ++ _).length ≤ reads (s.trace ++ [.close]) + 2
    rw [hclose]; simp; omega
  | fatal s =>
    simp only [Prod.mk.injEq] at h hb
    obtain ⟨rfl, rfl⟩ := h
    unfold Paid at hb
    show l'.length ≤ reads s.trace + 2
    omega
  | diverge s =>
    simp only [Prod.mk.injEq] at h hb
    obtain ⟨rfl, rfl⟩ := h
    unfold Paid at hb
    show l'.length ≤ reads s.trace + 2
    omega

end count

end P2P

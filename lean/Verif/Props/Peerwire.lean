import Verif.Lemmas.Peerwire
import Verif.Props.PeerMsg
/-! # Property theorems C41, C42, C57, C58, C59 (metadata download, any peer and any interference) -/
namespace P2P

/-! ## C41: authenticity -/

theorem Triple.trivial {α : Type} {I : PSt → Prop} (m : PM α) : Triple I m (fun _ _ => True) (fun _ => True) := by
  intro s _
  cases m s <;> exact True.intro

/-- Whatever the peer sends, in whatever chunks, whatever happens to the shared buffers and whenever the
time runs out: `FetchMetaData` returns an error and no data, or data with the right SHA-1. -/
theorem C41_authentic (E : PEnv) (sha1 : Bytes → Bytes) (fold : FoldTable) (fuel : Nat) (peerId infoHash : Bytes)
    (mem : Nat → Bytes) (pool : BPool) (ret err : Option Bytes) (s : PSt)
    (h : FetchMetaData E sha1 fold fuel peerId infoHash mem pool = .returned ret err s) :
    (ret = none ∧ err ≠ none) ∨ (∃ d, ret = some d ∧ err = none ∧ sha1 d = infoHash) := by
  have key : Triple (fun _ => True) (fetchBody E sha1 fold fuel peerId infoHash)
      (fun r _ => (r.1 = none ∧ r.2 ≠ none) ∨ (∃ d, r.1 = some d ∧ r.2 = none ∧ sha1 d = infoHash)) (fun _ => True) := by
    unfold fetchBody
    refine Triple.bind (Triple.trivial _) fun _ => Triple.bind (Triple.trivial _) fun _ =>
      Triple.bind (Triple.trivial _) fun _ => Triple.bind (Triple.trivial _) fun _ => ?_
    refine Triple.ite (fun _ => Triple.pure fun _ _ => .inl ⟨rfl, by simp⟩) fun _ => ?_
    refine Triple.bind (Triple.trivial _) fun _ => Triple.bind (Triple.trivial _) fun r => ?_
    refine Triple.ite (fun _ => Triple.pure fun _ _ => .inl ⟨rfl, by simp⟩) fun hs => ?_
    exact Triple.pure fun _ _ => .inr ⟨r, rfl, rfl, (Decidable.not_not.1 hs).symm⟩
  have := key (NewPeerConn mem pool) True.intro
  unfold FetchMetaData at h
  by_cases hd : E.dialFails = true
  · rw [if_pos hd] at h; cases h
  · rw [if_neg hd] at h
    cases hb : fetchBody E sha1 fold fuel peerId infoHash (NewPeerConn mem pool) with
    | ok r t =>
      rw [hb] at h this
      obtain ⟨r1, r2⟩ := r
      simp only [emitP, PM.modify_apply, FetchOut.returned.injEq] at h
      rw [← h.1, ← h.2.1]
      exact this
    | panic p t =>
      rw [hb] at h
      simp only [emitP, PM.modify_apply, FetchOut.returned.injEq] at h
      left
      rw [← h.1, ← h.2.1]
      simp
    | fatal t => rw [hb] at h; cases h
    | diverge t => rw [hb] at h; cases h

/-- No panic escapes, and the only call that does not open a connection is one whose dial failed. -/
theorem C41_no_panic (E : PEnv) (sha1 : Bytes → Bytes) (fold : FoldTable) (fuel : Nat) (peerId infoHash : Bytes)
    (mem : Nat → Bytes) (pool : BPool) :
    (∀ p, FetchMetaData E sha1 fold fuel peerId infoHash mem pool ≠ .panicked p) ∧
    (FetchMetaData E sha1 fold fuel peerId infoHash mem pool = .dialErr ↔ E.dialFails = true) := by
  unfold FetchMetaData
  by_cases hd : E.dialFails = true
  · simp [hd]
  · simp only [if_neg hd, hd]
    cases hb : fetchBody E sha1 fold fuel peerId infoHash (NewPeerConn mem pool) with
    | ok r t => simp [emitP]
    | panic p t => simp [emitP]
    | fatal t => simp
    | diverge t => simp

/-- Every call that returns after a successful dial has closed the connection exactly once, as its last action. -/
theorem C41_closes (E : PEnv) (sha1 : Bytes → Bytes) (fold : FoldTable) (fuel : Nat) (peerId infoHash : Bytes)
    (mem : Nat → Bytes) (pool : BPool) (ret err : Option Bytes) (s : PSt)
    (h : FetchMetaData E sha1 fold fuel peerId infoHash mem pool = .returned ret err s) :
    ∃ tr, s.trace = tr ++ [.close] ∧ .close ∉ tr := by
  have hJ : TraceInv (fun e => e ≠ .close) (fun tr => PEvent.close ∉ tr) :=
    ⟨fun tr e h1 h2 => by simp [h1]; exact Ne.symm h2⟩
  have key := keeps_fetchBody hJ E (fun e he => he) sha1 fold fuel peerId infoHash (NewPeerConn mem pool) (by simp [NewPeerConn])
  unfold FetchMetaData at h
  by_cases hd : E.dialFails = true
  · rw [if_pos hd] at h; cases h
  · rw [if_neg hd] at h
    cases hb : fetchBody E sha1 fold fuel peerId infoHash (NewPeerConn mem pool) with
    | ok r t =>
      rw [hb] at h key
      obtain ⟨r1, r2⟩ := r
      simp only [emitP, PM.modify_apply, FetchOut.returned.injEq] at h
      exact ⟨t.trace, by rw [← h.2.2], key⟩
    | panic p t =>
      rw [hb] at h key
      simp only [emitP, PM.modify_apply, FetchOut.returned.injEq] at h
      exact ⟨t.trace, by rw [← h.2.2], key⟩
    | fatal t => rw [hb] at h; cases h
    | diverge t => rw [hb] at h; cases h

/-! ## C59: termination -/

/-- `m` never runs out of budget -/
def NoDiv {α : Type} (m : PM α) : Prop := ∀ s t, m s ≠ .diverge t

theorem NoDiv.bind {α β : Type} {m : PM α} {f : α → PM β} (h1 : NoDiv m) (h2 : ∀ a, NoDiv (f a)) : NoDiv (m >>= f) := by
  intro s t
  rw [PM.bind_apply]
  cases hm : m s with
  | ok a u => exact h2 a u t
  | panic p u => simp
  | fatal u => simp
  | diverge u => exact absurd hm (h1 s u)

theorem NoDiv.deferred {α : Type} {m : PM α} {c : PM Unit} (h1 : NoDiv m) (h2 : NoDiv c) : NoDiv (PM.deferred m c) := by
  intro s t
  unfold PM.deferred
  cases hm : m s with
  | ok a u =>
    simp only
    cases hc : c u with
    | diverge v => exact absurd hc (h2 u v)
    | _ => simp
  | panic p u =>
    simp only
    cases hc : c u with
    | diverge v => exact absurd hc (h2 u v)
    | _ => simp
  | fatal u => simp
  | diverge u => exact absurd hm (h1 s u)

theorem NoDiv.pure {α : Type} (a : α) : NoDiv (Pure.pure a : PM α) := fun s t h => by cases h
theorem NoDiv.panic {α : Type} (p : Panic) : NoDiv (PM.panic p : PM α) := fun s t h => by cases h
theorem NoDiv.modify (f : PSt → PSt) : NoDiv (PM.modify f) := fun s t h => by cases h
theorem NoDiv.get : NoDiv PM.get := fun s t h => by cases h
theorem NoDiv.fatal {α : Type} : NoDiv (fun s => .fatal s : PM α) := fun s t h => by cases h
theorem NoDiv.ite {α : Type} {c : Prop} [Decidable c] {m n : PM α} (h1 : NoDiv m) (h2 : NoDiv n) :
    NoDiv (if c then m else n) := by split <;> assumption
theorem NoDiv.lift {α : Type} {r : Res α} (h : r ≠ .diverge) : NoDiv (PM.lift r) := by
  intro s t
  cases r <;> simp [PM.lift] at *

mutual
theorem encodeItem_noDiv : ∀ v : GoVal, encodeItem v ≠ .diverge
  | .int _ => by simp [encodeItem]
  | .str _ => by simp [encodeItem]
  | .list l => by
    have := encodeElems_noDiv l
    unfold encodeItem
    cases h : encodeElems l <;> simp_all
  | .dict d => by
    have := encodeEntries_noDiv d
    unfold encodeItem
    cases h : encodeEntries d <;> simp_all
  | .nilList => by simp [encodeItem]
  | .nilDict => by simp [encodeItem]
  | .nil => by simp [encodeItem]
  | .namedInt _ => by simp [encodeItem]
  | .namedStr _ => by simp [encodeItem]
  | .otherSlice => by simp [encodeItem]
  | .otherMap => by simp [encodeItem]
  | .other => by simp [encodeItem]
theorem encodeElems_noDiv : ∀ l : List GoVal, encodeElems l ≠ .diverge
  | [] => by simp [encodeElems]
  | v :: r => by
    have h1 := encodeItem_noDiv v
    have h2 := encodeElems_noDiv r
    unfold encodeElems
    cases h : encodeItem v <;> simp_all
    cases h' : encodeElems r <;> simp_all
theorem encodeEntries_noDiv : ∀ d : List (Bytes × GoVal), encodeEntries d ≠ .diverge
  | [] => by simp [encodeEntries]
  | (k, v) :: r => by
    have h1 := encodeItem_noDiv v
    have h2 := encodeEntries_noDiv r
    unfold encodeEntries
    cases h : encodeItem v <;> simp_all
    cases h' : encodeEntries r <;> simp_all
end

theorem Res.bind_noDiv {α β : Type} {x : Res α} {f : α → Res β} (h1 : x ≠ .diverge) (h2 : ∀ a, f a ≠ .diverge) :
    (x >>= f) ≠ .diverge := by
  cases x with
  | ok a => exact h2 a
  | err _ => simp
  | panic _ => simp
  | diverge => exact absurd rfl h1

theorem GetVal_noDiv (d : Entries) (k : Bytes) : Dict.GetVal d k ≠ .diverge := by
  unfold Dict.GetVal; split <;> simp

theorem GetInteger_noDiv (d : Entries) (k : Bytes) : Dict.GetInteger d k ≠ .diverge := by
  unfold Dict.GetInteger
  refine Res.bind_noDiv (GetVal_noDiv d k) fun v => ?_
  split <;> simp

theorem GetDict_noDiv (d : Entries) (k : Bytes) : Dict.GetDict d k ≠ .diverge := by
  unfold Dict.GetDict
  refine Res.bind_noDiv (GetVal_noDiv d k) fun v => ?_
  split <;> simp

theorem parseExtendedHandShake_noDiv (data : Bytes) : parseExtendedHandShake data ≠ .diverge := by
  unfold parseExtendedHandShake
  split
  · split
    · simp [logPanic]
    · split
      · simp [logPanic]
      · simp
      · rename_i h; exact absurd h (C09_decoders_terminate _).2.2.2.1
      · exact Res.bind_noDiv (GetDict_noDiv _ _) fun _ => by simp
  · simp

theorem parseExtendedFetchMetaMsg_noDiv (data : Bytes) : parseExtendedFetchMetaMsg data ≠ .diverge := by
  unfold parseExtendedFetchMetaMsg
  split
  · simp
  · split
    · simp [logPanic]
    · split
      · simp
      · split
        · simp [logPanic]
        · simp
        · rename_i h; exact absurd h (C09_decoders_terminate _).2.2.2.2
        · simp only
          split
          · exact Res.bind_noDiv (GetInteger_noDiv _ _) fun _ => Res.bind_noDiv (GetInteger_noDiv _ _) fun _ => by simp
          · exact Res.bind_noDiv (GetInteger_noDiv _ _) fun _ => Res.bind_noDiv (GetInteger_noDiv _ _) fun _ =>
              Res.bind_noDiv (GetInteger_noDiv _ _) fun _ => by simp

theorem parseHandShakeMsg_noDiv (data tail : Bytes) : parseHandShakeMsg data tail ≠ .diverge := by
  have hr : ∀ a b, reslice data tail a b ≠ .diverge := by
    intro a b; unfold reslice; split <;> simp
  unfold parseHandShakeMsg
  split
  · simp [logPanic]
  · split
    · simp
    · exact Res.bind_noDiv (hr _ _) fun _ => Res.bind_noDiv (hr _ _) fun _ => Res.bind_noDiv (hr _ _) fun _ =>
        Res.bind_noDiv (hr _ _) fun _ => by simp

theorem withFetch_noDiv (o : Entries → Entries) (a b c d : Int) (x : Bytes) : withExtendedFetchMetaMsg o a b c d x ≠ .diverge := by
  unfold withExtendedFetchMetaMsg ExFetchMeta.Bytes
  split
  · simp
  · simp [logPanic]
  · simp
  · rename_i h; exact absurd h (encodeItem_noDiv _)

theorem withExHandshake_noDiv (o : Entries → Entries) (a b : Option Entries) : withExtendedhandShake o a b ≠ .diverge := by
  unfold withExtendedhandShake exHandShakeBytes
  split
  · simp
  · simp [logPanic]
  · simp
  · rename_i h; exact absurd h (encodeItem_noDiv _)

theorem noDiv_poolGet (E : PEnv) (n : Nat) : NoDiv (poolGet E n) := by
  refine NoDiv.bind (NoDiv.modify _) fun _ => NoDiv.bind NoDiv.get fun s => ?_
  split
  · exact NoDiv.bind (NoDiv.modify _) fun _ => NoDiv.bind (NoDiv.modify _) fun _ => NoDiv.pure _
  · exact NoDiv.panic _
  · exact NoDiv.panic _
  · exact NoDiv.panic _

theorem noDiv_poolPut (E : PEnv) (b : Slice) : NoDiv (poolPut E b) :=
  NoDiv.bind (NoDiv.modify _) fun _ => NoDiv.bind (NoDiv.modify _) fun _ => NoDiv.modify _

theorem noDiv_connRead (E : PEnv) (b : Slice) : NoDiv (connRead E b) :=
  NoDiv.bind (NoDiv.modify _) fun _ => NoDiv.bind NoDiv.get fun _ => NoDiv.bind (NoDiv.modify _) fun _ =>
    NoDiv.bind (NoDiv.modify _) fun _ => NoDiv.pure _

theorem noDiv_connReadNew (E : PEnv) (n : Nat) : NoDiv (connReadNew E n) :=
  NoDiv.bind (NoDiv.modify _) fun _ => NoDiv.bind NoDiv.get fun _ => NoDiv.bind (NoDiv.modify _) fun _ => NoDiv.pure _

theorem noDiv_connWrite (E : PEnv) (d : Bytes) : NoDiv (connWrite E d) :=
  NoDiv.bind (NoDiv.modify _) fun _ => NoDiv.bind NoDiv.get fun _ => NoDiv.bind (NoDiv.modify _) fun _ => NoDiv.pure _

theorem noDiv_loadSlice (E : PEnv) (b : Slice) : NoDiv (loadSlice E b) :=
  NoDiv.bind (NoDiv.modify _) fun _ => NoDiv.bind NoDiv.get fun _ => NoDiv.bind (NoDiv.modify _) fun _ => NoDiv.pure _

theorem noDiv_makeSized (E : PEnv) (n : Int) (w : Nat) : NoDiv (makeSized E n w) :=
  NoDiv.ite (NoDiv.panic _) (NoDiv.ite (NoDiv.panic _) (NoDiv.bind (NoDiv.modify _) fun _ => NoDiv.bind NoDiv.get fun _ =>
    NoDiv.ite NoDiv.fatal (NoDiv.pure _)))

theorem noDiv_logPanic {α : Type} (m : Bytes) : NoDiv (PM.lift (logPanic m : Res α)) := NoDiv.lift (by simp [logPanic])

theorem noDiv_requestLoop (E : PEnv) (n i : Nat) : NoDiv (requestLoop E n i) := by
  induction n generalizing i with
  | zero => exact NoDiv.pure _
  | succ n ih =>
    exact NoDiv.bind NoDiv.get fun _ => NoDiv.bind (NoDiv.lift (withFetch_noDiv _ _ _ _ _ _)) fun _ =>
      NoDiv.bind (noDiv_connWrite E _) fun _ => NoDiv.ite (noDiv_logPanic _) (ih _)

theorem noDiv_handleExtendedMsg (E : PEnv) (rb : Slice) (data : Bytes) : NoDiv (handleExtendedMsg E rb data) := by
  unfold handleExtendedMsg
  split
  · exact NoDiv.panic _
  · refine NoDiv.ite ?_ (NoDiv.ite ?_ (NoDiv.pure _))
    · refine NoDiv.bind (NoDiv.lift (parseExtendedHandShake_noDiv _)) fun _ => NoDiv.ite (noDiv_logPanic _) ?_
      refine NoDiv.bind (NoDiv.lift (GetInteger_noDiv _ _)) fun _ => NoDiv.bind (NoDiv.modify _) fun _ => ?_
      refine NoDiv.bind (noDiv_makeSized E _ _) fun _ => NoDiv.bind (NoDiv.modify _) fun _ => ?_
      refine NoDiv.bind (noDiv_makeSized E _ _) fun _ => NoDiv.bind (NoDiv.modify _) fun _ => ?_
      exact NoDiv.bind (NoDiv.modify _) fun _ => noDiv_requestLoop E _ _
    · refine NoDiv.bind (NoDiv.lift (parseExtendedFetchMetaMsg_noDiv _)) fun _ => NoDiv.ite (NoDiv.pure _) ?_
      refine NoDiv.bind NoDiv.get fun s => ?_
      simp only
      split
      · exact NoDiv.panic _
      · refine NoDiv.bind (NoDiv.modify _) fun _ => ?_
        split
        · exact NoDiv.panic _
        · exact NoDiv.bind (NoDiv.modify _) fun _ => NoDiv.modify _

theorem noDiv_readBytes (E : PEnv) : NoDiv (readBytesByPrefixLenMsg E) := by
  refine NoDiv.bind (noDiv_poolGet E _) fun _ => NoDiv.bind (noDiv_connRead E _) fun _ => NoDiv.ite (NoDiv.pure _) ?_
  refine NoDiv.bind (noDiv_loadSlice E _) fun _ => NoDiv.ite (NoDiv.panic _) (NoDiv.ite (NoDiv.pure _) ?_)
  refine NoDiv.bind (noDiv_poolPut E _) fun _ => NoDiv.ite (NoDiv.pure _) ?_
  exact NoDiv.bind (noDiv_poolGet E _) fun _ => NoDiv.bind (noDiv_connRead E _) fun _ => NoDiv.ite (NoDiv.pure _) (NoDiv.pure _)

theorem noDiv_handler (E : PEnv) : NoDiv (readMetaDataHandler E) := by
  refine NoDiv.bind (noDiv_readBytes E) fun r => NoDiv.deferred ?_ ?_
  · refine NoDiv.ite (NoDiv.pure _) (NoDiv.ite (noDiv_logPanic _) ?_)
    cases r.2.1 with
    | none => exact NoDiv.panic _
    | some rb =>
      refine NoDiv.bind (noDiv_loadSlice E _) fun d => NoDiv.bind (NoDiv.lift ?_) fun t =>
        NoDiv.ite (noDiv_handleExtendedMsg E _ _) (NoDiv.pure _)
      unfold parsePrefixLenMsg; split <;> simp
  · unfold putBack
    cases r.2.1 with
    | none => exact NoDiv.pure _
    | some rb => exact NoDiv.ite (noDiv_poolPut E _) (NoDiv.pure _)

theorem noDiv_mergeLoop (E : PEnv) (n i : Nat) (r : Bytes) : NoDiv (mergeLoop E n i r) := by
  induction n generalizing i r with
  | zero => exact NoDiv.pure _
  | succ n ih =>
    refine NoDiv.bind NoDiv.get fun s => ?_
    split
    · exact NoDiv.panic _
    · exact ih _ _
    · exact NoDiv.bind (noDiv_loadSlice E _) fun _ => ih _ _

/-- number of `Read` calls so far -/
def reads (tr : List PEvent) : Nat := tr.countP fun e => match e with | .read .. => true | _ => false

/-- The connection's read deadline: from the `n`-th `Read` on, every `Read` fails. -/
def DeadlineAfter (E : PEnv) (n : Nat) : Prop := ∀ tr size, n ≤ reads tr → (E.read tr size).2 = true

theorem reads_mono (k : Nat) : TraceInv (fun _ => True) (fun tr => k ≤ reads tr) :=
  ⟨fun tr e h _ => by unfold reads at *; rw [List.countP_append]; omega⟩

theorem handler_consumes (E : PEnv) (n k : Nat) (hE : DeadlineAfter E n) :
    Triple (fun s => k ≤ reads s.trace) (readMetaDataHandler E) (fun _ s => k < n ∧ k + 1 ≤ reads s.trace) (fun _ => True) := by
  have hJ := reads_mono (k + 1)
  have hrd : Triple (fun s => k ≤ reads s.trace) (readBytesByPrefixLenMsg E)
      (fun r s => r = (false, none, true) ∨ (k < n ∧ k + 1 ≤ reads s.trace)) (fun _ => True) := by
    refine Triple.bind (Q := fun _ s => k ≤ reads s.trace)
      (Triple.weaken (keeps_poolGet (reads_mono k) E _ (fun _ => True.intro)) (fun _ h => h) (fun _ _ h => h) (fun _ _ => True.intro)) fun b => ?_
    refine Triple.bind (Q := fun r s => (r.2 = true ∨ k < n) ∧ k + 1 ≤ reads s.trace) ?_ fun r => ?_
    · intro s hs
      simp only [connRead, PM.bind_apply, others, PM.modify_apply, PM.get_apply, emitP, PM.pure_apply]
      refine ⟨?_, ?_⟩
      · by_cases h : k < n
        · exact .inr h
        · left
          exact hE s.trace b.len (by omega)
      · unfold reads at *
        rw [List.countP_append]
        simp
        omega
    · refine Triple.ite (fun _ => Triple.pure fun _ _ => .inl rfl) fun hr => ?_
      intro s hs
      have hk : k < n := hs.1.resolve_left hr
      have := keeps_readAfterPrefix hJ E (fun _ _ _ => True.intro) (fun _ => True.intro) (fun _ => True.intro) True.intro b
      exact (Triple.weaken (I' := fun s => k + 1 ≤ reads s.trace)
        (Q' := fun r s => r = (false, none, true) ∨ (k < n ∧ k + 1 ≤ reads s.trace)) (X' := fun _ => True)
        this (fun _ h => h) (fun _ _ h => .inr ⟨hk, h⟩) (fun _ _ => True.intro)) s hs.2
  refine Triple.bind hrd fun r => ?_
  by_cases hr : r = (false, none, true)
  · subst hr
    refine Triple.deferred (Q := fun _ _ => False) (X := fun _ => True) ?_
      (fun _ => Triple.pure fun _ h => h.elim) (Triple.pure fun _ _ => True.intro) (fun _ _ => True.intro)
    intro s _
    exact True.intro
  · have hk : Keeps (fun s => k + 1 ≤ reads s.trace) (PM.deferred (handleMsg E r.1 r.2.1 r.2.2) (putBack E r.2.1)) :=
      Keeps.deferred (keeps_handleMsg hJ E (fun _ _ => True.intro) (fun _ => True.intro) (fun _ => True.intro)
              (fun _ => True.intro) True.intro _ _ _) (keeps_putBack hJ E (fun _ => True.intro) _)
    intro s hs
    have hs' := hs.resolve_left hr
    exact (Triple.weaken (I' := fun s => k + 1 ≤ reads s.trace) (Q' := fun _ s => k < n ∧ k + 1 ≤ reads s.trace)
      (X' := fun _ => True) hk (fun _ h => h) (fun _ _ h => ⟨hs'.1, h⟩) (fun _ _ => True.intro)) s hs'.2

theorem loop_noDiv (E : PEnv) (n : Nat) (hE : DeadlineAfter E n) (f : Nat) :
    ∀ s t, n < reads s.trace + f + 1 → readMetaDataLoop E (f + 1) s ≠ .diverge t := by
  induction f with
  | zero =>
    intro s t h
    unfold readMetaDataLoop
    simp only [PM.bind_apply, PM.get_apply]
    split
    · simp
    · simp only [IsReadLoopExpire, PM.bind_apply, PM.get_apply, emitP, PM.modify_apply, PM.pure_apply]
      split
      · simp
      · simp only [PM.bind_apply]
        have h1 := handler_consumes E n (reads s.trace) hE
          { s with trace := s.trace ++ [.expired (E.expired s.trace)] } (by simp [reads])
        cases hh : readMetaDataHandler E { s with trace := s.trace ++ [.expired (E.expired s.trace)] } with
        | ok a u => rw [hh] at h1; have h1 : _ ∧ _ := h1; omega
        | panic p u => simp
        | fatal u => simp
        | diverge u => exact absurd hh (noDiv_handler E _ _)
  | succ f ih =>
    intro s t h
    unfold readMetaDataLoop
    simp only [PM.bind_apply, PM.get_apply]
    split
    · simp
    · simp only [IsReadLoopExpire, PM.bind_apply, PM.get_apply, emitP, PM.modify_apply, PM.pure_apply]
      split
      · simp
      · simp only [PM.bind_apply]
        have h1 := handler_consumes E n (reads s.trace) hE
          { s with trace := s.trace ++ [.expired (E.expired s.trace)] } (by simp [reads])
        cases hh : readMetaDataHandler E { s with trace := s.trace ++ [.expired (E.expired s.trace)] } with
        | ok a u => rw [hh] at h1; have h1 : _ ∧ _ := h1; exact ih u t (by omega)
        | panic p u => simp
        | fatal u => simp
        | diverge u => exact absurd hh (noDiv_handler E _ _)

/-- Once reads fail (the connection's read deadline, set before the handshake, has passed) a download ends: with a
deadline after `n` reads, `n + 1` rounds are enough. -/
theorem C59_terminates (E : PEnv) (n : Nat) (hE : DeadlineAfter E n) (sha1 : Bytes → Bytes) (fold : FoldTable) (fuel : Nat)
    (hf : n + 1 ≤ fuel) (peerId infoHash : Bytes) (mem : Nat → Bytes) (pool : BPool) (t : PSt) :
    FetchMetaData E sha1 fold fuel peerId infoHash mem pool ≠ .diverge t := by
  have hloop : NoDiv (readMetaDataLoop E fuel) := by
    intro s t
    obtain ⟨f, rfl⟩ : ∃ f, fuel = f + 1 := ⟨fuel - 1, by omega⟩
    exact loop_noDiv E n hE f s t (by omega)
  have hb : NoDiv (fetchBody E sha1 fold fuel peerId infoHash) := by
    refine NoDiv.bind ?_ fun _ => NoDiv.bind ?_ fun _ => NoDiv.bind hloop fun _ => NoDiv.bind NoDiv.get fun s => ?_
    · refine NoDiv.bind (NoDiv.lift ?_) fun _ => NoDiv.bind (noDiv_connWrite E _) fun _ => NoDiv.ite (noDiv_logPanic _) ?_
      · unfold withHandShakeMsg; split <;> simp [logPanic]
      · refine NoDiv.bind (noDiv_connReadNew E _) fun r => NoDiv.ite (noDiv_logPanic _) ?_
        refine NoDiv.bind (NoDiv.lift (parseHandShakeMsg_noDiv _ _)) fun hs => NoDiv.ite (noDiv_logPanic _) ?_
        refine NoDiv.bind (NoDiv.lift ?_) fun _ => NoDiv.ite (noDiv_logPanic _) (NoDiv.pure _)
        unfold HandShake.SupportExtended; split <;> simp
    · exact NoDiv.bind NoDiv.get fun _ => NoDiv.bind (NoDiv.lift (withExHandshake_noDiv _ _ _)) fun _ =>
        NoDiv.bind (noDiv_connWrite E _) fun _ => NoDiv.ite (noDiv_logPanic _) (NoDiv.pure _)
    · exact NoDiv.ite (NoDiv.pure _) (NoDiv.bind (noDiv_makeSized E _ _) fun _ => NoDiv.bind (noDiv_mergeLoop E _ _ _) fun _ =>
        NoDiv.ite (NoDiv.pure _) (NoDiv.pure _))
  unfold FetchMetaData
  split
  · simp
  · have := hb (NewPeerConn mem pool)
    cases h : fetchBody E sha1 fold fuel peerId infoHash (NewPeerConn mem pool) with
    | ok r u => simp [emitP]
    | panic p u => simp [emitP]
    | fatal u => simp
    | diverge u => exact absurd h (this u)

end P2P

import Verif.Props.PeerwireReq
/-! # C71: the ten second limit of a download -/
namespace P2P

/-- how often the clock was asked and had time left -/
def clocks (tr : List PEvent) : Nat := tr.countP fun e => match e with | .expired false => true | _ => false

theorem keeps_handshakePeer {ok : PEvent → Prop} {J : List PEvent → Prop} (hJ : TraceInv ok J) (E : PEnv) (hr : ∀ n d e, ok (.read n d e))
    (hw : ∀ d e, ok (.write d e)) (fold : FoldTable) (peerId infoHash : Bytes) :
    Keeps (fun s => J s.trace) (handshakePeer E fold peerId infoHash) := by
  unfold handshakePeer
  refine Keeps.bind (Keeps.lift _) fun _ => Keeps.bind (keeps_connWrite hJ E _ hw) fun _ => Keeps.ite (Keeps.lift _) ?_
  refine Keeps.bind (keeps_connReadNew hJ E _ hr) fun r => ?_
  refine Keeps.ite (Keeps.lift _) (Keeps.bind (Keeps.lift _) fun _ => Keeps.ite (Keeps.lift _) ?_)
  exact Keeps.bind (Keeps.lift _) fun _ => Keeps.ite (Keeps.lift _) (Keeps.pure _)

theorem keeps_initialMessages {ok : PEvent → Prop} {J : List PEvent → Prop} (hJ : TraceInv ok J) (E : PEnv)
    (hw : ∀ d e, ok (.write d e)) : Keeps (fun s => J s.trace) (initialMessages E) :=
  Keeps.bind Keeps.get fun _ => Keeps.bind (Keeps.lift _) fun _ => Keeps.bind (keeps_connWrite hJ E _ hw) fun _ =>
    Keeps.ite (Keeps.lift _) (Keeps.pure _)

/-- Once the clock has said that the time is over, the download reads and writes nothing more: it closes the connection and reports
that it could not complete. -/
theorem C71_stops (E : PEnv) (sha1 : Bytes → Bytes) (fold : FoldTable) (fuel : Nat) (peerId infoHash : Bytes)
    (mem : Nat → Bytes) (pool : BPool) (ret err : Option Bytes) (s : PSt)
    (h : FetchMetaData E sha1 fold fuel peerId infoHash mem pool = .returned ret err s) (hx : .expired true ∈ s.trace) :
    ret = none ∧ err = some b!"cannot completed download metadata" ∧
    ∃ pre, s.trace = pre ++ [.expired true, .close] ∧ .expired true ∉ pre := by
  have hJ : TraceInv (fun e => e ≠ .expired true) (fun tr => PEvent.expired true ∉ tr) :=
    ⟨fun tr e h1 h2 => by simp [h1]; exact Ne.symm h2⟩
  let N : PSt → Prop := fun s => .expired true ∉ s.trace
  have hloop : ∀ f, Triple N (readMetaDataLoop E f)
      (fun _ s => N s ∨ (CompledMetaData s = false ∧ ∃ pre, s.trace = pre ++ [.expired true] ∧ .expired true ∉ pre)) N := by
    intro f
    induction f with
    | zero => exact fun s hs => hs
    | succ f ih =>
      intro s hs
      unfold readMetaDataLoop
      simp only [PM.bind_apply, PM.get_apply]
      cases hc : CompledMetaData s with
      | true => exact .inl hs
      | false =>
        simp only [Bool.false_eq_true, if_false, PM.bind_apply, IsReadLoopExpire, PM.get_apply, emitP, PM.modify_apply, PM.pure_apply]
        cases he : E.expired s.trace with
        | true => exact .inr ⟨hc, s.trace, rfl, hs⟩
        | false =>
          simp only [Bool.false_eq_true, if_false]
          have hk := Triple.bind (keeps_readMetaDataHandler hJ E (fun e _ h => h true)) fun _ => ih
          exact hk { s with trace := s.trace ++ [.expired false] } (by simpa [N] using hs)
  have key : Triple N (fetchBody E sha1 fold fuel peerId infoHash)
      (fun r s => N s ∨ (r = (none, some b!"cannot completed download metadata") ∧ ∃ pre, s.trace = pre ++ [.expired true] ∧ .expired true ∉ pre)) N := by
    unfold fetchBody
    refine Triple.bind (keeps_handshakePeer hJ E (by simp) (by simp) _ _ _) fun _ => Triple.bind (keeps_initialMessages hJ E (by simp)) fun _ =>
      Triple.bind (hloop fuel) fun _ => ?_
    intro s hs
    simp only [PM.bind_apply, PM.get_apply]
    cases hc : CompledMetaData s with
    | false =>
      rcases hs with hs | hs
      · exact .inl hs
      · exact .inr ⟨rfl, hs.2⟩
    | true =>
      have hs : N s := by
        rcases hs with hs | hs
        · exact hs
        · rw [hc] at hs; cases hs.1
      simp only [not_true_eq_false, if_false]
      have hk : Keeps N (do
          makeSized E s.metaDataSize 1
          let result ← mergeLoop E s.requested.length 0 []
          if infoHash ≠ sha1 result then pure (none, some b!"check sum err") else pure (some result, none) : PM (Option Bytes × Option Bytes)) :=
        Keeps.bind (keeps_makeSized hJ E _ _ (by simp)) fun _ => Keeps.bind (keeps_mergeLoop (J := fun tr => PEvent.expired true ∉ tr) E (fun _ h => hJ.step _ _ h (by simp)) _ _ _) fun r =>
          Keeps.ite (Keeps.pure _) (Keeps.pure _)
      exact (Triple.weaken (Q' := fun r s => N s ∨ (r = (none, some b!"cannot completed download metadata") ∧ ∃ pre, s.trace = pre ++ [.expired true] ∧ .expired true ∉ pre))
        hk (fun _ h => h) (fun _ _ h => .inl h) (fun _ h => h)) s hs
  have := key (NewPeerConn mem pool) (by simp [N, NewPeerConn])
  unfold FetchMetaData at h
  by_cases hd : E.dialFails = true
  · rw [if_pos hd] at h; cases h
  · rw [if_neg hd] at h
    cases hb : fetchBody E sha1 fold fuel peerId infoHash (NewPeerConn mem pool) with
    | ok r t =>
      rw [hb] at h this
      obtain ⟨r1, r2⟩ := r
      simp only [emitP, PM.modify_apply, FetchOut.returned.injEq] at h
      obtain ⟨rfl, rfl, rfl⟩ := h
      rcases this with h0 | ⟨h0, pre, h1, h2⟩
      · simp only [List.mem_append, List.mem_singleton] at hx
        rcases hx with hx | hx
        · exact absurd hx h0
        · cases hx
      · cases h0
        exact ⟨rfl, rfl, pre, by simp [h1], h2⟩
    | panic p t =>
      rw [hb] at h this
      simp only [emitP, PM.modify_apply, FetchOut.returned.injEq] at h
      obtain ⟨rfl, rfl, rfl⟩ := h
      simp only [List.mem_append, List.mem_singleton] at hx
      rcases hx with hx | hx
      · exact absurd hx this
      · cases hx
    | fatal t => rw [hb] at h; cases h
    | diverge t => rw [hb] at h; cases h

/-- all reads so far were paid for, and `c` more are -/
def Budget (c : Nat) (tr : List PEvent) : Prop :=
  (∀ pre, pre <+: tr → reads pre ≤ 1 + 2 * clocks pre) ∧ reads tr + c ≤ 1 + 2 * clocks tr

theorem budget_snoc {c : Nat} {tr : List PEvent} {e : PEvent} (h1 : ∀ pre, pre <+: tr → reads pre ≤ 1 + 2 * clocks pre)
    (h2 : reads (tr ++ [e]) + c ≤ 1 + 2 * clocks (tr ++ [e])) : Budget c (tr ++ [e]) := by
  refine ⟨fun pre hp => ?_, h2⟩
  rcases List.prefix_concat_iff.1 hp with rfl | hp
  · omega
  · exact h1 pre hp

theorem budget_plain (c : Nat) : TraceInv (fun e => ∀ n d f, e ≠ .read n d f) (Budget c) := by
  refine ⟨fun tr e h he => budget_snoc h.1 ?_⟩
  have := h.2
  unfold reads clocks at *
  rw [List.countP_append, List.countP_append]
  cases e with
  | read n d f => exact absurd rfl (he n d f)
  | expired b => cases b <;> simp <;> omega
  | _ => simpa using this

theorem budget_read {c n : Nat} {d : Bytes} {f : Bool} {tr : List PEvent} (h : Budget (c + 1) tr) : Budget c (tr ++ [.read n d f]) := by
  refine budget_snoc h.1 ?_
  have := h.2
  unfold reads clocks at *
  rw [List.countP_append, List.countP_append]
  simp
  omega

theorem budget_clock {c : Nat} {tr : List PEvent} (h : Budget c tr) : Budget (c + 2) (tr ++ [.expired false]) := by
  refine budget_snoc h.1 ?_
  have := h.2
  unfold reads clocks at *
  rw [List.countP_append, List.countP_append]
  simp
  omega

theorem budget_weaken {c : Nat} {tr : List PEvent} (h : Budget (c + 1) tr) : Budget c tr := ⟨h.1, by have := h.2; omega⟩

theorem budget_connRead (E : PEnv) (b : Slice) (c : Nat) :
    Triple (fun s => Budget (c + 1) s.trace) (connRead E b) (fun _ s => Budget c s.trace) (fun s => Budget c s.trace) := by
  intro s hs
  simp only [connRead, PM.bind_apply, others, PM.modify_apply, PM.get_apply, emitP, PM.pure_apply]
  exact budget_read hs

theorem budget_connReadNew (E : PEnv) (n c : Nat) :
    Triple (fun s => Budget (c + 1) s.trace) (connReadNew E n) (fun _ s => Budget c s.trace) (fun s => Budget c s.trace) := by
  intro s hs
  simp only [connReadNew, PM.bind_apply, others, PM.modify_apply, PM.get_apply, emitP, PM.pure_apply]
  exact budget_read hs

theorem Keeps.budget {α : Type} {m : PM α} {c : Nat} (h : Keeps (fun s => Budget c s.trace) m) :
    Triple (fun s => Budget c s.trace) m (fun _ s => Budget c s.trace) (fun s => Budget 0 s.trace) :=
  Triple.weaken h (fun _ h => h) (fun _ _ h => h) (fun _ h => ⟨h.1, by have := h.2; omega⟩)

theorem budget_handler (E : PEnv) :
    Triple (fun s => Budget 2 s.trace) (readMetaDataHandler E) (fun _ s => Budget 0 s.trace) (fun s => Budget 0 s.trace) := by
  have down : ∀ {α : Type} {m : PM α} {c : Nat}, Triple (fun s => Budget (c + 1) s.trace) m (fun _ s => Budget c s.trace) (fun s => Budget c s.trace) →
      Triple (fun s => Budget (c + 1) s.trace) m (fun _ s => Budget c s.trace) (fun s => Budget 0 s.trace) := fun h =>
    Triple.weaken h (fun _ h => h) (fun _ _ h => h) (fun _ h => ⟨h.1, by have := h.2; omega⟩)
  unfold readMetaDataHandler
  refine Triple.bind (Q := fun _ s => Budget 0 s.trace) ?_ fun r => ?_
  · unfold readBytesByPrefixLenMsg
    refine Triple.bind (Keeps.budget (keeps_poolGet (budget_plain 2) E _ (by simp))) fun b => Triple.bind (down (budget_connRead E b 1)) fun r => ?_
    refine Triple.ite (fun _ => Triple.pure fun _ h => budget_weaken h) fun _ => ?_
    unfold readAfterPrefix
    refine Triple.bind (Keeps.budget (keeps_loadSlice E b fun _ h => (budget_plain _).step _ _ h (by simp))) fun pre => Triple.ite (fun _ => Triple.panic fun _ h => budget_weaken h) fun _ => ?_
    refine Triple.ite (fun _ => Triple.pure fun _ h => budget_weaken h) fun _ => ?_
    refine Triple.bind (Keeps.budget (keeps_poolPut (budget_plain 1) E b (by simp))) fun _ => Triple.ite (fun _ => Triple.pure fun _ h => budget_weaken h) fun _ => ?_
    refine Triple.bind (Keeps.budget (keeps_poolGet (budget_plain 1) E _ (by simp))) fun buf => Triple.bind (budget_connRead E buf 0) fun r => ?_
    exact Triple.ite (fun _ => Triple.pure fun _ h => h) fun _ => Triple.pure fun _ h => h
  · exact Keeps.deferred (keeps_handleMsg (budget_plain 0) E (by simp) (by simp) (by simp) (by simp) (by simp) _ _ _) (keeps_putBack (budget_plain 0) E (by simp) _)

theorem budget_fetchBody (E : PEnv) (sha1 : Bytes → Bytes) (fold : FoldTable) (fuel : Nat) (peerId infoHash : Bytes) :
    Triple (fun s => Budget 1 s.trace) (fetchBody E sha1 fold fuel peerId infoHash) (fun _ s => Budget 0 s.trace) (fun s => Budget 0 s.trace) := by
  have hloop : ∀ f, Keeps (fun s => Budget 0 s.trace) (readMetaDataLoop E f) := by
    intro f
    induction f with
    | zero => exact fun s hs => hs
    | succ f ih =>
      intro s hs
      unfold readMetaDataLoop
      simp only [PM.bind_apply, PM.get_apply]
      cases hc : CompledMetaData s with
      | true => exact hs
      | false =>
        simp only [Bool.false_eq_true, if_false, PM.bind_apply, IsReadLoopExpire, PM.get_apply, emitP, PM.modify_apply, PM.pure_apply]
        cases he : E.expired s.trace with
        | true => exact (budget_plain 0).step _ _ hs (by simp)
        | false =>
          simp only [Bool.false_eq_true, if_false]
          exact (Triple.bind (budget_handler E) fun _ => ih) { s with trace := s.trace ++ [.expired false] } (budget_clock hs)
  unfold fetchBody
  refine Triple.bind (Q := fun _ s => Budget 0 s.trace) ?_ fun _ => ?_
  · unfold handshakePeer
    refine Triple.bind (Keeps.budget (Keeps.lift _)) fun _ => Triple.bind (Keeps.budget (keeps_connWrite (budget_plain 1) E _ (by simp))) fun _ => ?_
    refine Triple.ite (fun _ => Triple.lift (fun _ _ _ h => budget_weaken h) fun _ h => budget_weaken h) fun _ => ?_
    refine Triple.bind (budget_connReadNew E _ 0) fun r => ?_
    refine Keeps.ite (Keeps.lift _) (Keeps.bind (Keeps.lift _) fun _ => Keeps.ite (Keeps.lift _) ?_)
    exact Keeps.bind (Keeps.lift _) fun _ => Keeps.ite (Keeps.lift _) (Keeps.pure _)
  · refine Keeps.bind (keeps_initialMessages (budget_plain 0) E (by simp)) fun _ => Keeps.bind (hloop fuel) fun _ => Keeps.bind Keeps.get fun s => ?_
    refine Keeps.ite (Keeps.pure _) (Keeps.bind (keeps_makeSized (budget_plain 0) E _ _ (by simp)) fun _ =>
      Keeps.bind (keeps_mergeLoop (J := Budget 0) E (fun _ h => (budget_plain 0).step _ _ h (by simp)) _ _ _) fun r => Keeps.ite (Keeps.pure _) (Keeps.pure _))

/-- the state in which a call ended, if it got as far as a connection -/
def FetchOut.state : FetchOut → Option PSt
  | .returned _ _ s => some s
  | .fatal s => some s
  | .diverge s => some s
  | _ => none

/-- The clock is asked before every message: at any moment at most one read (the handshake) plus two for every time the clock had time left. -/
theorem C71_asks (E : PEnv) (sha1 : Bytes → Bytes) (fold : FoldTable) (fuel : Nat) (peerId infoHash : Bytes)
    (mem : Nat → Bytes) (pool : BPool) (s : PSt)
    (h : (FetchMetaData E sha1 fold fuel peerId infoHash mem pool).state = some s) (pre : List PEvent) (hpre : pre <+: s.trace) :
    reads pre ≤ 1 + 2 * clocks pre := by
  have := budget_fetchBody E sha1 fold fuel peerId infoHash (NewPeerConn mem pool) ⟨fun pre hp => by
    simp [NewPeerConn] at hp; subst hp; simp [reads, clocks], by simp [NewPeerConn, reads, clocks]⟩
  unfold FetchMetaData at h
  by_cases hd : E.dialFails = true
  · rw [if_pos hd] at h; cases h
  · rw [if_neg hd] at h
    cases hb : fetchBody E sha1 fold fuel peerId infoHash (NewPeerConn mem pool) with
    | ok r t =>
      rw [hb] at h this
      obtain ⟨r1, r2⟩ := r
      simp only [emitP, PM.modify_apply, FetchOut.state, Option.some.injEq] at h
      subst h
      exact ((budget_plain 0).step _ .close this (by simp)).1 pre hpre
    | panic p t =>
      rw [hb] at h this
      simp only [emitP, PM.modify_apply, FetchOut.state, Option.some.injEq] at h
      subst h
      exact ((budget_plain 0).step _ .close this (by simp)).1 pre hpre
    | fatal t => rw [hb] at h this; cases h; exact this.1 pre hpre
    | diverge t => rw [hb] at h this; cases h; exact this.1 pre hpre

end P2P

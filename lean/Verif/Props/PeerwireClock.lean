import Verif.Spec.Timing
import Verif.Props.PeerwireTalk
import Verif.Props.PeerwireMsgs
/-! # C75: how long a download takes -/
namespace P2P

/-! ## the trace records the environment's answers -/

/-- the interactions recorded are those of the environment -/
def Faithful (E : PEnv) (tr : List PEvent) : Prop :=
  ∀ pre e post, tr = pre ++ e :: post → match e with
    | .read n _ f => f = (E.read pre n).2
    | .write _ f => f = E.writeFails pre
    | .expired f => f = E.expired pre
    | _ => True

theorem Faithful.snoc {E : PEnv} {tr : List PEvent} {e : PEvent} (h : Faithful E tr) (he : match e with
    | .read n _ f => f = (E.read tr n).2
    | .write _ f => f = E.writeFails tr
    | .expired f => f = E.expired tr
    | _ => True) : Faithful E (tr ++ [e]) := by
  intro pre e' post heq
  rcases List.eq_nil_or_concat post with rfl | ⟨post', x, rfl⟩
  · obtain ⟨rfl, h2⟩ := List.append_inj' heq rfl
    cases h2
    exact he
  · have : pre ++ e' :: (post' ++ [x]) = (pre ++ e' :: post') ++ [x] := by simp
    rw [List.concat_eq_append, this] at heq
    obtain ⟨h1, -⟩ := List.append_inj' heq rfl
    exact h pre e' post' h1

def PEvent.plain : PEvent → Prop
  | .read .. => False
  | .write .. => False
  | .expired _ => False
  | _ => True

theorem faithful_inv (E : PEnv) : TraceInv PEvent.plain (Faithful E) :=
  ⟨fun tr e h he => h.snoc (by cases e <;> simp_all [PEvent.plain])⟩

section
variable (E : PEnv)

theorem faithful_connRead (b : Slice) : Keeps (fun s => Faithful E s.trace) (connRead E b) := by
  intro s hs
  simp only [connRead, PM.bind_apply, others, PM.modify_apply, PM.get_apply, emitP, PM.pure_apply]
  exact hs.snoc rfl

theorem faithful_connReadNew (n : Nat) : Keeps (fun s => Faithful E s.trace) (connReadNew E n) := by
  intro s hs
  simp only [connReadNew, PM.bind_apply, others, PM.modify_apply, PM.get_apply, emitP, PM.pure_apply]
  exact hs.snoc rfl

theorem faithful_connWrite (d : Bytes) : Keeps (fun s => Faithful E s.trace) (connWrite E d) := by
  intro s hs
  simp only [connWrite, PM.bind_apply, others, PM.modify_apply, PM.get_apply, emitP, PM.pure_apply]
  exact hs.snoc rfl

theorem faithful_expire : Keeps (fun s => Faithful E s.trace) (IsReadLoopExpire E) := by
  intro s hs
  simp only [IsReadLoopExpire, PM.bind_apply, PM.get_apply, emitP, PM.modify_apply, PM.pure_apply]
  exact hs.snoc rfl

theorem faithful_requestLoop : ∀ n i, Keeps (fun s => Faithful E s.trace) (requestLoop E n i) := by
  intro n
  induction n with
  | zero => intro i; exact Keeps.pure _
  | succ n ih =>
    intro i
    exact Keeps.bind Keeps.get fun _ => Keeps.bind (Keeps.lift _) fun _ => Keeps.bind (faithful_connWrite E _) fun _ => Keeps.ite (Keeps.lift _) (ih _)

theorem faithful_handleExtendedMsg (rb : Slice) (d : Bytes) : Keeps (fun s => Faithful E s.trace) (handleExtendedMsg E rb d) := by
  have hJ := faithful_inv E
  unfold handleExtendedMsg
  cases d[1]? with
  | none => exact Keeps.panic _
  | some id =>
    refine Keeps.ite ?_ (Keeps.ite ?_ (Keeps.pure _))
    · refine Keeps.bind (Keeps.lift _) fun _ => Keeps.ite (Keeps.lift _) (Keeps.bind (Keeps.lift _) fun _ => Keeps.bind (keeps_modify fun _ => rfl) fun _ => ?_)
      refine Keeps.bind (keeps_makeSized hJ E _ _ fun _ => trivial) fun _ => Keeps.bind (keeps_modify fun _ => rfl) fun _ => ?_
      refine Keeps.bind (keeps_makeSized hJ E _ _ fun _ => trivial) fun _ => Keeps.bind (keeps_modify fun _ => rfl) fun _ => ?_
      exact Keeps.bind (keeps_emit hJ _ trivial) fun _ => faithful_requestLoop E _ _
    · refine Keeps.bind (Keeps.lift _) fun r => Keeps.ite (Keeps.pure _) (Keeps.bind Keeps.get fun s => ?_)
      simp only
      split
      · exact Keeps.panic _
      · refine Keeps.bind (keeps_modify fun _ => rfl) fun _ => ?_
        split
        · exact Keeps.panic _
        · exact Keeps.bind (keeps_modify fun _ => rfl) fun _ => keeps_emit hJ _ trivial

theorem faithful_handler : Keeps (fun s => Faithful E s.trace) (readMetaDataHandler E) := by
  have hJ := faithful_inv E
  refine Keeps.bind ?_ fun r => Keeps.deferred ?_ (keeps_putBack hJ E (fun _ => trivial) _)
  · refine Keeps.bind (keeps_poolGet hJ E _ fun _ => trivial) fun b => Keeps.bind (faithful_connRead E b) fun _ => Keeps.ite (Keeps.pure _) ?_
    refine Keeps.bind (keeps_loadSlice E _ fun _ h => hJ.step _ _ h trivial) fun _ => Keeps.ite (Keeps.panic _) (Keeps.ite (Keeps.pure _) ?_)
    refine Keeps.bind (keeps_poolPut hJ E _ trivial) fun _ => Keeps.ite (Keeps.pure _) ?_
    exact Keeps.bind (keeps_poolGet hJ E _ fun _ => trivial) fun b => Keeps.bind (faithful_connRead E b) fun _ => Keeps.ite (Keeps.pure _) (Keeps.pure _)
  · refine Keeps.ite (Keeps.pure _) (Keeps.ite (Keeps.lift _) ?_)
    cases r.2.1 with
    | none => exact Keeps.panic _
    | some rb => exact Keeps.bind (keeps_loadSlice E _ fun _ h => hJ.step _ _ h trivial) fun _ => Keeps.bind (Keeps.lift _) fun _ => Keeps.ite (faithful_handleExtendedMsg E _ _) (Keeps.pure _)

theorem faithful_fetchBody (sha1 : Bytes → Bytes) (fold : FoldTable) (fuel : Nat) (peerId infoHash : Bytes) :
    Keeps (fun s => Faithful E s.trace) (fetchBody E sha1 fold fuel peerId infoHash) := by
  have hJ := faithful_inv E
  have hl : ∀ n, Keeps (fun s => Faithful E s.trace) (readMetaDataLoop E n) := by
    intro n
    induction n with
    | zero => intro s hs; exact hs
    | succ n ih =>
      exact Keeps.bind Keeps.get fun s => Keeps.ite (Keeps.pure _) (Keeps.bind (faithful_expire E) fun e =>
        Keeps.ite (Keeps.pure _) (Keeps.bind (faithful_handler E) fun _ => ih))
  unfold fetchBody
  refine Keeps.bind ?_ fun _ => Keeps.bind ?_ fun _ => Keeps.bind (hl _) fun _ => Keeps.bind Keeps.get fun s => ?_
  · unfold handshakePeer
    refine Keeps.bind (Keeps.lift _) fun _ => Keeps.bind (faithful_connWrite E _) fun _ => Keeps.ite (Keeps.lift _) ?_
    refine Keeps.bind (faithful_connReadNew E _) fun r => ?_
    refine Keeps.ite (Keeps.lift _) (Keeps.bind (Keeps.lift _) fun _ => Keeps.ite (Keeps.lift _) ?_)
    exact Keeps.bind (Keeps.lift _) fun _ => Keeps.ite (Keeps.lift _) (Keeps.pure _)
  · exact Keeps.bind Keeps.get fun _ => Keeps.bind (Keeps.lift _) fun _ => Keeps.bind (faithful_connWrite E _) fun _ =>
      Keeps.ite (Keeps.lift _) (Keeps.pure _)
  · refine Keeps.ite (Keeps.pure _) (Keeps.bind (keeps_makeSized hJ E _ _ fun _ => trivial) fun _ =>
      Keeps.bind (keeps_mergeLoop (J := Faithful E) E (fun _ h => hJ.step _ _ h trivial) _ _ _) fun r => ?_)
    exact Keeps.ite (Keeps.pure _) (Keeps.pure _)
end

/-- any property of traces that `fetchBody` and the closing establish holds of the call -/
theorem fetch_state {E : PEnv} {sha1 : Bytes → Bytes} {fold : FoldTable} {fuel : Nat} {peerId infoHash : Bytes} {mem : Nat → Bytes} {pool : BPool}
    {J : List PEvent → Prop} (hb : Keeps (fun s => J s.trace) (fetchBody E sha1 fold fuel peerId infoHash)) (h0 : J [])
    (hc : ∀ tr, J tr → J (tr ++ [.close])) {s : PSt} (h : (FetchMetaData E sha1 fold fuel peerId infoHash mem pool).state = some s) : J s.trace := by
  have := hb (NewPeerConn mem pool) h0
  unfold FetchMetaData at h
  by_cases hd : E.dialFails = true
  · rw [if_pos hd] at h; cases h
  · rw [if_neg hd] at h
    cases hx : fetchBody E sha1 fold fuel peerId infoHash (NewPeerConn mem pool) with
    | ok r t =>
      rw [hx] at h this
      obtain ⟨r1, r2⟩ := r
      simp only [emitP, PM.modify_apply, FetchOut.state, Option.some.injEq] at h
      subst h
      exact hc _ this
    | panic p t =>
      rw [hx] at h this
      simp only [emitP, PM.modify_apply, FetchOut.state, Option.some.injEq] at h
      subst h
      exact hc _ this
    | fatal t => rw [hx] at h this; cases h; exact this
    | diverge t => rw [hx] at h this; cases h; exact this

theorem faithful_fetch {E : PEnv} {sha1 : Bytes → Bytes} {fold : FoldTable} {fuel : Nat} {peerId infoHash : Bytes} {mem : Nat → Bytes} {pool : BPool}
    {s : PSt} (h : (FetchMetaData E sha1 fold fuel peerId infoHash mem pool).state = some s) : Faithful E s.trace :=
  fetch_state (J := Faithful E) (faithful_fetchBody E sha1 fold fuel peerId infoHash) (by intro pre e post h; simp at h) (fun _ h => h.snoc trivial) h

/-! ## C75 -/

variable {E : PEnv} {ends : List PEvent → Option Nat}

theorem snoc_cases {α : Type} {P : List α → Prop} (h0 : P []) (h1 : ∀ l a, P l → P (l ++ [a])) (l : List α) : P l := by
  have : ∀ r : List α, P r.reverse := by
    intro r
    induction r with
    | nil => exact h0
    | cons a r ih => rw [List.reverse_cons]; exact h1 _ _ ih
  simpa using this l.reverse

/-- what never ends is never followed by anything that ends -/
theorem Timed.never (T : Timed E ends) (tr post : List PEvent) (h : ends tr = none) : ends (tr ++ post) = none := by
  refine snoc_cases (P := fun post => ends (tr ++ post) = none) (by simpa using h) (fun post e ih => ?_) post
  · cases hx : ends (tr ++ (post ++ [e])) with
    | none => rfl
    | some t =>
      rw [← List.append_assoc] at hx
      obtain ⟨t0, h1, -⟩ := T.forward _ _ _ hx
      rw [ih] at h1; cases h1

/-- C75: nothing is received later than one second after the connection was made: every `Read` that succeeds began before. -/
theorem C75_no_late_data (T : Timed E ends) {sha1 : Bytes → Bytes} {fold : FoldTable} {fuel : Nat} {peerId infoHash : Bytes} {mem : Nat → Bytes} {pool : BPool}
    {s : PSt} (h : (FetchMetaData E sha1 fold fuel peerId infoHash mem pool).state = some s) {pre post : List PEvent} {n : Nat} {d : Bytes}
    (he : s.trace = pre ++ .read n d false :: post) {t : Nat} (ht : ends pre = some t) : t < 1000 := by
  have hf : false = (E.read pre n).2 := faithful_fetch h pre _ post he
  by_cases hlt : t < 1000
  · exact hlt
  · rw [T.late pre n t ht (by omega)] at hf
    cases hf

/-- how many writes -/
def writeCount (tr : List PEvent) : Nat := tr.countP PEvent.isWrite

/-- C75: if every write takes at most `w` milliseconds, a download takes at most one second plus `w` for every write; this holds at every moment
of the call. -/
theorem C75_duration (T : Timed E ends) (w : Nat)
    (hw : ∀ tr e t, e.isRead = false → ends tr = some t → ∃ t', ends (tr ++ [e]) = some t' ∧ t' ≤ t + (if e.isWrite then w else 0))
    (tr : List PEvent) : ∃ t, ends tr = some t ∧ t ≤ 1000 + w * writeCount tr := by
  refine snoc_cases (P := fun tr => ∃ t, ends tr = some t ∧ t ≤ 1000 + w * writeCount tr) ⟨0, T.start, by omega⟩ (fun tr e ih => ?_) tr
  · obtain ⟨t, h1, h2⟩ := ih
    have hc : writeCount (tr ++ [e]) = writeCount tr + (if e.isWrite then 1 else 0) := by
      unfold writeCount
      rw [List.countP_append, List.countP_singleton]
    cases hr : e.isRead with
    | true =>
      obtain ⟨t', h3, h4⟩ := T.read tr e t hr h1
      refine ⟨t', h3, ?_⟩
      have : w * writeCount tr ≤ w * writeCount (tr ++ [e]) := Nat.mul_le_mul_left w (by rw [hc]; omega)
      omega
    | false =>
      obtain ⟨t', h3, h4⟩ := hw tr e t hr h1
      refine ⟨t', h3, ?_⟩
      rw [hc, Nat.mul_add]
      cases hwr : e.isWrite <;> simp [hwr] at h4 ⊢ <;> omega

/-- C75: so the ten-second limit has no effect as long as the writes together take less than nine seconds: the clock never says that the time is over. -/
theorem C75_limit_unused (T : Timed E ends) (w : Nat)
    (hw : ∀ tr e t, e.isRead = false → ends tr = some t → ∃ t', ends (tr ++ [e]) = some t' ∧ t' ≤ t + (if e.isWrite then w else 0))
    {sha1 : Bytes → Bytes} {fold : FoldTable} {fuel : Nat} {peerId infoHash : Bytes} {mem : Nat → Bytes} {pool : BPool}
    {s : PSt} (h : (FetchMetaData E sha1 fold fuel peerId infoHash mem pool).state = some s) (hsum : w * writeCount s.trace < 9000) :
    .expired true ∉ s.trace := by
  intro hm
  obtain ⟨pre, post, he⟩ := List.append_of_mem hm
  have hf : true = E.expired pre := faithful_fetch h pre _ post he
  obtain ⟨t, h1, h2⟩ := (T.timer pre).1 hf.symm
  obtain ⟨t', h3, h4⟩ := C75_duration T w hw pre
  rw [h1] at h3; cases h3
  have : writeCount pre ≤ writeCount s.trace := by
    rw [he]; unfold writeCount; rw [List.countP_append]; omega
  have := Nat.mul_le_mul_left w this
  omega

theorem request_length {i : Nat} {w : Bytes} (h : IsPieceRequest i w) : 31 ≤ w.length := by
  have hn : 1 ≤ (natDec i).length := by
    unfold natDec natDecAux
    split <;> simp
  rcases h with rfl | rfl <;> simp [framedMsg, be32] <;> omega

theorem written_append (a b : List PEvent) : written (a ++ b) = written a + written b := by
  simp [written]

theorem written_requests (reqs : List Bytes) (h : ∀ (j : Nat) w, reqs[j]? = some w → IsPieceRequest j w) :
    31 * reqs.length ≤ written (reqs.map fun w => .write w false) := by
  have : ∀ w ∈ reqs, 31 ≤ w.length := by
    intro w hw
    obtain ⟨j, hj⟩ := List.getElem?_of_mem hw
    exact request_length (h j w hj)
  clear h
  induction reqs with
  | nil => simp
  | cons a r ih =>
    have h1 := this a (by simp)
    have h2 := ih fun w hw => this w (by simp [hw])
    simp [written] at h2 ⊢
    omega

/-- C75: a peer that reads nothing, once it has announced a size with more requests than the buffers in between hold, keeps the download forever:
the call has no end, and in particular the ten-second limit does not end it. -/
theorem C75_hangs (T : Timed E ends) (ho : ∀ tr, OrderOK (E.order tr)) {B : Nat} (hB : PeerReadsNothing ends B) (hw : ∀ tr, E.writeFails tr = false)
    {sha1 : Bytes → Bytes} {fold : FoldTable} {fuel : Nat} {peerId infoHash : Bytes} {mem : Nat → Bytes} {pool : BPool}
    {ret err : Option Bytes} {s : PSt} (h : FetchMetaData E sha1 fold fuel peerId infoHash mem pool = .returned ret err s)
    {z : Int} (hz : .announced z ∈ s.trace) (hbig : (B : Int) < 31 * ((z + 16383) / 16384)) : ends s.trace = none := by
  have hconv := C74_conversation E ho sha1 fuel mem pool ret err s h
  have hf := faithful_fetch (s := s) (by rw [h]; rfl)
  obtain ⟨pre, post, he⟩ := List.append_of_mem hz
  obtain ⟨reqs, rest, h1, h2, h3⟩ := C74_requests hconv pre post z he (by omega)
  rcases h3 with h3 | ⟨-, ⟨-, h4⟩ | ⟨w, rest', rfl, -, -⟩⟩
  · rcases List.eq_nil_or_concat reqs with rfl | ⟨init, w, rfl⟩
    · simp at h3; omega
    · have hsum := written_requests _ h2
      rw [List.concat_eq_append] at *
      have hend : ends ((pre ++ .announced z :: init.map (fun w => .write w false)) ++ [.write w false]) = none := by
        refine hB _ _ rfl ?_
        have e : (pre ++ .announced z :: init.map (fun w => PEvent.write w false)) ++ [.write w false] =
            pre ++ ([.announced z] ++ (init ++ [w]).map (fun w => PEvent.write w false)) := by simp
        rw [e, written_append, written_append]
        omega
      have := T.never _ rest hend
      rw [he, h1]
      simpa using this
  · cases h4
  · have := hf (pre ++ .announced z :: reqs.map (fun w => .write w false)) (.write w true) rest' (by rw [he, h1]; simp)
    simp only at this
    rw [hw] at this
    cases this

/-! ## such a peer exists -/

theorem announced_handle (E : PEnv) (rb : Slice) (body : Bytes) {z : Int} (hm : meaning body = .announce z) :
    Triple (fun _ => True) (handleExtendedMsg E rb body) (fun _ s => .announced z ∈ s.trace) (fun _ => True) := by
  obtain ⟨-, hid, dict, hp, hz⟩ := meaning_announce hm
  have hex : Dict.Exist dict b!"metadata_size" = true := by simp [Dict.Exist, dictGet, hz]
  have hgi : Dict.GetInteger dict b!"metadata_size" = .ok z := by simp [Dict.GetInteger, Dict.GetVal, dictGet, hz, GoVal.asInt]
  have hJ : TraceInv (fun _ => True) (fun tr => PEvent.announced z ∈ tr) := ⟨fun tr e h _ => by simp [h]⟩
  unfold handleExtendedMsg
  rw [hid]
  simp only
  rw [if_pos (by decide), hp]
  refine Triple.bind_ok ?_
  rw [if_neg (by simp [hex]), hgi]
  refine Triple.bind_ok (Triple.bind (Q := fun _ _ => True) (Triple.trivial _) fun _ => Triple.bind (Q := fun _ _ => True) (Triple.trivial _) fun _ => ?_)
  refine Triple.bind (Q := fun _ _ => True) (Triple.trivial _) fun _ => Triple.bind (Q := fun _ _ => True) (Triple.trivial _) fun _ => ?_
  refine Triple.bind (Q := fun _ _ => True) (Triple.trivial _) fun _ => ?_
  refine Triple.bind (Q := fun _ s => .announced z ∈ s.trace) (fun s _ => by simp [emitP]) fun _ => ?_
  exact (keeps_requestLoop hJ E (fun _ _ => trivial) _ _).ok

/-- a stream that begins with an announcement has it in its trace -/
theorem stream_announced {E : PEnv} {peerId infoHash : Bytes} {mem : Nat → Bytes} {pool : BPool} {q32 : List Slice} {hs body : Bytes} {bodies : List Bytes}
    {fuel : Nat} (S : Stream E peerId infoHash mem pool q32 hs (body :: bodies) fuel) (sha1 : Bytes → Bytes) (fold : FoldTable) {z : Int}
    (hm : meaning body = .announce z) (hz : 0 ≤ z ∧ 24 * ((z + 16383) / 16384) ≤ 2 ^ 48) {s : PSt}
    (h : (FetchMetaData E sha1 fold fuel peerId infoHash mem pool).state = some s) : .announced z ∈ s.trace := by
  have hE := S.calm
  have hJ : TraceInv (fun _ => True) (fun tr => PEvent.announced z ∈ tr) := ⟨fun tr e h _ => by simp [h]⟩
  obtain ⟨h20, hid, -⟩ := meaning_announce hm
  have hle : body.length ≤ 32768 := by
    by_cases hgt : body.length > 32768
    · unfold meaning at hm; rw [if_pos hgt] at hm; cases hm
    · omega
  have hne : body ≠ [] := by rintro rfl; cases hid
  have hw : wire body = [be32 body.length, body] := by unfold wire; rw [if_neg hne]
  have hdel := S.delivers
  have hready := S.ready
  rw [List.flatMap_cons, hw] at hdel
  unfold FetchMetaData at h
  rw [hE.dial] at h
  simp only [Bool.false_eq_true, if_false] at h
  have hinit : (NewPeerConn mem pool).requested = [false] ∧ reads (NewPeerConn mem pool).trace = 0 := ⟨rfl, rfl⟩
  generalize NewPeerConn mem pool = s0 at *
  obtain ⟨tr1, g1, r1⟩ := handshake_ok hE (fold := fold) S.handshake S.peer S.info s0 (fun tr htr => hdel tr 68 _ (by rw [htr, hinit.2]; rfl))
  obtain ⟨tr2, g2, r2⟩ := initial_ok hE { s0 with trace := tr1 }
  have r2 : reads tr2 = 1 := by rw [r2]; show reads tr1 = 1; omega
  have H : Ready { s0 with trace := tr2 ++ [.expired false] } q32 :=
    ⟨(by obtain ⟨q4, H, h'⟩ := hready.pool; exact ⟨q4, ⟨H.ne, H.c1, H.c2, H.b1, H.b2, H.nodup, H.old⟩, h'⟩), hready.room⟩
  have r3 : reads (tr2 ++ [.expired false]) = 1 := by simp only [reads_snoc]; simpa using r2
  obtain ⟨b, t, -, -, -, -, -, e1, -, -⟩ := handler_gen hE H hne hle
    (fun tr htr => hdel tr 4 _ (by rw [htr]; show _ = _; rw [r3]; rfl))
    (fun tr htr => hdel tr 32768 _ (by rw [htr]; show _ = _; rw [r3]; rfl))
  rw [if_pos h20] at e1
  obtain ⟨tr3, a1, -⟩ := (announce_gen hE hm { b with len := body.length } t).1 hz
  have hin := announced_handle E { b with len := body.length } body hm t trivial
  rw [a1] at hin
  simp only at hin
  obtain ⟨f, rfl⟩ : ∃ f, fuel = f + 1 := ⟨fuel - 1, by have := S.rounds; simp at this; omega⟩
  have hk : Keeps (fun s => PEvent.announced z ∈ s.trace) (do
      readMetaDataLoop E f
      let s ← PM.get
      if ¬ CompledMetaData s then pure (none, some b!"cannot completed download metadata")
      else do
        makeSized E s.metaDataSize 1
        let result ← mergeLoop E s.requested.length 0 []
        if infoHash ≠ sha1 result then pure (none, some b!"check sum err")
        else pure (some result, none) : PM (Option Bytes × Option Bytes)) := by
    refine Keeps.bind ?_ fun _ => Keeps.bind Keeps.get fun s => Keeps.ite (Keeps.pure _) (Keeps.bind (keeps_makeSized hJ E _ _ (fun _ => trivial)) fun _ =>
      Keeps.bind (keeps_mergeLoop (J := fun tr => PEvent.announced z ∈ tr) E (fun _ h => hJ.step _ _ h trivial) _ _ _) fun _ => Keeps.ite (Keeps.pure _) (Keeps.pure _))
    clear h S
    induction f with
    | zero => exact fun s hs => hs
    | succ f ih =>
      unfold readMetaDataLoop
      refine Keeps.bind Keeps.get fun s => Keeps.ite (Keeps.pure _) (Keeps.bind (keeps_expire hJ E fun _ => trivial) fun _ => Keeps.ite (Keeps.pure _) ?_)
      exact Keeps.bind (keeps_readMetaDataHandler hJ E fun _ _ _ => trivial) fun _ => ih
  have hstep : fetchBody E sha1 fold (f + 1) peerId infoHash s0 = (do
      PM.deferred (handleExtendedMsg E { b with len := body.length } body) (putBack E (some { b with len := body.length }))
      readMetaDataLoop E f
      let s ← PM.get
      if ¬ CompledMetaData s then pure (none, some b!"cannot completed download metadata")
      else do
        makeSized E s.metaDataSize 1
        let result ← mergeLoop E s.requested.length 0 []
        if infoHash ≠ sha1 result then pure (none, some b!"check sum err")
        else pure (some result, none) : PM (Option Bytes × Option Bytes)) t := by
    unfold fetchBody
    have hc : CompledMetaData { s0 with trace := tr2 } = false := by unfold CompledMetaData; simp only [hinit.1]; rfl
    rw [PM.bind_apply, g1]
    simp only
    rw [PM.bind_apply, g2]
    simp only
    rw [readMetaDataLoop]
    simp only [PM.bind_apply, PM.get_apply, hc, Bool.false_eq_true, if_false, IsReadLoopExpire, hE.time, emitP, PM.modify_apply, PM.pure_apply, e1]
    cases PM.deferred (handleExtendedMsg E { b with len := body.length } body) (putBack E (some { b with len := body.length })) t <;> rfl
  have key : Triple (fun s => s = s0) (fetchBody E sha1 fold (f + 1) peerId infoHash) (fun _ s => PEvent.announced z ∈ s.trace)
      (fun s => PEvent.announced z ∈ s.trace) := by
    rintro s rfl
    rw [hstep]
    have hp := keeps_putBack hJ E (fun _ => trivial) (some { b with len := body.length }) { t with
        metaDataSize := z, metaData := List.replicate ((z + 16383) / 16384).toNat none
        requested := List.replicate ((z + 16383) / 16384).toNat false, trace := tr3 } hin
    rw [PM.bind_apply]
    unfold PM.deferred
    rw [a1]
    simp only
    revert hp
    cases putBack E (some { b with len := body.length }) { t with
        metaDataSize := z, metaData := List.replicate ((z + 16383) / 16384).toNat none
        requested := List.replicate ((z + 16383) / 16384).toNat false, trace := tr3 } with
    | ok a u => intro hp; exact hk u hp
    | panic p u => exact id
    | fatal u => exact id
    | diverge u => exact id
  have key := key s0 rfl
  cases hb : fetchBody E sha1 fold (f + 1) peerId infoHash s0 with
  | ok r t =>
    rw [hb] at key h
    obtain ⟨x, y⟩ := r
    simp only [emitP, PM.modify_apply, FetchOut.state, Option.some.injEq] at h
    subst h
    simp only at key
    simp [key]
  | panic r t =>
    rw [hb] at key h
    simp only [emitP, PM.modify_apply, FetchOut.state, Option.some.injEq] at h
    subst h
    simp only at key
    simp [key]
  | fatal t => rw [hb] at key h; cases h; exact key
  | diverge t => rw [hb] at key h; cases h; exact key

end P2P

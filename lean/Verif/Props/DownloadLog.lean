import Verif.Lemmas.DownloadLog
import Verif.Props.ConsoleTexts
import Verif.Props.PeerwireDone
import Verif.Props.PeerwireTalk
import Verif.Props.FetchAddr
/-! # C97: what the console log says about downloads -/
namespace P2P

/-! ## Specification -/

/-- the fixed texts of the records written during a download, other than the verdict -/
def dlTexts : List Bytes :=
  [b!"wrong peerId or infohash", b!"write handshake err", b!"get handshake response err", b!"get handshake not support bittoroute protocol",
   b!"get handshake not support extended protocol", b!"write extended handshake err", b!"read prefix length err", b!"fetch bep3 msg",
   b!"extended handshake resp err", b!"decode extended handshake err", b!"get extended handshake", b!"get extended handshake wrong format",
   b!"write request piece err", b!"request pieces", b!"extended fetchmetadata not extended msg", b!"decode extended fetchmetadata err",
   b!"fetch extended msg", b!"get extended piece wrong format", b!"fetch pexExtendedId extend msg", b!"fetch pexExtendedId wrong extend msg"]
/-- and their keys -/
def dlKeys : List Bytes :=
  [b!"laddr", b!"err", b!"peerIdLen", b!"infohashLen", b!"handShakeResp", b!"peerMsgType", b!"payloadLen", b!"msgType", b!"MsgId", b!"exHandShakeResp",
   b!"metaSize", b!"pieceCount", b!"totalLen", b!"fetchMetaResp", b!"msgid"]

/-- Values in these records. The peer's strings occur in JSON texts only. -/
inductive DlSource (C : DlEnv) (laddr : Bytes) : LogVal → Prop where
  /-- the peer's address -/
  | laddr : DlSource C laddr (lstr laddr)
  /-- a number -/
  | num (n : Int) : DlSource C laddr (lint n)
  /-- an error of the connection, or of the decoder, or about a length -/
  | io (tr : List PEvent) : DlSource C laddr (lerr (C.ioErr tr))
  | codec (msg : Bytes) : DlSource C laddr (lerr (C.codecErr msg))
  | tooLarge : DlSource C laddr (lerr b!"read input toolarge")
  /-- the peer's handshake, which prints as nothing -/
  | braces : DlSource C laddr (ljson b!"{}")
  /-- the peer's extended handshake, in JSON -/
  | extended (d : Entries) : DlSource C laddr (ljson (b!"{\"ExDict\":" ++ C.json (.dict d) ++ b!"}"))
  /-- the head of a metadata message: four numbers -/
  | head (a b c d : Int) : DlSource C laddr (ljson (b!"{\"MsgId\":" ++ itoa a ++ b!",\"ExMsgType\":" ++ itoa b ++ b!",\"ExPieceNum\":" ++ itoa c ++
      b!",\"ExTotalSize\":" ++ itoa d ++ b!"}"))

/-- A record that tells how a download went on. -/
structure DlRecord (C : DlEnv) (laddr : Bytes) (x : LogRec) : Prop where
  pfx : x.pfx = b!"FetchMetadata" ∨ x.pfx = b!"peerwire"
  method : x.method = .Info ∨ x.method = .Error ∨ x.method = .Panic
  msg : x.msg ∈ dlTexts
  ctx : ∃ es, x.ctx = some es ∧ ∀ e ∈ es, e.1 ∈ dlKeys ∧ DlSource C laddr e.2

/-- The record of a download whose data has the right hash. -/
def matchRec (laddr infoHash : Bytes) : LogRec :=
  { pfx := b!"FetchMetadata", method := .Info, msg := b!"chesum metadata match"
    ctx := some [(b!"laddr", lstr laddr), (b!"infohash", lstr (hexEncode infoHash))] }
/-- The record of a download whose data has the wrong hash. -/
def mismatchRec (laddr : Bytes) (size : Int) : LogRec :=
  { pfx := b!"FetchMetadata", method := .Error, msg := b!"chesum metadata not match", ctx := some [(b!"laddr", lstr laddr), (b!"metasize", lint size)] }
/-- The record of a download that was broken off. -/
def brokenRec (laddr : Bytes) (v : LogVal) : LogRec :=
  { pfx := b!"FetchMetadata", method := .Error, msg := b!"FetchMetaData err", ctx := some [(b!"laddr", lstr laddr), (b!"err", v)] }

/-- the size in the last extended handshake that was accepted (0 before the first) -/
def lastSize (tr : List PEvent) : Int := (tr.filterMap fun e => match e with | .announced z => some z | _ => none).getLastD 0

/-! ## The codecs -/

section codecs

theorem dl_decode {src : Bytes} {p : Panic} (h : DecodeDict src = .panic p ∨ DecodeDictNoLimit src = .panic p) : DlPanic p := by
  rcases h with h | h
  · exact .inl ((C10_only_runtime_panics src _).2.2.1 h)
  · exact .inl ((C10_only_runtime_panics src _).2.2.2 h)

theorem dl_reslice {d t : Bytes} {a b : Nat} {p : Panic} (h : reslice d t a b = .panic p) : DlPanic p := by
  unfold reslice at h
  split at h
  · cases h
  · cases h; exact .inl rfl

end codecs

/-! ## The records -/

section records
variable (E : PEnv) (C : DlEnv) (laddr : Bytes)

/-- a record of the right form -/
theorem dlRecord {k : LogMethod} {msg : Bytes} {es : List (Bytes × LogVal)} (pfx : Bytes) (hp : pfx = b!"FetchMetadata" ∨ pfx = b!"peerwire")
    (hm : msg ∈ dlTexts) (he : ∀ e ∈ es, e.1 ∈ dlKeys ∧ DlSource C laddr e.2)
    (hk : k = .Info ∨ k = .Error ∨ k = .Panic := by decide) : DlRecord C laddr { pfx, method := k, msg, ctx := some es } :=
  ⟨hp, hk, hm, es, rfl, he⟩

theorem dlOne {k : Bytes} {v : LogVal} (hk : k ∈ dlKeys) (h : DlSource C laddr v) : ∀ e ∈ [(k, v)], e.1 ∈ dlKeys ∧ DlSource C laddr e.2 := by
  intro e he; rw [List.mem_singleton.1 he]; exact ⟨hk, h⟩
theorem dlTwo {k k' : Bytes} {v v' : LogVal} (hk : k ∈ dlKeys) (h : DlSource C laddr v) (hk' : k' ∈ dlKeys) (h' : DlSource C laddr v') :
    ∀ e ∈ [(k, v), (k', v')], e.1 ∈ dlKeys ∧ DlSource C laddr e.2 := by
  intro e he
  rcases List.mem_cons.1 he with rfl | he
  · exact ⟨hk, h⟩
  · exact dlOne C laddr hk' h' e he
theorem dlThree {k k' k'' : Bytes} {v v' v'' : LogVal} (hk : k ∈ dlKeys) (h : DlSource C laddr v) (hk' : k' ∈ dlKeys) (h' : DlSource C laddr v')
    (hk'' : k'' ∈ dlKeys) (h'' : DlSource C laddr v'') : ∀ e ∈ [(k, v), (k', v'), (k'', v'')], e.1 ∈ dlKeys ∧ DlSource C laddr e.2 := by
  intro e he
  rcases List.mem_cons.1 he with rfl | he
  · exact ⟨hk, h⟩
  · exact dlTwo C laddr hk' h' hk'' h'' e he

theorem tells_requestLoop (ho : ∀ tr, OrderOK (E.order tr)) : ∀ n i, i + n ≤ 2 ^ 63 →
    Tells (DlRecord C laddr) (requestLoopL E C laddr n i) (requestLoop E n i) := by
  intro n
  induction n with
  | zero => intro i _; exact .pure _
  | succ n ih =>
    intro i hi
    refine .bind (.quiet .get) fun s => .bind (.codec fun p h => ?_) fun m => .bind (.quiet (.connWrite E _)) fun failed => .ite (fun _ => ?_) fun _ => ih _ (by omega)
    · obtain ⟨w, hw, -⟩ := request_bytes (E.order s.trace) (ho _) i (by omega)
      rw [hw] at h; cases h
    · exact .peek fun s => .logPanic (dlRecord C laddr _ (.inl rfl) (by decide) (dlTwo C laddr (by decide) (.laddr) (by decide) (.io _)))

theorem makeSized_ok {n : Int} {w : Nat} (hw : 0 < w) {s t : PSt} (h : makeSized E n w s = .ok () t) : n.toNat ≤ 2 ^ 48 := by
  unfold makeSized at h
  by_cases h1 : n < 0
  · rw [if_pos h1] at h; cases h
  rw [if_neg h1] at h
  by_cases h2 : n.toNat * w > maxAlloc
  · rw [if_pos h2] at h; cases h
  · have h' : ¬ n.toNat * w > 2 ^ 48 := h2
    exact Nat.le_trans (Nat.le_mul_of_pos_right n.toNat hw) (Nat.not_lt.1 h')

theorem exHandShake_panics {data : Bytes} {p : Panic} (h : parseExtendedHandShake data = .panic p) :
    DlPanic p ∨ ∃ m, p = .str m ∧ (m = b!"extended handshake resp err" ∨ m = b!"decode extended handshake err") := by
  unfold parseExtendedHandShake at h
  split at h
  · split at h
    · simp only [logPanic, Res.panic.injEq] at h; exact .inr ⟨_, h.symm, .inl rfl⟩
    · split at h
      · simp only [logPanic, Res.panic.injEq] at h; exact .inr ⟨_, h.symm, .inr rfl⟩
      · rename_i hd; cases h; exact .inl (dl_decode (.inl hd))
      · cases h
      · exact .inl (dl_bind (fun p h => dl_getDict h) (fun _ _ h => by cases h) p h)
  · cases h; exact .inl (.inl rfl)

theorem exFetch_panics {data : Bytes} {p : Panic} (h : parseExtendedFetchMetaMsg data = .panic p) :
    DlPanic p ∨ ∃ m, p = .str m ∧ (m = b!"extended fetchmetadata not extended msg" ∨ m = b!"decode extended fetchmetadata err") := by
  have gi : ∀ {d : Entries} {k : Bytes}, k ∈ [b!"metadata_size", b!"msg_type", b!"piece", b!"total_size"] →
      ∀ p, Dict.GetInteger d k = .panic p → DlPanic p := fun hk p h => dl_getInteger hk h
  unfold parseExtendedFetchMetaMsg at h
  split at h
  · cases h; exact .inl (.inl rfl)
  · split at h
    · simp only [logPanic, Res.panic.injEq] at h; exact .inr ⟨_, h.symm, .inl rfl⟩
    · split at h
      · cases h; exact .inl (.inl rfl)
      · split at h
        · simp only [logPanic, Res.panic.injEq] at h; exact .inr ⟨_, h.symm, .inr rfl⟩
        · rename_i hd; cases h; exact .inl (dl_decode (.inr hd))
        · cases h
        · dsimp only at h
          split at h
          · exact .inl (dl_bind (gi (by decide)) (fun _ => dl_bind (gi (by decide)) fun _ _ h => by cases h) p h)
          · exact .inl (dl_bind (gi (by decide)) (fun _ => dl_bind (gi (by decide)) fun _ => dl_bind (gi (by decide)) fun _ _ h => by cases h) p h)

theorem tells_extended (ho : ∀ tr, OrderOK (E.order tr)) (rb : Slice) (data : Bytes) :
    Tells (DlRecord C laddr) (handleExtendedMsgL E C laddr rb data) (handleExtendedMsg E rb data) := by
  unfold handleExtendedMsgL handleExtendedMsg
  cases data[1]? with
  | none => exact .quiet .runtime
  | some id =>
    refine .ite (fun _ => ?_) fun _ => .ite (fun _ => ?_) fun _ => ?_
    · refine .bind (.codec fun p h => ?_) fun dict => ?_
      · rcases exHandShake_panics h with h | ⟨m, rfl, hm⟩
        · exact .inl h
        refine .inr ⟨m, rfl, dlRecord C laddr _ (.inr rfl) ?_ ?_⟩
        · rcases hm with rfl | rfl <;> decide
        · split
          · exact dlOne C laddr (by decide) (.codec _)
          · exact dlTwo C laddr (by decide) (.num _) (by decide) (.num _)
      refine .log (dlRecord C laddr _ (.inl rfl) (by decide) (dlTwo C laddr (by decide) (.laddr) (by decide) (.extended _))) (by simp) ?_
      refine .ite (fun _ => .logPanic (dlRecord C laddr _ (.inl rfl) (by decide) (dlTwo C laddr (by decide) (.laddr) (by decide) (.extended _)))) fun _ => ?_
      refine .bind (.quiet (.lift fun p h => dl_getInteger (by decide) h)) fun z => .bind (.quiet (.modify _)) fun _ => .bindOk (.quiet (.makeSized E _ _)) fun _ hz => ?_
      obtain ⟨s, t, hz⟩ := hz
      have hle := makeSized_ok E (by omega) hz
      refine .bind (.quiet (.modify _)) fun _ => .bind (.quiet (.makeSized E _ _)) fun _ => .bind (.quiet (.modify _)) fun _ => .bind (.quiet (.emit _)) fun _ => ?_
      have h1 := tells_requestLoop E C laddr ho (pieceCount z).toNat 0 (by omega)
      have h2 : Tells (DlRecord C laddr) (requestLoopL E C laddr (pieceCount z).toNat 0 >>= fun _ =>
          fmInfo b!"request pieces" [(b!"laddr", lstr laddr), (b!"metaSize", lint z), (b!"pieceCount", lint (pieceCount z))])
          (requestLoop E (pieceCount z).toNat 0 >>= fun _ => Pure.pure ()) :=
        .bind h1 fun _ => .logEnd (dlRecord C laddr _ (.inl rfl) (by decide) (dlThree C laddr (by decide) (.laddr) (by decide) (.num _) (by decide) (.num _))) (by simp)
      have e : (requestLoop E (pieceCount z).toNat 0 >>= fun _ => Pure.pure ()) = requestLoop E (pieceCount z).toNat 0 := by
        funext s
        simp only [PM.bind_apply]
        cases requestLoop E (pieceCount z).toNat 0 s <;> rfl
      rw [e] at h2
      exact h2
    · refine .bind (.codec fun p h => ?_) fun resp => ?_
      · rcases exFetch_panics h with h | ⟨m, rfl, hm⟩
        · exact .inl h
        refine .inr ⟨m, rfl, dlRecord C laddr _ (.inr rfl) ?_ ?_⟩
        · rcases hm with rfl | rfl <;> decide
        · split
          · exact dlOne C laddr (by decide) (.codec _)
          · exact dlOne C laddr (by decide) (.num _)
      have hhead : DlSource C laddr (ljson resp.json) := .head resp.msgId resp.msgType resp.pieceNum resp.totalSize
      refine .log (dlRecord C laddr _ (.inl rfl) (by decide) (dlTwo C laddr (by decide) (.laddr) (by decide) (hhead))) (by simp) ?_
      refine .ite (fun _ => .logEnd (dlRecord C laddr _ (.inl rfl) (by decide) (dlTwo C laddr (by decide) (.laddr) (by decide) (hhead))) (by simp)) fun _ => ?_
      refine .bind (.quiet .get) fun s => ?_
      dsimp only
      generalize setAt s.metaData resp.pieceNum _ = x
      cases x with
      | none => exact .quiet .runtime
      | some md =>
        refine .bind (.quiet (.modify _)) fun _ => ?_
        generalize setAt s.requested resp.pieceNum true = y
        cases y with
        | none => exact .quiet .runtime
        | some rq => exact .bind (.quiet (.modify _)) fun _ => .quiet (.emit _)
    · by_cases h2 : id.toNat = 2
      · rw [if_pos h2]
        exact .logEnd (dlRecord C laddr _ (.inl rfl) (by decide) (dlThree C laddr (by decide) (.laddr) (by decide) (.num _) (by decide) (.num _))) (by simp)
      · rw [if_neg h2]
        exact .logEnd (dlRecord C laddr _ (.inl rfl) (by decide) (dlThree C laddr (by decide) (.laddr) (by decide) (.num _) (by decide) (.num _))) (by simp)

theorem prefixErr_source (tr : List PEvent) : DlSource C laddr (lerr (prefixErrText C tr)) := by
  unfold prefixErrText
  split
  · exact .io _
  · exact .tooLarge

theorem tells_handleMsg (ho : ∀ tr, OrderOK (E.order tr)) (k : Bool) (rb : Option Slice) (e : Bool) :
    Tells (DlRecord C laddr) (handleMsgL E C laddr k rb e) (handleMsg E k rb e) := by
  unfold handleMsgL handleMsg
  refine .ite (fun _ => .pure _) fun _ => .ite (fun _ => .peek fun s => .logPanic (dlRecord C laddr _ (.inl rfl) (by decide)
    (dlTwo C laddr (by decide) (.laddr) (by decide) (prefixErr_source C laddr _)))) fun _ => ?_
  cases rb with
  | none => exact .quiet .runtime
  | some rb =>
    refine .bind (.quiet (.loadSlice E _)) fun data => .bind (.quiet (.lift ?_)) fun t => .ite (fun _ => tells_extended E C laddr ho rb data) fun _ => ?_
    · intro p h
      unfold parsePrefixLenMsg at h
      split at h
      · cases h
      · cases h; exact .inl rfl
    · exact .logEnd (dlRecord C laddr _ (.inl rfl) (by decide) (dlThree C laddr (by decide) (.laddr) (by decide) (.num _) (by decide) (.num _))) (by simp)

theorem tells_handler (ho : ∀ tr, OrderOK (E.order tr)) : Tells (DlRecord C laddr) (readMetaDataHandlerL E C laddr) (readMetaDataHandler E) :=
  .bind (.quiet (.readBytes E)) fun r => .deferred (tells_handleMsg E C laddr ho _ _ _) fun s => putBack_returns E _ s

theorem tells_loop (ho : ∀ tr, OrderOK (E.order tr)) (f : Nat) : Tells (DlRecord C laddr) (readMetaDataLoopL E C laddr f) (readMetaDataLoop E f) := by
  induction f with
  | zero => exact .quiet .diverge
  | succ f ih =>
    exact .bind (.quiet .get) fun s => .ite (fun _ => .pure _) fun _ => .bind (.quiet (.expire E)) fun e => .ite (fun _ => .pure _) fun _ =>
      .bind (tells_handler E C laddr ho) fun _ => ih

theorem tells_initial (ho : ∀ tr, OrderOK (E.order tr)) : Tells (DlRecord C laddr) (initialMessagesL E C laddr) (initialMessages E) := by
  refine .bind (.quiet .get) fun s => .bind (.codec fun m h => ?_) fun msg => .bind (.quiet (.connWrite E _)) fun f =>
    .ite (fun _ => .peek fun s => .logPanic (dlRecord C laddr _ (.inl rfl) (by decide) (dlTwo C laddr (by decide) (.laddr) (by decide) (.io _)))) fun _ => .pure _
  rw [hello_bytes _ (ho _)] at h; cases h

theorem connReadNew_length {n : Nat} {s t : PSt} {b : Bytes} {e : Bool} (h : connReadNew E n s = .ok (b, e) t) : b.length = n := by
  simp only [connReadNew, PM.bind_apply, others, PM.modify_apply, PM.get_apply, emitP, PM.pure_apply, POut.ok.injEq, Prod.mk.injEq] at h
  rw [← h.1.1]
  simp
  omega

theorem tells_handshake (fold : FoldTable) (peerId infoHash : Bytes) :
    Tells (DlRecord C laddr) (handshakePeerL E C laddr fold peerId infoHash) (handshakePeer E fold peerId infoHash) := by
  refine .bind (.codec fun p h => ?_) fun msg => .bind (.quiet (.connWrite E _)) fun f =>
    .ite (fun _ => .peek fun s => .logPanic (dlRecord C laddr _ (.inl rfl) (by decide) (dlTwo C laddr (by decide) (.laddr) (by decide) (.io _)))) fun _ => ?_
  · have : p = .str b!"wrong peerId or infohash" := by
      unfold withHandShakeMsg at h
      split at h
      · simp only [logPanic, Res.panic.injEq] at h; exact h.symm
      · cases h
    subst this
    refine .inr ⟨_, rfl, ?_⟩
    exact dlRecord C laddr _ (.inr rfl) (by decide) (dlTwo C laddr (by decide) (.num _) (by decide) (.num _))
  · refine .bindOk (.quiet (.connReadNew E _)) fun r hr => ?_
    obtain ⟨b, e⟩ := r
    obtain ⟨s, t, hr⟩ := hr
    have hlen := connReadNew_length E hr
    refine .ite (fun _ => .peek fun s => .logPanic (dlRecord C laddr _ (.inl rfl) (by decide) (dlTwo C laddr (by decide) (.laddr) (by decide) (.io _)))) fun _ => ?_
    refine .bind (.codec fun m h => ?_) fun resp => ?_
    · left
      unfold parseHandShakeMsg at h
      rw [if_neg (by simp [hlen])] at h
      have rs : ∀ {d t : Bytes} {a b : Nat} (p : Panic), reslice d t a b = .panic p → DlPanic p := fun p h => dl_reslice h
      split at h
      · cases h; exact .inl rfl
      · exact dl_bind rs (fun _ => dl_bind rs fun _ => dl_bind rs fun _ => dl_bind rs fun _ _ h => by cases h) _ h
    · refine .ite (fun _ => .logPanic (dlRecord C laddr _ (.inl rfl) (by decide) (dlTwo C laddr (by decide) (.laddr) (by decide) (.braces)))) fun _ => ?_
      refine .bind (.quiet (.lift fun m h => ?_)) fun x =>
        .ite (fun _ => .logPanic (dlRecord C laddr _ (.inl rfl) (by decide) (dlTwo C laddr (by decide) (.laddr) (by decide) (.braces)))) fun _ => .pure _
      unfold HandShake.SupportExtended at h
      split at h
      · cases h
      · cases h; exact .inl rfl

end records

end P2P

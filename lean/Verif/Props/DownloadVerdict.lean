import Verif.Props.DownloadLog
/-! # C97, continued: the verdict on a download -/
namespace P2P

/-! ## Specification -/

/-- records that only tell how the download went on: none of them was a panic -/
def DlProgress (C : DlEnv) (laddr : Bytes) (l : List LogRec) : Prop := ∀ x ∈ l, DlRecord C laddr x ∧ x.method ≠ .Panic

/-- What the log of a call of `FetchMetaData` for `infoHash` at `laddr` says at its end, by what the call does. -/
inductive DlVerdict (C : DlEnv) (laddr infoHash : Bytes) : FetchOut → List LogRec → Prop where
  /-- nobody answers: nothing is logged -/
  | dial : DlVerdict C laddr infoHash .dialErr []
  /-- the data was returned -/
  | data {l d s} (h : DlProgress C laddr l) : DlVerdict C laddr infoHash (.returned (some d) none s) (l ++ [matchRec laddr infoHash])
  /-- all pieces, wrong hash: the size is that of the last extended handshake -/
  | mismatch {l s} (h : DlProgress C laddr l) :
      DlVerdict C laddr infoHash (.returned none (some b!"check sum err") s) (l ++ [mismatchRec laddr (lastSize s.trace)])
  /-- time is up: no verdict -/
  | incomplete {l s} (h : DlProgress C laddr l) : DlVerdict C laddr infoHash (.returned none (some b!"cannot completed download metadata") s) l
  /-- broken off by a complaint: its record and one more with its text -/
  | refused {l x s} (h : DlProgress C laddr l) (hx : DlRecord C laddr x) (hp : x.method = .Panic) :
      DlVerdict C laddr infoHash (.returned none (some b!"FetchMetaData err") s) (l ++ [x, brokenRec laddr (lstr x.msg)])
  /-- broken off by a runtime error -/
  | crashed {l tr s} (h : DlProgress C laddr l) (hs : s.trace = tr ++ [.close]) :
      DlVerdict C laddr infoHash (.returned none (some b!"FetchMetaData err") s) (l ++ [brokenRec laddr (lerr (C.runtimeErr tr))])
  /-- broken off since a dictionary of the peer lacks a field: the complaint, with a stack -/
  | field {l tr s m} (h : DlProgress C laddr l) (hs : s.trace = tr ++ [.close]) (hm : m ∈ dlComplaints) :
      DlVerdict C laddr infoHash (.returned none (some b!"FetchMetaData err") s) (l ++ [brokenRec laddr (lerr (bizText m (C.stack tr)))])
  /-- the process dies -/
  | fatal {l s} (h : DlProgress C laddr l) : DlVerdict C laddr infoHash (.fatal s) l
  /-- the call does not return -/
  | diverge {l s} (h : DlProgress C laddr l) : DlVerdict C laddr infoHash (.diverge s) l

/-! ## The announced size -/

/-- the size of the connection is that of the last accepted handshake -/
def Sized (s : PSt) : Prop := s.metaDataSize = lastSize s.trace

def noSize : PEvent → Bool
  | .announced _ => false
  | _ => true

theorem lastSize_plain (tr : List PEvent) (e : PEvent) (h : noSize e = true) : lastSize (tr ++ [e]) = lastSize tr := by
  unfold lastSize
  cases e <;> simp [noSize] at *

theorem lastSize_announced (tr : List PEvent) (z : Int) : lastSize (tr ++ [.announced z]) = z := by
  unfold lastSize
  simp

theorem sized_emit (e : PEvent) (h : noSize e = true) : Keeps Sized (emitP e) := by
  intro s hs
  show s.metaDataSize = lastSize (s.trace ++ [e])
  rw [lastSize_plain _ _ h]; exact hs

theorem sized_modify {f : PSt → PSt} (h1 : ∀ s, (f s).trace = s.trace) (h2 : ∀ s, (f s).metaDataSize = s.metaDataSize) :
    Keeps Sized (PM.modify f) := by
  intro s hs
  show (f s).metaDataSize = lastSize (f s).trace
  rw [h1, h2]; exact hs

theorem sized_others (E : PEnv) : Keeps Sized (others E) := sized_modify (fun _ => rfl) (fun _ => rfl)

theorem sized_poolGet (E : PEnv) (n : Nat) : Keeps Sized (poolGet E n) := by
  refine Keeps.bind (sized_others E) fun _ => Keeps.bind Keeps.get fun s => ?_
  cases s.pool.GetBySize n with
  | ok r => exact Keeps.bind (sized_modify (fun _ => rfl) (fun _ => rfl)) fun _ => Keeps.bind (sized_emit _ rfl) fun _ => Keeps.pure _
  | err _ => exact Keeps.panic _
  | panic _ => exact Keeps.panic _
  | diverge => exact Keeps.panic _

theorem sized_poolPut (E : PEnv) (b : Slice) : Keeps Sized (poolPut E b) :=
  Keeps.bind (sized_others E) fun _ => Keeps.bind (sized_modify (fun _ => rfl) (fun _ => rfl)) fun _ => sized_emit _ rfl

theorem sized_connRead (E : PEnv) (b : Slice) : Keeps Sized (connRead E b) :=
  Keeps.bind (sized_others E) fun _ => Keeps.bind Keeps.get fun _ =>
    Keeps.bind (sized_modify (fun _ => rfl) (fun _ => rfl)) fun _ => Keeps.bind (sized_emit _ rfl) fun _ => Keeps.pure _

theorem sized_connReadNew (E : PEnv) (n : Nat) : Keeps Sized (connReadNew E n) :=
  Keeps.bind (sized_others E) fun _ => Keeps.bind Keeps.get fun _ => Keeps.bind (sized_emit _ rfl) fun _ => Keeps.pure _

theorem sized_connWrite (E : PEnv) (d : Bytes) : Keeps Sized (connWrite E d) :=
  Keeps.bind (sized_others E) fun _ => Keeps.bind Keeps.get fun _ => Keeps.bind (sized_emit _ rfl) fun _ => Keeps.pure _

theorem sized_loadSlice (E : PEnv) (b : Slice) : Keeps Sized (loadSlice E b) :=
  Keeps.bind (sized_others E) fun _ => Keeps.bind Keeps.get fun _ => Keeps.bind (sized_emit _ rfl) fun _ => Keeps.pure _

theorem sized_makeSized (E : PEnv) (n : Int) (w : Nat) : Keeps Sized (makeSized E n w) :=
  Keeps.ite (Keeps.panic _) (Keeps.ite (Keeps.panic _) (Keeps.bind (sized_emit _ rfl) fun _ =>
    Keeps.bind Keeps.get fun _ => Keeps.ite (fun _ hs => hs) (Keeps.pure _)))

theorem sized_requestLoop (E : PEnv) : ∀ n i, Keeps Sized (requestLoop E n i) := by
  intro n
  induction n with
  | zero => intro i; exact Keeps.pure _
  | succ n ih =>
    intro i
    exact Keeps.bind Keeps.get fun _ => Keeps.bind (Keeps.lift _) fun _ => Keeps.bind (sized_connWrite E _) fun _ =>
      Keeps.ite (Keeps.lift _) (ih _)

theorem size_makeSized (E : PEnv) (z n : Int) (w : Nat) :
    Triple (fun s => s.metaDataSize = z) (makeSized E n w) (fun _ s => s.metaDataSize = z) (fun _ => True) :=
  Keeps.ok (Keeps.ite (Keeps.panic _) (Keeps.ite (Keeps.panic _) (Keeps.bind (fun _ h => h) fun _ =>
    Keeps.bind Keeps.get fun _ => Keeps.ite (fun _ hs => hs) (Keeps.pure _))))

theorem sized_handleExtendedMsg (E : PEnv) (rb : Slice) (d : Bytes) :
    Triple Sized (handleExtendedMsg E rb d) (fun _ => Sized) (fun _ => True) := by
  unfold handleExtendedMsg
  cases d[1]? with
  | none => exact Triple.panic fun _ _ => True.intro
  | some c =>
    refine Triple.ite (fun _ => ?_) (fun _ => Triple.ite (fun _ => ?_) (fun _ => Triple.pure fun _ h => h))
    · refine Triple.bind (Keeps.ok (Keeps.lift _)) fun _ => Triple.ite (fun _ => Keeps.ok (Keeps.lift _)) fun _ => ?_
      refine Triple.bind (Keeps.ok (Keeps.lift _)) fun sz => Triple.bind (Q := fun _ s => s.metaDataSize = sz) (Triple.modify fun _ _ => rfl) fun _ => ?_
      refine Triple.bind (size_makeSized E _ _ _) fun _ => Triple.bind (Q := fun _ s => s.metaDataSize = sz) (Triple.modify fun _ h => h) fun _ => ?_
      refine Triple.bind (size_makeSized E _ _ _) fun _ => Triple.bind (Q := fun _ s => s.metaDataSize = sz) (Triple.modify fun _ h => h) fun _ => ?_
      refine Triple.bind (Q := fun _ => Sized) (Triple.modify fun s hs => ?_) fun _ => Keeps.ok (sized_requestLoop E _ _)
      show s.metaDataSize = lastSize (s.trace ++ [_])
      rw [lastSize_announced, hs]
    · refine Triple.bind (Keeps.ok (Keeps.lift _)) fun r => Triple.ite (fun _ => Triple.pure fun _ h => h) fun _ => ?_
      refine Triple.bind (Keeps.ok Keeps.get) fun a => ?_
      simp only
      split
      · exact Triple.panic fun _ _ => True.intro
      · refine Triple.bind (Keeps.ok (sized_modify (fun _ => rfl) (fun _ => rfl))) fun _ => ?_
        split
        · exact Triple.panic fun _ _ => True.intro
        · exact Triple.bind (Keeps.ok (sized_modify (fun _ => rfl) (fun _ => rfl))) fun _ => Keeps.ok (sized_emit _ rfl)

theorem sized_putBack (E : PEnv) (rb : Option Slice) : Keeps Sized (putBack E rb) := by
  cases rb with
  | none => exact Keeps.pure _
  | some rb => exact Keeps.ite (sized_poolPut E _) (Keeps.pure _)

theorem sized_readBytes (E : PEnv) : Keeps Sized (readBytesByPrefixLenMsg E) := by
  refine Keeps.bind (sized_poolGet E _) fun _ => Keeps.bind (sized_connRead E _) fun _ => Keeps.ite (Keeps.pure _) ?_
  unfold readAfterPrefix
  refine Keeps.bind (sized_loadSlice E _) fun _ => Keeps.ite (Keeps.panic _) (Keeps.ite (Keeps.pure _) ?_)
  refine Keeps.bind (sized_poolPut E _) fun _ => Keeps.ite (Keeps.pure _) ?_
  refine Keeps.bind (sized_poolGet E _) fun _ => Keeps.bind (sized_connRead E _) fun _ => ?_
  exact Keeps.ite (Keeps.pure _) (Keeps.pure _)

theorem sized_handler (E : PEnv) : Triple Sized (readMetaDataHandler E) (fun _ => Sized) (fun _ => True) := by
  refine Triple.bind (Keeps.ok (sized_readBytes E)) fun r => Triple.deferredOk (Q := fun _ => Sized) ?_ fun _ =>
    Keeps.ok (sized_putBack E _)
  refine Triple.ite (fun _ => Triple.pure fun _ h => h) fun _ => Triple.ite (fun _ => Keeps.ok (Keeps.lift _)) fun _ => ?_
  cases r.2.1 with
  | none => exact Triple.panic fun _ _ => True.intro
  | some rb =>
    exact Triple.bind (Keeps.ok (sized_loadSlice E _)) fun d => Triple.bind (Keeps.ok (Keeps.lift _)) fun t =>
      Triple.ite (fun _ => sized_handleExtendedMsg E _ _) (fun _ => Triple.pure fun _ h => h)

theorem sized_loop (E : PEnv) (n : Nat) : Triple Sized (readMetaDataLoop E n) (fun _ => Sized) (fun _ => True) := by
  induction n with
  | zero => intro s _; exact True.intro
  | succ n ih =>
    refine Triple.bind (Keeps.ok Keeps.get) fun s => Triple.ite (fun _ => Triple.pure fun _ h => h) fun _ => ?_
    refine Triple.bind (Keeps.ok ?_) fun e => Triple.ite (fun _ => Triple.pure fun _ h => h) fun _ =>
      Triple.bind (sized_handler E) fun _ => ih
    exact Keeps.bind Keeps.get fun _ => Keeps.bind (sized_emit _ rfl) fun _ => Keeps.pure _

theorem sized_merge (E : PEnv) (n i : Nat) (r : Bytes) : Keeps Sized (mergeLoop E n i r) := by
  induction n generalizing i r with
  | zero => exact Keeps.pure _
  | succ n ih =>
    refine Keeps.bind Keeps.get fun s => ?_
    split
    · exact Keeps.panic _
    · exact ih _ _
    · exact Keeps.bind (sized_loadSlice E _) fun _ => ih _ _

theorem sized_initial (E : PEnv) : Keeps Sized (initialMessages E) :=
  Keeps.bind Keeps.get fun _ => Keeps.bind (Keeps.lift _) fun _ => Keeps.bind (sized_connWrite E _) fun _ => Keeps.ite (Keeps.lift _) (Keeps.pure _)

theorem sized_handshake (E : PEnv) (fold : FoldTable) (peerId infoHash : Bytes) : Keeps Sized (handshakePeer E fold peerId infoHash) :=
  Keeps.bind (Keeps.lift _) fun _ => Keeps.bind (sized_connWrite E _) fun _ => Keeps.ite (Keeps.lift _) <|
    Keeps.bind (sized_connReadNew E _) fun _ => Keeps.ite (Keeps.lift _) <| Keeps.bind (Keeps.lift _) fun _ =>
      Keeps.ite (Keeps.lift _) <| Keeps.bind (Keeps.lift _) fun _ => Keeps.ite (Keeps.lift _) (Keeps.pure _)


/-! ## The verdict -/

section verdict
variable (E : PEnv) (C : DlEnv) (laddr : Bytes)

/-- dht/peerwire/bep9.go:136-141 -/
def dlTalk (fold : FoldTable) (fuel : Nat) (peerId infoHash : Bytes) : PM Unit := do
  handshakePeer E fold peerId infoHash
  initialMessages E
  readMetaDataLoop E fuel
def dlTalkL (fold : FoldTable) (fuel : Nat) (peerId infoHash : Bytes) : PL Unit := do
  handshakePeerL E C laddr fold peerId infoHash
  initialMessagesL E C laddr
  readMetaDataLoopL E C laddr fuel

theorem tells_talk (ho : ∀ tr, OrderOK (E.order tr)) (fold : FoldTable) (fuel : Nat) (peerId infoHash : Bytes) :
    Tells (DlRecord C laddr) (dlTalkL E C laddr fold fuel peerId infoHash) (dlTalk E fold fuel peerId infoHash) :=
  .bind (tells_handshake E C laddr fold peerId infoHash) fun _ => .bind (tells_initial E C laddr ho) fun _ => tells_loop E C laddr ho fuel

theorem sized_talk (fold : FoldTable) (fuel : Nat) (peerId infoHash : Bytes) :
    Triple Sized (dlTalk E fold fuel peerId infoHash) (fun _ => Sized) (fun _ => True) :=
  Triple.bind (Keeps.ok (sized_handshake E _ _ _)) fun _ => Triple.bind (Keeps.ok (sized_initial E)) fun _ => sized_loop E fuel

/-- after the conversation: dht/peerwire/bep9.go:142-159 -/
def dlCheck (sha1 : Bytes → Bytes) (infoHash : Bytes) : PM (Option Bytes × Option Bytes) := do
  let s ← PM.get
  if ¬ CompledMetaData s then pure (none, some b!"cannot completed download metadata")
  else do
    makeSized E s.metaDataSize 1
    let result ← mergeLoop E s.requested.length 0 []
    if infoHash ≠ sha1 result then pure (none, some b!"check sum err")
    else pure (some result, none)
def dlCheckL (sha1 : Bytes → Bytes) (infoHash : Bytes) : PL (Option Bytes × Option Bytes) := do
  let s ← PL.quiet PM.get
  if ¬ CompledMetaData s then pure (none, some b!"cannot completed download metadata")
  else do
    PL.quiet (makeSized E s.metaDataSize 1)
    let result ← PL.quiet (mergeLoop E s.requested.length 0 [])
    if infoHash ≠ sha1 result then do
      fmError b!"chesum metadata not match" [(b!"laddr", lstr laddr), (b!"metasize", lint s.metaDataSize)]
      pure (none, some b!"check sum err")
    else do
      fmInfo b!"chesum metadata match" [(b!"laddr", lstr laddr), (b!"infohash", lstr (hexEncode infoHash))]
      pure (some result, none)

theorem PL.bind_assoc {α β γ : Type} (m : PL α) (f : α → PL β) (g : β → PL γ) : (m >>= f) >>= g = m >>= fun a => f a >>= g := by
  funext s l
  simp only [PL.bind_apply]
  rcases m s l with ⟨o, l'⟩
  cases o <;> rfl

theorem PM.bind_assoc {α β γ : Type} (m : PM α) (f : α → PM β) (g : β → PM γ) : (m >>= f) >>= g = m >>= fun a => f a >>= g := by
  funext s
  simp only [PM.bind_apply]
  cases m s <;> rfl

theorem fetchBody_split (sha1 : Bytes → Bytes) (fold : FoldTable) (fuel : Nat) (peerId infoHash : Bytes) :
    fetchBody E sha1 fold fuel peerId infoHash = (dlTalk E fold fuel peerId infoHash >>= fun _ => dlCheck E sha1 infoHash) ∧
    fetchBodyL E C laddr sha1 fold fuel peerId infoHash =
      (dlTalkL E C laddr fold fuel peerId infoHash >>= fun _ => dlCheckL E laddr sha1 infoHash) := by
  constructor
  · unfold fetchBody dlTalk dlCheck
    rw [PM.bind_assoc]
    congr 1; funext _
    rw [PM.bind_assoc]
  · unfold fetchBodyL dlTalkL dlCheckL
    rw [PL.bind_assoc]
    congr 1; funext _
    rw [PL.bind_assoc]

/-- what the check does and logs, from a state that is `Sized` -/
inductive DlChecked (infoHash : Bytes) : POut (Option Bytes × Option Bytes) → List LogRec → Prop where
  | data (d s) : DlChecked infoHash (.ok (some d, none) s) [matchRec laddr infoHash]
  | mismatch (s) : DlChecked infoHash (.ok (none, some b!"check sum err") s) [mismatchRec laddr (lastSize s.trace)]
  | incomplete (s) : DlChecked infoHash (.ok (none, some b!"cannot completed download metadata") s) []
  | crashed (s) : DlChecked infoHash (.panic .runtime s) []
  | fatal (s) : DlChecked infoHash (.fatal s) []
  | diverge (s) : DlChecked infoHash (.diverge s) []

/-- the only panics are runtime errors -/
def OnlyRuntime {α : Type} (m : PM α) : Prop := ∀ s p t, m s = .panic p t → p = .runtime

theorem onlyRuntime_bind {α β : Type} {m : PM α} {f : α → PM β} (h : OnlyRuntime m) (hf : ∀ a, OnlyRuntime (f a)) : OnlyRuntime (m >>= f) := by
  intro s p t
  rw [PM.bind_apply]
  cases hm : m s with
  | ok a s' => exact hf a s' p t
  | panic p s' => intro e; cases e; exact h s _ _ hm
  | fatal s' => intro e; cases e
  | diverge s' => intro e; cases e

theorem onlyRuntime_makeSized (n : Int) (w : Nat) : OnlyRuntime (makeSized E n w) := by
  intro s p t h
  unfold makeSized at h
  by_cases h1 : n < 0
  · rw [if_pos h1] at h; cases h; rfl
  rw [if_neg h1] at h
  by_cases h2 : n.toNat * w > maxAlloc
  · rw [if_pos h2] at h; cases h; rfl
  · rw [if_neg h2] at h
    simp only [PM.bind_apply, emitP, PM.modify_apply, PM.get_apply] at h
    split at h <;> cases h

theorem onlyRuntime_merge (n i : Nat) (r : Bytes) : OnlyRuntime (mergeLoop E n i r) := by
  induction n generalizing i r with
  | zero => intro s p t h; cases h
  | succ n ih =>
    refine onlyRuntime_bind (fun _ _ _ h => by cases h) fun s => ?_
    split
    · intro s p t h; cases h; rfl
    · exact ih _ _
    · exact onlyRuntime_bind (fun _ _ _ h => by cases h) fun _ => ih _ _

theorem size_merge (z : Int) (n i : Nat) (r : Bytes) : Keeps (fun t => t.metaDataSize = z) (mergeLoop E n i r) := by
  induction n generalizing i r with
  | zero => exact Keeps.pure _
  | succ n ih =>
    refine Keeps.bind Keeps.get fun s => ?_
    split
    · exact Keeps.panic _
    · exact ih _ _
    · exact Keeps.bind (fun _ h => h) fun _ => ih _ _

theorem checked (sha1 : Bytes → Bytes) (infoHash : Bytes) (s : PSt) (hs : Sized s) (l : List LogRec) :
    ∃ r, dlCheckL E laddr sha1 infoHash s l = (dlCheck E sha1 infoHash s, l ++ r) ∧ DlChecked laddr infoHash (dlCheck E sha1 infoHash s) r := by
  unfold dlCheckL dlCheck
  simp only [PM.bind_apply, PL.bind_apply, PL.quiet, PM.get_apply]
  by_cases hc : CompledMetaData s
  · rw [if_neg (not_not_intro hc), if_neg (not_not_intro hc)]
    simp only [PM.bind_apply, PL.bind_apply, PL.quiet]
    have hm := sized_makeSized E s.metaDataSize 1 s hs
    have hm' := onlyRuntime_makeSized E s.metaDataSize 1 s
    cases h1 : makeSized E s.metaDataSize 1 s with
    | panic p s1 => cases hm' _ _ h1; exact ⟨[], by simp, .crashed _⟩
    | fatal s1 => exact ⟨[], by simp, .fatal _⟩
    | diverge s1 => exact ⟨[], by simp, .diverge _⟩
    | ok u s1 =>
      simp only
      rw [h1] at hm
      have hg := sized_merge E s.requested.length 0 [] s1 hm
      have hg' := onlyRuntime_merge E s.requested.length 0 [] s1
      have hsz : s.metaDataSize = s1.metaDataSize := by
        have := size_makeSized E s.metaDataSize s.metaDataSize 1 s rfl
        rw [h1] at this; exact this.symm
      have hsz2 : Triple (fun t => t.metaDataSize = s.metaDataSize) (mergeLoop E s.requested.length 0 [])
          (fun _ t => t.metaDataSize = s.metaDataSize) (fun t => t.metaDataSize = s.metaDataSize) := size_merge E _ _ _ _
      have hsz2 := hsz2 s1 hsz.symm
      cases h2 : mergeLoop E s.requested.length 0 [] s1 with
      | panic p s2 => cases hg' _ _ h2; exact ⟨[], by simp, .crashed _⟩
      | fatal s2 => exact ⟨[], by simp, .fatal _⟩
      | diverge s2 => exact ⟨[], by simp, .diverge _⟩
      | ok d s2 =>
        simp only
        rw [h2] at hg hsz2
        simp only at hg hsz2
        by_cases hd : infoHash ≠ sha1 d
        · rw [if_pos hd, if_pos hd]
          refine ⟨[mismatchRec laddr (lastSize s2.trace)], ?_, .mismatch _⟩
          rw [← hg, hsz2]; rfl
        · rw [if_neg hd, if_neg hd]
          exact ⟨[matchRec laddr infoHash], rfl, .data _ _⟩
  · rw [if_pos hc, if_pos hc]
    exact ⟨[], by simp; rfl, .incomplete _⟩

theorem newPeerConn_sized (mem : Nat → Bytes) (pool : BPool) : Sized (NewPeerConn mem pool) := rfl

/-- **C97.** Logging does not change what a download does, and its log ends with the verdict. -/
theorem C97_verdict (ho : ∀ tr, OrderOK (E.order tr)) (sha1 : Bytes → Bytes) (fold : FoldTable) (fuel : Nat) (peerId infoHash : Bytes)
    (mem : Nat → Bytes) (pool : BPool) :
    (FetchMetaDataL E C laddr sha1 fold fuel peerId infoHash mem pool).1 = FetchMetaData E sha1 fold fuel peerId infoHash mem pool ∧
    DlVerdict C laddr infoHash (FetchMetaDataL E C laddr sha1 fold fuel peerId infoHash mem pool).1
      (FetchMetaDataL E C laddr sha1 fold fuel peerId infoHash mem pool).2 := by
  unfold FetchMetaDataL FetchMetaData
  by_cases hd : E.dialFails
  · simp only [hd, if_true]; exact ⟨trivial, .dial⟩
  simp only [hd]
  rw [if_neg (by simp), if_neg (by simp)]
  obtain ⟨e1, e2⟩ := fetchBody_split E C laddr sha1 fold fuel peerId infoHash
  rw [e1, e2]
  simp only [PL.bind_apply, PM.bind_apply]
  obtain ⟨r, h1, h2, h3⟩ := tells_talk E C laddr ho fold fuel peerId infoHash (NewPeerConn mem pool) []
  have hz := sized_talk E fold fuel peerId infoHash (NewPeerConn mem pool) (newPeerConn_sized mem pool)
  rw [h1, List.nil_append]
  have quiet : (∀ y ∈ r, y.method ≠ .Panic) → DlProgress C laddr r := fun h x hx => ⟨h2 x hx, h x hx⟩
  cases ht : dlTalk E fold fuel peerId infoHash (NewPeerConn mem pool) with
  | ok u s =>
    rw [ht] at h3 hz
    have hq : DlProgress C laddr r := by
      rcases h3 with ⟨_, _, _, _, h, -⟩ | ⟨-, h⟩
      · cases h
      · exact quiet h
    obtain ⟨r', k1, k2⟩ := checked E laddr sha1 infoHash s hz r
    simp only [k1]
    generalize dlCheck E sha1 infoHash s = o at k2
    cases k2 with
    | data d s => exact ⟨rfl, .data hq⟩
    | mismatch s =>
      refine ⟨rfl, ?_⟩
      have : lastSize s.trace = lastSize (s.trace ++ [.close]) := (lastSize_plain _ _ rfl).symm
      rw [this]
      exact .mismatch (s := { s with trace := s.trace ++ [.close] }) hq
    | incomplete s => rw [List.append_nil]; exact ⟨rfl, .incomplete hq⟩
    | crashed s => rw [List.append_nil]; exact ⟨rfl, .crashed hq rfl⟩
    | fatal s => rw [List.append_nil]; exact ⟨rfl, .fatal hq⟩
    | diverge s => rw [List.append_nil]; exact ⟨rfl, .diverge hq⟩
  | panic p s =>
    rw [ht] at h3
    refine ⟨rfl, ?_⟩
    rcases h3 with ⟨m, t, r', x, e, rfl, hx, hm, h⟩ | ⟨hp, h⟩
    · cases e
      simp only [List.append_assoc, List.singleton_append]
      subst hm
      exact .refused (fun y hy => ⟨h2 y (List.mem_append_left _ hy), h y hy⟩) (h2 x (by simp)) hx
    · rcases hp p s rfl with rfl | ⟨m, hm, rfl⟩
      · exact .crashed (quiet h) rfl
      · exact .field (quiet h) rfl hm
  | fatal s =>
    rw [ht] at h3
    rcases h3 with ⟨_, _, _, _, h, -⟩ | ⟨-, h⟩
    · cases h
    · exact ⟨rfl, .fatal (quiet h)⟩
  | diverge s =>
    rw [ht] at h3
    rcases h3 with ⟨_, _, _, _, h, -⟩ | ⟨-, h⟩
    · cases h
    · exact ⟨rfl, .diverge (quiet h)⟩

/-- the texts of the verdicts are not those of other records -/
theorem dlTexts_other {C : DlEnv} {laddr : Bytes} {x : LogRec} (h : DlRecord C laddr x) :
    x.msg ≠ b!"chesum metadata match" ∧ x.msg ≠ b!"chesum metadata not match" ∧ x.msg ≠ b!"FetchMetaData err" := by
  have hm := h.msg
  refine ⟨fun e => ?_, fun e => ?_, fun e => ?_⟩ <;> rw [e] at hm <;> exact absurd hm (by decide)

/-- **C97.** "chesum metadata match" is logged iff the data is returned, then once, with the address and the infohash; "not match" iff the
hash is wrong; "FetchMetaData err" iff the download was broken off. -/
theorem C97_match_iff (ho : ∀ tr, OrderOK (E.order tr)) (sha1 : Bytes → Bytes) (fold : FoldTable) (fuel : Nat) (peerId infoHash : Bytes)
    (mem : Nat → Bytes) (pool : BPool) (o : FetchOut) (l : List LogRec)
    (h : FetchMetaDataL E C laddr sha1 fold fuel peerId infoHash mem pool = (o, l)) :
    ((∃ x ∈ l, x.msg = b!"chesum metadata match") ↔ ∃ d s, o = .returned (some d) none s) ∧
    ((∃ x ∈ l, x.msg = b!"chesum metadata not match") ↔ ∃ s, o = .returned none (some b!"check sum err") s) ∧
    ((∃ x ∈ l, x.msg = b!"FetchMetaData err") ↔ ∃ s, o = .returned none (some b!"FetchMetaData err") s) ∧
    (∀ x ∈ l, x.msg = b!"chesum metadata match" → x = matchRec laddr infoHash) ∧
    (l.filter fun x => x.msg ∈ [b!"chesum metadata match", b!"chesum metadata not match", b!"FetchMetaData err"]).length ≤ 1 := by
  have hv := (C97_verdict E C laddr ho sha1 fold fuel peerId infoHash mem pool).2
  rw [h] at hv
  simp only at hv
  have none_of : ∀ {l : List LogRec}, DlProgress C laddr l →
      (l.filter fun x => x.msg ∈ [b!"chesum metadata match", b!"chesum metadata not match", b!"FetchMetaData err"]) = [] := by
    intro l hl
    refine List.filter_eq_nil_iff.2 fun x hx => ?_
    have := dlTexts_other (hl x hx).1
    simp [this]
  have no : ∀ {l : List LogRec}, DlProgress C laddr l → ∀ x ∈ l,
      x.msg ≠ b!"chesum metadata match" ∧ x.msg ≠ b!"chesum metadata not match" ∧ x.msg ≠ b!"FetchMetaData err" :=
    fun hl x hx => dlTexts_other (hl x hx).1
  have n1 : b!"chesum metadata match" ≠ b!"chesum metadata not match" := by decide
  have n2 : b!"chesum metadata match" ≠ b!"FetchMetaData err" := by decide
  have n3 : b!"chesum metadata not match" ≠ b!"FetchMetaData err" := by decide
  have n4 : b!"cannot completed download metadata" ≠ b!"check sum err" := by decide
  have n5 : b!"cannot completed download metadata" ≠ b!"FetchMetaData err" := by decide
  have n6 : b!"check sum err" ≠ b!"FetchMetaData err" := by decide
  -- a log of progress with a tail
  have tail : ∀ {l : List LogRec} (t : List LogRec) (P : LogRec → Prop), DlProgress C laddr l → (∀ x, DlRecord C laddr x → ¬ P x) →
      ((∃ x ∈ l ++ t, P x) ↔ ∃ x ∈ t, P x) := by
    intro l t P hl hP
    constructor
    · rintro ⟨x, hx, hp⟩
      rcases List.mem_append.1 hx with hx | hx
      · exact absurd hp (hP x (hl x hx).1)
      · exact ⟨x, hx, hp⟩
    · rintro ⟨x, hx, hp⟩; exact ⟨x, List.mem_append_right _ hx, hp⟩
  have t1 : ∀ x, DlRecord C laddr x → ¬ x.msg = b!"chesum metadata match" := fun x h => (dlTexts_other h).1
  have t2 : ∀ x, DlRecord C laddr x → ¬ x.msg = b!"chesum metadata not match" := fun x h => (dlTexts_other h).2.1
  have t3 : ∀ x, DlRecord C laddr x → ¬ x.msg = b!"FetchMetaData err" := fun x h => (dlTexts_other h).2.2
  have fin : ∀ {l : List LogRec} (t : List LogRec), DlProgress C laddr l → (∀ x ∈ t, x.msg = b!"chesum metadata match" → x = matchRec laddr infoHash) →
      ∀ x ∈ l ++ t, x.msg = b!"chesum metadata match" → x = matchRec laddr infoHash := by
    intro l t hl ht x hx e
    rcases List.mem_append.1 hx with hx | hx
    · exact absurd e (no hl x hx).1
    · exact ht x hx e
  cases hv with
  | dial => simp
  | data hl =>
    refine ⟨?_, ?_, ?_, fin _ hl (by simp), ?_⟩
    · rw [tail _ _ hl t1]; simp [matchRec]
    · rw [tail _ _ hl t2]; simp [matchRec]
    · rw [tail _ _ hl t3]; simp [matchRec]
    · rw [List.filter_append, none_of hl]; simp; exact List.length_filter_le _ _
  | mismatch hl =>
    refine ⟨?_, ?_, ?_, fin _ hl ?_, ?_⟩
    · rw [tail _ _ hl t1]; simp [mismatchRec]
    · rw [tail _ _ hl t2]; simp [mismatchRec]
    · rw [tail _ _ hl t3]; simp [mismatchRec, n3, n6]
    · intro x hx e; rw [List.mem_singleton.1 hx] at e; exact absurd e n1.symm
    · rw [List.filter_append, none_of hl]; simp; exact List.length_filter_le _ _
  | incomplete hl =>
    have z := tail [] (fun x => x.msg = b!"chesum metadata match") hl t1
    have z2 := tail [] (fun x => x.msg = b!"chesum metadata not match") hl t2
    have z3 := tail [] (fun x => x.msg = b!"FetchMetaData err") hl t3
    rw [List.append_nil] at z z2 z3
    refine ⟨?_, ?_, ?_, ?_, ?_⟩
    · rw [z]; simp
    · rw [z2]; simp [n4]
    · rw [z3]; simp [n5]
    · intro x hx e; exact absurd e (no hl x hx).1
    · rw [none_of hl]; simp
  | refused hl hx hp =>
    rename_i l x s
    have hxs := dlTexts_other hx
    refine ⟨?_, ?_, ?_, fin _ hl ?_, ?_⟩
    · rw [tail _ _ hl t1]; simp [brokenRec, hxs, n2.symm]
    · rw [tail _ _ hl t2]; simp [brokenRec, hxs, n3.symm, n6.symm]
    · rw [tail _ _ hl t3]; simp [brokenRec]
    · intro y hy e
      rcases List.mem_cons.1 hy with rfl | hy
      · exact absurd e hxs.1
      · rw [List.mem_singleton.1 hy] at e; exact absurd e n2.symm
    · rw [List.filter_append, none_of hl, List.nil_append, List.filter_cons_of_neg (by simp [hxs])]
      exact List.length_filter_le _ _
  | crashed hl hs =>
    refine ⟨?_, ?_, ?_, fin _ hl ?_, ?_⟩
    · rw [tail _ _ hl t1]; simp [brokenRec, n2.symm]
    · rw [tail _ _ hl t2]; simp [brokenRec, n3.symm, n6.symm]
    · rw [tail _ _ hl t3]; simp [brokenRec]
    · intro x hx e; rw [List.mem_singleton.1 hx] at e; exact absurd e n2.symm
    · rw [List.filter_append, none_of hl]; simp; exact List.length_filter_le _ _
  | field hl hs hm =>
    refine ⟨?_, ?_, ?_, fin _ hl ?_, ?_⟩
    · rw [tail _ _ hl t1]; simp [brokenRec, n2.symm]
    · rw [tail _ _ hl t2]; simp [brokenRec, n3.symm, n6.symm]
    · rw [tail _ _ hl t3]; simp [brokenRec]
    · intro x hx e; rw [List.mem_singleton.1 hx] at e; exact absurd e n2.symm
    · rw [List.filter_append, none_of hl]; simp; exact List.length_filter_le _ _
  | fatal hl =>
    refine ⟨?_, ?_, ?_, ?_, ?_⟩
    · exact iff_of_false (fun ⟨x, hx, e⟩ => (no hl x hx).1 e) (by simp)
    · exact iff_of_false (fun ⟨x, hx, e⟩ => (no hl x hx).2.1 e) (by simp)
    · exact iff_of_false (fun ⟨x, hx, e⟩ => (no hl x hx).2.2 e) (by simp)
    · intro x hx e; exact absurd e (no hl x hx).1
    · rw [none_of hl]; simp
  | diverge hl =>
    refine ⟨?_, ?_, ?_, ?_, ?_⟩
    · exact iff_of_false (fun ⟨x, hx, e⟩ => (no hl x hx).1 e) (by simp)
    · exact iff_of_false (fun ⟨x, hx, e⟩ => (no hl x hx).2.1 e) (by simp)
    · exact iff_of_false (fun ⟨x, hx, e⟩ => (no hl x hx).2.2 e) (by simp)
    · intro x hx e; exact absurd e (no hl x hx).1
    · rw [none_of hl]; simp

end verdict

end P2P

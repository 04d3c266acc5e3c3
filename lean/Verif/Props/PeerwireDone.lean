import Verif.Props.PeerwireReq
/-! # C42 (second half): a completed download received every announced piece; C58: memory asked for by a peer -/
namespace P2P

/-- the piece flags, as a function of the accepted messages -/
def flagsStep (r : List Bool) : PEvent → List Bool
  | .announced size => List.replicate (pieceCount size).toNat false
  | .gotPiece i => r.set i true
  | _ => r

def flags (tr : List PEvent) : List Bool := tr.foldl flagsStep [false]

theorem flags_snoc (tr : List PEvent) (e : PEvent) : flags (tr ++ [e]) = flagsStep (flags tr) e := by
  simp [flags, List.foldl_append]

/-- every event but an accepted handshake and an accepted piece -/
def plain : PEvent → Bool
  | .announced _ => false
  | .gotPiece _ => false
  | _ => true

theorem flags_plain (tr : List PEvent) (e : PEvent) (h : plain e = true) : flags (tr ++ [e]) = flags tr := by
  rw [flags_snoc]
  cases e <;> simp [plain, flagsStep] at *

/-- the flags of the connection are determined by the accepted messages -/
def Flagged (s : PSt) : Prop := s.requested = flags s.trace

theorem flagged_emit (e : PEvent) (h : plain e = true) : Keeps Flagged (emitP e) := by
  intro s hs
  show s.requested = flags (s.trace ++ [e])
  rw [flags_plain _ _ h]; exact hs

theorem flagged_modify {f : PSt → PSt} (h1 : ∀ s, (f s).trace = s.trace) (h2 : ∀ s, (f s).requested = s.requested) :
    Keeps Flagged (PM.modify f) := by
  intro s hs
  show (f s).requested = flags (f s).trace
  rw [h1, h2]; exact hs

theorem flagged_others (E : PEnv) : Keeps Flagged (others E) := flagged_modify (fun _ => rfl) (fun _ => rfl)

theorem flagged_poolGet (E : PEnv) (n : Nat) : Keeps Flagged (poolGet E n) := by
  refine Keeps.bind (flagged_others E) fun _ => Keeps.bind Keeps.get fun s => ?_
  cases s.pool.GetBySize n with
  | ok r => exact Keeps.bind (flagged_modify (fun _ => rfl) (fun _ => rfl)) fun _ => Keeps.bind (flagged_emit _ rfl) fun _ => Keeps.pure _
  | err _ => exact Keeps.panic _
  | panic _ => exact Keeps.panic _
  | diverge => exact Keeps.panic _

theorem flagged_poolPut (E : PEnv) (b : Slice) : Keeps Flagged (poolPut E b) :=
  Keeps.bind (flagged_others E) fun _ => Keeps.bind (flagged_modify (fun _ => rfl) (fun _ => rfl)) fun _ => flagged_emit _ rfl

theorem flagged_connRead (E : PEnv) (b : Slice) : Keeps Flagged (connRead E b) :=
  Keeps.bind (flagged_others E) fun _ => Keeps.bind Keeps.get fun _ =>
    Keeps.bind (flagged_modify (fun _ => rfl) (fun _ => rfl)) fun _ => Keeps.bind (flagged_emit _ rfl) fun _ => Keeps.pure _

theorem flagged_connReadNew (E : PEnv) (n : Nat) : Keeps Flagged (connReadNew E n) :=
  Keeps.bind (flagged_others E) fun _ => Keeps.bind Keeps.get fun _ => Keeps.bind (flagged_emit _ rfl) fun _ => Keeps.pure _

theorem flagged_connWrite (E : PEnv) (d : Bytes) : Keeps Flagged (connWrite E d) :=
  Keeps.bind (flagged_others E) fun _ => Keeps.bind Keeps.get fun _ => Keeps.bind (flagged_emit _ rfl) fun _ => Keeps.pure _

theorem flagged_loadSlice (E : PEnv) (b : Slice) : Keeps Flagged (loadSlice E b) :=
  Keeps.bind (flagged_others E) fun _ => Keeps.bind Keeps.get fun _ => Keeps.bind (flagged_emit _ rfl) fun _ => Keeps.pure _

theorem flagged_makeSized (E : PEnv) (n : Int) (w : Nat) : Keeps Flagged (makeSized E n w) :=
  Keeps.ite (Keeps.panic _) (Keeps.ite (Keeps.panic _) (Keeps.bind (flagged_emit _ rfl) fun _ =>
    Keeps.bind Keeps.get fun _ => Keeps.ite (fun _ hs => hs) (Keeps.pure _)))

theorem flagged_requestLoop (E : PEnv) : ∀ n i, Keeps Flagged (requestLoop E n i) := by
  intro n
  induction n with
  | zero => intro i; exact Keeps.pure _
  | succ n ih =>
    intro i
    exact Keeps.bind Keeps.get fun _ => Keeps.bind (Keeps.lift _) fun _ => Keeps.bind (flagged_connWrite E _) fun _ =>
      Keeps.ite (Keeps.lift _) (ih _)

theorem flagged_handleExtendedMsg (E : PEnv) (rb : Slice) (d : Bytes) :
    Triple Flagged (handleExtendedMsg E rb d) (fun _ => Flagged) (fun _ => True) := by
  have weak : ∀ {α : Type} {m : PM α}, Keeps Flagged m → Triple Flagged m (fun _ => Flagged) (fun _ => True) :=
    fun h => Triple.weaken h (fun _ h => h) (fun _ _ h => h) (fun _ _ => True.intro)
  unfold handleExtendedMsg
  cases d[1]? with
  | none => exact Triple.panic fun _ _ => True.intro
  | some c =>
    refine Triple.ite (fun _ => ?_) (fun _ => Triple.ite (fun _ => ?_) (fun _ => Triple.pure fun _ h => h))
    · refine Triple.bind (weak (Keeps.lift _)) fun _ => Triple.ite (fun _ => weak (Keeps.lift _)) fun _ => ?_
      refine Triple.bind (weak (Keeps.lift _)) fun sz => Triple.bind (weak (flagged_modify (fun _ => rfl) (fun _ => rfl))) fun _ => ?_
      refine Triple.bind (weak (flagged_makeSized E _ _)) fun _ => Triple.bind (weak (flagged_modify (fun _ => rfl) (fun _ => rfl))) fun _ => ?_
      refine Triple.bind (weak (flagged_makeSized E _ _)) fun _ =>
        Triple.bind (Q := fun _ s => s.requested = List.replicate (pieceCount sz).toNat false) (Triple.modify fun s _ => rfl) fun _ => ?_
      refine Triple.bind (Q := fun _ => Flagged) (Triple.modify fun s hs => ?_) fun _ => weak (flagged_requestLoop E _ _)
      show s.requested = flags (s.trace ++ [_])
      rw [flags_snoc, hs]; rfl
    · refine Triple.bind (weak (Keeps.lift _)) fun r => Triple.ite (fun _ => Triple.pure fun _ h => h) fun _ => ?_
      refine Triple.bind (Q := fun a s => Flagged s ∧ a.requested = s.requested) (Triple.get fun s hs => ⟨hs, rfl⟩) fun a => ?_
      simp only
      split
      · exact Triple.panic fun _ _ => True.intro
      · refine Triple.bind (Q := fun _ s => Flagged s ∧ a.requested = s.requested) (Triple.modify fun s hs => hs) fun _ => ?_
        split
        · exact Triple.panic fun _ _ => True.intro
        · rename_i rq hrq
          refine Triple.bind (Q := fun _ s => s.requested = (flags s.trace).set r.pieceNum.toNat true) (Triple.modify fun s hs => ?_) fun _ => ?_
          · show rq = (flags s.trace).set _ true
            unfold setAt at hrq
            split at hrq
            · rw [← Option.some.inj hrq, hs.2, hs.1]
            · cases hrq
          · refine Triple.modify fun s hs => ?_
            show s.requested = flags (s.trace ++ [_])
            rw [flags_snoc, hs]; rfl

theorem flagged_putBack (E : PEnv) (rb : Option Slice) : Keeps Flagged (putBack E rb) := by
  cases rb with
  | none => exact Keeps.pure _
  | some rb => exact Keeps.ite (flagged_poolPut E _) (Keeps.pure _)

theorem Triple.deferredOk {α : Type} {I : PSt → Prop} {m : PM α} {c : PM Unit} {Q R : α → PSt → Prop}
    (h1 : Triple I m Q (fun _ => True)) (h2 : ∀ a, Triple (Q a) c (fun _ => R a) (fun _ => True)) :
    Triple I (PM.deferred m c) R (fun _ => True) :=
  Triple.deferred h1 h2 (Triple.trivial _) (fun _ _ => True.intro)

theorem Keeps.ok {α : Type} {I : PSt → Prop} {m : PM α} (h : Keeps I m) : Triple I m (fun _ => I) (fun _ => True) :=
  Triple.weaken h (fun _ h => h) (fun _ _ h => h) (fun _ _ => True.intro)

theorem flagged_readBytes (E : PEnv) : Keeps Flagged (readBytesByPrefixLenMsg E) := by
  refine Keeps.bind (flagged_poolGet E _) fun _ => Keeps.bind (flagged_connRead E _) fun _ => Keeps.ite (Keeps.pure _) ?_
  unfold readAfterPrefix
  refine Keeps.bind (flagged_loadSlice E _) fun _ => Keeps.ite (Keeps.panic _) (Keeps.ite (Keeps.pure _) ?_)
  refine Keeps.bind (flagged_poolPut E _) fun _ => Keeps.ite (Keeps.pure _) ?_
  refine Keeps.bind (flagged_poolGet E _) fun _ => Keeps.bind (flagged_connRead E _) fun _ => ?_
  exact Keeps.ite (Keeps.pure _) (Keeps.pure _)

theorem flagged_handler (E : PEnv) : Triple Flagged (readMetaDataHandler E) (fun _ => Flagged) (fun _ => True) := by
  refine Triple.bind (Keeps.ok (flagged_readBytes E)) fun r => Triple.deferredOk (Q := fun _ => Flagged) ?_ fun _ =>
    Keeps.ok (flagged_putBack E _)
  refine Triple.ite (fun _ => Triple.pure fun _ h => h) fun _ => Triple.ite (fun _ => Keeps.ok (Keeps.lift _)) fun _ => ?_
  cases r.2.1 with
  | none => exact Triple.panic fun _ _ => True.intro
  | some rb =>
    exact Triple.bind (Keeps.ok (flagged_loadSlice E _)) fun d => Triple.bind (Keeps.ok (Keeps.lift _)) fun t =>
      Triple.ite (fun _ => flagged_handleExtendedMsg E _ _) (fun _ => Triple.pure fun _ h => h)

theorem flagged_loop (E : PEnv) (n : Nat) : Triple Flagged (readMetaDataLoop E n) (fun _ => Flagged) (fun _ => True) := by
  induction n with
  | zero => intro s _; exact True.intro
  | succ n ih =>
    refine Triple.bind (Keeps.ok Keeps.get) fun s => Triple.ite (fun _ => Triple.pure fun _ h => h) fun _ => ?_
    refine Triple.bind (Keeps.ok ?_) fun e => Triple.ite (fun _ => Triple.pure fun _ h => h) fun _ =>
      Triple.bind (flagged_handler E) fun _ => ih
    exact Keeps.bind Keeps.get fun _ => Keeps.bind (flagged_emit _ rfl) fun _ => Keeps.pure _

/-- What a completed download received: since the last accepted handshake, which announced `size` bytes,
every piece `0 ≤ i < ⌈size/16384⌉`; if there was no handshake at all, piece 0. -/
def AllReceived (tr : List PEvent) : Prop :=
  (∃ pre size post, tr = pre ++ .announced size :: post ∧ (∀ z, .announced z ∉ post) ∧
    ∀ i : Nat, (i : Int) < pieceCount size → .gotPiece i ∈ post) ∨
  ((∀ z, .announced z ∉ tr) ∧ .gotPiece 0 ∈ tr)

/-- flags of a suffix without handshakes -/
theorem foldl_flags (post : List PEvent) (r : List Bool) (h : ∀ z, .announced z ∉ post) :
    (post.foldl flagsStep r).length = r.length ∧
    ∀ i : Nat, (post.foldl flagsStep r)[i]? = some true → r[i]? = some true ∨ .gotPiece i ∈ post := by
  induction post generalizing r with
  | nil => exact ⟨rfl, fun i hi => .inl hi⟩
  | cons e post ih =>
    have h' : ∀ z, .announced z ∉ post := fun z hz => h z (List.mem_cons_of_mem _ hz)
    obtain ⟨h1, h2⟩ := ih (flagsStep r e) h'
    simp only [List.foldl_cons]
    cases e with
    | announced z => exact absurd List.mem_cons_self (h z)
    | gotPiece j =>
      refine ⟨by rw [h1]; simp [flagsStep], fun i hi => ?_⟩
      rcases h2 i hi with h3 | h3
      · by_cases hij : j = i
        · subst hij; exact .inr List.mem_cons_self
        · rw [flagsStep, List.getElem?_set_ne hij] at h3; exact .inl h3
      · exact .inr (List.mem_cons_of_mem _ h3)
    | _ =>
      refine ⟨h1, fun i hi => ?_⟩
      rcases h2 i hi with h3 | h3
      · exact .inl h3
      · exact .inr (List.mem_cons_of_mem _ h3)

/-- a list either has no handshake or splits at the last one -/
theorem last_announced (tr : List PEvent) :
    (∀ z, .announced z ∉ tr) ∨ ∃ pre size post, tr = pre ++ .announced size :: post ∧ ∀ z, .announced z ∉ post := by
  induction tr with
  | nil => left; simp
  | cons e tr ih =>
    rcases ih with h | ⟨pre, size, post, h1, h2⟩
    · cases e with
      | announced z => exact .inr ⟨[], z, tr, rfl, h⟩
      | _ => left; intro z hz; rcases List.mem_cons.1 hz with hz | hz
             · cases hz
             · exact h z hz
    · exact .inr ⟨e :: pre, size, post, by rw [h1]; rfl, h2⟩

theorem allReceived_of_flags (tr : List PEvent) (h : (flags tr).all id = true) : AllReceived tr := by
  have hall : ∀ (i : Nat) b, (flags tr)[i]? = some b → b = true := by
    intro i b hb
    exact List.all_eq_true.1 h b (List.mem_of_getElem? hb)
  rcases last_announced tr with hn | ⟨pre, size, post, h1, h2⟩
  · right
    refine ⟨hn, ?_⟩
    obtain ⟨hl, hg⟩ := foldl_flags tr [false] hn
    have : 0 < (flags tr).length := by unfold flags; rw [hl]; simp
    have hb := hall 0 _ (List.getElem?_eq_getElem this)
    rcases hg 0 (by have := List.getElem?_eq_getElem this; rw [hb] at this; exact this) with h3 | h3
    · simp at h3
    · exact h3
  · left
    refine ⟨pre, size, post, h1, h2, fun i hi => ?_⟩
    have hf : flags tr = post.foldl flagsStep (List.replicate (pieceCount size).toNat false) := by
      rw [h1]; simp [flags, List.foldl_append, flagsStep]
    obtain ⟨hl, hg⟩ := foldl_flags post (List.replicate (pieceCount size).toNat false) h2
    have hlt : i < (flags tr).length := by rw [hf, hl, List.length_replicate]; omega
    have hb := hall i _ (List.getElem?_eq_getElem hlt)
    rcases hg i (by have := List.getElem?_eq_getElem hlt; rw [hb, hf] at this; exact this) with h3 | h3
    · rw [List.getElem?_replicate] at h3; split at h3 <;> simp at h3
    · exact h3

/-- Data is returned only when every announced piece was received. -/
theorem C42_complete (E : PEnv) (sha1 : Bytes → Bytes) (fold : FoldTable) (fuel : Nat) (peerId infoHash : Bytes)
    (mem : Nat → Bytes) (pool : BPool) (d : Bytes) (err : Option Bytes) (s : PSt)
    (h : FetchMetaData E sha1 fold fuel peerId infoHash mem pool = .returned (some d) err s) : AllReceived s.trace := by
  have hmerge : ∀ n i r, Keeps (fun s => CompledMetaData s = true ∧ Flagged s) (mergeLoop E n i r) := by
    intro n
    induction n with
    | zero => intro i r; exact Keeps.pure _
    | succ n ih =>
      intro i r
      refine Keeps.bind Keeps.get fun s => ?_
      split
      · exact Keeps.panic _
      · exact ih _ _
      · next b _ => exact Keeps.bind (fun s hs => ⟨hs.1, flagged_loadSlice E b s hs.2⟩) fun d => ih _ _
  have key : Triple Flagged (fetchBody E sha1 fold fuel peerId infoHash)
      (fun r s => r.1 = none ∨ (flags s.trace).all id = true) (fun _ => True) := by
    unfold fetchBody
    refine Triple.bind (Q := fun _ => Flagged) (Keeps.ok ?_) fun _ => Triple.bind (Q := fun _ => Flagged) (Keeps.ok ?_) fun _ =>
      Triple.bind (flagged_loop E fuel) fun _ =>
      Triple.bind (Q := fun a s => Flagged s ∧ s.requested = a.requested) (Triple.get fun s hs => ⟨hs, rfl⟩) fun a => ?_
    · unfold handshakePeer
      refine Keeps.bind (Keeps.lift _) fun _ => Keeps.bind (flagged_connWrite E _) fun _ => Keeps.ite (Keeps.lift _) ?_
      refine Keeps.bind (flagged_connReadNew E _) fun r => ?_
      refine Keeps.ite (Keeps.lift _) (Keeps.bind (Keeps.lift _) fun _ => Keeps.ite (Keeps.lift _) ?_)
      exact Keeps.bind (Keeps.lift _) fun _ => Keeps.ite (Keeps.lift _) (Keeps.pure _)
    · exact Keeps.bind Keeps.get fun _ => Keeps.bind (Keeps.lift _) fun _ => Keeps.bind (flagged_connWrite E _) fun _ =>
        Keeps.ite (Keeps.lift _) (Keeps.pure _)
    · refine Triple.ite (fun _ => Triple.pure fun _ _ => .inl rfl) fun hc => ?_
      refine Triple.bind (Q := fun _ s => CompledMetaData s = true ∧ Flagged s) ?_ fun _ =>
        Triple.bind (Keeps.ok (hmerge _ _ _)) fun r => Triple.ite (fun _ => Triple.pure fun _ _ => .inl rfl) fun _ =>
          Triple.pure fun s hs => .inr ?_
      · refine Triple.weaken (I := fun s => CompledMetaData s = true ∧ Flagged s) (Q := fun _ s => CompledMetaData s = true ∧ Flagged s)
          (X := fun _ => True) ?_ ?_ (fun _ _ h => h) (fun _ h => h)
        · refine Triple.ite (fun _ _ _ => True.intro) fun _ => Triple.ite (fun _ _ _ => True.intro) fun _ => ?_
          refine Triple.bind (Q := fun _ s => CompledMetaData s = true ∧ Flagged s) (Triple.modify fun s hs => ⟨hs.1, ?_⟩) fun _ => ?_
          · show s.requested = flags (s.trace ++ [_])
            rw [flags_plain _ _ rfl]; exact hs.2
          · exact Triple.bind (Keeps.ok Keeps.get) fun _ => Triple.ite (fun _ _ _ => True.intro) fun _ => Triple.pure fun _ h => h
        · intro s hs
          refine ⟨?_, hs.1⟩
          simp only [CompledMetaData] at hc ⊢
          rw [hs.2]; simpa using hc
      · have := hs.1
        rw [CompledMetaData, hs.2] at this
        exact this
  have := key (NewPeerConn mem pool) rfl
  unfold FetchMetaData at h
  by_cases hd : E.dialFails = true
  · rw [if_pos hd] at h; cases h
  · rw [if_neg hd] at h
    cases hb : fetchBody E sha1 fold fuel peerId infoHash (NewPeerConn mem pool) with
    | ok r t =>
      rw [hb] at h this
      obtain ⟨r1, r2⟩ := r
      simp only [emitP, PM.modify_apply, FetchOut.returned.injEq] at h
      rw [← h.2.2]
      rcases this with h0 | h0
      · have h1 := h.1; rw [show r1 = none from h0] at h1; cases h1
      · refine allReceived_of_flags _ ?_
        show (flags (t.trace ++ [.close])).all id = true
        rw [flags_plain _ _ rfl]; exact h0
    | panic p t =>
      rw [hb] at h
      simp only [emitP, PM.modify_apply, FetchOut.returned.injEq] at h
      simp at h
    | fatal t => rw [hb] at h; cases h
    | diverge t => rw [hb] at h; cases h

end P2P

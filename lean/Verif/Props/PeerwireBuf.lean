import Verif.Props.Peerwire
/-! # Property theorems C57 (buffers of a download) and C58 (memory requested by a peer) -/
namespace P2P

/-! ## C57 -/

/-- the buffers a download holds after these events: taken and not given back -/
def heldP (tr : List PEvent) : List Nat :=
  tr.foldl (fun h e => match e with
    | .get b => b.arr :: h
    | .put b => h.erase b.arr
    | _ => h) []

/-- every buffer given back was held at that moment -/
def PutsHeld (tr : List PEvent) : Prop := ∀ pre b post, tr = pre ++ .put b :: post → b.arr ∈ heldP pre

theorem heldP_snoc (tr : List PEvent) (e : PEvent) :
    heldP (tr ++ [e]) = match e with
      | .get b => b.arr :: heldP tr
      | .put b => (heldP tr).erase b.arr
      | _ => heldP tr := by
  unfold heldP
  rw [List.foldl_append]
  rfl

theorem putsHeld_snoc {tr : List PEvent} {e : PEvent} (h : PutsHeld tr) (he : ∀ b, e = .put b → b.arr ∈ heldP tr) :
    PutsHeld (tr ++ [e]) := by
  intro pre b post heq
  rcases List.eq_nil_or_concat post with hp | ⟨p', x, hp⟩
  · subst hp
    obtain ⟨h1, h2⟩ := List.append_inj' heq rfl
    injection h2 with h2
    rw [← h1]
    exact he b h2
  · rw [List.concat_eq_append] at hp
    subst hp
    rw [show pre ++ PEvent.put b :: (p' ++ [x]) = (pre ++ PEvent.put b :: p') ++ [x] by simp] at heq
    obtain ⟨h1, _⟩ := List.append_inj' heq rfl
    exact h pre b p' h1

/-- the discipline so far, and (at least) the buffers `L` are held -/
def Disc (L : List Nat) (tr : List PEvent) : Prop := PutsHeld tr ∧ ∀ a, L.count a ≤ (heldP tr).count a

/-- not a pool operation -/
def Neutral (e : PEvent) : Prop := (∀ b, e ≠ .get b) ∧ (∀ b, e ≠ .put b)

theorem disc_neutral (L : List Nat) : TraceInv Neutral (Disc L) := by
  refine ⟨fun tr e h he => ⟨putsHeld_snoc h.1 fun b hb => absurd hb (he.2 b), fun a => ?_⟩⟩
  rw [heldP_snoc]
  cases e with
  | get b => exact absurd rfl (he.1 b)
  | put b => exact absurd rfl (he.2 b)
  | _ => exact h.2 a

theorem disc_get {L : List Nat} {tr : List PEvent} (b : Slice) (h : Disc L tr) : Disc (b.arr :: L) (tr ++ [.get b]) := by
  refine ⟨putsHeld_snoc h.1 (by simp), fun a => ?_⟩
  rw [heldP_snoc]
  have := h.2 a
  simp only [List.count_cons]
  omega

theorem disc_put {L : List Nat} {tr : List PEvent} (b : Slice) (h : Disc (b.arr :: L) tr) : Disc L (tr ++ [.put b]) := by
  have hm : b.arr ∈ heldP tr := by
    have := h.2 b.arr
    simp only [List.count_cons_self] at this
    exact List.count_pos_iff.1 (by omega)
  refine ⟨putsHeld_snoc h.1 fun b' hb => ?_, fun a => ?_⟩
  · injection hb with hb; rw [← hb]; exact hm
  · rw [heldP_snoc]
    have := h.2 a
    simp only [List.count_cons, List.count_erase] at this ⊢
    omega

theorem disc_weaken {L : List Nat} {tr : List PEvent} {x : Nat} (h : Disc (x :: L) tr) : Disc L tr :=
  ⟨h.1, fun a => by have := h.2 a; simp only [List.count_cons] at this; omega⟩

/-- the state satisfies the discipline and holds `L` -/
abbrev DS (L : List Nat) (s : PSt) : Prop := Disc L s.trace

theorem triple_poolGet (E : PEnv) (n : Nat) (L : List Nat) :
    Triple (DS L) (poolGet E n) (fun b => DS (b.arr :: L)) (DS L) := by
  refine Triple.bind (keeps_others E) fun _ => Triple.bind (Q := fun _ s => DS L s) (fun s hs => hs) fun s => ?_
  cases s.pool.GetBySize n with
  | ok r =>
    exact Triple.bind (Q := fun _ s => DS L s) (fun s hs => hs) fun _ =>
      Triple.bind (Q := fun _ s => DS (r.1.arr :: L) s) (fun s hs => disc_get _ hs) fun _ => Triple.pure fun _ h => h
  | err _ => exact fun s hs => hs
  | panic _ => exact fun s hs => hs
  | diverge => exact fun s hs => hs

theorem triple_poolPut (E : PEnv) (b : Slice) (L : List Nat) :
    Triple (DS (b.arr :: L)) (poolPut E b) (fun _ => DS L) (DS L) :=
  Triple.bind (Q := fun _ s => DS (b.arr :: L) s) (fun s hs => hs) fun _ =>
    Triple.bind (Q := fun _ s => DS (b.arr :: L) s) (fun s hs => hs) fun _ => fun s hs => disc_put _ hs

theorem neutral_keeps {α : Type} {m : PM α} {L : List Nat} (h : Keeps (DS L) m) : Triple (DS L) m (fun _ => DS L) (DS L) := h

/-- One message: whatever happens, every buffer given back was held; and if the message was handled completely and was
not a keep-alive, no buffer is lost. -/
theorem triple_handler (E : PEnv) (L : List Nat) : Triple (DS L) (readMetaDataHandler E) (fun _ => DS L) (DS L) := by
  have hN := fun L => disc_neutral L
  have hrd : Triple (DS L) (readBytesByPrefixLenMsg E)
      (fun r => DS (match r.2.1 with | some b => b.arr :: L | none => L)) (DS L) := by
    refine Triple.bind (triple_poolGet E _ L) fun b => ?_
    refine Triple.bind (Q := fun _ => DS (b.arr :: L)) ?_ fun r => ?_
    · exact Triple.weaken (keeps_connRead (hN _) E b (fun _ _ _ => ⟨by simp, by simp⟩)) (fun _ h => h) (fun _ _ h => h)
        (fun _ h => disc_weaken h)
    · refine Triple.ite (fun _ => Triple.pure fun _ h => disc_weaken h) fun _ => ?_
      unfold readAfterPrefix
      refine Triple.bind (Q := fun _ => DS (b.arr :: L)) ?_ fun pre => ?_
      · exact Triple.weaken (keeps_loadSlice (J := Disc (b.arr :: L)) E b fun _ h => (hN _).step _ _ h ⟨by simp, by simp⟩) (fun _ h => h) (fun _ _ h => h)
          (fun _ h => disc_weaken h)
      · refine Triple.ite (fun _ => Triple.panic fun _ h => disc_weaken h) fun _ => ?_
        refine Triple.ite (fun _ => Triple.pure fun _ h => disc_weaken h) fun _ => ?_
        refine Triple.bind (triple_poolPut E b L) fun _ => Triple.ite (fun _ => Triple.pure fun _ h => h) fun _ => ?_
        refine Triple.bind (triple_poolGet E _ L) fun buf => ?_
        refine Triple.bind (Q := fun _ => DS (buf.arr :: L)) ?_ fun r => ?_
        · exact Triple.weaken (keeps_connRead (hN _) E buf (fun _ _ _ => ⟨by simp, by simp⟩)) (fun _ h => h) (fun _ _ h => h)
            (fun _ h => disc_weaken h)
        · exact Triple.ite (fun _ => Triple.pure fun _ h => disc_weaken h) fun _ => Triple.pure fun _ h => h
  refine Triple.bind hrd fun r => ?_
  have hk : ∀ L, Keeps (DS L) (handleMsg E r.1 r.2.1 r.2.2) := fun L =>
    keeps_handleMsg (hN L) E (fun _ _ => ⟨by simp, by simp⟩) (fun _ => ⟨by simp, by simp⟩) (fun _ => ⟨by simp, by simp⟩)
      (fun _ => ⟨by simp, by simp⟩) ⟨by simp, by simp⟩ _ _ _
  cases hb : r.2.1 with
  | none =>
    rw [hb] at hk
    refine Triple.deferred (hk L) (fun _ => ?_) ?_ (fun _ h => h)
    · exact Triple.pure fun _ h => h
    · exact Triple.pure fun _ h => h
  | some b =>
    rw [hb] at hk
    refine Triple.deferred (hk (b.arr :: L)) (fun _ => ?_) ?_ (fun _ h => disc_weaken h)
    · exact Triple.ite (fun _ => triple_poolPut E b L) fun _ => Triple.pure fun _ h => disc_weaken h
    · exact Triple.ite (fun _ => triple_poolPut E b L) fun _ => Triple.pure fun _ h => disc_weaken h

/-- A download gives back only buffers it took and still holds – never a buffer twice, never somebody else's –
whatever the peer sends and whatever the others do. (This is the discipline under which `C36` shows that no two
users of the pool ever hold the same buffer.) -/
theorem C57_puts_own (E : PEnv) (sha1 : Bytes → Bytes) (fold : FoldTable) (fuel : Nat) (peerId infoHash : Bytes)
    (mem : Nat → Bytes) (pool : BPool) (ret err : Option Bytes) (s : PSt)
    (h : FetchMetaData E sha1 fold fuel peerId infoHash mem pool = .returned ret err s) :
    ∀ pre b post, s.trace = pre ++ .put b :: post → b.arr ∈ heldP pre := by
  have hN := disc_neutral []
  have hnr : ∀ n d e, Neutral (.read n d e) := fun _ _ _ => ⟨by simp, by simp⟩
  have hnw : ∀ d e, Neutral (.write d e) := fun _ _ => ⟨by simp, by simp⟩
  have hna : ∀ d, Neutral (.alloc d) := fun _ => ⟨by simp, by simp⟩
  have hl : ∀ n, Keeps (DS []) (readMetaDataLoop E n) := by
    intro n
    induction n with
    | zero => intro s hs; exact hs
    | succ n ih =>
      exact Keeps.bind Keeps.get fun s => Keeps.ite (Keeps.pure _) (Keeps.bind (keeps_expire hN E fun _ => ⟨by simp, by simp⟩) fun e =>
        Keeps.ite (Keeps.pure _) (Keeps.bind (triple_handler E []) fun _ => ih))
  have hb : Keeps (DS []) (fetchBody E sha1 fold fuel peerId infoHash) := by
    unfold fetchBody
    refine Keeps.bind ?_ fun _ => Keeps.bind ?_ fun _ => Keeps.bind (hl _) fun _ => Keeps.bind Keeps.get fun s => ?_
    · unfold handshakePeer
      refine Keeps.bind (Keeps.lift _) fun _ => Keeps.bind (keeps_connWrite hN E _ hnw) fun _ => Keeps.ite (Keeps.lift _) ?_
      refine Keeps.bind (keeps_connReadNew hN E _ hnr) fun r => ?_
      refine Keeps.ite (Keeps.lift _) (Keeps.bind (Keeps.lift _) fun _ => Keeps.ite (Keeps.lift _) ?_)
      exact Keeps.bind (Keeps.lift _) fun _ => Keeps.ite (Keeps.lift _) (Keeps.pure _)
    · exact Keeps.bind Keeps.get fun _ => Keeps.bind (Keeps.lift _) fun _ => Keeps.bind (keeps_connWrite hN E _ hnw) fun _ =>
        Keeps.ite (Keeps.lift _) (Keeps.pure _)
    · refine Keeps.ite (Keeps.pure _) (Keeps.bind (keeps_makeSized hN E _ _ hna) fun _ =>
        Keeps.bind (keeps_mergeLoop (J := Disc []) E (fun _ h => hN.step _ _ h ⟨by simp, by simp⟩) _ _ _) fun r => ?_)
      exact Keeps.ite (Keeps.pure _) (Keeps.pure _)
  have h0 : DS [] (NewPeerConn mem pool) := ⟨fun pre b post h => by simp [NewPeerConn] at h, fun a => by simp⟩
  have key := hb _ h0
  suffices hp : PutsHeld s.trace from hp
  have hcl : ∀ tr, Disc [] tr → PutsHeld (tr ++ [.close]) := fun tr h => putsHeld_snoc h.1 (by simp)
  unfold FetchMetaData at h
  by_cases hd : E.dialFails = true
  · rw [if_pos hd] at h; cases h
  · rw [if_neg hd] at h
    cases hf : fetchBody E sha1 fold fuel peerId infoHash (NewPeerConn mem pool) with
    | ok r t =>
      rw [hf] at h key
      obtain ⟨r1, r2⟩ := r
      simp only [emitP, PM.modify_apply, FetchOut.returned.injEq] at h
      rw [← h.2.2]; exact hcl _ key
    | panic p t =>
      rw [hf] at h key
      simp only [emitP, PM.modify_apply, FetchOut.returned.injEq] at h
      rw [← h.2.2]; exact hcl _ key
    | fatal t => rw [hf] at h; cases h
    | diverge t => rw [hf] at h; cases h

/-- exactly these buffers are held and this many reads were made -/
def HR (h : List Nat) (k : Nat) (tr : List PEvent) : Prop := heldP tr = h ∧ reads tr = k

theorem hr_neutral (h : List Nat) (k : Nat) : TraceInv (fun e => Neutral e ∧ ∀ n d f, e ≠ .read n d f) (HR h k) := by
  refine ⟨fun tr e hh he => ⟨?_, ?_⟩⟩
  · rw [heldP_snoc]
    cases e with
    | get b => exact absurd rfl (he.1.1 b)
    | put b => exact absurd rfl (he.1.2 b)
    | _ => exact hh.1
  · unfold reads
    rw [List.countP_append]
    cases e with
    | read n d f => exact absurd rfl (he.2 n d f)
    | _ => exact hh.2

theorem triple_poolGet_HR (E : PEnv) (n : Nat) (h : List Nat) (k : Nat) :
    Triple (fun s => HR h k s.trace) (poolGet E n) (fun b s => HR (b.arr :: h) k s.trace ∧ .get b ∈ s.trace) (fun _ => True) := by
  refine Triple.bind (Q := fun _ s => HR h k s.trace) (fun s hs => hs) fun _ =>
    Triple.bind (Q := fun _ s => HR h k s.trace) (fun s hs => hs) fun s => ?_
  cases s.pool.GetBySize n with
  | ok r =>
    refine Triple.bind (Q := fun _ s => HR h k s.trace) (fun s hs => hs) fun _ =>
      Triple.bind (Q := fun _ s => HR (r.1.arr :: h) k s.trace ∧ .get r.1 ∈ s.trace) (fun s hs => ?_) fun _ => Triple.pure fun _ h => h
    refine ⟨⟨?_, ?_⟩, by simp⟩
    · simp only [heldP_snoc, hs.1]
    · have := hs.2
      unfold reads at *
      simp [List.countP_append, this]
  | err _ => exact fun s hs => True.intro
  | panic _ => exact fun s hs => True.intro
  | diverge => exact fun s hs => True.intro

theorem triple_connRead_HR (E : PEnv) (b : Slice) (h : List Nat) (k : Nat) (e : PEvent) :
    Triple (fun s => HR h k s.trace ∧ e ∈ s.trace) (connRead E b) (fun _ s => HR h (k + 1) s.trace ∧ e ∈ s.trace) (fun _ => True) := by
  intro s hs
  simp only [connRead, PM.bind_apply, others, PM.modify_apply, PM.get_apply, emitP, PM.pure_apply]
  refine ⟨⟨?_, ?_⟩, ?_⟩
  · simp only [heldP_snoc, hs.1.1]
  · have := hs.1.2
    unfold reads at *
    simp [List.countP_append, this]
  · exact List.mem_append_left _ hs.2

theorem triple_poolPut_HR (E : PEnv) (b : Slice) (h : List Nat) (k : Nat) :
    Triple (fun s => HR (b.arr :: h) k s.trace) (poolPut E b) (fun _ s => HR h k s.trace) (fun _ => True) := by
  intro s hs
  simp only [poolPut, PM.bind_apply, others, PM.modify_apply, emitP]
  refine ⟨?_, ?_⟩
  · simp only [heldP_snoc, hs.1, List.erase_cons_head]
  · have := hs.2
    unfold reads at *
    simp [List.countP_append, this]

/-- A message that is handled without a panic gives back all buffers it took – except a keep-alive (one read only), which
loses the 4-byte prefix buffer. (`cap = 0` never happens: all buffers have the requested size, `C35`.) -/
theorem C57_leaks_only_keepalive (E : PEnv) (s t : PSt) (h : readMetaDataHandler E s = .ok () t) :
    (heldP t.trace = heldP s.trace ∧ reads t.trace = reads s.trace + 2) ∨
    (∃ b, heldP t.trace = b :: heldP s.trace ∧ reads t.trace = reads s.trace + 1) ∨
    (∃ b, .get b ∈ t.trace ∧ b.cap = 0) := by
  generalize hh : heldP s.trace = h0
  generalize hk : reads s.trace = k
  have hrd : Triple (fun s => HR h0 k s.trace) (readBytesByPrefixLenMsg E)
      (fun r s => r = (false, none, true) ∨ (r = (true, none, false) ∧ ∃ b, HR (b :: h0) (k + 1) s.trace) ∨
        ∃ b n, r = (false, some { b with len := n }, false) ∧ HR (b.arr :: h0) (k + 2) s.trace ∧ .get b ∈ s.trace) (fun _ => True) := by
    refine Triple.bind (triple_poolGet_HR E _ h0 k) fun b => Triple.bind (triple_connRead_HR E b _ _ _) fun r => ?_
    refine Triple.ite (fun _ => Triple.pure fun _ _ => .inl rfl) fun _ => ?_
    unfold readAfterPrefix
    have hl := keeps_loadSlice (J := HR (b.arr :: h0) (k + 1)) E b fun _ h => (hr_neutral _ _).step _ _ h ⟨⟨by simp, by simp⟩, by simp⟩
    refine Triple.bind (Q := fun _ s => HR (b.arr :: h0) (k + 1) s.trace)
      (Triple.weaken hl (fun _ h => h.1) (fun _ _ h => h) (fun _ _ => True.intro)) fun pre => ?_
    refine Triple.ite (fun _ => Triple.panic fun _ _ => True.intro) fun _ => Triple.ite (fun _ => ?_) fun _ => ?_
    · exact Triple.pure fun s hs => .inr (.inl ⟨rfl, b.arr, hs⟩)
    · refine Triple.bind (triple_poolPut_HR E b h0 (k + 1)) fun _ => Triple.ite (fun _ => Triple.pure fun _ _ => .inl rfl) fun _ => ?_
      refine Triple.bind (triple_poolGet_HR E _ h0 (k + 1)) fun buf => Triple.bind (triple_connRead_HR E buf _ _ _) fun r => ?_
      exact Triple.ite (fun _ => Triple.pure fun _ _ => .inl rfl) fun _ => Triple.pure fun s hs => .inr (.inr ⟨buf, _, rfl, hs⟩)
  have key : Triple (fun s => HR h0 k s.trace) (readMetaDataHandler E)
      (fun _ t => HR h0 (k + 2) t.trace ∨ (∃ b, HR (b :: h0) (k + 1) t.trace) ∨ ∃ b, .get b ∈ t.trace ∧ b.cap = 0) (fun _ => True) := by
    refine Triple.bind hrd fun r => ?_
    intro s hs
    rcases hs with hr | ⟨hr, b, hb⟩ | ⟨b, n, hr, hb, hm⟩
    · subst hr
      exact True.intro
    · subst hr
      simp only [handleMsg, PM.deferred, if_true, PM.pure_apply, putBack]
      exact .inr (.inl ⟨b, hb⟩)
    · subst hr
      have hJ : TraceInv (fun e => Neutral e ∧ ∀ n d f, e ≠ .read n d f) (fun tr => HR (b.arr :: h0) (k + 2) tr ∧ .get b ∈ tr) :=
        ⟨fun tr e hh he => ⟨(hr_neutral _ _).step tr e hh.1 he, List.mem_append_left _ hh.2⟩⟩
      have hk := keeps_handleMsg hJ E (fun _ _ => ⟨⟨by simp, by simp⟩, by simp⟩) (fun _ => ⟨⟨by simp, by simp⟩, by simp⟩)
        (fun _ => ⟨⟨by simp, by simp⟩, by simp⟩) (fun _ => ⟨⟨by simp, by simp⟩, by simp⟩) ⟨⟨by simp, by simp⟩, by simp⟩ false (some { b with len := n }) false
      refine (Triple.deferred (Y := fun _ => True) hk (fun _ => ?_) (Triple.trivial _) (fun _ _ => True.intro)) s ⟨hb, hm⟩
      refine Triple.ite (fun _ => ?_) fun hc => Triple.pure fun _ h => .inr (.inr ⟨b, h.2, by simp at hc; exact hc⟩)
      exact Triple.weaken (triple_poolPut_HR E { b with len := n } h0 (k + 2)) (fun _ h => h.1) (fun _ _ h => .inl h) (fun _ h => h)
  have := key s ⟨hh, hk⟩
  rw [h] at this
  exact this

/-- C57: a `Read` changes nothing outside the slice it is given: no other buffer, and no byte before or behind the slice. -/
theorem C57_read_within (E : PEnv) (h1 : ∀ tr x, E.interfere tr x = x) (s : PSt) (b : Slice) (hfit : b.off + b.len ≤ (s.mem b.arr).length) :
    ∃ r t, connRead E b s = .ok r t ∧ (∀ a, a ≠ b.arr → t.mem a = s.mem a) ∧
      ∀ i : Nat, i < b.off ∨ b.off + b.len ≤ i → (t.mem b.arr)[i]? = (s.mem b.arr)[i]? := by
  simp only [connRead, PM.bind_apply, others, PM.modify_apply, PM.get_apply, emitP, PM.pure_apply, h1]
  refine ⟨_, _, rfl, fun a ha => by simp [writeSlice, upd, ha], fun i hi => ?_⟩
  simp only [writeSlice, upd_same]
  generalize hd : ((E.read s.trace b.len).1.take b.len) = d
  have hl : d.length ≤ b.len := by rw [← hd, List.length_take]; omega
  rcases hi with hi | hi
  · rw [List.append_assoc, List.getElem?_append_left (by simp; omega), List.getElem?_take_of_lt hi]
  · rw [List.append_assoc, List.getElem?_append_right (by simp; omega), List.getElem?_append_right (by simp; omega), List.getElem?_drop]
    congr 1
    simp
    omega

end P2P

import Verif.Props.PeerwireAmong3
/-! # C110: a download whose receive buffers are left alone

The pieces a download has received stay in buffers it has given back. Here: if the others do not write into those buffers, and the download itself
does not get one of them a second time, then what is checked is what the peer sent – with any number of pieces. -/
namespace P2P

/-- what is known from a trace: the buffer taken last, and the buffers in which pieces were received -/
def piecesSeen (tr : List PEvent) : Nat × List Nat :=
  tr.foldl (fun p e => match e with
    | .get b => (b.arr, p.2)
    | .gotPiece _ => (p.1, p.1 :: p.2)
    | _ => p) (0, [])

/-- the buffer taken last -/
def lastTaken (tr : List PEvent) : Nat := (piecesSeen tr).1

/-- the buffers in which pieces were received: whenever a piece arrives, the buffer taken last -/
def pieceBuffers (tr : List PEvent) : List Nat := (piecesSeen tr).2

/-- No buffer was taken again after a piece had been received in it. -/
def NotRetaken (tr : List PEvent) : Prop := ∀ pre b post, tr = pre ++ .get b :: post → b.arr ∉ pieceBuffers pre

/-- The others leave the buffers alone in which this download received pieces. -/
def LeaveAlone (E : PEnv) : Prop := ∀ tr x, ∀ a ∈ pieceBuffers tr, (E.interfere tr x).1 a = x.1 a

theorem piecesSeen_snoc (tr : List PEvent) (e : PEvent) : piecesSeen (tr ++ [e]) = (match e with
    | .get b => (b.arr, (piecesSeen tr).2)
    | .gotPiece _ => ((piecesSeen tr).1, (piecesSeen tr).1 :: (piecesSeen tr).2)
    | _ => piecesSeen tr) := by
  unfold piecesSeen
  rw [List.foldl_append]
  rfl

theorem pieceBuffers_snoc (tr : List PEvent) (e : PEvent) : ∀ a ∈ pieceBuffers tr, a ∈ pieceBuffers (tr ++ [e]) := by
  intro a ha
  unfold pieceBuffers at *
  rw [piecesSeen_snoc]
  cases e with
  | gotPiece _ => exact List.mem_cons_of_mem _ ha
  | _ => exact ha

theorem pieceBuffers_append (tr more : List PEvent) : ∀ a ∈ pieceBuffers tr, a ∈ pieceBuffers (tr ++ more) := by
  induction more generalizing tr with
  | nil => intro a ha; rw [List.append_nil]; exact ha
  | cons e r ih =>
    intro a ha
    rw [show tr ++ e :: r = (tr ++ [e]) ++ r by simp]
    exact ih _ a (pieceBuffers_snoc tr e a ha)

theorem NotRetaken.prefix {tr more : List PEvent} (h : NotRetaken (tr ++ more)) : NotRetaken tr :=
  fun pre b post hp => h pre b (post ++ more) (by rw [hp]; simp)

/-- neither a buffer is taken nor a piece arrives -/
def QuietEvent (e : PEvent) : Prop := (∀ b, e ≠ .get b) ∧ ∀ n, e ≠ .gotPiece n

theorem piecesSeen_quiet (tr : List PEvent) {e : PEvent} (he : QuietEvent e) : piecesSeen (tr ++ [e]) = piecesSeen tr := by
  rw [piecesSeen_snoc]
  cases e with
  | get b => exact absurd rfl (he.1 b)
  | gotPiece n => exact absurd rfl (he.2 n)
  | _ => rfl

/-- every piece kept is in a buffer in which pieces were received -/
def SlicesIn (s : PSt) : Prop := ∀ (i : Nat) sl, s.metaData[i]? = some (some sl) → sl.arr ∈ pieceBuffers s.trace

/-- moreover the buffer taken last is `a` -/
def SliceAt (a : Option Nat) (s : PSt) : Prop := SlicesIn s ∧ ∀ x, a = some x → lastTaken s.trace = x

theorem SliceAt.weaken {a : Option Nat} {s : PSt} (h : SliceAt a s) : SliceAt none s := ⟨h.1, fun _ h => nomatch h⟩

section
variable {E : PEnv} (a : Option Nat)

theorem at_emit {e : PEvent} (he : QuietEvent e) : Keeps (SliceAt a) (emitP e) := by
  intro s hs
  show SliceAt a { s with trace := s.trace ++ [e] }
  unfold SliceAt SlicesIn lastTaken pieceBuffers
  simp only [piecesSeen_quiet s.trace he]
  exact hs

theorem at_others : Keeps (SliceAt a) (others E) := fun _ hs => hs

theorem at_load (b : Slice) : Keeps (SliceAt a) (loadSlice E b) :=
  Keeps.bind (at_others a) fun _ => Keeps.bind Keeps.get fun _ => Keeps.bind (at_emit a ⟨by simp, by simp⟩) fun _ => Keeps.pure _

theorem at_write (d : Bytes) : Keeps (SliceAt a) (connWrite E d) :=
  Keeps.bind (at_others a) fun _ => Keeps.bind Keeps.get fun _ => Keeps.bind (at_emit a ⟨by simp, by simp⟩) fun _ => Keeps.pure _

theorem at_read (b : Slice) : Keeps (SliceAt a) (connRead E b) :=
  Keeps.bind (at_others a) fun _ => Keeps.bind Keeps.get fun _ => Keeps.bind (fun _ hs => hs) fun _ => Keeps.bind (at_emit a ⟨by simp, by simp⟩) fun _ => Keeps.pure _

theorem at_put (b : Slice) : Keeps (SliceAt a) (poolPut E b) :=
  Keeps.bind (at_others a) fun _ => Keeps.bind (fun _ hs => hs) fun _ => at_emit a ⟨by simp, by simp⟩

theorem at_make (n : Int) (w : Nat) : Keeps (SliceAt a) (makeSized E n w) :=
  Keeps.ite (Keeps.panic _) (Keeps.ite (Keeps.panic _) (Keeps.bind (at_emit a ⟨by simp, by simp⟩) fun _ =>
    Keeps.bind Keeps.get fun _ => Keeps.ite (fun _ hs => hs) (Keeps.pure _)))

theorem at_requestLoop : ∀ n i, Keeps (SliceAt a) (requestLoop E n i) := by
  intro n
  induction n with
  | zero => intro i; exact Keeps.pure _
  | succ n ih =>
    intro i
    exact Keeps.bind Keeps.get fun _ => Keeps.bind (Keeps.lift _) fun _ => Keeps.bind (at_write a _) fun _ => Keeps.ite (Keeps.lift _) (ih _)

theorem at_get (n : Nat) : Triple (SliceAt none) (poolGet E n) (fun b => SliceAt (some b.arr)) (SliceAt none) := by
  refine Triple.bind (at_others none) fun _ => ?_
  intro s hs
  simp only [PM.bind_apply, PM.get_apply]
  cases hg : s.pool.GetBySize n with
  | err _ => exact hs
  | panic _ => exact hs
  | diverge => exact hs
  | ok r =>
    obtain ⟨b, p⟩ := r
    simp only [PM.bind_apply, PM.modify_apply, emitP, PM.pure_apply]
    unfold SliceAt SlicesIn lastTaken pieceBuffers
    simp only [piecesSeen_snoc]
    exact ⟨hs.1, fun x hx => Option.some.inj hx⟩

theorem at_extended (rb : Slice) (d : Bytes) : Triple (SliceAt (some rb.arr)) (handleExtendedMsg E rb d) (fun _ => SliceAt none) (fun _ => True) := by
  have hk : ∀ {α : Type} {m : PM α}, Keeps (SliceAt (some rb.arr)) m → Triple (SliceAt (some rb.arr)) m (fun _ => SliceAt (some rb.arr)) (fun _ => True) :=
    fun h => Triple.weaken h (fun _ h => h) (fun _ _ h => h) (fun _ _ => trivial)
  unfold handleExtendedMsg
  cases d[1]? with
  | none => exact Triple.panic fun _ _ => trivial
  | some c =>
    refine Triple.ite (fun _ => ?_) fun _ => Triple.ite (fun _ => ?_) fun _ => Triple.pure fun _ h => h.weaken
    · refine Triple.bind (hk (Keeps.lift _)) fun _ => Triple.ite (fun _ => Triple.weaken (hk (Keeps.lift _)) (fun _ h => h) (fun _ _ h => h.weaken) fun _ h => h) fun _ => ?_
      refine Triple.bind (hk (Keeps.lift _)) fun _ => Triple.bind (hk fun _ hs => hs) fun _ => ?_
      refine Triple.bind (hk (at_make _ _ _)) fun _ => Triple.bind (hk fun s hs => ⟨fun i sl hi => ?_, hs.2⟩) fun _ => ?_
      · have := List.mem_of_getElem? hi
        simp at this
      refine Triple.bind (hk (at_make _ _ _)) fun _ => Triple.bind (hk fun _ hs => hs) fun _ => ?_
      exact Triple.bind (hk (at_emit _ ⟨by simp, by simp⟩)) fun _ => Triple.weaken (hk (at_requestLoop _ _ _)) (fun _ h => h) (fun _ _ h => h.weaken) fun _ h => h
    · refine Triple.bind (hk (Keeps.lift _)) fun r => Triple.ite (fun _ => Triple.pure fun _ h => h.weaken) fun _ => ?_
      intro s hs
      simp only [PM.bind_apply, PM.get_apply]
      generalize ho : Option.map (fun n => ({ rb with off := rb.off + n, len := rb.len - n, cap := rb.cap - n } : Slice)) r.dataOff = o
      have ho' : ∀ sl, o = some sl → sl.arr = rb.arr := by
        intro sl h
        rw [h] at ho
        obtain ⟨n, -, hn⟩ := Option.map_eq_some_iff.1 ho
        rw [← hn]
      cases hmd : setAt s.metaData r.pieceNum o with
      | none => trivial
      | some md =>
        simp only [PM.bind_apply, PM.modify_apply]
        cases hrq : setAt s.requested r.pieceNum true with
        | none => trivial
        | some rq =>
          simp only [PM.bind_apply, PM.modify_apply, emitP]
          refine ⟨fun i sl hi => ?_, fun _ h => nomatch h⟩
          unfold pieceBuffers
          simp only [piecesSeen_snoc]
          have hl : (piecesSeen s.trace).1 = rb.arr := hs.2 _ rfl
          by_cases hsl : sl.arr = rb.arr
          · rw [hl, hsl]; simp
          · refine List.mem_cons_of_mem _ (hs.1 i sl ?_)
            simp only at hi
            unfold setAt at hmd
            split at hmd
            · simp only [Option.some.injEq] at hmd
              subst hmd
              rw [List.getElem?_set] at hi
              split at hi
              · split at hi
                · rw [Option.some.injEq] at hi
                  exact absurd (ho' sl hi) hsl
                · cases hi
              · exact hi
            · cases hmd

theorem at_handler : Triple (SliceAt none) (readMetaDataHandler E) (fun _ => SliceAt none) (fun _ => True) := by
  have hw : ∀ {α : Type} {I : PSt → Prop} {m : PM α} {Q : α → PSt → Prop} {X : PSt → Prop}, Triple I m Q X → Triple I m Q (fun _ => True) :=
    fun h => Triple.weaken h (fun _ h => h) (fun _ _ h => h) (fun _ _ => trivial)
  have hrd : Triple (SliceAt none) (readBytesByPrefixLenMsg E) (fun r => SliceAt (r.2.1.map Slice.arr)) (fun _ => True) := by
    refine Triple.bind (hw (at_get _)) fun b => Triple.bind (hw (at_read _ b)) fun r => ?_
    refine Triple.ite (fun _ => Triple.pure fun _ h => h.weaken) fun _ => ?_
    unfold readAfterPrefix
    refine Triple.bind (hw (at_load _ b)) fun pre => ?_
    refine Triple.ite (fun _ => Triple.panic fun _ _ => trivial) fun _ => Triple.ite (fun _ => Triple.pure fun _ h => h.weaken) fun _ => ?_
    refine Triple.bind (hw (at_put _ b)) fun _ => Triple.ite (fun _ => Triple.pure fun _ h => h.weaken) fun _ => ?_
    refine Triple.bind (Triple.weaken (hw (at_get _)) (fun _ h => h.weaken) (fun _ _ h => h) fun _ h => h) fun buf => Triple.bind (hw (at_read _ buf)) fun r => ?_
    exact Triple.ite (fun _ => Triple.pure fun _ h => h.weaken) fun _ => Triple.pure fun s h => h
  have hput : ∀ rb, Triple (SliceAt none) (putBack E rb) (fun _ => SliceAt none) (fun _ => True) := by
    intro rb
    cases rb with
    | none => exact Triple.pure fun _ h => h
    | some b => exact Triple.ite (fun _ => hw (at_put _ b)) fun _ => Triple.pure fun _ h => h
  have htriv : ∀ {α : Type} (m : PM α), Triple (fun _ => True) m (fun _ _ => True) (fun _ => True) := by
    intro α m s _
    cases m s <;> trivial
  refine Triple.bind hrd fun r => Triple.deferred (Q := fun _ => SliceAt none) (X := fun _ => True) ?_ (fun _ => hput _) (htriv _) fun _ h => h
  refine Triple.ite (fun _ => Triple.pure fun _ h => h.weaken) fun _ => Triple.ite (fun _ => Triple.lift (fun _ _ _ h => h.weaken) fun _ _ => trivial) fun _ => ?_
  cases hb : r.2.1 with
  | none => exact Triple.panic fun _ _ => trivial
  | some rb =>
    refine Triple.bind (hw (at_load _ rb)) fun d => Triple.bind (hw (Keeps.lift _)) fun t => Triple.ite (fun _ => at_extended rb d) fun _ => Triple.pure fun _ h => h.weaken
end

/-- Since the trace was `T0` and the memory `M0`: the contents of the piece buffers of that time have not changed – unless one was taken again. -/
structure Snap (M0 : Nat → Bytes) (T0 : List PEvent) (L : List Slice) (s : PSt) : Prop where
  own : Own (heldP s.trace) (s.mem, s.pool)
  ext : ∃ more, s.trace = T0 ++ more
  keep : NotRetaken s.trace → ∀ a ∈ pieceBuffers T0, s.mem a = M0 a
  has : ∀ b ∈ L, b.arr ∈ heldP s.trace ∧ b.len ≤ b.cap ∧ FullBuf s.mem b ∧ (NotRetaken s.trace → b.arr ∉ pieceBuffers T0)

theorem Snap.weaken {M0 : Nat → Bytes} {T0 : List PEvent} {L : List Slice} {s : PSt} (h : Snap M0 T0 L s) : Snap M0 T0 [] s :=
  ⟨h.own, h.ext, h.keep, by simp⟩

section
variable {E : PEnv} {M0 : Nat → Bytes} {T0 : List PEvent} (hE : Among E) (hA : LeaveAlone E)
include hE hA

theorem snap_others (L : List Slice) : Keeps (Snap M0 T0 L) (others E) := by
  intro s hs
  show Snap M0 T0 L _
  have h1 := hE.others s.trace (s.mem, s.pool) hs.own
  obtain ⟨k1, k2, -, -⟩ := h1.keeps hs.own
  refine ⟨k1, hs.ext, fun hn a ha => ?_, fun b hb => ?_⟩
  · obtain ⟨more, hm⟩ := hs.ext
    have := hA s.trace (s.mem, s.pool) a (by rw [hm]; exact pieceBuffers_append _ _ a ha)
    exact this.trans (hs.keep hn a ha)
  · obtain ⟨g1, g2, ⟨g3, g4⟩, g5⟩ := hs.has b hb
    refine ⟨g1, g2, ⟨g3, ?_⟩, g5⟩
    simp only
    rw [k2 b.arr g1]
    exact g4

theorem snap_emit {L : List Slice} {e : PEvent} (he : Neutral e) (s : PSt) (hs : Snap M0 T0 L s) : Snap M0 T0 L { s with trace := s.trace ++ [e] } := by
  have hh : heldP (s.trace ++ [e]) = heldP s.trace := by
    rw [heldP_snoc]
    cases e with
    | get b => exact absurd rfl (he.1 b)
    | put b => exact absurd rfl (he.2 b)
    | _ => rfl
  obtain ⟨more, hm⟩ := hs.ext
  refine ⟨by simp only [hh]; exact hs.own, ⟨more ++ [e], by simp only [hm, List.append_assoc]⟩, fun hn => hs.keep hn.prefix, fun b hb => ?_⟩
  obtain ⟨g1, g2, g3, g4⟩ := hs.has b hb
  exact ⟨by simp only [hh]; exact g1, g2, g3, fun hn => g4 hn.prefix⟩

theorem snap_inv (L : List Slice) : StateInv E (Snap M0 T0 L) :=
  ⟨snap_others hE hA L, fun _ he s hs => snap_emit hE hA he s hs, fun _ _ _ _ hs => ⟨hs.own, hs.ext, hs.keep, hs.has⟩⟩

theorem snap_get (n : Nat) : Triple (Snap M0 T0 []) (poolGet E n) (fun b => Snap M0 T0 [b]) (Snap M0 T0 []) := by
  refine Triple.bind (snap_others hE hA []) fun _ => ?_
  intro s hs
  simp only [PM.bind_apply, PM.get_apply]
  cases hg : s.pool.GetBySize n with
  | err _ => exact hs
  | panic _ => exact hs
  | diverge => exact hs
  | ok r =>
    obtain ⟨b, p⟩ := r
    simp only [PM.bind_apply, PM.modify_apply, emitP, PM.pure_apply]
    obtain ⟨g1, g2, g3, g4, g5, g6⟩ := own_get hs.own hg
    have hh : heldP (s.trace ++ [.get b]) = b.arr :: heldP s.trace := heldP_snoc _ _
    obtain ⟨more, hm⟩ := hs.ext
    have hnew : NotRetaken (s.trace ++ [.get b]) → b.arr ∉ pieceBuffers T0 := fun hn hmem =>
      hn s.trace b [] rfl (by rw [hm]; exact pieceBuffers_append _ _ _ hmem)
    refine ⟨?_, ⟨more ++ [.get b], by simp only [hm, List.append_assoc]⟩, fun hn a ha => ?_, fun c hc => ?_⟩
    · simp only [hh]; exact g1
    · rw [← hs.keep hn.prefix a ha]
      have hne : a ≠ b.arr := fun h => hnew hn (h ▸ ha)
      simp only
      split
      · rfl
      · exact upd_ne _ _ hne
    · simp only [List.mem_singleton] at hc
      subst hc
      exact ⟨by simp only [hh, List.mem_cons, true_or], by omega, g4, hnew⟩

theorem snap_put (b : Slice) : Triple (Snap M0 T0 [b]) (poolPut E b) (fun _ => Snap M0 T0 []) (Snap M0 T0 []) := by
  refine Triple.bind (Q := fun _ => Snap M0 T0 [b]) (Triple.weaken (snap_others hE hA [b]) (fun _ h => h) (fun _ _ h => h) fun _ h => h.weaken) fun _ => ?_
  intro s hs
  simp only [PM.bind_apply, PM.modify_apply, emitP]
  obtain ⟨g1, -, g3, -⟩ := hs.has b (by simp)
  have hown := hs.own.perm (List.perm_cons_erase g1)
  obtain ⟨more, hm⟩ := hs.ext
  refine ⟨?_, ⟨more ++ [.put b], by simp only [hm, List.append_assoc]⟩, fun hn => hs.keep hn.prefix, by simp⟩
  simp only [heldP_snoc]
  exact (own_put hown g3).1

theorem snap_read (b : Slice) : Triple (Snap M0 T0 [b]) (connRead E b) (fun r s => Snap M0 T0 [b] s ∧ r.1 ≤ b.cap) (Snap M0 T0 []) := by
  refine Triple.bind (Q := fun _ => Snap M0 T0 [b]) (Triple.weaken (snap_others hE hA [b]) (fun _ h => h) (fun _ _ h => h) fun _ h => h.weaken) fun _ => ?_
  intro s hs
  simp only [PM.bind_apply, PM.get_apply, PM.modify_apply, emitP, PM.pure_apply]
  obtain ⟨g1, g2, g3, g4⟩ := hs.has b (by simp)
  have hd : ((E.read s.trace b.len).1.take b.len).length ≤ b.len := by rw [List.length_take]; omega
  generalize (E.read s.trace b.len).1.take b.len = d at hd
  have hmem : writeSlice s.mem b d = upd s.mem b.arr (d ++ (s.mem b.arr).drop d.length) := by
    simp [writeSlice, g3.1]
  have hl : (d ++ (s.mem b.arr).drop d.length).length = (s.mem b.arr).length := by
    have := g3.2
    simp; omega
  have hnd := hs.own.nodup
  rw [List.nodup_append] at hnd
  have hnp : b.arr ∉ pooled s.pool := fun hp => hnd.2.2 _ g1 _ hp rfl
  refine ⟨?_, by omega⟩
  rw [hmem]
  refine snap_emit hE hA ⟨by simp, by simp⟩ { s with mem := upd s.mem b.arr (d ++ (s.mem b.arr).drop d.length) } ?_
  refine ⟨own_write hs.own hnp, hs.ext, fun hn a ha => ?_, fun c hc => ?_⟩
  · have hne : a ≠ b.arr := fun h => g4 hn (h ▸ ha)
    simp only
    rw [upd_ne _ _ hne]
    exact hs.keep hn a ha
  · simp only [List.mem_singleton] at hc
    subst hc
    refine ⟨g1, g2, ⟨g3.1, ?_⟩, g4⟩
    simp only [upd_same, hl]
    exact g3.2

theorem snap_handler : Keeps (Snap M0 T0 []) (readMetaDataHandler E) := by
  have hrd : Triple (Snap M0 T0 []) (readBytesByPrefixLenMsg E)
      (fun r => Snap M0 T0 (match r.2.1 with | some b => [b] | none => [])) (Snap M0 T0 []) := by
    refine Triple.bind (snap_get hE hA _) fun b => Triple.bind (snap_read hE hA b) fun r => ?_
    refine Triple.ite (fun _ => Triple.pure fun _ h => h.1.weaken) fun _ => ?_
    unfold readAfterPrefix
    refine Triple.bind (Q := fun _ => Snap M0 T0 [b]) (Triple.weaken (inv_load (snap_inv hE hA [b]) b) (fun _ h => h.1) (fun _ _ h => h) fun _ h => h.weaken) fun pre => ?_
    refine Triple.ite (fun _ => Triple.panic fun _ h => h.weaken) fun _ => Triple.ite (fun _ => Triple.pure fun _ h => h.weaken) fun _ => ?_
    refine Triple.bind (snap_put hE hA b) fun _ => Triple.ite (fun _ => Triple.pure fun _ h => h) fun _ => ?_
    refine Triple.bind (snap_get hE hA _) fun buf => Triple.bind (snap_read hE hA buf) fun r => ?_
    refine Triple.ite (fun _ => Triple.pure fun _ h => h.1.weaken) fun _ => Triple.pure fun s h => ⟨h.1.own, h.1.ext, h.1.keep, fun c hc => ?_⟩
    simp only [List.mem_singleton] at hc
    subst hc
    have := h.1.has buf (by simp)
    exact ⟨this.1, h.2, this.2.2⟩
  refine Triple.bind hrd fun r => ?_
  cases hb : r.2.1 with
  | none =>
    exact Triple.deferred (inv_handleMsg (snap_inv hE hA []) _ _ _) (fun _ => Triple.pure fun _ h => h) (Triple.pure fun _ h => h) fun _ h => h
  | some b =>
    refine Triple.deferred (inv_handleMsg (snap_inv hE hA [b]) _ _ _) (fun _ => ?_) ?_ fun _ h => h.weaken
    · exact Triple.ite (fun _ => snap_put hE hA b) fun _ => Triple.pure fun _ h => h.weaken
    · exact Triple.ite (fun _ => snap_put hE hA b) fun _ => Triple.pure fun _ h => h.weaken
end

/-- the pieces received so far are still in memory, unless a piece buffer was taken again -/
def StillThere (s : PSt) (g : Received) : Prop :=
  SliceAt none s ∧ (NotRetaken s.trace → ∀ (i j : Nat) d, g.pieces[i]? = some (some (j, d)) → d ≠ [] →
    ∃ sl, s.metaData[i]? = some (some sl) ∧ readSlice s.mem sl = d)

theorem stillThere_inv {E : PEnv} (hE : Among E) (hA : LeaveAlone E) : LoopInv E StillThere := by
  refine ⟨fun s g h => ⟨at_emit none ⟨by simp, by simp⟩ s h.1, fun hn => h.2 hn.prefix⟩, fun s t g g' hF hrun hP hK => ?_⟩
  have h0 : Snap s.mem s.trace [] s := ⟨hF, ⟨[], by simp⟩, fun _ _ _ => rfl, by simp⟩
  have h1 := snap_handler hE hA s h0
  rw [hrun] at h1
  have h1 : Snap s.mem s.trace [] t := h1
  have h2 := at_handler (E := E) s hK.1
  rw [hrun] at h2
  refine ⟨h2, fun hn i j d hd hne => ?_⟩
  obtain ⟨more, hm⟩ := h1.ext
  rcases hP i j d hd hne with ⟨e1, e2⟩ | ⟨sl, e1, e2⟩
  · obtain ⟨sl, c1, c2⟩ := hK.2 (by rw [hm] at hn; exact hn.prefix) i j d e1 hne
    refine ⟨sl, by rw [e2]; exact c1, ?_⟩
    rw [← c2]
    unfold readSlice
    rw [h1.keep hn sl.arr (hK.1.1 i sl c1)]
  · exact ⟨sl, e1, e2⟩

/-- what merging yields if the pieces are still there -/
theorem merge_kept {E : PEnv} (hA : LeaveAlone E) {ps : List (Option (Nat × Bytes))} (k : Nat) : ∀ i acc s, i + k = ps.length →
    (∀ i, i < ps.length → ∃ o j d, s.metaData[i]? = some o ∧ ps[i]? = some (some (j, d)) ∧
      (o = none → d = []) ∧ ∀ sl, o = some sl → sl.arr ∈ pieceBuffers s.trace ∧ readSlice s.mem sl = d) →
    ∃ t, mergeLoop E k i acc s = .ok (acc ++ ((ps.drop i).flatMap fun p => match p with | some (_, d) => d | none => [])) t := by
  induction k with
  | zero =>
    intro i acc s hi _
    rw [List.drop_of_length_le (by omega)]
    exact ⟨s, by simp [mergeLoop]⟩
  | succ k ih =>
    intro i acc s hi h
    obtain ⟨o, j, d, h1, h2, h3, h4⟩ := h i (by omega)
    have hi' : i < ps.length := by omega
    rw [List.getElem?_eq_getElem hi'] at h2
    have h2 := Option.some.inj h2
    rw [List.drop_eq_getElem_cons hi', h2]
    unfold mergeLoop
    cases o with
    | none =>
      obtain ⟨t, g1⟩ := ih (i + 1) acc s (by omega) h
      refine ⟨t, ?_⟩
      simp only [PM.bind_apply, PM.get_apply, h1, g1, h3 rfl]
      simp
    | some sl =>
      obtain ⟨c1, c2⟩ := h4 sl rfl
      have hsame : ∀ sl : Slice, sl.arr ∈ pieceBuffers s.trace → readSlice (E.interfere s.trace (s.mem, s.pool)).1 sl = readSlice s.mem sl := by
        intro sl hsl
        unfold readSlice
        rw [hA s.trace (s.mem, s.pool) sl.arr hsl]
      obtain ⟨t, g1⟩ := ih (i + 1) (acc ++ d)
        { s with mem := (E.interfere s.trace (s.mem, s.pool)).1, pool := (E.interfere s.trace (s.mem, s.pool)).2, trace := s.trace ++ [.load] } (by omega) (fun i' hi'' => by
          obtain ⟨o, j', d', d1, d2, d3, d4⟩ := h i' hi''
          exact ⟨o, j', d', d1, d2, d3, fun sl' ho => ⟨pieceBuffers_snoc _ _ _ (d4 sl' ho).1, (hsame sl' (d4 sl' ho).1).trans (d4 sl' ho).2⟩⟩)
      refine ⟨t, ?_⟩
      simp only [PM.bind_apply, PM.get_apply, h1, loadSlice, others, emitP, PM.modify_apply, PM.pure_apply]
      rw [hsame sl c1, c2, g1]
      simp

/-- C110: **if the others leave the buffers alone in which this download received pieces**, and the download itself did not take one of them again, then what is checked – and
returned, if its hash is right – is exactly what the peer sent, with any number of pieces. -/
theorem C110_undisturbed {E : PEnv} {peerId infoHash : Bytes} {mem : Nat → Bytes} {pool : BPool} {hs : Bytes} {bodies : List Bytes} {fuel : Nat}
    (S : StreamAmong E peerId infoHash mem pool hs bodies fuel) (hA : LeaveAlone E) (sha1 : Bytes → Bytes) (fold : FoldTable) (n k : Nat) (g : Received)
    (hv : verdict 0 0 .start bodies = .complete n k g) (hsz : g.size ≤ 2 ^ 48) :
    ∃ data s, (NotRetaken s.trace → data = g.content) ∧ FetchMetaData E sha1 fold fuel peerId infoHash mem pool =
        (if sha1 data = infoHash then .returned (some data) none s else .returned none (some b!"check sum err") s) ∧
      reads s.trace = 1 + ((bodies.take n).flatMap wire).length := by
  have hE := S.among
  have key := S.ends sha1 fold n k g hv hsz (stillThere_inv hE hA)
    (fun s _ hno => ⟨⟨fun i sl h => absurd h (hno i sl), fun _ h => nomatch h⟩, fun _ i j d h => by
      match i with
      | 0 => simp [Received.start] at h
      | i + 1 => simp [Received.start] at h⟩)
    (fun data u => NotRetaken u.trace → data = g.content) ?hP
  · obtain ⟨data, s, ⟨u, h1, h2⟩, h3⟩ := key
    exact ⟨data, s, fun hn => h2 (by rw [h1] at hn; exact hn.prefix), h3⟩
  intro t m hT hK hall
  have hAl : Along t { t with trace := t.trace ++ [.alloc m] } := .still hT.fine rfl rfl (by simp only [heldP_snoc]) (by simp only [reads_snoc, Nat.add_zero])
  obtain ⟨data, u, h1, h2, -⟩ := merge_am hE (ps := g.pieces) g.pieces.length 0 [] { t with trace := t.trace ++ [.alloc m] } (by omega) hAl.fine
    (show RightSizes t g.pieces from follows_sizes hT hall)
  have hut : ∃ more, u.trace = t.trace ++ more := by
    have := keeps_mergeLoop (J := fun tr => ∃ more, tr = t.trace ++ more) E
      (fun tr h => (by obtain ⟨more, h⟩ := h; exact ⟨more ++ [.load], by rw [h, List.append_assoc]⟩))
      g.pieces.length 0 [] { t with trace := t.trace ++ [.alloc m] } ⟨_, rfl⟩
    rw [h1] at this
    exact this
  refine ⟨data, u, by rw [h1]; rfl, h2.trans hAl.reads, fun hn => ?_⟩
  obtain ⟨more, hut⟩ := hut
  rw [hut] at hn
  obtain ⟨v, h4⟩ := merge_kept hA (ps := g.pieces) g.pieces.length 0 [] { t with trace := t.trace ++ [.alloc m] } (by omega) (fun i hi => by
    have hmem : g.pieces[i]? = some g.pieces[i] := List.getElem?_eq_getElem hi
    have hsome : (g.pieces[i]).isSome = true := by
      unfold Received.all at hall
      exact List.all_eq_true.1 hall _ (List.getElem_mem hi)
    obtain ⟨⟨j, d⟩, hjd⟩ := Option.isSome_iff_exists.1 hsome
    rw [hjd] at hmem
    by_cases hd : d = []
    · subst hd
      exact ⟨none, j, [], hT.none i j hmem, hmem, fun _ => rfl, fun sl h => (nomatch h)⟩
    · obtain ⟨sl, c1, c2⟩ := hK.2 hn.prefix i j d hmem hd
      exact ⟨some sl, j, d, c1, hmem, fun h => (nomatch h), fun sl' h => by cases h; exact ⟨pieceBuffers_snoc _ _ _ (hK.1.1 i sl c1), c2⟩⟩)
  rw [h1] at h4
  injection h4 with h5

end P2P

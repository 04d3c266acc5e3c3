import Verif.Props.PeerwireAmong2
/-! # C110: downloads are proper users of the pool

`OthersDo` says what the other users of the pool may do. Here: a whole download, however it ends and whatever its peer sends, does only
that – even while still others use the pool. So any number of downloads, one inside the other, are "others" in the sense of `OthersDo`. -/
namespace P2P

theorem OthersDo.trans {H : List Nat} {x y z : (Nat → Bytes) × BPool} (h1 : OthersDo H x y) (h2 : OthersDo H y z) : OthersDo H x z := by
  induction h2 with
  | nothing => exact h1
  | get size b pool' _ hg ih => exact .get size b pool' ih hg
  | put b _ g1 g2 g3 g4 g5 ih => exact .put b ih g1 g2 g3 g4 g5
  | write a data _ g1 g2 g3 ih => exact .write a data ih g1 g2 g3

/-- who may not touch the arrays `H` may also not touch fewer -/
theorem OthersDo.mono {H H' : List Nat} {x y : (Nat → Bytes) × BPool} (h : OthersDo H x y) (hs : ∀ a ∈ H', a ∈ H) : OthersDo H' x y := by
  induction h with
  | nothing => exact .nothing _
  | get size b pool' _ hg ih => exact .get size b pool' ih hg
  | put b _ g1 g2 g3 g4 g5 ih => exact .put b ih g1 g2 g3 g4 fun h => g5 (hs _ h)
  | write a data _ g1 g2 g3 ih => exact .write a data ih g1 (fun h => g2 (hs _ h)) g3

/-- An invariant of states that does not depend on the download's own variables, and is kept by the others and by events other than pool operations. -/
structure StateInv (E : PEnv) (I : PSt → Prop) : Prop where
  others : Keeps I (others E)
  emit : ∀ e, Neutral e → Keeps I (emitP e)
  vars : ∀ s md sz rq, I s → I { s with metaData := md, metaDataSize := sz, requested := rq }

section
variable {E : PEnv} {I : PSt → Prop} (hI : StateInv E I)
include hI

theorem inv_load (b : Slice) : Keeps I (loadSlice E b) := Keeps.bind hI.others fun _ => Keeps.bind Keeps.get fun _ => Keeps.bind (hI.emit _ ⟨by simp, by simp⟩) fun _ => Keeps.pure _

theorem inv_write (d : Bytes) : Keeps I (connWrite E d) :=
  Keeps.bind hI.others fun _ => Keeps.bind Keeps.get fun _ => Keeps.bind (hI.emit _ ⟨by simp, by simp⟩) fun _ => Keeps.pure _

theorem inv_readNew (n : Nat) : Keeps I (connReadNew E n) :=
  Keeps.bind hI.others fun _ => Keeps.bind Keeps.get fun _ => Keeps.bind (hI.emit _ ⟨by simp, by simp⟩) fun _ => Keeps.pure _

theorem inv_make (n : Int) (w : Nat) : Keeps I (makeSized E n w) :=
  Keeps.ite (Keeps.panic _) (Keeps.ite (Keeps.panic _) (Keeps.bind (hI.emit _ ⟨by simp, by simp⟩) fun _ =>
    Keeps.bind Keeps.get fun _ => Keeps.ite (fun _ hs => hs) (Keeps.pure _)))

theorem inv_expire : Keeps I (IsReadLoopExpire E) :=
  Keeps.bind Keeps.get fun _ => Keeps.bind (hI.emit _ ⟨by simp, by simp⟩) fun _ => Keeps.pure _

theorem inv_requestLoop : ∀ n i, Keeps I (requestLoop E n i) := by
  intro n
  induction n with
  | zero => intro i; exact Keeps.pure _
  | succ n ih =>
    intro i
    exact Keeps.bind Keeps.get fun _ => Keeps.bind (Keeps.lift _) fun _ => Keeps.bind (inv_write hI _) fun _ => Keeps.ite (Keeps.lift _) (ih _)

theorem inv_merge : ∀ n i r, Keeps I (mergeLoop E n i r) := by
  intro n
  induction n with
  | zero => intro i r; exact Keeps.pure _
  | succ n ih =>
    intro i r
    refine Keeps.bind Keeps.get fun s => ?_
    split
    · exact Keeps.panic _
    · exact ih _ _
    · exact Keeps.bind (inv_load hI _) fun d => ih _ _

theorem inv_extended (rb : Slice) (d : Bytes) : Keeps I (handleExtendedMsg E rb d) := by
  unfold handleExtendedMsg
  cases d[1]? with
  | none => exact Keeps.panic _
  | some c =>
    refine Keeps.ite ?_ (Keeps.ite ?_ (Keeps.pure _))
    · refine Keeps.bind (Keeps.lift _) fun _ => Keeps.ite (Keeps.lift _) ?_
      refine Keeps.bind (Keeps.lift _) fun _ => Keeps.bind (fun s hs => hI.vars s _ _ _ hs) fun _ => ?_
      refine Keeps.bind (inv_make hI _ _) fun _ => Keeps.bind (fun s hs => hI.vars s _ _ _ hs) fun _ => ?_
      refine Keeps.bind (inv_make hI _ _) fun _ => Keeps.bind (fun s hs => hI.vars s _ _ _ hs) fun _ => ?_
      exact Keeps.bind (hI.emit _ ⟨by simp, by simp⟩) fun _ => inv_requestLoop hI _ _
    · refine Keeps.bind (Keeps.lift _) fun r => Keeps.ite (Keeps.pure _) (Keeps.bind Keeps.get fun s => ?_)
      simp only
      split
      · exact Keeps.panic _
      · refine Keeps.bind (fun s hs => hI.vars s _ _ _ hs) fun _ => ?_
        split
        · exact Keeps.panic _
        · exact Keeps.bind (fun s hs => hI.vars s _ _ _ hs) fun _ => hI.emit _ ⟨by simp, by simp⟩

theorem inv_handleMsg (ka : Bool) (rb : Option Slice) (er : Bool) : Keeps I (handleMsg E ka rb er) := by
  refine Keeps.ite (Keeps.pure _) (Keeps.ite (Keeps.lift _) ?_)
  cases rb with
  | none => exact Keeps.panic _
  | some rb => exact Keeps.bind (inv_load hI _) fun d => Keeps.bind (Keeps.lift _) fun t => Keeps.ite (inv_extended hI _ _) (Keeps.pure _)
end

/-- Still others use the pool properly, while this download holds the buffers of its trace and somebody else the arrays `H`. -/
def Neighbours (H : List Nat) (E : PEnv) : Prop := ∀ tr x, Own (heldP tr ++ H) x → OthersDo (heldP tr ++ H) x (E.interfere tr x)

/-- What this download did so far is what others may do, and it holds the buffers `L` at least. -/
structure Proper (H : List Nat) (x0 : (Nat → Bytes) × BPool) (L : List Slice) (s : PSt) : Prop where
  own : Own (heldP s.trace ++ H) (s.mem, s.pool)
  did : OthersDo H x0 (s.mem, s.pool)
  has : ∀ b ∈ L, b.arr ∈ heldP s.trace ∧ b.len ≤ b.cap ∧ FullBuf s.mem b

theorem Proper.weaken {H : List Nat} {x0 : (Nat → Bytes) × BPool} {L : List Slice} {s : PSt} (h : Proper H x0 L s) : Proper H x0 [] s :=
  ⟨h.own, h.did, by simp⟩

section
variable {E : PEnv} {H : List Nat} {x0 : (Nat → Bytes) × BPool} (hE : Neighbours H E)
include hE

theorem proper_others (L : List Slice) : Keeps (Proper H x0 L) (others E) := by
  intro s hs
  show Proper H x0 L _
  have h1 := hE s.trace (s.mem, s.pool) hs.own
  obtain ⟨k1, k2, -, -⟩ := h1.keeps hs.own
  refine ⟨k1, hs.did.trans (h1.mono fun a ha => List.mem_append_right _ ha), fun b hb => ?_⟩
  obtain ⟨g1, g2, g3, g4⟩ := hs.has b hb
  refine ⟨g1, g2, g3, ?_⟩
  simp only
  rw [k2 b.arr (List.mem_append_left _ g1)]
  exact g4

theorem proper_inv (L : List Slice) : StateInv E (Proper H x0 L) := by
  refine ⟨proper_others hE L, fun e he s hs => ?_, fun s md sz rq hs => ⟨hs.own, hs.did, hs.has⟩⟩
  have hh : heldP (s.trace ++ [e]) = heldP s.trace := by
    rw [heldP_snoc]
    cases e with
    | get b => exact absurd rfl (he.1 b)
    | put b => exact absurd rfl (he.2 b)
    | _ => rfl
  show Proper H x0 L { s with trace := s.trace ++ [e] }
  exact ⟨by simp only [hh]; exact hs.own, hs.did, by simp only [hh]; exact hs.has⟩

theorem proper_get (n : Nat) : Triple (Proper H x0 []) (poolGet E n) (fun b => Proper H x0 [b]) (Proper H x0 []) := by
  refine Triple.bind (proper_others hE []) fun _ => ?_
  intro s hs
  simp only [PM.bind_apply, PM.get_apply]
  cases hg : s.pool.GetBySize n with
  | err _ => exact hs
  | panic _ => exact hs
  | diverge => exact hs
  | ok r =>
    obtain ⟨b, p⟩ := r
    simp only [PM.bind_apply, PM.modify_apply, emitP, PM.pure_apply]
    obtain ⟨g1, -, g3, g4, -, -⟩ := own_get hs.own hg
    have hh : heldP (s.trace ++ [.get b]) = b.arr :: heldP s.trace := heldP_snoc _ _
    refine ⟨?_, .get n b p hs.did hg, fun c hc => ?_⟩
    · simp only [hh, List.cons_append]; exact g1
    · simp only [List.mem_singleton] at hc
      subst hc
      exact ⟨by simp only [hh, List.mem_cons, true_or], by omega, g4⟩

theorem proper_put (b : Slice) : Triple (Proper H x0 [b]) (poolPut E b) (fun _ => Proper H x0 []) (Proper H x0 []) := by
  refine Triple.bind (Q := fun _ => Proper H x0 [b]) (Triple.weaken (proper_others hE [b]) (fun _ h => h) (fun _ _ h => h) fun _ h => h.weaken) fun _ => ?_
  intro s hs
  simp only [PM.bind_apply, PM.modify_apply, emitP]
  obtain ⟨g1, -, g3⟩ := hs.has b (by simp)
  have hperm : (heldP s.trace ++ H).Perm (b.arr :: ((heldP s.trace).erase b.arr ++ H)) := (List.perm_cons_erase g1).append_right H
  have hown := hs.own.perm hperm
  have hnd := hown.nodup
  simp only [List.cons_append, List.nodup_cons, List.mem_append, not_or] at hnd
  refine ⟨?_, .put b hs.did g3.1 g3.2 (hown.old b.arr (by simp)) hnd.1.2 hnd.1.1.2, by simp⟩
  simp only [heldP_snoc]
  exact (own_put hown g3).1

theorem proper_read (b : Slice) : Triple (Proper H x0 [b]) (connRead E b) (fun r s => Proper H x0 [b] s ∧ r.1 ≤ b.cap) (Proper H x0 []) := by
  refine Triple.bind (Q := fun _ => Proper H x0 [b]) (Triple.weaken (proper_others hE [b]) (fun _ h => h) (fun _ _ h => h) fun _ h => h.weaken) fun _ => ?_
  intro s hs
  simp only [PM.bind_apply, PM.get_apply, PM.modify_apply, emitP, PM.pure_apply]
  obtain ⟨g1, g2, g3⟩ := hs.has b (by simp)
  have hd : ((E.read s.trace b.len).1.take b.len).length ≤ b.len := by rw [List.length_take]; omega
  generalize (E.read s.trace b.len).1.take b.len = d at hd
  have hmem : writeSlice s.mem b d = upd s.mem b.arr (d ++ (s.mem b.arr).drop d.length) := by
    simp [writeSlice, g3.1]
  have hl : (d ++ (s.mem b.arr).drop d.length).length = (s.mem b.arr).length := by
    have := g3.2
    simp; omega
  have hnd := hs.own.nodup
  rw [List.nodup_append] at hnd
  have hnp : b.arr ∉ pooled s.pool := fun hp => hnd.2.2 _ (List.mem_append_left _ g1) _ hp rfl
  have hnH : b.arr ∉ H := fun hp => (List.nodup_append.1 hnd.1).2.2 _ g1 _ hp rfl
  have hh : heldP (s.trace ++ [.read b.len d (E.read s.trace b.len).2]) = heldP s.trace := by simp only [heldP_snoc]
  refine ⟨⟨?_, ?_, fun c hc => ?_⟩, by omega⟩
  · simp only [hh, hmem]; exact own_write hs.own hnp
  · simp only [hmem]; exact .write b.arr _ hs.did hnp hnH hl
  · simp only [List.mem_singleton] at hc
    subst hc
    refine ⟨by simp only [hh]; exact g1, g2, g3.1, ?_⟩
    simp only [hmem, upd_same, hl]
    exact g3.2

theorem proper_handler : Keeps (Proper H x0 []) (readMetaDataHandler E) := by
  have hrd : Triple (Proper H x0 []) (readBytesByPrefixLenMsg E)
      (fun r => Proper H x0 (match r.2.1 with | some b => [b] | none => [])) (Proper H x0 []) := by
    refine Triple.bind (proper_get hE _) fun b => Triple.bind (proper_read hE b) fun r => ?_
    refine Triple.ite (fun _ => Triple.pure fun _ h => h.1.weaken) fun _ => ?_
    unfold readAfterPrefix
    refine Triple.bind (Q := fun _ => Proper H x0 [b]) (Triple.weaken (inv_load (proper_inv hE [b]) b) (fun _ h => h.1) (fun _ _ h => h) fun _ h => h.weaken) fun pre => ?_
    refine Triple.ite (fun _ => Triple.panic fun _ h => h.weaken) fun _ => Triple.ite (fun _ => Triple.pure fun _ h => h.weaken) fun _ => ?_
    refine Triple.bind (proper_put hE b) fun _ => Triple.ite (fun _ => Triple.pure fun _ h => h) fun _ => ?_
    refine Triple.bind (proper_get hE _) fun buf => Triple.bind (proper_read hE buf) fun r => ?_
    refine Triple.ite (fun _ => Triple.pure fun _ h => h.1.weaken) fun _ => Triple.pure fun s h => ⟨h.1.own, h.1.did, fun c hc => ?_⟩
    simp only [List.mem_singleton] at hc
    subst hc
    have := h.1.has buf (by simp)
    exact ⟨this.1, h.2, this.2.2⟩
  refine Triple.bind hrd fun r => ?_
  cases hb : r.2.1 with
  | none =>
    exact Triple.deferred (inv_handleMsg (proper_inv hE []) _ _ _) (fun _ => Triple.pure fun _ h => h) (Triple.pure fun _ h => h) fun _ h => h
  | some b =>
    refine Triple.deferred (inv_handleMsg (proper_inv hE [b]) _ _ _) (fun _ => ?_) ?_ fun _ h => h.weaken
    · exact Triple.ite (fun _ => proper_put hE b) fun _ => Triple.pure fun _ h => h.weaken
    · exact Triple.ite (fun _ => proper_put hE b) fun _ => Triple.pure fun _ h => h.weaken

theorem proper_loop : ∀ n, Keeps (Proper H x0 []) (readMetaDataLoop E n) := by
  intro n
  induction n with
  | zero => intro s hs; exact hs
  | succ n ih =>
    exact Keeps.bind Keeps.get fun s => Keeps.ite (Keeps.pure _) (Keeps.bind (inv_expire (proper_inv hE [])) fun e =>
      Keeps.ite (Keeps.pure _) (Keeps.bind (proper_handler hE) fun _ => ih))

theorem proper_fetch (sha1 : Bytes → Bytes) (fold : FoldTable) (fuel : Nat) (peerId infoHash : Bytes) :
    Keeps (Proper H x0 []) (fetchBody E sha1 fold fuel peerId infoHash) := by
  have hI := proper_inv (x0 := x0) hE []
  unfold fetchBody
  refine Keeps.bind ?_ fun _ => Keeps.bind ?_ fun _ => Keeps.bind (proper_loop hE _) fun _ => Keeps.bind Keeps.get fun s => ?_
  · unfold handshakePeer
    refine Keeps.bind (Keeps.lift _) fun _ => Keeps.bind (inv_write hI _) fun _ => Keeps.ite (Keeps.lift _) ?_
    refine Keeps.bind (inv_readNew hI _) fun r => ?_
    refine Keeps.ite (Keeps.lift _) (Keeps.bind (Keeps.lift _) fun _ => Keeps.ite (Keeps.lift _) ?_)
    exact Keeps.bind (Keeps.lift _) fun _ => Keeps.ite (Keeps.lift _) (Keeps.pure _)
  · exact Keeps.bind Keeps.get fun _ => Keeps.bind (Keeps.lift _) fun _ => Keeps.bind (inv_write hI _) fun _ => Keeps.ite (Keeps.lift _) (Keeps.pure _)
  · refine Keeps.ite (Keeps.pure _) (Keeps.bind (inv_make hI _ _) fun _ => Keeps.bind (inv_merge hI _ _ _) fun r => ?_)
    exact Keeps.ite (Keeps.pure _) (Keeps.pure _)
end

/-- the memory and pool a download leaves behind -/
def FetchOut.left (x : (Nat → Bytes) × BPool) : FetchOut → (Nat → Bytes) × BPool
  | .returned _ _ s => (s.mem, s.pool)
  | .fatal s => (s.mem, s.pool)
  | .diverge s => (s.mem, s.pool)
  | _ => x

/-- C110: a download is a proper user of the pool. Whatever its peer sends, however it ends, and while other proper users interfere at every step: all
that happens to memory and pool is that buffers are taken, given back by who has them, and written by who has them – none of those somebody else holds. -/
theorem C110_is_proper (E : PEnv) (H : List Nat) (hE : Neighbours H E) (sha1 : Bytes → Bytes) (fold : FoldTable) (fuel : Nat) (peerId infoHash : Bytes)
    (mem : Nat → Bytes) (pool : BPool) (hown : Own H (mem, pool)) :
    OthersDo H (mem, pool) ((FetchMetaData E sha1 fold fuel peerId infoHash mem pool).left (mem, pool)) := by
  have h0 : Proper H (mem, pool) [] (NewPeerConn mem pool) := ⟨hown, .nothing _, by simp⟩
  have key := proper_fetch hE sha1 fold fuel peerId infoHash _ h0
  unfold FetchMetaData
  by_cases hd : E.dialFails = true
  · rw [if_pos hd]; exact .nothing _
  · rw [if_neg hd]
    cases hf : fetchBody E sha1 fold fuel peerId infoHash (NewPeerConn mem pool) with
    | ok r t => rw [hf] at key; obtain ⟨r1, r2⟩ := r; exact key.did
    | panic p t => rw [hf] at key; exact key.did
    | fatal t => rw [hf] at key; exact key.did
    | diverge t => rw [hf] at key; exact key.did

/-- C110: so whole downloads of others change nothing in the buffers `H` this download holds. -/
theorem C110_leaves_held (E : PEnv) (H : List Nat) (hE : Neighbours H E) (sha1 : Bytes → Bytes) (fold : FoldTable) (fuel : Nat) (peerId infoHash : Bytes)
    (mem : Nat → Bytes) (pool : BPool) (hown : Own H (mem, pool)) :
    ∀ a ∈ H, ((FetchMetaData E sha1 fold fuel peerId infoHash mem pool).left (mem, pool)).1 a = mem a :=
  ((C110_is_proper E H hE sha1 fold fuel peerId infoHash mem pool hown).keeps hown).2.1

/-- The environment `E`, in which moreover, before every step of this download, another download (with any peer `E'`) runs from beginning to end. -/
def withWhole (E E' : PEnv) (sha1 : Bytes → Bytes) (fold : FoldTable) (fuel : Nat) (peerId infoHash : Bytes) : PEnv :=
  { E with interfere := fun tr x => (FetchMetaData E' sha1 fold fuel peerId infoHash (E.interfere tr x).1 (E.interfere tr x).2).left (E.interfere tr x) }

/-- C110: whole downloads are covered by what `Among` says of the others – again and again, since `E` may already have others in it. -/
theorem C110_whole_downloads (E E' : PEnv) (hE : Among E) (hE' : ∀ tr x, E'.interfere tr x = x) (sha1 : Bytes → Bytes) (fold : FoldTable) (fuel : Nat)
    (peerId infoHash : Bytes) : Among (withWhole E E' sha1 fold fuel peerId infoHash) := by
  refine ⟨hE.dial, fun tr x hx => ?_, hE.writes, hE.time, hE.memory, hE.order⟩
  have h1 := hE.others tr x hx
  exact h1.trans (C110_is_proper E' (heldP tr) (fun tr' x' _ => by rw [hE']; exact .nothing _) sha1 fold fuel peerId infoHash _ _ (h1.keeps hx).1)

end P2P

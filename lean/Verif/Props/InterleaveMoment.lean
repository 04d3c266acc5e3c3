import Verif.Props.Interleave
import Verif.Props.PeerwireBuf
/-! # C112: a download at any moment, and the receive buffers of all

C111 is about downloads that have ended. Here they are under way: what each did so far is the beginning of what a whole call does. -/
namespace P2P

section
variable (E : PEnv) {f : List PEvent → Shared → Shared} (hf : ∀ tr y, Own (heldP tr) y → OthersDo (heldP tr) y (f tr y))
include hf

/-- running on, the trace only grows -/
theorem ends_prefix {α : Type} {st : Step α} {x : Shared} {T : List PEvent} {n : Nat} (h : st.Ends AllGood ⟨[], x, T, n⟩) :
    T <+: (st.run (E.among f)).state.trace := by
  induction st generalizing x T n with
  | done o => exact h.2.1.prefix
  | wait s k ih =>
    have hown : Own (heldP s.trace) (s.mem, s.pool) := by
      have := h.1.1.own
      simpa using this
    obtain ⟨k1, k2, -, -⟩ := (hf s.trace (s.mem, s.pool) hown).keeps hown
    exact h.1.2.1.prefix.trans (ih _ (h.2 [] _ (by rw [List.append_nil]; exact k1) k2))
end

/-- C112: **in every schedule and at every moment** of it, what a download that was started did so far is the beginning of what a whole call does, among
other users that are all proper users of the pool. -/
theorem C112_so_far (tasks : List Task) (x : Shared) (hx : Own [] x) (n : Net) (h : Reach (· = Net.fresh x tasks) (TurnStepAny tasks) n)
    (i : Nat) (t : Task) (ht : tasks[i]? = some t) (st : Step (Option Bytes × Option Bytes)) (hi : n.threads[i]? = some (.running st)) :
    ∃ f mem pool o, (∀ tr y, Own (heldP tr) y → OthersDo (heldP tr) y (f tr y)) ∧ Own [] (mem, pool) ∧
      FetchMetaData (t.E.among f) t.sha1 t.fold t.fuel t.peerId t.infoHash mem pool = .of o ∧
      o = fetchBody (t.E.among f) t.sha1 t.fold t.fuel t.peerId t.infoHash (NewPeerConn mem pool) ∧ st.state.trace <+: o.state.trace := by
  have key := Reach.inv (TurnInv (fun _ _ _ => True) tasks) (fun s hs => by subst hs; exact inv_fresh _ tasks hx)
    (fun _ _ h hs => turnStep_inv h (by obtain ⟨i, hs⟩ := hs; exact ⟨i, hs, fun _ _ _ => trivial⟩)) h
  obtain ⟨-, g2, hd, g3, f, x0, hh⟩ := key.each i t _ ht hi
  have hag : ∃ f', Agrees f' f st ∧ ∀ tr y, Own (heldP tr) y → OthersDo (heldP tr) y (f' tr y) := by
    cases st with
    | done o => exact ⟨f, rfl, hh.proper⟩
    | wait s k => exact ⟨f, fun _ _ => rfl, hh.proper⟩
  obtain ⟨f', ha, hp⟩ := hag
  have hsame := hh.same f' ha
  have hfx := FetchMetaData_eq (t.E.among f') (show (t.E.among f').dialFails = false from hd) t.sha1 t.fold t.fuel t.peerId t.infoHash x0.1 x0.2
  rw [← run_fetchBodyR] at hfx
  refine ⟨f', x0.1, x0.2, _, hp, hh.own, hfx, by rw [run_fetchBodyR], ?_⟩
  show st.state.trace <+: ((t.body x0).run (t.E.among f')).state.trace
  rw [hsame]
  cases st with
  | done o => cases o <;> exact List.prefix_refl _
  | wait s k =>
    obtain ⟨k1, k2, -, -⟩ := (hp s.trace (s.mem, s.pool) g2).keeps g2
    show s.trace <+: ((k (f' s.trace (s.mem, s.pool))).run (t.E.among f')).state.trace
    exact ends_prefix t.E hp (g3 s k rfl [] _ (by rw [List.append_nil]; exact k1) k2)

/-! ## Receive buffers -/

/-- how often a buffer of `w` bytes was taken -/
def taken (w : Nat) (tr : List PEvent) : Nat := tr.countP fun | .get b => b.cap = w | _ => false
/-- how often one was given back -/
def returned (w : Nat) (tr : List PEvent) : Nat := tr.countP fun | .put b => b.cap = w | _ => false

theorem taken_snoc (w : Nat) (tr : List PEvent) (e : PEvent) : taken w (tr ++ [e]) = taken w tr + (match e with | .get b => if b.cap = w then 1 else 0 | _ => 0) := by
  unfold taken
  rw [List.countP_append, List.countP_singleton]
  cases e <;> simp
theorem returned_snoc (w : Nat) (tr : List PEvent) (e : PEvent) : returned w (tr ++ [e]) = returned w tr + (match e with | .put b => if b.cap = w then 1 else 0 | _ => 0) := by
  unfold returned
  rw [List.countP_append, List.countP_singleton]
  cases e <;> simp

/-- At every moment up to now at most one big buffer was out, now `k` are, and only buffers of two sizes were ever taken. -/
structure Counts (k : Nat) (tr : List PEvent) : Prop where
  now : taken maxReadLength tr = returned maxReadLength tr + k
  ever : ∀ p, p <+: tr → returned maxReadLength p ≤ taken maxReadLength p ∧ taken maxReadLength p ≤ returned maxReadLength p + 1
  sizes : ∀ b, .get b ∈ tr → b.cap = PrefixLen ∨ b.cap = maxReadLength

theorem Counts.snoc {k k' : Nat} {tr : List PEvent} {e : PEvent} (h : Counts k tr) (hk' : k' ≤ 1)
    (h1 : taken maxReadLength (tr ++ [e]) = returned maxReadLength (tr ++ [e]) + k') (h2 : ∀ b, e = .get b → b.cap = PrefixLen ∨ b.cap = maxReadLength) :
    Counts k' (tr ++ [e]) := by
  refine ⟨h1, fun p hp => ?_, fun b hb => ?_⟩
  · rcases List.prefix_concat_iff.1 hp with rfl | hp
    · omega
    · exact h.ever p hp
  · simp only [List.mem_append, List.mem_singleton] at hb
    exact hb.elim (h.sizes b) fun h => h2 b h.symm

theorem Triple.and {α : Type} {I I' : PSt → Prop} {m : PM α} {Q Q' : α → PSt → Prop} {X X' : PSt → Prop} (h : Triple I m Q X) (h' : Triple I' m Q' X') :
    Triple (fun s => I s ∧ I' s) m (fun a s => Q a s ∧ Q' a s) (fun s => X s ∧ X' s) := by
  intro s hs
  have h1 := h s hs.1
  have h2 := h' s hs.2
  cases hm : m s with
  | ok a t => rw [hm] at h1 h2; exact ⟨h1, h2⟩
  | panic p t => rw [hm] at h1 h2; exact ⟨h1, h2⟩
  | fatal t => rw [hm] at h1 h2; exact ⟨h1, h2⟩
  | diverge t => rw [hm] at h1 h2; exact ⟨h1, h2⟩

/-- it holds the buffers `L`, and `k` big ones are out -/
def HasOut (x0 : Shared) (L : List Slice) (k : Nat) (s : PSt) : Prop := Proper [] x0 L s ∧ Counts k s.trace
/-- at most one big one is out -/
def AtMostOne (x0 : Shared) (s : PSt) : Prop := ∃ k, k ≤ 1 ∧ HasOut x0 [] k s

theorem HasOut.one {x0 : Shared} {L : List Slice} {k : Nat} {s : PSt} (h : HasOut x0 L k s) (hk : k ≤ 1) : AtMostOne x0 s := ⟨k, hk, h.1.weaken, h.2⟩

section
variable {E : PEnv} {x0 : Shared} (hE : Neighbours [] E)
include hE

theorem hasOut_inv (L : List Slice) {k : Nat} (hk : k ≤ 1) : StateInv E (HasOut x0 L k) := by
  have h := proper_inv (x0 := x0) hE L
  refine ⟨fun s hs => ⟨h.others s hs.1, hs.2⟩, fun e he s hs => ⟨h.emit e he s hs.1, ?_⟩, fun s md sz rq hs => ⟨h.vars s md sz rq hs.1, hs.2⟩⟩
  refine hs.2.snoc hk ?_ fun b hb => absurd hb (he.1 b)
  have := hs.2.now
  rw [taken_snoc, returned_snoc]
  cases e with
  | get b => exact absurd rfl (he.1 b)
  | put b => exact absurd rfl (he.2 b)
  | _ => simpa using this

theorem hasOut_get (n k : Nat) (hn : n = PrefixLen ∨ n = maxReadLength) (hk : (if n = maxReadLength then k + 1 else k) ≤ 1) :
    Triple (HasOut x0 [] k) (poolGet E n) (fun b s => HasOut x0 [b] (if n = maxReadLength then k + 1 else k) s ∧ b.cap = n) (HasOut x0 [] k) := by
  refine Triple.bind (hasOut_inv hE [] (by split at hk <;> omega)).others fun _ => ?_
  intro s hs
  have hp := proper_get (x0 := x0) (E := E.alone) (alone_neighbours E []) n s hs.1
  have hpool : poolGet E.alone n s = (do
    let s ← PM.get
    match s.pool.GetBySize n with
    | .ok (b, p) => do
      PM.modify fun s => { s with pool := p, mem := if p.fresh = s.pool.fresh then s.mem else upd s.mem b.arr (List.replicate b.cap 0) }
      emitP (.get b)
      pure b
    | .panic p => PM.panic p
    | .err _ => PM.panic .runtime
    | .diverge => PM.panic .runtime) s := rfl
  rw [hpool] at hp
  simp only [PM.bind_apply, PM.get_apply] at hp ⊢
  cases hg : s.pool.GetBySize n with
  | err _ => exact hs
  | panic _ => exact hs
  | diverge => exact hs
  | ok r =>
    obtain ⟨b, p⟩ := r
    rw [hg] at hp
    simp only [PM.bind_apply, PM.modify_apply, emitP, PM.pure_apply] at hp ⊢
    obtain ⟨-, gc, -⟩ := own_get (by have := hs.1.own; exact this) hg
    have gc : b.cap = n := by omega
    refine ⟨⟨hp, hs.2.snoc hk ?_ fun c hc => ?_⟩, gc⟩
    · have := hs.2.now
      rw [taken_snoc, returned_snoc]
      simp only [gc]
      split <;> omega
    · cases hc
      rw [gc]; exact hn

theorem hasOut_put (b : Slice) (k : Nat) (hk : k ≤ 1) (hb : b.cap = maxReadLength → 1 ≤ k) :
    Triple (HasOut x0 [b] k) (poolPut E b) (fun _ => HasOut x0 [] (if b.cap = maxReadLength then k - 1 else k)) (AtMostOne x0) := by
  refine Triple.bind (Triple.weaken (hasOut_inv hE [b] hk).others (fun _ h => h) (fun _ _ h => h) fun _ h => h.one hk) fun _ => ?_
  intro s hs
  have hp := proper_put (x0 := x0) (E := E.alone) (alone_neighbours E []) b s hs.1
  refine ⟨hp, hs.2.snoc (by split <;> omega) ?_ fun c hc => by cases hc⟩
  have := hs.2.now
  rw [taken_snoc, returned_snoc]
  simp only
  split
  · rename_i h; have := hb h; omega
  · omega

theorem hasOut_read (b : Slice) (k : Nat) (hk : k ≤ 1) : Triple (HasOut x0 [b] k) (connRead E b) (fun r s => HasOut x0 [b] k s ∧ r.1 ≤ b.cap) (AtMostOne x0) := by
  have h2 : Keeps (fun s : PSt => Counts k s.trace) (connRead E b) := by
    intro s hs
    simp only [connRead, PM.bind_apply, others, PM.modify_apply, PM.get_apply, emitP, PM.pure_apply]
    refine hs.snoc hk ?_ fun c hc => by cases hc
    rw [taken_snoc, returned_snoc]
    exact hs.now
  exact Triple.weaken (Triple.and (proper_read hE b) h2) (fun _ h => h) (fun _ _ h => ⟨⟨h.1.1, h.2⟩, h.1.2⟩) fun _ h => ⟨k, hk, h⟩

theorem hasOut_handler : Triple (HasOut x0 [] 0) (readMetaDataHandler E) (fun _ => HasOut x0 [] 0) (AtMostOne x0) := by
  have hrd : Triple (HasOut x0 [] 0) (readBytesByPrefixLenMsg E)
      (fun r s => (r = (false, none, true) ∧ AtMostOne x0 s) ∨ (r = (true, none, false) ∧ HasOut x0 [] 0 s) ∨
        ∃ b, r = (false, some b, false) ∧ b.cap = maxReadLength ∧ HasOut x0 [b] 1 s) (AtMostOne x0) := by
    refine Triple.bind (Triple.weaken (hasOut_get hE PrefixLen 0 (.inl rfl) (by decide)) (fun _ h => h) (fun _ _ h => h) fun _ h => h.one (by omega)) fun b => ?_
    have hpre : (if PrefixLen = maxReadLength then 0 + 1 else 0) = 0 := by decide
    rw [hpre]
    refine Triple.bind (Q := fun _ s => HasOut x0 [b] 0 s ∧ b.cap = PrefixLen) ?_ fun r => ?_
    · intro s hs
      have := hasOut_read hE b 0 (by omega) s hs.1
      cases hm : connRead E b s with
      | ok a t => rw [hm] at this; exact ⟨this.1, hs.2⟩
      | panic p t => rw [hm] at this; exact this
      | fatal t => rw [hm] at this; exact this
      | diverge t => rw [hm] at this; exact this
    refine Triple.ite (fun _ => Triple.pure fun _ h => .inl ⟨rfl, h.1.one (by omega)⟩) fun _ => ?_
    unfold readAfterPrefix
    refine Triple.bind (Q := fun _ s => HasOut x0 [b] 0 s ∧ b.cap = PrefixLen) ?_ fun pre => ?_
    · intro s hs
      have := inv_load (hasOut_inv (x0 := x0) hE [b] (k := 0) (by omega)) b s hs.1
      cases hm : loadSlice E b s with
      | ok a t => rw [hm] at this; exact ⟨this, hs.2⟩
      | panic p t => rw [hm] at this; exact this.one (by omega)
      | fatal t => rw [hm] at this; exact this.one (by omega)
      | diverge t => rw [hm] at this; exact this.one (by omega)
    refine Triple.ite (fun _ => Triple.panic fun _ h => h.1.one (by omega)) fun _ =>
      Triple.ite (fun _ => Triple.pure fun _ h => .inr (.inl ⟨rfl, h.1.1.weaken, h.1.2⟩)) fun _ => ?_
    refine Triple.bind (Q := fun _ => HasOut x0 [] 0) ?_ fun _ => ?_
    · intro s hs
      have hne : ¬ b.cap = maxReadLength := by rw [hs.2]; decide
      have := hasOut_put hE b 0 (by omega) (fun h => absurd h hne) s hs.1
      rw [if_neg hne] at this
      exact this
    refine Triple.ite (fun _ => Triple.pure fun _ h => .inl ⟨rfl, h.one (by omega)⟩) fun _ => ?_
    refine Triple.bind (Triple.weaken (hasOut_get hE maxReadLength 0 (.inr rfl) (by simp)) (fun _ h => h) (fun _ _ h => h) fun _ h => h.one (by omega)) fun buf => ?_
    rw [if_pos rfl]
    refine Triple.bind (Q := fun r s => (HasOut x0 [buf] 1 s ∧ r.1 ≤ buf.cap) ∧ buf.cap = maxReadLength) ?_ fun r => ?_
    · intro s hs
      have := hasOut_read hE buf 1 (by omega) s hs.1
      cases hm : connRead E buf s with
      | ok a t => rw [hm] at this; exact ⟨this, hs.2⟩
      | panic p t => rw [hm] at this; exact this
      | fatal t => rw [hm] at this; exact this
      | diverge t => rw [hm] at this; exact this
    refine Triple.ite (fun _ => Triple.pure fun _ h => .inl ⟨rfl, h.1.1.one (by omega)⟩) fun _ => Triple.pure fun s h => .inr (.inr ⟨_, rfl, h.2, ?_⟩)
    refine ⟨⟨h.1.1.1.own, h.1.1.1.did, fun c hc => ?_⟩, h.1.1.2⟩
    simp only [List.mem_singleton] at hc
    subst hc
    have := h.1.1.1.has buf (by simp)
    exact ⟨this.1, h.1.2, this.2.2⟩
  refine Triple.bind hrd fun r => ?_
  intro s hs
  rcases hs with ⟨rfl, h⟩ | ⟨rfl, h⟩ | ⟨b, rfl, hc, h⟩
  · exact h
  · exact h
  · refine (Triple.deferred (Y := AtMostOne x0) (inv_handleMsg (hasOut_inv hE [b] (k := 1) (by omega)) _ _ _) (fun _ => ?_) ?_ fun _ h => h.one (by omega)) s h
    · refine Triple.ite (fun _ => ?_) fun h => absurd (by rw [hc]; decide) h
      have := hasOut_put (x0 := x0) hE b 1 (by omega) fun _ => by omega
      rw [if_pos hc] at this
      exact this
    · refine Triple.ite (fun _ => ?_) fun h => absurd (by rw [hc]; decide) h
      have := hasOut_put (x0 := x0) hE b 1 (by omega) fun _ => by omega
      rw [if_pos hc] at this
      exact Triple.weaken this (fun _ h => h) (fun _ _ h => h.one (by omega)) fun _ h => h

theorem hasOut_loop : ∀ n, Triple (HasOut x0 [] 0) (readMetaDataLoop E n) (fun _ => HasOut x0 [] 0) (AtMostOne x0) := by
  intro n
  induction n with
  | zero => intro s hs; exact hs.one (by omega)
  | succ n ih =>
    refine Triple.bind (Triple.weaken (Keeps.get (I := HasOut x0 [] 0)) (fun _ h => h) (fun _ _ h => h) fun _ h => h.one (by omega)) fun s => ?_
    refine Triple.ite (fun _ => Triple.pure fun _ h => h) fun _ => ?_
    refine Triple.bind (Triple.weaken (inv_expire (hasOut_inv hE [] (k := 0) (by omega))) (fun _ h => h) (fun _ _ h => h) fun _ h => h.one (by omega)) fun e => ?_
    exact Triple.ite (fun _ => Triple.pure fun _ h => h) fun _ => Triple.bind (hasOut_handler hE) fun _ => ih

theorem hasOut_fetch (sha1 : Bytes → Bytes) (fold : FoldTable) (fuel : Nat) (peerId infoHash : Bytes) :
    Triple (HasOut x0 [] 0) (fetchBody E sha1 fold fuel peerId infoHash) (fun _ => HasOut x0 [] 0) (AtMostOne x0) := by
  have hI := hasOut_inv (x0 := x0) hE [] (k := 0) (by omega)
  have lift : ∀ {α : Type} {m : PM α}, Keeps (HasOut x0 [] 0) m → Triple (HasOut x0 [] 0) m (fun _ => HasOut x0 [] 0) (AtMostOne x0) :=
    fun h => Triple.weaken h (fun _ h => h) (fun _ _ h => h) fun _ h => h.one (by omega)
  unfold fetchBody
  refine Triple.bind (lift ?_) fun _ => Triple.bind (lift ?_) fun _ => Triple.bind (hasOut_loop hE _) fun _ => lift (Keeps.bind Keeps.get fun s => ?_)
  · unfold handshakePeer
    refine Keeps.bind (Keeps.lift _) fun _ => Keeps.bind (inv_write hI _) fun _ => Keeps.ite (Keeps.lift _) ?_
    refine Keeps.bind (inv_readNew hI _) fun r => ?_
    refine Keeps.ite (Keeps.lift _) (Keeps.bind (Keeps.lift _) fun _ => Keeps.ite (Keeps.lift _) ?_)
    exact Keeps.bind (Keeps.lift _) fun _ => Keeps.ite (Keeps.lift _) (Keeps.pure _)
  · exact Keeps.bind Keeps.get fun _ => Keeps.bind (Keeps.lift _) fun _ => Keeps.bind (inv_write hI _) fun _ => Keeps.ite (Keeps.lift _) (Keeps.pure _)
  · refine Keeps.ite (Keeps.pure _) (Keeps.bind (inv_make hI _ _) fun _ => Keeps.bind (inv_merge hI _ _ _) fun r => ?_)
    exact Keeps.ite (Keeps.pure _) (Keeps.pure _)
end

theorem counts_whole (E : PEnv) (hE : ∀ tr y, Own (heldP tr) y → OthersDo (heldP tr) y (E.interfere tr y)) (sha1 : Bytes → Bytes) (fold : FoldTable) (fuel : Nat)
    (peerId infoHash : Bytes) {mem : Nat → Bytes} {pool : BPool} (hx : Own [] (mem, pool)) :
    ∃ k, Counts k (fetchBody E sha1 fold fuel peerId infoHash (NewPeerConn mem pool)).state.trace := by
  have hn : Neighbours [] E := fun tr x h => by simpa using hE tr x (by simpa using h)
  have h0 : HasOut (mem, pool) [] 0 (NewPeerConn mem pool) := by
    refine ⟨⟨hx, .nothing _, by simp⟩, rfl, fun p hp => ?_, by simp [NewPeerConn]⟩
    have : p = [] := List.prefix_nil.1 hp
    subst this
    exact ⟨Nat.le_refl _, Nat.zero_le _⟩
  have := hasOut_fetch (x0 := (mem, pool)) hn sha1 fold fuel peerId infoHash _ h0
  cases hm : fetchBody E sha1 fold fuel peerId infoHash (NewPeerConn mem pool) with
  | ok a t => rw [hm] at this; exact ⟨0, this.2⟩
  | panic p t => rw [hm] at this; obtain ⟨k, -, h⟩ := this; exact ⟨k, h.2⟩
  | fatal t => rw [hm] at this; obtain ⟨k, -, h⟩ := this; exact ⟨k, h.2⟩
  | diverge t => rw [hm] at this; obtain ⟨k, -, h⟩ := this; exact ⟨k, h.2⟩

/-- C112: in every schedule, at every moment, each download has at most one big receive buffer (32768 bytes) that it did not give back – also after it
failed – and has never taken any but these and 4-byte ones. -/
theorem C112_one_buffer (tasks : List Task) (x : Shared) (hx : Own [] x) (n : Net) (h : Reach (· = Net.fresh x tasks) (TurnStepAny tasks) n)
    (i : Nat) (t : Task) (ht : tasks[i]? = some t) (st : Step (Option Bytes × Option Bytes)) (hi : n.threads[i]? = some (.running st)) :
    returned maxReadLength st.state.trace ≤ taken maxReadLength st.state.trace ∧ taken maxReadLength st.state.trace ≤ returned maxReadLength st.state.trace + 1 ∧
      ∀ b, .get b ∈ st.state.trace → b.cap = 4 ∨ b.cap = 32768 := by
  obtain ⟨f, mem, pool, o, h1, h2, -, rfl, h3⟩ := C112_so_far tasks x hx n h i t ht st hi
  obtain ⟨k, hk⟩ := counts_whole (t.E.among f) h1 t.sha1 t.fold t.fuel t.peerId t.infoHash h2
  exact ⟨(hk.ever _ h3).1, (hk.ever _ h3).2, fun b hb => hk.sizes b (h3.subset hb)⟩

end P2P

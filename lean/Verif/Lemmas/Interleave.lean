import Verif.Model.Interleave
import Verif.Props.PeerwireAmong3
/-! # Stoppable code run to its end is the code of Model/Peerwire.lean -/
namespace P2P

/-- run to the end -/
def RM.run {α : Type} (E : PEnv) (m : RM α) : PM α := fun s => (m s).run E

theorem run_handle {α β : Type} (E : PEnv) (st : Step α) (g : POut α → Step β) : (st.handle g).run E = (g (st.run E)).run E := by
  induction st with
  | done o => rfl
  | wait s k ih => exact ih _

section
variable (E : PEnv)

theorem runR_bind {α β : Type} (m : RM α) (f : α → RM β) : RM.run E (m >>= f) = (RM.run E m >>= fun a => RM.run E (f a)) := by
  funext s
  show ((m s).handle _).run E = _
  rw [run_handle, PM.bind_apply]
  show _ = match (m s).run E with | .ok a s' => _ | .panic p s' => _ | .fatal s' => _ | .diverge s' => _
  cases (m s).run E <;> rfl

theorem runR_pure {α : Type} (a : α) : RM.run E (pure a : RM α) = (pure a : PM α) := rfl

theorem run_now {α : Type} (m : PM α) : RM.run E (RM.now m) = m := rfl

theorem run_ite {α : Type} (c : Prop) [Decidable c] (m n : RM α) : RM.run E (if c then m else n) = if c then RM.run E m else RM.run E n := by
  split <;> rfl

theorem run_deferred {α : Type} (m : RM α) (c : RM Unit) : RM.run E (RM.deferred m c) = PM.deferred (RM.run E m) (RM.run E c) := by
  funext s
  show ((m s).handle _).run E = _
  rw [run_handle]
  unfold PM.deferred
  show _ = match (m s).run E with | .ok a s' => _ | .panic p s' => _ | .fatal s' => _ | .diverge s' => _
  cases (m s).run E with
  | ok a t =>
    simp only [run_handle]
    show _ = match (c t).run E with | .ok _ t => _ | .panic p t => _ | .fatal t => _ | .diverge t => _
    cases (c t).run E <;> rfl
  | panic p t =>
    simp only [run_handle]
    show _ = match (c t).run E with | .ok _ t => _ | .panic p t => _ | .fatal t => _ | .diverge t => _
    cases (c t).run E <;> rfl
  | fatal t => rfl
  | diverge t => rfl
end

section
variable (E : PEnv) (f : List PEvent → Shared → Shared)

theorem run_get (n : Nat) : RM.run (E.among f) (poolGetR E n) = poolGet (E.among f) n := rfl
theorem run_put (b : Slice) : RM.run (E.among f) (poolPutR E b) = poolPut (E.among f) b := rfl
theorem run_read (b : Slice) : RM.run (E.among f) (connReadR E b) = connRead (E.among f) b := rfl
theorem run_readNew (n : Nat) : RM.run (E.among f) (connReadNewR E n) = connReadNew (E.among f) n := rfl
theorem run_write (d : Bytes) : RM.run (E.among f) (connWriteR E d) = connWrite (E.among f) d := rfl
theorem run_load (b : Slice) : RM.run (E.among f) (loadSliceR E b) = loadSlice (E.among f) b := rfl
theorem run_make (n : Int) (w : Nat) : RM.run (E.among f) (RM.now (makeSized E n w)) = makeSized (E.among f) n w := rfl
theorem run_expire : RM.run (E.among f) (RM.now (IsReadLoopExpire E)) = IsReadLoopExpire (E.among f) := rfl

theorem run_requestLoopR (n i : Nat) : RM.run (E.among f) (requestLoopR E n i) = requestLoop (E.among f) n i := by
  induction n generalizing i with
  | zero => rfl
  | succ n ih =>
    unfold requestLoopR requestLoop
    simp only [runR_bind, run_ite, run_now, run_write, ih]
    rfl

theorem run_handleExtendedMsgR (rb : Slice) (d : Bytes) : RM.run (E.among f) (handleExtendedMsgR E rb d) = handleExtendedMsg (E.among f) rb d := by
  unfold handleExtendedMsgR handleExtendedMsg
  cases d[1]? with
  | none => rfl
  | some c =>
    simp only [runR_bind, run_ite, run_make, run_requestLoopR, run_now, runR_pure]
    split
    · rfl
    · split
      · refine congrArg _ (funext fun r => ?_)
        split
        · rfl
        · refine congrArg _ (funext fun s => ?_)
          cases setAt s.metaData r.pieceNum (r.dataOff.map fun n => { rb with off := rb.off + n, len := rb.len - n, cap := rb.cap - n }) with
          | none => rfl
          | some md =>
            simp only [runR_bind, run_now]
            refine congrArg _ (funext fun _ => ?_)
            cases setAt s.requested r.pieceNum true with
            | none => rfl
            | some rq => simp only [runR_bind, run_now]
      · rfl

theorem run_readAfterPrefixR (b : Slice) : RM.run (E.among f) (readAfterPrefixR E b) = readAfterPrefix (E.among f) b := by
  unfold readAfterPrefixR readAfterPrefix
  simp only [runR_bind, run_ite, run_load, run_put, run_get, run_read, runR_pure, run_now]

theorem run_readBytesR : RM.run (E.among f) (readBytesByPrefixLenMsgR E) = readBytesByPrefixLenMsg (E.among f) := by
  unfold readBytesByPrefixLenMsgR readBytesByPrefixLenMsg
  simp only [runR_bind, run_ite, run_get, run_read, runR_pure, run_readAfterPrefixR]

theorem run_handleMsgR (ka : Bool) (rb : Option Slice) (er : Bool) : RM.run (E.among f) (handleMsgR E ka rb er) = handleMsg (E.among f) ka rb er := by
  unfold handleMsgR handleMsg
  cases rb with
  | none => simp only [run_ite, runR_pure, run_now]
  | some rb => simp only [runR_bind, run_ite, run_load, runR_pure, run_now, run_handleExtendedMsgR]

theorem run_putBackR (rb : Option Slice) : RM.run (E.among f) (putBackR E rb) = putBack (E.among f) rb := by
  cases rb with
  | none => rfl
  | some rb => unfold putBackR putBack; simp only [run_ite, run_put, runR_pure]

theorem run_handlerR : RM.run (E.among f) (readMetaDataHandlerR E) = readMetaDataHandler (E.among f) := by
  unfold readMetaDataHandlerR readMetaDataHandler
  simp only [runR_bind, run_deferred, run_readBytesR, run_handleMsgR, run_putBackR]

theorem run_loopR (n : Nat) : RM.run (E.among f) (readMetaDataLoopR E n) = readMetaDataLoop (E.among f) n := by
  induction n with
  | zero => rfl
  | succ n ih =>
    unfold readMetaDataLoopR readMetaDataLoop
    simp only [runR_bind, run_ite, run_handlerR, ih, runR_pure, run_now]
    rfl

theorem run_initialR : RM.run (E.among f) (initialMessagesR E) = initialMessages (E.among f) := by
  unfold initialMessagesR initialMessages
  simp only [runR_bind, run_ite, run_write, runR_pure, run_now]
  rfl

theorem run_handshakeR (fold : FoldTable) (p h : Bytes) : RM.run (E.among f) (handshakePeerR E fold p h) = handshakePeer (E.among f) fold p h := by
  unfold handshakePeerR handshakePeer
  simp only [runR_bind, run_ite, run_write, run_readNew, runR_pure, run_now]

theorem run_mergeR (n i : Nat) (r : Bytes) : RM.run (E.among f) (mergeLoopR E n i r) = mergeLoop (E.among f) n i r := by
  induction n generalizing i r with
  | zero => rfl
  | succ n ih =>
    unfold mergeLoopR mergeLoop
    simp only [runR_bind, run_now]
    refine congrArg _ (funext fun s => ?_)
    cases s.metaData[i]? with
    | none => rfl
    | some o =>
      cases o with
      | none => exact ih _ _
      | some b => simp only [runR_bind, run_load, ih]

/-- The stoppable download, run to its end among others, is the download. -/
theorem run_fetchBodyR (sha1 : Bytes → Bytes) (fold : FoldTable) (fuel : Nat) (p h : Bytes) :
    RM.run (E.among f) (fetchBodyR E sha1 fold fuel p h) = fetchBody (E.among f) sha1 fold fuel p h := by
  unfold fetchBodyR fetchBody
  simp only [runR_bind, run_ite, run_handshakeR, run_initialR, run_loopR, run_mergeR, runR_pure, run_now]
  rfl

theorem FetchMetaData_eq (hd : E.dialFails = false) (sha1 : Bytes → Bytes) (fold : FoldTable) (fuel : Nat) (p h : Bytes) (mem : Nat → Bytes) (pool : BPool) :
    FetchMetaData E sha1 fold fuel p h mem pool = .of (fetchBody E sha1 fold fuel p h (NewPeerConn mem pool)) := by
  unfold FetchMetaData
  rw [if_neg (by simp [hd])]
  cases fetchBody E sha1 fold fuel p h (NewPeerConn mem pool) with
  | ok r t => rfl
  | panic q t => rfl
  | fatal t => rfl
  | diverge t => rfl
end

/-! ## What a stoppable download does whenever it is scheduled -/

/-- The others hold the arrays `H`, memory and pool were `x` when this download was scheduled, its trace was `T` when it stopped before, and had at least `n`
events when it went on. -/
structure Turn where
  H : List Nat
  x : Shared
  T : List PEvent
  n : Nat

/-- what an event does to the pool -/
def PoolDid (e : PEvent) (p q : BPool) : Prop :=
  match e with
  | .get b => p.GetBySize b.cap = .ok (b, q)
  | .put b => q = p.Put b
  | _ => q = p

/-- what several do -/
inductive PoolRuns : List PEvent → BPool → BPool → Prop where
  | nil (p : BPool) : PoolRuns [] p p
  | snoc {es : List PEvent} {p q r : BPool} (e : PEvent) : PoolRuns es p q → PoolDid e q r → PoolRuns (es ++ [e]) p r

/-- Since trace and pool were `T` and `p`, the pool was changed only by what the trace shows. -/
def Since (T : List PEvent) (p : BPool) (s : PSt) : Prop := ∃ es, s.trace = T ++ es ∧ PoolRuns es p s.pool

theorem Since.prefix {T : List PEvent} {p : BPool} {s : PSt} (h : Since T p s) : T <+: s.trace := by
  obtain ⟨es, h, -⟩ := h
  rw [h]; exact List.prefix_append _ _

/-- In this turn the download has used memory and pool properly, and holds the buffers `L`. -/
def Good (L : List Slice) (c : Turn) (s : PSt) : Prop := Proper c.H c.x L s ∧ Since c.T c.x.2 s ∧ c.n ≤ s.trace.length

theorem Good.weaken {L : List Slice} {c : Turn} {s : PSt} (h : Good L c s) : Good [] c s := ⟨h.1.weaken, h.2⟩

/-- Whenever it stops it was a proper user, if since the last stop others left alone what it holds; and it ends in `Z`. -/
def Step.Ends {α : Type} (Z : Turn → POut α → Prop) : Turn → Step α → Prop
  | c, .done o => Z c o
  | c, .wait s k => Good [] c s ∧ ∀ H x, Own (heldP s.trace ++ H) x → (∀ a ∈ heldP s.trace, x.1 a = s.mem a) →
      (k x).Ends Z ⟨H, x, s.trace, s.trace.length + 1⟩

theorem Step.Ends.handle {α β : Type} {Z : Turn → POut α → Prop} {W : Turn → POut β → Prop} {st : Step α} {g : POut α → Step β}
    {c : Turn} (h : st.Ends Z c) (hg : ∀ c o, Z c o → (g o).Ends W c) : (st.handle g).Ends W c := by
  induction st generalizing c with
  | done o => exact hg c o h
  | wait s k ih => exact ⟨h.1, fun H x h1 h2 => ih x (h.2 H x h1 h2)⟩

/-- normal and other ends -/
def Post {α : Type} (Q : α → Turn → PSt → Prop) (X : Turn → PSt → Prop) (c : Turn) : POut α → Prop
  | .ok a s => Q a c s
  | .panic _ s => X c s
  | .fatal s => X c s
  | .diverge s => X c s

/-- `Triple` for stoppable code -/
def RTriple {α : Type} (I : Turn → PSt → Prop) (m : RM α) (Q : α → Turn → PSt → Prop) (X : Turn → PSt → Prop) : Prop :=
  ∀ c s, I c s → (m s).Ends (Post Q X) c

section
variable {α β : Type} {I I' X X' Y : Turn → PSt → Prop} {Q Q' R : α → Turn → PSt → Prop} {W : β → Turn → PSt → Prop}

theorem Step.Ends.weaken {st : Step α} {c : Turn} {Z Z' : Turn → POut α → Prop} (h : st.Ends Z c) (hz : ∀ c o, Z c o → Z' c o) : st.Ends Z' c := by
  induction st generalizing c with
  | done o => exact hz c o h
  | wait s k ih => exact ⟨h.1, fun H x h1 h2 => ih x (h.2 H x h1 h2)⟩

theorem RTriple.bind {m : RM α} {f : α → RM β} (h1 : RTriple I m Q X) (h2 : ∀ a, RTriple (Q a) (f a) W X) : RTriple I (m >>= f) W X := by
  intro c s hs
  refine (h1 c s hs).handle fun c o ho => ?_
  cases o with
  | ok a t => exact h2 a c t ho
  | panic p t => exact ho
  | fatal t => exact ho
  | diverge t => exact ho

theorem RTriple.pure {a : α} (h : ∀ c s, I c s → Q a c s) : RTriple I (Pure.pure a : RM α) Q X := fun c s hs => h c s hs

theorem RTriple.ite {p : Prop} [Decidable p] {m n : RM α} (h1 : p → RTriple I m Q X) (h2 : ¬ p → RTriple I n Q X) :
    RTriple I (if p then m else n) Q X := by
  by_cases h : p
  · rw [if_pos h]; exact h1 h
  · rw [if_neg h]; exact h2 h

theorem RTriple.now {m : PM α} (h : ∀ c, Triple (I c) m (fun a => Q a c) (X c)) : RTriple I (RM.now m) Q X := by
  intro c s hs
  have := h c s hs
  show Post Q X c (m s)
  cases hm : m s with
  | ok a t => rw [hm] at this; exact this
  | panic p t => rw [hm] at this; exact this
  | fatal t => rw [hm] at this; exact this
  | diverge t => rw [hm] at this; exact this

theorem RTriple.weaken {m : RM α} (h : RTriple I m Q X) (h1 : ∀ c s, I' c s → I c s) (h2 : ∀ a c s, Q a c s → Q' a c s) (h3 : ∀ c s, X c s → X' c s) :
    RTriple I' m Q' X' := by
  intro c s hs
  refine (h c s (h1 c s hs)).weaken fun c o ho => ?_
  cases o with
  | ok a t => exact h2 a c t ho
  | panic p t => exact h3 c t ho
  | fatal t => exact h3 c t ho
  | diverge t => exact h3 c t ho

theorem RTriple.deferred {m : RM α} {d : RM Unit} (h1 : RTriple I m Q X) (h2 : ∀ a, RTriple (Q a) d (fun _ => R a) Y) (h3 : RTriple X d (fun _ => Y) Y)
    (h4 : ∀ c s, X c s → Y c s) : RTriple I (RM.deferred m d) R Y := by
  intro c s hs
  refine (h1 c s hs).handle fun c o ho => ?_
  cases o with
  | ok a t =>
    refine (h2 a c t ho).handle fun c o ho => ?_
    cases o with
    | ok _ v => exact ho
    | panic p v => exact ho
    | fatal v => exact ho
    | diverge v => exact ho
  | panic p t =>
    refine (h3 c t ho).handle fun c o ho => ?_
    cases o with
    | ok _ v => exact ho
    | panic p v => exact ho
    | fatal v => exact ho
    | diverge v => exact ho
  | fatal t => exact h4 c t ho
  | diverge t => exact h4 c t ho

/-- Where it is a proper user that holds `L`, it does one thing that is seen from outside. -/
def Adds (L : List Slice) (m : PM α) : Prop :=
  ∀ (H : List Nat) (x : Shared) (T : List PEvent), Triple (fun s => Proper H x L s ∧ s.trace = T ∧ s.pool = x.2) m
    (fun _ s => ∃ e, s.trace = T ++ [e] ∧ PoolDid e x.2 s.pool) (fun s => ∃ e, s.trace = T ++ [e] ∧ PoolDid e x.2 s.pool)

theorem adds_since {T : List PEvent} {p : BPool} {s : PSt} (h : ∃ e, s.trace = T ++ [e] ∧ PoolDid e p s.pool) : Since T p s := by
  obtain ⟨e, h1, h2⟩ := h
  exact ⟨[e], h1, .snoc (es := []) e (.nil _) h2⟩
theorem adds_length {T : List PEvent} {p : BPool} {s : PSt} (h : ∃ e, s.trace = T ++ [e] ∧ PoolDid e p s.pool) : T.length + 1 ≤ s.trace.length := by
  obtain ⟨e, h, -⟩ := h
  rw [h]; simp

/-- One use of something shared: it starts a new turn. -/
theorem RTriple.use {m : PM α} {L : List Slice} {Q0 : α → List Nat → Shared → PSt → Prop} {X0 : List Nat → Shared → PSt → Prop}
    (h : ∀ H x, Triple (Proper H x L) m (fun a s => Q0 a H x s) (fun s => X0 H x s)) (hlen : Adds L m)
    (hq : ∀ a H x T n s, Q0 a H x s → Since T x.2 s → n ≤ s.trace.length → Q a ⟨H, x, T, n⟩ s)
    (hx : ∀ H x T n s, X0 H x s → Since T x.2 s → n ≤ s.trace.length → X ⟨H, x, T, n⟩ s) :
    RTriple (Good L) (RM.use m) Q X := by
  intro c s hs
  refine ⟨hs.weaken, fun H x h1 h2 => ?_⟩
  have hp : Proper H x L { s with mem := x.1, pool := x.2 } := by
    refine ⟨h1, .nothing _, fun b hb => ?_⟩
    obtain ⟨g1, g2, g3, g4⟩ := hs.1.has b hb
    exact ⟨g1, g2, g3, by simp only; rw [h2 _ g1]; exact g4⟩
  have k1 := h H x _ hp
  have k2 := hlen H x s.trace { s with mem := x.1, pool := x.2 } ⟨hp, rfl, rfl⟩
  show Post Q X _ (m _)
  cases hm : m { s with mem := x.1, pool := x.2 } with
  | ok a t => rw [hm] at k1 k2; exact hq _ _ _ _ _ _ k1 (adds_since k2) (adds_length k2)
  | panic p t => rw [hm] at k1 k2; exact hx _ _ _ _ _ k1 (adds_since k2) (adds_length k2)
  | fatal t => rw [hm] at k1 k2; exact hx _ _ _ _ _ k1 (adds_since k2) (adds_length k2)
  | diverge t => rw [hm] at k1 k2; exact hx _ _ _ _ _ k1 (adds_since k2) (adds_length k2)
end

theorem alone_neighbours (E : PEnv) (H : List Nat) : Neighbours H E.alone := fun _ _ _ => .nothing _

section
variable (E : PEnv)

theorem adds_get (n : Nat) : Adds [] (poolGet E.alone n) := by
  rintro H x T s ⟨hs, h1, h2⟩
  have hget : ∃ b q, s.pool.GetBySize n = .ok (b, q) := by
    unfold BPool.GetBySize BPool.selectGet
    split
    · exact ⟨_, _, rfl⟩
    · rw [if_neg (by omega)]; exact ⟨_, _, rfl⟩
  obtain ⟨b, q, hg⟩ := hget
  obtain ⟨-, gc, -⟩ := own_get hs.own hg
  have hm : poolGet E.alone n s = (match s.pool.GetBySize n with
    | .ok (b, p) => (do
      PM.modify fun s => { s with pool := p, mem := if p.fresh = s.pool.fresh then s.mem else upd s.mem b.arr (List.replicate b.cap 0) }
      emitP (.get b)
      pure b)
    | .panic p => PM.panic p
    | .err _ => PM.panic .runtime
    | .diverge => PM.panic .runtime : PM Slice) s := rfl
  rw [hm, hg]
  refine ⟨.get b, congrArg (· ++ _) h1, ?_⟩
  show x.2.GetBySize b.cap = .ok (b, q)
  rw [gc, ← h2]; exact hg

theorem adds_put (b : Slice) (L : List Slice) : Adds L (poolPut E.alone b) := by
  rintro H x T s ⟨hs, h1, h2⟩
  exact ⟨.put b, congrArg (· ++ _) h1, congrArg (fun p : BPool => p.Put b) h2⟩

theorem adds_read (b : Slice) (L : List Slice) : Adds L (connRead E.alone b) := by
  rintro H x T s ⟨hs, h1, h2⟩
  exact ⟨_, congrArg (· ++ _) h1, h2⟩

theorem adds_readNew (n : Nat) (L : List Slice) : Adds L (connReadNew E.alone n) := by
  rintro H x T s ⟨hs, h1, h2⟩
  exact ⟨_, congrArg (· ++ _) h1, h2⟩

theorem adds_write (d : Bytes) (L : List Slice) : Adds L (connWrite E.alone d) := by
  rintro H x T s ⟨hs, h1, h2⟩
  exact ⟨_, congrArg (· ++ _) h1, h2⟩

theorem adds_load (b : Slice) (L : List Slice) : Adds L (loadSlice E.alone b) := by
  rintro H x T s ⟨hs, h1, h2⟩
  exact ⟨_, congrArg (· ++ _) h1, h2⟩

/-- one use of something shared by code that is a proper user -/
theorem good_use {α : Type} {m : PM α} {L : List Slice} {L' : α → List Slice} (h : ∀ H x, Triple (Proper H x L) m (fun a => Proper H x (L' a)) (Proper H x []))
    (hlen : Adds L m) :
    RTriple (Good L) (RM.use m) (fun a => Good (L' a)) (Good []) :=
  RTriple.use h hlen (fun _ _ _ _ _ _ h ht hn => ⟨h, ht, hn⟩) fun _ _ _ _ _ h ht hn => ⟨h, ht, hn⟩

theorem good_get (n : Nat) : RTriple (Good []) (poolGetR E n) (fun b => Good [b]) (Good []) :=
  good_use (L' := fun b => [b]) (fun H _ => proper_get (alone_neighbours E H) n) (adds_get _ n)
theorem good_put (b : Slice) : RTriple (Good [b]) (poolPutR E b) (fun _ => Good []) (Good []) :=
  good_use (L' := fun _ => []) (fun H _ => proper_put (alone_neighbours E H) b) (adds_put _ b _)
theorem good_read (b : Slice) : RTriple (Good [b]) (connReadR E b) (fun r c s => Good [b] c s ∧ r.1 ≤ b.cap) (Good []) :=
  RTriple.use (fun H x => proper_read (alone_neighbours E H) b) (adds_read _ b _) (fun _ _ _ _ _ _ h ht hn => ⟨⟨h.1, ht, hn⟩, h.2⟩)
    fun _ _ _ _ _ h ht hn => ⟨h, ht, hn⟩

/-- stoppable code that keeps `Good L`, whatever its end -/
abbrev RKeeps {α : Type} (L : List Slice) (m : RM α) : Prop := RTriple (Good L) m (fun _ => Good L) (Good L)

theorem good_use_keeps {α : Type} {m : PM α} {L : List Slice} (h : ∀ H x, Keeps (Proper H x L) m)
    (hlen : Adds L m) : RKeeps L (RM.use m) :=
  RTriple.use h hlen (fun _ _ _ _ _ _ h ht hn => ⟨h, ht, hn⟩) fun _ _ _ _ _ h ht hn => ⟨h, ht, hn⟩

variable (L : List Slice)
theorem good_load (b : Slice) : RKeeps L (loadSliceR E b) := good_use_keeps (fun H _ => inv_load (proper_inv (alone_neighbours E H) L) b) (adds_load _ b _)
theorem good_write (d : Bytes) : RKeeps L (connWriteR E d) := good_use_keeps (fun H _ => inv_write (proper_inv (alone_neighbours E H) L) d) (adds_write _ d _)
theorem good_readNew (n : Nat) : RKeeps L (connReadNewR E n) := good_use_keeps (fun H _ => inv_readNew (proper_inv (alone_neighbours E H) L) n) (adds_readNew _ n _)

theorem good_inv (c : Turn) : StateInv E.alone (Good L c) := by
  have h := proper_inv (x0 := c.x) (alone_neighbours E c.H) L
  refine ⟨fun s hs => ⟨h.others s hs.1, hs.2⟩, fun e he s hs => ⟨h.emit e he s hs.1, ?_, ?_⟩,
    fun s md sz rq hs => ⟨h.vars s md sz rq hs.1, hs.2⟩⟩
  · obtain ⟨es, h1, h2⟩ := hs.2.1
    refine ⟨es ++ [e], by simp only [h1, List.append_assoc], h2.snoc e ?_⟩
    cases e with
    | get b => exact absurd rfl (he.1 b)
    | put b => exact absurd rfl (he.2 b)
    | _ => rfl
  show c.n ≤ (s.trace ++ [e]).length
  have := hs.2.2
  simp only [List.length_append]
  omega

theorem good_now {α : Type} {m : PM α} (h : ∀ c, Keeps (Good L c) m) : RKeeps L (RM.now m) := RTriple.now h
theorem good_pure {α : Type} (a : α) : RKeeps L (pure a : RM α) := RTriple.pure fun _ _ h => h
theorem good_lift {α : Type} (r : Res α) : RKeeps L (RM.now (PM.lift r)) := good_now L fun _ => Keeps.lift r
theorem good_panic {α : Type} (p : Panic) : RKeeps L (RM.now (PM.panic p) : RM α) := good_now L fun _ => Keeps.panic p
theorem good_getS : RKeeps L (RM.now PM.get) := good_now L fun _ => Keeps.get
theorem good_emit (E : PEnv) (L : List Slice) (e : PEvent) (he : Neutral e) : RKeeps L (RM.now (emitP e)) := good_now L fun c => (good_inv E L c).emit e he
theorem good_make (n : Int) (w : Nat) : RKeeps L (RM.now (makeSized E n w)) := good_now L fun c => inv_make (good_inv E L c) n w
theorem good_expire : RKeeps L (RM.now (IsReadLoopExpire E)) :=
  good_now (m := IsReadLoopExpire E.alone) L fun c => inv_expire (good_inv E L c)
theorem good_bind {α β : Type} {m : RM α} {f : α → RM β} (h1 : RKeeps L m) (h2 : ∀ a, RKeeps L (f a)) : RKeeps L (m >>= f) := RTriple.bind h1 h2
theorem good_ite {α : Type} {p : Prop} [Decidable p] {m n : RM α} (h1 : RKeeps L m) (h2 : RKeeps L n) : RKeeps L (if p then m else n) :=
  RTriple.ite (fun _ => h1) fun _ => h2

theorem good_requestLoop : ∀ n i, RKeeps L (requestLoopR E n i) := by
  intro n
  induction n with
  | zero => intro i; exact good_pure L _
  | succ n ih =>
    intro i
    exact good_bind L (good_getS L) fun _ => good_bind L (good_lift L _) fun _ => good_bind L (good_write E L _) fun _ => good_ite L (good_lift L _) (ih _)

theorem good_merge : ∀ n i r, RKeeps L (mergeLoopR E n i r) := by
  intro n
  induction n with
  | zero => intro i r; exact good_pure L _
  | succ n ih =>
    intro i r
    refine good_bind L (good_getS L) fun s => ?_
    split
    · exact good_panic L _
    · exact ih _ _
    · exact good_bind L (good_load E L _) fun d => ih _ _

theorem good_extended (rb : Slice) (d : Bytes) : RKeeps L (handleExtendedMsgR E rb d) := by
  unfold handleExtendedMsgR
  cases d[1]? with
  | none => exact good_panic L _
  | some c =>
    refine good_ite L ?_ (good_ite L ?_ (good_pure L _))
    · refine good_bind L (good_lift L _) fun _ => good_ite L (good_lift L _) ?_
      refine good_bind L (good_lift L _) fun _ => good_bind L (good_now L fun c s hs => (good_inv E L c).vars s _ _ _ hs) fun _ => ?_
      refine good_bind L (good_make E L _ _) fun _ => good_bind L (good_now L fun c s hs => (good_inv E L c).vars s _ _ _ hs) fun _ => ?_
      refine good_bind L (good_make E L _ _) fun _ => good_bind L (good_now L fun c s hs => (good_inv E L c).vars s _ _ _ hs) fun _ => ?_
      exact good_bind L (good_emit E L _ ⟨by simp, by simp⟩) fun _ => good_requestLoop E L _ _
    · refine good_bind L (good_lift L _) fun r => good_ite L (good_pure L _) (good_bind L (good_getS L) fun s => ?_)
      simp only
      split
      · exact good_panic L _
      · refine good_bind L (good_now L fun c s hs => (good_inv E L c).vars s _ _ _ hs) fun _ => ?_
        split
        · exact good_panic L _
        · exact good_bind L (good_now L fun c s hs => (good_inv E L c).vars s _ _ _ hs) fun _ => good_emit E L _ ⟨by simp, by simp⟩

theorem good_handleMsg (ka : Bool) (rb : Option Slice) (er : Bool) : RKeeps L (handleMsgR E ka rb er) := by
  refine good_ite L (good_pure L _) (good_ite L (good_lift L _) ?_)
  cases rb with
  | none => exact good_panic L _
  | some rb => exact good_bind L (good_load E L _) fun d => good_bind L (good_lift L _) fun t => good_ite L (good_extended E L _ _) (good_pure L _)

theorem good_handler : RKeeps [] (readMetaDataHandlerR E) := by
  have hrd : RTriple (Good []) (readBytesByPrefixLenMsgR E)
      (fun r => Good (match r.2.1 with | some b => [b] | none => [])) (Good []) := by
    refine RTriple.bind (good_get E _) fun b => RTriple.bind (good_read E b) fun r => ?_
    refine RTriple.ite (fun _ => RTriple.pure fun _ _ h => h.1.weaken) fun _ => ?_
    unfold readAfterPrefixR
    refine RTriple.bind (Q := fun _ => Good [b]) (RTriple.weaken (good_load E [b] b) (fun _ _ h => h.1) (fun _ _ _ h => h) fun _ _ h => h.weaken) fun pre => ?_
    refine RTriple.ite (fun _ => RTriple.now fun _ => Triple.panic fun _ h => h.weaken) fun _ => RTriple.ite (fun _ => RTriple.pure fun _ _ h => h.weaken) fun _ => ?_
    refine RTriple.bind (good_put E b) fun _ => RTriple.ite (fun _ => RTriple.pure fun _ _ h => h) fun _ => ?_
    refine RTriple.bind (good_get E _) fun buf => RTriple.bind (good_read E buf) fun r => ?_
    refine RTriple.ite (fun _ => RTriple.pure fun _ _ h => h.1.weaken) fun _ => RTriple.pure fun c s h => ⟨⟨h.1.1.own, h.1.1.did, fun d hd => ?_⟩, h.1.2⟩
    simp only [List.mem_singleton] at hd
    subst hd
    have := h.1.1.has buf (by simp)
    exact ⟨this.1, h.2, this.2.2⟩
  refine RTriple.bind hrd fun r => ?_
  cases hb : r.2.1 with
  | none =>
    exact RTriple.deferred (good_handleMsg E [] _ _ _) (fun _ => RTriple.pure fun _ _ h => h) (RTriple.pure fun _ _ h => h) fun _ _ h => h
  | some b =>
    refine RTriple.deferred (good_handleMsg E [b] _ _ _) (fun _ => ?_) ?_ fun _ _ h => h.weaken
    · exact RTriple.ite (fun _ => good_put E b) fun _ => RTriple.pure fun _ _ h => h.weaken
    · exact RTriple.ite (fun _ => good_put E b) fun _ => RTriple.pure fun _ _ h => h.weaken

theorem good_loop : ∀ n, RKeeps [] (readMetaDataLoopR E n) := by
  intro n
  induction n with
  | zero => intro c s hs; exact hs
  | succ n ih =>
    exact good_bind [] (good_getS []) fun s => good_ite [] (good_pure [] _) (good_bind [] (good_expire E []) fun e =>
      good_ite [] (good_pure [] _) (good_bind [] (good_handler E) fun _ => ih))

/-- A stoppable download is a proper user of the pool in every turn. -/
theorem good_fetch (sha1 : Bytes → Bytes) (fold : FoldTable) (fuel : Nat) (p h : Bytes) : RKeeps [] (fetchBodyR E sha1 fold fuel p h) := by
  unfold fetchBodyR
  refine good_bind [] ?_ fun _ => good_bind [] ?_ fun _ => good_bind [] (good_loop E _) fun _ => good_bind [] (good_getS []) fun s => ?_
  · unfold handshakePeerR
    refine good_bind [] (good_lift [] _) fun _ => good_bind [] (good_write E [] _) fun _ => good_ite [] (good_lift [] _) ?_
    refine good_bind [] (good_readNew E [] _) fun r => ?_
    refine good_ite [] (good_lift [] _) (good_bind [] (good_lift [] _) fun _ => good_ite [] (good_lift [] _) ?_)
    exact good_bind [] (good_lift [] _) fun _ => good_ite [] (good_lift [] _) (good_pure [] _)
  · exact good_bind [] (good_getS []) fun _ => good_bind [] (good_lift [] _) fun _ => good_bind [] (good_write E [] _) fun _ => good_ite [] (good_lift [] _) (good_pure [] _)
  · refine good_ite [] (good_pure [] _) (good_bind [] (good_make E [] _ _) fun _ => good_bind [] (good_merge E [] _ _ _) fun r => ?_)
    exact good_ite [] (good_pure [] _) (good_pure [] _)
end

end P2P

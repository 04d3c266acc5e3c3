import Verif.Model.DownloadLog
import Verif.Props.Console
import Verif.Props.Peerwire
/-! # Reasoning about downloads with their log -/
namespace P2P

/-- the complaints about fields of the peer's dictionaries -/
def dlComplaints : List Bytes :=
  [b!"cannot find m's val", b!"m's val cannot match type of Dict"] ++
  [b!"metadata_size", b!"msg_type", b!"piece", b!"total_size"].flatMap fun k =>
    [b!"cannot find " ++ k ++ b!"'s val", k ++ b!"'s val cannot match type of int"]

/-- a panic of the Go runtime, or one about a field -/
def DlPanic (p : Panic) : Prop := p = .runtime ∨ ∃ m ∈ dlComplaints, p = .biz m

/-- the panics of this code are not those of a logger -/
def NotLogged {α : Type} (m : PM α) : Prop := ∀ s p t, m s = .panic p t → DlPanic p

theorem DlPanic.not_str {m : Bytes} (h : DlPanic (.str m)) : False := by
  rcases h with h | ⟨m, -, h⟩ <;> cases h

/-- After outcome `o` with the new records `r`: a panic with a string has its record, the only one of the method `Panic` and the last; otherwise
there is no such record. -/
def PanicTail {α : Type} (o : POut α) (r : List LogRec) : Prop :=
  (∃ msg t r' x, o = .panic (.str msg) t ∧ r = r' ++ [x] ∧ x.method = .Panic ∧ x.msg = msg ∧ ∀ y ∈ r', y.method ≠ .Panic) ∨
  ((∀ p t, o = .panic p t → DlPanic p) ∧ ∀ y ∈ r, y.method ≠ .Panic)

/-- `mL` does what `m` does and logs records that satisfy `Q`. -/
def Tells {α : Type} (Q : LogRec → Prop) (mL : PL α) (m : PM α) : Prop :=
  ∀ s l, ∃ r, mL s l = (m s, l ++ r) ∧ (∀ x ∈ r, Q x) ∧ PanicTail (m s) r

theorem PL.bind_apply {α β : Type} (m : PL α) (f : α → PL β) (s : PSt) (l : List LogRec) :
    (m >>= f) s l = (match m s l with
      | (.ok a s', l') => f a s' l'
      | (.panic p s', l') => (.panic p s', l')
      | (.fatal s', l') => (.fatal s', l')
      | (.diverge s', l') => (.diverge s', l')) := rfl

namespace Tells
variable {α β : Type} {Q : LogRec → Prop}

theorem quiet {m : PM α} (h : NotLogged m) : Tells Q (PL.quiet m) m := fun s l =>
  ⟨[], by simp [PL.quiet], by simp, .inr ⟨h s, by simp⟩⟩

theorem pure (a : α) : Tells Q (Pure.pure a) (Pure.pure a) := fun s l =>
  ⟨[], by simp; rfl, by simp, .inr ⟨(fun _ _ h => by cases h), by simp⟩⟩

theorem bindOk {mL : PL α} {m : PM α} {fL : α → PL β} {f : α → PM β} (h : Tells Q mL m)
    (hf : ∀ a, (∃ s t, m s = .ok a t) → Tells Q (fL a) (f a)) : Tells Q (mL >>= fL) (m >>= f) := by
  intro s l
  obtain ⟨r, h1, h2, h3⟩ := h s l
  rw [PL.bind_apply, h1, PM.bind_apply]
  cases hm : m s with
  | ok a s' =>
    simp only
    rw [hm] at h3
    obtain ⟨r', k1, k2, k3⟩ := hf a ⟨s, s', hm⟩ s' (l ++ r)
    refine ⟨r ++ r', by rw [k1, List.append_assoc], ?_, ?_⟩
    · intro x hx
      rcases List.mem_append.1 hx with hx | hx
      · exact h2 x hx
      · exact k2 x hx
    · have hn : ∀ y ∈ r, y.method ≠ .Panic := by
        rcases h3 with ⟨msg, t, r1, x, h, -⟩ | ⟨-, h⟩
        · cases h
        · exact h
      rcases k3 with ⟨msg, t, r1, x, e, e1, e2, e3, e4⟩ | ⟨e1, e2⟩
      · refine .inl ⟨msg, t, r ++ r1, x, e, by rw [e1, List.append_assoc], e2, e3, ?_⟩
        intro y hy
        rcases List.mem_append.1 hy with hy | hy
        · exact hn y hy
        · exact e4 y hy
      · refine .inr ⟨e1, ?_⟩
        intro y hy
        rcases List.mem_append.1 hy with hy | hy
        · exact hn y hy
        · exact e2 y hy
  | panic p s' =>
    refine ⟨r, rfl, h2, ?_⟩
    rw [hm] at h3
    rcases h3 with ⟨msg, t, r1, x, e, h3⟩ | ⟨e, h3⟩
    · cases e; exact .inl ⟨msg, s', r1, x, rfl, h3⟩
    · exact .inr ⟨fun p t h => by cases h; exact e _ s' rfl, h3⟩
  | fatal s' =>
    refine ⟨r, rfl, h2, .inr ⟨(fun _ _ h => by cases h), ?_⟩⟩
    rw [hm] at h3
    rcases h3 with ⟨msg, t, r1, x, e, -⟩ | ⟨-, h3⟩
    · cases e
    · exact h3
  | diverge s' =>
    refine ⟨r, rfl, h2, .inr ⟨(fun _ _ h => by cases h), ?_⟩⟩
    rw [hm] at h3
    rcases h3 with ⟨msg, t, r1, x, e, -⟩ | ⟨-, h3⟩
    · cases e
    · exact h3

theorem bind {mL : PL α} {m : PM α} {fL : α → PL β} {f : α → PM β} (h : Tells Q mL m) (hf : ∀ a, Tells Q (fL a) (f a)) :
    Tells Q (mL >>= fL) (m >>= f) := bindOk h fun a _ => hf a

theorem ite {c : Prop} [Decidable c] {mL nL : PL α} {m n : PM α} (h1 : c → Tells Q mL m) (h2 : ¬ c → Tells Q nL n) :
    Tells Q (if c then mL else nL) (if c then m else n) := by
  by_cases h : c
  · rw [if_pos h, if_pos h]; exact h1 h
  · rw [if_neg h, if_neg h]; exact h2 h

/-- a record, then the rest -/
theorem log {x : LogRec} (hx : Q x) (hm : x.method ≠ .Panic) {fL : Unit → PL α} {m : PM α} (h : Tells Q (fL ()) m) :
    Tells Q (PL.log x >>= fL) m := by
  intro s l
  obtain ⟨r, h1, h2, h3⟩ := h s (l ++ [x])
  refine ⟨x :: r, ?_, ?_, ?_⟩
  · rw [PL.bind_apply]; simp only [PL.log]; rw [h1]; simp
  · intro y hy
    rcases List.mem_cons.1 hy with rfl | hy
    · exact hx
    · exact h2 y hy
  · rcases h3 with ⟨msg, t, r1, y, e, e1, e2, e3, e4⟩ | ⟨e, h3⟩
    · refine .inl ⟨msg, t, x :: r1, y, e, by rw [e1]; rfl, e2, e3, ?_⟩
      intro z hz
      rcases List.mem_cons.1 hz with rfl | hz
      · exact hm
      · exact e4 z hz
    · refine .inr ⟨e, ?_⟩
      intro z hz
      rcases List.mem_cons.1 hz with rfl | hz
      · exact hm
      · exact h3 z hz

theorem logEnd {x : LogRec} (hx : Q x) (hm : x.method ≠ .Panic) : Tells Q (PL.log x) (Pure.pure ()) := fun s l =>
  ⟨[x], rfl, by simpa using hx, .inr ⟨(fun _ _ h => by cases h), by simpa using hm⟩⟩

theorem logPanic {pfx msg : Bytes} {ctx : List (Bytes × LogVal)} (h : Q { pfx, method := .Panic, msg, ctx := some ctx }) :
    Tells Q (PL.logPanic pfx msg ctx : PL α) (PM.lift (P2P.logPanic msg)) := fun s l =>
  ⟨[{ pfx, method := .Panic, msg, ctx := some ctx }], rfl, by simpa using h, .inl ⟨msg, s, [], _, rfl, rfl, rfl, rfl, by simp⟩⟩

/-- looking at the state for the sake of the log only -/
theorem peek {fL : PSt → PL α} {m : PM α} (h : ∀ s0, Tells Q (fL s0) m) : Tells Q (PL.quiet PM.get >>= fL) m := fun s l => h s s l

theorem codec {r : Res α} {ctx : Bytes → List (Bytes × LogVal)}
    (h : ∀ p, r = .panic p → DlPanic p ∨ ∃ msg, p = .str msg ∧ Q { pfx := b!"peerwire", method := .Panic, msg, ctx := some (ctx msg) }) :
    Tells Q (PL.codec r ctx) (PM.lift r) := by
  unfold PL.codec
  split
  · rename_i msg
    rcases h _ rfl with h | ⟨m, e, h⟩
    · exact h.not_str.elim
    · cases e; exact logPanic h
  · rename_i h1
    refine quiet fun s p t hp => ?_
    cases hr : r with
    | ok a => rw [hr] at hp; cases hp
    | err e => rw [hr] at hp; cases hp; exact .inl rfl
    | panic p' =>
      rw [hr] at hp
      simp only [PM.lift_panic] at hp
      cases hp
      rcases h _ hr with h | ⟨m, e, h⟩
      · exact h
      · cases e; exact absurd hr (h1 m)
    | diverge => rw [hr] at hp; cases hp

theorem deferred {mL : PL α} {m : PM α} {c : PM Unit} (h : Tells Q mL m) (hc : ∀ s, ∃ t, c s = .ok () t) :
    Tells Q (PL.deferred mL c) (PM.deferred m c) := by
  intro s l
  obtain ⟨r, h1, h2, h3⟩ := h s l
  have e : PM.deferred (fun _ => m s) c s = PM.deferred m c s := rfl
  refine ⟨r, ?_, h2, ?_⟩
  · simp only [PL.deferred, h1]; rw [e]
  · unfold PM.deferred
    cases hm : m s with
    | ok a s' =>
      obtain ⟨t, ht⟩ := hc s'
      simp only [ht]
      rw [hm] at h3
      rcases h3 with ⟨msg, t, r1, x, e, -⟩ | ⟨-, h3⟩
      · cases e
      · exact .inr ⟨(fun _ _ h => by cases h), h3⟩
    | panic p s' =>
      obtain ⟨t, ht⟩ := hc s'
      simp only [ht]
      rw [hm] at h3
      rcases h3 with ⟨msg, t', r1, x, e, h3⟩ | ⟨e, h3⟩
      · cases e; exact .inl ⟨msg, t, r1, x, rfl, h3⟩
      · exact .inr ⟨fun p t h => by cases h; exact e _ s' rfl, h3⟩
    | fatal s' =>
      rw [hm] at h3
      rcases h3 with ⟨msg, t, r1, x, e, -⟩ | ⟨-, h3⟩
      · cases e
      · exact .inr ⟨(fun _ _ h => by cases h), h3⟩
    | diverge s' =>
      rw [hm] at h3
      rcases h3 with ⟨msg, t, r1, x, e, -⟩ | ⟨-, h3⟩
      · cases e
      · exact .inr ⟨(fun _ _ h => by cases h), h3⟩

end Tells

/-! ## Code that does not log -/
namespace NotLogged
variable {α β : Type}

theorem pure (a : α) : NotLogged (Pure.pure a : PM α) := fun _ _ _ h => by cases h
theorem runtime : NotLogged (PM.panic .runtime : PM α) := fun _ _ _ h => by cases h; exact .inl rfl
theorem get : NotLogged PM.get := fun _ _ _ h => by cases h
theorem modify (f : PSt → PSt) : NotLogged (PM.modify f) := fun _ _ _ h => by cases h
theorem emit (e : PEvent) : NotLogged (emitP e) := fun _ _ _ h => by cases h
theorem fatal : NotLogged (fun s => .fatal s : PM α) := fun _ _ _ h => by cases h
theorem diverge : NotLogged (fun s => .diverge s : PM α) := fun _ _ _ h => by cases h

theorem bind {m : PM α} {f : α → PM β} (h : NotLogged m) (hf : ∀ a, NotLogged (f a)) : NotLogged (m >>= f) := by
  intro s p t
  rw [PM.bind_apply]
  cases hm : m s with
  | ok a s' => exact hf a s' p t
  | panic p s' =>
    intro e
    cases e
    exact h s _ _ hm
  | fatal s' => intro e; cases e
  | diverge s' => intro e; cases e

theorem ite {c : Prop} [Decidable c] {m n : PM α} (h1 : NotLogged m) (h2 : NotLogged n) : NotLogged (if c then m else n) := by
  by_cases h : c
  · rw [if_pos h]; exact h1
  · rw [if_neg h]; exact h2

theorem lift {r : Res α} (h : ∀ p, r = .panic p → DlPanic p) : NotLogged (PM.lift r) := by
  intro s p t hp
  cases r with
  | ok a => cases hp
  | err e => cases hp; exact .inl rfl
  | panic p => cases hp; exact h _ rfl
  | diverge => cases hp

theorem others (E : PEnv) : NotLogged (P2P.others E) := modify _

theorem poolGet (E : PEnv) (n : Nat) : NotLogged (P2P.poolGet E n) := by
  refine bind (others E) fun _ => bind get fun s => ?_
  cases hg : s.pool.GetBySize n with
  | ok r => exact bind (modify _) fun _ => bind (emit _) fun _ => pure _
  | err _ => exact runtime
  | panic p =>
    unfold BPool.GetBySize BPool.selectGet at hg
    split at hg
    · cases hg
    · rw [if_neg (by omega)] at hg; cases hg
  | diverge => exact runtime

theorem poolPut (E : PEnv) (b : Slice) : NotLogged (P2P.poolPut E b) := bind (others E) fun _ => bind (modify _) fun _ => emit _
theorem connRead (E : PEnv) (b : Slice) : NotLogged (P2P.connRead E b) :=
  bind (others E) fun _ => bind get fun _ => bind (modify _) fun _ => bind (emit _) fun _ => pure _
theorem connReadNew (E : PEnv) (n : Nat) : NotLogged (P2P.connReadNew E n) :=
  bind (others E) fun _ => bind get fun _ => bind (emit _) fun _ => pure _
theorem connWrite (E : PEnv) (d : Bytes) : NotLogged (P2P.connWrite E d) :=
  bind (others E) fun _ => bind get fun _ => bind (emit _) fun _ => pure _
theorem loadSlice (E : PEnv) (b : Slice) : NotLogged (P2P.loadSlice E b) := bind (others E) fun _ => bind get fun _ => bind (emit _) fun _ => pure _
theorem makeSized (E : PEnv) (n : Int) (w : Nat) : NotLogged (P2P.makeSized E n w) :=
  ite runtime (ite runtime (bind (emit _) fun _ => bind get fun _ => ite fatal (pure _)))
theorem expire (E : PEnv) : NotLogged (IsReadLoopExpire E) := bind get fun _ => bind (emit _) fun _ => pure _

theorem readBytes (E : PEnv) : NotLogged (readBytesByPrefixLenMsg E) := by
  refine bind (poolGet E _) fun _ => bind (connRead E _) fun _ => ite (pure _) ?_
  refine bind (loadSlice E _) fun _ => ite runtime (ite (pure _) ?_)
  refine bind (poolPut E _) fun _ => ite (pure _) (bind (poolGet E _) fun _ => bind (connRead E _) fun _ => ?_)
  exact ite (pure _) (pure _)

theorem merge (E : PEnv) (n i : Nat) (r : Bytes) : NotLogged (mergeLoop E n i r) := by
  induction n generalizing i r with
  | zero => exact pure _
  | succ n ih =>
    refine bind get fun s => ?_
    split
    · exact runtime
    · exact ih _ _
    · exact bind (loadSlice E _) fun _ => ih _ _

end NotLogged

theorem dl_complaint {k : Bytes} (hk : k ∈ [b!"metadata_size", b!"msg_type", b!"piece", b!"total_size"]) :
    (b!"cannot find " ++ k ++ b!"'s val") ∈ dlComplaints ∧ (k ++ b!"'s val cannot match type of int") ∈ dlComplaints :=
  ⟨List.mem_append_right _ (List.mem_flatMap.2 ⟨k, hk, by simp⟩), List.mem_append_right _ (List.mem_flatMap.2 ⟨k, hk, by simp⟩)⟩

theorem dl_getInteger {d : Entries} {k : Bytes} (hk : k ∈ [b!"metadata_size", b!"msg_type", b!"piece", b!"total_size"]) {p : Panic}
    (h : Dict.GetInteger d k = .panic p) : DlPanic p := by
  unfold Dict.GetInteger Dict.GetVal at h
  cases hd : dictGet d k with
  | none => rw [hd] at h; cases h; exact .inr ⟨_, (dl_complaint hk).1, rfl⟩
  | some v =>
    rw [hd] at h
    simp only [Res.bind_ok] at h
    split at h
    · cases h
    · cases h; exact .inr ⟨_, (dl_complaint hk).2, rfl⟩

theorem dl_getDict {d : Entries} {p : Panic} (h : Dict.GetDict d b!"m" = .panic p) : DlPanic p := by
  unfold Dict.GetDict Dict.GetVal at h
  cases hd : dictGet d b!"m" with
  | none => rw [hd] at h; cases h; exact .inr ⟨_, List.mem_append_left _ (by decide), rfl⟩
  | some v =>
    rw [hd] at h
    simp only [Res.bind_ok] at h
    split at h
    · cases h
    · cases h; exact .inr ⟨_, List.mem_append_left _ (by decide), rfl⟩

theorem dl_bind {α β : Type} {P : Panic → Prop} {r : Res α} {f : α → Res β} (h1 : ∀ p, r = .panic p → P p) (h2 : ∀ a p, f a = .panic p → P p) :
    ∀ p, (r >>= f) = .panic p → P p := by
  intro p h
  cases r with
  | ok a => exact h2 a p h
  | err e => cases h
  | panic p' => cases h; exact h1 _ rfl
  | diverge => cases h



theorem putBack_returns (E : PEnv) (rb : Option Slice) (s : PSt) : ∃ t, putBack E rb s = .ok () t := by
  cases rb with
  | none => exact ⟨_, rfl⟩
  | some b =>
    unfold putBack
    by_cases h : b.cap > 0
    · simp only [h, if_true]; exact ⟨_, rfl⟩
    · simp only [h, if_false]; exact ⟨_, rfl⟩

end P2P

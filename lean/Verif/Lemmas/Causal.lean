import Verif.Lemmas.Answered
/-! # What a packet handler does depends only on the answers it has had so far

Two oracles that agree on everything asked before the interactions `P` are complete lead to the same first interactions. -/
namespace P2P

section
variable {σ α β : Type} (T : σ → List Event) (P : List Event)

/-- `P` is complete -/
def Ahead (l : List Event) : Prop := P <+: l
/-- not yet -/
def Short (l : List Event) : Prop := l <+: P ∧ l ≠ P
/-- something else than `P` has happened -/
def Away (l : List Event) : Prop := ¬ P <+: l ∧ ¬ l <+: P

def outAll (Q : σ → Prop) : Out σ α → Prop
  | .ok _ s => Q s
  | .panic _ s => Q s
  | .diverge => True

/-- `m` and `m'` do the same as long as `P` is not complete -/
structure Sim (m m' : GoM σ α) : Prop where
  short : ∀ s, Short P (T s) → (m' s = m s ∧ outAll (fun t => Short P (T t)) (m s)) ∨ outAll (fun t => Ahead P (T t)) (m' s) ∨
    outAll (fun t => Away P (T t)) (m s)
  ahead : ∀ s, Ahead P (T s) → outAll (fun t => Ahead P (T t)) (m' s)
  away : ∀ s, Away P (T s) → outAll (fun t => Away P (T t)) (m s)

variable {T P}

theorem outAll_bind {Q : σ → Prop} {m : GoM σ α} {f : α → GoM σ β} {s : σ} (hm : outAll Q (m s)) (hf : ∀ a t, Q t → outAll Q (f a t)) :
    outAll Q ((m >>= f) s) := by
  rw [GoM.bind_apply]
  revert hm
  cases m s with
  | ok a t => intro h; exact hf a t h
  | panic p t => intro h; exact h
  | diverge => intro; trivial

theorem Sim.bind {m m' : GoM σ α} {f f' : α → GoM σ β} (hm : Sim T P m m') (hf : ∀ a, Sim T P (f a) (f' a)) : Sim T P (m >>= f) (m' >>= f') where
  short s hs := by
    rcases hm.short s hs with ⟨h1, h2⟩ | h | h
    · rw [GoM.bind_apply, GoM.bind_apply, h1]
      revert h2
      cases m s with
      | ok a t => intro h2; exact (hf a).short t h2
      | panic p t => intro h2; exact .inl ⟨rfl, h2⟩
      | diverge => intro _; exact .inr (.inl trivial)
    · exact .inr (.inl (outAll_bind h fun a t => (hf a).ahead t))
    · exact .inr (.inr (outAll_bind h fun a t => (hf a).away t))
  ahead s hs := outAll_bind (hm.ahead s hs) fun a t => (hf a).ahead t
  away s hs := outAll_bind (hm.away s hs) fun a t => (hf a).away t

theorem outAll_recover {Q : σ → Prop} {m : GoM σ α} {f : Panic → GoM σ α} {s : σ} (hm : outAll Q (m s)) (hf : ∀ a t, Q t → outAll Q (f a t)) :
    outAll Q (GoM.recoverWith m f s) := by
  unfold GoM.recoverWith
  revert hm
  cases m s with
  | ok a t => intro h; exact h
  | panic p t => intro h; exact hf p t h
  | diverge => intro; trivial

theorem Sim.recover {m m' : GoM σ α} {f f' : Panic → GoM σ α} (hm : Sim T P m m') (hf : ∀ a, Sim T P (f a) (f' a)) :
    Sim T P (GoM.recoverWith m f) (GoM.recoverWith m' f') where
  short s hs := by
    rcases hm.short s hs with ⟨h1, h2⟩ | h | h
    · unfold GoM.recoverWith
      rw [h1]
      revert h2
      cases m s with
      | ok a t => intro h2; exact .inl ⟨rfl, h2⟩
      | panic p t => intro h2; exact (hf p).short t h2
      | diverge => intro _; exact .inr (.inl trivial)
    · exact .inr (.inl (outAll_recover h fun a t => (hf a).ahead t))
    · exact .inr (.inr (outAll_recover h fun a t => (hf a).away t))
  ahead s hs := outAll_recover (hm.ahead s hs) fun a t => (hf a).ahead t
  away s hs := outAll_recover (hm.away s hs) fun a t => (hf a).away t

/-- code that only looks at the state -/
theorem Sim.ask {g g' : σ → GoM σ α} (h : ∀ c, Sim T P (g c) (g' c)) : Sim T P (fun c => g c c) (fun c => g' c c) where
  short s hs := (h s).short s hs
  ahead s hs := (h s).ahead s hs
  away s hs := (h s).away s hs

/-- code that looks something up, which is the same in both as long as `P` is not complete -/
theorem Sim.read {X : Type} {G G' : X → GoM σ α} (h : ∀ x, Sim T P (G x) (G' x)) {x x' : σ → X} (hx : ∀ s, Short P (T s) → x' s = x s) :
    Sim T P (fun s => G (x s) s) (fun s => G' (x' s) s) where
  short s hs := by rw [hx s hs]; exact (h (x s)).short s hs
  ahead s hs := (h (x' s)).ahead s hs
  away s hs := (h (x s)).away s hs

/-- code that leaves the trace alone -/
theorem Sim.still {m : GoM σ α} (h : ∀ s, outAll (fun t => T t = T s) (m s)) : Sim T P m m := by
  have key : ∀ (Q : List Event → Prop) s, Q (T s) → outAll (fun t => Q (T t)) (m s) := by
    intro Q s hQ
    have := h s
    revert this
    cases m s with
    | ok a t => intro (e : T t = T s); show Q (T t); rw [e]; exact hQ
    | panic p t => intro (e : T t = T s); show Q (T t); rw [e]; exact hQ
    | diverge => intro; trivial
  exact ⟨fun s hs => .inl ⟨rfl, key _ s hs⟩, fun s hs => key _ s hs, fun s hs => key _ s hs⟩

theorem Sim.pure (a : α) : Sim T P (Pure.pure a : GoM σ α) (Pure.pure a) := .still fun _ => rfl
theorem Sim.panic (p : Panic) : Sim T P (GoM.panic p : GoM σ α) (GoM.panic p) := .still fun _ => rfl
theorem Sim.get : Sim T P (GoM.get : GoM σ σ) GoM.get := .still fun _ => rfl
theorem Sim.lift (r : Res α) : Sim T P (GoM.lift r : GoM σ α) (GoM.lift r) := by
  refine .still fun s => ?_
  cases r <;> first | rfl | trivial
theorem Sim.diverge : Sim T P (fun _ => .diverge : GoM σ α) (fun _ => .diverge) := .still fun _ => trivial

theorem Ahead.snoc {l : List Event} (h : Ahead P l) (e : Event) : Ahead P (l ++ [e]) := h.trans (List.prefix_append _ _)
theorem Away.snoc {l : List Event} (h : Away P l) (e : Event) : Away P (l ++ [e]) := by
  refine ⟨fun h1 => ?_, fun h1 => h.2 ((List.prefix_append _ _).trans h1)⟩
  rcases List.prefix_or_prefix_of_prefix h1 (List.prefix_append l [e]) with x | x
  · exact h.1 x
  · exact h.2 x
theorem Short.snoc {l : List Event} (h : Short P l) (e : Event) : Short P (l ++ [e]) ∨ Ahead P (l ++ [e]) ∨ Away P (l ++ [e]) := by
  by_cases h1 : l ++ [e] <+: P
  · by_cases h2 : l ++ [e] = P
    · exact .inr (.inl ⟨[], by rw [h2]; simp⟩)
    · exact .inl ⟨h1, h2⟩
  · by_cases h2 : P <+: l ++ [e]
    · exact .inr (.inl h2)
    · exact .inr (.inr ⟨h2, h1⟩)
end

/-- the two oracles give the same answers as long as `P` is not complete -/
def AgreeUntil (P : List Event) (O O' : Oracle) : Prop :=
  ∀ l, Short P l → O'.lookup l = O.lookup l ∧ O'.addNode l = O.addNode l ∧ O'.nextTx l = O.nextTx l ∧ O'.sendFails l = O.sendFails l ∧
    O'.order l = O.order l ∧ O'.stack l = O.stack l

section
variable {P : List Event} {O O' : Oracle}

abbrev HSim {α : Type} (P : List Event) (m m' : HM α) : Prop := Sim HSt.trace P m m'

/-- one interaction, the answer to which is the same in both -/
theorem HSim.event {α : Type} {a a' : HSt → α} {e e' : HSt → Event} (h : ∀ s, Short P s.trace → a' s = a s ∧ e' s = e s) :
    HSim P (fun s => .ok (a s) { s with trace := s.trace ++ [e s] }) (fun s => .ok (a' s) { s with trace := s.trace ++ [e' s] }) where
  short s hs := by
    obtain ⟨h1, h2⟩ := h s hs
    rw [h1, h2]
    rcases hs.snoc (e s) with x | x | x
    · exact .inl ⟨rfl, x⟩
    · exact .inr (.inl x)
    · exact .inr (.inr x)
  ahead s hs := hs.snoc _
  away s hs := hs.snoc _

theorem sim_emit (e : Event) : HSim P (emit e) (emit e) := HSim.event (a := fun _ => ()) (e := fun _ => e) fun _ _ => ⟨rfl, rfl⟩

theorem sim_getReq (h : AgreeUntil P O O') (t : Bytes) : HSim P (getReq O t) (getReq O' t) :=
  HSim.event (a := fun s => O.lookup s.trace t) (e := fun s => .lookup t (O.lookup s.trace t)) fun s hs => by rw [(h _ hs).1]; exact ⟨rfl, rfl⟩
theorem sim_tableAdd (h : AgreeUntil P O O') (n : NodeInfo) : HSim P (tableAdd O n) (tableAdd O' n) :=
  HSim.event (a := fun s => O.addNode s.trace n) (e := fun s => .addNode n (O.addNode s.trace n)) fun s hs => by rw [(h _ hs).2.1]; exact ⟨rfl, rfl⟩
theorem sim_nextTxId (h : AgreeUntil P O O') : HSim P (nextTxId O) (nextTxId O') :=
  HSim.event (a := fun s => txIdText (O.nextTx s.trace)) (e := fun s => .nextTx (O.nextTx s.trace)) fun s hs => by rw [(h _ hs).2.2.1]; exact ⟨rfl, rfl⟩
theorem sim_SendPacket (h : AgreeUntil P O O') (data : Bytes) (to : UDPAddr) : HSim P (SendPacket O data to) (SendPacket O' data to) :=
  HSim.event (a := fun s => O.sendFails s.trace) (e := fun s => .send to data (O.sendFails s.trace)) fun s hs => by
    rw [(h _ hs).2.2.2.1]; exact ⟨rfl, rfl⟩
theorem sim_writeAs (r : Response) : HSim P (writeAs r) (writeAs r) := .still fun _ => rfl

/-- what both do once a text has been computed (`EncodeDict`) -/
theorem sim_encode {α : Type} {ok ok' : Bytes → HM α} {err err' : GoErr → HM α} (h1 : ∀ b, HSim P (ok b) (ok' b)) (h2 : ∀ b, HSim P (err b) (err' b))
    {x x' : HSt → Res Bytes} (hx : ∀ s, Short P s.trace → x' s = x s) :
    HSim P (GoM.get >>= fun s => (match x s with | .ok raw => ok raw | .err e => err e | .panic p => GoM.panic p | .diverge => fun _ => .diverge))
      (GoM.get >>= fun s => (match x' s with | .ok raw => ok' raw | .err e => err' e | .panic p => GoM.panic p | .diverge => fun _ => .diverge)) := by
  refine Sim.read (T := HSt.trace) (G := fun r => (match r with | .ok raw => ok raw | .err e => err e | .panic p => GoM.panic p | .diverge => fun _ => .diverge))
    (G' := fun r => (match r with | .ok raw => ok' raw | .err e => err' e | .panic p => GoM.panic p | .diverge => fun _ => .diverge)) (fun r => ?_) hx
  cases r with
  | ok b => exact h1 b
  | err e => exact h2 e
  | panic p => exact .panic p
  | diverge => exact .diverge

theorem sim_Query (h : AgreeUntil P O O') (addr : UDPAddr) (req : Request) : HSim P (Query O addr req) (Query O' addr req) := by
  refine .bind (sim_emit _) (fun _ => ?_)
  refine sim_encode (fun b => .bind (sim_SendPacket h _ _) (fun f => by cases f <;> exact .pure _)) (fun e => .pure _) (fun s hs => ?_)
  rw [(h _ hs).2.2.2.2.1]

theorem sim_findNode (h : AgreeUntil P O O') (K : KEnv) (ns : List NodeInfo) : HSim P (findNodeRespHandler K O ns) (findNodeRespHandler K O' ns) := by
  induction ns with
  | nil => exact .pure _
  | cons n r ih =>
    refine .bind (sim_tableAdd h n) (fun e => ?_)
    cases e with
    | some _ => exact ih
    | none => exact .bind (sim_nextTxId h) (fun _ => .bind (sim_Query h _ _) (fun _ => ih))

theorem sim_genericResp (h : AgreeUntil P O O') (K : KEnv) (a : HArgs) : HSim P (genericResp K O a) (genericResp K O' a) := by
  refine .bind .get (fun s => ?_)
  cases s.resp with
  | none => exact .panic _
  | some resp =>
    refine .bind (.lift _) (fun _ => ?_)
    split
    · exact .pure _
    · split
      · exact .bind (.lift _) (fun _ => .bind (.lift _) (fun _ => sim_findNode h K _))
      · split
        · simp only
          split
          · exact .bind (.lift _) (fun _ => .bind (.lift _) (fun _ => .pure _))
          · exact .bind (.lift _) (fun _ => .bind (.lift _) (fun _ => .pure _))
        · exact .pure _

/-- handlers of the same shape -/
inductive ProgSim (P : List Event) : Prog HSt → Prog HSt → Prop where
  | ret : ProgSim P .ret .ret
  | eff {f f' : HM Unit} {k k'} : HSim P f f' → ProgSim P k k' → ProgSim P (.eff f k) (.eff f' k')
  | ask {k k'} : (∀ s, ProgSim P (k s) (k' s)) → ProgSim P (.ask k) (.ask k')
  | next {k k'} : ProgSim P k k' → ProgSim P (.next k) (.next k')

def ChainSt.tr (c : ChainSt HSt) : List Event := c.s.trace

/-- an effect within a chain -/
def inChain (f : HM Unit) : GoM (ChainSt HSt) Unit := fun c =>
  match f c.s with
  | .ok _ s' => .ok () { c with s := s' }
  | .panic p s' => .panic p { c with s := s' }
  | .diverge => .diverge

theorem sim_inChain {f f' : HM Unit} (h : HSim P f f') : Sim ChainSt.tr P (inChain f) (inChain f') := by
  have key : ∀ (g : HM Unit) (Q : List Event → Prop) (c : ChainSt HSt), outAll (fun t => Q (HSt.trace t)) (g c.s) → outAll (fun t => Q (ChainSt.tr t)) (inChain g c) := by
    intro g Q c hQ
    unfold inChain
    revert hQ
    cases g c.s with
    | ok a t => intro h; exact h
    | panic p t => intro h; exact h
    | diverge => intro; trivial
  refine ⟨fun c hc => ?_, fun c hc => key _ _ c (h.ahead c.s hc), fun c hc => key _ _ c (h.away c.s hc)⟩
  rcases h.short c.s hc with ⟨h1, h2⟩ | h1 | h1
  · exact .inl ⟨by unfold inChain; rw [h1], key _ _ c h2⟩
  · exact .inr (.inl (key _ _ c h1))
  · exact .inr (.inr (key _ _ c h1))

theorem runProg_eff (nx : GoM (ChainSt HSt) Unit) (f : HM Unit) (k : Prog HSt) : runProg nx (.eff f k) = (inChain f >>= fun _ => runProg nx k) := by
  funext c
  rw [GoM.bind_apply]
  simp only [runProg, inChain]
  cases f c.s <;> rfl

theorem runProg_next (nx : GoM (ChainSt HSt) Unit) (k : Prog HSt) : runProg nx (.next k) = (nx >>= fun _ => runProg nx k) := by
  funext c
  rw [GoM.bind_apply]
  simp only [runProg]
  cases nx c <;> rfl

theorem sim_runProg {nx nx' : GoM (ChainSt HSt) Unit} (hn : Sim ChainSt.tr P nx nx') {p p' : Prog HSt} (hp : ProgSim P p p') :
    Sim ChainSt.tr P (runProg nx p) (runProg nx' p') := by
  induction hp with
  | ret => exact .still fun _ => rfl
  | eff hf _ ih => rw [runProg_eff, runProg_eff]; exact .bind (sim_inChain hf) fun _ => ih
  | @ask k k' _ ih => exact Sim.ask (T := ChainSt.tr) (g := fun c => runProg nx (k c.s)) (g' := fun c => runProg nx' (k' c.s)) fun c => ih c.s
  | next _ ih => rw [runProg_next, runProg_next]; exact .bind hn fun _ => ih

/-- chains of the same shape -/
def ChainSim (P : List Event) (l l' : List (Prog HSt)) : Prop := l.length = l'.length ∧ ∀ (i : Nat) (p p' : Prog HSt), l[i]? = some p → l'[i]? = some p' → ProgSim P p p'

/-- adds to the fields of a chain state that are not the trace -/
theorem sim_shift {m m' : GoM (ChainSt HSt) Unit} (h : Sim ChainSt.tr P m m') (g : ChainSt HSt → ChainSt HSt) (hg : ∀ c, (g c).tr = c.tr) :
    Sim ChainSt.tr P (fun c => m (g c)) (fun c => m' (g c)) where
  short s hs := h.short (g s) (by rw [hg]; exact hs)
  ahead s hs := h.ahead (g s) (by rw [hg]; exact hs)
  away s hs := h.away (g s) (by rw [hg]; exact hs)

theorem sim_chain {l l' : List (Prog HSt)} (h : ChainSim P l l') (f : Nat) :
    Sim ChainSt.tr P (chainNext l f) (chainNext l' f) ∧ Sim ChainSt.tr P (chainLoop l f) (chainLoop l' f) := by
  induction f with
  | zero => exact ⟨.diverge, .diverge⟩
  | succ f ih =>
    refine ⟨sim_shift ih.2 (fun c => { c with index := c.index + 1 }) fun _ => rfl, ?_⟩
    have e : ∀ k : List (Prog HSt), chainLoop k (f + 1) = fun c => (fun i : Int => ((if i < k.length then
        (match k[i.toNat]? with
         | none => GoM.panic .runtime
         | some q => ((fun c : ChainSt HSt => runProg (chainNext k f) q { c with started := c.started ++ [i.toNat] } : GoM (ChainSt HSt) Unit) >>= fun _ => (fun c : ChainSt HSt => chainLoop k f { c with index := c.index + 1 } : GoM (ChainSt HSt) Unit)))
        else (fun c => .ok () c : GoM (ChainSt HSt) Unit)) : GoM (ChainSt HSt) Unit)) c.index c := by
      intro k
      funext c
      simp only [chainLoop]
      by_cases hi : c.index < (k.length : Int)
      · rw [if_pos hi, if_pos hi]
        cases k[c.index.toNat]? with
        | none => rfl
        | some q =>
          dsimp only
          rw [GoM.bind_apply]
          cases runProg (chainNext k f) q { c with started := c.started ++ [c.index.toNat] } <;> rfl
      · rw [if_neg hi, if_neg hi]
    rw [e, e]
    refine Sim.ask (T := ChainSt.tr) (g := fun c => _) (g' := fun c => _) fun c0 => ?_
    rw [← h.1]
    by_cases hi : c0.index < (l.length : Int)
    · rw [if_pos hi, if_pos hi]
      cases hx : l[c0.index.toNat]? with
      | none =>
        have : l'[c0.index.toNat]? = none := by rw [List.getElem?_eq_none_iff] at hx ⊢; rw [← h.1]; exact hx
        rw [this]; exact .panic _
      | some p =>
        obtain ⟨hlt, -⟩ := List.getElem?_eq_some_iff.1 hx
        have hx' : l'[c0.index.toNat]? = some (l'[c0.index.toNat]'(h.1 ▸ hlt)) := List.getElem?_eq_getElem _
        rw [hx']
        dsimp only
        refine .bind (sim_shift (sim_runProg ih.1 (h.2 _ _ _ hx hx')) (fun c => { c with started := c.started ++ [c0.index.toNat] }) fun _ => rfl) fun _ => ?_
        exact sim_shift ih.2 (fun c => { c with index := c.index + 1 }) fun _ => rfl
    · rw [if_neg hi, if_neg hi]; exact .still fun _ => rfl

theorem sim_runHandlers {l l' : List (Prog HSt)} (h : ChainSim P l l') (r0 : Option Response) : HSim P (runHandlers l r0) (runHandlers l' r0) := by
  have hs := (sim_chain h (2 * l.length + 2)).1
  have e : ∀ (k : List (Prog HSt)), k.length = l.length → ∀ s, runHandlers k r0 s =
      (match chainNext k (2 * l.length + 2) { index := -1, started := [], s := { s with resp := r0 } } with
       | .ok _ c => .ok c.s.resp c.s
       | .panic p c => .panic p c.s
       | .diverge => .diverge) := by
    intro k hk s; unfold runHandlers runChain; rw [hk]; cases chainNext k (2 * l.length + 2) { index := -1, started := [], s := { s with resp := r0 } } <;> rfl
  have key : ∀ (k : List (Prog HSt)), k.length = l.length → ∀ (Q : List Event → Prop) (s : HSt),
      outAll (fun t => Q (ChainSt.tr t)) (chainNext k (2 * l.length + 2) { index := -1, started := [], s := { s with resp := r0 } }) →
      outAll (fun t => Q (HSt.trace t)) (runHandlers k r0 s) := by
    intro k hk Q s hQ
    rw [e k hk]
    revert hQ
    cases chainNext k (2 * l.length + 2) { index := -1, started := [], s := { s with resp := r0 } } with
    | ok a t => intro h; exact h
    | panic p t => intro h; exact h
    | diverge => intro; trivial
  refine ⟨fun s hc => ?_, fun s hc => key _ h.1.symm _ s (hs.ahead _ hc), fun s hc => key _ rfl _ s (hs.away _ hc)⟩
  rcases hs.short { index := -1, started := [], s := { s with resp := r0 } } hc with ⟨h1, h2⟩ | h1 | h1
  · exact .inl ⟨by rw [e _ h.1.symm, e _ rfl, h1], key _ rfl _ s h2⟩
  · exact .inr (.inl (key _ h.1.symm _ s h1))
  · exact .inr (.inr (key _ rfl _ s h1))

theorem chainSim_one {p p' : Prog HSt} (h : ProgSim P p p') : ChainSim P [p] [p'] := by
  refine ⟨rfl, fun i q q' hq hq' => ?_⟩
  cases i with
  | zero => cases hq; cases hq'; exact h
  | succ i => exact absurd hq (by simp)

/-- the four request handlers do not ask the oracle -/
theorem progSim_router (K : KEnv) {q : Bytes} {hd : Handler} (hl : (dhtHandlers K O).router.lookup q = some hd) (a : HArgs) : ProgSim P (hd a) (hd a) := by
  have hm : ∀ (l : List (Bytes × Handler)) , l.lookup q = some hd → (∀ x ∈ l, ProgSim P (x.2 a) (x.2 a)) → ProgSim P (hd a) (hd a) := by
    intro l hl hx
    induction l with
    | nil => cases hl
    | cons kv r ih =>
      obtain ⟨k, v⟩ := kv
      rw [List.lookup_cons] at hl
      split at hl
      · cases hl; exact hx (k, hd) (by simp)
      · exact ih hl (fun x hx' => hx x (by simp [hx']))
  refine hm _ hl ?_
  intro x hx
  simp only [dhtHandlers, List.mem_cons, List.not_mem_nil, or_false] at hx
  rcases hx with rfl | rfl | rfl | rfl
  · exact .eff (sim_writeAs _) .ret
  · exact .eff (sim_writeAs _) .ret
  · exact .eff (.bind (.lift _) (fun _ => .bind (sim_emit _) (fun _ => sim_writeAs _))) .ret
  · exact .eff (.bind (.lift _) (fun _ => .bind (.lift _) (fun _ => .bind (sim_emit _) (fun _ =>
      .bind (sim_writeAs _) (fun _ => sim_emit _))))) .ret

theorem sim_requestHandle (h : AgreeUntil P O O') (K : KEnv) (addr : UDPAddr) (d : Entries) :
    HSim P (requestHandle K.env.fold (dhtHandlers K O) O addr d) (requestHandle K.env.fold (dhtHandlers K O') O' addr d) := by
  refine .bind (.lift _) (fun t => .bind (.lift _) (fun q => .recover ?_ (fun p => ?_)))
  · refine .bind (.lift _) (fun b => ?_)
    split
    · exact .pure _
    · refine .bind (.lift _) (fun _ => .bind (.lift _) (fun _ => ?_))
      split
      · exact .pure _
      · have hr : (dhtHandlers K O').router = (dhtHandlers K O).router := rfl
        rw [hr]
        cases hl : (dhtHandlers K O).router.lookup q with
        | none => exact .pure _
        | some hd => exact sim_runHandlers (chainSim_one (.eff (sim_emit _) (progSim_router K hl _))) _
  · split
    · exact Sim.read (T := HSt.trace) (G := fun x : Bytes => (pure (some (WithParamErr t (bizText _ x))) : HM (Option Response)))
        (G' := fun x : Bytes => (pure (some (WithParamErr t (bizText _ x))) : HM (Option Response))) (fun x => .pure _) (fun s hs => (h _ hs).2.2.2.2.2)
    · exact .panic _

theorem sim_responseHandle (h : AgreeUntil P O O') (K : KEnv) (addr : UDPAddr) (d : Entries) :
    HSim P (responseHandle (dhtHandlers K O) O addr d) (responseHandle (dhtHandlers K O') O' addr d) := by
  refine .bind (.lift _) (fun t => .bind (.lift _) (fun _ => .bind (.lift _) (fun _ => .bind (sim_getReq h _) (fun f => ?_))))
  cases f with
  | none => exact .pure _
  | some req =>
    refine .bind (sim_runHandlers (chainSim_one ?_) _) (fun _ => .pure _)
    unfold callRespHandler
    cases hh : req.handler with
    | none => exact .eff (.panic _) .ret
    | some i => exact .ask fun s => .eff (sim_emit _) (.eff (sim_genericResp h K _) .ret)

theorem sim_packetBody (h : AgreeUntil P O O') (K : KEnv) (pkt : RecvPacket) :
    HSim P (packetBody K.env.fold (dhtHandlers K O) O pkt) (packetBody K.env.fold (dhtHandlers K O') O' pkt) := by
  unfold packetBody
  split
  · exact .pure _
  · exact .panic _
  · exact .diverge
  · split
    · exact .pure _
    · refine .bind (.lift _) (fun y => ?_)
      split
      · refine .bind (sim_requestHandle h K _ _) (fun ret => ?_)
        cases ret with
        | none => exact .panic _
        | some r =>
          refine .bind (.lift _) (fun raw => ?_)
          refine sim_encode (fun b => .bind (sim_SendPacket h _ _) (fun _ => .pure _)) (fun e => .bind (sim_SendPacket h _ _) (fun _ => .pure _)) (fun s hs => ?_)
          rw [(h _ hs).2.2.2.2.1]
      · split
        · exact sim_responseHandle h K _ _
        · split
          · exact .bind (.lift _) (fun _ => .bind (.lift _) (fun _ => .pure _))
          · exact .pure _

/-- **the handler of a packet does what it has done before as long as it gets the answers it has got before** -/
theorem dhtPacket_causal (h : AgreeUntil P O O') (K : KEnv) {pkt : RecvPacket} {run run' : PacketRun} (h1 : dhtPacket K O pkt = some run)
    (h2 : dhtPacket K O' pkt = some run') (hp : P <+: run.trace) : P <+: run'.trace := by
  have hs : HSim P (GoM.recoverWith (packetBody K.env.fold (dhtHandlers K O) O pkt) (fun _ => (pure () : HM Unit)))
      (GoM.recoverWith (packetBody K.env.fold (dhtHandlers K O') O' pkt) (fun _ => (pure () : HM Unit))) :=
    .recover (sim_packetBody h K pkt) fun _ => .pure _
  have t1 : ∀ {O : Oracle} {run : PacketRun}, dhtPacket K O pkt = some run → ∀ Q : List Event → Prop,
      outAll (fun t => Q (HSt.trace t)) (GoM.recoverWith (packetBody K.env.fold (dhtHandlers K O) O pkt) (fun _ => (pure () : HM Unit)) { resp := none, trace := [] }) →
      Q run.trace := by
    intro O run h Q hQ
    unfold dhtPacket recvPacketHandle at h
    simp only at h
    revert h hQ
    cases GoM.recoverWith (packetBody K.env.fold (dhtHandlers K O) O pkt) (fun _ => (pure () : HM Unit)) { resp := none, trace := [] } with
    | ok a s => intro h hQ; cases h; exact hQ
    | panic p s => intro h hQ; cases h; exact hQ
    | diverge => intro h _; exact absurd h (by simp)
  by_cases hP : P = []
  · subst hP; exact List.nil_prefix
  · rcases hs.short { resp := none, trace := [] } ⟨List.nil_prefix, fun e => hP e.symm⟩ with ⟨-, x⟩ | x | x
    · have y := t1 h1 (Short P) x
      exact absurd (y.1.eq_of_length_le hp.length_le) y.2
    · exact t1 h2 (Ahead P) x
    · exact absurd hp (t1 h1 (Away P) x).1

end
end P2P

import Verif.Props.KrpcHistory
import Verif.Props.RouteTable
/-! # The answers recorded in a trace are those of the oracle -/
namespace P2P

/-- the answer recorded in an interaction is the one the oracle gives after `pre` -/
def Event.answeredBy (O : Oracle) (pre : List Event) : Event → Prop
  | .lookup t f => f = O.lookup pre t
  | .addNode n x => x = O.addNode pre n
  | .nextTx v => v = O.nextTx pre
  | .send _ _ f => f = O.sendFails pre
  | _ => True

/-- all answers in a trace are those of the oracle -/
def AnsweredBy (O : Oracle) (tr : List Event) : Prop := ∀ pre e post, tr = pre ++ e :: post → e.answeredBy O pre

theorem answeredBy_nil (O : Oracle) : AnsweredBy O [] := by
  intro pre e post h; simp at h

theorem answeredBy_snoc {O : Oracle} {tr : List Event} {e : Event} :
    AnsweredBy O (tr ++ [e]) ↔ AnsweredBy O tr ∧ e.answeredBy O tr := by
  constructor
  · intro h
    exact ⟨fun pre e' post hp => h pre e' (post ++ [e]) (by simp [hp]), h tr e [] rfl⟩
  · rintro ⟨h1, h2⟩ pre e' post hp
    rcases List.eq_nil_or_concat post with rfl | ⟨post', x, rfl⟩
    · obtain ⟨rfl, h⟩ := List.append_inj' hp rfl
      cases h; exact h2
    · rw [List.concat_eq_append, ← List.cons_append, ← List.append_assoc] at hp
      obtain ⟨rfl, h⟩ := List.append_inj' hp rfl
      exact h1 pre e' post' rfl

/-- the code keeps an invariant of the trace -/
def Pres {α : Type} (P : List Event → Prop) (m : HM α) : Prop := ∀ s, P s.trace →
  match m s with
  | .ok _ s' => P s'.trace
  | .panic _ s' => P s'.trace
  | .diverge => True

/-- the same for code running in a handler chain -/
def PresC (P : List Event → Prop) (m : GoM (ChainSt HSt) Unit) : Prop := ∀ c, P c.s.trace →
  match m c with
  | .ok _ c' => P c'.s.trace
  | .panic _ c' => P c'.s.trace
  | .diverge => True

section
variable {α β : Type} {P : List Event → Prop}

theorem Pres.pure (a : α) : Pres P (Pure.pure a : HM α) := fun _ h => h
theorem Pres.panic (p : Panic) : Pres P (GoM.panic p : HM α) := fun _ h => h
theorem Pres.get : Pres P (GoM.get : HM HSt) := fun _ h => h
theorem Pres.diverge : Pres P (fun _ => .diverge : HM α) := fun _ _ => trivial
theorem Pres.lift (r : Res α) : Pres P (GoM.lift r : HM α) := by
  intro s h
  cases r with
  | diverge => trivial
  | _ => exact h
theorem Pres.bind {m : HM α} {f : α → HM β} (hm : Pres P m) (hf : ∀ a, Pres P (f a)) : Pres P (m >>= f) := by
  intro s h
  have := hm s h
  rw [GoM.bind_apply]
  revert this
  cases m s with
  | ok a s' => intro h'; exact hf a s' h'
  | panic p s' => intro h'; exact h'
  | diverge => intro; trivial
theorem Pres.recover {m : HM α} {f : Panic → HM α} (hm : Pres P m) (hf : ∀ p, Pres P (f p)) :
    Pres P (GoM.recoverWith m f) := by
  intro s h
  have := hm s h
  unfold GoM.recoverWith
  revert this
  cases hx : m s with
  | ok a s' => intro h'; exact h'
  | panic p s' => intro h'; exact hf p s' h'
  | diverge => intro; trivial

/-- every handler in the program keeps the invariant -/
def Prog.Keeps (P : List Event → Prop) : Prog HSt → Prop
  | .ret => True
  | .eff f k => Pres P f ∧ k.Keeps P
  | .ask k => ∀ s, (k s).Keeps P
  | .next k => k.Keeps P

theorem runProg_keeps {next : GoM (ChainSt HSt) Unit} (hn : PresC P next) (p : Prog HSt) (hp : p.Keeps P) :
    PresC P (runProg next p) := by
  induction p with
  | ret => intro c h; exact h
  | eff f k ih =>
    intro c h
    have := hp.1 c.s h
    simp only [runProg]
    revert this
    cases f c.s with
    | ok a s' => intro h'; exact ih hp.2 { c with s := s' } h'
    | panic q s' => intro h'; exact h'
    | diverge => intro; trivial
  | ask k ih => intro c h; exact ih c.s (hp c.s) c h
  | next k ih =>
    intro c h
    have := hn c h
    simp only [runProg]
    revert this
    cases next c with
    | ok a s' => intro h'; exact ih hp s' h'
    | panic q s' => intro h'; exact h'
    | diverge => intro; trivial

theorem chain_keeps {chain : List (Prog HSt)} (h : ∀ p ∈ chain, p.Keeps P) (f : Nat) :
    PresC P (chainNext chain f) ∧ PresC P (chainLoop chain f) := by
  induction f with
  | zero => exact ⟨fun _ _ => trivial, fun _ _ => trivial⟩
  | succ f ih =>
    refine ⟨fun c hc => ih.2 _ hc, fun c hc => ?_⟩
    simp only [chainLoop]
    by_cases hi : c.index < chain.length
    · rw [if_pos hi]
      cases hx : chain[c.index.toNat]? with
      | none => exact hc
      | some p =>
        have hk := runProg_keeps ih.1 p (h p (List.mem_of_getElem? hx)) { c with started := c.started ++ [c.index.toNat] } hc
        revert hk
        show _ → (match (match (some p : Option (Prog HSt)) with
          | none => .panic .runtime c
          | some h => _ : Out (ChainSt HSt) Unit) with
          | .ok _ c' => P c'.s.trace
          | .panic _ c' => P c'.s.trace
          | .diverge => True)
        dsimp only
        cases runProg (chainNext chain f) p { c with started := c.started ++ [c.index.toNat] } with
        | ok a c' => intro h'; exact ih.2 _ h'
        | panic q c' => intro h'; exact h'
        | diverge => intro; trivial
    · rw [if_neg hi]; exact hc

theorem Pres.runHandlers {chain : List (Prog HSt)} (h : ∀ p ∈ chain, p.Keeps P) (r0 : Option Response) :
    Pres P (runHandlers chain r0) := by
  intro s hs
  have := (chain_keeps h (2 * chain.length + 2)).1 { index := -1, started := [], s := { s with resp := r0 } } hs
  unfold P2P.runHandlers runChain
  revert this
  cases chainNext chain (2 * chain.length + 2) { index := -1, started := [], s := { s with resp := r0 } } with
  | ok a c => intro h'; exact h'
  | panic q c => intro h'; exact h'
  | diverge => intro; trivial
end

section
variable {O : Oracle}

theorem pres_emit {e : Event} (he : ∀ pre, e.answeredBy O pre) : Pres (AnsweredBy O) (emit e) :=
  fun s h => answeredBy_snoc.2 ⟨h, he s.trace⟩
theorem pres_getReq (t : Bytes) : Pres (AnsweredBy O) (getReq O t) := fun _ h => answeredBy_snoc.2 ⟨h, rfl⟩
theorem pres_tableAdd (n : NodeInfo) : Pres (AnsweredBy O) (tableAdd O n) := fun _ h => answeredBy_snoc.2 ⟨h, rfl⟩
theorem pres_nextTxId : Pres (AnsweredBy O) (nextTxId O) := fun _ h => answeredBy_snoc.2 ⟨h, rfl⟩
theorem pres_SendPacket (data : Bytes) (to : UDPAddr) : Pres (AnsweredBy O) (SendPacket O data to) :=
  fun _ h => answeredBy_snoc.2 ⟨h, rfl⟩
theorem pres_writeAs (r : Response) : Pres (AnsweredBy O) (writeAs r) := fun _ h => h

theorem pres_Query (addr : UDPAddr) (req : Request) : Pres (AnsweredBy O) (Query O addr req) := by
  refine .bind (pres_emit (fun _ => trivial)) (fun _ => .bind .get (fun s => ?_))
  cases EncodeDict (some (O.order s.trace req.RawData)) with
  | ok raw => exact .bind (pres_SendPacket _ _) (fun f => by cases f <;> exact .pure _)
  | err e => exact .pure _
  | panic p => exact .panic p
  | diverge => exact .diverge

theorem pres_findNode (K : KEnv) (ns : List NodeInfo) : Pres (AnsweredBy O) (findNodeRespHandler K O ns) := by
  induction ns with
  | nil => exact .pure _
  | cons n r ih =>
    refine .bind (pres_tableAdd n) (fun e => ?_)
    cases e with
    | some _ => exact ih
    | none => exact .bind pres_nextTxId (fun _ => .bind (pres_Query _ _) (fun _ => ih))

theorem pres_genericResp (K : KEnv) (a : HArgs) : Pres (AnsweredBy O) (genericResp K O a) := by
  refine .bind .get (fun s => ?_)
  cases s.resp with
  | none => exact .panic _
  | some resp =>
    refine .bind (.lift _) (fun _ => ?_)
    split
    · exact .pure _
    · split
      · exact .bind (.lift _) (fun _ => .bind (.lift _) (fun _ => pres_findNode K _))
      · split
        · simp only
          split
          · exact .bind (.lift _) (fun _ => .bind (.lift _) (fun _ => .pure _))
          · exact .bind (.lift _) (fun _ => .bind (.lift _) (fun _ => .pure _))
        · exact .pure _

/-- the four request handlers -/
theorem keeps_router (K : KEnv) {q : Bytes} {h : Handler} (hl : (dhtHandlers K O).router.lookup q = some h) (a : HArgs) :
    (h a).Keeps (AnsweredBy O) := by
  have hm : ∀ (l : List (Bytes × Handler)) , l.lookup q = some h → (∀ x ∈ l, (x.2 a).Keeps (AnsweredBy O)) →
      (h a).Keeps (AnsweredBy O) := by
    intro l hl hx
    induction l with
    | nil => cases hl
    | cons kv r ih =>
      obtain ⟨k, v⟩ := kv
      rw [List.lookup_cons] at hl
      split at hl
      · cases hl; exact hx (k, h) (by simp)
      · exact ih hl (fun x hx' => hx x (by simp [hx']))
  refine hm _ hl ?_
  intro x hx
  simp only [dhtHandlers, List.mem_cons, List.not_mem_nil, or_false] at hx
  rcases hx with rfl | rfl | rfl | rfl
  · exact ⟨pres_writeAs _, trivial⟩
  · exact ⟨pres_writeAs _, trivial⟩
  · exact ⟨.bind (.lift _) (fun _ => .bind (pres_emit (fun _ => trivial)) (fun _ => pres_writeAs _)), trivial⟩
  · exact ⟨.bind (.lift _) (fun _ => .bind (.lift _) (fun _ => .bind (pres_emit (fun _ => trivial)) (fun _ =>
      .bind (pres_writeAs _) (fun _ => pres_emit (fun _ => trivial))))), trivial⟩

theorem pres_requestHandle (K : KEnv) (addr : UDPAddr) (d : Entries) :
    Pres (AnsweredBy O) (requestHandle K.env.fold (dhtHandlers K O) O addr d) := by
  refine .bind (.lift _) (fun t => .bind (.lift _) (fun q => .recover ?_ (fun p => ?_)))
  · refine .bind (.lift _) (fun b => ?_)
    split
    · exact .pure _
    · refine .bind (.lift _) (fun _ => .bind (.lift _) (fun _ => ?_))
      split
      · exact .pure _
      · cases hl : (dhtHandlers K O).router.lookup q with
        | none => exact .pure _
        | some h =>
          refine Pres.runHandlers ?_ _
          intro p hp
          simp only [dhtHandlers, emptyHandlers, List.map_nil, List.nil_append, List.mem_singleton] at hp
          subst hp
          exact ⟨pres_emit (fun _ => trivial), keeps_router K hl _⟩
  · split
    · exact .bind .get (fun _ => .pure _)
    · exact .panic _

theorem pres_responseHandle (K : KEnv) (addr : UDPAddr) (d : Entries) :
    Pres (AnsweredBy O) (responseHandle (dhtHandlers K O) O addr d) := by
  refine .bind (.lift _) (fun t => .bind (.lift _) (fun _ => .bind (.lift _) (fun _ => .bind (pres_getReq _) (fun f => ?_))))
  cases f with
  | none => exact .pure _
  | some req =>
    refine .bind (Pres.runHandlers ?_ _) (fun _ => .pure _)
    intro p hp
    simp only [dhtHandlers, emptyHandlers, List.map_nil, List.nil_append, List.mem_singleton] at hp
    subst hp
    unfold callRespHandler
    cases hh : req.handler with
    | none => exact ⟨.panic _, trivial⟩
    | some i =>
      intro s
      exact ⟨pres_emit (fun _ => trivial), pres_genericResp K _, trivial⟩

/-- the answers recorded while a packet is handled are those of the oracle -/
theorem dhtPacket_answered (K : KEnv) {pkt : RecvPacket} {run : PacketRun} (h : dhtPacket K O pkt = some run) :
    AnsweredBy O run.trace := by
  have hp : Pres (AnsweredBy O) (packetBody K.env.fold (dhtHandlers K O) O pkt) := by
    unfold packetBody
    split
    · exact .pure _
    · exact .panic _
    · exact .diverge
    · split
      · exact .pure _
      · refine .bind (.lift _) (fun y => ?_)
        split
        · refine .bind (pres_requestHandle K _ _) (fun ret => ?_)
          cases ret with
          | none => exact .panic _
          | some r =>
            refine .bind (.lift _) (fun raw => .bind .get (fun s => ?_))
            cases EncodeDict (some (O.order s.trace raw)) with
            | ok b => exact .bind (pres_SendPacket _ _) (fun _ => .pure _)
            | err e => exact .bind (pres_SendPacket _ _) (fun _ => .pure _)
            | panic p => exact .panic _
            | diverge => exact .diverge
        · split
          · exact pres_responseHandle K _ _
          · split
            · exact .bind (.lift _) (fun _ => .bind (.lift _) (fun _ => .pure _))
            · exact .pure _
  have hr := Pres.recover hp (fun _ => .pure ()) (f := fun _ => (pure () : HM Unit)) { resp := none, trace := [] } (answeredBy_nil O)
  unfold dhtPacket recvPacketHandle at h
  simp only at h
  revert hr h
  cases GoM.recoverWith (packetBody K.env.fold (dhtHandlers K O) O pkt) (fun _ => (pure () : HM Unit)) { resp := none, trace := [] } with
  | ok a s => intro h hr; cases h; exact hr
  | panic p s => intro h hr; cases h; exact hr
  | diverge => intro h hr; cases h
end

/-! ## The system as an oracle -/

/-- the answers of the shared objects, starting as `w`, when nobody else uses them -/
def World.oracle (env : Env) (w : World) (stack : Bytes) : Oracle where
  lookup := fun tr t => match w.replay env tr with
    | some v => v.reqs.lookup t
    | none => none
  addNode := fun tr n => match w.replay env tr with
    | some v => (match v.table.AddNode env n with
      | .ok (_, e) => e
      | _ => none)
    | none => none
  nextTx := fun tr => match w.replay env tr with
    | some v => v.txId + 1
    | none => 0
  sendFails := fun _ => false
  order := fun _ d => d
  stack := fun _ => stack

theorem World.oracle_fair (env : Env) (w : World) (stack : Bytes) : (w.oracle env stack).Fair := fun _ _ h => ⟨h, .refl _⟩

open RouteTable in
theorem World.apply_reachable {env : Env} {w w' : World} {e : Event} (hr : Reachable env w.table) (h : w.apply env e = some w') :
    Reachable env w'.table := by
  cases e with
  | addNode n x =>
    simp only [World.apply] at h
    split at h
    · rename_i t' e' ha
      split at h
      · cases h; exact hr.add ha
      · cases h
    · cases h
  | lookup t f =>
    simp only [World.apply] at h
    split at h <;> cases h
    exact hr
  | nextTx v =>
    simp only [World.apply] at h
    split at h <;> cases h
    exact hr
  | send a b f => cases h; exact hr
  | put r => cases h; exact hr
  | enqueue j => cases h; exact hr
  | record r => cases h; exact hr
  | dispatch r a => cases h; exact hr
  | invoke r p a => cases h; exact hr

open RouteTable in
theorem World.replay_reachable {env : Env} {tr : List Event} {w w' : World} (hr : Reachable env w.table)
    (h : w.replay env tr = some w') : Reachable env w'.table := by
  induction tr generalizing w with
  | nil => cases h; exact hr
  | cons e tr ih =>
    simp only [World.replay] at h
    split at h
    · rename_i v hv
      exact ih (World.apply_reachable hr hv) h
    · cases h

open RouteTable in
theorem replay_oracle {env : Env} {w : World} {stack : Bytes} (hr : Reachable env w.table) {tr : List Event}
    (h : AnsweredBy (w.oracle env stack) tr) : ∃ w', w.replay env tr = some w' := by
  induction hn : tr.length generalizing tr with
  | zero => rw [List.length_eq_zero_iff.1 hn]; exact ⟨w, rfl⟩
  | succ n ih =>
    rcases List.eq_nil_or_concat tr with rfl | ⟨tr', e, rfl⟩
    · simp at hn
    · rw [List.concat_eq_append] at *
      obtain ⟨h1, h2⟩ := answeredBy_snoc.1 h
      obtain ⟨v, hv⟩ := ih h1 (by simpa using hn)
      have hrv := World.replay_reachable hr hv
      suffices ∃ w', v.apply env e = some w' by
        obtain ⟨w', hw'⟩ := this
        exact ⟨w', (World.replay_append _ _ _ _).2 ⟨v, hv, by simp [World.replay, hw']⟩⟩
      cases e with
      | lookup t f =>
        simp only [Event.answeredBy, World.oracle, hv] at h2
        exact ⟨v, by simp [World.apply, h2]⟩
      | nextTx x =>
        simp only [Event.answeredBy, World.oracle, hv] at h2
        exact ⟨_, by simp only [World.apply, h2, if_true]; rfl⟩
      | addNode n x =>
        simp only [Event.answeredBy, World.oracle, hv] at h2
        obtain ⟨t', e', ha, -⟩ := AddNode_spec hrv.inv n
        simp only [ha] at h2
        exact ⟨_, by simp only [World.apply, ha, h2, if_true]; rfl⟩
      | send a b f => exact ⟨_, rfl⟩
      | put r => exact ⟨_, rfl⟩
      | enqueue j => exact ⟨_, rfl⟩
      | record r => exact ⟨_, rfl⟩
      | dispatch r a => exact ⟨_, rfl⟩
      | invoke r p a => exact ⟨_, rfl⟩

end P2P

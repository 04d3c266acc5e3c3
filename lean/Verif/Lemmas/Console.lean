import Verif.Model.Console
import Verif.Lemmas.Krpc
/-! # Without its log, the model of `Model/Console` is the one of `Model/Krpc` and `Model/Dht` -/
namespace P2P

/-- forget the log -/
def Out.erase {α : Type} : Out LSt α → Out HSt α
  | .ok a s => .ok a s.h
  | .panic p s => .panic p s.h
  | .diverge => .diverge

/-- `mL` does what `m` does, and logs -/
def Erases {α : Type} (mL : LM α) (m : HM α) : Prop := ∀ s, (mL s).erase = m s.h

namespace Erases
variable {α β : Type}

theorem pure (a : α) : Erases (Pure.pure a) (Pure.pure a) := fun _ => rfl
theorem panic (p : Panic) : Erases (GoM.panic p : LM α) (GoM.panic p) := fun _ => rfl
theorem diverge : Erases (fun _ => .diverge : LM α) (fun _ => .diverge) := fun _ => rfl
theorem lift (r : Res α) : Erases (GoM.lift r) (GoM.lift r) := fun s => by cases r <;> rfl
theorem quiet (m : HM α) : Erases (P2P.quiet m) m := fun s => by
  simp only [P2P.quiet]; cases m s.h <;> rfl

theorem bind {mL : LM α} {m : HM α} {fL : α → LM β} {f : α → HM β} (h : Erases mL m) (hf : ∀ a, Erases (fL a) (f a)) :
    Erases (mL >>= fL) (m >>= f) := fun s => by
  have := h s
  simp only [GoM.bind_apply]
  cases hm : mL s with
  | ok a s' => rw [hm] at this; simp only [Out.erase] at this; rw [← this]; exact hf a s'
  | panic p s' => rw [hm] at this; simp only [Out.erase] at this; rw [← this]; rfl
  | diverge => rw [hm] at this; simp only [Out.erase] at this; rw [← this]; rfl

/-- a log call changes nothing else -/
theorem log {pfx : Bytes} {k : LogMethod} {msg : Bytes} {ctx : Option (List (Bytes × LogVal))} {fL : LM α} {m : HM α} (h : Erases fL m) :
    Erases (logCall pfx k msg ctx >>= fun _ => fL) m := fun s => h { s with logs := _ }

theorem logEnd {pfx : Bytes} {k : LogMethod} {msg : Bytes} {ctx : Option (List (Bytes × LogVal))} :
    Erases (logCall pfx k msg ctx) (Pure.pure ()) := fun _ => rfl

theorem peek {fL : LSt → LM α} {m : HM α} (h : ∀ s0, Erases (fL s0) m) : Erases (GoM.get >>= fL) m := fun s => h s s

theorem get {fL : LSt → LM α} {f : HSt → HM α} (h : ∀ s, Erases (fL s) (f s.h)) : Erases (GoM.get >>= fL) (GoM.get >>= f) := fun s => h s s

theorem recover {mL : LM α} {m : HM α} {gL : Panic → LM α} {g : Panic → HM α} (h : Erases mL m) (hg : ∀ p, Erases (gL p) (g p)) :
    Erases (GoM.recoverWith mL gL) (GoM.recoverWith m g) := fun s => by
  have := h s
  simp only [GoM.recoverWith]
  cases hm : mL s with
  | ok a s' => rw [hm] at this; simp only [Out.erase] at this; rw [← this]; rfl
  | panic p s' => rw [hm] at this; simp only [Out.erase] at this; rw [← this]; exact hg p s'
  | diverge => rw [hm] at this; simp only [Out.erase] at this; rw [← this]; rfl

theorem of_eq {mL : LM α} {m m' : HM α} (h : Erases mL m) (e : m = m') : Erases mL m' := e ▸ h

end Erases

theorem bind_pure_unit (m : HM Unit) : (m >>= fun _ => Pure.pure ()) = m := by
  funext s
  simp only [GoM.bind_apply]
  cases m s <;> rfl

theorem pure_bind_hm {α β : Type} (a : α) (f : α → HM β) : (Pure.pure a >>= f) = f a := rfl

theorem erases_send (K : KEnv) (C : ConsoleEnv) (O : Oracle) (data : Bytes) (to : UDPAddr) : Erases (SendPacketL K C O data to) (SendPacket O data to) := by
  unfold SendPacketL
  refine .peek fun s0 => ?_
  refine (Erases.bind (f := fun a => Pure.pure a) (.quiet _) fun failed => ?_).of_eq ?_
  · cases failed
    · exact .log (.pure _)
    · exact .log (.pure _)
  · funext s
    simp only [GoM.bind_apply]
    cases SendPacket O data to s <;> rfl

theorem erases_query (K : KEnv) (C : ConsoleEnv) (O : Oracle) (raddr : UDPAddr) (req : Request) : Erases (QueryL K C O raddr req) (Query O raddr req) := by
  unfold QueryL Query
  refine .bind (.quiet _) fun _ => .get fun s => ?_
  generalize EncodeDict (some (O.order s.h.trace req.RawData)) = x
  cases x with
  | ok raw =>
    refine .bind (erases_send K C O _ _) fun failed => ?_
    cases failed
    · exact .log (.pure _)
    · exact .log (.pure _)
  | err e => exact .log (.pure _)
  | panic p => exact .panic p
  | diverge => exact .diverge

theorem erases_loop (K : KEnv) (C : ConsoleEnv) (O : Oracle) (ns : List NodeInfo) : Erases (findNodeLoopL K C O ns) (findNodeRespHandler K O ns) := by
  induction ns with
  | nil => exact .pure _
  | cons n r ih =>
    unfold findNodeLoopL findNodeRespHandler
    refine .bind (.quiet _) fun err => ?_
    cases err with
    | some e => exact .peek fun _ => .log ih
    | none =>
      refine .bind (.quiet _) fun tx => .bind (erases_query K C O _ _) fun qe => ?_
      cases qe with
      | some e => exact .peek fun _ => .log ih
      | none => exact ih

theorem erases_find (K : KEnv) (C : ConsoleEnv) (O : Oracle) (ns : List NodeInfo) : Erases (findNodeRespHandlerL K C O ns) (findNodeRespHandler K O ns) := by
  unfold findNodeRespHandlerL
  exact (Erases.bind (f := fun _ => Pure.pure ()) (erases_loop K C O ns) fun _ => .peek fun _ => .logEnd).of_eq (bind_pure_unit _)

theorem erases_resp (K : KEnv) (C : ConsoleEnv) (O : Oracle) (a : HArgs) : Erases (genericRespL K C O a) (genericResp K O a) := by
  unfold genericRespL genericResp
  refine .get fun s => ?_
  cases s.h.resp with
  | none => exact .panic _
  | some resp =>
    refine .bind (.lift _) fun id => .log ?_
    by_cases h1 : a.req.qType = b!"ping"
    · rw [if_pos h1, if_pos h1]; exact .log .logEnd
    rw [if_neg h1, if_neg h1]
    by_cases h2 : a.req.qType = b!"find_node"
    · rw [if_pos h2, if_pos h2]
      refine .bind (.lift _) fun nodes => .bind (.lift _) fun ns => ?_
      exact (Erases.bind (f := fun _ => Pure.pure ()) (erases_find K C O ns) fun _ => .logEnd).of_eq (bind_pure_unit _)
    rw [if_neg h2, if_neg h2]
    by_cases h3 : a.req.qType = b!"get_peers"
    · rw [if_pos h3, if_pos h3]
      by_cases h4 : Dict.Exist (asMap resp.body) b!"values" = true
      · rw [if_pos h4, if_pos h4]
        exact .bind (.lift _) fun vals => .bind (.lift _) fun addrs => .logEnd
      · rw [if_neg h4, if_neg h4]
        exact .bind (.lift _) fun vals => .bind (.lift _) fun addrs => .log .logEnd
    rw [if_neg h3, if_neg h3]
    by_cases h4 : a.req.qType = b!"announce_peer"
    · rw [if_pos h4]; exact .log .logEnd
    · rw [if_neg h4]; exact .logEnd

/-- what the registered handlers do -/
theorem erases_handler (K : KEnv) (a : HArgs) :
    (∃ f, pingHandler K a = .eff f .ret ∧ Erases (pingHandlerL K a) f) ∧
    (∃ f, findNodeHandler K a = .eff f .ret ∧ Erases (findNodeHandlerL K a) f) ∧
    (∃ f, getPeersHandler K a = .eff f .ret ∧ Erases (getPeersHandlerL K a) f) ∧
    (∃ f, announcePeerHandler K a = .eff f .ret ∧ Erases (announcePeerHandlerL K a) f) := by
  refine ⟨⟨_, rfl, .log (.quiet _)⟩, ⟨_, rfl, .log (.quiet _)⟩, ⟨_, rfl, ?_⟩, ⟨_, rfl, ?_⟩⟩
  · exact .bind (.lift _) fun _ => .log (.bind (.quiet _) fun _ => .quiet _)
  · exact .bind (.lift _) fun _ => .bind (.lift _) fun _ => .log (.bind (.quiet _) fun _ => .bind (.quiet _) fun _ => .quiet _)

theorem erases_dispatch (K : KEnv) (O : Oracle) (req : Request) (addr : UDPAddr) {h : Handler} {hL : HArgs → LM Unit} {f : HM Unit}
    (hh : h { req, addr } = .eff f .ret) (he : Erases (hL { req, addr }) f) :
    Erases (do
      GoM.modify (fun s => { s with h := { s.h with resp := none } })
      quiet (emit (.dispatch req addr))
      hL { req, addr }
      let s ← GoM.get
      pure s.h.resp) (doRequestHandle (dhtHandlers K O) req h addr) := by
  intro s
  rw [doRequestHandle_dht K O req f h addr s.h hh]
  have := he { h := { resp := none, trace := s.h.trace ++ [.dispatch req addr] }, logs := s.logs }
  simp only [GoM.bind_apply, GoM.modify_apply, P2P.quiet, emit, GoM.get_apply, GoM.pure_apply]
  cases hx : hL { req, addr } { h := { resp := none, trace := s.h.trace ++ [.dispatch req addr] }, logs := s.logs } with
  | ok a s' => rw [hx] at this; simp only [Out.erase] at this; rw [← this]; rfl
  | panic p s' => rw [hx] at this; simp only [Out.erase] at this; rw [← this]; rfl
  | diverge => rw [hx] at this; simp only [Out.erase] at this; rw [← this]; rfl

theorem erases_request (K : KEnv) (C : ConsoleEnv) (O : Oracle) (addr : UDPAddr) (d : Entries) :
    Erases (requestHandleL K C O addr d) (requestHandle K.env.fold (dhtHandlers K O) O addr d) := by
  unfold requestHandleL requestHandle
  refine .bind (.lift _) fun t => .bind (.lift _) fun q => .log (.recover ?_ fun p => ?_)
  · refine .bind (.lift _) fun sup => ?_
    cases sup with
    | false => exact .pure _
    | true =>
      refine .bind (.lift _) fun body => .bind (.lift _) fun id => ?_
      by_cases hl : id.length ≠ 20
      · rw [if_pos hl, if_pos hl]; exact .pure _
      · rw [if_neg hl, if_neg hl]
        have key := erases_handler K { req := { txId := t, qType := q, body, handler := none }, addr }
        obtain ⟨⟨f1, e1, g1⟩, ⟨f2, e2, g2⟩, ⟨f3, e3, g3⟩, ⟨f4, e4, g4⟩⟩ := key
        by_cases q1 : q = b!"ping"
        · subst q1; exact erases_dispatch K O _ addr e1 g1
        by_cases q2 : q = b!"find_node"
        · subst q2; exact erases_dispatch K O _ addr e2 g2
        by_cases q3 : q = b!"get_peers"
        · subst q3; exact erases_dispatch K O _ addr e3 g3
        by_cases q4 : q = b!"announce_peer"
        · subst q4; exact erases_dispatch K O _ addr e4 g4
        have hn : (handlersL K).lookup q = none := by
          simp only [handlersL, List.lookup, beq_eq_false_iff_ne.2 q1, beq_eq_false_iff_ne.2 q2, beq_eq_false_iff_ne.2 q3, beq_eq_false_iff_ne.2 q4]
        have hn' : (dhtHandlers K O).router.lookup q = none := by
          simp only [dhtHandlers, List.lookup, beq_eq_false_iff_ne.2 q1, beq_eq_false_iff_ne.2 q2, beq_eq_false_iff_ne.2 q3, beq_eq_false_iff_ne.2 q4]
        rw [hn, hn']
        exact .pure _
  · intro s
    cases p <;> rfl

theorem erases_response (K : KEnv) (C : ConsoleEnv) (O : Oracle) (addr : UDPAddr) (d : Entries) :
    Erases (responseHandleL K C O addr d) (responseHandle (dhtHandlers K O) O addr d) := by
  unfold responseHandleL responseHandle
  refine .bind (.lift _) fun t => .bind (.lift _) fun body => .bind (.lift _) fun id => .log (.bind (.quiet _) fun found => ?_)
  cases found with
  | none => exact .logEnd
  | some req =>
    intro s
    simp only [doResponseHandle, dhtHandlers, emptyHandlers, List.map_nil, List.nil_append, callRespHandler, GoM.bind_apply, GoM.modify_apply]
    cases hh : req.handler with
    | none =>
      simp only [GoM.panic_apply]
      rw [runHandlers_single _ (by simp [Prog.NoNext])]
      rfl
    | some i =>
      simp only
      rw [runHandlers_single _ (by simp [Prog.NoNext, genericRespHandler])]
      have := erases_resp K C O { req, addr }
        { h := { resp := some (WithResponse t body), trace := s.h.trace ++ [.invoke req (some (WithResponse t body)) addr] }, logs := s.logs }
      simp only [Prog.exec, emit, GoM.modify_apply, P2P.quiet, genericRespHandler, GoM.bind_apply]
      cases hx : genericRespL K C O { req, addr }
        { h := { resp := some (WithResponse t body), trace := s.h.trace ++ [.invoke req (some (WithResponse t body)) addr] }, logs := s.logs } with
      | ok a s' => rw [hx] at this; simp only [Out.erase] at this; rw [← this]; rfl
      | panic p s' => rw [hx] at this; simp only [Out.erase] at this; rw [← this]; rfl
      | diverge => rw [hx] at this; simp only [Out.erase] at this; rw [← this]; rfl

theorem erases_err (C : ConsoleEnv) (d : Entries) : Erases (responseErrHandleL C d) (responseErrHandle d) := by
  unfold responseErrHandleL responseErrHandle
  exact .bind (.lift _) fun t => .bind (.lift _) fun l => .logEnd

theorem erases_body (K : KEnv) (C : ConsoleEnv) (O : Oracle) (pkt : RecvPacket) :
    Erases (packetBodyL K C O pkt) (packetBody K.env.fold (dhtHandlers K O) O pkt) := by
  unfold packetBodyL packetBody
  cases DecodeDictNoLimit pkt.bytes with
  | err e => exact .logEnd
  | panic p => exact .panic p
  | diverge => exact .diverge
  | ok x =>
    obtain ⟨d, n⟩ := x
    simp only
    by_cases hy : (!Dict.Exist d b!"y") = true
    · rw [if_pos hy, if_pos hy]; exact .logEnd
    rw [if_neg hy, if_neg hy]
    refine .bind (.lift _) fun y => ?_
    by_cases h1 : y = b!"q"
    · rw [if_pos h1, if_pos h1]
      refine .bind (erases_request K C O _ _) fun ret => ?_
      cases ret with
      | none => exact .panic _
      | some r =>
        refine .bind (.lift _) fun raw => .get fun s => ?_
        generalize EncodeDict (some (O.order s.h.trace raw)) = z
        cases z with
        | ok bytes => exact .bind (erases_send K C O _ _) fun _ => .logEnd
        | err e => exact .log (.bind (erases_send K C O _ _) fun _ => .logEnd)
        | panic p => exact .panic p
        | diverge => exact .diverge
    rw [if_neg h1, if_neg h1]
    by_cases h2 : y = b!"r"
    · rw [if_pos h2, if_pos h2]; exact erases_response K C O _ _
    rw [if_neg h2, if_neg h2]
    by_cases h3 : y = b!"e"
    · rw [if_pos h3, if_pos h3]; exact erases_err C d
    rw [if_neg h3, if_neg h3]
    exact .pure _

end P2P

import Verif.Spec.Life
import Verif.Lemmas.Console
import Verif.Props.Program
/-! # Invariants of the program with its log -/
namespace P2P

/-! ## One `BootStrap` call -/

theorem bootCall_erases (K : KEnv) (L : LifeEnv) (O : Oracle) (host : Bytes) (r : Option UDPAddr) : Erases (bootCallL K L O host r) (BootStrap K O r) := by
  unfold bootCallL BootStrap
  refine .bind (.quiet _) fun txId => ?_
  cases r with
  | none => exact .log (.panic _)
  | some a =>
    refine .bind (erases_query K L.C O _ _) fun err => ?_
    cases err with
    | none => exact .pure _
    | some e => exact .log (.panic _)

/-- the record in front of the call and those of the call -/
theorem bootCall_lines (K : KEnv) (L : LifeEnv) {O : Oracle} (hO : O.Fair) (host : Bytes) (r : Option UDPAddr) :
    (∃ c, bootCallL K L O host r { h := { resp := none, trace := [] }, logs := [] } = .ok () c ∧ BootLines K L (host, r) (bootHello host :: c.logs) true) ∨
    ∃ p c, bootCallL K L O host r { h := { resp := none, trace := [] }, logs := [] } = .panic p c ∧
      BootLines K L (host, r) (bootHello host :: c.logs) false := by
  cases r with
  | none => exact .inr ⟨_, _, rfl, .unresolved host⟩
  | some a =>
    simp only [bootCallL, quiet, nextTxId, GoM.bind_apply, List.nil_append]
    generalize O.nextTx [] = v
    have hraw : (WithFindNodeMsg (txIdText v) K.nodeId K.nodeId (some genericH)).RawData =
        queryDict (txIdText v) b!"find_node" [(b!"id", .str K.nodeId), (b!"target", .str K.nodeId)] := by
      simp [Request.RawData, queryDict, WithFindNodeMsg, dictVal]
    generalize hreq : WithFindNodeMsg (txIdText v) K.nodeId K.nodeId (some genericH) = req at hraw
    have hw : GoVal.WF (.dict (queryDict (txIdText v) b!"find_node" [(b!"id", .str K.nodeId), (b!"target", .str K.nodeId)])) :=
      ⟨by simp [queryDict], by simp [queryDict, GoVal.WFD, GoVal.WF]⟩
    have he : Encodable (.dict (queryDict (txIdText v) b!"find_node" [(b!"id", .str K.nodeId), (b!"target", .str K.nodeId)])) := by
      simp [queryDict, Encodable, EncodableD]
    have hl := hO ([Event.nextTx v] ++ [.put req]) _ hw
    obtain ⟨b, hb1⟩ := (encodeItem_ok_iff _).2 (encodable_deepEq hl.2 hl.1 he)
    have hb2 : EncodeDict (some (O.order ([Event.nextTx v] ++ [.put req]) req.RawData)) = .ok b := by rw [hraw]; exact hb1
    simp only [QueryL, SendPacketL, quiet, putReq, emit, GoM.bind_apply, GoM.modify_apply, GoM.get_apply, hb2, SendPacket]
    cases O.sendFails ([Event.nextTx v] ++ [.put req]) with
    | true => exact .inr ⟨_, _, rfl, .refused host a _ _⟩
    | false => exact .inl ⟨_, rfl, .sent host a b.length⟩

theorem bootOk_lines {K : KEnv} {L : LifeEnv} {O : Oracle} (hO : O.Fair) {host : Bytes} {r : Option UDPAddr} {c : LSt}
    (h : bootCallL K L O host r { h := { resp := none, trace := [] }, logs := [] } = .ok () c) :
    BootLines K L (host, r) (bootHello host :: c.logs) true := by
  rcases bootCall_lines K L hO host r with ⟨c', h1, h2⟩ | ⟨p, c', h1, -⟩
  · rw [h] at h1; cases h1; exact h2
  · rw [h] at h1; cases h1

theorem bootPanic_lines {K : KEnv} {L : LifeEnv} {O : Oracle} (hO : O.Fair) {host : Bytes} {r : Option UDPAddr} {p : Panic} {c : LSt}
    (h : bootCallL K L O host r { h := { resp := none, trace := [] }, logs := [] } = .panic p c) :
    BootLines K L (host, r) (bootHello host :: c.logs) false := by
  rcases bootCall_lines K L hO host r with ⟨c', h1, -⟩ | ⟨p, c', h1, h2⟩
  · rw [h] at h1; cases h1
  · rw [h] at h1; cases h1; exact h2

/-! ## The records written and about to be written -/

/-- the records of a goroutine, written or not -/
def PLogSt.said (s : PLogSt) (g : Gor) : List LogRec := recsOf g s.log ++ s.pend g

theorem recsOf_snoc (g g' : Gor) (r : LogRec) (log : List (Gor × LogRec)) :
    recsOf g (log ++ [(g', r)]) = recsOf g log ++ (if g' = g then [r] else []) := by
  unfold recsOf
  rw [List.filter_append, List.map_append]
  by_cases h : g' = g <;> simp [h]

theorem recsOf_append (g : Gor) (a b : List (Gor × LogRec)) : recsOf g (a ++ b) = recsOf g a ++ recsOf g b := by
  simp [recsOf]

theorem said_write {s : PLogSt} {g : Gor} {r : LogRec} {q : List LogRec} (h : s.pend g = r :: q) (g' : Gor) :
    ({ s with pend := upd s.pend g q, log := s.log ++ [(g, r)] } : PLogSt).said g' = s.said g' := by
  simp only [PLogSt.said, recsOf_snoc]
  by_cases e : g = g'
  · subst e; simp [h]
  · rw [if_neg e, upd_ne _ _ (fun x => e x.symm)]; simp

theorem said_act (s : PLogSt) (pg : PgSt) (g : Gor) (recs : List LogRec) : (s.act pg g recs).said g = s.said g ++ recs := by
  simp [PLogSt.said, PLogSt.act]

theorem said_act_ne (s : PLogSt) (pg : PgSt) {g g' : Gor} (h : g' ≠ g) (recs : List LogRec) : (s.act pg g recs).said g' = s.said g' := by
  simp [PLogSt.said, PLogSt.act, upd_ne _ _ h]

@[simp] theorem act_pg (s : PLogSt) (pg : PgSt) (g : Gor) (recs : List LogRec) : (s.act pg g recs).pg = pg := rfl
@[simp] theorem act_log (s : PLogSt) (pg : PgSt) (g : Gor) (recs : List LogRec) : (s.act pg g recs).log = s.log := rfl
@[simp] theorem act_hosts (s : PLogSt) (pg : PgSt) (g : Gor) (recs : List LogRec) : (s.act pg g recs).hosts = s.hosts := rfl
@[simp] theorem act_dying (s : PLogSt) (pg : PgSt) (g : Gor) (recs : List LogRec) : (s.act pg g recs).dying = s.dying := rfl
@[simp] theorem act_pend (s : PLogSt) (pg : PgSt) (g : Gor) (recs : List LogRec) : (s.act pg g recs).pend g = s.pend g ++ recs := by
  simp [PLogSt.act]
theorem act_pend_ne (s : PLogSt) (pg : PgSt) {g g' : Gor} (h : g' ≠ g) (recs : List LogRec) : (s.act pg g recs).pend g' = s.pend g' := by
  simp [PLogSt.act, upd_ne _ _ h]

/-! ## Without its log this is the program of `Model/Program` -/

structure PlBase (K : KEnv) (L : LifeEnv) (H : List (Bytes × Option UDPAddr)) (s : PLogSt) : Prop where
  pg : PgReach K (H.map Prod.snd) s.pg
  hosts : ∀ r, s.pg.st.pc = .boot r → r = s.hosts.map Prod.snd
  dying : ∀ tr, s.dying = some tr → s.pg.st.pc = .dead ∨ ∃ a r O p c, s.pg.st.pc = .boot (a :: r) ∧ Oracle.Fair O ∧
    BootStrap K O a { resp := none, trace := [] } = .panic p c ∧ c.trace = tr
  dead : s.pg.st.pc = .dead → s.dying ≠ none

theorem boot_panic_erased {K : KEnv} {L : LifeEnv} {O : Oracle} {host : Bytes} {r : Option UDPAddr} {p : Panic} {c : LSt}
    (h : bootCallL K L O host r { h := { resp := none, trace := [] }, logs := [] } = .panic p c) :
    BootStrap K O r { resp := none, trace := [] } = .panic p c.h := by
  have := bootCall_erases K L O host r { h := { resp := none, trace := [] }, logs := [] }
  rw [h] at this; exact this.symm

theorem boot_ok_erased {K : KEnv} {L : LifeEnv} {O : Oracle} {host : Bytes} {r : Option UDPAddr} {c : LSt}
    (h : bootCallL K L O host r { h := { resp := none, trace := [] }, logs := [] } = .ok () c) :
    BootStrap K O r { resp := none, trace := [] } = .ok () c.h := by
  have := bootCall_erases K L O host r { h := { resp := none, trace := [] }, logs := [] }
  rw [h] at this; exact this.symm

theorem pgMain_st {s t : PgSt} (h : PgMain s t) : t.st = s.st := by cases h <;> rfl

theorem plBase_step {K : KEnv} {L : LifeEnv} {H : List (Bytes × Option UDPAddr)} {s t : PLogSt} (h : PlBase K L H s) (st : PLogStep K L s t) :
    PlBase K L H t := by
  obtain ⟨h1, h2, h3, h4⟩ := h
  cases st with
  | write g a hp => exact ⟨h1, h2, h3, h4⟩
  | main a hp m =>
    cases m with
    | @bootOk host addr r O c hd hh hpc hO hc =>
      refine ⟨h1.step (.other a (.startup (.bootOk hpc hO (boot_ok_erased hc)))), ?_, ?_, ?_⟩
      · intro r' e; simpa using e.symm
      · intro tr e; rw [show _ = s.dying from rfl, hd] at e; cases e
      · intro e; cases e
    | @bootFails host addr r O p c hd hh hpc hO hc =>
      refine ⟨h1, h2, ?_, ?_⟩
      · intro tr e; cases e; exact .inr ⟨_, _, _, _, _, hpc, hO, boot_panic_erased hc, rfl⟩
      · intro e; simp
    | @bootPanic tr hd =>
      rcases h3 tr hd with e | ⟨a', r, O, p, c, e1, e2, e3, e4⟩
      · exact absurd e a.2.1
      · subst e4
        refine ⟨h1.step (.other a (.startup (.bootPanic e1 e2 e3))), ?_, ?_, ?_⟩
        · intro r e; cases e
        · intro tr e; exact .inl rfl
        · intro e; rw [show _ = s.dying from rfl, hd]; simp
    | run hpc =>
      refine ⟨h1.step (.other a (.startup (.run hpc))), ?_, ?_, ?_⟩
      · intro r e; cases e
      · intro tr e
        rcases h3 tr e with e | ⟨a', r, O, p, c, e1, e2, e3, e4⟩
        · exact absurd e a.2.1
        · rw [hpc] at e1; cases e1
      · intro e; cases e
    | @wait p sig hs m =>
      have hst := pgMain_st m
      refine ⟨h1.step (.main a m), ?_, ?_, ?_⟩
      · intro r e; exact h2 r (by rw [← hst]; exact e)
      · intro tr e; rw [act_pg, hst]; exact h3 tr e
      · intro e; rw [act_pg, hst] at e; exact h4 e
  | run a hp m =>
    have hd : ∀ tr, s.dying = some tr → (∀ r, s.pg.st.pc ≠ .boot r) → False := by
      intro tr e hn
      rcases h3 tr e with e | ⟨a', r, O, p, c, e1, -⟩
      · exact a.2.1 e
      · exact hn _ e1
    cases m with
    | @register q hh r O H' hpc hr =>
      refine ⟨h1.step (.other a (.startup (.register hpc hr))), ?_, ?_, ?_⟩
      · intro r e; cases e
      · intro tr e; exact (hd tr e (by simp [hpc])).elim
      · intro e; cases e
    | registered hpc =>
      refine ⟨h1.step (.other a (.startup (.registered hpc))), ?_, ?_, ?_⟩
      · intro r e; cases e
      · intro tr e; exact (hd tr e (by simp [hpc])).elim
      · intro e; cases e
    | fetch hpc =>
      refine ⟨h1.step (.other a (.startup (.fetch hpc))), ?_, ?_, ?_⟩
      · intro r e; cases e
      · intro tr e; exact (hd tr e (by simp [hpc])).elim
      · intro e; cases e
    | clean hpc =>
      refine ⟨h1.step (.other a (.startup (.clean hpc))), ?_, ?_, ?_⟩
      · intro r e; cases e
      · intro tr e; exact (hd tr e (by simp [hpc])).elim
      · intro e; cases e
    | take hpc hq => exact ⟨h1.step (.other a (.startup (.take hpc hq))), h2, h3, h4⟩
  | closer a hp m =>
    cases m with
    | store e => exact ⟨h1.step (.other a (.closeStore e)), h2, h3, h4⟩
    | close e => exact ⟨h1.step (.other a (.closeConn e)), h2, h3, h4⟩
    | done e => exact ⟨h1.step (.other a (.closeDone e)), h2, h3, h4⟩
  | rcv a hp m =>
    cases m with
    | test e => exact ⟨h1.step (.other a (.test e)), h2, h3, h4⟩
    | read p e e2 => exact ⟨h1.step (.other a (.read p e e2)), h2, h3, h4⟩
    | readErr x e => exact ⟨h1.step (.other a (.readErr e)), h2, h3, h4⟩
    | deliver e e2 => exact ⟨h1.step (.other a (.deliver e e2)), h2, h3, h4⟩
  | quiet a m =>
    cases m with
    | signal => exact ⟨h1.step (.other a .signal), h2, h3, h4⟩
    | add e => exact ⟨h1.step (.other a (.add e)), h2, h3, h4⟩
    | rangeNone e e2 => exact ⟨h1.step (.other a (.rangeNone e e2)), h2, h3, h4⟩
    | rangeOne e e2 => exact ⟨h1.step (.other a (.rangeOne e e2)), h2, h3, h4⟩
    | wait e e2 => exact ⟨h1.step (.other a (.wait e e2)), h2, h3, h4⟩

theorem plogReach_base {K : KEnv} {L : LifeEnv} {H : List (Bytes × Option UDPAddr)} {s : PLogSt} (h : PLogReach K L H s) : PlBase K L H s := by
  refine Reach.inv (PlBase K L H) ?_ (fun s t => plBase_step) h
  rintro s ⟨h1, h2, h3, h4, h5⟩
  have hs := h1.1
  rw [StSt.start] at hs
  refine ⟨.init h1, ?_, ?_, ?_⟩
  · intro r e; rw [hs] at e; rw [h2]; cases e; rfl
  · intro tr e; rw [h4] at e; cases e
  · intro e; rw [hs] at e; cases e

end P2P

import Verif.Props.Krpc
/-! # C29: no packet crashes the server -/
namespace P2P

/-- the code always comes to an end -/
def GoM.Total {σ α : Type} (m : GoM σ α) : Prop := ∀ s, m s ≠ .diverge

namespace GoM.Total
theorem pure {σ α : Type} (a : α) : GoM.Total (Pure.pure a : GoM σ α) := fun s => by simp
theorem panic {σ α : Type} (p : Panic) : GoM.Total (GoM.panic p : GoM σ α) := fun s => by simp
theorem get {σ : Type} : GoM.Total (GoM.get : GoM σ σ) := fun s => by simp
theorem modify {σ : Type} (f : σ → σ) : GoM.Total (GoM.modify f) := fun s => by simp
theorem bind {σ α β : Type} {m : GoM σ α} {f : α → GoM σ β} (hm : m.Total) (hf : ∀ a, (f a).Total) :
    GoM.Total (m >>= f) := by
  intro s
  rw [GoM.bind_apply]
  have := hm s
  cases h : m s with
  | ok a s' => exact hf a s'
  | panic p s' => simp
  | diverge => exact absurd h this
theorem lift {σ α : Type} {r : Res α} (h : r ≠ .diverge) : GoM.Total (GoM.lift r : GoM σ α) := by
  intro s
  cases r with
  | ok a => simp
  | err e => simp [GoM.lift]
  | panic p => simp
  | diverge => exact absurd rfl h
theorem recoverWith {σ α : Type} {m : GoM σ α} {h : Panic → GoM σ α} (hm : m.Total) (hh : ∀ p, (h p).Total) :
    GoM.Total (GoM.recoverWith m h) := by
  intro s
  unfold GoM.recoverWith
  have := hm s
  cases hs : m s with
  | ok a s' => simp
  | panic p s' => exact hh p s'
  | diverge => exact absurd hs this
end GoM.Total

mutual
theorem encodeItem_nd : ∀ v : GoVal, encodeItem v ≠ .diverge
  | .int _ | .str _ | .nilList | .nilDict | .nil | .namedInt _ | .namedStr _ | .otherSlice | .otherMap | .other => by
    simp [encodeItem]
  | .list l => by
    rw [encodeItem]
    have := encodeElems_nd l
    cases h : encodeElems l <;> simp_all
  | .dict d => by
    rw [encodeItem]
    have := encodeEntries_nd d
    cases h : encodeEntries d <;> simp_all
theorem encodeElems_nd : ∀ l : List GoVal, encodeElems l ≠ .diverge
  | [] => by simp [encodeElems]
  | v :: r => by
    rw [encodeElems]
    have h1 := encodeItem_nd v
    have h2 := encodeElems_nd r
    cases h : encodeItem v <;> simp_all
    cases h' : encodeElems r <;> simp_all
theorem encodeEntries_nd : ∀ d : List (Bytes × GoVal), encodeEntries d ≠ .diverge
  | [] => by simp [encodeEntries]
  | (k, v) :: r => by
    rw [encodeEntries]
    have h1 := encodeItem_nd v
    have h2 := encodeEntries_nd r
    cases h : encodeItem v <;> simp_all
    cases h' : encodeEntries r <;> simp_all
end

theorem EncodeDict_nd (d : Option Entries) : EncodeDict d ≠ .diverge := by
  unfold EncodeDict
  split <;> exact encodeItem_nd _

theorem getString_nd (d : Entries) (k : Bytes) : Dict.GetString d k ≠ .diverge := by
  rcases getString_cases d k with ⟨s, -, h⟩ | ⟨-, m, h⟩ <;> simp [h]
theorem getInteger_nd (d : Entries) (k : Bytes) : Dict.GetInteger d k ≠ .diverge := by
  rcases getInteger_cases d k with ⟨s, -, h⟩ | ⟨-, m, h⟩ <;> simp [h]
theorem getDict_nd (d : Entries) (k : Bytes) : Dict.GetDict d k ≠ .diverge := by
  rcases getDict_cases d k with ⟨s, -, h⟩ | ⟨-, h⟩ | ⟨-, m, h⟩ <;> simp [h]
theorem getList_nd (d : Entries) (k : Bytes) : Dict.GetList d k ≠ .diverge := by
  rcases getList_cases d k with ⟨s, h⟩ | ⟨m, h⟩ <;> simp [h]

theorem supported_nd (fold : FoldTable) (q : Bytes) :
    GoList.ContainsString fold supportQueryType q ≠ .diverge := by
  obtain ⟨b, hb, -⟩ := supported_spec fold q
  simp [hb]

theorem rawData_nd (r : Response) : r.RawData ≠ .diverge := by
  unfold Response.RawData
  split
  · simp
  · have h1 := getInteger_nd (asMap r.body) b!"code"
    have h2 := getString_nd (asMap r.body) b!"msg"
    cases h : Dict.GetInteger (asMap r.body) b!"code" <;> simp_all
    cases h' : Dict.GetString (asMap r.body) b!"msg" <;> simp_all

theorem SendPacket_total (O : Oracle) (b : Bytes) (a : UDPAddr) : (SendPacket O b a).Total := by
  intro s; simp [SendPacket]
theorem getReq_total (O : Oracle) (t : Bytes) : (getReq O t).Total := by
  intro s; simp [getReq]
theorem tableAdd_total (O : Oracle) (n : NodeInfo) : (tableAdd O n).Total := by
  intro s; simp [tableAdd]
theorem nextTxId_total (O : Oracle) : (nextTxId O).Total := by
  intro s; simp [nextTxId]

theorem Query_total (O : Oracle) (a : UDPAddr) (r : Request) : (Query O a r).Total := by
  refine .bind (.modify _) fun _ => .bind .get fun s => ?_
  have := EncodeDict_nd (some (O.order s.trace r.RawData))
  cases h : EncodeDict (some (O.order s.trace r.RawData)) with
  | ok raw => exact .bind (SendPacket_total _ _ _) fun f => by split <;> exact .pure _
  | err e => exact .pure _
  | panic p => exact .panic _
  | diverge => exact absurd h this

theorem runHandlers_total (chain : List (Prog HSt)) (h : ∀ p ∈ chain, p.Terminating) (r : Option Response) :
    (runHandlers chain r).Total := by
  intro s
  unfold runHandlers
  rcases C26_chain chain h { s with resp := r } with ⟨c, hc, -⟩ | ⟨p, c, m, hc, -⟩ <;> simp [hc]

/-- every handler and middleware of the server comes to an end when called -/
structure Handlers.Terminating (H : Handlers) : Prop where
  router : ∀ x ∈ H.router, ∀ a, (x.2 a).Terminating
  reqMw : ∀ m ∈ H.reqMw, ∀ a, (m a).Terminating
  respMw : ∀ m ∈ H.respMw, ∀ a, (m a).Terminating
  respH : ∀ i a, (H.respH i a).Terminating

theorem lookup_mem {β : Type} {l : List (Bytes × β)} {k : Bytes} {v : β} (h : l.lookup k = some v) : (k, v) ∈ l := by
  induction l with
  | nil => cases h
  | cons x r ih =>
    obtain ⟨k', v'⟩ := x
    rw [List.lookup] at h
    split at h
    · rename_i he
      cases h
      have : k = k' := by simpa using he
      simp [this]
    · exact List.mem_cons_of_mem _ (ih h)

theorem requestHandle_total (fold : FoldTable) {H : Handlers} (hH : H.Terminating) (O : Oracle) (addr : UDPAddr)
    (d : Entries) : (requestHandle fold H O addr d).Total := by
  refine .bind (.lift (getString_nd _ _)) fun t => .bind (.lift (getString_nd _ _)) fun q => ?_
  refine .recoverWith (.bind (.lift (supported_nd _ _)) fun b => ?_) fun p => ?_
  · split
    · exact .pure _
    · refine .bind (.lift (getDict_nd _ _)) fun body => .bind (.lift (getString_nd _ _)) fun id => ?_
      split
      · exact .pure _
      · split
        · exact .pure _
        · rename_i h hl
          refine runHandlers_total _ (fun p hp => ?_) _
          simp only [List.mem_append, List.mem_map, List.mem_singleton] at hp
          rcases hp with ⟨m, hm, rfl⟩ | rfl
          · exact hH.reqMw m hm _
          · exact ⟨fun s => by simp [emit], hH.router _ (lookup_mem hl) _⟩
  · split
    · exact .bind .get fun s => .pure _
    · exact .panic _

theorem responseHandle_total {H : Handlers} (hH : H.Terminating) (O : Oracle) (addr : UDPAddr) (d : Entries) :
    (responseHandle H O addr d).Total := by
  refine .bind (.lift (getString_nd _ _)) fun t => .bind (.lift (getDict_nd _ _)) fun body =>
    .bind (.lift (getString_nd _ _)) fun _ => .bind (getReq_total _ _) fun found => ?_
  split
  · exact .pure _
  · rename_i req
    refine .bind (runHandlers_total _ (fun p hp => ?_) _) fun _ => .pure _
    simp only [List.mem_append, List.mem_map, List.mem_singleton] at hp
    rcases hp with ⟨m, hm, rfl⟩ | rfl
    · exact hH.respMw m hm _
    · unfold callRespHandler
      split
      · exact ⟨fun s => by simp, trivial⟩
      · exact fun s => ⟨fun s => by simp [emit], hH.respH _ _⟩

theorem packetBody_total (fold : FoldTable) {H : Handlers} (hH : H.Terminating) (O : Oracle) (pkt : RecvPacket) :
    (packetBody fold H O pkt).Total := by
  unfold packetBody
  cases hd : DecodeDictNoLimit pkt.bytes with
  | err e => exact .pure _
  | panic p => exact .panic _
  | diverge => exact absurd hd (C09_decoders_terminate _).2.2.2.2
  | ok x =>
    obtain ⟨d, n⟩ := x
    simp only
    split
    · exact .pure _
    · refine .bind (.lift (getString_nd _ _)) fun y => ?_
      split
      · refine .bind (requestHandle_total _ hH _ _ _) fun ret => ?_
        cases ret with
        | none => exact .panic _
        | some r =>
          refine .bind (.lift (rawData_nd r)) fun raw => .bind .get fun s => ?_
          have := EncodeDict_nd (some (O.order s.trace raw))
          cases h : EncodeDict (some (O.order s.trace raw)) with
          | ok raw => exact .bind (SendPacket_total _ _ _) fun _ => .pure _
          | err e => exact .bind (SendPacket_total _ _ _) fun _ => .pure _
          | panic p => exact .panic _
          | diverge => exact absurd h this
      · split
        · exact responseHandle_total hH _ _ _
        · split
          · exact .bind (.lift (getString_nd _ _)) fun _ => .bind (.lift (getList_nd _ _)) fun _ => .pure _
          · exact .pure _

/-- C29: whatever bytes arrive, whatever the other goroutines do and whatever (terminating) handlers and
middlewares are installed – they may panic –, the handling of a packet comes to an end, lets no panic escape
and gives the buffer back exactly once. -/
theorem C29_never_crashes (fold : FoldTable) {H : Handlers} (hH : H.Terminating) (O : Oracle) (pkt : RecvPacket) :
    ∃ run, recvPacketHandle fold H O pkt = some run ∧ run.escaped = none ∧ run.recycled = [pkt.bytes] := by
  have h : (GoM.recoverWith (packetBody fold H O pkt) (fun _ => pure ())).Total :=
    .recoverWith (packetBody_total fold hH O pkt) fun _ => .pure _
  have hp : ∀ s p s', GoM.recoverWith (packetBody fold H O pkt) (fun _ => pure ()) s ≠ .panic p s' := by
    intro s p s'
    unfold GoM.recoverWith
    split
    · simp
    · rename_i hr
      exact fun h => hr _ _ h
  unfold recvPacketHandle
  simp only
  cases hr : GoM.recoverWith (packetBody fold H O pkt) (fun _ => pure ()) { resp := none, trace := [] } with
  | ok a s => exact ⟨_, rfl, rfl, rfl⟩
  | panic p s => exact absurd hr (hp _ _ _)
  | diverge => exact absurd hr (h _)

theorem findNodeRespHandler_total (K : KEnv) (O : Oracle) (ns : List NodeInfo) : (findNodeRespHandler K O ns).Total := by
  induction ns with
  | nil => exact .pure _
  | cons n r ih =>
    refine .bind (tableAdd_total _ _) fun e => ?_
    cases e with
    | some _ => exact ih
    | none => exact .bind (nextTxId_total _) fun _ => .bind (Query_total _ _ _) fun _ => ih

theorem parseNodeInfo_nd (s : Bytes) : parseNodeInfo s ≠ .diverge := by
  rw [parseNodeInfo_eq]; simp

theorem nodeId_nd (r : Response) : r.NodeId ≠ .diverge := getString_nd _ _

/-- the handlers of the crawler terminate -/
theorem dhtHandlers_terminating (K : KEnv) (O : Oracle) : (dhtHandlers K O).Terminating where
  router := by
    intro x hx a
    simp only [dhtHandlers, List.mem_cons, List.not_mem_nil, or_false] at hx
    rcases hx with rfl | rfl | rfl | rfl
    · exact ⟨GoM.Total.modify _, trivial⟩
    · exact ⟨GoM.Total.modify _, trivial⟩
    · exact ⟨GoM.Total.bind (.lift (getString_nd _ _)) fun _ => .modify _, trivial⟩
    · exact ⟨GoM.Total.bind (.lift (getString_nd _ _)) fun _ => .bind (.lift (getInteger_nd _ _)) fun _ =>
        .bind (.modify _) fun _ => .modify _, trivial⟩
  reqMw := by intro m hm; exact absurd hm (by simp [dhtHandlers, emptyHandlers])
  respMw := by intro m hm; exact absurd hm (by simp [dhtHandlers, emptyHandlers])
  respH := by
    intro i a
    refine ⟨GoM.Total.bind .get fun s => ?_, trivial⟩
    cases s.resp with
    | none => exact .panic _
    | some r =>
      refine .bind (.lift (nodeId_nd _)) fun _ => ?_
      split
      · exact .pure _
      · split
        · exact .bind (.lift (getString_nd _ _)) fun _ => .bind (.lift (parseNodeInfo_nd _)) fun _ =>
            findNodeRespHandler_total _ _ _
        · split
          · simp only
            split
            · exact .bind (.lift (getList_nd _ _)) fun _ => .bind (.lift (parsePeerInfo_nd _ _)) fun _ => .pure _
            · exact .bind (.lift (getString_nd _ _)) fun _ => .bind (.lift (parseNodeInfo_nd _)) fun _ => .pure _
          · exact .pure _

/-- C29 for the crawler as it is configured. -/
theorem C29_crawler (K : KEnv) (O : Oracle) (pkt : RecvPacket) :
    ∃ run, dhtPacket K O pkt = some run ∧ run.escaped = none ∧ run.recycled = [pkt.bytes] :=
  C29_never_crashes _ (dhtHandlers_terminating K O) O pkt

/-- a request middleware that panics, a response handler that panics: still no crash -/
example : ∃ H : Handlers, H.Terminating ∧ ∃ a, H.reqMw.map (fun m => m a) = [.eff (GoM.panic .runtime) .ret] :=
  ⟨{ router := [], reqMw := [fun _ => .eff (GoM.panic .runtime) .ret], respMw := [],
     respH := fun _ _ => .eff (GoM.panic (.str b!"x")) .ret },
   ⟨by simp, by intro m hm a; simp at hm; subst hm; exact ⟨fun s => by simp, trivial⟩, by simp,
    fun _ _ => ⟨fun s => by simp, trivial⟩⟩, { req := crawlQuery [] 0, addr := { ip := [1, 2, 3, 4], port := 5 } }, rfl⟩

end P2P

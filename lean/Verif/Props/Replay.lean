import Verif.Lemmas.Answered
import Verif.Props.KrpcExamples
import Verif.Props.RouteTableFull
/-! # Property C79: replayed responses -/
namespace P2P
open RouteTable

/-- The crawler, its shared objects being `w`, handles one packet while no other goroutine interferes; afterwards they are `w'`. -/
def Serves (K : KEnv) (w : World) (pkt : RecvPacket) (run : PacketRun) (w' : World) : Prop :=
  ∃ O : Oracle, O.Fair ∧ dhtPacket K O pkt = some run ∧ w.replay K.env run.trace = some w'

/-- The packet arrives `m` times, one after the other; `out` are the datagrams sent in reaction. -/
inductive Delivered (K : KEnv) (pkt : RecvPacket) : World → Nat → List (UDPAddr × Bytes) → World → Prop where
  | zero (w : World) : Delivered K pkt w 0 [] w
  | succ {w w1 w2 : World} {run : PacketRun} {m : Nat} {out : List (UDPAddr × Bytes)} :
      Serves K w pkt run w1 → Delivered K pkt w1 m out w2 → Delivered K pkt w (m + 1) (sends run.trace ++ out) w2

/-- C79: every packet can be handled, whatever the shared objects are. -/
theorem C79_served (K : KEnv) {w : World} (hr : Reachable K.env w.table) (pkt : RecvPacket) :
    ∃ run w', Serves K w pkt run w' ∧ Reachable K.env w'.table := by
  have hf := w.oracle_fair K.env []
  have : ∃ run, dhtPacket K (w.oracle K.env []) pkt = some run := by
    by_cases hq : ∃ d t q, IsQuery pkt.bytes d t q
    · obtain ⟨d, t, q, hq⟩ := hq
      obtain ⟨run, -, h, -⟩ := C27_query_answered K hf hq
      exact ⟨run, h⟩
    · by_cases hx : ∃ t body, IsResponse pkt.bytes t body
      · obtain ⟨t, body, hx⟩ := hx
        obtain ⟨tr, h, -⟩ := dhtPacket_response K hf hx
        exact ⟨_, h⟩
      · exact ⟨_, dhtPacket_ignored K _ pkt (fun d t q h => hq ⟨d, t, q, h⟩) (fun t b h => hx ⟨t, b, h⟩)⟩
  obtain ⟨run, hrun⟩ := this
  obtain ⟨w', hw'⟩ := replay_oracle hr (dhtPacket_answered K hrun)
  exact ⟨run, w', ⟨_, hf, hrun, hw'⟩, World.replay_reachable hr hw'⟩

theorem delivered_exists (K : KEnv) (pkt : RecvPacket) (m : Nat) {w : World} (hr : Reachable K.env w.table) :
    ∃ out w', Delivered K pkt w m out w' := by
  induction m generalizing w with
  | zero => exact ⟨_, _, .zero w⟩
  | succ m ih =>
    obtain ⟨run, w1, h1, h2⟩ := C79_served K hr pkt
    obtain ⟨out, w', h3⟩ := ih h2
    exact ⟨_, _, .succ h1 h3⟩

/-- a find_node query is pending under `t` -/
def Pending (w : World) (t : Bytes) : Prop :=
  ∃ req, w.reqs.lookup t = some req ∧ req.handler.isSome = true ∧ req.qType = b!"find_node"

/-- adding a stored node whose bucket has room changes the counter only -/
theorem addNode_dup {env : Env} {t : RouteTable} (h : Reachable env t) {n : NodeInfo} (hh : t.Has env n)
    (hroom : (t.bucketNodes (t.place n.id)).length < t.k) :
    t.AddNode env n = .ok ({ t with size := t.size + 1 }, none) := by
  have hc := addNode_case h n
  generalize t.AddNode env n = r at hc
  cases hc with
  | store _ hn => exact absurd hh hn
  | dup _ _ => rfl
  | full hl _ => omega
  | split hl _ _ => omega

/-- stored, with room left -/
def Roomy (env : Env) (t : RouteTable) (n : NodeInfo) : Prop :=
  t.Has env n ∧ (t.bucketNodes (t.place n.id)).length < t.k

theorem fanout_roomy {env : Env} {nodeId : Bytes} {t : Bytes} {ns : List NodeInfo} {tr : List Event} (hf : Fanout nodeId ns tr) :
    ∀ {w w' : World}, w.replay env tr = some w' → Reachable env w.table → (∀ n ∈ ns, Roomy env w.table n) → Pending w t →
    (sends tr).map Prod.fst = ns.map NodeInfo.addr ∧ Pending w' t ∧
      w'.table = { w.table with size := w.table.size + ns.length } := by
  induction hf with
  | nil => intro w w' hw hr hn hp; cases hw; exact ⟨rfl, hp, by simp⟩
  | @refused n e r tr hf ih =>
    intro w w' hw hr hn hp
    simp only [World.replay, World.apply, addNode_dup hr (hn n (by simp)).1 (hn n (by simp)).2] at hw
    simp at hw
  | @accepted n v b f r tr he hf ih =>
    intro w w' hw hr hn hp
    have hadd := addNode_dup hr (hn n (by simp)).1 (hn n (by simp)).2
    simp only [World.replay, World.apply, hadd, if_true] at hw
    by_cases hv : v = w.txId + 1
    · rw [if_pos hv] at hw
      simp only at hw
      have hp1 : Pending
          { reqs := reqPut w.reqs (crawlQuery nodeId v).txId (crawlQuery nodeId v)
            txId := v
            table := { w.table with size := w.table.size + 1 } } t := by
        obtain ⟨req, h1, h2, h3⟩ := hp
        unfold Pending
        simp only [lookup_reqPut]
        split
        · exact ⟨_, rfl, rfl, rfl⟩
        · exact ⟨req, h1, h2, h3⟩
      obtain ⟨h1, h2, h3⟩ := ih hw (hr.add hadd) (fun m hm => hn m (by simp [hm])) hp1
      refine ⟨?_, h2, ?_⟩
      · simp only [sends, List.filterMap_cons, List.map_cons] at h1 ⊢
        rw [h1]
      · rw [h3]
        simp only [List.length_cons, Int.natCast_add]
        congr 1
        omega
    · rw [if_neg hv] at hw; cases hw

/-- C79: a response whose nodes are all stored (for example because it has been processed before), in buckets that still have room, makes the
crawler send a query to every listed node each time it arrives: `m` copies cause `m` queries to each of the nodes, for every `m`. The
number of pending requests does not shrink, and the only trace left in the route table is its size, which grows by the number
of nodes each time. -/
theorem C79_replayed (K : KEnv) {pkt : RecvPacket} {t s : Bytes} {body : Entries} {ns : List NodeInfo} {w w' : World} {m : Nat}
    {out : List (UDPAddr × Bytes)} (h : IsResponse pkt.bytes t body) (hs : body.lookup b!"nodes" = some (.str s))
    (hns : parseNodeInfo s = .ok ns) (hr : Reachable K.env w.table) (hp : Pending w t)
    (hn : ∀ n ∈ ns, Roomy K.env w.table n) (hd : Delivered K pkt w m out w') :
    out.map Prod.fst = (List.replicate m (ns.map NodeInfo.addr)).flatten ∧ Pending w' t ∧
      w'.table = { w.table with size := w.table.size + m * ns.length } := by
  induction hd with
  | zero w => exact ⟨rfl, hp, by simp⟩
  | @succ w w1 w2 run m out hsv hd ih =>
    obtain ⟨O, hO, hrun, hw⟩ := hsv
    obtain ⟨req, hp1, hp2, hp3⟩ := hp
    obtain ⟨tr, h1, h2⟩ := dhtPacket_response K hO h
    rw [hrun] at h1
    cases h1
    simp only [World.replay, World.apply] at hw
    by_cases hl : O.lookup [] t = w.reqs.lookup t
    case neg => rw [if_neg hl] at hw; cases hw
    rw [if_pos hl] at hw
    simp only at hw
    rw [hl, hp1] at h2
    rcases h2 with ⟨h3 | ⟨r, h3, h4⟩, -⟩ | ⟨r, tr', h3, -, rfl, h4⟩
    · cases h3
    · cases h3; rw [h4] at hp2; cases hp2
    · cases h3
      rcases h4 with ⟨-, s', ns', hs', hns', hf⟩ | ⟨-, hx⟩
      case inr => exact absurd ⟨hp3, s, hs⟩ hx
      rw [hs] at hs'; cases hs'
      rw [hns] at hns'; cases hns'
      simp only [World.replay, World.apply] at hw
      obtain ⟨g1, g2, g3⟩ := fanout_roomy (t := t) hf hw hr hn ⟨req, hp1, hp2, hp3⟩
      have hn1 : ∀ n ∈ ns, Roomy K.env w1.table n := by rw [g3]; exact hn
      have hr1 : Reachable K.env w1.table := World.replay_reachable (w := w) hr hw
      obtain ⟨i1, i2, i3⟩ := ih hr1 g2 hn1
      refine ⟨?_, i2, ?_⟩
      · rw [List.map_append, i1, List.replicate_succ, List.flatten_cons]
        congr 1
      · rw [i3, g3]
        simp only [Int.natCast_add, Int.add_mul]
        congr 1
        omega

/-- a route table that has seen the response before -/
def exSeen : RouteTable :=
  match (RouteTable.new (exNode 9) 8 160).addAll env0 exNodes with
  | .ok (t, _) => t
  | _ => RouteTable.new (exNode 9) 8 160
def exSeenW : World := { reqs := [(b!"03e9", exQ)], txId := 1001, table := exSeen }

theorem exSeen_reachable : Reachable env0 exSeen := by
  have h1 : ∃ t1, (RouteTable.new (exNode 9) 8 160).AddNode env0 (exNode 1) = .ok (t1, none) ∧
      t1.AddNode env0 (exNode 2) = .ok (exSeen, none) := ⟨_, rfl, rfl⟩
  obtain ⟨t1, h1, h2⟩ := h1
  exact ((Reachable.new _ _ _).add h1).add h2

/-- the hypotheses of C79 hold for the example, and any number of copies can arrive: each makes the crawler send two queries -/
example (m : Nat) : ∃ out w', Delivered exK { addr := peerAddr, bytes := exResp } exSeenW m out w' ∧ out.length = 2 * m := by
  obtain ⟨out, w', h⟩ := delivered_exists exK { addr := peerAddr, bytes := exResp } m (w := exSeenW) exSeen_reachable
  have := C79_replayed exK (w := exSeenW) exResp_isResponse (s := joinNodeInfos exNodes) (ns := exNodes) (by decide +kernel) (by decide +kernel)
    exSeen_reachable ⟨exQ, rfl, rfl, rfl⟩ (by
      intro n hn
      simp only [exNodes, List.mem_cons, List.not_mem_nil, or_false] at hn
      refine ⟨?_, ?_⟩
      · rcases hn with rfl | rfl
        · exact ⟨exNode 1, by decide +kernel, by decide +kernel⟩
        · exact ⟨exNode 2, by decide +kernel, by decide +kernel⟩
      · rcases hn with rfl | rfl <;> decide +kernel) h
  refine ⟨out, w', h, ?_⟩
  have hl := congrArg List.length this.1
  simpa [exNodes, Nat.mul_comm] using hl

end P2P

import Verif.Props.Cut
import Verif.Props.Udp
import Verif.Props.Messages
import Verif.Props.Amplify
import Verif.Props.KrpcHistory
/-! # Property C88: what a cut datagram makes the receiver do -/
namespace P2P

theorem PartOf.lookup {e d : Entries} (h : PartOf (.dict e) (.dict d)) {k : Bytes} {v : GoVal} (hv : e.lookup k = some v) :
    ∃ w, d.lookup k = some w ∧ PartOf v w := by
  cases h with
  | same h =>
    obtain ⟨w, h1, h2⟩ := deepEq_lookup h hv
    exact ⟨w, h1, .same h2⟩
  | dict hdom h =>
    obtain ⟨w, hw⟩ := Option.isSome_iff_exists.1 (hdom k (by rw [hv]; rfl))
    exact ⟨w, hw, h k v w hv hw⟩

theorem PartOf.str {s : Bytes} {w : GoVal} (h : PartOf (.str s) w) : w = .str s := by
  cases h with
  | same h => cases h; rfl

theorem PartOf.lookup_str {e d : Entries} (h : PartOf (.dict e) (.dict d)) {k s : Bytes} (hv : e.lookup k = some (.str s)) :
    d.lookup k = some (.str s) := by
  obtain ⟨w, h1, h2⟩ := h.lookup hv
  rw [h1, h2.str]

theorem PartOf.lookup_dict {e d : Entries} (h : PartOf (.dict e) (.dict d)) {k : Bytes} {a : Entries} (hv : e.lookup k = some (.dict a)) :
    ∃ a', d.lookup k = some (.dict a') ∧ PartOf (.dict a) (.dict a') := by
  obtain ⟨w, h1, h2⟩ := h.lookup hv
  cases w
  case dict a' => exact ⟨a', h1, h2⟩
  all_goals (cases h2 with | same h => cases h)

/-- C88: a query of which only the first `c` bytes arrive makes the receiver do nothing, or send one reply to the source with the
transaction id of the query. Whatever reaches a handler has the transaction id and the method that were sent, and arguments that are
part of the arguments that were sent; the same holds for a job in the download queue. -/
theorem C88_query (K : KEnv) {O : Oracle} (hO : O.Fair) {t q : Bytes} {args : Entries} {b : Bytes} (addr : UDPAddr) (c : Nat)
    (hb : EncodingOf (.dict (queryDict t q args)) b) (hm : InMemory b) :
    ∃ run, dhtPacket K O { addr, bytes := b.take c } = some run ∧ (sends run.trace).length ≤ 1 ∧
      (∀ x ∈ sends run.trace, x.1 = addr) ∧ invoked run.trace = [] ∧
      (∀ x ∈ dispatched run.trace, x.2 = addr ∧ x.1.txId = t ∧ x.1.qType = q ∧ ∃ a, x.1.body = some a ∧ PartOf (.dict a) (.dict args)) ∧
      (∀ j ∈ enqueued run.trace, j.addr = addr ∧ j.req.txId = t ∧ j.req.qType = q ∧
        ∃ a, j.req.body = some a ∧ PartOf (.dict a) (.dict args)) := by
  by_cases hq : ∃ d t' q', IsQuery (b.take c) d t' q'
  · obtain ⟨d, t', q', h⟩ := hq
    obtain ⟨n, hdec⟩ := h.decodes
    have hp := C88_cut hb hm c hdec
    have e1 : t' = t := by
      have := hp.lookup_str h.t
      have g : (queryDict t q args).lookup b!"t" = some (.str t) := rfl
      rw [g] at this; cases this; rfl
    have e2 : q' = q := by
      have := hp.lookup_str h.q
      have g : (queryDict t q args).lookup b!"q" = some (.str q) := rfl
      rw [g] at this; cases this; rfl
    subst e1 e2
    have harg : ∀ a, d.lookup b!"a" = some (.dict a) → PartOf (.dict a) (.dict args) := by
      intro a ha
      obtain ⟨a', h1, h2⟩ := hp.lookup_dict ha
      have g : (queryDict t' q' args).lookup b!"a" = some (.dict args) := rfl
      rw [g] at h1; cases h1; exact h2
    obtain ⟨tr, rb, fr, reply, h1, -, h3⟩ := dhtPacket_query K hO (pkt := { addr, bytes := b.take c }) h
    refine ⟨_, h1, ?_⟩
    rcases h3 with ⟨-, a, ha, rfl, -⟩ | ⟨-, msg, -, rfl | ⟨a, ha, rfl⟩, -⟩
    · have hpa := harg a ha
      simp only [answerTrace]
      (repeat' split) <;> simp [sends, invoked, dispatched, enqueued, hpa]
    · simp [sends, invoked, dispatched, enqueued]
    · simp [sends, invoked, dispatched, enqueued, harg a ha]
  · by_cases hr : ∃ t' body, IsResponse (b.take c) t' body
    · obtain ⟨t', body, h⟩ := hr
      obtain ⟨d, n, hdec, hy, -⟩ := h.decodes
      have := (C88_cut hb hm c hdec).lookup_str hy
      have g : (queryDict t q args).lookup b!"y" = some (.str b!"q") := rfl
      rw [g] at this
      exact absurd this (by decide)
    · refine ⟨_, dhtPacket_ignored K O _ (fun d t q h => hq ⟨d, t, q, h⟩) (fun t b h => hr ⟨t, b, h⟩), ?_⟩
      simp [sends, invoked, dispatched, enqueued]

theorem Fanout.no_invokes {nodeId : Bytes} {ns : List NodeInfo} {tr : List Event} (h : Fanout nodeId ns tr) : invoked tr = [] := by
  induction h with
  | nil => rfl
  | refused _ ih => simpa [invoked] using ih
  | accepted _ _ ih => simpa [invoked] using ih

/-- C88: a reply of which only the first `c` bytes arrive is ignored, or runs the handler of the query registered under the transaction id
that was sent, with a body that is part of the one that was sent. -/
theorem C88_reply (K : KEnv) {O : Oracle} (hO : O.Fair) {t : Bytes} {body : Entries} {b : Bytes} (addr : UDPAddr) (c : Nat)
    (hb : EncodingOf (.dict (replyDict t body)) b) (hm : InMemory b) :
    ∃ run, dhtPacket K O { addr, bytes := b.take c } = some run ∧ dispatched run.trace = [] ∧ enqueued run.trace = [] ∧
      (∀ x ∈ invoked run.trace, O.lookup [] t = some x.1 ∧ x.2.2 = addr ∧
        ∃ body', x.2.1 = some { txId := t, body := some body', isErr := false } ∧ PartOf (.dict body') (.dict body)) := by
  by_cases hr : ∃ t' body', IsResponse (b.take c) t' body'
  · obtain ⟨t', body', h⟩ := hr
    obtain ⟨d, n, hdec, hy, ht, hbd⟩ := h.decodes
    have hp := C88_cut hb hm c hdec
    have e1 : t' = t := by
      have := hp.lookup_str ht
      have g : (replyDict t body).lookup b!"t" = some (.str t) := rfl
      rw [g] at this; cases this; rfl
    subst e1
    have hpb : PartOf (.dict body') (.dict body) := by
      obtain ⟨a', h1, h2⟩ := hp.lookup_dict hbd
      have g : (replyDict t' body).lookup b!"r" = some (.dict body) := rfl
      rw [g] at h1; cases h1; exact h2
    obtain ⟨tr, h1, h2⟩ := dhtPacket_response K hO (pkt := { addr, bytes := b.take c }) h
    refine ⟨_, h1, ?_⟩
    rcases h2 with ⟨-, rfl⟩ | ⟨req, tr', hl, hh, rfl, hrt⟩
    · simp [invoked, dispatched, enqueued]
    · have hn : dispatched tr' = [] ∧ enqueued tr' = [] ∧ invoked tr' = [] := by
        rcases hrt with ⟨-, s, ns, -, -, hf⟩ | ⟨rfl, -⟩
        · exact ⟨hf.no_jobs.2, hf.no_jobs.1, hf.no_invokes⟩
        · exact ⟨rfl, rfl, rfl⟩
      obtain ⟨n1, n2, n3⟩ := hn
      have z1 : ∀ x (l : List Event), dispatched (.lookup t' (O.lookup [] t') :: .invoke req x addr :: l) = dispatched l := fun _ _ => rfl
      have z2 : ∀ x (l : List Event), enqueued (.lookup t' (O.lookup [] t') :: .invoke req x addr :: l) = enqueued l := fun _ _ => rfl
      have z3 : ∀ x (l : List Event), invoked (.lookup t' (O.lookup [] t') :: .invoke req x addr :: l) = (req, x, addr) :: invoked l :=
        fun _ _ => rfl
      simp only [z1, z2, z3, n1, n2, n3, List.mem_singleton, true_and]
      rintro x rfl
      exact ⟨hl, rfl, body', rfl, hpb⟩
  · by_cases hq : ∃ d t' q', IsQuery (b.take c) d t' q'
    · obtain ⟨d, t', q', h⟩ := hq
      obtain ⟨n, hdec⟩ := h.decodes
      have := (C88_cut hb hm c hdec).lookup_str h.y
      have g : (replyDict t body).lookup b!"y" = some (.str b!"r") := rfl
      rw [g] at this
      exact absurd this (by decide)
    · refine ⟨_, dhtPacket_ignored K O _ (fun d t q h => hq ⟨d, t, q, h⟩) (fun t b h => hr ⟨t, b, h⟩), ?_⟩
      simp [invoked, dispatched, enqueued]

/-- C88: of a find_node reply for IPv4 nodes that is cut off, the receiver uses all nodes or none. -/
theorem C88_nodes_all_or_none (K : KEnv) {O : Oracle} (hO : O.Fair) {t id : Bytes} {ns : List NodeInfo} {b : Bytes} (addr : UDPAddr) (c : Nat)
    (hns : ∀ n ∈ ns, CompactNode n)
    (hb : EncodingOf (.dict (replyDict t [(b!"id", .str id), (b!"nodes", .str (joinNodeInfos ns))])) b) (hm : InMemory b) :
    ∃ run, dhtPacket K O { addr, bytes := b.take c } = some run ∧
      ((offered run.trace).map Prod.fst = ns ∨ offered run.trace = [] ∧ sends run.trace = []) := by
  by_cases hr : ∃ t' body', IsResponse (b.take c) t' body'
  · obtain ⟨t', body', h⟩ := hr
    obtain ⟨d, n, hdec, hy, ht, hbd⟩ := h.decodes
    have hp := C88_cut hb hm c hdec
    obtain ⟨a', h1, hpb⟩ := hp.lookup_dict hbd
    have g : (replyDict t [(b!"id", GoVal.str id), (b!"nodes", .str (joinNodeInfos ns))]).lookup b!"r" =
      some (.dict [(b!"id", .str id), (b!"nodes", .str (joinNodeInfos ns))]) := rfl
    rw [g] at h1; cases h1
    obtain ⟨tr, h1, h2⟩ := dhtPacket_response K hO (pkt := { addr, bytes := b.take c }) h
    refine ⟨_, h1, ?_⟩
    rcases h2 with ⟨-, rfl⟩ | ⟨req, tr', hl, hh, rfl, hrt⟩
    · right; simp [offered, sends]
    · have z1 : ∀ x (l : List Event), offered (.lookup t' (O.lookup [] t') :: .invoke req x addr :: l) = offered l := fun _ _ => rfl
      have z2 : ∀ x (l : List Event), sends (.lookup t' (O.lookup [] t') :: .invoke req x addr :: l) = sends l := fun _ _ => rfl
      rcases hrt with ⟨-, s, ns', hs, hns', hf⟩ | ⟨rfl, -⟩
      · left
        have := hpb.lookup_str hs
        have g2 : List.lookup b!"nodes" [(b!"id", GoVal.str id), (b!"nodes", .str (joinNodeInfos ns))] = some (.str (joinNodeInfos ns)) := rfl
        rw [g2] at this; cases this
        rw [C15_parse_join ns hns] at hns'
        cases hns'
        rw [z1]
        exact (C33_queries hf).1
      · right
        rw [z1, z2]; exact ⟨rfl, rfl⟩
  · by_cases hq : ∃ d t' q', IsQuery (b.take c) d t' q'
    · obtain ⟨d, t', q', h⟩ := hq
      obtain ⟨n, hdec⟩ := h.decodes
      have := (C88_cut hb hm c hdec).lookup_str h.y
      have g : ∀ r, (replyDict t r).lookup b!"y" = some (.str b!"r") := fun _ => rfl
      rw [g] at this
      exact absurd this (by decide)
    · refine ⟨_, dhtPacket_ignored K O _ (fun d t q h => hq ⟨d, t, q, h⟩) (fun t b h => hr ⟨t, b, h⟩), ?_⟩
      simp [offered, sends]

/-! ## What fits -/

theorem natDec_3 {n : Nat} (h : n < 1000) : (natDec n).length ≤ 3 := natDec_length_le (by omega) (by omega)

theorem itoa_length {i : Int} (h : IsInt64 i) : (itoa i).length ≤ 20 := by
  unfold IsInt64 at h
  rcases i with n | n
  · have h1 : n < 10 ^ 20 := by
      have := h.2
      simp only [Int.ofNat_eq_natCast] at this
      omega
    show (natDec n).length ≤ 20
    exact natDec_length_le (m := 20) (by omega) h1
  · have h1 : n + 1 < 10 ^ 19 := by
      have := h.1
      omega
    have := natDec_length_le (m := 19) (by omega) h1
    show (natDec (n + 1)).length + 1 ≤ 20
    omega

theorem enc4 {t : Bytes} (h : t.length = 4) : (EncodeString t).length = 6 := by
  rw [encodeString_length, h, natDec_small (by omega)]

/-- C88: with transaction ids of 4 bytes, ids of 20 bytes and tokens of at most 800 bytes, every query fits into the receive buffer:
it arrives whole. -/
theorem C88_queries_fit {t id target ih token b : Bytes} {port : Int} (ht : t.length = 4) (hid : id.length = 20) (htg : target.length = 20)
    (hih : ih.length = 20) (htok : token.length ≤ 800) (hp : IsInt64 port)
    (hb : EncodingOf (.dict (queryDict t b!"ping" [(b!"id", .str id)])) b ∨
      EncodingOf (.dict (queryDict t b!"find_node" [(b!"id", .str id), (b!"target", .str target)])) b ∨
      EncodingOf (.dict (queryDict t b!"get_peers" [(b!"id", .str id), (b!"info_hash", .str ih)])) b ∨
      EncodingOf (.dict (queryDict t b!"announce_peer"
        [(b!"id", .str id), (b!"info_hash", .str ih), (b!"port", .int port), (b!"token", .str token), (b!"implied_port", .int 0)])) b) :
    b.take 1024 = b := by
  apply List.take_of_length_le
  have k1 : (EncodeString b!"t").length = 3 := by decide +kernel
  have k2 : (EncodeString b!"y").length = 3 := by decide +kernel
  have k3 : (EncodeString b!"q").length = 3 := by decide +kernel
  have k4 : (EncodeString b!"a").length = 3 := by decide +kernel
  have k5 : (EncodeString b!"id").length = 4 := by decide +kernel
  have k6 : (EncodeString b!"target").length = 8 := by decide +kernel
  have k7 : (EncodeString b!"info_hash").length = 11 := by decide +kernel
  have k8 : (EncodeString b!"port").length = 6 := by decide +kernel
  have k9 : (EncodeString b!"token").length = 7 := by decide +kernel
  have k10 : (EncodeString b!"implied_port").length = 15 := by decide +kernel
  have k11 : (EncodeString b!"ping").length = 6 := by decide +kernel
  have k12 : (EncodeString b!"find_node").length = 11 := by decide +kernel
  have k13 : (EncodeString b!"get_peers").length = 11 := by decide +kernel
  have k14 : (EncodeString b!"announce_peer").length = 16 := by decide +kernel
  have k15 : (EncodeInteger 0).length = 3 := by decide +kernel
  have k16 : (EncodeString token).length ≤ 804 := by
    rw [encodeString_length]
    have := natDec_3 (n := token.length) (by omega)
    omega
  have k17 : (EncodeInteger port).length ≤ 22 := by
    have := itoa_length hp
    simp [EncodeInteger]; omega
  rcases hb with hb | hb | hb | hb
  · rw [hb.length ⟨by simp [queryDict], by simp [queryDict, GoVal.WFD, GoVal.WF]⟩]
    simp only [queryDict, GoVal.size, GoVal.sizeD, k1, k2, k3, k4, k5, k6, k7, k8, k9, k10, k11, k12, k13, k14, k15, enc4 ht, enc20 hid]; clear k1 k2 k3 k4 k5 k6 k7 k8 k9 k10 k11 k12 k13 k14 k15; omega
  · rw [hb.length ⟨by simp [queryDict], by simp [queryDict, GoVal.WFD, GoVal.WF]⟩]
    simp only [queryDict, GoVal.size, GoVal.sizeD, k1, k2, k3, k4, k5, k6, k7, k8, k9, k10, k11, k12, k13, k14, k15, enc4 ht, enc20 hid, enc20 htg]; clear k1 k2 k3 k4 k5 k6 k7 k8 k9 k10 k11 k12 k13 k14 k15; omega
  · rw [hb.length ⟨by simp [queryDict], by simp [queryDict, GoVal.WFD, GoVal.WF]⟩]
    simp only [queryDict, GoVal.size, GoVal.sizeD, k1, k2, k3, k4, k5, k6, k7, k8, k9, k10, k11, k12, k13, k14, k15, enc4 ht, enc20 hid, enc20 hih]; clear k1 k2 k3 k4 k5 k6 k7 k8 k9 k10 k11 k12 k13 k14 k15; omega
  · rw [hb.length ⟨by simp [queryDict], by
      simp only [queryDict, GoVal.WFD, GoVal.WF]
      exact ⟨trivial, trivial, trivial, ⟨by simp, trivial, trivial, hp, trivial, by unfold IsInt64; omega, trivial⟩, trivial⟩⟩]
    simp only [queryDict, GoVal.size, GoVal.sizeD, k1, k2, k3, k4, k5, k6, k7, k8, k9, k10, k11, k12, k13, k14, k15, enc4 ht, enc20 hid, enc20 hih]; clear k1 k2 k3 k4 k5 k6 k7 k8 k9 k10 k11 k12 k13 k14 k15; omega

/-- C88: find_node replies with up to 37 nodes fit into the receive buffer. -/
theorem C88_replies_fit {t id b : Bytes} {ns : List NodeInfo} (ht : t.length = 4) (hid : id.length = 20) (hns : ∀ n ∈ ns, CompactNode n)
    (hl : ns.length ≤ 37) (hb : EncodingOf (.dict (replyDict t [(b!"id", .str id), (b!"nodes", .str (joinNodeInfos ns))])) b) :
    b.take 1024 = b := by
  apply List.take_of_length_le
  have k1 : (EncodeString b!"t").length = 3 := by decide +kernel
  have k2 : (EncodeString b!"y").length = 3 := by decide +kernel
  have k3 : (EncodeString b!"r").length = 3 := by decide +kernel
  have k5 : (EncodeString b!"id").length = 4 := by decide +kernel
  have k6 : (EncodeString b!"nodes").length = 7 := by decide +kernel
  have hj := joinNodeInfos_length hns
  have k16 : (EncodeString (joinNodeInfos ns)).length ≤ 966 := by
    rw [encodeString_length]
    have := natDec_3 (n := (joinNodeInfos ns).length) (by omega)
    omega
  rw [hb.length ⟨by simp [replyDict], by simp [replyDict, GoVal.WFD, GoVal.WF]⟩]
  simp only [replyDict, GoVal.size, GoVal.sizeD, k1, k2, k3, k5, k6, enc4 ht, enc20 hid]; clear k1 k2 k3 k5 k6; omega

/-- C88: ... and with 38 nodes or more they do not: the receiver uses all of them or none (`C88_nodes_all_or_none`). -/
theorem C88_replies_cut {t id b : Bytes} {ns : List NodeInfo} (ht : t.length = 4) (hid : id.length = 20) (hns : ∀ n ∈ ns, CompactNode n)
    (hl : 38 ≤ ns.length) (hb : EncodingOf (.dict (replyDict t [(b!"id", .str id), (b!"nodes", .str (joinNodeInfos ns))])) b) :
    1024 < b.length := by
  have k1 : (EncodeString b!"t").length = 3 := by decide +kernel
  have k2 : (EncodeString b!"y").length = 3 := by decide +kernel
  have k3 : (EncodeString b!"r").length = 3 := by decide +kernel
  have k5 : (EncodeString b!"id").length = 4 := by decide +kernel
  have k6 : (EncodeString b!"nodes").length = 7 := by decide +kernel
  have hj := joinNodeInfos_length hns
  have k16 : 989 ≤ (EncodeString (joinNodeInfos ns)).length := by
    rw [encodeString_length]
    omega
  rw [hb.length ⟨by simp [replyDict], by simp [replyDict, GoVal.WFD, GoVal.WF]⟩]
  simp only [replyDict, GoVal.size, GoVal.sizeD, k1, k2, k3, k5, k6, enc4 ht, enc20 hid]; clear k1 k2 k3 k5 k6; omega

/-- A query made by one of the four constructors with the sizes that occur: transaction ids of 4 bytes (C17), ids of 20 bytes, tokens of at
most 800 bytes. -/
def SmallQuery (req : Request) : Prop :=
  ∃ (t id : Bytes) (h : Nat), t.length = 4 ∧ id.length = 20 ∧
    (req = WithPingMsg t id (some h) ∨
     (∃ target, target.length = 20 ∧ req = WithFindNodeMsg t id target (some h)) ∨
     (∃ infoHash, infoHash.length = 20 ∧ req = WithGetPeersMsg t id infoHash (some h)) ∨
     (∃ infoHash token port, infoHash.length = 20 ∧ token.length ≤ 800 ∧ IsInt64 port ∧
       req = WithAnnouncePeerMsg t id infoHash token port (some h)))

/-- C88: the end-to-end property C32 through the receive buffers of both servers: what each handles are the first 1024 bytes of what the
other sent. -/
theorem C88_end_to_end (KA KB : KEnv) (hKB : KB.nodeId.length = 20) {OA OB OA' : Oracle} (hA : OA.Fair) (hB : OB.Fair) (hA' : OA'.Fair)
    (addrA addrB from' : UDPAddr) {req : Request} (hreq : SmallQuery req) :
    ∃ (qb rb : Bytes) (failed : Bool) (err : Option GoErr) (args : Entries),
      req.body = some args ∧
      Query OA addrB req { resp := none, trace := [] } =
        .ok err { resp := none, trace := [.put req, .send addrB qb failed] } ∧
      (∃ runB args', dhtPacket KB OB { addr := addrA, bytes := qb.take 1024 } = some runB ∧
        dispatched runB.trace =
          [({ txId := req.txId, qType := req.qType, body := some args', handler := none }, addrA)] ∧
        DeepEq (.dict args) (.dict args') ∧
        sends runB.trace = [(addrA, rb)]) ∧
      (OA'.lookup [] req.txId = some req →
        ∃ runA body, dhtPacket KA OA' { addr := from', bytes := rb.take 1024 } = some runA ∧
          invoked runA.trace = [(req, some { txId := req.txId, body := some body, isErr := false }, from')] ∧
          DeepEq (.dict (replyBody KB.nodeId req.txId req.qType)) (.dict body)) := by
  obtain ⟨t, id, h, ht, hid, hc⟩ := hreq
  have hcon : Constructed req := by
    refine ⟨t, id, h, hid, ?_⟩
    rcases hc with hc | ⟨x, -, hc⟩ | ⟨x, -, hc⟩ | ⟨x, y, z, -, -, hz, hc⟩
    · exact .inl hc
    · exact .inr (.inl ⟨x, hc⟩)
    · exact .inr (.inr (.inl ⟨x, hc⟩))
    · exact .inr (.inr (.inr ⟨x, y, z, hz, hc⟩))
  obtain ⟨qb, rb, failed, err, args, h1, h2, h3, h4, h5⟩ := end_to_end_core KA KB hA hB hA' addrA addrB from' hcon
  have htx : req.txId = t := by
    rcases hc with rfl | ⟨x, -, rfl⟩ | ⟨x, -, rfl⟩ | ⟨x, y, z, -, -, hz, rfl⟩ <;> rfl
  have huniq : ∀ {b : Bytes} {f : Bool} {er : Option GoErr},
      Query OA addrB req { resp := none, trace := [] } = .ok er { resp := none, trace := [] ++ [.put req, .send addrB b f] } → b = qb := by
    intro b f er hq
    rw [h2] at hq
    simp at hq
    exact hq.2.1.symm
  have hq : qb.take 1024 = qb := by
    rcases hc with rfl | ⟨x, hx, rfl⟩ | ⟨x, hx, rfl⟩ | ⟨x, y, z, hx, hy, hz, rfl⟩
    · obtain ⟨b, f, er, e1, e2, -⟩ := (C72_queries t id (some h)).1 OA hA addrB { resp := none, trace := [] }
      cases huniq e2
      exact C88_queries_fit (target := id) (ih := id) (token := []) (port := 0) ht hid hid hid (by simp) (by unfold IsInt64; omega) (.inl e1)
    · obtain ⟨b, f, er, e1, e2, -⟩ := (C72_queries t id (some h)).2.1 x OA hA addrB { resp := none, trace := [] }
      cases huniq e2
      exact C88_queries_fit (target := x) (ih := id) (token := []) (port := 0) ht hid hx hid (by simp) (by unfold IsInt64; omega) (.inr (.inl e1))
    · obtain ⟨b, f, er, e1, e2, -⟩ := (C72_queries t id (some h)).2.2.1 x OA hA addrB { resp := none, trace := [] }
      cases huniq e2
      exact C88_queries_fit (target := id) (ih := x) (token := []) (port := 0) ht hid hid hx (by simp) (by unfold IsInt64; omega) (.inr (.inr (.inl e1)))
    · obtain ⟨b, f, er, e1, e2, -⟩ := (C72_queries t id (some h)).2.2.2 x y z hz OA hA addrB { resp := none, trace := [] }
      cases huniq e2
      exact C88_queries_fit (target := id) (ih := x) (token := y) (port := z) ht hid hid hx hy hz (.inr (.inr (.inr e1)))
  have hgq : GoString qb := by
    have := congrArg List.length hq
    simp at this
    simp only [GoString]; omega
  obtain ⟨runB, args', g1, g2, g3, g4⟩ := h3 hgq
  have hr : rb.take 1024 = rb ∧ GoString rb := by
    have hl := (h5 hgq).length (wf_reply _ _ _)
    rw [reply_size hKB, htx, enc4 ht] at hl
    have hle : rb.length ≤ 1024 := by rw [hl]; (repeat' split) <;> omega
    exact ⟨List.take_of_length_le hle, by simp only [GoString]; omega⟩
  refine ⟨qb, rb, failed, err, args, h1, h2, ⟨runB, args', by rw [hq]; exact g1, g2, g3, g4⟩, fun hl => ?_⟩
  rw [hr.1]
  exact h4 hgq hr.2 hl

end P2P

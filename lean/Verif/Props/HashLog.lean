import Verif.Props.PipelineDht
import Verif.Props.Fetch
import Verif.Props.ErrorReply
/-! # Property C69: the log of info hashes (`logs/infohash.log`) -/
namespace P2P

/-! ## Specification -/

/-- The packet is an answerable get_peers or announce_peer query, and this is its record: the name of the query, the text of
the source address, the announced port and the info hash in hex. -/
inductive Recorded (env : Env) (pkt : RecvPacket) : HashRecord → Prop where
  | getPeers {d a t h hex} : IsQuery pkt.bytes d t b!"get_peers" → Answerable d b!"get_peers" → d.lookup b!"a" = some (.dict a) →
      a.lookup b!"info_hash" = some (.str h) → IsHexOf hex h →
      (∀ c ∈ hex, (48 ≤ c.toNat ∧ c.toNat ≤ 57) ∨ (97 ≤ c.toNat ∧ c.toNat ≤ 102)) →
      Recorded env pkt { kind := b!"get_peer", addr := addrString env pkt.addr, port := none, infoHash := hex }
  | announce {d a t h hex p} : IsQuery pkt.bytes d t b!"announce_peer" → Answerable d b!"announce_peer" →
      d.lookup b!"a" = some (.dict a) → a.lookup b!"info_hash" = some (.str h) → IsHexOf hex h →
      (∀ c ∈ hex, (48 ≤ c.toNat ∧ c.toNat ≤ 57) ∨ (97 ≤ c.toNat ∧ c.toNat ≤ 102)) →
      a.lookup b!"port" = some (.int p) →
      Recorded env pkt { kind := b!"announce_peer", addr := addrString env pkt.addr, port := some p, infoHash := hex }

/-! ## Proofs -/

theorem Fanout.no_records {nodeId : Bytes} {ns : List NodeInfo} {tr : List Event} (h : Fanout nodeId ns tr) :
    hashRecords tr = [] := by
  induction h with
  | nil => rfl
  | refused _ ih => simpa [hashRecords] using ih
  | accepted _ _ ih => simpa [hashRecords] using ih

theorem query_functional {bytes : Bytes} {d d' : Entries} {t t' q q' : Bytes} (h : IsQuery bytes d t q)
    (h' : IsQuery bytes d' t' q') : d = d' ∧ t = t' ∧ q = q' := by
  obtain ⟨n, hd⟩ := h.decodes
  obtain ⟨n', hd'⟩ := h'.decodes
  rw [hd] at hd'
  cases hd'
  have h1 := h.t; rw [h'.t] at h1; cases h1
  have h2 := h.q; rw [h'.q] at h2; cases h2
  exact ⟨rfl, rfl, rfl⟩

theorem Recorded.query {env : Env} {pkt : RecvPacket} {r : HashRecord} (h : Recorded env pkt r) :
    ∃ d t q, IsQuery pkt.bytes d t q ∧ Answerable d q ∧ (q = b!"get_peers" ∨ q = b!"announce_peer") := by
  cases h with
  | getPeers h1 h2 => exact ⟨_, _, _, h1, h2, .inl rfl⟩
  | announce h1 h2 => exact ⟨_, _, _, h1, h2, .inr rfl⟩

/-- the hex digits of a byte string are unique -/
theorem IsHexOf.unique_hex {x y h : Bytes} (hx : IsHexOf x h) (hy : IsHexOf y h) : x = y := by
  have inj : ∀ {a b : UInt8} {n : Nat}, hexVal a = some n → hexVal b = some n → a = b := by
    intro a b n ha hb
    unfold hexVal at ha hb
    apply UInt8.toNat_inj.1
    split at ha <;> split at hb
    all_goals (try split at ha) <;> (try split at hb) <;> simp_all <;> omega
  apply List.ext_getElem?
  intro i
  rcases Nat.lt_or_ge i x.length with hi | hi
  · have hl : i / 2 < h.length := by have := hx.1; omega
    obtain ⟨a, b, c, d, a1, a2, a3, a4, a5⟩ := hx.2 _ _ (List.getElem?_eq_getElem hl)
    obtain ⟨a', b', c', d', b1, b2, b3, b4, b5⟩ := hy.2 _ _ (List.getElem?_eq_getElem hl)
    have bd : ∀ {a : UInt8} {n : Nat}, hexVal a = some n → n < 16 := by
      intro a n ha
      unfold hexVal at ha
      split at ha
      · simp at ha; omega
      · split at ha
        · simp at ha; omega
        · cases ha
    have := bd a3; have := bd a4; have := bd b3; have := bd b4
    have e1 : c = c' := by omega
    have e2 : d = d' := by omega
    subst e1; subst e2
    have f1 := inj a3 b3
    have f2 := inj a4 b4
    subst f1; subst f2
    rcases Nat.mod_two_eq_zero_or_one i with hm | hm
    · have : i = 2 * (i / 2) := by omega
      rw [this, a1, b1]
    · have : i = 2 * (i / 2) + 1 := by omega
      rw [this, a2, b2]
  · have := hx.1; have := hy.1
    rw [List.getElem?_eq_none hi, List.getElem?_eq_none (by omega)]

/-- the record of a packet is unique -/
theorem Recorded.unique {env : Env} {pkt : RecvPacket} {r r' : HashRecord} (h : Recorded env pkt r) (h' : Recorded env pkt r') :
    r = r' := by
  have hex : ∀ {x y h : Bytes}, IsHexOf x h → IsHexOf y h → (∀ c ∈ x, (48 ≤ c.toNat ∧ c.toNat ≤ 57) ∨ (97 ≤ c.toNat ∧ c.toNat ≤ 102)) →
      (∀ c ∈ y, (48 ≤ c.toNat ∧ c.toNat ≤ 57) ∨ (97 ≤ c.toNat ∧ c.toNat ≤ 102)) → x = y := fun hx hy _ _ => hx.unique_hex hy
  cases h with
  | getPeers h1 h2 h3 h4 h5 h6 =>
    cases h' with
    | getPeers g1 g2 g3 g4 g5 g6 =>
      obtain ⟨rfl, rfl, -⟩ := query_functional h1 g1
      rw [h3] at g3; cases g3
      rw [h4] at g4; cases g4
      rw [hex h5 g5 h6 g6]
    | announce g1 => obtain ⟨-, -, e⟩ := query_functional h1 g1; exact absurd e (by decide)
  | announce h1 h2 h3 h4 h5 h6 h7 =>
    cases h' with
    | announce g1 g2 g3 g4 g5 g6 g7 =>
      obtain ⟨rfl, rfl, -⟩ := query_functional h1 g1
      rw [h3] at g3; cases g3
      rw [h4] at g4; cases g4
      rw [h7] at g7; cases g7
      rw [hex h5 g5 h6 g6]
    | getPeers g1 => obtain ⟨-, -, e⟩ := query_functional h1 g1; exact absurd e (by decide)

/-- C69: an answerable get_peers or announce_peer query writes exactly its record, before its job is queued and before its
reply is sent. -/
theorem C69_recorded (K : KEnv) {O : Oracle} (hO : O.Fair) (pkt : RecvPacket) (r : HashRecord) (h : Recorded K.env pkt r) :
    ∃ req jobs b failed, dhtPacket K O pkt = some
        { trace := [.dispatch req pkt.addr, .record r] ++ jobs ++ [.send pkt.addr b failed],
          recycled := [pkt.bytes], escaped := none } ∧
      (jobs = [] ∨ jobs = [.enqueue { req, addr := pkt.addr }]) := by
  cases h with
  | @getPeers d a t h hex h1 h2 h3 h4 h5 h6 =>
    obtain ⟨tr, b, f, reply, e, -, hx⟩ := dhtPacket_query K hO h1
    rcases hx with ⟨-, a', ha, htr, -⟩ | ⟨hn, -⟩
    · rw [h3] at ha; cases ha
      refine ⟨{ txId := t, qType := b!"get_peers", body := some a, handler := none }, [], b, f, ?_, .inl rfl⟩
      rw [e, htr]
      have : hexEncode h = hex := by
        have u := Recorded.unique (env := K.env) (.getPeers h1 h2 h3 h4 (hexEncode_isHexOf h) (hexEncode_isHexOf h).digits)
          (.getPeers h1 h2 h3 h4 h5 h6)
        simpa using u
      simp [answerTrace, getPeersRecord, asMap, h4, this]
    · exact absurd h2 hn
  | @announce d a t h hex p h1 h2 h3 h4 h5 h6 h7 =>
    obtain ⟨tr, b, f, reply, e, -, hx⟩ := dhtPacket_query K hO h1
    rcases hx with ⟨-, a', ha, htr, -⟩ | ⟨hn, -⟩
    · rw [h3] at ha; cases ha
      refine ⟨{ txId := t, qType := b!"announce_peer", body := some a, handler := none }, _, b, f, ?_, .inr rfl⟩
      rw [e, htr]
      have : hexEncode h = hex := by
        have u := Recorded.unique (env := K.env) (.announce h1 h2 h3 h4 (hexEncode_isHexOf h) (hexEncode_isHexOf h).digits h7)
          (.announce h1 h2 h3 h4 h5 h6 h7)
        simpa using u
      simp [answerTrace, announceRecord, asMap, h4, h7, this]
    · exact absurd h2 hn

/-- C69: every other packet writes no record: refused queries, responses, errors and garbage. -/
theorem C69_others (K : KEnv) {O : Oracle} (hO : O.Fair) (pkt : RecvPacket) (h : ∀ r, ¬ Recorded K.env pkt r) :
    ∃ run, dhtPacket K O pkt = some run ∧ hashRecords run.trace = [] := by
  by_cases hq : ∃ d t q, IsQuery pkt.bytes d t q
  · obtain ⟨d, t, q, hq⟩ := hq
    obtain ⟨tr, b, f, reply, e, -, hx⟩ := dhtPacket_query K hO hq
    refine ⟨_, e, ?_⟩
    rcases hx with ⟨hans, a, ha, htr, -⟩ | ⟨-, msg, -, htr, -⟩
    · have hans' := hans
      obtain ⟨-, a', ha', -, h1, h2⟩ := hans'
      rw [ha] at ha'; cases ha'
      by_cases e1 : q = b!"get_peers"
      · subst e1
        obtain ⟨hh, hh'⟩ := h1 (.inl rfl)
        exact absurd (.getPeers hq hans ha hh' (hexEncode_isHexOf hh) (hexEncode_isHexOf hh).digits) (h _)
      by_cases e2 : q = b!"announce_peer"
      · subst e2
        obtain ⟨hh, hh'⟩ := h1 (.inr rfl)
        obtain ⟨p, hp⟩ := h2 rfl
        exact absurd (.announce hq hans ha hh' (hexEncode_isHexOf hh) (hexEncode_isHexOf hh).digits hp) (h _)
      simp [htr, answerTrace, e1, e2, hashRecords]
    · rcases htr with rfl | ⟨a, -, rfl⟩ <;> simp [hashRecords]
  · by_cases hr : ∃ t body, IsResponse pkt.bytes t body
    · obtain ⟨t, body, hr⟩ := hr
      obtain ⟨tr, e, hx⟩ := dhtPacket_response K hO hr
      refine ⟨_, e, ?_⟩
      rcases hx with ⟨-, rfl⟩ | ⟨req, tr', -, -, rfl, h3⟩
      · simp [hashRecords]
      · rcases h3 with ⟨-, s, ns, -, -, hf⟩ | ⟨rfl, -⟩
        · have := hf.no_records
          simpa [hashRecords] using this
        · simp [hashRecords]
    · exact ⟨_, dhtPacket_ignored K O pkt (fun d t q h => hq ⟨d, t, q, h⟩) (fun t b h => hr ⟨t, b, h⟩), rfl⟩

theorem mem_take_before {α} [DecidableEq α] {l : List α} {n i : Nat} {x y : α} (hx : l[i]? = some x) (hy : y ∈ l.take n)
    (hb : ∀ j : Nat, l[j]? = some y → i < j) : x ∈ l.take n := by
  obtain ⟨j, hj⟩ := List.mem_iff_getElem?.1 hy
  have hjn : j < n := by
    apply Classical.byContradiction
    intro hge
    rw [List.getElem?_take, if_neg hge] at hj
    cases hj
  rw [List.getElem?_take, if_pos hjn] at hj
  have := hb j hj
  exact List.mem_iff_getElem?.2 ⟨i, by rw [List.getElem?_take, if_pos (by omega), hx]⟩

/-- C69: whatever the schedule, an announce whose download was accepted has been recorded; so every torrent file that is
written is named after an info hash of the log. -/
theorem C69_file_recorded (K : KEnv) {O : Nat → Oracle} (hO : ∀ p, (O p).Fair) (pkts : Nat → RecvPacket) {W1 Q W2 : Nat} {s : PlSt}
    (h : CrawlReach K O pkts W1 Q W2 s) (p : Nat) (hp : p ∈ s.p2.started) :
    ∃ job r, IsAnnounce (pkts p) job ∧ Recorded K.env (pkts p) r ∧ r.kind = b!"announce_peer" ∧ (p, Event.record r) ∈ s.log ∧
      ∀ (conn : Bytes → PEnv) (sha1 : Bytes → Bytes) (fuel : Nat) (peerId : Bytes) (mem : Nat → Bytes) (pool : BPool) (hash data : Bytes),
        fetchHandler K.env conn sha1 fuel peerId mem pool job = .flush hash data → r.infoHash = hash := by
  obtain ⟨hpre, -, hacc⟩ := C62_downloads K hO pkts h
  obtain ⟨-, job, hj, hlog⟩ := hacc p (hpre.subset hp)
  have hj' := hj
  obtain ⟨d, t, a, hq, hans, ha, hjob⟩ := hj'
  have hans' := hans
  obtain ⟨-, a', ha', -, h1, h2⟩ := hans'
  rw [ha] at ha'; cases ha'
  obtain ⟨hh, hh'⟩ := h1 (.inr rfl)
  obtain ⟨port, hport⟩ := h2 rfl
  have hR := Recorded.announce (env := K.env) hq hans ha hh' (hexEncode_isHexOf hh) (hexEncode_isHexOf hh).digits hport
  generalize hr : HashRecord.mk b!"announce_peer" (addrString K.env (pkts p).addr) (some port) (hexEncode hh) = r at hR
  refine ⟨job, r, hj, hR, by rw [← hr], ?_, ?_⟩
  · obtain ⟨req, jobs, b, f, e, hjs⟩ := C69_recorded K (hO p) (pkts p) _ hR
    have I := pl_inv h
    have hl : Event.enqueue job ∈ logOf p s.log := List.mem_filterMap.2 ⟨_, hlog, by simp⟩
    rw [I.log] at hl
    have hc : crawlTraces K O pkts p = [.dispatch req (pkts p).addr, .record r] ++ jobs ++ [.send (pkts p).addr b f] := by
      simp only [crawlTraces, e]
    rw [hc] at hl
    have hm : Event.record r ∈ logOf p s.log := by
      rw [I.log, hc]
      refine mem_take_before (i := 1) rfl hl ?_
      intro j hj
      match j with
      | 0 => simp at hj
      | 1 => simp at hj
      | j + 2 => omega
    obtain ⟨⟨p', e'⟩, hm1, hm2⟩ := List.mem_filterMap.1 hm
    simp only at hm2
    split at hm2
    · rename_i hpe
      injection hm2 with hm2
      subst hm2
      have : p' = p := by simpa using hpe
      rw [← this]
      exact hm1
    · cases hm2
  · intro conn sha1 fuel peerId mem pool hash data hf
    obtain ⟨ih, hih, -, hx, -⟩ := C46_flush K.env conn sha1 fuel peerId mem pool job hash data hf
    rw [hjob] at hih
    simp only [asMap, Option.getD_some] at hih
    rw [hh'] at hih
    cases hih
    have u := Recorded.unique (env := K.env) hR (.announce hq hans ha hh' hx hx.digits hport)
    rw [u]

/-- a concrete packet with a record -/
example : ∃ r, Recorded env0 { addr := peerAddr, bytes := exAnnounce } r ∧ r.kind = b!"announce_peer" ∧
    r.addr = b!"10.0.0.1:6881" := by
  have h : IsQuery exAnnounce exDict b!"zz" b!"announce_peer" ∧ Answerable exDict b!"announce_peer" :=
    ⟨⟨⟨exAnnounce.length, by decide +kernel⟩, by decide +kernel, by decide +kernel, by decide +kernel⟩,
      (C65_answerable env0.fold _ _).1 (by decide +kernel)⟩
  refine ⟨_, .announce h.1 h.2 rfl rfl (hexEncode_isHexOf _) (hexEncode_isHexOf _).digits rfl, rfl, ?_⟩
  decide +kernel

end P2P

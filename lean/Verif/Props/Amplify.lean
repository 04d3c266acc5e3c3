import Verif.Lemmas.Size
import Verif.Props.ErrorReply
/-! # Property C78: how much a packet makes the crawler send -/
namespace P2P

/-- Bytes handed to the socket. -/
def bytesSent (tr : List Event) : Nat := ((sends tr).map fun x => x.2.length).sum

theorem txIdText_length (v : UInt16) : (txIdText v).length = 4 := by
  simp [txIdText, hexEncode, be16]

theorem natDec_small {n : Nat} (h : n < 10) : (natDec n).length = 1 := by
  have h1 := natDec_length_le (m := 1) (by omega) (by omega : n < 10 ^ 1)
  have h2 : (natDec n).length ≠ 0 := fun h => natDec_ne_nil n (List.length_eq_zero_iff.1 h)
  omega

theorem natDec_20 : (natDec 20).length = 2 := by decide +kernel

theorem enc20 {s : Bytes} (h : s.length = 20) : (EncodeString s).length = 23 := by
  rw [encodeString_length, h, natDec_20]

/-- every find_node query of the crawler is a datagram of 94 bytes -/
theorem crawlQuery_length {nodeId b : Bytes} {v : UInt16} (hK : nodeId.length = 20)
    (h : EncodingOf (.dict (queryDict (txIdText v) b!"find_node" [(b!"id", .str nodeId), (b!"target", .str nodeId)])) b) :
    b.length = 94 := by
  rw [h.length ⟨by simp [queryDict], by simp [queryDict, GoVal.WFD, GoVal.WF]⟩]
  have e : (EncodeString (txIdText v)).length = 6 := by
    rw [encodeString_length, txIdText_length, natDec_small (by omega)]
  simp only [queryDict, GoVal.size, GoVal.sizeD, e, enc20 hK]
  rw [show (EncodeString b!"t").length = 3 by decide +kernel, show (EncodeString b!"y").length = 3 by decide +kernel,
    show (EncodeString b!"q").length = 3 by decide +kernel, show (EncodeString b!"find_node").length = 11 by decide +kernel,
    show (EncodeString b!"a").length = 3 by decide +kernel, show (EncodeString b!"id").length = 4 by decide +kernel,
    show (EncodeString b!"target").length = 8 by decide +kernel]

theorem wf_reply (nodeId t q : Bytes) :
    GoVal.WF (.dict [(b!"t", .str t), (b!"y", .str b!"r"), (b!"r", .dict (replyBody nodeId t q))]) := by
  refine ⟨by simp, ?_⟩
  simp only [GoVal.WFD, GoVal.WF, true_and, and_true]
  unfold replyBody
  split
  · exact ⟨by simp, by simp [GoVal.WFD, GoVal.WF]⟩
  · split <;> exact ⟨by simp, by simp [GoVal.WFD, GoVal.WF]⟩

/-- the size of a reply -/
theorem reply_size {nodeId : Bytes} (hK : nodeId.length = 20) (t q : Bytes) :
    GoVal.size (.dict [(b!"t", .str t), (b!"y", .str b!"r"), (b!"r", .dict (replyBody nodeId t q))]) =
      43 + (EncodeString t).length +
        (if q = b!"find_node" then 9 else if q = b!"get_peers" then 16 + (EncodeString t).length else 0) := by
  unfold replyBody
  have e1 : (EncodeString b!"t").length = 3 := by decide +kernel
  have e2 : (EncodeString b!"y").length = 3 := by decide +kernel
  have e3 : (EncodeString b!"r").length = 3 := by decide +kernel
  have e4 : (EncodeString b!"id").length = 4 := by decide +kernel
  have e5 : (EncodeString b!"nodes").length = 7 := by decide +kernel
  have e6 : (EncodeString b!"token").length = 7 := by decide +kernel
  have e7 : (EncodeString []).length = 2 := by decide +kernel
  split
  · simp only [GoVal.size, GoVal.sizeD, e1, e2, e3, e4, e5, e7, enc20 hK]; omega
  · split
    · simp only [GoVal.size, GoVal.sizeD, e1, e2, e3, e4, e5, e6, e7, enc20 hK]; omega
    · simp only [GoVal.size, GoVal.sizeD, e1, e2, e3, e4, enc20 hK]; omega

theorem encodeString_ge (s : Bytes) : 2 ≤ (EncodeString s).length := by
  rw [encodeString_length]
  have h2 : (natDec s.length).length ≠ 0 := fun h => natDec_ne_nil _ (List.length_eq_zero_iff.1 h)
  omega

/-- what a query takes at least -/
theorem query_weight {bytes : Bytes} {d : Entries} {t q : Bytes} (h : IsQuery bytes d t q) (hs : GoString bytes) :
    13 + (EncodeString t).length + (EncodeString q).length ≤ bytes.length := by
  obtain ⟨n, hd⟩ := h.decodes
  have h1 := decodeDict_weight hs hd
  have h2 := weightD_ge [(b!"t", .str t), (b!"y", .str b!"q"), (b!"q", .str q)] d (by simp)
    (by simp [h.t, h.y, h.q])
  simp only [GoVal.weightD, GoVal.weight, show (EncodeString b!"t").length = 3 by decide +kernel,
    show (EncodeString b!"y").length = 3 by decide +kernel, show (EncodeString b!"q").length = 3 by decide +kernel] at h2
  omega

/-- what an answerable query takes at least -/
theorem answerable_weight {bytes : Bytes} {d : Entries} {t q : Bytes} (h : IsQuery bytes d t q) (ha : Answerable d q)
    (hs : GoString bytes) :
    44 + (EncodeString t).length + (EncodeString q).length +
      (if q = b!"get_peers" then 13 else 0) ≤ bytes.length := by
  obtain ⟨n, hd⟩ := h.decodes
  obtain ⟨hq, a, haa, ⟨id, hid, hlen⟩, hih, -⟩ := ha
  have h1 := decodeDict_weight hs hd
  have h2 := weightD_ge [(b!"t", .str t), (b!"y", .str b!"q"), (b!"q", .str q), (b!"a", .dict a)] d (by simp)
    (by simp [h.t, h.y, h.q, haa])
  simp only [GoVal.weightD, GoVal.weight, show (EncodeString b!"t").length = 3 by decide +kernel,
    show (EncodeString b!"y").length = 3 by decide +kernel, show (EncodeString b!"q").length = 3 by decide +kernel,
    show (EncodeString b!"a").length = 3 by decide +kernel] at h2
  have e4 : (EncodeString b!"id").length = 4 := by decide +kernel
  have e5 : (EncodeString b!"info_hash").length = 11 := by decide +kernel
  split
  · rename_i hg
    obtain ⟨x, hx⟩ := hih (.inl hg)
    have h3 := weightD_ge [(b!"id", .str id), (b!"info_hash", .str x)] a (by simp) (by simp [hid, hx])
    have := encodeString_ge x
    simp only [GoVal.weightD, GoVal.weight, e4, e5, enc20 hlen] at h3
    omega
  · have h3 := weightD_ge [(b!"id", .str id)] a (by simp) (by simp [hid])
    simp only [GoVal.weightD, GoVal.weight, e4, enc20 hlen] at h3
    omega

/-! ## The theorems -/

/-- C78: a query that is answered gets one datagram, sent to its source. It is shorter than the query, except that the reply to
get_peers, which carries the transaction id twice, may be almost twice as long as the query. -/
theorem C78_reply (K : KEnv) {O : Oracle} (hO : O.Fair) (hK : K.nodeId.length = 20) {pkt : RecvPacket} {d : Entries} {t q : Bytes}
    (h : IsQuery pkt.bytes d t q) (ha : Answerable d q) (hs : GoString pkt.bytes) :
    ∃ run b, dhtPacket K O pkt = some run ∧ sends run.trace = [(pkt.addr, b)] ∧
      (q ≠ b!"get_peers" → b.length < pkt.bytes.length) ∧ b.length < 2 * pkt.bytes.length ∧
      b.length = (if q = b!"find_node" then 52 + (EncodeString t).length
        else if q = b!"get_peers" then 59 + 2 * (EncodeString t).length else 43 + (EncodeString t).length) := by
  obtain ⟨tr, b, f, reply, h1, ⟨h2, -⟩, h3⟩ := dhtPacket_query K hO h
  rcases h3 with ⟨-, a, -, htr, rfl⟩ | ⟨hna, -⟩
  case inr => exact absurd ha hna
  refine ⟨_, b, h1, ?_, ?_⟩
  · subst htr; simp only [answerTrace]; (repeat' split) <;> simp [sends]
  · have hl := h2.length (wf_reply _ _ _)
    rw [reply_size hK] at hl
    have hw := answerable_weight h ha hs
    have hge := encodeString_ge q
    by_cases hg : q = b!"get_peers"
    · subst hg
      rw [if_neg (by decide), if_pos rfl] at hl
      rw [if_pos rfl] at hw
      rw [if_neg (by decide), if_pos rfl]
      exact ⟨fun h => absurd rfl h, by omega, by omega⟩
    · rw [if_neg hg] at hw
      simp only [if_neg hg] at hl
      by_cases hf : q = b!"find_node"
      · subst hf
        rw [if_pos rfl] at hl
        have : (EncodeString b!"find_node").length = 11 := by decide +kernel
        rw [if_pos rfl]
        exact ⟨fun _ => by omega, by omega, by omega⟩
      · rw [if_neg hf] at hl
        rw [if_neg hf, if_neg hg]
        exact ⟨fun _ => by omega, by omega, by omega⟩

/-- every complaint is the text about an unknown method, which repeats the method's name, or has at most 45 bytes of its own -/
theorem complaint_short {fold : FoldTable} {d : Entries} {q : Bytes} {c : Complaint} (h : complaint fold d q = some c) :
    c = .plain (b!"donnot support <" ++ q ++ b!"> query type") ∨
      ∃ m, m.length ≤ 45 ∧ (c = .plain m ∨ c = .withStack m) := by
  have hs : ∀ (a : Entries) (k m : Bytes), k.length ≤ 9 → strProblem a k = some m → m.length ≤ 45 := by
    intro a k m hk hm
    unfold strProblem at hm
    split at hm
    · cases hm; simp; omega
    · cases hm
    · cases hm; simp; omega
  have hi : ∀ (a : Entries) (k m : Bytes), k.length ≤ 9 → intProblem a k = some m → m.length ≤ 45 := by
    intro a k m hk hm
    unfold intProblem at hm
    split at hm
    · cases hm; simp; omega
    · cases hm
    · cases hm; simp; omega
  unfold complaint at h
  split at h
  · cases h; exact .inl rfl
  · right
    split at h
    · cases h; exact ⟨_, by decide, .inr rfl⟩
    · unfold argsProblem at h
      split at h
      · split at h
        · cases h; exact ⟨_, by decide, .inl rfl⟩
        · split at h
          · cases h; exact ⟨_, by decide, .inl rfl⟩
          · split at h
            · rw [Option.map_eq_some_iff] at h
              obtain ⟨m, hm, rfl⟩ := h
              exact ⟨m, hs _ _ _ (by decide) hm, .inr rfl⟩
            · split at h
              · rw [Option.map_eq_some_iff] at h
                obtain ⟨m, hm, rfl⟩ := h
                rw [Option.or_eq_some_iff] at hm
                rcases hm with hm | ⟨-, hm⟩
                · exact ⟨m, hs _ _ _ (by decide) hm, .inr rfl⟩
                · exact ⟨m, hi _ _ _ (by decide) hm, .inr rfl⟩
              · cases h
      · rw [Option.map_eq_some_iff] at h
        obtain ⟨m, hm, rfl⟩ := h
        exact ⟨m, hs _ _ _ (by decide) hm, .inr rfl⟩
    · cases h; exact ⟨_, by decide, .inr rfl⟩
    · cases h; exact ⟨_, by decide, .inr rfl⟩

/-- the size of an error reply -/
theorem error_size (t msg : Bytes) :
    GoVal.size (.dict [(b!"t", .str t), (b!"y", .str b!"e"), (b!"e", .list [.int 203, .str msg])]) =
      21 + (EncodeString t).length + (EncodeString msg).length := by
  simp only [GoVal.size, GoVal.sizeD, GoVal.sizeL, show (EncodeString b!"t").length = 3 by decide +kernel,
    show (EncodeString b!"y").length = 3 by decide +kernel, show (EncodeString b!"e").length = 3 by decide +kernel,
    show (EncodeInteger 203).length = 5 by decide +kernel]
  omega

theorem wf_error (t msg : Bytes) :
    GoVal.WF (.dict [(b!"t", .str t), (b!"y", .str b!"e"), (b!"e", .list [.int 203, .str msg])]) :=
  ⟨by simp, by simp [GoVal.WFD, GoVal.WF, GoVal.WFL, IsInt64]⟩

/-- C78: a query that is refused gets one datagram, sent to its source: at most 100 bytes longer than the query and the server's stack
trace (whose length must be representable) together. -/
theorem C78_error (K : KEnv) {O : Oracle} (hO : O.Fair) {pkt : RecvPacket} {d : Entries} {t q : Bytes} {S : Nat}
    (h : IsQuery pkt.bytes d t q) (ha : ¬ Answerable d q) (hs : GoString pkt.bytes) (hS : S < 2 ^ 62)
    (hst : ∀ tr, (O.stack tr).length ≤ S) :
    ∃ run b, dhtPacket K O pkt = some run ∧ sends run.trace = [(pkt.addr, b)] ∧
      b.length ≤ pkt.bytes.length + S + 100 := by
  obtain ⟨c, hc⟩ : ∃ c, complaint K.env.fold d q = some c := by
    cases hc : complaint K.env.fold d q with
    | none => exact absurd ((C65_answerable _ _ _).1 hc) ha
    | some c => exact ⟨c, rfl⟩
  obtain ⟨tr, b, f, h1, h2⟩ := C65_error_reply K hO h hc
  obtain ⟨run, b', h3, h4, -⟩ := C27_query_answered K hO h
  rw [h1] at h3
  cases h3
  have hb : b = b' := by
    have hm : (pkt.addr, b) ∈ sends (tr ++ [.send pkt.addr b f]) := by simp [sends]
    rw [h4] at hm
    simpa using hm
  subst hb
  refine ⟨_, b, h1, h4, ?_⟩
  rw [h2.length (wf_error _ _), error_size]
  have hw := query_weight h hs
  have hq := encodeString_length q
  rw [encodeString_length (c.text _)]
  rcases complaint_short hc with rfl | ⟨m, hm, rfl | rfl⟩
  · have hd : (natDec (q.length + 28)).length ≤ (natDec q.length).length + 2 := by
      have h1 : q.length < 10 ^ (natDec q.length).length := by
        have := decVal_lt (natDec q.length) (natDec_all _)
        rwa [decVal_natDec] at this
      apply natDec_length_le (by omega)
      rw [Nat.pow_add]
      omega
    have he : (Complaint.plain (b!"donnot support <" ++ q ++ b!"> query type")).text (O.stack tr) =
      b!"donnot support <" ++ q ++ b!"> query type" := rfl
    have hl : (b!"donnot support <" ++ q ++ b!"> query type").length = q.length + 28 := by simp
    rw [he, hl]
    omega
  · have he : (Complaint.plain m).text (O.stack tr) = m := rfl
    have hd : (natDec m.length).length ≤ 2 := natDec_length_le (by omega) (by omega)
    rw [he]
    omega
  · have he : ((Complaint.withStack m).text (O.stack tr)).length = m.length + 16 + (O.stack tr).length := by
      simp [Complaint.text]; omega
    have hx := hst tr
    have hd : (natDec (m.length + 16 + (O.stack tr).length)).length ≤ 19 := natDec_length_le (by omega) (by omega)
    rw [he]
    omega

theorem parseNodeInfo_length {s : Bytes} {ns : List NodeInfo} (h : parseNodeInfo s = .ok ns) : ns.length = s.length / 26 := by
  rw [parseNodeInfo_eq] at h
  cases h
  simp

/-- C78: a response, forged or not, makes the crawler send at most one datagram for every 26 bytes of the response; each has 94 bytes. -/
theorem C78_response (K : KEnv) {O : Oracle} (hO : O.Fair) (hK : K.nodeId.length = 20) {pkt : RecvPacket} {t : Bytes} {body : Entries}
    (h : IsResponse pkt.bytes t body) (hs : GoString pkt.bytes) :
    ∃ run, dhtPacket K O pkt = some run ∧ 26 * (sends run.trace).length ≤ pkt.bytes.length ∧
      ∀ x ∈ sends run.trace, x.2.length = 94 := by
  obtain ⟨tr, h1, h2⟩ := dhtPacket_response K hO h
  refine ⟨_, h1, ?_⟩
  rcases h2 with ⟨-, rfl⟩ | ⟨req, tr', -, -, rfl, ⟨-, s, ns, hl, hp, hf⟩ | ⟨rfl, -⟩⟩
  · simp [sends]
  · have e : sends (.lookup t (O.lookup [] t) ::
        .invoke req (some { txId := t, body := some body, isErr := false }) pkt.addr :: tr') = sends tr' := by
      simp [sends]
    simp only [e]
    refine ⟨?_, ?_⟩
    · have hlen := (C33_queries hf).2.2.1
      rw [parseNodeInfo_length hp] at hlen
      obtain ⟨d, n, hd, -, -, hb⟩ := h.decodes
      have w1 := decodeDict_weight hs hd
      have w2 := weightD_ge [(b!"r", .dict body)] d (by simp) (by simp [hb])
      have w3 := weightD_ge [(b!"nodes", .str s)] body (by simp) (by simp [hl])
      simp only [GoVal.weightD, GoVal.weight, encodeString_length] at w2 w3
      omega
    · intro ⟨a, b⟩ hx
      obtain ⟨m, -, -, v, hv⟩ := hf.sends_from a b hx
      exact crawlQuery_length hK hv
  · simp [sends]

/-- C78: whatever arrives, the number of datagrams sent in reaction is at most one, or one per 26 bytes received, and their bytes are at
most four times the bytes received plus 100 plus the length of a stack trace. -/
theorem C78_any (K : KEnv) {O : Oracle} (hO : O.Fair) (hK : K.nodeId.length = 20) (pkt : RecvPacket) (hs : GoString pkt.bytes)
    {S : Nat} (hS : S < 2 ^ 62) (hst : ∀ tr, (O.stack tr).length ≤ S) :
    ∃ run, dhtPacket K O pkt = some run ∧ 26 * (sends run.trace).length ≤ max 26 pkt.bytes.length ∧
      bytesSent run.trace ≤ 4 * pkt.bytes.length + S + 100 := by
  by_cases hq : ∃ d t q, IsQuery pkt.bytes d t q
  · obtain ⟨d, t, q, hq⟩ := hq
    by_cases ha : Answerable d q
    · obtain ⟨run, b, h1, h2, -, h3, -⟩ := C78_reply K hO hK hq ha hs
      exact ⟨run, h1, by rw [h2]; simp; omega, by simp [bytesSent, h2]; omega⟩
    · obtain ⟨run, b, h1, h2, h3⟩ := C78_error K hO hq ha hs hS hst
      exact ⟨run, h1, by rw [h2]; simp; omega, by simp [bytesSent, h2]; omega⟩
  · by_cases hr : ∃ t body, IsResponse pkt.bytes t body
    · obtain ⟨t, body, hr⟩ := hr
      obtain ⟨run, h1, h2, h3⟩ := C78_response K hO hK hr hs
      refine ⟨run, h1, by omega, ?_⟩
      have : ∀ l : List (UDPAddr × Bytes), (∀ x ∈ l, x.2.length = 94) → (l.map fun x => x.2.length).sum = 94 * l.length := by
        intro l hl
        induction l with
        | nil => rfl
        | cons x r ih =>
          have := hl x (by simp)
          have := ih (fun y hy => hl y (by simp [hy]))
          simp; omega
      rw [bytesSent, this _ h3]
      omega
    · refine ⟨_, dhtPacket_ignored K O pkt (fun d t q h => hq ⟨d, t, q, h⟩) (fun t b h => hr ⟨t, b, h⟩), ?_, ?_⟩
      · simp [sends]
      · simp [bytesSent, sends]

/-- the shortest useful query without arguments -/
def badPing : Bytes := b!"d1:q4:ping1:t0:1:y1:qe"

/-- C78: the stack trace makes the crawler an amplifier: a query of 22 bytes is answered, to the address it claims to come from, by
more bytes than the stack trace has. -/
theorem C78_amplifies (K : KEnv) {O : Oracle} (hO : O.Fair) (addr : UDPAddr) :
    badPing.length = 22 ∧ ∃ run b S, dhtPacket K O { addr, bytes := badPing } = some run ∧ sends run.trace = [(addr, b)] ∧
      O.stack S <:+: b ∧ (O.stack S).length + 60 ≤ b.length := by
  refine ⟨by decide, ?_⟩
  have hq : IsQuery ({ addr, bytes := badPing } : RecvPacket).bytes [(b!"q", .str b!"ping"), (b!"t", .str []), (b!"y", .str b!"q")] [] b!"ping" :=
    ⟨⟨22, show DecodeDictNoLimit badPing = _ by decide +kernel⟩, rfl, rfl, rfl⟩
  have hm : ¬ ∀ m ∈ methods, equalFold K.env.fold m b!"ping" = false := by
    intro h
    have := h b!"ping" (by simp [methods])
    rw [equalFold_refl] at this
    cases this
  have hc : complaint K.env.fold [(b!"q", .str b!"ping"), (b!"t", .str []), (b!"y", .str b!"q")] b!"ping" =
      some (.withStack b!"cannot find a's val") := by
    unfold complaint
    rw [if_neg hm]
    rfl
  obtain ⟨tr, b, f, h1, h2⟩ := C65_error_reply K hO hq hc
  obtain ⟨run, b', h3, h4, -⟩ := C27_query_answered K hO hq
  rw [h1] at h3
  cases h3
  have hb : b = b' := by
    have hm : (addr, b) ∈ sends (tr ++ [.send addr b f]) := by simp [sends]
    rw [h4] at hm
    simpa using hm
  subst hb
  refine ⟨_, b, tr, h1, h4, ?_, ?_⟩
  · obtain ⟨w, hw, hd, he⟩ := h2
    obtain ⟨e, rfl⟩ : ∃ e, w = .dict e := by cases hd <;> exact ⟨_, rfl⟩
    obtain ⟨v, hv, hvd⟩ := deepEq_lookup hd (k := b!"e") rfl
    have hv' := deepEq_intStr rfl hvd
    subst hv'
    simp only [encodeItem] at he
    obtain ⟨r, hr, he⟩ := Res.bind_eq_ok.1 he
    cases he
    have key : ∀ (e : Entries) (k : Bytes) (v : GoVal) (r bv : Bytes), (k, v) ∈ e → encodeItem v = .ok bv →
        encodeEntries e = .ok r → bv <:+: r := by
      intro e
      induction e with
      | nil => intro k v r bv h; cases h
      | cons kv e ih =>
        intro k v r bv h hbv hr
        obtain ⟨k', v'⟩ := kv
        simp only [encodeEntries] at hr
        obtain ⟨t1, h1, hr⟩ := Res.bind_eq_ok.1 hr
        obtain ⟨s1, h2, hr⟩ := Res.bind_eq_ok.1 hr
        cases hr
        rcases List.mem_cons.1 h with h | h
        · cases h
          rw [hbv] at h1
          cases h1
          exact ⟨EncodeString k, s1, rfl⟩
        · obtain ⟨x, y, hxy⟩ := ih k v s1 bv h hbv h2
          exact ⟨EncodeString k' ++ t1 ++ x, y, by rw [← hxy]; simp [List.append_assoc]⟩
    have hi := key e b!"e" _ r _ (mem_of_lookup hv) rfl hr
    have h0 : ∀ (S m : Bytes), S <:+: b!"l" ++ (EncodeInteger 203 ++ (EncodeString (Complaint.text S (.withStack m)) ++ [])) ++ b!"e" := by
      intro S m
      refine ⟨b!"l" ++ EncodeInteger 203 ++ natDec (Complaint.text S (.withStack m)).length ++ b!":" ++ b!"201: " ++ m ++ b!"\r\nstacks:\r\n", b!"e", ?_⟩
      simp [EncodeString, Complaint.text, List.append_assoc]
    exact (h0 _ _).trans (hi.trans ⟨b!"d", b!"e", rfl⟩)
  · rw [h2.length (wf_error _ _), error_size]
    rw [encodeString_length (Complaint.text _ _)]
    have he : (Complaint.text (O.stack tr) (.withStack b!"cannot find a's val")).length = 35 + (O.stack tr).length := by
      simp [Complaint.text]; omega
    have h2' : (natDec (35 + (O.stack tr).length)).length ≠ 0 := fun h => natDec_ne_nil _ (List.length_eq_zero_iff.1 h)
    have : (EncodeString []).length = 2 := by decide +kernel
    rw [he, this]
    omega

/-- a get_peers query with a long transaction id, answered by more bytes than it has -/
def exLongTx : Bytes :=
  b!"d1:ad2:id20:bbbbbbbbbbbbbbbbbbbb9:info_hash1:he1:q9:get_peers1:t300:" ++ List.replicate 300 120 ++ b!"1:y1:qe"
example : (dhtPacket exK exO { addr := peerAddr, bytes := exLongTx }).map (fun r => (exLongTx.length, bytesSent r.trace)) =
    some (375, 667) := by
  decide +kernel
/-- the response of the examples: 111 bytes make the crawler send 188 bytes -/
example : (dhtPacket exK exO { addr := peerAddr, bytes := exResp }).map (fun r => (exResp.length, bytesSent r.trace)) =
    some (111, 188) := by
  decide +kernel
/-- hypotheses of C78 -/
example : exK.nodeId.length = 20 ∧ exO.Fair ∧ GoString exLongTx ∧ GoString exResp ∧ ∀ tr, (exO.stack tr).length ≤ 5 :=
  ⟨by decide, exO_fair, show exLongTx.length < _ by decide +kernel, show exResp.length < _ by decide +kernel,
    fun _ => show (b!"stack").length ≤ 5 by decide⟩

end P2P

import Verif.Props.Node
import Verif.Props.FetchAddr
/-! # C15, C16, C47 for both forms in which Go holds an IPv4 address

`net.IP` holds an IPv4 address in 4 bytes or, "mapped", in 16: ten zeros, two 255s, the four bytes. `net.ParseIP`,
`net.ResolveUDPAddr` and a dual-stack socket return the long form. -/
namespace P2P

/-- `ip` denotes the IPv4 address `v4` -/
def DenotesV4 (ip v4 : Bytes) : Prop :=
  v4.length = 4 ∧ (ip = v4 ∨ ip = [0, 0, 0, 0, 0, 0, 0, 0, 0, 0, 255, 255] ++ v4)

theorem to4_denotes {ip v4 : Bytes} (h : DenotesV4 ip v4) : to4 ip = v4 := by
  obtain ⟨hl, rfl | rfl⟩ := h
  · simp [to4, hl]
  · match v4, hl with
    | [a, b, c, d], _ => simp [to4, slice, List.replicate]

theorem to4_none {ip : Bytes} (h : ∀ v4, ¬ DenotesV4 ip v4) : to4 ip = [] := by
  unfold to4
  by_cases h4 : ip.length = 4
  · exact absurd ⟨h4, .inl rfl⟩ (h ip)
  rw [if_neg h4]
  by_cases h16 : ip.length = 16 ∧ ip.take 10 = List.replicate 10 0 ∧ slice ip 10 12 = [0xff, 0xff]
  · refine absurd ⟨by simp [h16.1], .inr ?_⟩ (h (ip.drop 12))
    have e : ip = ip.take 10 ++ (slice ip 10 12 ++ ip.drop 12) := by
      have : ip.drop 12 = (ip.drop 10).drop 2 := by rw [List.drop_drop]
      rw [this]
      show ip = ip.take 10 ++ ((ip.drop 10).take 2 ++ (ip.drop 10).drop 2)
      rw [List.take_append_drop, List.take_append_drop]
    rw [h16.2.1, h16.2.2] at e
    exact e
  · rw [if_neg h16]

/-- at most one IPv4 address is denoted -/
theorem DenotesV4.unique {ip a b : Bytes} (ha : DenotesV4 ip a) (hb : DenotesV4 ip b) : a = b := by
  rw [← to4_denotes ha, ← to4_denotes hb]

/-- two lists of the same length, related element by element -/
inductive Pointwise {α β : Type} (R : α → β → Prop) : List α → List β → Prop where
  | nil : Pointwise R [] []
  | cons {a b as bs} : R a b → Pointwise R as bs → Pointwise R (a :: as) (b :: bs)

/-- `m` is `n` with its address in the short form (and without an IPv6 zone) -/
def ShortForm (n m : NodeInfo) : Prop := n.id = m.id ∧ n.addr.port = m.addr.port ∧ DenotesV4 n.addr.ip m.addr.ip ∧ m.addr.zone = []

theorem joinNodeInfos_short {ns ms : List NodeInfo} (h : Pointwise ShortForm ns ms) :
    joinNodeInfos ns = joinNodeInfos ms := by
  induction h with
  | nil => rfl
  | cons h _ ih =>
    obtain ⟨h1, h2, h3, -⟩ := h
    simp only [joinNodeInfos, h1, h2, ih, to4_denotes h3, to4_denotes (⟨h3.1, .inl rfl⟩ : DenotesV4 _ _)]

/-- **C15, both forms**: encoding and decoding brings every address to the short form and changes nothing else. -/
theorem C15_parse_join_mapped (ns ms : List NodeInfo) (h : Pointwise ShortForm ns ms)
    (hn : ∀ m ∈ ms, m.id.length = 20 ∧ 0 ≤ m.addr.port ∧ m.addr.port < 65536) :
    parseNodeInfo (joinNodeInfos ns) = .ok ms := by
  rw [joinNodeInfos_short h]
  have hz : ∀ m ∈ ms, m.addr.ip.length = 4 ∧ m.addr.zone = [] := by
    clear hn
    induction h with
    | nil => simp
    | cons h _ ih =>
      intro m hm
      rcases List.mem_cons.1 hm with rfl | hm
      · exact ⟨h.2.2.1.1, h.2.2.2⟩
      · exact ih m hm
  exact C15_parse_join ms (fun m hm => ⟨(hn m hm).1, (hz m hm).1, (hn m hm).2, (hz m hm).2⟩)

/-- **C15, other addresses**: a node whose address is no IPv4 address is written without it, as 22 bytes, which
shifts all that follow: what is read back has one node fewer. -/
theorem C15_join_not_v4 (n : NodeInfo) (r : List NodeInfo) (h : ∀ v4, ¬ DenotesV4 n.addr.ip v4)
    (hid : n.id.length = 20) (hr : ∀ m ∈ r, CompactNode m) :
    (joinNodeInfos (n :: r)).length = 22 + 26 * r.length ∧
    ∃ ms, parseNodeInfo (joinNodeInfos (n :: r)) = .ok ms ∧ ms.length = r.length := by
  have hl : (joinNodeInfos (n :: r)).length = 22 + 26 * r.length := by
    simp [joinNodeInfos, to4_none h, hid, be16, joinNodeInfos_length hr]; omega
  refine ⟨hl, ?_⟩
  obtain ⟨ms, h1, h2, -⟩ := C15_parse_total (joinNodeInfos (n :: r))
  exact ⟨ms, h1, by omega⟩

/-- **C16, both forms** -/
theorem C16_parse_join_mapped (cap : Nat → Nat) (as bs : List UDPAddr)
    (h : Pointwise (fun a b => a.port = b.port ∧ DenotesV4 a.ip b.ip ∧ b.zone = []) as bs)
    (hp : ∀ b ∈ bs, 0 ≤ b.port ∧ b.port < 65536) :
    parsePeerInfo cap (joinPeerInfos as) = .ok bs := by
  have e : joinPeerInfos as = joinPeerInfos bs := by
    clear hp
    induction h with
    | nil => rfl
    | cons h _ ih => simp only [joinPeerInfos, h.1, ih, to4_denotes h.2.1, to4_denotes (⟨h.2.1.1, .inl rfl⟩ : DenotesV4 _ _)]
  rw [e]
  have hz : ∀ b ∈ bs, b.ip.length = 4 ∧ b.zone = [] := by
    clear hp e
    induction h with
    | nil => simp
    | cons h _ ih =>
      intro b hb
      rcases List.mem_cons.1 hb with rfl | hb
      · exact ⟨h.2.1.1, h.2.2⟩
      · exact ih b hb
  exact C16_parse_join cap bs (fun b hb => ⟨(hz b hb).1, hp b hb, (hz b hb).2⟩)

/-- the dotted text of four bytes -/
def dots (a b c d : UInt8) : Bytes :=
  natDec a.toNat ++ b!"." ++ natDec b.toNat ++ b!"." ++ natDec c.toNat ++ b!"." ++ natDec d.toNat

/-- **C47, both forms**: without `implied_port` the address is `a.b.c.d:port` -/
theorem C47_ipv4_mapped (env : Env) (ctx : Job) (port : Int) (a b c d : UInt8) (h : DenotesV4 ctx.addr.ip [a, b, c, d])
    (hport : (asMap ctx.req.body).lookup b!"port" = some (.int port))
    (himp : ∀ v, (asMap ctx.req.body).lookup b!"implied_port" = some v → ∃ i, v = .int i ∧ i ≤ 0) :
    parseFetchAddr env ctx = .ok (dots a b c d ++ b!":" ++ itoa port) ∧
    SplitsTo (dots a b c d ++ b!":" ++ itoa port) (dots a b c d) (itoa port) := by
  have e4 := to4_denotes h
  have hne : ctx.addr.ip ≠ [] := by intro h0; rw [h0] at e4; simp [to4] at e4
  have ed : dotted [a, b, c, d] = dots a b c d := by
    simp [dotted, dots, List.intercalate, List.intersperse]
  have e := (C47_address env ctx port hport).2.1 himp
  unfold IPString at e
  rw [if_neg hne, ipString_v4 env _ (by rw [e4]; simp), e4, ed] at e
  refine ⟨e, ?_⟩
  have hpl := plain_dotted [a, b, c, d]
  rw [ed] at hpl
  exact .plain _ _ hpl (plain_itoa _)

example : ShortForm { id := List.replicate 20 7, addr := { ip := [0, 0, 0, 0, 0, 0, 0, 0, 0, 0, 255, 255, 1, 2, 3, 4], port := 6881 } }
    { id := List.replicate 20 7, addr := { ip := [1, 2, 3, 4], port := 6881 } } := by simp [ShortForm, DenotesV4]
example : parseFetchAddr exEnv (exFetchAnnounce [0, 0, 0, 0, 0, 0, 0, 0, 0, 0, 255, 255, 1, 2, 3, 4] []) = .ok b!"1.2.3.4:6881" := by
  decide +kernel
example : ∀ v4, ¬ DenotesV4 ex6 v4 := by
  rintro v4 ⟨h1, rfl | h2⟩
  · simp [ex6] at h1
  · simp [ex6] at h2

end P2P

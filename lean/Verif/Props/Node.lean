import Verif.Model.Node
/-! # Property theorems C15-C17 (dht/node.go) -/
namespace P2P

/-! ### helper lemmas -/

theorem Res.mapM_ok {α β : Type} (g : α → Res β) (h : α → β) (l : List α) (hg : ∀ a ∈ l, g a = .ok (h a)) :
    l.mapM g = .ok (l.map h) := by
  induction l with
  | nil => rfl
  | cons a r ih =>
    simp only [List.mapM_cons, hg a (by simp), Res.bind_ok, ih (fun x hx => hg x (by simp [hx])),
      Res.pure_eq, List.map_cons]

theorem be16_length (n : Nat) : (be16 n).length = 2 := rfl

theorem beVal_be16 {n : Nat} (h : n < 65536) : beVal (be16 n) = n := by
  simp [beVal, be16]
  omega

theorem be16_beVal (a b : UInt8) : be16 (beVal [a, b]) = [a, b] := by
  have ha := a.toNat_lt
  have hb := b.toNat_lt
  simp only [beVal, be16, List.foldl_cons, List.foldl_nil, List.cons.injEq, and_true]
  constructor
  · have : (256 * (256 * 0 + a.toNat) + b.toNat) / 256 = a.toNat := by omega
    rw [this]; simp
  · apply UInt8.toNat.inj
    simp

theorem u16_of_lt {p : Int} (h : 0 ≤ p ∧ p < 65536) : (u16 p : Int) = p ∧ u16 p < 65536 := by
  unfold u16; omega

/-! ## C15 -/

/-- a node as the DHT protocol can express it -/
def CompactNode (n : NodeInfo) : Prop :=
  n.id.length = 20 ∧ n.addr.ip.length = 4 ∧ (0 ≤ n.addr.port ∧ n.addr.port < 65536) ∧ n.addr.zone = []

theorem goSlice_ok {s : Bytes} {a b : Nat} (h : a ≤ b) (h' : b ≤ s.length) : goSlice s a b = .ok (slice s a b) := by
  simp [goSlice, h, h']

/-- what one 26-byte record denotes -/
def recordNode (infos : Bytes) (i : Nat) : NodeInfo :=
  { id := slice infos (i * 26) (i * 26 + 20)
    addr := { ip := slice infos (i * 26 + 20) (i * 26 + 24)
              port := beVal (slice infos (i * 26 + 24) (i * 26 + 26)) } }

theorem parseNodeAt_ok {infos : Bytes} {i : Nat} (h : i < infos.length / 26) :
    parseNodeAt infos i = .ok (recordNode infos i) := by
  have h1 : i * 26 + 26 ≤ infos.length := by omega
  unfold parseNodeAt
  simp only [goSlice_ok (s := infos) (a := i * 26 + 20) (b := i * 26 + 26) (by omega) h1,
    goSlice_ok (s := infos) (a := i * 26) (b := i * 26 + 20) (by omega) (by omega), Res.bind_ok]
  have hl : (slice infos (i * 26 + 20) (i * 26 + 26)).length = 6 := by simp [slice]; omega
  rw [goSlice_ok (by omega) (by omega), goSlice_ok (by omega) (by omega)]
  simp only [Res.bind_ok, Res.pure_eq, recordNode]
  congr 3
  · simp [slice, List.take_take]
  · congr 1
    have e1 : i * 26 + 26 - (i * 26 + 20) - 4 = i * 26 + 26 - (i * 26 + 24) := by omega
    have e2 : (6 : Nat) - 4 = i * 26 + 26 - (i * 26 + 24) := by omega
    simp only [slice, List.drop_take, List.drop_drop, e1, e2, List.take_take, Nat.min_self, Nat.add_assoc]

theorem parseNodeInfo_eq (infos : Bytes) :
    parseNodeInfo infos = .ok ((List.range (infos.length / 26)).map (recordNode infos)) :=
  Res.mapM_ok _ _ _ (fun i hi => parseNodeAt_ok (List.mem_range.1 hi))

/-- parsing never panics, on any string; it yields one node per complete 26-byte record -/
theorem C15_parse_total (s : Bytes) :
    ∃ ns, parseNodeInfo s = .ok ns ∧ ns.length = s.length / 26 ∧ ∀ n ∈ ns, CompactNode n := by
  refine ⟨_, parseNodeInfo_eq s, by simp, fun n hn => ?_⟩
  obtain ⟨i, hi, rfl⟩ := List.mem_map.1 hn
  have hi := List.mem_range.1 hi
  refine ⟨by simp [recordNode, slice]; omega, by simp [recordNode, slice]; omega, ⟨by simp [recordNode], ?_⟩, rfl⟩
  have hl : (slice s (i * 26 + 24) (i * 26 + 26)).length = 2 := by simp [slice]; omega
  simp only [recordNode]
  match h : slice s (i * 26 + 24) (i * 26 + 26), hl with
  | [a, b], _ =>
    have ha := a.toNat_lt
    have hb := b.toNat_lt
    simp [beVal]; omega

theorem joinNodeInfos_length {ns : List NodeInfo} (h : ∀ n ∈ ns, CompactNode n) :
    (joinNodeInfos ns).length = 26 * ns.length := by
  induction ns with
  | nil => rfl
  | cons n r ih =>
    have hn := h n (by simp)
    have := ih (fun m hm => h m (by simp [hm]))
    simp [joinNodeInfos, to4, hn.2.1, hn.1, be16, this]; omega

theorem drop_join {ns : List NodeInfo} (h : ∀ n ∈ ns, CompactNode n) (i : Nat) (hi : i ≤ ns.length) :
    (joinNodeInfos ns).drop (i * 26) = joinNodeInfos (ns.drop i) := by
  induction i generalizing ns with
  | zero => simp
  | succ i ih =>
    cases ns with
    | nil => simp at hi
    | cons n r =>
      have hn := h n (by simp)
      have hlen : (n.id ++ to4 n.addr.ip ++ be16 (u16 n.addr.port)).length = 26 := by
        simp [to4, hn.2.1, hn.1, be16]
      have e := ih (ns := r) (fun m hm => h m (by simp [hm])) (by simpa using hi)
      have : (i + 1) * 26 = 26 + i * 26 := by omega
      have e2 : (joinNodeInfos (n :: r)).drop 26 = joinNodeInfos r := by
        rw [joinNodeInfos]; exact List.drop_left' hlen
      rw [this, ← List.drop_drop, e2, e]
      simp

/-- encode, then decode -/
theorem C15_parse_join (ns : List NodeInfo) (h : ∀ n ∈ ns, CompactNode n) :
    parseNodeInfo (joinNodeInfos ns) = .ok ns := by
  rw [parseNodeInfo_eq, joinNodeInfos_length h]
  congr 1
  apply List.ext_getElem?
  intro i
  by_cases hi : i < ns.length
  · rw [List.getElem?_map, List.getElem?_range (by omega), List.getElem?_eq_getElem hi]
    simp only [Option.map_some, Option.some.injEq]
    have hn := h ns[i] (List.getElem_mem hi)
    have hid := hn.1
    have hip := hn.2.1
    have hd : (joinNodeInfos ns).drop (i * 26) = ns[i].id ++ (to4 ns[i].addr.ip ++ (be16 (u16 ns[i].addr.port)
        ++ joinNodeInfos (ns.drop (i + 1)))) := by
      rw [drop_join h i (by omega), List.drop_eq_getElem_cons hi]
      simp [joinNodeInfos]
    have ht4 : to4 ns[i].addr.ip = ns[i].addr.ip := by simp [to4, hn.2.1]
    rw [ht4] at hd
    have e1 : slice (joinNodeInfos ns) (i * 26) (i * 26 + 20) = ns[i].id := by
      simp [slice, hd, hn.1, List.take_append]
    have e2 : slice (joinNodeInfos ns) (i * 26 + 20) (i * 26 + 24) = ns[i].addr.ip := by
      simp only [slice]
      rw [← List.drop_drop, hd, ← hn.1, List.drop_left]
      have : i * 26 + 24 - (i * 26 + ns[i].id.length) = ns[i].addr.ip.length := by omega
      rw [this, List.take_left]
    have e3 : slice (joinNodeInfos ns) (i * 26 + 24) (i * 26 + 26) = be16 (u16 ns[i].addr.port) := by
      simp only [slice]
      have : i * 26 + 24 = i * 26 + ns[i].id.length + ns[i].addr.ip.length := by omega
      rw [this, ← List.drop_drop, ← List.drop_drop, hd, List.drop_left, List.drop_left]
      have : i * 26 + 26 - (i * 26 + ns[i].id.length + ns[i].addr.ip.length) = (be16 (u16 ns[i].addr.port)).length := by
        rw [be16_length]; omega
      rw [this, List.take_left]
    have hp := u16_of_lt hn.2.2.1
    unfold recordNode
    rw [e1, e2, e3, beVal_be16 hp.2, hp.1, ← hn.2.2.2]
  · rw [List.getElem?_eq_none (by simp; omega), List.getElem?_eq_none (by omega)]

theorem recordNode_drop (s : Bytes) (i : Nat) : recordNode s (i + 1) = recordNode (s.drop 26) i := by
  unfold recordNode
  simp only [slice, List.drop_drop]
  have e1 : (i + 1) * 26 = 26 + i * 26 := by omega
  rw [e1]
  simp only [Nat.add_assoc]
  have a1 : 26 + (i * 26 + 20) - (26 + i * 26) = i * 26 + 20 - i * 26 := by omega
  have a2 : 26 + (i * 26 + 24) - (26 + (i * 26 + 20)) = i * 26 + 24 - (i * 26 + 20) := by omega
  have a3 : 26 + (i * 26 + 26) - (26 + (i * 26 + 24)) = i * 26 + 26 - (i * 26 + 24) := by omega
  rw [a1, a2, a3]

theorem join_records (k : Nat) : ∀ s : Bytes, s.length = 26 * k →
    joinNodeInfos ((List.range k).map (recordNode s)) = s := by
  induction k with
  | zero => intro s hs; have : s = [] := List.length_eq_zero_iff.1 (by omega); simp [joinNodeInfos, this]
  | succ k ih =>
    intro s hs
    rw [List.range_succ_eq_map]
    simp only [List.map_cons, List.map_map]
    have : (recordNode s ∘ Nat.succ) = recordNode (s.drop 26) := by
      funext i; exact recordNode_drop s i
    rw [this, joinNodeInfos, ih (s.drop 26) (by simp; omega)]
    have hl : (slice s 24 26).length = 2 := by simp [slice]; omega
    have hb : be16 (u16 ((beVal (slice s 24 26) : Nat) : Int)) = slice s 24 26 := by
      match h : slice s 24 26, hl with
      | [a, b], _ =>
        have hu : u16 ((beVal [a, b] : Nat) : Int) = beVal [a, b] := by
          have ha := a.toNat_lt
          have hb := b.toNat_lt
          have : beVal [a, b] < 65536 := by simp [beVal]; omega
          unfold u16; omega
        rw [hu, be16_beVal]
    have h4 : to4 (slice s 20 24) = slice s 20 24 := by
      unfold to4; rw [if_pos (by simp [slice]; omega)]
    simp only [recordNode, Nat.zero_mul, Nat.zero_add, hb, h4]
    simp only [slice, List.drop_zero, Nat.sub_zero]
    have e0 : s.drop 24 = (s.drop 20).drop 4 := by rw [List.drop_drop]
    have e1 : s.drop 26 = (s.drop 24).drop 2 := by rw [List.drop_drop]
    rw [e1, List.append_assoc, List.append_assoc, List.take_append_drop, e0,
      List.take_append_drop, List.take_append_drop]

/-- decode, then encode -/
theorem C15_join_parse (s : Bytes) (h : s.length % 26 = 0) :
    ∃ ns, parseNodeInfo s = .ok ns ∧ joinNodeInfos ns = s :=
  ⟨_, parseNodeInfo_eq s, join_records _ s (by omega)⟩

/-- the trailing `len mod 26` bytes are ignored -/
theorem C15_parse_ignores_tail (s t : Bytes) (hs : s.length % 26 = 0) (ht : t.length < 26) :
    parseNodeInfo (s ++ t) = parseNodeInfo s := by
  rw [parseNodeInfo_eq, parseNodeInfo_eq]
  congr 1
  have : (s ++ t).length / 26 = s.length / 26 := by simp; omega
  rw [this]
  apply List.map_congr_left
  intro i hi
  have hi := List.mem_range.1 hi
  have key : ∀ a b, b ≤ s.length → slice (s ++ t) a b = slice s a b := by
    intro a b hb
    unfold slice
    by_cases h : a ≤ s.length
    · rw [List.drop_append_of_le_length h, List.take_append_of_le_length (by simp; omega)]
    · have : b - a = 0 := by omega
      simp [this]
  unfold recordNode
  rw [key _ _ (by omega), key _ _ (by omega), key _ _ (by omega)]

example : CompactNode { id := List.replicate 20 7, addr := { ip := [127, 0, 0, 1], port := 6881 } } := by
  simp [CompactNode]
example : joinNodeInfos [{ id := List.replicate 20 7, addr := { ip := [127, 0, 0, 1], port := 6881 } }] =
    List.replicate 20 7 ++ [127, 0, 0, 1, 26, 225] := by decide +kernel

/-! ## C16 -/

theorem getString_at {vals : List GoVal} {i : Nat} {s : Bytes} (h : vals[i]? = some (.str s)) :
    GoList.GetString vals i = .ok s := by
  simp [GoList.GetString, GoList.GetVal, h, GoVal.asStr]

theorem parsePeerAt_six {cap : Nat → Nat} {vals : List GoVal} {i : Nat}
    {s : Bytes} (h : vals[i]? = some (.str s)) (hs : s.length = 6) :
    parsePeerAt cap vals i = .ok { ip := s.take 4, port := beVal (s.drop 4) } := by
  have hl : 6 ≤ (bytesWithCap cap s).length := by simp [bytesWithCap]; omega
  unfold parsePeerAt
  simp only [getString_at h, Res.bind_ok]
  rw [goSlice_ok (by omega) (by omega), goSlice_ok (by omega) (by omega)]
  simp only [Res.bind_ok, Res.pure_eq]
  congr 2
  · simp [slice, bytesWithCap, List.take_append, hs]
  · simp [slice, bytesWithCap, List.drop_append, hs, List.take_append]

/-- encode, then decode -/
theorem C16_parse_join (cap : Nat → Nat) (as : List UDPAddr)
    (h : ∀ a ∈ as, a.ip.length = 4 ∧ (0 ≤ a.port ∧ a.port < 65536) ∧ a.zone = []) :
    parsePeerInfo cap (joinPeerInfos as) = .ok as := by
  have hlen : (joinPeerInfos as).length = as.length := by
    induction as with
    | nil => rfl
    | cons a r ih => simp [joinPeerInfos, ih (fun x hx => h x (by simp [hx]))]
  have hget : ∀ i (hi : i < as.length),
      (joinPeerInfos as)[i]? = some (.str (as[i].ip ++ be16 (u16 as[i].port))) := by
    intro i hi
    clear hlen
    induction as generalizing i with
    | nil => simp at hi
    | cons a r ih =>
      cases i with
      | zero => have := (h a (by simp)).1; simp [joinPeerInfos, to4, this]
      | succ i => simpa [joinPeerInfos] using ih (fun x hx => h x (by simp [hx])) i (by simpa using hi)
  unfold parsePeerInfo
  rw [hlen]
  rw [Res.mapM_ok _ (fun i => if hi : i < as.length then as[i] else { ip := [], port := 0 })]
  · congr 1
    apply List.ext_getElem?
    intro i
    by_cases hi : i < as.length
    · simp [hi]
    · rw [List.getElem?_eq_none (by simp; omega), List.getElem?_eq_none (by omega)]
  · intro i hi
    have hi := List.mem_range.1 hi
    have hn := h as[i] (List.getElem_mem hi)
    rw [parsePeerAt_six (hget i hi) (by simp [hn.1, be16])]
    simp only [hi, dite_true]
    congr 1
    have hp := u16_of_lt hn.2.1
    have e1 : (as[i].ip ++ be16 (u16 as[i].port)).take 4 = as[i].ip := by
      rw [← hn.1, List.take_left]
    have e2 : (as[i].ip ++ be16 (u16 as[i].port)).drop 4 = be16 (u16 as[i].port) := by
      rw [← hn.1, List.drop_left]
    rw [e1, e2, beVal_be16 hp.2, hp.1, ← hn.2.2]

/-- decode, then encode -/
theorem C16_join_parse (cap : Nat → Nat) (vs : List Bytes)
    (h : ∀ s ∈ vs, s.length = 6) :
    ∃ as, parsePeerInfo cap (vs.map .str) = .ok as ∧ joinPeerInfos as = vs.map .str := by
  refine ⟨vs.map (fun s => { ip := s.take 4, port := beVal (s.drop 4) }), ?_, ?_⟩
  · unfold parsePeerInfo
    rw [List.length_map, Res.mapM_ok _ (fun i => (⟨(vs.getD i []).take 4, beVal ((vs.getD i []).drop 4), []⟩ : UDPAddr))]
    · congr 1
      apply List.ext_getElem?
      intro i
      by_cases hi : i < vs.length
      · simp [hi]
      · rw [List.getElem?_eq_none (by simp; omega), List.getElem?_eq_none (by simp; omega)]
    · intro i hi
      have hi := List.mem_range.1 hi
      have := parsePeerAt_six (cap := cap) (vals := vs.map .str) (i := i) (s := vs[i]) (by simp [hi])
        (h _ (List.getElem_mem hi))
      simp [this, hi]
  · induction vs with
    | nil => rfl
    | cons s r ih =>
      have hs := h s (by simp)
      have h4 : to4 (s.take 4) = s.take 4 := by
        unfold to4; rw [if_pos (by simp [hs])]
      have hl : (s.drop 4).length = 2 := by simp [hs]
      have hb : be16 (u16 ((beVal (s.drop 4) : Nat) : Int)) = s.drop 4 := by
        match hd : s.drop 4, hl with
        | [a, b], _ =>
          have hu : u16 ((beVal [a, b] : Nat) : Int) = beVal [a, b] := by
            have ha := a.toNat_lt
            have hb := b.toNat_lt
            have : beVal [a, b] < 65536 := by simp [beVal]; omega
            unfold u16; omega
          rw [hu, be16_beVal]
      simp [joinPeerInfos, h4, hb, ih (fun x hx => h x (by simp [hx]))]

theorem mapM_first_panic {α β : Type} (g : α → Res β) (pre post : List α) (a : α) (p : Panic)
    (hpre : ∀ x ∈ pre, ∃ y, g x = .ok y) (ha : g a = .panic p) : (pre ++ a :: post).mapM g = .panic p := by
  induction pre with
  | nil => simp [List.mapM_cons, ha]
  | cons b r ih =>
    obtain ⟨y, hy⟩ := hpre b (by simp)
    simp [List.mapM_cons, hy, ih (fun x hx => hpre x (by simp [hx]))]

/-- the first element that is not a string panics with `*misc.Error`; the first string whose byte
conversion has capacity below 6 panics at run time (elements before it being fine) -/
theorem C16_parse_panics (cap : Nat → Nat) (hcap : ∀ n, n ≤ cap n) (ss : List Bytes) (v : GoVal)
    (post : List GoVal) (h : ∀ s ∈ ss, 6 ≤ cap s.length) :
    (v.asStr = none →
      parsePeerInfo cap (ss.map .str ++ v :: post) = .panic (.biz b!"val cannot match type of string")) ∧
    (∀ s, v = .str s → cap s.length < 6 →
      parsePeerInfo cap (ss.map .str ++ v :: post) = .panic .runtime) := by
  have hlenb : ∀ s, (bytesWithCap cap s).length = cap s.length := by
    intro s; have := hcap s.length; simp [bytesWithCap]; omega
  have hpre : ∀ i ∈ List.range ss.length,
      ∃ y, parsePeerAt cap (ss.map .str ++ v :: post) i = .ok y := by
    intro i hi
    have hi := List.mem_range.1 hi
    have hg : (ss.map GoVal.str ++ v :: post)[i]? = some (.str ss[i]) := by
      rw [List.getElem?_append_left (by simpa using hi)]; simp [hi]
    have := h ss[i] (List.getElem_mem hi)
    refine ⟨⟨slice (bytesWithCap cap ss[i]) 0 4, beVal (slice (bytesWithCap cap ss[i]) 4 6), []⟩, ?_⟩
    unfold parsePeerAt
    simp only [getString_at hg, Res.bind_ok]
    rw [goSlice_ok (by omega) (by rw [hlenb]; omega), goSlice_ok (by omega) (by rw [hlenb]; omega)]
    simp only [Res.bind_ok, Res.pure_eq]
  have hr : List.range (ss.map GoVal.str ++ v :: post).length =
      List.range ss.length ++ ss.length :: (List.range post.length).map (fun i => ss.length + (1 + i)) := by
    have : (ss.map GoVal.str ++ v :: post).length = ss.length + (1 + post.length) := by simp; omega
    rw [this, List.range_add, Nat.add_comm 1, List.range_succ_eq_map]
    simp [Function.comp_def, Nat.add_comm 1]
  have hv : (ss.map GoVal.str ++ v :: post)[ss.length]? = some v := by
    rw [List.getElem?_append_right (by simp)]; simp
  constructor
  · intro hn
    unfold parsePeerInfo
    rw [hr]
    apply mapM_first_panic _ _ _ _ _ hpre
    simp [parsePeerAt, GoList.GetString, GoList.GetVal, hv, hn]
  · rintro s rfl hc
    unfold parsePeerInfo
    rw [hr]
    apply mapM_first_panic _ _ _ _ _ hpre
    unfold parsePeerAt
    simp only [getString_at hv, Res.bind_ok]
    by_cases h4 : 4 ≤ cap s.length
    · rw [goSlice_ok (by omega) (by rw [hlenb]; omega)]
      simp only [Res.bind_ok, goSlice, hlenb]
      rw [if_neg (by omega)]; rfl
    · simp only [goSlice, hlenb]
      rw [if_neg (by omega)]; rfl

/-- With the runtime's actual rounding (capacity 8 for lengths 1..8) a 1-byte string is accepted and
padded with zeros, while the empty string panics. -/
example : let cap : Nat → Nat := fun n => (n + 7) / 8 * 8
    parsePeerInfo cap [.str [9]] = .ok [{ ip := [9, 0, 0, 0], port := 0 }] ∧
    parsePeerInfo cap [.str []] = .panic .runtime := by decide +kernel
example : ∀ n : Nat, n ≤ (n + 7) / 8 * 8 := by intro n; omega

/-! ## C17 -/

theorem hexDigit_inj {a b : Nat} (ha : a < 16) (hb : b < 16) (h : hexDigit a = hexDigit b) : a = b := by
  have hA : a = 0 ∨ a = 1 ∨ a = 2 ∨ a = 3 ∨ a = 4 ∨ a = 5 ∨ a = 6 ∨ a = 7 ∨ a = 8 ∨ a = 9 ∨ a = 10 ∨
    a = 11 ∨ a = 12 ∨ a = 13 ∨ a = 14 ∨ a = 15 := by omega
  have hB : b = 0 ∨ b = 1 ∨ b = 2 ∨ b = 3 ∨ b = 4 ∨ b = 5 ∨ b = 6 ∨ b = 7 ∨ b = 8 ∨ b = 9 ∨ b = 10 ∨
    b = 11 ∨ b = 12 ∨ b = 13 ∨ b = 14 ∨ b = 15 := by omega
  rcases hA with h1 | h1 | h1 | h1 | h1 | h1 | h1 | h1 | h1 | h1 | h1 | h1 | h1 | h1 | h1 | h1 <;>
  rcases hB with h2 | h2 | h2 | h2 | h2 | h2 | h2 | h2 | h2 | h2 | h2 | h2 | h2 | h2 | h2 | h2 <;>
  subst h1 <;> subst h2 <;> first | rfl | (exfalso; revert h; decide)

theorem hexEncode_inj {s t : Bytes} (h : hexEncode s = hexEncode t) : s = t := by
  induction s generalizing t with
  | nil => cases t with
    | nil => rfl
    | cons => simp [hexEncode] at h
  | cons a r ih =>
    cases t with
    | nil => simp [hexEncode] at h
    | cons b u =>
      simp only [hexEncode, List.cons.injEq] at h
      have ha := a.toNat_lt
      have hb := b.toNat_lt
      have h1 := hexDigit_inj (by omega) (by omega) h.1
      have h2 := hexDigit_inj (by omega) (by omega) h.2.1
      have : a = b := UInt8.toNat.inj (by omega)
      rw [this, ih h.2.2]

theorem txIdText_inj {v w : UInt16} (h : txIdText v = txIdText w) : v = w := by
  have h1 := hexEncode_inj h
  have h2 := congrArg beVal h1
  rw [beVal_be16 v.toNat_lt, beVal_be16 w.toNat_lt] at h2
  exact UInt16.toNat.inj h2

/-- the id handed out for the `k`-th lock acquisition -/
def ticketVal (i : UInt16) (k : Nat) : UInt16 := i + UInt16.ofNat k

/-- tickets of the calls still in flight -/
def TxPc.ticket : TxPc → Option Nat
  | .locked k | .bumped k | .read k _ | .unlocked k _ => some k
  | _ => none

/-- does the goroutine hold the lock here? -/
def TxPc.holds : TxPc → Bool
  | .locked _ | .bumped _ | .read _ _ => true
  | _ => false

structure TxInv (i : UInt16) (s : TxSt) : Prop where
  owner : ∀ t, (s.pc t).holds = true ↔ s.owner = some t
  val_free : s.owner = none → s.txId = ticketVal i s.tickets
  val_locked : ∀ t k, s.pc t = .locked k → k = s.tickets ∧ s.txId + 1 = ticketVal i s.tickets
  val_bumped : ∀ t k, s.pc t = .bumped k → k = s.tickets ∧ s.txId = ticketVal i s.tickets
  val_read : ∀ t k v, s.pc t = .read k v → k = s.tickets ∧ s.txId = ticketVal i s.tickets ∧ v = ticketVal i k
  val_unlocked : ∀ t k v, s.pc t = .unlocked k v → v = ticketVal i k
  inflight : ∀ t k, (s.pc t).ticket = some k → 1 ≤ k ∧ k ≤ s.tickets
  inflight_inj : ∀ t u k, (s.pc t).ticket = some k → (s.pc u).ticket = some k → t = u
  done_val : ∀ e ∈ s.done, e.2.2 = txIdText (ticketVal i e.2.1) ∧ 1 ≤ e.2.1 ∧ e.2.1 ≤ s.tickets
  done_fresh : ∀ e ∈ s.done, ∀ t, (s.pc t).ticket ≠ some e.2.1
  done_nodup : (s.done.map (fun e => e.2.1)).Nodup

theorem ticketVal_succ (i : UInt16) (k : Nat) : ticketVal i (k + 1) = ticketVal i k + 1 := by
  unfold ticketVal
  rw [UInt16.ofNat_add, ← UInt16.add_assoc]; rfl

theorem TxInv.init {i : UInt16} {s : TxSt} (h : TxSt.init i s) : TxInv i s := by
  obtain ⟨h1, h2, h3, h4, h5⟩ := h
  constructor <;> simp [h1, h2, h3, h4, h5, TxPc.holds, TxPc.ticket, ticketVal]

theorem pc_upd (s : TxSt) (t u : Nat) (p : TxPc) : upd s.pc t p u = if u = t then p else s.pc u := rfl

theorem TxInv.step {i : UInt16} {s s' : TxSt} (h : TxInv i s) (hs : TxStep s s') : TxInv i s' := by
  obtain ⟨h1, h2, h3, h4, h5, h6, h7, h8, h9, h10, h11⟩ := h
  cases hs with
  | call t ht =>
    refine ⟨?_, h2, ?_, ?_, ?_, ?_, ?_, ?_, h9, ?_, h11⟩ <;> intros <;> simp only [pc_upd] at *
    · rename_i u; have := h1 u; have := h1 t; grind [TxPc.holds]
    · grind
    · grind
    · grind
    · grind
    · rename_i u k hk; have := h7 u k; grind [TxPc.ticket]
    · rename_i u v k hk hk'; have := h8 u v k; grind [TxPc.ticket]
    · rename_i e he u; have := h10 e he u; grind [TxPc.ticket]
  | lock t ht ho =>
    have hno : ∀ u, (s.pc u).holds = false := by
      intro u; have := h1 u; rw [ho] at this; simpa using this
    have hv := h2 ho
    refine ⟨?_, ?_, ?_, ?_, ?_, ?_, ?_, ?_, ?_, ?_, h11⟩ <;> intros <;> simp only [pc_upd] at *
    · rename_i u; have := hno u; grind [TxPc.holds]
    · grind
    · rename_i u k hk
      by_cases hu : u = t
      · simp only [hu, if_true, TxPc.locked.injEq] at hk
        exact ⟨hk.symm, by rw [ticketVal_succ, hv]⟩
      · simp only [hu, if_false] at hk; have := hno u; rw [hk] at this; cases this
    · rename_i u k hk
      by_cases hu : u = t
      · simp [hu] at hk
      · simp only [hu, if_false] at hk; have := hno u; rw [hk] at this; cases this
    · rename_i u k v hk
      by_cases hu : u = t
      · simp [hu] at hk
      · simp only [hu, if_false] at hk; have := hno u; rw [hk] at this; cases this
    · rename_i u k v hk; have := h6 u k v; grind
    · rename_i u k hk; have := h7 u k; grind [TxPc.ticket]
    · rename_i u v k hk hk'; have := h8 u v k; have := h7 u k; have := h7 v k; grind [TxPc.ticket]
    · rename_i e he; have := h9 e he; grind
    · rename_i e he u; have := h10 e he u; have := h9 e he; grind [TxPc.ticket]
  | inc t k ht =>
    have hk := h3 t k ht
    have htick : (s.pc t).ticket = some k := by rw [ht]; rfl
    have hown : s.owner = some t := (h1 t).1 (by rw [ht]; rfl)
    have hoth : ∀ u, u ≠ t → (s.pc u).holds = false := by
      intro u hu
      have := h1 u; rw [hown] at this
      cases hh : (s.pc u).holds with
      | false => rfl
      | true => have := this.1 hh; simp at this; exact absurd this.symm hu
    refine ⟨?_, ?_, ?_, ?_, ?_, ?_, ?_, ?_, h9, ?_, h11⟩ <;> intros <;> simp only [pc_upd] at *
    · rename_i u; have := h1 u; have := h1 t; grind [TxPc.holds]
    · grind
    · rename_i u j hj
      by_cases hu : u = t
      · simp [hu] at hj
      · simp only [hu, if_false] at hj; have := hoth u hu; rw [hj] at this; cases this
    · rename_i u j hj
      by_cases hu : u = t
      · simp only [hu, if_true, TxPc.bumped.injEq] at hj; subst hj; exact hk
      · simp only [hu, if_false] at hj; have := hoth u hu; rw [hj] at this; cases this
    · rename_i u j v hj
      by_cases hu : u = t
      · simp [hu] at hj
      · simp only [hu, if_false] at hj; have := hoth u hu; rw [hj] at this; cases this
    · rename_i u j v hj; have := h6 u j v; grind
    · rename_i u j hj; have := h7 u j; have := h7 t k htick; grind [TxPc.ticket]
    · rename_i u v j hj hj'; have := h8 u v j; have := h8 u t j; have := h8 t v j; grind [TxPc.ticket]
    · rename_i e he u; have := h10 e he u; have := h10 e he t; grind [TxPc.ticket]
  | read t k ht =>
    have hk := h4 t k ht
    have htick : (s.pc t).ticket = some k := by rw [ht]; rfl
    have hown : s.owner = some t := (h1 t).1 (by rw [ht]; rfl)
    have hoth : ∀ u, u ≠ t → (s.pc u).holds = false := by
      intro u hu
      have := h1 u; rw [hown] at this
      cases hh : (s.pc u).holds with
      | false => rfl
      | true => have := this.1 hh; simp at this; exact absurd this.symm hu
    refine ⟨?_, ?_, ?_, ?_, ?_, ?_, ?_, ?_, h9, ?_, h11⟩ <;> intros <;> simp only [pc_upd] at *
    · rename_i u; have := h1 u; have := h1 t; grind [TxPc.holds]
    · grind
    · rename_i u j hj
      by_cases hu : u = t
      · simp [hu] at hj
      · simp only [hu, if_false] at hj; have := hoth u hu; rw [hj] at this; cases this
    · rename_i u j hj
      by_cases hu : u = t
      · simp [hu] at hj
      · simp only [hu, if_false] at hj; have := hoth u hu; rw [hj] at this; cases this
    · rename_i u j v hj
      by_cases hu : u = t
      · simp only [hu, if_true, TxPc.read.injEq] at hj
        obtain ⟨rfl, rfl⟩ := hj
        exact ⟨hk.1, hk.2, by rw [hk.2, hk.1]⟩
      · simp only [hu, if_false] at hj; have := hoth u hu; rw [hj] at this; cases this
    · rename_i u j v hj; have := h6 u j v; grind
    · rename_i u j hj; have := h7 u j; have := h7 t k htick; grind [TxPc.ticket]
    · rename_i u v j hj hj'; have := h8 u v j; have := h8 u t j; have := h8 t v j; grind [TxPc.ticket]
    · rename_i e he u; have := h10 e he u; have := h10 e he t; grind [TxPc.ticket]
  | unlock t k v ht =>
    have hk := h5 t k v ht
    have htick : (s.pc t).ticket = some k := by rw [ht]; rfl
    have hown : s.owner = some t := (h1 t).1 (by rw [ht]; rfl)
    have hoth : ∀ u, u ≠ t → (s.pc u).holds = false := by
      intro u hu
      have := h1 u; rw [hown] at this
      cases hh : (s.pc u).holds with
      | false => rfl
      | true => have := this.1 hh; simp at this; exact absurd this.symm hu
    refine ⟨?_, ?_, ?_, ?_, ?_, ?_, ?_, ?_, h9, ?_, h11⟩ <;> intros <;> simp only [pc_upd] at *
    · rename_i u; have := hoth u; grind [TxPc.holds]
    · exact hk.2.1
    · rename_i u j hj
      by_cases hu : u = t
      · simp [hu] at hj
      · simp only [hu, if_false] at hj; have := hoth u hu; rw [hj] at this; cases this
    · rename_i u j hj
      by_cases hu : u = t
      · simp [hu] at hj
      · simp only [hu, if_false] at hj; have := hoth u hu; rw [hj] at this; cases this
    · rename_i u j v hj
      by_cases hu : u = t
      · simp [hu] at hj
      · simp only [hu, if_false] at hj; have := hoth u hu; rw [hj] at this; cases this
    · rename_i u j v hj; have := h6 u j v; grind
    · rename_i u j hj; have := h7 u j; have := h7 t k htick; grind [TxPc.ticket]
    · rename_i u v j hj hj'; have := h8 u v j; have := h8 u t j; have := h8 t v j; grind [TxPc.ticket]
    · rename_i e he u; have := h10 e he u; have := h10 e he t; grind [TxPc.ticket]
  | ret t k v ht =>
    have hk := h6 t k v ht
    have htick : (s.pc t).ticket = some k := by rw [ht]; rfl
    refine ⟨?_, h2, ?_, ?_, ?_, ?_, ?_, ?_, ?_, ?_, ?_⟩
    · intro u; simp only [pc_upd]; have := h1 u; have := h1 t; grind [TxPc.holds]
    · intros; simp only [pc_upd] at *; grind
    · intros; simp only [pc_upd] at *; grind
    · intros; simp only [pc_upd] at *; grind
    · intros; simp only [pc_upd] at *; grind
    · intro u j hj; simp only [pc_upd] at *; have := h7 u j; grind [TxPc.ticket]
    · intro u w j hj hj'; simp only [pc_upd] at *; have := h8 u w j; grind [TxPc.ticket]
    · intro e he
      rcases List.mem_append.1 he with he | he
      · exact h9 e he
      · simp only [List.mem_singleton] at he; subst he
        exact ⟨by simp [hk], h7 t k htick⟩
    · intro e he u
      simp only [pc_upd]
      rcases List.mem_append.1 he with he | he
      · have := h10 e he u; grind [TxPc.ticket]
      · simp only [List.mem_singleton] at he; subst he
        have := h8 u t k; grind [TxPc.ticket]
    · simp only [List.map_append, List.map_cons, List.map_nil]
      refine List.nodup_append.2 ⟨h11, by simp, ?_⟩
      intro a ha b hb
      simp only [List.mem_singleton] at hb
      subst hb
      obtain ⟨e, he, rfl⟩ := List.mem_map.1 ha
      intro heq
      exact h10 e he t (by rw [htick, heq])

/-- In every interleaving, two different completed calls whose lock acquisitions are fewer than 65536
apart returned different ids. (`e.2.1` is the position of the call in lock-acquisition order.) -/
theorem C17_unique_in_window (i : UInt16) (s : TxSt) (hr : Reach (TxSt.init i) TxStep s)
    (a b : Nat) (ha : a < s.done.length) (hb : b < s.done.length) (hab : a ≠ b)
    (hw : s.done[a].2.1 < s.done[b].2.1 + 65536) (hw' : s.done[b].2.1 < s.done[a].2.1 + 65536) :
    s.done[a].2.2 ≠ s.done[b].2.2 := by
  have hI := Reach.inv (TxInv i) (fun _ h => TxInv.init h) (fun _ _ h hs => h.step hs) hr
  obtain ⟨e1, l1, u1⟩ := hI.done_val _ (List.getElem_mem ha)
  obtain ⟨e2, l2, u2⟩ := hI.done_val _ (List.getElem_mem hb)
  intro heq
  rw [e1, e2] at heq
  have hv := txIdText_inj heq
  unfold ticketVal at hv
  have hv := UInt16.add_right_inj i |>.1 hv
  have := congrArg UInt16.toNat hv
  simp only [UInt16.toNat_ofNat'] at this
  have hne : s.done[a].2.1 ≠ s.done[b].2.1 := by
    intro h
    have := hI.done_nodup
    have hp := List.pairwise_iff_getElem.1 this
    rcases Nat.lt_or_gt_of_ne hab with hlt | hlt
    · exact hp a b (by simpa using ha) (by simpa using hb) hlt (by simpa using h)
    · exact hp b a (by simpa using hb) (by simpa using ha) hlt (by simpa using h.symm)
  omega

/-- ids are 4 lower-case hex characters determined by the position modulo 65536 -/
theorem C17_shape_and_period (i : UInt16) (s : TxSt) (hr : Reach (TxSt.init i) TxStep s)
    (e : Nat × Nat × Bytes) (he : e ∈ s.done) :
    e.2.2.length = 4 ∧ (∀ c ∈ e.2.2, (48 ≤ c ∧ c ≤ 57) ∨ (97 ≤ c ∧ c ≤ 102)) ∧
    ∀ f ∈ s.done, f.2.1 % 65536 = e.2.1 % 65536 → f.2.2 = e.2.2 := by
  have hI := Reach.inv (TxInv i) (fun _ h => TxInv.init h) (fun _ _ h hs => h.step hs) hr
  have hd : ∀ n : Nat, n < 16 → (48 ≤ hexDigit n ∧ hexDigit n ≤ 57) ∨ (97 ≤ hexDigit n ∧ hexDigit n ≤ 102) := by
    intro n hn
    have hA : n = 0 ∨ n = 1 ∨ n = 2 ∨ n = 3 ∨ n = 4 ∨ n = 5 ∨ n = 6 ∨ n = 7 ∨ n = 8 ∨ n = 9 ∨ n = 10 ∨
      n = 11 ∨ n = 12 ∨ n = 13 ∨ n = 14 ∨ n = 15 := by omega
    rcases hA with h1 | h1 | h1 | h1 | h1 | h1 | h1 | h1 | h1 | h1 | h1 | h1 | h1 | h1 | h1 | h1 <;>
      subst h1 <;> decide
  refine ⟨by rw [(hI.done_val e he).1]; rfl, ?_, ?_⟩
  · rw [(hI.done_val e he).1]
    intro c hc
    simp only [txIdText, hexEncode, be16, List.mem_cons, List.not_mem_nil, or_false] at hc
    have h1 := (UInt8.ofNat ((ticketVal i e.2.1).toNat / 256)).toNat_lt
    have h2 := (UInt8.ofNat (ticketVal i e.2.1).toNat).toNat_lt
    rcases hc with rfl | rfl | rfl | rfl <;> apply hd <;> omega
  · intro f hf h
    rw [(hI.done_val e he).1, (hI.done_val f hf).1]
    congr 1
    unfold ticketVal
    congr 1
    apply UInt16.toNat.inj
    simpa using h

/-- the calls really are numbered consecutively: no two completed calls share a position -/
theorem C17_positions_distinct (i : UInt16) (s : TxSt) (hr : Reach (TxSt.init i) TxStep s) :
    (s.done.map (fun e => e.2.1)).Nodup ∧ ∀ e ∈ s.done, 1 ≤ e.2.1 ∧ e.2.1 ≤ s.tickets := by
  have hI := Reach.inv (TxInv i) (fun _ h => TxInv.init h) (fun _ _ h hs => h.step hs) hr
  exact ⟨hI.done_nodup, fun e he => (hI.done_val e he).2⟩

/-- a reachable state with two completed calls by two goroutines -/
example : ∃ s, Reach (TxSt.init 65535) TxStep s ∧ s.done = [(0, 1, b!"0000"), (1, 2, b!"0001")] := by
  let s0 : TxSt := ⟨65535, none, 0, fun _ => .idle, []⟩
  have r0 : Reach (TxSt.init 65535) TxStep s0 := .init ⟨rfl, rfl, rfl, fun _ => rfl, rfl⟩
  have r1 := r0.step (.call _ 0 rfl)
  have r2 := r1.step (.lock _ 0 rfl rfl)
  have r3 := r2.step (.inc _ 0 1 rfl)
  have r4 := r3.step (.read _ 0 1 rfl)
  have r5 := r4.step (.unlock _ 0 1 _ rfl)
  have r6 := r5.step (.ret _ 0 1 _ rfl)
  have r7 := r6.step (.call _ 1 rfl)
  have r8 := r7.step (.lock _ 1 rfl rfl)
  have r9 := r8.step (.inc _ 1 2 rfl)
  have ra := r9.step (.read _ 1 2 rfl)
  have rb := ra.step (.unlock _ 1 2 _ rfl)
  have rc := rb.step (.ret _ 1 2 _ rfl)
  exact ⟨_, rc, by decide +kernel⟩

end P2P

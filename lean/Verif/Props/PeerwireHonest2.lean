import Verif.Props.PeerwireHonest
/-! # C43 for the messages that the encoders build -/
namespace P2P

/-- the metadata cut into 16 KiB pieces -/
def cut (md : Bytes) : List Bytes :=
  (List.range ((md.length + 16383) / 16384)).map fun i => (md.drop (16384 * i)).take 16384

theorem flatten_cutAux (md : Bytes) (k : Nat) :
    ((List.range k).map fun i => (md.drop (16384 * i)).take 16384).flatten = md.take (16384 * k) := by
  induction k with
  | zero => simp
  | succ k ih =>
    rw [List.range_succ, List.map_append, List.flatten_append, ih, Nat.mul_succ, List.take_add]
    simp

theorem flatten_cut (md : Bytes) : (cut md).flatten = md := by
  unfold cut
  rw [flatten_cutAux, List.take_of_length_le (by omega)]

theorem cut_length (md : Bytes) : (cut md).length = (md.length + 16383) / 16384 := by simp [cut]

theorem cut_get {md : Bytes} {j : Nat} {p : Bytes} (h : (cut md)[j]? = some p) :
    p = (md.drop (16384 * j)).take 16384 ∧ 1 ≤ p.length ∧ p.length ≤ 16384 := by
  have hj : j < (cut md).length := by
    rcases Nat.lt_or_ge j (cut md).length with h' | h'
    · exact h'
    · rw [List.getElem?_eq_none h'] at h; cases h
  rw [cut_length] at hj
  have : p = (md.drop (16384 * j)).take 16384 := by
    unfold cut at h
    rw [List.getElem?_map, List.getElem?_range hj] at h
    exact (Option.some.inj h).symm
  refine ⟨this, ?_⟩
  rw [this, List.length_take, List.length_drop]
  omega

/-! lengths of encoded dictionaries of integers -/

/-- all values are integers -/
def AllInt (d : Entries) : Prop := ∀ k v, (k, v) ∈ d → ∃ i, v = .int i

def encPair (kv : Bytes × GoVal) : Bytes := EncodeString kv.1 ++ (match kv.2 with | .int i => EncodeInteger i | _ => [])

theorem encodeEntries_ints (d : Entries) (h : AllInt d) : encodeEntries d = .ok (d.flatMap encPair) := by
  induction d with
  | nil => rfl
  | cons kv r ih =>
    obtain ⟨k, v⟩ := kv
    obtain ⟨i, rfl⟩ := h k v (by simp)
    simp only [encodeEntries, encodeItem, Res.bind_ok, ih (fun k v hm => h k v (by simp [hm])), Res.pure_eq]
    simp [encPair]

theorem listing_perm {d e : Entries} (hd : GoVal.WF (.dict d)) (hi : AllInt d) (h : Listing (.dict d) (.dict e)) : e.Perm d := by
  obtain ⟨hw, hde⟩ := h
  have nd : ∀ {x : Entries}, (x.map Prod.fst).Nodup → x.Nodup := fun hx => List.Pairwise.imp (fun h he => h (congrArg Prod.fst he)) (List.pairwise_map.1 hx)
  have hint : ∀ {v : GoVal} {i : Int}, DeepEq (.int i) v → v = .int i := fun h => by cases h; rfl
  have hint' : ∀ {v : GoVal} {i : Int}, DeepEq v (.int i) → v = .int i := fun h => by cases h; rfl
  refine (List.perm_ext_iff_of_nodup (nd hw.1) (nd hd.1)).2 fun kv => ?_
  obtain ⟨k, v⟩ := kv
  constructor
  · intro hm
    obtain ⟨v', h1, h2⟩ := deepEq_dict_lookup hde.symm k v (lookup_of_mem hw.1 hm)
    have hm' := mem_of_lookup h1
    obtain ⟨i, rfl⟩ := hi _ _ hm'
    rw [hint' h2]; exact hm'
  · intro hm
    obtain ⟨v', h1, h2⟩ := deepEq_dict_lookup hde k v (lookup_of_mem hd.1 hm)
    obtain ⟨i, rfl⟩ := hi _ _ hm
    rw [← hint h2]; exact mem_of_lookup h1

theorem encodeInteger_length {i : Int} (h : IsInt64 i) : (EncodeInteger i).length ≤ 22 := by
  unfold IsInt64 at h
  unfold EncodeInteger itoa
  have h1 : i.natAbs < 10 ^ 19 := by omega
  have := natDecAux_length (i.natAbs + 1) i.natAbs 19 h1 (by omega)
  cases i with
  | ofNat n => simp only [natDec, List.length_append, List.length_cons, List.length_nil]; simp at this; omega
  | negSucc n =>
    simp only [natDec, List.length_append, List.length_cons, List.length_nil]
    rw [Int.natAbs_negSucc, Nat.succ_eq_add_one] at this
    omega

theorem dataMsg_length (order : Entries → Entries) (ho : OrderOK order) (j : Nat) (hj : j < 2 ^ 63) (size : Nat) (hs : size < 2 ^ 63)
    (p : Bytes) (hp : p ≠ []) (w : Bytes) (h : withExtendedFetchMetaMsg order 1 ExData j size p = .ok w) : w.length ≤ p.length + 200 := by
  have hpl : p.length > 0 := List.length_pos_iff.2 hp
  have h1 : IsInt64 (j : Int) := by unfold IsInt64; omega
  have h2 : IsInt64 (size : Int) := by unfold IsInt64; omega
  unfold withExtendedFetchMetaMsg ExFetchMeta.Bytes ExFetchMeta.dict at h
  simp only [hpl, if_true] at h
  generalize hd : dictPut [(b!"msg_type", GoVal.int ExData), (b!"piece", .int j)] b!"total_size" (.int size) = d at h
  have hd' : d = [(b!"msg_type", GoVal.int ExData), (b!"piece", .int j), (b!"total_size", .int size)] := by
    rw [← hd]; simp [dictPut]
  have hwf : GoVal.WF (.dict d) := by
    rw [hd']
    exact ⟨by simp, by simp [GoVal.WFD, GoVal.WF, h1, h2, ExData]; decide⟩
  have hint : AllInt d := by
    intro k v hm
    rw [hd'] at hm
    simp at hm
    rcases hm with ⟨-, rfl⟩ | ⟨-, rfl⟩ | ⟨-, rfl⟩ <;> exact ⟨_, rfl⟩
  have hperm := listing_perm hwf hint (ho _ hwf)
  have hint' : AllInt (order d) := fun k v hm => hint k v (hperm.mem_iff.1 hm)
  have henc : EncodeDict (some (order d)) = .ok ([100] ++ (order d).flatMap encPair ++ [101]) := by
    simp only [EncodeDict, encodeItem, encodeEntries_ints _ hint', Res.bind_ok, Res.pure_eq]
  rw [henc] at h
  simp only [Res.ok.injEq] at h
  have hlen : ((order d).flatMap encPair).length = (d.flatMap encPair).length := (hperm.flatMap_right encPair).length_eq
  have hl3 : (d.flatMap encPair).length ≤ 100 := by
    rw [hd']
    have a1 := encodeInteger_length h1
    have a2 := encodeInteger_length h2
    have a3 := encodeInteger_length (i := ExData) (by unfold IsInt64 ExData; omega)
    have e1 : (EncodeString b!"msg_type").length = 10 := by decide +kernel
    have e2 : (EncodeString b!"piece").length = 7 := by decide +kernel
    have e3 : (EncodeString b!"total_size").length = 13 := by decide +kernel
    simp only [List.flatMap_cons, List.flatMap_nil, encPair, List.length_append, List.length_nil, e1, e2, e3]
    omega
  rw [← h]
  simp only [be32, List.length_append, List.length_cons, List.length_nil, hlen]
  omega

/-- **An honest peer is downloaded from.** For every metadata `md` of 1 byte up to 2^40: the peer announces its size
in an extended handshake (dictionaries `m`, `e` and all iteration orders arbitrary), and sends the pieces with the
message encoder; every message arrives as two reads; nobody else uses the buffers; the pool has a spare 32 KiB
buffer for every piece (none is needed for up to 16384 bytes). Then `FetchMetaData` returns `md`. -/
theorem C43_honest_peer {E : PEnv} (hE : Calm E) (sha1 : Bytes → Bytes) (fold : FoldTable) (fuel : Nat) (peerId infoHash : Bytes)
    (mem : Nat → Bytes) (pool : BPool) (q32 : List Slice) (hpool : Ready (NewPeerConn mem pool) q32)
    (hp : peerId.length = 20) (hi : infoHash.length = 20)
    (md : Bytes) (h1 : 1 ≤ md.length) (h2 : md.length < 2 ^ 40) (hsum : sha1 md = infoHash)
    (hspare : (md.length + 16383) / 16384 ≤ max 1 q32.length) (hfuel : (md.length + 16383) / 16384 + 2 ≤ fuel)
    {hs ext : Bytes} {bodies : List Bytes} (hhs : IsPeerHandshake hs)
    (orderA : Entries → Entries) (hoA : OrderOK orderA) (m e : Entries)
    (hm : GoVal.WF (.dict m)) (hme : Encodable (.dict m)) (he : GoVal.WF (.dict e)) (hee : Encodable (.dict e))
    (hsize : e.lookup b!"metadata_size" = some (.int md.length))
    (hext : withExtendedhandShake orderA (some m) (some e) = .ok (be32 ext.length ++ ext)) (hextl : ext.length ≤ 32768)
    (orderB : Nat → Entries → Entries) (hoB : ∀ j, OrderOK (orderB j)) (hbl : bodies.length = (cut md).length)
    (hbodies : ∀ j p body, (cut md)[j]? = some p → bodies[j]? = some body →
      withExtendedFetchMetaMsg (orderB j) 1 ExData j md.length p = .ok (be32 body.length ++ body))
    (hD : Delivers E (hs :: framed ext ++ bodies.flatMap framed)) :
    ∃ s, FetchMetaData E sha1 fold fuel peerId infoHash mem pool = .returned (some md) none s := by
  have hpar : ∃ dict, parseExtendedHandShake ext = .ok dict ∧ dict.lookup b!"metadata_size" = some (.int md.length) := by
    obtain ⟨pre, body, a1, a2, a3, a4⟩ := C39_roundtrip orderA hoA m (some e) hm hme he hee
    rw [hext] at a1
    injection a1 with a1
    obtain ⟨b1, b2⟩ := List.append_inj a1 (by rw [a2]; rfl)
    subst b2
    obtain ⟨d, c1, c2⟩ := a4 (by unfold GoString; omega)
    refine ⟨d, c1, ?_⟩
    obtain ⟨v, v1, v2⟩ := deepEq_dict_lookup c2 b!"metadata_size" (.int md.length) (by rw [lookup_extended]; simpa using hsize)
    cases v2
    exact v1
  obtain ⟨dict, hp1, hp2⟩ := hpar
  have := C43_honest_download hE sha1 fold fuel peerId infoHash mem pool q32 hpool hp hi (hs := hs) (ext := ext) (dict := dict)
    (pieces := cut md) (bodies := bodies) hD hhs ⟨hextl, hp1, by rw [flatten_cut]; exact hp2⟩ (by rw [flatten_cut, cut_length])
    (fun p hpm => by
      obtain ⟨j, hj⟩ := List.getElem?_of_mem hpm
      have := cut_get hj
      intro h0; rw [h0] at this; simp at this)
    (by rw [flatten_cut]; exact h2) hbl
    (fun j p body hpj hbj => by
      have hc := cut_get hpj
      have hjl : j < (cut md).length := by
        rcases Nat.lt_or_ge j (cut md).length with h' | h'
        · exact h'
        · rw [List.getElem?_eq_none h'] at hpj; cases hpj
      rw [cut_length] at hjl
      have hpne : p ≠ [] := by intro h0; rw [h0] at hc; simp at hc
      have hw := hbodies j p body hpj hbj
      have hl := dataMsg_length (orderB j) (hoB j) j (by omega) md.length (by omega) p hpne _ hw
      simp only [List.length_append] at hl
      have hbl : body.length ≤ 32768 := by omega
      obtain ⟨pre, bd, a1, a2, a3, a4⟩ := C40_roundtrip (orderB j) (hoB j) 1 ExData j md.length p (by decide)
        (by unfold IsInt64 ExData; omega) (by unfold IsInt64; omega) (by unfold IsInt64; omega)
      rw [hw] at a1
      injection a1 with a1
      obtain ⟨b1, b2⟩ := List.append_inj a1 (by rw [a2]; rfl)
      subst b2
      obtain ⟨r, c1, c2, c3, c4, c5, c6⟩ := a4 (by unfold GoString; omega)
      exact ⟨hbl, r, c1, c2, c3, c4, c5⟩)
    (by rw [cut_length]; exact hspare) (by rw [cut_length]; exact hfuel) (by rw [flatten_cut]; exact hsum)
  rwa [flatten_cut] at this

end P2P

import Verif.Model.PeerMsg
import Verif.Props.Bencode
import Verif.Props.Types
/-! # Property theorems C38-C40 (peer wire messages) -/
namespace P2P

/-! ## C38: the BitTorrent handshake -/

/-- the wire format of BEP 3, byte for byte -/
theorem C38_wire_format (peerId infoHash : Bytes) (hp : peerId.length = 20) (hi : infoHash.length = 20) :
    withHandShakeMsg peerId infoHash =
      .ok ([19] ++ b!"BitTorrent protocol" ++ [0, 0, 0, 0, 0, 0x10, 0, 0] ++ infoHash ++ peerId) := by
  simp [withHandShakeMsg, PeerIdLen, InfoHashLen, hp, hi, HandShake.Bytes, supportProtocolName, reservedBytes]

theorem C38_build_panics (peerId infoHash : Bytes) (h : peerId.length ≠ 20 ∨ infoHash.length ≠ 20) :
    withHandShakeMsg peerId infoHash = .panic (.str b!"wrong peerId or infohash") := by
  unfold withHandShakeMsg PeerIdLen InfoHashLen
  rw [if_pos (by omega)]; rfl

/-- A 68-byte message is accepted iff the announced protocol name leaves room for the rest (within the
capacity of the slice); the fields are the consecutive bytes of the message. -/
theorem C38_parse (data tail : Bytes) (c : UInt8) (hl : data.length = 68) (hc : data[0]? = some c) :
    parseHandShakeMsg data tail =
      if c.toNat ≤ 19 + tail.length then
        .ok { protocol := slice (data ++ tail) 1 (1 + c.toNat)
              rBytes := slice (data ++ tail) (1 + c.toNat) (9 + c.toNat)
              infoHash := slice (data ++ tail) (9 + c.toNat) (29 + c.toNat)
              peerId := slice (data ++ tail) (29 + c.toNat) (49 + c.toNat) }
      else .panic .runtime := by
  unfold parseHandShakeMsg
  rw [if_neg (by simp [handShakeLen, hl]), hc]
  simp only [reslice, hl, reservedBytes, InfoHashLen, PeerIdLen, List.length_cons, List.length_nil]
  by_cases h : c.toNat ≤ 19 + tail.length
  · rw [if_pos (by omega), Res.bind_ok, if_pos (by omega), Res.bind_ok, if_pos (by omega), Res.bind_ok,
      if_pos (by omega), Res.bind_ok, if_pos h]
    simp only [Res.pure_eq, Res.ok.injEq, HandShake.mk.injEq]
    refine ⟨trivial, ?_, ?_, ?_⟩ <;> congr 1 <;> omega
  · rw [if_neg h]
    by_cases h1 : 1 + c.toNat ≤ 68 + tail.length
    · rw [if_pos h1, Res.bind_ok]
      by_cases h2 : 1 + c.toNat + (0 + 1 + 1 + 1 + 1 + 1 + 1 + 1 + 1) ≤ 68 + tail.length
      · rw [if_pos h2, Res.bind_ok]
        by_cases h3 : 1 + c.toNat + (0 + 1 + 1 + 1 + 1 + 1 + 1 + 1 + 1) + 20 ≤ 68 + tail.length
        · rw [if_pos h3, Res.bind_ok, if_neg (by omega)]; rfl
        · rw [if_neg h3]; rfl
      · rw [if_neg h2]; rfl
    · rw [if_neg h1]; rfl

/-- the case that occurs in the code (the buffer has capacity 68): accepted iff the first byte is at most 19 -/
theorem C38_parse_iff (data : Bytes) (c : UInt8) (hl : data.length = 68) (hc : data[0]? = some c) :
    ((∃ h, parseHandShakeMsg data [] = .ok h) ↔ c.toNat ≤ 19) ∧
    (parseHandShakeMsg data [] = .panic .runtime ↔ 19 < c.toNat) := by
  rw [C38_parse data [] c hl hc]
  by_cases h : c.toNat ≤ 19
  · simp [h]
  · simp [h]; omega

theorem C38_wrong_length (data tail : Bytes) (h : data.length ≠ 68) :
    parseHandShakeMsg data tail = .panic (.str b!"parseHandShakeMsg wrong data len") := by
  unfold parseHandShakeMsg handShakeLen
  rw [if_pos (Ne.symm h)]; rfl

/-- round trip, whatever lies behind the message in the buffer -/
theorem C38_roundtrip (peerId infoHash tail : Bytes) (hp : peerId.length = 20) (hi : infoHash.length = 20) :
    ∃ b h, withHandShakeMsg peerId infoHash = .ok b ∧ b.length = 68 ∧ parseHandShakeMsg b tail = .ok h ∧
      h.protocol = b!"BitTorrent protocol" ∧ h.SupportExtended = .ok true ∧ h.peerId = peerId ∧ h.infoHash = infoHash := by
  refine ⟨_, { protocol := b!"BitTorrent protocol", rBytes := [0, 0, 0, 0, 0, 0x10, 0, 0], infoHash, peerId },
    C38_wire_format peerId infoHash hp hi, by simp [hp, hi], ?_, ?_⟩
  · rw [C38_parse _ _ 19 (by simp [hp, hi]) (by simp)]
    rw [if_pos (by simp)]
    simp only [Res.ok.injEq, HandShake.mk.injEq]
    refine ⟨by simp [slice], by simp [slice], ?_, ?_⟩
    · simp [slice, hi]
    · have e : (UInt8.toNat 19) = 19 := rfl
      rw [e]
      simp only [slice, List.cons_append, List.nil_append, List.append_assoc]
      rw [show (29 + 19 : Nat) = 28 + 20 from rfl]
      simp only [List.drop_succ_cons, ← List.append_assoc]
      rw [List.append_assoc, List.drop_append_of_le_length (by omega), List.drop_of_length_le (by omega : infoHash.length ≤ 20)]
      simp [hp]
  · exact ⟨rfl, rfl, rfl, rfl⟩

/-- `SupportExtended` is exactly bit 4 of the sixth reserved byte -/
theorem C38_support_extended (data tail : Bytes) (h : HandShake) (hl : data.length = 68)
    (hh : parseHandShakeMsg data tail = .ok h) :
    ∃ c b, data[0]? = some c ∧ (data ++ tail)[6 + c.toNat]? = some b ∧ h.SupportExtended = .ok (b.toNat.testBit 4) := by
  obtain ⟨c, hc⟩ : ∃ c, data[0]? = some c := ⟨data[0], by simp⟩
  rw [C38_parse data tail c hl hc] at hh
  by_cases h1 : c.toNat ≤ 19 + tail.length
  · rw [if_pos h1] at hh
    injection hh with hh
    obtain ⟨b, hb⟩ : ∃ b, (data ++ tail)[6 + c.toNat]? = some b :=
      ⟨(data ++ tail)[6 + c.toNat]'(by simp; omega), by simp⟩
    refine ⟨c, b, hc, hb, ?_⟩
    have : h.rBytes[5]? = some b := by
      rw [← hh, ← hb]
      simp only [slice, List.getElem?_take, List.getElem?_drop]
      rw [if_pos (by omega)]; congr 1; omega
    unfold HandShake.SupportExtended
    rw [this]
    simp only [Res.ok.injEq]
    have key : ∀ b : UInt8, decide (b &&& 0x10 > 0) = b.toNat.testBit 4 := by
      intro b
      have : ∀ n : Fin 256, decide (UInt8.ofNat n.val &&& 0x10 > 0) = (n.val).testBit 4 := by decide +kernel
      have h2 := this ⟨b.toNat, b.toNat_lt⟩
      simpa using h2
    exact key b
  · rw [if_neg h1] at hh; cases hh

example :
    let pid : Bytes := List.replicate 20 7
    let ih : Bytes := List.replicate 20 9
    (∃ b, withHandShakeMsg pid ih = .ok b ∧ b.length = 68 ∧ b.take 4 = [19, 66, 105, 116] ∧
      ∃ h, parseHandShakeMsg b [] = .ok h ∧ h.infoHash = ih ∧ h.peerId = pid) ∧
    (∃ h, parseHandShakeMsg (List.replicate 68 19) [] = .ok h) ∧
    parseHandShakeMsg (List.replicate 68 20) [] = .panic .runtime ∧
    (∃ h, parseHandShakeMsg (List.replicate 68 20) [0] = .ok h) := by
  refine ⟨⟨_, rfl, by decide +kernel, by decide +kernel, _, rfl, by decide +kernel, by decide +kernel⟩, ⟨_, rfl⟩, rfl, ⟨_, rfl⟩⟩

/-! ## C39: the extended handshake -/

/-- every map is iterated in some order (the same entries at every nesting level) -/
def OrderOK (order : Entries → Entries) : Prop :=
  ∀ d, GoVal.WF (.dict d) → Listing (.dict d) (.dict (order d))

/-- the map `e` (nil: empty) extended with `k ↦ v` -/
def extended (e : Option Entries) (k : Bytes) (v : GoVal) : Entries :=
  (k, v) :: (e.getD []).filter (fun kv => kv.1 ≠ k)

theorem lookup_extended (e : Option Entries) (k : Bytes) (v : GoVal) (k' : Bytes) :
    (extended e k v).lookup k' = if k' = k then some v else (e.getD []).lookup k' := by
  unfold extended
  by_cases h : k' = k
  · simp [h]
  · simp only [List.lookup_cons, beq_eq_false_iff_ne.2 h, if_neg h]
    induction e.getD [] with
    | nil => rfl
    | cons kv r ih =>
      obtain ⟨a, b⟩ := kv
      by_cases h1 : a = k
      · subst h1
        simpa [List.lookup_cons, beq_eq_false_iff_ne.2 h] using ih
      · simp only [List.filter_cons, h1, ne_eq, not_false_eq_true, decide_true, if_true, List.lookup_cons, ih]

theorem deepEq_of_lookup {d e : Entries} (h : ∀ k, d.lookup k = e.lookup k) : DeepEq (.dict d) (.dict e) := by
  refine .dict (fun k => by rw [h]) (fun k v w hv hw => ?_)
  rw [h, hw] at hv; cases hv; exact .refl _

theorem deepEq_dict_inv {d : Entries} {v : GoVal} (h : DeepEq (.dict d) v) : ∃ e, v = .dict e := by
  cases h with
  | refl => exact ⟨d, rfl⟩
  | dict _ _ => exact ⟨_, rfl⟩

theorem deepEq_dict_lookup {d e : Entries} (h : DeepEq (.dict d) (.dict e)) (k : Bytes) (v : GoVal)
    (hv : d.lookup k = some v) : ∃ w, e.lookup k = some w ∧ DeepEq v w := by
  cases h with
  | refl => exact ⟨v, hv, .refl _⟩
  | dict hdom h =>
    have := hdom k
    rw [hv] at this
    cases hw : e.lookup k with
    | none => rw [hw] at this; cases this
    | some w => exact ⟨w, rfl, h k v w hv hw⟩

theorem DecodeDict_encoded {w : Entries} {b : Bytes} (hw : GoVal.WF (.dict w)) (hb : EncodeDict (some w) = .ok b)
    (hsz : GoString b) : DecodeDict b = .ok (some w) := by
  obtain ⟨kvs, bs, h1, h2, rfl⟩ := ben_dict_inv (ben_encodeItem _ _ hw hb)
  have h3 := innerDecodeDict_complete (rest := []) hsz h2 (by simp)
  unfold DecodeDict
  rw [if_neg (by simp), if_neg (by simp), h3]
  simp [h1]

theorem dictPut_keys (d : Entries) (k : Bytes) (v : GoVal) (h : (d.map Prod.fst).Nodup) :
    ((dictPut d k v).map Prod.fst).Nodup ∧ ∀ a, a ∈ (dictPut d k v).map Prod.fst → a = k ∨ a ∈ d.map Prod.fst := by
  induction d with
  | nil => simp [dictPut]
  | cons kv r ih =>
    obtain ⟨k', v'⟩ := kv
    simp only [List.map_cons, List.nodup_cons] at h
    obtain ⟨i1, i2⟩ := ih h.2
    unfold dictPut
    by_cases hk : k' = k
    · subst hk
      rw [if_pos rfl]
      refine ⟨by simpa using h, fun a ha => ?_⟩
      right; simpa using ha
    · rw [if_neg hk]
      refine ⟨?_, fun a ha => ?_⟩
      · simp only [List.map_cons, List.nodup_cons]
        refine ⟨fun hm => ?_, i1⟩
        rcases i2 _ hm with h1 | h1
        · exact hk h1
        · exact h.1 h1
      · simp only [List.map_cons, List.mem_cons] at ha
        rcases ha with h1 | h1
        · right; simp [h1]
        · rcases i2 _ h1 with h1 | h1
          · exact .inl h1
          · right; simp only [List.map_cons, List.mem_cons]; exact .inr h1

theorem mem_dictPut {d : Entries} {k : Bytes} {v : GoVal} {kv : Bytes × GoVal} (h : kv ∈ dictPut d k v) :
    kv = (k, v) ∨ kv ∈ d := by
  induction d with
  | nil => simp [dictPut] at h; exact .inl h
  | cons a r ih =>
    obtain ⟨k', v'⟩ := a
    unfold dictPut at h
    by_cases hk : k' = k
    · rw [if_pos hk] at h
      rcases List.mem_cons.1 h with h | h
      · exact .inl h
      · exact .inr (List.mem_cons_of_mem _ h)
    · rw [if_neg hk] at h
      rcases List.mem_cons.1 h with h | h
      · exact .inr (by rw [h]; exact List.mem_cons_self)
      · rcases ih h with h | h
        · exact .inl h
        · exact .inr (List.mem_cons_of_mem _ h)

theorem wf_dictPut {d : Entries} {k : Bytes} {v : GoVal} (hd : GoVal.WF (.dict d)) (hv : v.WF) :
    GoVal.WF (.dict (dictPut d k v)) := by
  refine ⟨(dictPut_keys d k v hd.1).1, wfD_iff.2 fun kv hkv => ?_⟩
  rcases mem_dictPut hkv with h | h
  · rw [h]; exact hv
  · exact wfD_iff.1 hd.2 _ h

theorem encodable_dictPut {d : Entries} {k : Bytes} {v : GoVal} (hd : Encodable (.dict d)) (hv : Encodable v) :
    Encodable (.dict (dictPut d k v)) := by
  refine encD_iff.2 fun kv hkv => ?_
  rcases mem_dictPut hkv with h | h
  · rw [h]; exact hv
  · exact encD_iff.1 hd _ h

theorem beVal_be32 {n : Nat} (h : n < 2 ^ 32) : beVal (be32 n) = n := by
  simp [beVal, be32]
  omega

/-- Round trip and framing: the message is a 4-byte big-endian length followed by that many bytes, and
parsing these yields `e` extended with `"m" ↦ m`. -/
theorem C39_roundtrip (order : Entries → Entries) (ho : OrderOK order) (m : Entries) (e : Option Entries)
    (hm : GoVal.WF (.dict m)) (hme : Encodable (.dict m))
    (he : GoVal.WF (.dict (e.getD []))) (hee : Encodable (.dict (e.getD []))) :
    ∃ pre body, withExtendedhandShake order (some m) e = .ok (pre ++ body) ∧ pre.length = 4 ∧
      (body.length < 2 ^ 32 → beVal pre = body.length) ∧
      (GoString body → ∃ d, parseExtendedHandShake body = .ok d ∧ DeepEq (.dict (extended e b!"m" (.dict m))) (.dict d)) := by
  have hw := wf_dictPut (k := b!"m") he hm
  have hl := ho _ hw
  have henc : Encodable (.dict (order (dictPut (e.getD []) b!"m" (.dict m)))) :=
    encodable_deepEq hl.2 hl.1 (encodable_dictPut hee hme)
  obtain ⟨b, hb⟩ := (encodeItem_ok_iff _).2 henc
  have hb : EncodeDict (some (order (dictPut (e.getD []) b!"m" (.dict m)))) = .ok b := hb
  refine ⟨be32 (b.length + 2), [20, 0] ++ b, ?_, rfl, fun h => ?_, fun h => ?_⟩
  · simp [withExtendedhandShake, exHandShakeBytes, NewBaseExHandShakeMsg, hb, ExtendedPeerMsg, handShakeMsgId]
  · simp at h
    rw [beVal_be32 (by omega)]; simp <;> omega
  · have h' : GoString b := by unfold GoString at *; simp at h; omega
    have hd := DecodeDict_encoded hl.1 hb h'
    have hlm : (dictPut (e.getD []) b!"m" (.dict m)).lookup b!"m" = some (.dict m) := by
      rw [lookup_dictPut]; simp
    obtain ⟨mv, hmv, hmd⟩ := deepEq_dict_lookup hl.2 _ _ hlm
    obtain ⟨m', rfl⟩ := deepEq_dict_inv hmd
    refine ⟨dictPut (order (dictPut (e.getD []) b!"m" (.dict m))) b!"m" (.dict m'), ?_, ?_⟩
    · simp only [parseExtendedHandShake, List.cons_append, List.nil_append, List.getElem?_cons_zero, List.getElem?_cons_succ,
        ExtendedPeerMsg, handShakeMsgId, List.drop_succ_cons, List.drop_zero, hd]
      rw [if_neg (by decide)]
      simp [Dict.GetDict, Dict.GetVal, dictGet, hmv, GoVal.asDict, NewBaseExHandShakeMsg]
    · refine DeepEq.trans (deepEq_of_lookup (e := dictPut (e.getD []) b!"m" (.dict m)) fun k => ?_)
        (DeepEq.trans hl.2 (deepEq_of_lookup fun k => ?_))
      · rw [lookup_extended, lookup_dictPut]
      · rw [lookup_dictPut]
        by_cases hk : k = b!"m"
        · rw [if_pos hk, hk, hmv]
        · rw [if_neg hk]

/-- Exactly the messages `20 0 <bencoded dictionary with a dictionary under "m">` are accepted; everything
else panics. -/
theorem C39_accepts (data : Bytes) (d : Entries) :
    parseExtendedHandShake data = .ok d ↔
      ∃ rest e m, data = [20, 0] ++ rest ∧ DecodeDict rest = .ok (some e) ∧
        (e.lookup b!"m" = some (.dict m) ∧ d = dictPut e b!"m" (.dict m) ∨
         e.lookup b!"m" = some .nilDict ∧ d = dictPut e b!"m" .nilDict) := by
  constructor
  · intro h
    match data with
    | [] => cases h
    | [_] => cases h
    | c0 :: c1 :: rest =>
      simp only [parseExtendedHandShake, List.getElem?_cons_zero, List.getElem?_cons_succ, List.drop_succ_cons,
        List.drop_zero] at h
      by_cases hc : ExtendedPeerMsg ≠ c0.toNat ∨ handShakeMsgId ≠ c1.toNat
      · rw [if_pos hc] at h; cases h
      · rw [if_neg hc] at h
        simp only [not_or, Decidable.not_not, ExtendedPeerMsg, handShakeMsgId] at hc
        have e0 : c0 = 20 := UInt8.toNat_inj.1 hc.1.symm
        have e1 : c1 = 0 := UInt8.toNat_inj.1 hc.2.symm
        cases hd : DecodeDict rest with
        | err _ => rw [hd] at h; cases h
        | panic _ => rw [hd] at h; cases h
        | diverge => rw [hd] at h; cases h
        | ok o =>
          rw [hd] at h
          cases o with
          | none => simp [Dict.GetDict, Dict.GetVal, dictGet] at h
          | some e =>
            simp only [Option.getD_some, Dict.GetDict, Dict.GetVal, dictGet] at h
            cases hl : e.lookup b!"m" with
            | none => rw [hl] at h; cases h
            | some v =>
              rw [hl] at h
              simp only [Res.bind_ok] at h
              cases v with
              | dict m =>
                simp [GoVal.asDict, NewBaseExHandShakeMsg] at h
                exact ⟨rest, e, m, by simp [e0, e1], hd, .inl ⟨hl, h.symm⟩⟩
              | nilDict =>
                simp [GoVal.asDict, NewBaseExHandShakeMsg] at h
                exact ⟨rest, e, [], by simp [e0, e1], hd, .inr ⟨hl, h.symm⟩⟩
              | _ => simp [GoVal.asDict] at h
  · rintro ⟨rest, e, m, rfl, hd, h⟩
    simp only [parseExtendedHandShake, List.cons_append, List.nil_append, List.getElem?_cons_zero, List.getElem?_cons_succ,
        ExtendedPeerMsg, handShakeMsgId, List.drop_succ_cons, List.drop_zero, hd]
    rw [if_neg (by decide)]
    rcases h with ⟨h1, rfl⟩ | ⟨h1, rfl⟩ <;>
      simp [Dict.GetDict, Dict.GetVal, dictGet, h1, GoVal.asDict, NewBaseExHandShakeMsg]

/-- a nil metadata dictionary cannot be sent -/
theorem C39_nil_metadata (order : Entries → Entries) (ho : OrderOK order) (e : Option Entries)
    (he : GoVal.WF (.dict (e.getD []))) (b : Bytes) : withExtendedhandShake order none e ≠ .ok b := by
  intro h
  have hw := wf_dictPut (k := b!"m") (v := .nilDict) he trivial
  have hl := ho _ hw
  unfold withExtendedhandShake exHandShakeBytes NewBaseExHandShakeMsg at h
  simp only at h
  cases hb : EncodeDict (some (order (dictPut (e.getD []) b!"m" .nilDict))) with
  | ok c =>
    have h1 : Encodable (.dict (order (dictPut (e.getD []) b!"m" .nilDict))) := (encodeItem_ok_iff _).1 ⟨c, hb⟩
    have h2 := encodable_deepEq hl.2.symm hw h1
    have h3 : (b!"m", GoVal.nilDict) ∈ dictPut (e.getD []) b!"m" .nilDict := mem_of_lookup (by rw [lookup_dictPut]; simp)
    exact encD_iff.1 h2 _ h3
  | err _ => rw [hb] at h; cases h
  | panic _ => rw [hb] at h; cases h
  | diverge => rw [hb] at h; cases h

theorem encodeEntries_nilDict : ∀ l : Entries, (∀ kv ∈ l, Encodable kv.2 ∨ kv.2 = .nilDict) → (∃ kv ∈ l, kv.2 = .nilDict) →
    encodeEntries l = .err .wrongParam
  | [], _, h => by obtain ⟨_, h, _⟩ := h; cases h
  | (k, v) :: r, ha, h => by
    rcases ha (k, v) (by simp) with hv | hv
    · obtain ⟨c, hc⟩ := (encodeItem_ok_iff v).2 hv
      obtain ⟨kv, h1, h2⟩ := h
      rcases List.mem_cons.1 h1 with rfl | h1
      · simp only at h2; subst h2; exact absurd hc (by simp [encodeItem])
      · have ih := encodeEntries_nilDict r (fun x hx => ha x (by simp [hx])) ⟨kv, h1, h2⟩
        simp [encodeEntries, hc, ih]
    · simp only at hv; subst hv; simp [encodeEntries, encodeItem]

/-- … and the attempt ends with this panic when everything else can be encoded -/
theorem C39_nil_metadata_text (order : Entries → Entries) (ho : OrderOK order) (e : Option Entries)
    (he : GoVal.WF (.dict (e.getD []))) (hee : Encodable (.dict (e.getD []))) :
    withExtendedhandShake order none e = .panic (.str b!"encode extended handshake err") := by
  have hw := wf_dictPut (k := b!"m") (v := .nilDict) he trivial
  have hl := ho _ hw
  have key : encodeEntries (order (dictPut (e.getD []) b!"m" .nilDict)) = .err .wrongParam := by
    refine encodeEntries_nilDict _ (fun kv hkv => ?_) ?_
    · obtain ⟨k, w⟩ := kv
      have h1 := lookup_of_mem hl.1.1 hkv
      obtain ⟨a, h2, h3⟩ := deepEq_dict_lookup hl.2.symm _ _ h1
      rw [lookup_dictPut] at h2
      split at h2
      · cases h2; cases h3; exact Or.inr rfl
      · exact Or.inl (encodable_deepEq h3.symm (wfD_iff.1 hl.1.2 _ hkv) (encD_iff.1 hee _ (mem_of_lookup h2)))
    · obtain ⟨a, h2, h3⟩ := deepEq_dict_lookup hl.2 b!"m" .nilDict (by rw [lookup_dictPut]; simp)
      cases h3
      exact ⟨_, mem_of_lookup h2, rfl⟩
  have : EncodeDict (some (order (dictPut (e.getD []) b!"m" .nilDict))) = .err .wrongParam := by
    show encodeItem (.dict _) = _
    simp only [encodeItem, key]; rfl
  simp [withExtendedhandShake, exHandShakeBytes, NewBaseExHandShakeMsg, this, logPanic]

example :
    let m : Entries := [(b!"ut_metadata", .int 3)]
    let e : Option Entries := some [(b!"metadata_size", .int 77), (b!"m", .int 5)]
    GoVal.WF (.dict m) ∧ Encodable (.dict m) ∧ GoVal.WF (.dict (e.getD [])) ∧ Encodable (.dict (e.getD [])) ∧ OrderOK id ∧
    withExtendedhandShake id (some m) e =
      .ok ([0, 0, 0, 46, 20, 0] ++ b!"d13:metadata_sizei77e1:md11:ut_metadatai3eee") ∧
    parseExtendedHandShake ([20, 0] ++ b!"d13:metadata_sizei77e1:md11:ut_metadatai3eee") =
      .ok [(b!"metadata_size", .int 77), (b!"m", .dict m)] ∧
    parseExtendedHandShake ([20, 0] ++ b!"d1:mde0:e") = .panic (.str b!"decode extended handshake err") ∧
    parseExtendedHandShake ([20, 0] ++ b!"d1:mdeee") = .panic (.biz b!"cannot find m's val") := by
  refine ⟨⟨by decide, by simp [GoVal.WFD, GoVal.WF, IsInt64]⟩, by simp [Encodable, EncodableD],
    ⟨by decide, by simp [GoVal.WFD, GoVal.WF, IsInt64]⟩, by simp [Encodable, EncodableD], fun d h => ⟨h, .refl _⟩,
    by decide +kernel, by decide +kernel, by decide +kernel, by decide +kernel⟩

/-! ## C40: the metadata messages -/

theorem C40_roundtrip (order : Entries → Entries) (ho : OrderOK order) (id t piece total : Int) (data : Bytes)
    (hid : 0 ≤ id ∧ id < 256) (ht : IsInt64 t) (hp : IsInt64 piece) (htot : IsInt64 total) :
    ∃ pre body, withExtendedFetchMetaMsg order id t piece total data = .ok (pre ++ body) ∧ pre.length = 4 ∧
      (body.length < 2 ^ 32 → beVal pre = body.length) ∧
      (GoString body → ∃ r, parseExtendedFetchMetaMsg body = .ok r ∧
        r.msgId = id ∧ r.msgType = t ∧ r.pieceNum = piece ∧ r.data = data ∧ (data ≠ [] → r.totalSize = total)) := by
  have hwf : ∀ x : ExFetchMeta, IsInt64 x.msgType → IsInt64 x.pieceNum → IsInt64 x.totalSize → GoVal.WF (.dict x.dict) := by
    intro x h1 h2 h3
    unfold ExFetchMeta.dict
    split
    · exact ⟨by simp [dictPut], by simp [dictPut, GoVal.WFD, GoVal.WF, h1, h2, h3]⟩
    · exact ⟨by simp, by simp [GoVal.WFD, GoVal.WF, h1, h2]⟩
  have henc : ∀ x : ExFetchMeta, Encodable (.dict x.dict) := by
    intro x
    unfold ExFetchMeta.dict
    split <;> simp [dictPut, Encodable, EncodableD]
  generalize hx : ({ msgId := id, msgType := t, pieceNum := piece, totalSize := total, data := data, dataOff := none } : ExFetchMeta) = x
  have hw : GoVal.WF (.dict x.dict) := by rw [← hx]; exact hwf _ ht hp htot
  have hl := ho _ hw
  obtain ⟨b, hb⟩ := (encodeItem_ok_iff _).2 (encodable_deepEq hl.2 hl.1 (henc x))
  have hb : EncodeDict (some (order x.dict)) = .ok b := hb
  have hdata : x.data = data := by rw [← hx]
  have hif : (if x.data.length > 0 then x.data else []) = data := by
    rw [hdata]
    split
    · rfl
    · exact (List.eq_nil_of_length_eq_zero (by omega)).symm
  refine ⟨be32 (2 + b.length + data.length), [20, UInt8.ofNat (id % 256).toNat] ++ b ++ data, ?_, rfl, fun h => ?_, fun h => ?_⟩
  · simp [withExtendedFetchMetaMsg, ExFetchMeta.Bytes, hx, hb, ExtendedPeerMsg]
  · simp at h
    rw [beVal_be32 (by omega)]; simp <;> omega
  · have hid' : (UInt8.ofNat (id % 256).toNat).toNat = id := by
      simp; omega
    have h' : GoString (b ++ data) := by unfold GoString at *; simp at h ⊢; omega
    have hd := DecodeDictNoLimit_complete h' (ben_encodeItem _ _ hl.1 hb)
    have hlk : ∀ k i, x.dict.lookup k = some (.int i) → Dict.GetInteger (order x.dict) k = .ok i := by
      intro k i hk
      obtain ⟨w, hw1, hw2⟩ := deepEq_dict_lookup hl.2 _ _ hk
      have : w = .int i := by cases hw2; rfl
      simp [Dict.GetInteger, Dict.GetVal, dictGet, hw1, this, GoVal.asInt]
    have ht' : Dict.GetInteger (order x.dict) b!"msg_type" = .ok t := by
      apply hlk; rw [← hx]; unfold ExFetchMeta.dict; split <;> rfl
    have hp' : Dict.GetInteger (order x.dict) b!"piece" = .ok piece := by
      apply hlk; rw [← hx]; unfold ExFetchMeta.dict; split <;> rfl
    have hu : parseExtendedFetchMetaMsg ([20, UInt8.ofNat (id % 256).toNat] ++ b ++ data) =
        (if b.length + 2 ≥ 2 + b.length + data.length then
            .ok { msgId := id, msgType := t, pieceNum := piece, totalSize := 0, data := [], dataOff := none }
         else do
            let totalSize ← Dict.GetInteger (order x.dict) b!"total_size"
            pure { msgId := id, msgType := t, pieceNum := piece, totalSize, data := data, dataOff := some (b.length + 2) }) := by
      simp only [parseExtendedFetchMetaMsg, List.cons_append, List.nil_append, List.getElem?_cons_zero,
        List.getElem?_cons_succ, ExtendedPeerMsg, List.drop_succ_cons, List.drop_zero, hd]
      rw [if_neg (by decide)]
      have e1 : (20 :: UInt8.ofNat (id % 256).toNat :: (b ++ data)).length = 2 + b.length + data.length := by simp; omega
      simp only [e1, ht', hp', Res.bind_ok, Res.pure_eq, hid']
      simp
    rw [hu]
    by_cases hn : data = []
    · rw [if_pos (by simp [hn]; omega)]
      exact ⟨_, rfl, rfl, rfl, rfl, by simp [hn], fun h => absurd hn h⟩
    · have hpos : 0 < data.length := List.length_pos_iff.2 hn
      have htot' : Dict.GetInteger (order x.dict) b!"total_size" = .ok total := by
        apply hlk; rw [← hx]; unfold ExFetchMeta.dict; rw [if_pos hpos]; rfl
      rw [if_neg (by omega), htot']
      exact ⟨_, rfl, rfl, rfl, rfl, rfl, fun _ => rfl⟩

/-- What the parser accepts in general: type 20, any id, a dictionary prefix (possibly truncated at the end of
the message, see `C06`) with integer entries; the payload is everything behind the dictionary. -/
theorem C40_payload_is_rest (data : Bytes) (r : ExFetchMeta) (h : parseExtendedFetchMetaMsg data = .ok r) :
    ∃ id rest d n, data = 20 :: id :: rest ∧ r.msgId = id.toNat ∧ DecodeDictNoLimit rest = .ok (d, n) ∧
      r.data = rest.drop n ∧ d.lookup b!"msg_type" = some (.int r.msgType) ∧ d.lookup b!"piece" = some (.int r.pieceNum) := by
  match data with
  | [] => cases h
  | [c0] =>
    simp only [parseExtendedFetchMetaMsg, List.getElem?_cons_zero] at h
    by_cases hc : ExtendedPeerMsg ≠ c0.toNat
    · rw [if_pos hc] at h; cases h
    · rw [if_neg hc] at h; cases h
  | c0 :: c1 :: rest =>
    simp only [parseExtendedFetchMetaMsg, List.getElem?_cons_zero, List.getElem?_cons_succ, List.drop_succ_cons,
        List.drop_zero] at h
    by_cases hc : ExtendedPeerMsg ≠ c0.toNat
    · rw [if_pos hc] at h; cases h
    · rw [if_neg hc] at h
      simp only [Decidable.not_not, ExtendedPeerMsg, ne_eq] at hc
      have e0 : c0 = 20 := UInt8.toNat_inj.1 hc.symm
      have key : ∀ (d : Entries) (k : Bytes) (i : Int), Dict.GetInteger d k = .ok i → d.lookup k = some (.int i) := by
        intro d k i hk
        unfold Dict.GetInteger Dict.GetVal dictGet at hk
        cases hl : d.lookup k with
        | none => rw [hl] at hk; cases hk
        | some v => rw [hl] at hk; cases v <;> simp [GoVal.asInt] at hk; rw [hk]
      cases hd : DecodeDictNoLimit rest with
      | err _ => rw [hd] at h; cases h
      | panic _ => rw [hd] at h; cases h
      | diverge => rw [hd] at h; cases h
      | ok o =>
        obtain ⟨d, n⟩ := o
        rw [hd] at h
        simp only at h
        refine ⟨c1, rest, d, n, by rw [e0], ?_⟩
        by_cases hn : n + 2 ≥ (c0 :: c1 :: rest).length
        · rw [if_pos hn] at h
          obtain ⟨t, ht, h⟩ := Res.bind_eq_ok.1 h
          obtain ⟨p, hp, h⟩ := Res.bind_eq_ok.1 h
          injection h with h
          subst h
          exact ⟨rfl, hd, by simp at hn; simp [List.drop_of_length_le hn], key _ _ _ ht, key _ _ _ hp⟩
        · rw [if_neg hn] at h
          obtain ⟨tot, _, h⟩ := Res.bind_eq_ok.1 h
          obtain ⟨t, ht, h⟩ := Res.bind_eq_ok.1 h
          obtain ⟨p, hp, h⟩ := Res.bind_eq_ok.1 h
          injection h with h
          subst h
          exact ⟨rfl, hd, rfl, key _ _ _ ht, key _ _ _ hp⟩

example :
    withExtendedFetchMetaMsg (fun d => d.reverse) 1 ExData 0 9 b!"d4:name1:e" =
      .ok ([0, 0, 0, 53, 20, 1] ++ b!"d10:total_sizei9e5:piecei0e8:msg_typei1ee" ++ b!"d4:name1:e") ∧
    (∃ r, parseExtendedFetchMetaMsg ([20, 1] ++ b!"d10:total_sizei9e5:piecei0e8:msg_typei1ee" ++ b!"d4:name1:e") = .ok r ∧
      r.data = b!"d4:name1:e" ∧ r.totalSize = 9) ∧
    withExtendedFetchMetaMsg id 1 ExRequest 7 0 [] = .ok ([0, 0, 0, 27, 20, 1] ++ b!"d8:msg_typei0e5:piecei7ee") := by
  refine ⟨by decide +kernel, ⟨{ msgId := 1, msgType := 1, pieceNum := 0, totalSize := 9, data := b!"d4:name1:e", dataOff := some 43 },
    by decide +kernel, by decide +kernel, by decide +kernel⟩, by decide +kernel⟩

end P2P

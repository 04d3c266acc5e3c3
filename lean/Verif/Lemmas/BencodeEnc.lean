import Verif.Lemmas.BencodeDec
/-! Encoder lemmas: success, listings of maps, encoder output is in the grammar. -/
namespace P2P

/-! ### maps -/

theorem lookup_dictPut (d : Entries) (k k' : Bytes) (v : GoVal) :
    (dictPut d k v).lookup k' = if k' = k then some v else d.lookup k' := by
  induction d with
  | nil =>
    simp only [dictPut, List.lookup]
    by_cases h : k' = k
    · simp [h]
    · simp [h, beq_eq_false_iff_ne.2 h]
  | cons e r ih =>
    obtain ⟨j, w⟩ := e
    unfold dictPut
    by_cases h1 : j = k
    · subst h1
      simp only [if_true, List.lookup]
      by_cases h : k' = j
      · simp [h]
      · simp [h, beq_eq_false_iff_ne.2 h]
    · simp only [h1, if_false, List.lookup, ih]
      by_cases h : k' = j
      · subst h; simp [h1]
      · simp [h, beq_eq_false_iff_ne.2 h]

theorem dictPut_not_mem {d : Entries} {k : Bytes} {v : GoVal} (h : k ∉ d.map Prod.fst) :
    dictPut d k v = d ++ [(k, v)] := by
  induction d with
  | nil => rfl
  | cons e r ih =>
    obtain ⟨j, w⟩ := e
    simp only [List.map_cons, List.mem_cons, not_or] at h
    simp only [dictPut, ih h.2, Ne.symm h.1, if_false, List.cons_append]

theorem foldl_dictPut_nodup (kvs acc : Entries) (h : ((acc ++ kvs).map Prod.fst).Nodup) :
    kvs.foldl (fun d kv => dictPut d kv.1 kv.2) acc = acc ++ kvs := by
  induction kvs generalizing acc with
  | nil => simp
  | cons e r ih =>
    obtain ⟨k, v⟩ := e
    have h1 : k ∉ acc.map Prod.fst := by
      simp only [List.map_append, List.map_cons] at h
      have := (List.nodup_append.1 h).2.2
      intro hk
      exact this k hk k (by simp) rfl
    simp only [List.foldl_cons, dictPut_not_mem h1]
    rw [ih]
    · simp
    · simpa using h

theorem mapOf_nodup {d : Entries} (h : (d.map Prod.fst).Nodup) : mapOf d = d := by
  have := foldl_dictPut_nodup d [] (by simpa using h)
  simpa [mapOf] using this

/-- In a sequence of entries the last binding of a key wins. -/
theorem lookup_mapOf (kvs : Entries) (k : Bytes) : (mapOf kvs).lookup k = kvs.reverse.lookup k := by
  have gen : ∀ acc : Entries, (kvs.foldl (fun d kv => dictPut d kv.1 kv.2) acc).lookup k
      = (kvs.reverse.lookup k).or (acc.lookup k) := by
    induction kvs with
    | nil => intro acc; simp
    | cons e r ih =>
      intro acc
      obtain ⟨j, w⟩ := e
      simp only [List.foldl_cons, ih, lookup_dictPut, List.reverse_cons, List.lookup_append]
      by_cases h : k = j
      · subst h; simp [List.lookup]
      · simp [h, List.lookup, beq_eq_false_iff_ne.2 h]
  simpa [mapOf] using gen []

theorem lookup_of_mem {d : Entries} (hn : (d.map Prod.fst).Nodup) {k : Bytes} {v : GoVal}
    (h : (k, v) ∈ d) : d.lookup k = some v := by
  induction d with
  | nil => simp at h
  | cons e r ih =>
    obtain ⟨j, w⟩ := e
    simp only [List.map_cons, List.nodup_cons] at hn
    rcases List.mem_cons.1 h with h1 | h1
    · cases h1; simp [List.lookup]
    · have hj : k ≠ j := by
        rintro rfl
        exact hn.1 (List.mem_map.2 ⟨(k, v), h1, rfl⟩)
      simp [List.lookup, beq_eq_false_iff_ne.2 hj, ih hn.2 h1]

theorem mem_of_lookup {d : Entries} {k : Bytes} {v : GoVal} (h : d.lookup k = some v) : (k, v) ∈ d := by
  induction d with
  | nil => simp at h
  | cons e r ih =>
    obtain ⟨j, w⟩ := e
    simp only [List.lookup] at h
    split at h
    · rename_i hj
      have : k = j := by simpa using hj
      cases h; simp [this]
    · exact List.mem_cons_of_mem _ (ih h)

/-! ### reading `WF`, `Encodable` elementwise -/

theorem wfL_iff {l : List GoVal} : GoVal.WFL l ↔ ∀ v ∈ l, v.WF := by
  induction l with
  | nil => simp [GoVal.WFL]
  | cons a r ih => simp [GoVal.WFL, ih]

theorem wfD_iff {d : Entries} : GoVal.WFD d ↔ ∀ kv ∈ d, kv.2.WF := by
  induction d with
  | nil => simp [GoVal.WFD]
  | cons a r ih => obtain ⟨k, v⟩ := a; simp [GoVal.WFD, ih]

theorem encL_iff {l : List GoVal} : EncodableL l ↔ ∀ v ∈ l, Encodable v := by
  induction l with
  | nil => simp [EncodableL]
  | cons a r ih => simp [EncodableL, ih]

theorem encD_iff {d : Entries} : EncodableD d ↔ ∀ kv ∈ d, Encodable kv.2 := by
  induction d with
  | nil => simp [EncodableD]
  | cons a r ih => obtain ⟨k, v⟩ := a; simp [EncodableD, ih]

/-! ### `DeepEq` is an equivalence -/

theorem DeepEq.symm {v w : GoVal} (h : DeepEq v w) : DeepEq w v := by
  induction h with
  | refl v => exact .refl v
  | list hlen _ ih => exact .list hlen.symm (fun i a b ha hb => ih i b a hb ha)
  | dict hdom _ ih => exact .dict (fun k => (hdom k).symm) (fun k a b ha hb => ih k b a hb ha)

theorem DeepEq.trans {u v w : GoVal} (h : DeepEq u v) (h' : DeepEq v w) : DeepEq u w := by
  induction h generalizing w with
  | refl v => exact h'
  | list hlen hl ih =>
    rename_i l m
    cases h' with
    | refl => exact .list hlen hl
    | list hlen' hl' =>
      rename_i n
      refine .list (hlen.trans hlen') (fun i a c ha hc => ?_)
      have hi : i < m.length := by
        rw [← hlen]; exact (List.getElem?_eq_some_iff.1 ha).1
      exact ih i a m[i] ha (List.getElem?_eq_getElem hi) (hl' i _ c (List.getElem?_eq_getElem hi) hc)
  | dict hdom hd ih =>
    rename_i d e
    cases h' with
    | refl => exact .dict hdom hd
    | dict hdom' hd' =>
      rename_i g
      refine .dict (fun k => (hdom k).trans (hdom' k)) (fun k a c ha hc => ?_)
      have hk := hdom k
      rw [ha] at hk
      cases hek : List.lookup k e with
      | none => rw [hek] at hk; cases hk
      | some b => exact ih k a b ha hek (hd' k b c hek hc)

theorem encodable_deepEq {v w : GoVal} (h : DeepEq v w) (hw : w.WF) (hv : Encodable v) : Encodable w := by
  induction h with
  | refl v => exact hv
  | list hlen hl0 ih =>
    rename_i l m
    have hv := encL_iff.1 hv
    refine encL_iff.2 (fun b hb => ?_)
    obtain ⟨i, hi, rfl⟩ := List.mem_iff_getElem.1 hb
    have hi' : i < l.length := by omega
    exact ih i l[i] m[i] (List.getElem?_eq_getElem hi') (List.getElem?_eq_getElem hi)
      (wfL_iff.1 hw _ (List.getElem_mem hi)) (hv _ (List.getElem_mem hi'))
  | dict hdom hd0 ih =>
    rename_i d e
    have hv := encD_iff.1 hv
    refine encD_iff.2 (fun kv hkv => ?_)
    obtain ⟨k, b⟩ := kv
    have he := lookup_of_mem hw.1 hkv
    have hk := hdom k
    rw [he] at hk
    cases hdk : List.lookup k d with
    | none => rw [hdk] at hk; cases hk
    | some a =>
      exact ih k a b hdk he (wfD_iff.1 hw.2 _ hkv) (hv _ (mem_of_lookup hdk))

/-! ### encoder -/

mutual
theorem encodeItem_ok_iff : ∀ v : GoVal, (∃ b, encodeItem v = .ok b) ↔ Encodable v
  | .int i => by simp [encodeItem, Encodable]
  | .str s => by simp [encodeItem, Encodable]
  | .list l => by
    rw [Encodable, ← encodeElems_ok_iff l]
    simp only [encodeItem]
    cases encodeElems l <;> simp
  | .dict d => by
    rw [Encodable, ← encodeEntries_ok_iff d]
    simp only [encodeItem]
    cases encodeEntries d <;> simp
  | .nilList => by simp [encodeItem, Encodable]
  | .nilDict => by simp [encodeItem, Encodable]
  | .nil => by simp [encodeItem, Encodable]
  | .namedInt _ => by simp [encodeItem, Encodable]
  | .namedStr _ => by simp [encodeItem, Encodable]
  | .otherSlice => by simp [encodeItem, Encodable]
  | .otherMap => by simp [encodeItem, Encodable]
  | .other => by simp [encodeItem, Encodable]
theorem encodeElems_ok_iff : ∀ l : List GoVal, (∃ b, encodeElems l = .ok b) ↔ EncodableL l
  | [] => by simp [encodeElems, EncodableL]
  | v :: r => by
    rw [EncodableL, ← encodeItem_ok_iff v, ← encodeElems_ok_iff r]
    simp only [encodeElems]
    cases encodeItem v <;> simp
    cases encodeElems r <;> simp
theorem encodeEntries_ok_iff : ∀ d : List (Bytes × GoVal), (∃ b, encodeEntries d = .ok b) ↔ EncodableD d
  | [] => by simp [encodeEntries, EncodableD]
  | (k, v) :: r => by
    rw [EncodableD, ← encodeItem_ok_iff v, ← encodeEntries_ok_iff r]
    simp only [encodeEntries]
    cases encodeItem v <;> simp
    cases encodeEntries r <;> simp
end

theorem intBody_itoa {i : Int} (h : IsInt64 i) : IntBody (itoa i) i := by
  unfold IsInt64 at h
  cases i with
  | ofNat n =>
    have h1 := IntBody.pos (natDec n) (digits_iff.2 ⟨natDec_ne_nil n, natDec_all n⟩)
      (fun h0 => by have := natDec_head n h0; subst this; rfl)
      (by rw [decVal_natDec]; simp only [Int.ofNat_eq_natCast] at h; omega)
    rw [decVal_natDec] at h1
    exact h1
  | negSucc n =>
    have h1 := IntBody.minus (natDec (n + 1)) (digits_iff.2 ⟨natDec_ne_nil _, natDec_all _⟩)
      (fun h0 => by have := natDec_head _ h0; omega)
      (by rw [decVal_natDec]; omega)
    rw [decVal_natDec] at h1
    have : (-((n + 1 : Nat) : Int)) = Int.negSucc n := by omega
    rw [this] at h1
    exact h1

theorem ben_encodeInteger {i : Int} (h : IsInt64 i) : Ben (.item (.int i)) (EncodeInteger i) :=
  .int (intBody_itoa h)

theorem ben_encodeString (s : Bytes) : Ben (.item (.str s)) (EncodeString s) :=
  .str (digits_iff.2 ⟨natDec_ne_nil _, natDec_all _⟩) (decVal_natDec _)

mutual
theorem ben_encodeItem : ∀ (v : GoVal) (b : Bytes), v.WF → encodeItem v = .ok b → Ben (.item v) b
  | .int i, b, hw, h => by cases h; exact ben_encodeInteger hw
  | .str s, b, hw, h => by cases h; exact ben_encodeString s
  | .list l, b, hw, h => by
    simp only [encodeItem] at h
    obtain ⟨r, h1, h2⟩ := Res.bind_eq_ok.1 h
    cases h2
    exact .list (ben_encodeElems l r hw h1)
  | .dict d, b, hw, h => by
    simp only [encodeItem] at h
    obtain ⟨r, h1, h2⟩ := Res.bind_eq_ok.1 h
    cases h2
    have := Ben.dict (ben_encodeEntries d r hw.2 h1)
    rw [mapOf_nodup hw.1] at this
    exact this
  | .nilList, b, _, h => by simp [encodeItem] at h
  | .nilDict, b, _, h => by simp [encodeItem] at h
  | .nil, b, _, h => by simp [encodeItem] at h
  | .namedInt _, b, _, h => by simp [encodeItem] at h
  | .namedStr _, b, _, h => by simp [encodeItem] at h
  | .otherSlice, b, _, h => by simp [encodeItem] at h
  | .otherMap, b, _, h => by simp [encodeItem] at h
  | .other, b, _, h => by simp [encodeItem] at h
theorem ben_encodeElems : ∀ (l : List GoVal) (b : Bytes), GoVal.WFL l → encodeElems l = .ok b →
    Ben (.items l) b
  | [], b, _, h => by cases h; exact .nil
  | v :: r, b, hw, h => by
    simp only [encodeElems] at h
    obtain ⟨t, h1, h2⟩ := Res.bind_eq_ok.1 h
    obtain ⟨s, h3, h4⟩ := Res.bind_eq_ok.1 h2
    cases h4
    exact .cons (ben_encodeItem v t hw.1 h1) (ben_encodeElems r s hw.2 h3)
theorem ben_encodeEntries : ∀ (d : List (Bytes × GoVal)) (b : Bytes), GoVal.WFD d →
    encodeEntries d = .ok b → Ben (.entries d) b
  | [], b, _, h => by cases h; exact .enil
  | (k, v) :: r, b, hw, h => by
    simp only [encodeEntries] at h
    obtain ⟨t, h1, h2⟩ := Res.bind_eq_ok.1 h
    obtain ⟨s, h3, h4⟩ := Res.bind_eq_ok.1 h2
    cases h4
    exact .econs (ben_encodeString k) (ben_encodeItem v t hw.1 h1) (ben_encodeEntries r s hw.2 h3)
end

/-! ### top-level decoders on grammar inputs -/

theorem innerDecodeDict_complete {src p rest : Bytes} {kvs : Entries} (hsz : src.length < 2 ^ 63)
    (hb : Ben (.entries kvs) p) (hs : src = b!"d" ++ p ++ b!"e" ++ rest) :
    innerDecodeDict src 0 = .ok (mapOf kvs, p.length + 2) := by
  have hd : src.drop 0 = 100 :: (p ++ 101 :: rest) := by simp [hs]
  obtain ⟨hc, ht, _⟩ := drop_cons hd
  obtain ⟨f', hf', this⟩ := decodesAt_of_ben hsz hb (0 + 1) (101 :: rest) (decodeBudget src) [] ht
    (Or.inl (by simp)) (by simp [decodeBudget, hs]; omega)
  rw [dictLoop_stop (by simp [decodeBudget, hs] at hf'; omega) (Or.inl (drop_cons (drop_append ht)).1)] at this
  simp only [innerDecodeDict, hc, this, Res.bind_ok, Res.pure_eq, mapOf]
  simp; omega

theorem innerDecodeSlice_complete {src p rest : Bytes} {l : List GoVal} (hsz : src.length < 2 ^ 63)
    (hb : Ben (.items l) p) (hs : src = b!"l" ++ p ++ b!"e" ++ rest) :
    innerDecodeSlice src 0 = .ok (l, p.length + 2) := by
  have hd : src.drop 0 = 108 :: (p ++ 101 :: rest) := by simp [hs]
  obtain ⟨hc, ht, _⟩ := drop_cons hd
  obtain ⟨f', hf', this⟩ := decodesAt_of_ben hsz hb (0 + 1) (101 :: rest) (decodeBudget src) [] ht
    (Or.inl (by simp)) (by simp [decodeBudget, hs]; omega)
  rw [sliceLoop_stop (by simp [decodeBudget, hs] at hf'; omega) (Or.inl (drop_cons (drop_append ht)).1)] at this
  simp only [innerDecodeSlice, hc, this, Res.bind_ok, Res.pure_eq]
  simp; omega

theorem ben_dict_inv {d : Entries} {p : Bytes} (h : Ben (.item (.dict d)) p) :
    ∃ kvs bs, d = mapOf kvs ∧ Ben (.entries kvs) bs ∧ p = b!"d" ++ bs ++ b!"e" := by
  cases h with
  | dict hb => exact ⟨_, _, rfl, hb, rfl⟩

theorem ben_list_inv {l : List GoVal} {p : Bytes} (h : Ben (.item (.list l)) p) :
    ∃ bs, Ben (.items l) bs ∧ p = b!"l" ++ bs ++ b!"e" := by
  cases h with
  | list hb => exact ⟨_, hb, rfl⟩

theorem DecodeDictNoLimit_complete {p rest : Bytes} {d : Entries} (hsz : (p ++ rest).length < 2 ^ 63)
    (hb : Bencodes (.dict d) p) : DecodeDictNoLimit (p ++ rest) = .ok (d, p.length) := by
  obtain ⟨kvs, bs, rfl, hb', rfl⟩ := ben_dict_inv hb
  unfold DecodeDictNoLimit
  rw [if_neg (by simp; omega), if_neg (by simp), innerDecodeDict_complete hsz hb' rfl]
  simp

/-- The recursive decoder on the whole input agrees with the top-level dictionary decoder. -/
theorem decodeItem_dict {src : Bytes} (hc : src[0]? = some 100) :
    decodeItem (decodeBudget src + 1) src 0 = (innerDecodeDict src 0 >>= fun x => .ok (.dict x.1, x.2)) := by
  simp only [decodeItem, innerDecodeDict, hc]
  simp only [show ((100 : UInt8) = 105) = False by simp, show ((100 : UInt8) = 108) = False by simp,
    if_false, if_true, ne_eq, not_true]
  cases dictLoop (decodeBudget src) src (0 + 1) [] <;> simp

theorem decodeItem_list {src : Bytes} (hc : src[0]? = some 108) :
    decodeItem (decodeBudget src + 1) src 0 = (innerDecodeSlice src 0 >>= fun x => .ok (.list x.1, x.2)) := by
  simp only [decodeItem, innerDecodeSlice, hc]
  simp only [show ((108 : UInt8) = 105) = False by simp, if_false, if_true, ne_eq, not_true]
  cases sliceLoop (decodeBudget src) src (0 + 1) [] <;> simp

theorem innerDecodeDict_sound {src : Bytes} (hsz : src.length < 2 ^ 63) {d : Entries} {n : Nat}
    (h : innerDecodeDict src 0 = .ok (d, n)) :
    src[0]? = some 100 ∧ Bencodes (.dict d) (seg src 0 n) ∧
      (src.length < n → TruncatedBy (.dict d) (n - src.length) src) := by
  have hc : src[0]? = some 100 := by
    unfold innerDecodeDict at h
    split at h
    · cases h
    · rename_i c hc
      split at h
      · cases h
      · rename_i h'; simp only [ne_eq, Decidable.not_not] at h'; rw [hc, h']
  have h1 := decodeItem_dict hc
  rw [h] at h1
  refine ⟨hc, ((decode_sound hsz _).1 _ _ _ h1).2, fun hn => ?_⟩
  simpa using (truncated_sound hsz _).1 _ _ _ h1 hn

theorem innerDecodeSlice_sound {src : Bytes} (hsz : src.length < 2 ^ 63) {l : List GoVal} {n : Nat}
    (h : innerDecodeSlice src 0 = .ok (l, n)) :
    src[0]? = some 108 ∧ Bencodes (.list l) (seg src 0 n) := by
  have hc : src[0]? = some 108 := by
    unfold innerDecodeSlice at h
    split at h
    · cases h
    · rename_i c hc
      split at h
      · cases h
      · rename_i h'; simp only [ne_eq, Decidable.not_not] at h'; rw [hc, h']
  have h1 := decodeItem_list hc
  rw [h] at h1
  exact ⟨hc, ((decode_sound hsz _).1 _ _ _ h1).2⟩

theorem seg_take (src : Bytes) {n : Nat} (h : n ≤ src.length) : seg src 0 n = src.take n := by
  rw [seg_eq_slice src h]; simp [slice]

theorem innerDecodeDict_truncated {src : Bytes} (hsz : src.length < 2 ^ 63) {d : Entries} {k : Nat}
    (h : TruncatedBy (.dict d) k src) : innerDecodeDict src 0 = .ok (d, src.length + k) := by
  have hne : 0 < src.length := by obtain ⟨c, t, rfl, _⟩ := truncatedBy_head h; simp
  have hc : src[0]? = some 100 := by cases h <;> simp
  have h1 := decodes_truncated hsz h 0 (decodeBudget src + 1) (by simp) (by simp [decodeBudget]; omega) hne
  rw [decodeItem_dict hc] at h1
  obtain ⟨⟨x, m⟩, h2, h3⟩ := Res.bind_eq_ok.1 h1
  cases h3
  exact h2

end P2P

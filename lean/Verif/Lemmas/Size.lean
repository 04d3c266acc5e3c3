import Verif.Lemmas.BencodeEnc
import Verif.Lemmas.BencodeDec
/-! # Sizes of encoded values, and how much input a decoded value took -/
namespace P2P

theorem natDec_length_le {n m : Nat} (hm : 1 ≤ m) (h : n < 10 ^ m) : (natDec n).length ≤ m := by
  have key : ∀ f n m, n < f → 1 ≤ m → n < 10 ^ m → (natDecAux f n).length ≤ m := by
    intro f
    induction f with
    | zero => intros; omega
    | succ f ih =>
      intro n m hf hm hn
      unfold natDecAux
      split
      · simpa using hm
      · rename_i h10
        obtain ⟨m, rfl⟩ : ∃ k, m = k + 1 := ⟨m - 1, by omega⟩
        have hm0 : 1 ≤ m := by
          rcases Nat.eq_zero_or_pos m with rfl | h
          · simp at hn; omega
          · exact h
        have h2 : n / 10 < 10 ^ m := by rw [Nat.pow_succ] at hn; omega
        have := ih (n / 10) m (by omega) hm0 h2
        simp; omega
  exact key (n + 1) n m (by omega) hm h

/-- the decimal text of a number is its shortest notation -/
theorem natDec_shortest {ds : Bytes} (h : Digits ds) : (natDec (decVal ds)).length ≤ ds.length := by
  refine natDec_length_le ?_ (decVal_lt ds (digits_iff.1 h).2)
  rcases ds with _ | ⟨c, r⟩
  · exact absurd rfl h.1
  · simp

theorem encodeString_length (s : Bytes) : (EncodeString s).length = (natDec s.length).length + 1 + s.length := by
  simp [EncodeString]; omega

mutual
/-- length of an encoding -/
def GoVal.size : GoVal → Nat
  | .int i => (EncodeInteger i).length
  | .str s => (EncodeString s).length
  | .list l => 2 + GoVal.sizeL l
  | .dict d => 2 + GoVal.sizeD d
  | _ => 0
def GoVal.sizeL : List GoVal → Nat
  | [] => 0
  | v :: r => v.size + GoVal.sizeL r
def GoVal.sizeD : List (Bytes × GoVal) → Nat
  | [] => 0
  | (k, v) :: r => (EncodeString k).length + v.size + GoVal.sizeD r
end

mutual
theorem encodeItem_size : ∀ (v : GoVal) (b : Bytes), encodeItem v = .ok b → b.length = v.size
  | .int i, b, h => by cases h; rfl
  | .str s, b, h => by cases h; rfl
  | .list l, b, h => by
    simp only [encodeItem] at h
    obtain ⟨r, h1, h2⟩ := Res.bind_eq_ok.1 h
    cases h2
    have := encodeElems_size l r h1
    simp [GoVal.size]; omega
  | .dict d, b, h => by
    simp only [encodeItem] at h
    obtain ⟨r, h1, h2⟩ := Res.bind_eq_ok.1 h
    cases h2
    have := encodeEntries_size d r h1
    simp [GoVal.size]; omega
  | .nilList, b, h => by cases h
  | .nilDict, b, h => by cases h
  | .nil, b, h => by cases h
  | .namedInt _, b, h => by cases h
  | .namedStr _, b, h => by cases h
  | .otherSlice, b, h => by cases h
  | .otherMap, b, h => by cases h
  | .other, b, h => by cases h
theorem encodeElems_size : ∀ (l : List GoVal) (b : Bytes), encodeElems l = .ok b → b.length = GoVal.sizeL l
  | [], b, h => by cases h; rfl
  | v :: r, b, h => by
    simp only [encodeElems] at h
    obtain ⟨t, h1, h2⟩ := Res.bind_eq_ok.1 h
    obtain ⟨s, h3, h4⟩ := Res.bind_eq_ok.1 h2
    cases h4
    have := encodeItem_size v t h1
    have := encodeElems_size r s h3
    simp [GoVal.sizeL]; omega
theorem encodeEntries_size : ∀ (d : List (Bytes × GoVal)) (b : Bytes), encodeEntries d = .ok b → b.length = GoVal.sizeD d
  | [], b, h => by cases h; rfl
  | (k, v) :: r, b, h => by
    simp only [encodeEntries] at h
    obtain ⟨t, h1, h2⟩ := Res.bind_eq_ok.1 h
    obtain ⟨s, h3, h4⟩ := Res.bind_eq_ok.1 h2
    cases h4
    have := encodeItem_size v t h1
    have := encodeEntries_size r s h3
    simp [GoVal.sizeD]; omega
end

theorem sizeD_eq (d : Entries) : GoVal.sizeD d = (d.map fun kv => (EncodeString kv.1).length + kv.2.size).sum := by
  induction d with
  | nil => rfl
  | cons kv r ih => obtain ⟨k, v⟩ := kv; simp [GoVal.sizeD, ih]

theorem perm_sum {l m : List Nat} (h : l.Perm m) : l.sum = m.sum := by
  induction h with
  | nil => rfl
  | cons x _ ih => simp [ih]
  | swap x y l => simp; omega
  | trans _ _ h1 h2 => exact h1.trans h2

theorem lookup_isSome_iff (d : Entries) (k : Bytes) : (d.lookup k).isSome = true ↔ k ∈ d.map Prod.fst := by
  constructor
  · intro h
    obtain ⟨v, hv⟩ := Option.isSome_iff_exists.1 h
    exact List.mem_map.2 ⟨_, mem_of_lookup hv, rfl⟩
  · intro h
    induction d with
    | nil => cases h
    | cons kv r ih =>
      obtain ⟨k', v⟩ := kv
      simp only [List.lookup_cons]
      by_cases hk : k = k'
      · subst hk; simp
      · have : (k == k') = false := by simpa using hk
        rw [this]
        simp only [List.map_cons, List.mem_cons] at h
        rcases h with h | h
        · exact absurd h hk
        · exact ih h

/-- all listings of a value have encodings of the same length -/
theorem size_deepEq {v w : GoVal} (h : DeepEq v w) (hv : v.WF) (hw : w.WF) : v.size = w.size := by
  induction h with
  | refl => rfl
  | @list l m hlen _ ih =>
    simp only [GoVal.size]
    congr 1
    simp only [GoVal.WF] at hv hw
    rename_i hx
    clear hx
    induction l generalizing m with
    | nil => cases m with
      | nil => rfl
      | cons => simp at hlen
    | cons a l ihl => cases m with
      | nil => simp at hlen
      | cons b m =>
        simp only [GoVal.sizeL]
        rw [ih 0 a b (by simp) (by simp) hv.1 hw.1]
        congr 1
        exact ihl (by simpa using hlen) (fun i v w h1 h2 => ih (i + 1) v w (by simpa using h1) (by simpa using h2)) hv.2 hw.2
  | @dict d e hdom _ ih =>
    simp only [GoVal.size]
    congr 1
    obtain ⟨nd, wd⟩ := hv
    obtain ⟨ne, we⟩ := hw
    rw [wfD_iff] at wd we
    have hperm : (d.map Prod.fst).Perm (e.map Prod.fst) := by
      rw [List.perm_ext_iff_of_nodup nd ne]
      intro k
      rw [← lookup_isSome_iff, ← lookup_isSome_iff, hdom k]
    let g : Bytes → Nat := fun k => match d.lookup k with
      | some v => (EncodeString k).length + v.size
      | none => 0
    have h1 : GoVal.sizeD d = ((d.map Prod.fst).map g).sum := by
      rw [sizeD_eq, List.map_map]
      congr 1
      apply List.map_congr_left
      intro kv hkv
      simp only [Function.comp, g, lookup_of_mem nd (show (kv.1, kv.2) ∈ d from hkv)]
    have h2 : GoVal.sizeD e = ((e.map Prod.fst).map g).sum := by
      rw [sizeD_eq, List.map_map]
      congr 1
      apply List.map_congr_left
      intro kv hkv
      have hl := lookup_of_mem ne (show (kv.1, kv.2) ∈ e from hkv)
      have hs := hdom kv.1
      rw [hl] at hs
      obtain ⟨v, hv⟩ := Option.isSome_iff_exists.1 hs
      simp only [Function.comp, g, hv]
      rw [ih kv.1 v kv.2 hv hl (wd _ (mem_of_lookup hv)) (we _ hkv)]
    rw [h1, h2]
    exact perm_sum (hperm.map g)

/-- the length of an encoding depends on the value only -/
theorem EncodingOf.length {v : GoVal} {b : Bytes} (h : EncodingOf v b) (hv : v.WF) : b.length = v.size := by
  obtain ⟨w, hw, hd, he⟩ := h
  rw [encodeItem_size w b he, size_deepEq hd hv hw]

/-! ## Input taken by decoded values -/

mutual
/-- input bytes a decoded value takes at least (closing `e`s may be missing, integers are not counted) -/
def GoVal.weight : GoVal → Nat
  | .str s => (EncodeString s).length
  | .list l => 1 + GoVal.weightL l
  | .dict d => 1 + GoVal.weightD d
  | _ => 0
def GoVal.weightL : List GoVal → Nat
  | [] => 0
  | v :: r => v.weight + GoVal.weightL r
def GoVal.weightD : List (Bytes × GoVal) → Nat
  | [] => 0
  | (k, v) :: r => (EncodeString k).length + v.weight + GoVal.weightD r
end

theorem weightL_snoc (l : List GoVal) (v : GoVal) : GoVal.weightL (l ++ [v]) = GoVal.weightL l + v.weight := by
  induction l with
  | nil => simp [GoVal.weightL]
  | cons a l ih => simp [GoVal.weightL, ih]; omega

theorem weightD_put (d : Entries) (k : Bytes) (v : GoVal) :
    GoVal.weightD (dictPut d k v) ≤ GoVal.weightD d + (EncodeString k).length + v.weight := by
  induction d with
  | nil => simp [dictPut, GoVal.weightD]
  | cons kv r ih =>
    obtain ⟨k', v'⟩ := kv
    simp only [dictPut]
    split
    · rename_i h; subst h; simp [GoVal.weightD]; omega
    · simp [GoVal.weightD]; omega

theorem decode_weight {src : Bytes} (hsz : src.length < 2 ^ 63) (f : Nat) :
    (∀ i v n, decodeItem f src i = .ok (v, n) → min i src.length + v.weight ≤ min n src.length) ∧
    (∀ i acc l j, sliceLoop f src i acc = .ok (l, j) →
      min i src.length + GoVal.weightL l ≤ min j src.length + GoVal.weightL acc) ∧
    (∀ i acc d j, dictLoop f src i acc = .ok (d, j) →
      min i src.length + GoVal.weightD d ≤ min j src.length + GoVal.weightD acc) := by
  induction f with
  | zero =>
    refine ⟨?_, ?_, ?_⟩
    · intro i v n h; simp [decodeItem] at h
    · intro i acc l j h; simp [sliceLoop] at h
    · intro i acc l j h; simp [dictLoop] at h
  | succ f ih =>
    obtain ⟨ihI, ihL, ihD⟩ := ih
    refine ⟨?_, ?_, ?_⟩
    · intro i v n h
      have hp := (decode_progress (f + 1)).1 i v n h
      unfold decodeItem at h
      split at h
      · cases h
      · rename_i c hc
        have hi := (List.getElem?_eq_some_iff.1 hc).1
        split at h
        · obtain ⟨⟨x, m⟩, h1, h2⟩ := Res.bind_eq_ok.1 h
          cases h2
          simp [GoVal.weight]; omega
        · split at h
          · obtain ⟨⟨x, m⟩, h1, h2⟩ := Res.bind_eq_ok.1 h
            cases h2
            have := ihL _ _ _ _ h1
            simp only [GoVal.weight, GoVal.weightL] at *
            omega
          · split at h
            · obtain ⟨⟨x, m⟩, h1, h2⟩ := Res.bind_eq_ok.1 h
              cases h2
              have := ihD _ _ _ _ h1
              simp only [GoVal.weight, GoVal.weightD] at *
              omega
            · split at h
              · rename_i hcd
                obtain ⟨⟨x, m⟩, h1, h2⟩ := Res.bind_eq_ok.1 h
                cases h2
                obtain ⟨ds, hd, hds, hv, hm, hml⟩ := innerDecodeString_sound hsz hc hcd h1
                have := natDec_shortest hds
                rw [hv] at this
                simp only [GoVal.weight, encodeString_length]
                omega
              · cases h
    · intro i acc l j h
      unfold sliceLoop at h
      split at h
      · cases h; omega
      · split at h
        · cases h; omega
        · obtain ⟨⟨x, m⟩, h1, h2⟩ := Res.bind_eq_ok.1 h
          have := ihI _ _ _ h1
          have := ihL _ _ _ _ h2
          rw [weightL_snoc] at this
          simp only at *
          omega
    · intro i acc l j h
      unfold dictLoop at h
      split at h
      · cases h; omega
      · split at h
        · cases h; omega
        · obtain ⟨⟨x, m⟩, h1, h2⟩ := Res.bind_eq_ok.1 h
          have := ihI _ _ _ h1
          simp only at h2
          split at h2
          · rename_i key
            obtain ⟨⟨y, m'⟩, h1', h2'⟩ := Res.bind_eq_ok.1 h2
            have := ihI _ _ _ h1'
            have := ihD _ _ _ _ h2'
            have := weightD_put acc key y
            simp only [GoVal.weight] at *
            omega
          · cases h2

/-- what was decoded was in the input -/
theorem decodeDict_weight {src : Bytes} (hsz : src.length < 2 ^ 63) {d : Entries} {n : Nat}
    (h : DecodeDictNoLimit src = .ok (d, n)) : 1 + GoVal.weightD d ≤ src.length := by
  unfold DecodeDictNoLimit at h
  split at h
  · cases h
  · split at h
    · cases h
    · unfold innerDecodeDict at h
      split at h
      · cases h
      · split at h
        · cases h
        · obtain ⟨⟨x, m⟩, h1, h2⟩ := Res.bind_eq_ok.1 h
          cases h2
          have := (decode_weight hsz _).2.2 _ _ _ _ h1
          simp only [GoVal.weightD] at *
          omega

/-- an entry taken out of a map -/
theorem weightD_take {d : Entries} {k : Bytes} {v : GoVal} (h : d.lookup k = some v) :
    ∃ d', GoVal.weightD d = (EncodeString k).length + v.weight + GoVal.weightD d' ∧
      ∀ k', k' ≠ k → d'.lookup k' = d.lookup k' := by
  induction d with
  | nil => cases h
  | cons kv r ih =>
    obtain ⟨k0, v0⟩ := kv
    by_cases hk : k = k0
    · subst hk
      simp at h
      subst h
      refine ⟨r, rfl, fun k' hk' => ?_⟩
      rw [List.lookup_cons]
      have : (k' == k) = false := by simpa using hk'
      rw [this]
    · rw [List.lookup_cons, show (k == k0) = false by simpa using hk] at h
      obtain ⟨d', h1, h2⟩ := ih h
      refine ⟨(k0, v0) :: d', by simp [GoVal.weightD, h1]; omega, fun k' hk' => ?_⟩
      rw [List.lookup_cons, List.lookup_cons, h2 k' hk']

/-- entries under different keys take different parts of the input -/
theorem weightD_ge : ∀ (kvs : Entries) (d : Entries), (kvs.map Prod.fst).Nodup → (∀ kv ∈ kvs, d.lookup kv.1 = some kv.2) →
    GoVal.weightD kvs ≤ GoVal.weightD d
  | [], _, _, _ => by simp [GoVal.weightD]
  | (k, v) :: r, d, hn, h => by
    obtain ⟨d', h1, h2⟩ := weightD_take (h (k, v) (by simp))
    simp only at h1 h2
    rw [List.map_cons] at hn
    have hn' := List.nodup_cons.1 hn
    have := weightD_ge r d' hn'.2 (fun kv hkv => by
      rw [h2 kv.1 (fun he => hn'.1 (he ▸ List.mem_map.2 ⟨kv, hkv, rfl⟩))]
      exact h kv (by simp [hkv]))
    simp only [GoVal.weightD]
    omega

end P2P

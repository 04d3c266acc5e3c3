import Verif.Props.Bencode
/-! # C10: exactly which inputs make the decoders panic -/
namespace P2P

/-- Reading a value at offset `p` of an input whose remaining bytes are these ends in a run time panic. -/
inductive FatalAt : Nat → Bytes → Prop where
  /-- an integer without its closing `e`, unless `-0` or a leading zero is rejected first -/
  | int {p : Nat} {body : Bytes} : 101 ∉ body → ¬ b!"-0" <:+: body → (∀ x, ¬ b!"i0" ++ [x] <:+: b!"i" ++ body) → FatalAt p (b!"i" ++ body)
  /-- a string length that fits into 63 bits while the position behind the string does not -/
  | str {p : Nat} {ds t : Bytes} : Digits ds → decVal ds < 2 ^ 63 → 2 ^ 63 ≤ p + ds.length + 1 + decVal ds → FatalAt p (ds ++ b!":" ++ t)
  /-- such a value within a list -/
  | list {p : Nat} {l : List GoVal} {bs r : Bytes} : Ben (.items l) bs → FatalAt (p + 1 + bs.length) r → FatalAt p (b!"l" ++ bs ++ r)
  /-- such a value where a dictionary expects a key -/
  | key {p : Nat} {kvs : Entries} {bs r : Bytes} : Ben (.entries kvs) bs → FatalAt (p + 1 + bs.length) r → FatalAt p (b!"d" ++ bs ++ r)
  /-- such a value behind a key -/
  | value {p : Nat} {kvs : Entries} {bs k q r : Bytes} : Ben (.entries kvs) bs → Ben (.item (.str k)) q →
      FatalAt (p + 1 + bs.length + q.length) r → FatalAt p (b!"d" ++ bs ++ q ++ r)

theorem scanOk_infix (body : Bytes) (prev : UInt8) : ScanOk prev body ↔
    101 ∉ body ∧ ¬ [45, 48] <:+: prev :: body ∧ ∀ x, ¬ [105, 48, x] <:+: prev :: body := by
  induction body generalizing prev with
  | nil =>
    simp only [ScanOk, true_iff, List.not_mem_nil, not_false_iff, true_and]
    refine ⟨fun h => ?_, fun x h => ?_⟩ <;> have := h.length_le <;> simp at this
  | cons c r ih =>
    simp only [ScanOk]
    rw [ih c]
    simp only [List.infix_cons_iff (a := prev), List.mem_cons, not_or]
    constructor
    · rintro ⟨h1, h2, h3, h4, h5, h6⟩
      refine ⟨⟨fun e => h1 e.symm, h4⟩, ⟨?_, h5⟩, fun x => ⟨?_, h6 x⟩⟩
      · rintro ⟨t, e⟩
        simp only [List.cons_append, List.nil_append, List.cons.injEq] at e
        exact h2 ⟨e.1.symm, e.2.1.symm⟩
      · rintro ⟨t, e⟩
        simp only [List.cons_append, List.nil_append, List.cons.injEq] at e
        have := h3 ⟨e.1.symm, e.2.1.symm⟩
        rw [this] at e
        simp at e
    · rintro ⟨⟨h1, h4⟩, ⟨h2, h5⟩, h6⟩
      refine ⟨fun e => h1 e.symm, ?_, ?_, h4, h5, fun x => (h6 x).2⟩
      · rintro ⟨rfl, rfl⟩; exact h2 ⟨r, rfl⟩
      · rintro ⟨rfl, rfl⟩
        cases r with
        | nil => rfl
        | cons x r => exact absurd ⟨r, rfl⟩ (h6 x).1

theorem intLoop_toEnd (src b : Bytes) (j f : Nat) (prev : UInt8) (hp : src[j - 1]? = some prev) (hj : 0 < j) (hd : src.drop j = b)
    (hjl : j ≤ src.length) (hf : f = src.length - j) :
    ScanOk prev b → intLoop src f j = .ok src.length ∨ intLoop src f j = .panic .runtime := by
  induction f generalizing j prev b with
  | zero => intro _; left; simp only [intLoop, Res.ok.injEq]; omega
  | succ f ih =>
    intro hs
    have hlt : j < src.length := by omega
    have hc : src[j]? = some src[j] := List.getElem?_eq_getElem hlt
    rw [drop_of_get hc] at hd
    subst hd
    obtain ⟨h1, h2, h3, h4⟩ := hs
    unfold intLoop
    rw [hc]
    simp only
    rw [if_neg h1, hp, if_neg (by simpa using h2)]
    have next := ih (src.drop (j + 1)) (j + 1) src[j] (by simpa using hc) (by omega) rfl (by omega) (by omega) h4
    split
    · rename_i h0
      have he : src.drop (j + 1) = [] := h3 (by simpa using h0)
      have hl : src.length ≤ j + 1 := by simpa using he
      rw [List.getElem?_eq_none hl]
      exact .inr rfl
    · exact next

theorem intLoop_panic (src : Bytes) (j f : Nat) (prev : UInt8) (hp : src[j - 1]? = some prev) (hj : 0 < j)
    (hjl : j ≤ src.length) (hf : f = src.length - j) {p : Panic} (h : intLoop src f j = .panic p) : ScanOk prev (src.drop j) := by
  induction f generalizing j prev with
  | zero => simp [intLoop] at h
  | succ f ih =>
    have hlt : j < src.length := by omega
    have hc : src[j]? = some src[j] := List.getElem?_eq_getElem hlt
    rw [drop_of_get hc]
    unfold intLoop at h
    rw [hc] at h
    simp only at h
    split at h
    · cases h
    · rename_i h1
      split at h
      · cases h
      · rename_i h2
        rw [hp] at h2
        split at h
        · rename_i h3
          rw [hp] at h3
          split at h
          · rename_i hn
            have hl : src.length ≤ j + 1 := List.getElem?_eq_none_iff.1 hn
            have he : src.drop (j + 1) = [] := by simpa using hl
            refine ⟨h1, by simpa using h2, fun _ => he, ?_⟩
            rw [he]; trivial
          · rename_i c' hc'
            split at h
            · cases h
            · rename_i he
              have he : c' = 101 := by simpa using he
              exfalso
              cases f with
              | zero => simp [intLoop] at h
              | succ f => simp [intLoop, hc', he] at h
        · rename_i h3
          rw [hp] at h3
          refine ⟨h1, by simpa using h2, fun h => absurd (by simpa using h) h3, ?_⟩
          exact ih (j + 1) src[j] (by simpa using hc) (by omega) (by omega) (by omega) h

theorem innerDecodeInteger_panic {src : Bytes} {i : Nat} (hi : src[i]? = some 105) :
    innerDecodeInteger src i = .panic .runtime ↔ ScanOk 105 (src.drop (i + 1)) := by
  have hlt : i < src.length := (List.getElem?_eq_some_iff.1 hi).1
  unfold innerDecodeInteger
  rw [hi]
  simp only
  rw [if_neg (by simp)]
  constructor
  · intro h
    cases hl : intLoop src (src.length - (i + 1)) (i + 1) with
    | ok k =>
      rw [hl] at h
      obtain ⟨b, h1, h2, h3, h4, h5⟩ := intLoop_sound src (i + 1) _ k 105 (by simpa using hi) (by omega) rfl (by omega) hl
      rcases h5 with h5 | h5
      · exfalso
        simp only [Bind.bind, Res.bind, h5] at h
        simp only [if_pos] at h
        split at h <;> cases h
      · rw [h5] at h1
        simp only [List.drop_length, List.append_nil] at h1
        rw [h1]; exact h3
    | err e => rw [hl] at h; cases h
    | panic p => exact intLoop_panic src (i + 1) _ 105 (by simpa using hi) (by omega) (by omega) rfl hl
    | diverge => rw [hl] at h; cases h
  · intro hs
    rcases intLoop_toEnd src _ (i + 1) _ 105 (by simpa using hi) (by omega) rfl (by omega) rfl hs with h | h
    · rw [h]; simp [Bind.bind, Res.bind]
    · rw [h]; rfl

theorem innerDecodeString_panic {src : Bytes} (hsz : src.length < 2 ^ 62) {i : Nat} {c : UInt8} (hc : src[i]? = some c) (hcd : isDigit c = true) :
    innerDecodeString src i = .panic .runtime ↔
      ∃ ds t, src.drop i = ds ++ 58 :: t ∧ Digits ds ∧ decVal ds < 2 ^ 63 ∧ 2 ^ 63 ≤ i + ds.length + 1 + decVal ds := by
  constructor
  · intro h
    unfold innerDecodeString at h
    split at h
    · cases h
    · rename_i idx hidx
      obtain ⟨a, ha1, ha2, ha3⟩ := indexColon_sound _ _ _ _ hidx
      split at h
      · cases h
      · rename_i hgt
        rw [slice_of_drop' ha1 ha2] at h
        split at h
        · cases h
        · rename_i slen hat
          cases a with
          | nil => simp at ha2; omega
          | cons c' t =>
            have hcc : c' = c := by
              have := (drop_cons (c := c') (t := t ++ 58 :: src.drop (idx + 1)) (by simpa using ha1)).1
              rw [hc] at this
              exact (Option.some.inj this).symm
            subst hcc
            obtain ⟨hall, hlt, hslen⟩ := atoi_of_digit_head hcd hat
            refine ⟨c' :: t, _, ha1, digits_iff.2 ⟨by simp, hall⟩, hlt, ?_⟩
            apply Classical.byContradiction
            intro hno
            rw [← ha2] at hno
            generalize decVal (c' :: t) = v at *
            subst hslen
            rw [wrap64_id (by unfold IsInt64; omega)] at h
            simp only at h
            split at h
            · cases h
            · rw [if_neg (by omega)] at h; cases h
  · rintro ⟨ds, t, hd, hds, hv, hov⟩
    have hlt : i < src.length := (List.getElem?_eq_some_iff.1 hc).1
    have hlen := length_of_drop hd (by omega)
    simp only [List.length_cons] at hlen
    have hpos : 0 < ds.length := List.length_pos_iff.2 hds.1
    have hidx := indexColon_complete src ds t i (src.length - i) hd (fun c h => (digit_ne (hds.2 c h)).2.2.2.2) (by omega)
    have hat : atoi ds = some (decVal ds : Int) := by
      refine atoi_digits hds.1 ?_ hv
      exact (digits_iff.1 hds).2
    unfold innerDecodeString
    rw [hidx]
    simp only
    rw [if_neg (by omega), slice_of_drop' hd rfl, hat]
    simp only
    generalize decVal ds = v at *
    have hw : wrap64 (((i + ds.length : Nat) : Int) + (v : Int) + 1) = ((i + ds.length : Nat) : Int) + v + 1 - 2 ^ 64 := by
      unfold wrap64 Int.bmod
      simp only [Nat.reducePow] at *
      split <;> omega
    rw [hw, if_neg (by omega), if_pos (by omega)]

theorem drop_split {src p : Bytes} {i n : Nat} (hp : seg src i n = p) (h : i ≤ n) (hn : n ≤ src.length) :
    src.drop i = p ++ src.drop n ∧ n = i + p.length := by
  have hl : p.length = n - i := by rw [← hp]; exact seg_length ..
  rw [seg_eq_slice src hn] at hp
  refine ⟨?_, by omega⟩
  rw [← hp]
  unfold slice
  have : src.drop n = (src.drop i).drop (n - i) := by rw [List.drop_drop]; congr 1; omega
  rw [this, List.take_append_drop]

theorem bind_panic {α β : Type} {x : Res α} {g : α → Res β} {p : Panic} (h : (x >>= g) = .panic p) :
    x = .panic p ∨ ∃ a, x = .ok a ∧ g a = .panic p := by
  cases x with
  | ok a => exact .inr ⟨a, rfl, h⟩
  | err e => cases h
  | panic q => left; cases h; rfl
  | diverge => cases h

theorem fatal_sound {src : Bytes} (hsz : src.length < 2 ^ 62) (f : Nat) :
    (∀ i, i < src.length → decodeItem f src i = .panic .runtime → FatalAt i (src.drop i)) ∧
    (∀ i acc, sliceLoop f src i acc = .panic .runtime → ∃ l bs r, Ben (.items l) bs ∧ src.drop i = bs ++ r ∧ FatalAt (i + bs.length) r) ∧
    (∀ i acc, dictLoop f src i acc = .panic .runtime → ∃ kvs bs r, Ben (.entries kvs) bs ∧ src.drop i = bs ++ r ∧
      (FatalAt (i + bs.length) r ∨ ∃ k q r', r = q ++ r' ∧ Ben (.item (.str k)) q ∧ FatalAt (i + bs.length + q.length) r')) := by
  have hsz' : src.length < 2 ^ 63 := Nat.lt_trans hsz (by decide)
  induction f with
  | zero => refine ⟨?_, ?_, ?_⟩ <;> intros <;> simp_all [decodeItem, sliceLoop, dictLoop]
  | succ f ih =>
    obtain ⟨ih1, ih2, ih3⟩ := ih
    refine ⟨?_, ?_, ?_⟩
    · intro i hi h
      have hc : src[i]? = some src[i] := List.getElem?_eq_getElem hi
      unfold decodeItem at h
      rw [hc] at h
      simp only at h
      rw [drop_of_get hc]
      generalize src[i] = c at *
      split at h
      · rename_i e; subst e
        rcases bind_panic h with h | ⟨a, -, h⟩
        · have := (scanOk_infix _ _).1 ((innerDecodeInteger_panic hc).1 h)
          refine FatalAt.int this.1 (fun hh => this.2.1 ?_) this.2.2
          exact List.infix_cons_iff.2 (.inr hh)
        · cases h
      · split at h
        · rename_i e; subst e
          rcases bind_panic h with h | ⟨a, -, h⟩
          · obtain ⟨l, bs, r, h1, h2, h3⟩ := ih2 _ _ h
            rw [h2]
            exact FatalAt.list h1 h3
          · cases h
        · split at h
          · rename_i e; subst e
            rcases bind_panic h with h | ⟨a, -, h⟩
            · obtain ⟨l, bs, r, h1, h2, h3⟩ := ih3 _ _ h
              rw [h2]
              rcases h3 with h3 | ⟨k, q, r', rfl, h3, h4⟩
              · exact FatalAt.key h1 h3
              · have := FatalAt.value h1 h3 h4
                simpa only [List.append_assoc, List.singleton_append, List.cons_append, List.nil_append] using this
            · cases h
          · split at h
            · rename_i hd
              rcases bind_panic h with h | ⟨a, -, h⟩
              · obtain ⟨ds, t, h1, h2, h3, h4⟩ := (innerDecodeString_panic hsz hc hd).1 h
                rw [drop_of_get hc] at h1
                rw [h1]
                have := FatalAt.str (t := t) h2 h3 h4
                simpa only [List.append_assoc, List.singleton_append] using this
              · cases h
            · cases h
    · intro i acc h
      cases hc : src[i]? with
      | none => simp [sliceLoop, hc] at h
      | some c =>
        have hi : i < src.length := (List.getElem?_eq_some_iff.1 hc).1
        unfold sliceLoop at h
        rw [hc] at h
        simp only at h
        split at h
        · cases h
        · rcases bind_panic h with h | ⟨⟨v, n⟩, h0, h⟩
          · exact ⟨[], [], _, .nil, rfl, ih1 i hi h⟩
          · obtain ⟨a1, a2⟩ := (decode_sound hsz' f).1 i v n h0
            have hn : n < src.length := by
              apply Classical.byContradiction
              intro hn
              cases f with
              | zero => simp [decodeItem] at h0
              | succ f => rw [sliceLoop_stop (by omega) (.inr (get_none_of_ge (by omega)))] at h; cases h
            obtain ⟨l, bs, r, b1, b2, b3⟩ := ih2 _ _ h
            obtain ⟨e1, e2⟩ := drop_split rfl (Nat.le_of_lt a1) (Nat.le_of_lt hn)
            refine ⟨v :: l, seg src i n ++ bs, r, .cons a2 b1, by rw [e1, b2, List.append_assoc], ?_⟩
            rw [List.length_append, ← Nat.add_assoc, ← e2]; exact b3
    · intro i acc h
      cases hc : src[i]? with
      | none => simp [dictLoop, hc] at h
      | some c =>
        have hi : i < src.length := (List.getElem?_eq_some_iff.1 hc).1
        unfold dictLoop at h
        rw [hc] at h
        simp only at h
        split at h
        · cases h
        · rcases bind_panic h with h | ⟨⟨kv, m⟩, h0, h⟩
          · exact ⟨[], [], _, .enil, rfl, .inl (ih1 i hi h)⟩
          · split at h
            · rename_i key he
              simp only at he
              subst he
              have hm := decodeItem_str_lt hsz' h0
              obtain ⟨a1, a2⟩ := (decode_sound hsz' f).1 i _ m h0
              obtain ⟨e1, e2⟩ := drop_split rfl (Nat.le_of_lt a1) (Nat.le_of_lt hm)
              rcases bind_panic h with h | ⟨⟨v, n⟩, h2, h⟩
              · refine ⟨[], [], _, .enil, rfl, .inr ⟨key, seg src i m, src.drop m, e1, a2, ?_⟩⟩
                simp only [List.length_nil, Nat.add_zero]
                rw [← e2]; exact ih1 m hm h
              · obtain ⟨c1, c2⟩ := (decode_sound hsz' f).1 m v n h2
                have hn : n < src.length := by
                  apply Classical.byContradiction
                  intro hn
                  cases f with
                  | zero => simp [decodeItem] at h0
                  | succ f => rw [dictLoop_stop (by omega) (.inr (get_none_of_ge (by omega)))] at h; cases h
                obtain ⟨g1, g2⟩ := drop_split rfl (Nat.le_of_lt c1) (Nat.le_of_lt hn)
                obtain ⟨kvs, bs, r, b1, b2, b3⟩ := ih3 _ _ h
                refine ⟨(key, v) :: kvs, seg src i m ++ seg src m n ++ bs, r, .econs a2 c2 b1, by rw [e1, g1, b2]; simp only [List.append_assoc], ?_⟩
                have hl : i + (seg src i m ++ seg src m n ++ bs).length = n + bs.length := by
                  simp only [List.length_append]; omega
                rw [hl]; exact b3
            · cases h

theorem fatal_head {p : Nat} {r : Bytes} (h : FatalAt p r) : ∃ c t, r = c :: t ∧ c ≠ 101 := by
  cases h with
  | int => exact ⟨105, _, rfl, by decide⟩
  | str h =>
    rename_i ds t h1 h2
    cases ds with
    | nil => exact absurd rfl h.1
    | cons c r => exact ⟨c, _, rfl, (digit_ne (h.2 c (by simp))).1⟩
  | list => exact ⟨108, _, rfl, by decide⟩
  | key => exact ⟨100, _, rfl, by decide⟩
  | value => exact ⟨100, _, rfl, by decide⟩

theorem sliceLoop_panics {src : Bytes} {f i : Nat} {acc : List GoVal} {c : UInt8} (hc : src[i]? = some c) (hne : c ≠ 101)
    (h : decodeItem f src i = .panic .runtime) : sliceLoop (f + 1) src i acc = .panic .runtime := by
  simp [sliceLoop, hc, hne, h, Bind.bind, Res.bind]

theorem dictLoop_panics {src : Bytes} {f i : Nat} {acc : Entries} {c : UInt8} (hc : src[i]? = some c) (hne : c ≠ 101)
    (h : decodeItem f src i = .panic .runtime) : dictLoop (f + 1) src i acc = .panic .runtime := by
  simp [dictLoop, hc, hne, h, Bind.bind, Res.bind]

theorem fatal_complete {src : Bytes} (hsz : src.length < 2 ^ 62) {i : Nat} {r : Bytes} (h : FatalAt i r) :
    ∀ f, src.drop i = r → 2 * r.length ≤ f → decodeItem f src i = .panic .runtime := by
  have hsz' : src.length < 2 ^ 63 := Nat.lt_trans hsz (by decide)
  induction h with
  | @int p body h1 h2 h3 =>
    intro f hd hf
    obtain ⟨hc, ht, -⟩ := drop_cons (c := 105) (t := body) hd
    simp only [List.length_append, List.length_cons, List.length_nil] at hf
    obtain ⟨f, rfl⟩ : ∃ g, f = g + 1 := ⟨f - 1, by omega⟩
    have hs : ScanOk 105 body := by
      refine (scanOk_infix _ _).2 ⟨h1, ?_, h3⟩
      intro hh
      rcases List.infix_cons_iff.1 hh with ⟨t, e⟩ | hh
      · simp at e
      · exact h2 hh
    rw [← ht] at hs
    unfold decodeItem
    rw [hc]
    simp only [if_pos]
    rw [(innerDecodeInteger_panic hc).2 hs]; rfl
  | @str p ds t h1 h2 h3 =>
    intro f hd hf
    simp only [List.length_append, List.length_cons, List.length_nil] at hf
    obtain ⟨f, rfl⟩ : ∃ g, f = g + 1 := ⟨f - 1, by omega⟩
    obtain ⟨c, r, rfl⟩ : ∃ c r, ds = c :: r := by
      cases ds with
      | nil => exact absurd rfl h1.1
      | cons c r => exact ⟨c, r, rfl⟩
    have hcd := h1.2 c (by simp)
    obtain ⟨hc, -, -⟩ := drop_cons (c := c) (t := r ++ b!":" ++ t) (by rw [hd]; simp)
    obtain ⟨n1, n2, n3, n4, n5⟩ := digit_ne hcd
    have n6 : c ≠ 108 ∧ c ≠ 100 := by
      have := isDigit_iff.1 hcd
      constructor <;> rintro rfl <;> simp at this
    unfold decodeItem
    rw [hc]
    simp only
    rw [if_neg n3, if_neg n6.1, if_neg n6.2, if_pos hcd,
      (innerDecodeString_panic hsz hc hcd).2 ⟨c :: r, t, by rw [hd]; simp, h1, h2, h3⟩]
    rfl
  | @list p l bs r hb hr ih =>
    intro f hd hf
    obtain ⟨c, t, rfl, hne⟩ := fatal_head hr
    simp only [List.length_append, List.length_cons, List.length_nil] at hf
    obtain ⟨f, rfl⟩ : ∃ g, f = g + 1 := ⟨f - 1, by omega⟩
    obtain ⟨hc, ht, -⟩ := drop_cons (c := 108) (t := bs ++ c :: t) (by rw [hd]; simp)
    obtain ⟨f', hf', hstep⟩ := decodesAt_of_ben hsz' hb (p + 1) (c :: t) f [] ht (.inl (by simp)) (by omega)
    obtain ⟨f', rfl⟩ : ∃ g, f' = g + 1 := ⟨f' - 1, by omega⟩
    have hdr := drop_append ht
    have := ih f' hdr (by simp only [List.length_cons]; omega)
    unfold decodeItem
    rw [hc]
    simp only
    rw [if_neg (by decide), if_pos trivial, hstep, sliceLoop_panics (drop_cons hdr).1 hne this]
    rfl
  | @key p kvs bs r hb hr ih =>
    intro f hd hf
    obtain ⟨c, t, rfl, hne⟩ := fatal_head hr
    simp only [List.length_append, List.length_cons, List.length_nil] at hf
    obtain ⟨f, rfl⟩ : ∃ g, f = g + 1 := ⟨f - 1, by omega⟩
    obtain ⟨hc, ht, -⟩ := drop_cons (c := 100) (t := bs ++ c :: t) (by rw [hd]; simp)
    obtain ⟨f', hf', hstep⟩ := decodesAt_of_ben hsz' hb (p + 1) (c :: t) f [] ht (.inl (by simp)) (by omega)
    obtain ⟨f', rfl⟩ : ∃ g, f' = g + 1 := ⟨f' - 1, by omega⟩
    have hdr := drop_append ht
    have := ih f' hdr (by simp only [List.length_cons]; omega)
    unfold decodeItem
    rw [hc]
    simp only
    rw [if_neg (by decide), if_neg (by decide), if_pos trivial, hstep, dictLoop_panics (drop_cons hdr).1 hne this]
    rfl
  | @value p kvs bs k q r hb hq hr ih =>
    intro f hd hf
    obtain ⟨c, t, rfl, hne⟩ := fatal_head hr
    simp only [List.length_append, List.length_cons, List.length_nil] at hf
    obtain ⟨f, rfl⟩ : ∃ g, f = g + 1 := ⟨f - 1, by omega⟩
    obtain ⟨hc, ht, -⟩ := drop_cons (c := 100) (t := bs ++ (q ++ c :: t)) (by rw [hd]; simp)
    obtain ⟨f', hf', hstep⟩ := decodesAt_of_ben hsz' hb (p + 1) (q ++ c :: t) f [] ht (.inl (by simp)) (by omega)
    obtain ⟨f', rfl⟩ : ∃ g, f' = g + 1 := ⟨f' - 1, by omega⟩
    have hdr := drop_append ht
    have hdr2 := drop_append hdr
    have := ih f' hdr2 (by simp only [List.length_cons]; omega)
    unfold decodeItem
    rw [hc]
    simp only
    rw [if_neg (by decide), if_neg (by decide), if_pos trivial, hstep, dictLoop_entry (bs := []) hsz' hdr (by simp) hq (by omega), this]
    rfl

theorem decodeItem_fatal {src : Bytes} (hs : InMemory src) {f i : Nat} (hi : i < src.length) (hf : 2 * (src.length - i) ≤ f) :
    decodeItem f src i = .panic .runtime ↔ FatalAt i (src.drop i) := by
  have hsz : src.length < 2 ^ 62 := Nat.lt_trans hs (by decide)
  exact ⟨(fatal_sound hsz f).1 i hi, fun h => fatal_complete hsz h f rfl (by simpa using hf)⟩

theorem innerDecodeDict_item {src : Bytes} (h : src[0]? = some 100) :
    innerDecodeDict src 0 = .panic .runtime ↔ decodeItem (decodeBudget src + 1) src 0 = .panic .runtime := by
  unfold innerDecodeDict decodeItem
  rw [h]
  simp only
  rw [if_neg (by simp), if_neg (by decide), if_neg (by decide), if_pos trivial]
  cases dictLoop (decodeBudget src) src (0 + 1) [] <;> simp [Bind.bind, Res.bind, pure]

theorem innerDecodeSlice_item {src : Bytes} (h : src[0]? = some 108) :
    innerDecodeSlice src 0 = .panic .runtime ↔ decodeItem (decodeBudget src + 1) src 0 = .panic .runtime := by
  unfold innerDecodeSlice decodeItem
  rw [h]
  simp only
  rw [if_neg (by simp), if_neg (by decide), if_pos trivial]
  cases sliceLoop (decodeBudget src) src (0 + 1) [] <;> simp [Bind.bind, Res.bind, pure]

/-- **C10: exactly which inputs make `DecodeDictNoLimit` panic**: those with a fatal value in a place the decoder gets to, that is behind nothing
but complete values. -/
theorem C10_nolimit_exact (src : Bytes) (hs : InMemory src) :
    DecodeDictNoLimit src = .panic .runtime ↔ src.head? = some 100 ∧ FatalAt 0 src := by
  unfold DecodeDictNoLimit
  rw [List.head?_eq_getElem?]
  by_cases h2 : src.length < 2
  · rw [if_pos h2]
    refine ⟨fun h => (by cases h), ?_⟩
    rintro ⟨h, hf⟩
    have : src = [100] := by
      rcases src with _ | ⟨c, _ | ⟨d, r⟩⟩
      · simp at h
      · simp at h; rw [h]
      · simp at h2; omega
    rw [this] at hf
    exfalso
    have hd := fatal_complete (src := b!"d") (by decide) hf 2 rfl (by decide)
    revert hd
    decide +kernel
  · rw [if_neg h2]
    by_cases h0 : src[0]? = some 100
    · rw [if_neg (by simp [h0]), innerDecodeDict_item h0, decodeItem_fatal hs (by omega) (by simp only [decodeBudget]; omega)]
      simp [h0]
    · rw [if_pos h0]
      simp [h0]

/-- **C10: exactly which inputs make `DecodeDict` panic**: the same, if they also end in `e`. -/
theorem C10_dict_exact (src : Bytes) (hs : InMemory src) :
    DecodeDict src = .panic .runtime ↔ src.head? = some 100 ∧ src.getLast? = some 101 ∧ FatalAt 0 src := by
  have key := C10_nolimit_exact src hs
  unfold DecodeDictNoLimit at key
  unfold DecodeDict
  rw [List.head?_eq_getElem?, List.getLast?_eq_getElem?] at *
  by_cases h2 : src.length < 2
  · rw [if_pos h2] at *
    constructor
    · intro h; cases h
    · rintro ⟨a, -, b⟩
      have := key.2 ⟨a, b⟩
      cases this
  · rw [if_neg h2] at *
    by_cases h0 : src[0]? = some 100
    · by_cases he : src[src.length - 1]? = some 101
      · rw [if_neg (by simp [h0])] at key
        rw [if_neg (by simp [h0, he])]
        simp only [h0, he, true_and] at *
        rw [← key]
        constructor
        · intro h
          rcases bind_panic h with h | ⟨a, -, h⟩
          · exact h
          · split at h <;> cases h
        · intro h; rw [h]; rfl
      · rw [if_pos (.inr he)]
        simp [he]
    · rw [if_pos (.inl h0)]
      simp [h0]

/-- **C10: exactly which inputs make `DecodeSlice` panic.** -/
theorem C10_slice_exact (src : Bytes) (hs : InMemory src) :
    DecodeSlice src = .panic .runtime ↔ src.head? = some 108 ∧ src.getLast? = some 101 ∧ FatalAt 0 src := by
  unfold DecodeSlice
  rw [List.head?_eq_getElem?, List.getLast?_eq_getElem?]
  by_cases h2 : src.length < 2
  · rw [if_pos h2]
    constructor
    · intro h; cases h
    · rintro ⟨a, b, -⟩
      rcases src with _ | ⟨c, _ | ⟨d, r⟩⟩
      · simp at a
      · simp at a b; rw [a] at b; simp at b
      · simp at h2; omega
  · rw [if_neg h2]
    by_cases h0 : src[0]? = some 108
    · by_cases he : src[src.length - 1]? = some 101
      · rw [if_neg (by simp [h0, he])]
        have hd := decodeItem_fatal (f := decodeBudget src + 1) hs (i := 0) (by omega) (by simp only [decodeBudget]; omega)
        simp only [h0, he, true_and]
        rw [List.drop_zero] at hd
        rw [← hd, ← innerDecodeSlice_item h0]
        constructor
        · intro h
          rcases bind_panic h with h | ⟨a, -, h⟩
          · exact h
          · split at h <;> cases h
        · intro h; rw [h]; rfl
      · rw [if_pos (.inr he)]
        simp [he]
    · rw [if_pos (.inl h0)]
      simp [h0]

theorem splitColon_ne (src : Bytes) : splitColon src ≠ [] := by
  cases src with
  | nil => simp [splitColon]
  | cons c r =>
    unfold splitColon
    split
    · simp
    · split <;> simp

theorem splitColon_one {src : Bytes} : (splitColon src).length = 1 ↔ 58 ∉ src := by
  induction src with
  | nil => simp [splitColon]
  | cons c r ih =>
    unfold splitColon
    split
    · rename_i h; subst h
      simp only [List.length_cons, List.mem_cons, true_or, not_true_eq_false, iff_false]
      intro h
      exact splitColon_ne r (List.eq_nil_of_length_eq_zero (by omega))
    · rename_i h
      have hc : ¬ (58 = c) := fun e => h e.symm
      simp only [List.mem_cons, hc, false_or]
      rw [← ih]
      cases h2 : splitColon r with
      | nil => exact absurd h2 (splitColon_ne r)
      | cons p ps => simp

theorem splitColon_single {src : Bytes} (h : 58 ∉ src) : splitColon src = [src] := by
  induction src with
  | nil => rfl
  | cons c r ih =>
    simp only [List.mem_cons, not_or] at h
    unfold splitColon
    rw [if_neg (fun e => h.1 e.symm), ih h.2]

/-- The decimal text of a 64-bit number; signs and leading zeros are allowed. -/
inductive IntText : Bytes → Prop where
  | plain {ds : Bytes} : Digits ds → decVal ds < 2 ^ 63 → IntText ds
  | plus {ds : Bytes} : Digits ds → decVal ds < 2 ^ 63 → IntText (b!"+" ++ ds)
  | minus {ds : Bytes} : Digits ds → decVal ds ≤ 2 ^ 63 → IntText (b!"-" ++ ds)

theorem natOfDigits_digits {r : Bytes} {n : Nat} : natOfDigits r = some n ↔ Digits r ∧ decVal r = n := by
  rw [natOfDigits_eq_some, digits_iff, and_assoc]

theorem atoi_intText {s : Bytes} : (∃ n, atoi s = some n) ↔ IntText s := by
  constructor
  · rintro ⟨n, h⟩
    unfold atoi at h
    split at h <;> split at h <;> first | (split at h) | skip
    all_goals first
      | (cases h; done)
      | skip
    · rename_i h1 h2; exact .plus (natOfDigits_digits.1 h1).1 ((natOfDigits_digits.1 h1).2 ▸ h2)
    · rename_i h1 h2; exact .minus (natOfDigits_digits.1 h1).1 ((natOfDigits_digits.1 h1).2 ▸ h2)
    · rename_i h1 h2; exact .plain (natOfDigits_digits.1 h1).1 ((natOfDigits_digits.1 h1).2 ▸ h2)
  · intro h
    cases h with
    | plain h1 h2 => exact ⟨_, atoi_digits h1.1 (digits_iff.1 h1).2 h2⟩
    | @plus ds h1 h2 =>
      refine ⟨decVal ds, ?_⟩
      show atoi (43 :: ds) = some _
      unfold atoi
      simp only
      rw [natOfDigits_digits.2 ⟨h1, rfl⟩]
      simp only
      rw [if_pos h2]
    | @minus ds h1 h2 =>
      refine ⟨-decVal ds, ?_⟩
      show atoi (45 :: ds) = some _
      unfold atoi
      simp only
      rw [natOfDigits_digits.2 ⟨h1, rfl⟩]
      simp only
      rw [if_pos h2]

theorem intText_no_colon {s : Bytes} (h : IntText s) : 58 ∉ s := by
  have dig : ∀ ds, Digits ds → (58 : UInt8) ∉ ds := fun ds hd hm => (digit_ne (hd.2 58 hm)).2.2.2.2 rfl
  cases h with
  | plain h1 => exact dig _ h1
  | plus h1 => simp only [List.singleton_append, List.mem_cons, not_or]; exact ⟨by decide, dig _ h1⟩
  | minus h1 => simp only [List.singleton_append, List.mem_cons, not_or]; exact ⟨by decide, dig _ h1⟩

/-- **C10: exactly which inputs make `DecodeString` panic**: the decimal texts, signs allowed, of 64-bit numbers, of at least two characters. -/
theorem C10_string_exact (src : Bytes) :
    DecodeString src = .panic .runtime ↔ 2 ≤ src.length ∧ IntText src := by
  rw [← atoi_intText]
  unfold DecodeString
  by_cases h2 : src.length < 2
  · rw [if_pos h2]
    exact ⟨fun h => (by cases h), fun h => by omega⟩
  · rw [if_neg h2]
    simp only
    by_cases hc : 58 ∈ src
    · have h1 : (splitColon src).length ≠ 1 := fun h => splitColon_one.1 h hc
      split
      · exact ⟨fun h => (by cases h), fun h => absurd hc (intText_no_colon (atoi_intText.1 h.2))⟩
      · rename_i hl
        simp only [not_or, Nat.not_lt] at hl
        have hlen : (splitColon src).length = 2 := by omega
        generalize splitColon src = l at *
        rcases l with _ | ⟨a, _ | ⟨b, _ | ⟨c, r⟩⟩⟩
        · simp at hlen
        · simp at hlen
        · simp only [List.getElem?_cons_zero, List.getElem?_cons_succ]
          refine ⟨fun h => ?_, fun h => absurd hc (intText_no_colon (atoi_intText.1 h.2))⟩
          split at h
          · cases h
          · split at h <;> cases h
        · simp at hlen
    · rw [splitColon_single hc]
      simp only [List.length_singleton, Nat.lt_irrefl, false_or]
      rw [if_neg (by omega)]
      simp only [List.getElem?_cons_zero, List.getElem?_cons_succ, List.getElem?_nil]
      cases atoi src with
      | none => simp
      | some n => simp; omega

/-- the three ways to be fatal, and how close harmless inputs are -/
theorem C10_exact_examples :
    FatalAt 0 b!"d1:ai12" ∧ FatalAt 0 b!"d1:ali5e9223372036854775780:ee" ∧ FatalAt 0 b!"di12" ∧
    ¬ FatalAt 0 b!"d1:ai-012" ∧ ¬ FatalAt 0 b!"d1:ai012" ∧ ¬ FatalAt 0 b!"d1:ali5e9223372036854775779:ee" ∧ ¬ FatalAt 0 b!"d1:ale" ∧
    ¬ FatalAt 0 b!"d9223372036854775808:e" := by
  have yes : ∀ s : Bytes, s.length < 100 → 0 < s.length → decodeItem 1000 s 0 = .panic .runtime → FatalAt 0 s := fun s h h0 hd => by
    have := (fatal_sound (src := s) (by omega) 1000).1 0 h0 hd
    simpa using this
  have no : ∀ s : Bytes, s.length < 100 → decodeItem 1000 s 0 ≠ .panic .runtime → ¬ FatalAt 0 s := fun s h hd hf =>
    hd (fatal_complete (src := s) (by omega) hf 1000 rfl (by omega))
  refine ⟨yes _ ?_ ?_ ?_, yes _ ?_ ?_ ?_, yes _ ?_ ?_ ?_, no _ ?_ ?_, no _ ?_ ?_, no _ ?_ ?_, no _ ?_ ?_, no _ ?_ ?_⟩ <;> decide +kernel

end P2P

import Verif.Lemmas.BencodeStr
/-!
# Property theorems C01-C12 (bencode codec, misc/beancode.go)

`Listing v w`: `w` is the Go value `v` with every map listed in some iteration order.
All theorems about encoding quantify over every listing, i.e. over every map iteration order.
-/
namespace P2P

/-- `w` lists the entries of all maps of the Go value `v` in some order. -/
def Listing (v w : GoVal) : Prop := w.WF ∧ DeepEq v w

/-- A Go string: its length is an `int`. -/
def GoString (s : Bytes) : Prop := s.length < 2 ^ 63

/-- A byte string that fits in a process's memory (`runtime.maxAlloc` is `2^48` on 64-bit platforms). -/
def InMemory (s : Bytes) : Prop := s.length < 2 ^ 48

/-! ## C01 -/

theorem C01_integer_roundtrip (n : Int) (h : IsInt64 n) : DecodeInteger (EncodeInteger n) = .ok n :=
  DecodeInteger_complete (intBody_itoa h)

example : IsInt64 (-(2 ^ 63)) ∧ EncodeInteger (-(2 ^ 63)) = b!"i-9223372036854775808e" := by
  decide +kernel

/-! ## C02 -/

/-- accepted language and value, and the only other outcome -/
theorem C02_integer_language (src : Bytes) (n : Int) :
    DecodeInteger src = .ok n ↔ ∃ body, src = b!"i" ++ body ++ b!"e" ∧ IntBody body n := by
  constructor
  · intro h
    rcases DecodeInteger_total src with h' | ⟨m, body, h1, h2, h3⟩
    · rw [h'] at h; cases h
    · rw [h1] at h; cases h; exact ⟨body, h2, h3⟩
  · rintro ⟨body, rfl, h⟩
    exact DecodeInteger_complete h

theorem C02_integer_otherwise_error (src : Bytes) (h : ∀ n, DecodeInteger src ≠ .ok n) :
    DecodeInteger src = .err .wrongParam := by
  rcases DecodeInteger_total src with h' | ⟨m, body, h1, h2, h3⟩
  · exact h'
  · exact absurd h1 (h m)

/-- decoded numbers are 64-bit -/
theorem C02_integer_range (src : Bytes) (n : Int) (h : DecodeInteger src = .ok n) : IsInt64 n := by
  obtain ⟨body, _, hb⟩ := (C02_integer_language src n).1 h
  unfold IsInt64
  cases hb <;> omega

example : DecodeInteger b!"i+05e" = .ok 5 ∧ DecodeInteger b!"i-0e" = .err .wrongParam ∧
    DecodeInteger b!"i05e" = .err .wrongParam ∧ DecodeInteger b!"i9223372036854775808e" = .err .wrongParam := by
  decide +kernel

/-! ## C03 (the round trip is false for strings containing ':') -/

theorem C03_string_roundtrip_without_colon (s : Bytes) (hs : GoString s) (hc : (58 : UInt8) ∉ s) :
    DecodeString (EncodeString s) = .ok s := by
  rw [DecodeString_ok_iff]
  refine ⟨?_, natDec s.length, by simp [EncodeString], colon_not_mem_natDec _, hc, ?_⟩
  · have := List.length_pos_iff.2 (natDec_ne_nil s.length)
    simp [EncodeString]; omega
  · rw [atoi_digits (natDec_ne_nil _) (natDec_all _) (by rw [decVal_natDec]; exact hs), decVal_natDec]

/-- exactly the strings containing ':' do not survive: decoding returns an error -/
theorem C03_string_with_colon_fails (s : Bytes) (hc : (58 : UInt8) ∈ s) :
    DecodeString (EncodeString s) = .err .wrongParam := by
  have e : EncodeString s = natDec s.length ++ 58 :: s := by simp [EncodeString]
  have h2 := splitColon_two hc
  unfold DecodeString
  have := List.length_pos_iff.2 (natDec_ne_nil s.length)
  rw [e, if_neg (by simp; omega), splitColon_append s (colon_not_mem_natDec _)]
  simp only
  rw [if_pos (by simp; omega)]

/-- what DecodeString accepts: a prefix that `strconv.Atoi` reads as the length, one ':', the content -/
theorem C03_string_language (src s : Bytes) : DecodeString src = .ok s ↔
    2 ≤ src.length ∧ ∃ p, src = p ++ b!":" ++ s ∧ (58 : UInt8) ∉ p ∧ (58 : UInt8) ∉ s ∧
      atoi p = some (s.length : Int) := by
  rw [DecodeString_ok_iff]; simp

example : DecodeString (EncodeString b!"spam") = .ok b!"spam" ∧
    DecodeString (EncodeString b!"a:b") = .err .wrongParam ∧
    DecodeString b!"-0:" = .ok [] := by decide +kernel

/-! ## C04 -/

theorem C04_dict_roundtrip (d w : Entries) (hd : Encodable (.dict d)) (hw : Listing (.dict d) (.dict w)) :
    ∃ b, EncodeDict (some w) = .ok b ∧
      (GoString b → ∃ e, DecodeDict b = .ok (some e) ∧ DeepEq (.dict d) (.dict e)) := by
  obtain ⟨b, hb⟩ := (encodeItem_ok_iff _).2 (encodable_deepEq hw.2 hw.1 hd)
  refine ⟨b, hb, fun hsz => ⟨w, ?_, hw.2⟩⟩
  obtain ⟨kvs, bs, h1, h2, rfl⟩ := ben_dict_inv (ben_encodeItem _ _ hw.1 hb)
  have h3 := innerDecodeDict_complete (rest := []) hsz h2 (by simp)
  unfold DecodeDict
  rw [if_neg (by simp), if_neg (by simp), h3]
  simp [h1]

theorem C04_slice_roundtrip (l w : List GoVal) (hd : Encodable (.list l)) (hw : Listing (.list l) (.list w)) :
    ∃ b, EncodeSlice (some w) = .ok b ∧
      (GoString b → ∃ e, DecodeSlice b = .ok e ∧ DeepEq (.list l) (.list e)) := by
  obtain ⟨b, hb⟩ := (encodeItem_ok_iff _).2 (encodable_deepEq hw.2 hw.1 hd)
  refine ⟨b, hb, fun hsz => ⟨w, ?_, hw.2⟩⟩
  obtain ⟨bs, h2, rfl⟩ := ben_list_inv (ben_encodeItem _ _ hw.1 hb)
  have h3 := innerDecodeSlice_complete (rest := []) hsz h2 (by simp)
  unfold DecodeSlice
  rw [if_neg (by simp), if_neg (by simp), h3]
  simp

/-- two different iteration orders of the same map give different bytes (so the quantification over
listings matters), and both meet the hypotheses of `C04_dict_roundtrip` -/
example :
    let d : Entries := [(b!"a", .int 1), (b!"b", .list [.str b!"x:y", .dict []])]
    let w : Entries := [(b!"b", .list [.str b!"x:y", .dict []]), (b!"a", .int 1)]
    Encodable (.dict d) ∧ Listing (.dict d) (.dict d) ∧ Listing (.dict d) (.dict w) ∧
    EncodeDict (some d) = .ok b!"d1:ai1e1:bl3:x:ydeee" ∧
    EncodeDict (some w) = .ok b!"d1:bl3:x:ydee1:ai1ee" := by
  refine ⟨by simp [Encodable, EncodableD, EncodableL], ⟨?_, .refl _⟩, ⟨?_, ?_⟩, by decide +kernel, by decide +kernel⟩
  · refine ⟨by decide, by simp [GoVal.WFD, GoVal.WF, GoVal.WFL, IsInt64]⟩
  · refine ⟨by decide, by simp [GoVal.WFD, GoVal.WF, GoVal.WFL, IsInt64]⟩
  · refine .dict (fun k => ?_) (fun k v w hv hw => ?_)
    · by_cases h1 : k = b!"a"
      · subst h1; rfl
      · by_cases h2 : k = b!"b"
        · subst h2; rfl
        · simp [List.lookup, beq_eq_false_iff_ne.2 h1, beq_eq_false_iff_ne.2 h2]
    · by_cases h1 : k = b!"a"
      · subst h1
        cases hv; cases hw; exact .refl _
      · by_cases h2 : k = b!"b"
        · subst h2; cases hv; cases hw; exact .refl _
        · simp [List.lookup, beq_eq_false_iff_ne.2 h1, beq_eq_false_iff_ne.2 h2] at hv

/-! ## C05 -/

theorem C05_dict_before_payload (d w : Entries) (rest : Bytes) (hd : Encodable (.dict d))
    (hw : Listing (.dict d) (.dict w)) :
    ∃ b, EncodeDict (some w) = .ok b ∧
      (GoString (b ++ rest) →
        ∃ e, DecodeDictNoLimit (b ++ rest) = .ok (e, b.length) ∧ DeepEq (.dict d) (.dict e)) := by
  obtain ⟨b, hb⟩ := (encodeItem_ok_iff _).2 (encodable_deepEq hw.2 hw.1 hd)
  exact ⟨b, hb, fun hsz => ⟨w, DecodeDictNoLimit_complete hsz (ben_encodeItem _ _ hw.1 hb), hw.2⟩⟩

example : DecodeDictNoLimit (b!"d8:msg_typei1e5:piecei0ee" ++ b!"d4:spam") =
    .ok ([(b!"msg_type", .int 1), (b!"piece", .int 0)], 25) := by decide +kernel

/-! ## C06 -/

/-- success within the input = the consumed prefix is a bencoded dictionary -/
theorem C06_dict_language (src : Bytes) (d : Entries) (n : Nat) (hs : GoString src) (hn : n ≤ src.length) :
    DecodeDictNoLimit src = .ok (d, n) ↔ Bencodes (.dict d) (src.take n) := by
  constructor
  · intro h
    unfold DecodeDictNoLimit at h
    split at h
    · cases h
    · split at h
      · cases h
      · have := (innerDecodeDict_sound hs h).2.1
        rwa [seg_take src hn] at this
  · intro h
    have h1 := DecodeDictNoLimit_complete (rest := src.drop n) (by rw [List.take_append_drop]; exact hs) h
    rw [List.take_append_drop] at h1
    rw [h1, List.length_take, Nat.min_eq_left hn]

/-- success beyond the input = exactly `n - len` closing `e` bytes are missing, the cut being directly
behind a closing `e` or an opening bracket (`TruncatedBy`) -/
theorem C06_dict_truncated (src : Bytes) (d : Entries) (n : Nat) (hs : GoString src)
    (h2 : 2 ≤ src.length) (hn : src.length < n) :
    DecodeDictNoLimit src = .ok (d, n) ↔ TruncatedBy (.dict d) (n - src.length) src := by
  constructor
  · intro h
    unfold DecodeDictNoLimit at h
    split at h
    · cases h
    · split at h
      · cases h
      · exact (innerDecodeDict_sound hs h).2.2 hn
  · intro h
    have h1 := innerDecodeDict_truncated hs h
    unfold DecodeDictNoLimit
    rw [if_neg (by omega), if_neg, h1]
    · congr 2; omega
    · have := (innerDecodeDict_sound hs h1).1
      simp [this]

/-- ... and appending the missing bytes yields a bencoded dictionary denoting the same value -/
theorem C06_dict_truncated_completed (src : Bytes) (d : Entries) (n : Nat) (hs : GoString src)
    (hn : src.length < n) (h : DecodeDictNoLimit src = .ok (d, n)) :
    Bencodes (.dict d) (src ++ List.replicate (n - src.length) 101) := by
  unfold DecodeDictNoLimit at h
  split at h
  · cases h
  · split at h
    · cases h
    · have := (innerDecodeDict_sound hs h).2.1
      rwa [seg_overrun src (Nat.le_of_lt hn)] at this

/-- duplicate keys: the last one wins -/
theorem C06_last_key_wins (kvs : Entries) (k : Bytes) :
    dictGet (mapOf kvs) k = kvs.reverse.lookup k := lookup_mapOf kvs k

example : DecodeDictNoLimit b!"d1:ai1e1:ai+2e01:bleeXYZ" =
    .ok ([(b!"a", .int 2), (b!"b", .list [])], 21) := by decide +kernel
example : DecodeDictNoLimit b!"d1:ali5e" = .ok ([(b!"a", .list [.int 5])], 10) := by decide +kernel

/-! ## C07 -/

theorem C07_list_language (src : Bytes) (l : List GoVal) (hs : GoString src) :
    DecodeSlice src = .ok l ↔ Bencodes (.list l) src := by
  constructor
  · intro h
    unfold DecodeSlice at h
    split at h
    · cases h
    · split at h
      · cases h
      · obtain ⟨⟨x, n⟩, h1, h2⟩ := Res.bind_eq_ok.1 h
        simp only at h2
        split at h2
        · cases h2
        · rename_i hn
          cases h2
          simp only [ne_eq, Decidable.not_not] at hn
          have := (innerDecodeSlice_sound hs h1).2
          rw [hn, seg_take src (Nat.le_refl _)] at this
          simpa using this
  · intro h
    obtain ⟨bs, h2, rfl⟩ := ben_list_inv h
    have h3 := innerDecodeSlice_complete (rest := []) hs h2 (by simp)
    unfold DecodeSlice
    rw [if_neg (by simp), if_neg (by simp), h3]
    simp

example : DecodeSlice b!"li1e2:abdelee" = .ok [.int 1, .str b!"ab", .dict [], .list []] ∧
    DecodeSlice b!"lli1ee" = .err .wrongParam ∧ DecodeSlice b!"lexe" = .err .wrongParam := by
  decide +kernel

/-! ## C08 -/

/-- The dictionary decoder for whole inputs: exactly what is accepted ... -/
theorem C08_dict_whole (src : Bytes) (d : Entries) (hs : GoString src) :
    DecodeDict src = .ok (some d) ↔
      (Bencodes (.dict d) src ∨
        (src.getLast? = some 101 ∧ ∃ k, TruncatedBy (.dict d) k src)) := by
  have hlast : ∀ s : Bytes, s[s.length - 1]? = s.getLast? := fun s => by
    rw [List.getLast?_eq_getElem?]
  constructor
  · intro h
    unfold DecodeDict at h
    split at h
    · cases h
    · split at h
      · cases h
      · rename_i hse
        simp only [not_or, ne_eq, Decidable.not_not] at hse
        obtain ⟨⟨x, n⟩, h1, h2⟩ := Res.bind_eq_ok.1 h
        simp only at h2
        split at h2
        · cases h2
        · rename_i hn
          cases h2
          obtain ⟨_, h3, h4⟩ := innerDecodeDict_sound hs h1
          rcases Nat.lt_or_ge src.length n with hlt | hge
          · exact Or.inr ⟨by rw [← hlast, hse.2], _, h4 hlt⟩
          · have : n = src.length := by omega
            rw [this, seg_take src (Nat.le_refl _)] at h3
            exact Or.inl (by simpa using h3)
  · rintro (h | ⟨hl, k, h⟩)
    · obtain ⟨kvs, bs, rfl, h2, rfl⟩ := ben_dict_inv h
      have h3 := innerDecodeDict_complete (rest := []) hs h2 (by simp)
      unfold DecodeDict
      rw [if_neg (by simp), if_neg (by simp), h3]
      simp
    · have h1 := innerDecodeDict_truncated hs h
      have hc := (innerDecodeDict_sound hs h1).1
      have hlen : 2 ≤ src.length := by
        match src, hc, hl with
        | [c], hc, hl => simp at hc hl; rw [hc] at hl; cases hl
        | _ :: _ :: _, _, _ => simp
      unfold DecodeDict
      rw [if_neg (by omega), if_neg, h1]
      · simp
      · simp [hc, hlast, hl]

/-- ... and what happens with left-over bytes: a nil dictionary *and* a nil error -/
theorem C08_dict_leftover_nil_nil (src p rest : Bytes) (d : Entries) (hs : GoString src)
    (hp : src = p ++ rest) (hb : Bencodes (.dict d) p) (hr : rest.getLast? = some 101) :
    DecodeDict src = .ok none := by
  subst hp
  obtain ⟨kvs, bs, rfl, h2, rfl⟩ := ben_dict_inv hb
  have h3 := innerDecodeDict_complete (rest := rest) hs h2 (by simp)
  have hne : rest ≠ [] := by rintro rfl; simp at hr
  have hl : 0 < rest.length := List.length_pos_iff.2 hne
  unfold DecodeDict
  rw [if_neg (by simp; omega), if_neg, h3]
  · simp; omega
  · rw [← List.getLast?_eq_getElem?, List.getLast?_append, hr]; simp

/-- nil-nil is returned in no other situation -/
theorem C08_dict_nil_nil_only_leftover (src : Bytes) (hs : GoString src) (h : DecodeDict src = .ok none) :
    ∃ p rest d, src = p ++ rest ∧ rest ≠ [] ∧ Bencodes (.dict d) p := by
  unfold DecodeDict at h
  split at h
  · cases h
  · split at h
    · cases h
    · obtain ⟨⟨x, n⟩, h1, h2⟩ := Res.bind_eq_ok.1 h
      simp only at h2
      split at h2
      · rename_i hn
        obtain ⟨_, h3, _⟩ := innerDecodeDict_sound hs h1
        rw [seg_take src (by omega)] at h3
        refine ⟨src.take n, src.drop n, x, by simp, ?_, h3⟩
        intro h0
        have := congrArg List.length h0
        simp at this; omega
      · cases h2

/-- the property callers want (an error on every incomplete dictionary) is false of the code -/
theorem C08_wanted_is_false :
    DecodeDict b!"d1:ali5ee" = .ok (some [(b!"a", .list [.int 5])]) ∧ DecodeDict b!"de1:ae" = .ok none := by
  decide +kernel

/-! ## C09 -/

theorem C09_decoders_terminate (src : Bytes) :
    DecodeInteger src ≠ .diverge ∧ DecodeString src ≠ .diverge ∧ DecodeSlice src ≠ .diverge ∧
    DecodeDict src ≠ .diverge ∧ DecodeDictNoLimit src ≠ .diverge := by
  have hd : (innerDecodeDict src 0).tame := by
    unfold innerDecodeDict
    split
    · rfl
    · split
      · trivial
      · exact Res.tame_bind ((decode_tame _).2.2 _ _ (by simp [decodeBudget]; omega)) (fun _ _ => trivial)
  have hl : (innerDecodeSlice src 0).tame := by
    unfold innerDecodeSlice
    split
    · rfl
    · split
      · trivial
      · exact Res.tame_bind ((decode_tame _).2.1 _ _ (by simp [decodeBudget]; omega)) (fun _ _ => trivial)
  have notame : ∀ {α : Type} {r : Res α}, r.tame → r ≠ .diverge := by
    intro α r h h'; subst h'; exact h
  refine ⟨?_, ?_, ?_, ?_, ?_⟩
  · rcases DecodeInteger_total src with h | ⟨_, _, h, _, _⟩ <;> rw [h] <;> simp
  · unfold DecodeString
    repeat' split
    all_goals simp
    all_goals repeat' split
    all_goals simp
  · unfold DecodeSlice
    split
    · simp
    · split
      · simp
      · refine notame (Res.tame_bind hl (fun a _ => ?_))
        split; split <;> trivial
  · unfold DecodeDict
    split
    · simp
    · split
      · simp
      · refine notame (Res.tame_bind hd (fun a _ => ?_))
        split; split <;> trivial
  · unfold DecodeDictNoLimit
    split
    · simp
    · split
      · simp
      · exact notame hd

/-- every nested decoding step consumes at least one byte (whatever the budget) -/
theorem C09_progress (budget : Nat) (src : Bytes) (i n : Nat) (v : GoVal)
    (h : decodeItem budget src i = .ok (v, n)) : i < n := (decode_progress budget).1 _ _ _ h

example : decodeItem 100 b!"ll1:aee" 0 = .ok (.list [.list [.str b!"a"]], 7) := by decide +kernel

/-! ## C10 -/

theorem C10_integer_no_panic (src : Bytes) : (DecodeInteger src).noPanic := by
  rcases DecodeInteger_total src with h | ⟨_, _, h, _, _⟩ <;> rw [h] <;> trivial

theorem C10_dict_no_panic (src : Bytes) (hs : InMemory src) (hr : DigitRunsAtMost 18 src) :
    (DecodeDict src).noPanic := by
  have hs' : src.length < 2 ^ 62 := Nat.lt_trans hs (by decide)
  unfold DecodeDict
  split
  · trivial
  · split
    · trivial
    · rename_i hse
      simp only [not_or, ne_eq, Decidable.not_not] at hse
      refine Res.noPanic_bind ?_ (fun a _ => by split; split <;> trivial)
      unfold innerDecodeDict
      rw [hse.1]
      simp only
      rw [if_neg (by simp)]
      exact Res.noPanic_bind ((decode_noPanic hs' hse.2 hr _).2.2 _ _ (by simp [decodeBudget]; omega)) (fun _ _ => trivial)

theorem C10_slice_no_panic (src : Bytes) (hs : InMemory src) (hr : DigitRunsAtMost 18 src) :
    (DecodeSlice src).noPanic := by
  have hs' : src.length < 2 ^ 62 := Nat.lt_trans hs (by decide)
  unfold DecodeSlice
  split
  · trivial
  · split
    · trivial
    · rename_i hse
      simp only [not_or, ne_eq, Decidable.not_not] at hse
      refine Res.noPanic_bind ?_ (fun a _ => by split; split <;> trivial)
      unfold innerDecodeSlice
      rw [hse.1]
      simp only
      rw [if_neg (by simp)]
      exact Res.noPanic_bind ((decode_noPanic hs' hse.2 hr _).2.1 _ _ (by simp [decodeBudget]; omega)) (fun _ _ => trivial)

/-- inputs ending in `e` and without digit runs longer than 18 do not panic the unlimited decoder either -/
theorem C10_nolimit_no_panic (src : Bytes) (hs : InMemory src) (hr : DigitRunsAtMost 18 src)
    (he : src.getLast? = some 101) : (DecodeDictNoLimit src).noPanic := by
  have hs' : src.length < 2 ^ 62 := Nat.lt_trans hs (by decide)
  have he' : EndsInE src := by unfold EndsInE; rw [← List.getLast?_eq_getElem?, he]
  unfold DecodeDictNoLimit
  split
  · trivial
  · split
    · trivial
    · rename_i hse
      simp only [ne_eq, Decidable.not_not] at hse
      unfold innerDecodeDict
      rw [hse]
      simp only
      rw [if_neg (by simp)]
      exact Res.noPanic_bind ((decode_noPanic hs' he' hr _).2.2 _ _ (by simp [decodeBudget]; omega)) (fun _ _ => trivial)

/-- all panics are Go runtime panics -/
theorem C10_only_runtime_panics (src : Bytes) (p : Panic) :
    (DecodeString src = .panic p → p = .runtime) ∧ (DecodeSlice src = .panic p → p = .runtime) ∧
    (DecodeDict src = .panic p → p = .runtime) ∧ (DecodeDictNoLimit src = .panic p → p = .runtime) := by
  have hd : (innerDecodeDict src 0).tame := by
    unfold innerDecodeDict
    split
    · rfl
    · split
      · trivial
      · exact Res.tame_bind ((decode_tame _).2.2 _ _ (by simp [decodeBudget]; omega)) (fun _ _ => trivial)
  have hl : (innerDecodeSlice src 0).tame := by
    unfold innerDecodeSlice
    split
    · rfl
    · split
      · trivial
      · exact Res.tame_bind ((decode_tame _).2.1 _ _ (by simp [decodeBudget]; omega)) (fun _ _ => trivial)
  have tm : ∀ {α : Type} {r : Res α}, r.tame → r = .panic p → p = .runtime := by
    intro α r h h'; subst h'; exact h
  refine ⟨?_, ?_, ?_, ?_⟩
  · have : (DecodeString src).tame := by
      unfold DecodeString
      split
      · trivial
      · simp only
        split
        · trivial
        · split
          · rfl
          · split
            · trivial
            · split
              · rfl
              · split <;> trivial
    exact tm this
  · refine tm ?_
    unfold DecodeSlice
    split
    · trivial
    · split
      · trivial
      · refine Res.tame_bind hl (fun a _ => ?_)
        split; split <;> trivial
  · refine tm ?_
    unfold DecodeDict
    split
    · trivial
    · split
      · trivial
      · refine Res.tame_bind hd (fun a _ => ?_)
        split; split <;> trivial
  · refine tm ?_
    unfold DecodeDictNoLimit
    split
    · trivial
    · split
      · trivial
      · exact hd

/-- each kind of panic does happen -/
theorem C10_panics_happen :
    DecodeString b!"12" = .panic .runtime ∧ DecodeDictNoLimit b!"di12" = .panic .runtime ∧
    DecodeDict b!"d9223372036854775807:e" = .panic .runtime ∧
    DecodeSlice b!"l9223372036854775807:e" = .panic .runtime := by decide +kernel

example : InMemory b!"d2:abi5ee" ∧ DigitRunsAtMost 18 b!"d2:abi5ee" := by
  refine ⟨by simp [InMemory], fun ds hi _ => ?_⟩
  have := hi.length_le
  simp at this; omega

/-! ## C11 -/

theorem C11_prefix_free (v w : GoVal) (b rest : Bytes) (hs : GoString (b ++ rest ++ b!"e"))
    (hv : EncodingOf v b) (hw : EncodingOf w (b ++ rest)) : rest = [] ∧ DeepEq v w := by
  obtain ⟨v', hv1, hv2, hv3⟩ := hv
  obtain ⟨w', hw1, hw2, hw3⟩ := hw
  have e1 := decodesAt_of_ben hs (ben_encodeItem _ _ hv1 hv3) 0 (rest ++ b!"e") (2 * (b ++ rest).length)
    (by simp) (Or.inl (by simp)) (by simp; omega)
  have e2 := decodesAt_of_ben hs (ben_encodeItem _ _ hw1 hw3) 0 b!"e" (2 * (b ++ rest).length)
    (by simp) (Or.inl (by simp)) (by omega)
  rw [e1] at e2
  simp only [Res.ok.injEq, Prod.mk.injEq, List.length_append] at e2
  obtain ⟨h1, h2⟩ := e2
  refine ⟨List.length_eq_zero_iff.1 (by omega), ?_⟩
  subst h1
  exact hv2.trans hw2.symm

theorem C11_unambiguous (v w : GoVal) (b : Bytes) (hs : GoString (b ++ b!"e"))
    (hv : EncodingOf v b) (hw : EncodingOf w b) : DeepEq v w :=
  (C11_prefix_free v w b [] (by simpa using hs) hv (by simpa using hw)).2

example : EncodingOf (.dict [(b!"a", .int 1)]) b!"d1:ai1ee" :=
  ⟨.dict [(b!"a", .int 1)], by simp [GoVal.WF, GoVal.WFD, IsInt64], .refl _, by decide +kernel⟩

/-! ## C12 -/

theorem C12_encoder_accepts_exactly (v w : GoVal) (hv : v.WF) (hw : Listing v w) :
    (∃ b, encodeItem w = .ok b) ↔ Encodable v := by
  rw [encodeItem_ok_iff]
  exact ⟨encodable_deepEq hw.2.symm hv, encodable_deepEq hw.2 hw.1⟩

theorem C12_dict (d w : Entries) (hd : GoVal.WF (.dict d)) (hw : Listing (.dict d) (.dict w)) :
    (∃ b, EncodeDict (some w) = .ok b) ↔ Encodable (.dict d) :=
  C12_encoder_accepts_exactly _ _ hd hw

theorem C12_slice (l w : List GoVal) (hd : GoVal.WF (.list l)) (hw : Listing (.list l) (.list w)) :
    (∃ b, EncodeSlice (some w) = .ok b) ↔ Encodable (.list l) :=
  C12_encoder_accepts_exactly _ _ hd hw

theorem C12_nil_containers : EncodeDict none = .err .wrongParam ∧ EncodeSlice none = .err .wrongParam := by
  decide

example : encodeItem (.list [.int 1, .namedInt 203]) = .panic .runtime ∧
    encodeItem (.dict [(b!"a", .nilList)]) = .err .wrongParam := by decide +kernel

end P2P

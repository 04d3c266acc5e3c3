import Verif.Props.Fatal
/-! # C06, C07, C08: what happens on all the other inputs -/
namespace P2P

theorem InMemory.goString {src : Bytes} (h : InMemory src) : GoString src := Nat.lt_trans h (by decide)

/-- the four outcomes of a decoder -/
theorem Res.cases4 {α : Type} (r : Res α) (hd : r ≠ .diverge) : (∃ a, r = .ok a) ∨ (∃ e, r = .err e) ∨ ∃ p, r = .panic p := by
  cases r with
  | ok a => exact .inl ⟨a, rfl⟩
  | err e => exact .inr (.inl ⟨e, rfl⟩)
  | panic p => exact .inr (.inr ⟨p, rfl⟩)
  | diverge => exact absurd rfl hd

/-- **C06** An input that does not begin with a bencoded dictionary, is not one cut off before its last closing bytes, and does not make the decoder panic (C10), is rejected with an error. -/
theorem C06_otherwise_error (src : Bytes) (hs : InMemory src) (h1 : ∀ d n, n ≤ src.length → ¬ Bencodes (.dict d) (src.take n))
    (h2 : ∀ d k, ¬ TruncatedBy (.dict d) k src) (h3 : ¬ FatalAt 0 src) : ∃ e, DecodeDictNoLimit src = .err e := by
  rcases (DecodeDictNoLimit src).cases4 (C09_decoders_terminate src).2.2.2.2 with ⟨⟨d, n⟩, h⟩ | h | ⟨p, h⟩
  · exfalso
    by_cases hn : n ≤ src.length
    · exact h1 d n hn ((C06_dict_language src d n hs.goString hn).1 h)
    · by_cases hl : 2 ≤ src.length
      · exact h2 d _ ((C06_dict_truncated src d n hs.goString hl (by omega)).1 h)
      · unfold DecodeDictNoLimit at h
        rw [if_pos (by omega)] at h
        cases h
  · exact h
  · have := (C10_only_runtime_panics src p).2.2.2 h
    subst this
    exact absurd ((C10_nolimit_exact src hs).1 h).2 h3

/-- **C07** Every input that is not a complete bencoded list and does not make the decoder panic (C10) is rejected with an error. -/
theorem C07_otherwise_error (src : Bytes) (hs : InMemory src) (h1 : ∀ l, ¬ Bencodes (.list l) src)
    (h3 : src.getLast? = some 101 → ¬ FatalAt 0 src) : ∃ e, DecodeSlice src = .err e := by
  rcases (DecodeSlice src).cases4 (C09_decoders_terminate src).2.2.1 with ⟨l, h⟩ | h | ⟨p, h⟩
  · exact absurd ((C07_list_language src l hs.goString).1 h) (h1 l)
  · exact h
  · have := (C10_only_runtime_panics src p).2.1 h
    subst this
    have := (C10_slice_exact src hs).1 h
    exact absurd this.2.2 (h3 this.2.1)

/-- **C08** Exactly when `DecodeDict` returns neither a dictionary nor an error: the input ends in `e`, and a bencoded dictionary is followed by further bytes. -/
theorem C08_nil_nil_iff (src : Bytes) (hs : GoString src) :
    DecodeDict src = .ok none ↔ src.getLast? = some 101 ∧ ∃ p rest d, src = p ++ rest ∧ rest ≠ [] ∧ Bencodes (.dict d) p := by
  constructor
  · intro h
    refine ⟨?_, C08_dict_nil_nil_only_leftover src hs h⟩
    rw [List.getLast?_eq_getElem?]
    refine Classical.byContradiction fun hne => ?_
    unfold DecodeDict at h
    split at h
    · cases h
    · rename_i hl
      rw [if_pos (by first | exact hne | exact .inr hne)] at h
      cases h
  · rintro ⟨hl, p, rest, d, rfl, hne, hb⟩
    refine C08_dict_leftover_nil_nil _ p rest d hs rfl hb ?_
    rw [List.getLast?_append] at hl
    cases hg : rest.getLast? with
    | none => exact absurd (List.getLast?_eq_none_iff.1 hg) hne
    | some x => rw [hg] at hl; simpa using hl

/-- **C08** All other inputs that do not make the decoder panic (C10) are rejected with an error. -/
theorem C08_otherwise_error (src : Bytes) (hs : InMemory src) (h1 : ∀ d, ¬ Bencodes (.dict d) src)
    (h2 : src.getLast? = some 101 → (∀ d k, ¬ TruncatedBy (.dict d) k src) ∧ (∀ d p rest, src = p ++ rest → ¬ Bencodes (.dict d) p) ∧ ¬ FatalAt 0 src) :
    ∃ e, DecodeDict src = .err e := by
  rcases (DecodeDict src).cases4 (C09_decoders_terminate src).2.2.2.1 with ⟨l, h⟩ | h | ⟨p, h⟩
  · exfalso
    cases l with
    | none =>
      obtain ⟨hl, p, rest, d, e, -, hb⟩ := (C08_nil_nil_iff src hs.goString).1 h
      exact (h2 hl).2.1 d p rest e hb
    | some d =>
      rcases (C08_dict_whole src d hs.goString).1 h with hb | ⟨hl, k, ht⟩
      · exact h1 d hb
      · exact (h2 hl).1 d k ht
  · exact h
  · have := (C10_only_runtime_panics src p).2.2.1 h
    subst this
    have := (C10_dict_exact src hs).1 h
    exact absurd this.2.2 (h2 this.2.1).2.2

/-- the hypotheses of `C07_otherwise_error` and `C08_otherwise_error`, for concrete inputs -/
example : (∀ l, ¬ Bencodes (.list l) b!"l1:a") ∧ b!"l1:a".getLast? ≠ some 101 ∧ (∀ d, ¬ Bencodes (.dict d) b!"d1:a1:b") ∧ b!"d1:a1:b".getLast? ≠ some 101 := by
  refine ⟨fun l h => ?_, by decide +kernel, fun d h => ?_, by decide +kernel⟩
  · have := (C07_list_language b!"l1:a" l (by unfold GoString; decide)).2 h
    rw [show DecodeSlice b!"l1:a" = .err .wrongParam by decide +kernel] at this
    cases this
  · have := (C08_dict_whole b!"d1:a1:b" d (by unfold GoString; decide)).2 (.inl h)
    rw [show DecodeDict b!"d1:a1:b" = .err .wrongParam by decide +kernel] at this
    cases this
/-- the outcomes on concrete inputs -/
example : (∃ e, DecodeDictNoLimit b!"l1:ae" = .err e) ∧ (∃ e, DecodeSlice b!"l1:a" = .err e) ∧ (∃ e, DecodeSlice b!"le1:ae" = .err e) ∧
    (∃ e, DecodeDict b!"d1:a1:b" = .err e) ∧ DecodeDict b!"de1:ae" = .ok none :=
  ⟨⟨.wrongParam, by decide +kernel⟩, ⟨.wrongParam, by decide +kernel⟩, ⟨.wrongParam, by decide +kernel⟩, ⟨.wrongParam, by decide +kernel⟩, by decide +kernel⟩

end P2P

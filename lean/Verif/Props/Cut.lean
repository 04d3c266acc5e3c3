import Verif.Spec.Part
import Verif.Props.Bencode
/-! # Property C88: datagrams longer than the receive buffer -/
namespace P2P

theorem PartOf.trans_deep {a b c : GoVal} (h : PartOf a b) (h' : DeepEq b c) : PartOf a c := by
  induction h generalizing c with
  | same h => exact .same (h.trans h')
  | list hlen h ih =>
    cases h' with
    | refl => exact .list hlen h
    | list hl2 h2 =>
      rename_i l m m'
      refine .list (by omega) fun i v w hv hw => ?_
      have hi : i < l.length := (List.getElem?_eq_some_iff.1 hv).1
      have hm : m[i]? = some m[i] := List.getElem?_eq_getElem (by omega)
      exact ih i v _ hv hm (h2 i _ _ hm hw)
  | dict hd1 h ih =>
    cases h' with
    | refl => exact .dict hd1 h
    | dict hdom h2 =>
      rename_i e d d'
      refine .dict (fun k hk => (hdom k).symm.trans (hd1 k hk)) fun k v w hv hw => ?_
      obtain ⟨x, hx⟩ := Option.isSome_iff_exists.1 (hd1 k (by rw [hv]; rfl))
      exact ih k v x hv hx (h2 k x w hx hw)

/-- two values read from the beginning of the same text are the same -/
theorem ben_item_det {p p' r r' : Bytes} {v v' : GoVal} (hs : (p ++ r).length + 1 < 2 ^ 63) (he : p ++ r = p' ++ r')
    (h : Ben (.item v) p) (h' : Ben (.item v') p') : p = p' ∧ v = v' ∧ r = r' := by
  have hs' : (p ++ r ++ b!"e").length < 2 ^ 63 := by simp at hs ⊢; omega
  have e1 := decodesAt_of_ben hs' h 0 (r ++ b!"e") (2 * (p ++ r).length) (by simp) (Or.inl (by simp)) (by simp; omega)
  have e2 := decodesAt_of_ben hs' h' 0 (r' ++ b!"e") (2 * (p ++ r).length) (by rw [he]; simp) (Or.inl (by simp)) (by rw [he]; simp; omega)
  rw [e1] at e2
  simp only [Res.ok.injEq, Prod.mk.injEq] at e2
  obtain ⟨h1, h2⟩ := e2
  have h3 : p.length = p'.length := by omega
  obtain ⟨h4, h5⟩ := List.append_inj he h3
  exact ⟨h4, h1, h5⟩

theorem ben_items_append {l m : List GoVal} {a b : Bytes} (h : Ben (.items l) a) (h' : Ben (.items m) b) :
    Ben (.items (l ++ m)) (a ++ b) := by
  induction l generalizing a with
  | nil => rw [ben_nil_of h]; exact h'
  | cons v r ih =>
    cases h with
    | cons h1 h2 => rw [List.append_assoc]; exact .cons h1 (ih h2)

theorem ben_entries_append {l m : Entries} {a b : Bytes} (h : Ben (.entries l) a) (h' : Ben (.entries m) b) :
    Ben (.entries (l ++ m)) (a ++ b) := by
  induction l generalizing a with
  | nil => rw [ben_enil_of h]; exact h'
  | cons v r ih =>
    cases h with
    | econs h1 h2 h3 =>
      have := Ben.econs h1 h2 (ih h3)
      simpa using this

theorem truncatedBy_completed {v : GoVal} {k : Nat} {p : Bytes} (h : TruncatedBy v k p) :
    Ben (.item v) (p ++ List.replicate k 101) := by
  induction h with
  | list h1 h2 => exact .list h1
  | listIn h1 h2 ih =>
    have := Ben.list (ben_items_append h1 (.cons ih .nil))
    rw [List.replicate_succ']
    simpa using this
  | dict h1 h2 => exact .dict h1
  | dictIn h1 h2 h3 ih =>
    have := Ben.dict (ben_entries_append h1 (.econs h2 ih .enil))
    rw [List.replicate_succ']
    simpa using this

/-- what stands at the beginning of an item is not the end of a list -/
theorem ben_item_first {v : GoVal} {p : Bytes} (h : Ben (.item v) p) : ∃ c r, p = c :: r ∧ c ≠ 101 := by
  cases h with
  | int h => exact ⟨105, _, rfl, by decide⟩
  | list h => exact ⟨108, _, rfl, by decide⟩
  | dict h => exact ⟨100, _, rfl, by decide⟩
  | str h1 h2 =>
    rename_i ds s
    obtain ⟨h3, h4⟩ := h1
    cases ds with
    | nil => exact absurd rfl h3
    | cons c r =>
      refine ⟨c, r ++ b!":" ++ s, by simp, ?_⟩
      rintro rfl
      exact absurd (h4 101 (by simp)) (by decide)

theorem items_prefix {l m : List GoVal} {bs r rest : Bytes} (h : Ben (.items l) bs) (hm : GoVal.WFL m) (hr : encodeElems m = .ok r)
    (he : bs ++ rest = r ++ b!"e") (hs : r.length + 2 < 2 ^ 63) :
    ∃ m2 r2, m = l ++ m2 ∧ encodeElems m2 = .ok r2 ∧ rest = r2 ++ b!"e" := by
  induction l generalizing m bs r with
  | nil => rw [ben_nil_of h] at he; exact ⟨m, r, rfl, hr, by simpa using he⟩
  | cons v l ih =>
    cases h with
    | cons h1 h2 =>
      rename_i p bs
      cases m with
      | nil =>
        cases hr
        obtain ⟨c, x, rfl, hc⟩ := ben_item_first h1
        simp at he
        exact absurd he.1 hc
      | cons w m =>
        simp only [encodeElems] at hr
        obtain ⟨t, g1, g2⟩ := Res.bind_eq_ok.1 hr
        obtain ⟨u, g3, g4⟩ := Res.bind_eq_ok.1 g2
        cases g4
        have e' : p ++ (bs ++ rest) = t ++ (u ++ b!"e") := by simpa using he
        have hl := congrArg List.length e'
        simp at hl hs
        obtain ⟨rfl, rfl, e2⟩ := ben_item_det (by simp; omega) e' h1 (ben_encodeItem w t hm.1 g1)
        obtain ⟨m2, r2, rfl, k2, k3⟩ := ih h2 hm.2 g3 e2 (by omega)
        exact ⟨m2, r2, rfl, k2, k3⟩

theorem entries_prefix {l m : Entries} {bs r rest : Bytes} (h : Ben (.entries l) bs) (hm : GoVal.WFD m) (hr : encodeEntries m = .ok r)
    (he : bs ++ rest = r ++ b!"e") (hs : r.length + 2 < 2 ^ 63) :
    ∃ m2 r2, m = l ++ m2 ∧ encodeEntries m2 = .ok r2 ∧ rest = r2 ++ b!"e" := by
  induction l generalizing m bs r with
  | nil => rw [ben_enil_of h] at he; exact ⟨m, r, rfl, hr, by simpa using he⟩
  | cons kv l ih =>
    cases h with
    | econs h1 h2 h3 =>
      rename_i k v p q bs
      cases m with
      | nil =>
        cases hr
        obtain ⟨c, x, rfl, hc⟩ := ben_item_first h1
        simp at he
        exact absurd he.1 hc
      | cons w m =>
        obtain ⟨k', w⟩ := w
        simp only [encodeEntries] at hr
        obtain ⟨t, g1, g2⟩ := Res.bind_eq_ok.1 hr
        obtain ⟨u, g3, g4⟩ := Res.bind_eq_ok.1 g2
        cases g4
        have e' : p ++ (q ++ (bs ++ rest)) = EncodeString k' ++ (t ++ (u ++ b!"e")) := by simpa using he
        have hl := congrArg List.length e'
        simp at hl hs
        obtain ⟨rfl, hk, e2⟩ := ben_item_det (by simp; omega) e' h1 (ben_encodeString k')
        cases hk
        obtain ⟨rfl, rfl, e3⟩ := ben_item_det (by simp; omega) e2 h2 (ben_encodeItem w t hm.1 g1)
        obtain ⟨m2, r2, rfl, k2, k3⟩ := ih h3 hm.2 g3 e3 (by omega)
        exact ⟨m2, r2, rfl, k2, k3⟩

theorem lookup_append_some {a b : Entries} {k : Bytes} {v : GoVal} (h : a.lookup k = some v) : (a ++ b).lookup k = some v := by
  induction a with
  | nil => cases h
  | cons x r ih =>
    obtain ⟨k', v'⟩ := x
    simp only [List.cons_append, List.lookup_cons] at h ⊢
    split
    · rename_i g; rw [g] at h; exact h
    · rename_i g; rw [g] at h; exact ih h

/-- the text of a string begins with a digit -/
theorem ben_str_head {s b : Bytes} {c : UInt8} (h : Ben (.item (.str s)) (c :: b)) : isDigit c = true := by
  cases h' : (c :: b) with
  | nil => cases h'
  | cons c' b' =>
    rw [h'] at h
    cases h' 
    generalize hp : (c :: b) = p at h
    cases h with
    | str h1 h2 =>
      rename_i ds
      cases ds with
      | nil => exact absurd rfl h1.1
      | cons x r =>
        simp at hp
        rw [hp.1]
        exact h1.2 x (by simp)

theorem encodeItem_list {w : GoVal} {b : Bytes} (hw : w.WF) (h : encodeItem w = .ok (108 :: b)) :
    ∃ l r, w = .list l ∧ encodeElems l = .ok r ∧ b = r ++ b!"e" := by
  have hb := ben_encodeItem w _ hw h
  cases w <;> simp only [encodeItem] at h
  case list l =>
    obtain ⟨r, h1, h2⟩ := Res.bind_eq_ok.1 h
    refine ⟨l, r, rfl, h1, ?_⟩
    simpa using (Res.ok.inj h2).symm
  case int i => simp [EncodeInteger] at h
  case dict d =>
    obtain ⟨r, h1, h2⟩ := Res.bind_eq_ok.1 h
    simp at h2
  case str s => exact absurd (ben_str_head hb) (by decide)
  all_goals simp at h

theorem encodeItem_dict {w : GoVal} {b : Bytes} (hw : w.WF) (h : encodeItem w = .ok (100 :: b)) :
    ∃ d r, w = .dict d ∧ encodeEntries d = .ok r ∧ b = r ++ b!"e" := by
  have hb := ben_encodeItem w _ hw h
  cases w <;> simp only [encodeItem] at h
  case dict l =>
    obtain ⟨r, h1, h2⟩ := Res.bind_eq_ok.1 h
    refine ⟨l, r, rfl, h1, ?_⟩
    simpa using (Res.ok.inj h2).symm
  case int i => simp [EncodeInteger] at h
  case list d =>
    obtain ⟨r, h1, h2⟩ := Res.bind_eq_ok.1 h
    simp at h2
  case str s => exact absurd (ben_str_head hb) (by decide)
  all_goals simp at h

/-- a truncated item that is the beginning of items is the beginning of the first of them -/
theorem truncated_in {v w : GoVal} {k : Nat} {p t u rest : Bytes} (h : TruncatedBy v k p) (hw : w.WF) (ht : encodeItem w = .ok t)
    (he : p ++ rest = t ++ u) (hs : (t ++ u).length + 1 < 2 ^ 63) (hk : k < 2 ^ 62) (hp : p.length < 2 ^ 62) : ∃ rest', t = p ++ rest' := by
  rcases List.append_eq_append_iff.1 he with ⟨a, h1, h2⟩ | ⟨a, h1, h2⟩
  · exact ⟨a, h1⟩
  · -- `t` would be a part of `p`
    have hc := truncatedBy_completed h
    have := ben_item_det (p := p ++ List.replicate k 101) (r := []) (p' := t) (r' := a ++ List.replicate k 101)
      (by simp; omega) (by rw [h1]; simp) hc (ben_encodeItem w t hw ht)
    have hl := congrArg List.length this.1
    have := truncatedBy_pos h
    rw [h1] at hl
    simp at hl
    omega

theorem nodup_mapOf_append {a b : Entries} {k : Bytes} {v w : GoVal} (h : ((a ++ (k, w) :: b).map Prod.fst).Nodup) :
    mapOf (a ++ [(k, v)]) = a ++ [(k, v)] := by
  apply mapOf_nodup
  have : List.Sublist (a.map Prod.fst ++ [k]) ((a ++ (k, w) :: b).map Prod.fst) := by
    simp
  simpa using List.Nodup.sublist this h

theorem truncated_part {v : GoVal} {k : Nat} {p : Bytes} (h : TruncatedBy v k p) :
    ∀ (w : GoVal) (b rest : Bytes), w.WF → encodeItem w = .ok b → b = p ++ rest → b.length < 2 ^ 61 → k < 2 ^ 62 → PartOf v w := by
  induction h with
  | list h1 h2 =>
    rename_i l bs
    intro w b rest hw hb he hs hk
    subst he
    obtain ⟨m, r, rfl, g1, g2⟩ := encodeItem_list (b := bs ++ rest) hw hb
    have hl := congrArg List.length g2
    simp at hl hs
    obtain ⟨m2, r2, rfl, -, -⟩ := items_prefix h1 hw g1 g2 (by omega)
    refine .list (by simp) fun i x y hx hy => ?_
    rw [List.getElem?_append_left (List.getElem?_eq_some_iff.1 hx).1, hx] at hy
    cases hy
    exact .same (.refl _)
  | listIn h1 h2 ih =>
    rename_i l bs p v k
    intro w b rest hw hb he hs hk
    subst he
    obtain ⟨m, r, rfl, g1, g2⟩ := encodeItem_list (b := bs ++ p ++ rest) hw (by simpa using hb)
    have hl := congrArg List.length g2
    simp at hl hs
    obtain ⟨m2, r2, rfl, g3, g4⟩ := items_prefix h1 hw g1 (by simpa using g2) (by omega)
    cases m2 with
    | nil =>
      cases g3
      obtain ⟨c, x, hx, hc⟩ := truncatedBy_head h2
      subst hx
      simp at g4
      exact absurd g4.1 hc
    | cons w1 m3 =>
      simp only [encodeElems] at g3
      obtain ⟨t, k1, k2⟩ := Res.bind_eq_ok.1 g3
      obtain ⟨u, k3, k4⟩ := Res.bind_eq_ok.1 k2
      cases k4
      have hw1 : w1.WF := wfL_iff.1 hw w1 (by simp)
      have hl4 := congrArg List.length g4
      simp at hl4
      obtain ⟨rest', hr'⟩ := truncated_in (u := u ++ b!"e") h2 hw1 k1 (by simpa using g4) (by simp; omega) (by omega) (by omega)
      have hp := ih w1 t rest' hw1 k1 hr' (by omega) (by omega)
      refine .list (by simp) fun i x y hx hy => ?_
      by_cases hi : i < l.length
      · rw [List.getElem?_append_left hi] at hx hy
        rw [hx] at hy; cases hy; exact .same (.refl _)
      · rw [List.getElem?_append_right (by omega)] at hx hy
        have : i - l.length = 0 := by
          have := (List.getElem?_eq_some_iff.1 hx).1
          simpa using this
        rw [this] at hx hy
        simp at hx hy
        subst hx hy
        exact hp
  | dict h1 h2 =>
    rename_i l bs
    intro w b rest hw hb he hs hk
    subst he
    obtain ⟨m, r, rfl, g1, g2⟩ := encodeItem_dict (b := bs ++ rest) hw hb
    have hl := congrArg List.length g2
    simp at hl hs
    obtain ⟨m2, r2, rfl, -, -⟩ := entries_prefix h1 hw.2 g1 g2 (by omega)
    have hn : (l.map Prod.fst).Nodup := by
      have := hw.1
      rw [List.map_append] at this
      exact (List.nodup_append.1 this).1
    rw [mapOf_nodup hn]
    refine .dict (fun k hk => ?_) fun k x y hx hy => ?_
    · obtain ⟨x, hx⟩ := Option.isSome_iff_exists.1 hk
      rw [lookup_append_some hx]; rfl
    · rw [lookup_append_some hx] at hy; cases hy; exact .same (.refl _)
  | dictIn h1 h2 h3 ih =>
    rename_i l key bs q p v k
    intro w b rest hw hb he hs hk
    subst he
    obtain ⟨m, r, rfl, g1, g2⟩ := encodeItem_dict (b := bs ++ q ++ p ++ rest) hw (by simpa using hb)
    have hl := congrArg List.length g2
    simp at hl hs
    obtain ⟨m2, r2, rfl, g3, g4⟩ := entries_prefix (rest := q ++ p ++ rest) h1 hw.2 g1 (by simpa using g2) (by omega)
    cases m2 with
    | nil =>
      cases g3
      obtain ⟨c, x, hx, hc⟩ := ben_item_first h2
      subst hx
      simp at g4
      exact absurd g4.1 hc
    | cons w1 m3 =>
      obtain ⟨k', w1⟩ := w1
      simp only [encodeEntries] at g3
      obtain ⟨t, k1, k2⟩ := Res.bind_eq_ok.1 g3
      obtain ⟨u, k3, k4⟩ := Res.bind_eq_ok.1 k2
      cases k4
      have hw1 : w1.WF := wfD_iff.1 hw.2 (k', w1) (by simp)
      have hl4 := congrArg List.length g4
      simp at hl4
      obtain ⟨rfl, hkk, g5⟩ := ben_item_det (r := p ++ rest) (r' := t ++ (u ++ b!"e")) (by simp; omega) (by simpa using g4) h2 (ben_encodeString k')
      cases hkk
      obtain ⟨rest', hr'⟩ := truncated_in (u := u ++ b!"e") h3 hw1 k1 (by simpa using g5) (by simp; omega) (by omega) (by omega)
      have hp := ih w1 t rest' hw1 k1 hr' (by omega) (by omega)
      rw [nodup_mapOf_append (v := v) hw.1]
      refine .dict (fun x hx => ?_) fun x y z hy hz => ?_
      · rw [List.lookup_append] at hx ⊢
        cases hlx : l.lookup x with
        | some y => simp
        | none =>
          rw [hlx] at hx
          simp only [Option.none_or, List.lookup_cons, List.lookup_nil] at hx ⊢
          split at hx
          · rfl
          · cases hx
      · rw [List.lookup_append] at hy hz
        cases hlx : l.lookup x with
        | some y' =>
          rw [hlx] at hy hz
          simp at hy hz
          subst hy hz
          exact .same (.refl _)
        | none =>
          rw [hlx] at hy hz
          simp only [Option.none_or, List.lookup_cons, List.lookup_nil] at hy hz
          split at hy
          · rename_i hxk
            rw [hxk] at hz
            cases hy; cases hz
            exact hp
          · cases hy

theorem truncatedBy_le {v : GoVal} {k : Nat} {p : Bytes} (h : TruncatedBy v k p) : k ≤ p.length := by
  induction h with
  | list => simp
  | listIn => simp; omega
  | dict => simp
  | dictIn => simp; omega

/-- C88: whatever part of an encoded dictionary the receiver gets (`c` bytes of it), if it decodes at all then every string and every
integer in the result is one of the original dictionary, at the same place: entries and elements may be missing, nothing is changed. -/
theorem C88_cut {d : Entries} {b : Bytes} (hb : EncodingOf (.dict d) b) (hm : InMemory b) (c : Nat) {e : Entries} {n : Nat}
    (h : DecodeDictNoLimit (b.take c) = .ok (e, n)) : PartOf (.dict e) (.dict d) := by
  obtain ⟨w, hw1, hw2, hw3⟩ := hb
  simp only [InMemory] at hm
  have hben := ben_encodeItem w b hw1 hw3
  have hg : GoString (b.take c) := by simp [GoString]; omega
  by_cases hn : n ≤ (b.take c).length
  · have h1 := (C06_dict_language _ e n hg hn).1 h
    have h2 := ben_item_det (p := (b.take c).take n) (r := (b.take c).drop n ++ b.drop c) (p' := b) (r' := []) (v := .dict e) (v' := w)
      (by simp; omega) (by rw [← List.append_assoc, List.take_append_drop, List.take_append_drop, List.append_nil]) h1 hben
    rw [h2.2.1]
    exact .same hw2.symm
  · have h2 : 2 ≤ (b.take c).length := by
      unfold DecodeDictNoLimit at h
      split at h
      · cases h
      · omega
    have h1 := (C06_dict_truncated _ e n hg h2 (by omega)).1 h
    have hk := truncatedBy_le h1
    refine (truncated_part h1 w b (b.drop c) hw1 hw3 (by rw [List.take_append_drop]) (by omega) ?_).trans_deep hw2.symm
    simp only [List.length_take] at hk ⊢
    omega

end P2P

import Verif.Lemmas.Bencode
/-! Decoder: truncated inputs, progress, termination, panics. -/
namespace P2P

/-! ### truncated inputs -/

theorem dictLoop_entry {src q bs rest : Bytes} (hsz : src.length < 2 ^ 63) {k : Bytes} {i f : Nat}
    {acc : Entries} (hd : src.drop i = q ++ rest) (hr : rest ≠ []) (hq : Ben (.item (.str k)) q)
    (hf : 2 * q.length ≤ f) :
    dictLoop (f + 1) src i acc = (decodeItem f src (i + q.length) >>= fun x =>
      dictLoop f src x.2 (dictPut acc k x.1)) := by
  obtain ⟨c, t, rfl, hc⟩ := ben_item_head hq
  have hcc := (drop_cons (c := c) (t := t ++ rest) (by simpa using hd)).1
  have e1 := decodesAt_of_ben hsz hq i rest f hd (Or.inl hr) hf
  simp only [dictLoop, hcc, hc, if_false, e1, Res.bind_ok]

theorem truncatedBy_head {v : GoVal} {k : Nat} {p : Bytes} (h : TruncatedBy v k p) :
    ∃ c t, p = c :: t ∧ c ≠ 101 := by
  cases h with
  | list => exact ⟨108, _, rfl, by decide⟩
  | listIn => exact ⟨108, _, rfl, by decide⟩
  | dict => exact ⟨100, _, rfl, by decide⟩
  | dictIn => exact ⟨100, _, rfl, by decide⟩

theorem truncatedBy_pos {v : GoVal} {k : Nat} {p : Bytes} (h : TruncatedBy v k p) : 1 ≤ k := by
  cases h <;> omega

theorem get_none_of_ge {src : Bytes} {j : Nat} (h : src.length ≤ j) : src[j]? = none :=
  List.getElem?_eq_none h

/-- completeness for truncated containers -/
theorem decodes_truncated {src : Bytes} (hsz : src.length < 2 ^ 63) {v : GoVal} {k : Nat} {p : Bytes}
    (h : TruncatedBy v k p) : ∀ i f, src.drop i = p → 2 * p.length ≤ f → i < src.length →
      decodeItem f src i = .ok (v, src.length + k) := by
  induction h with
  | list hb hl =>
    rename_i l bs
    intro i f hd hf hi
    simp only [List.length_append, List.length_cons, List.length_nil] at hf
    cases f with
    | zero => omega
    | succ f =>
      have hd' : src.drop i = 108 :: bs := by simpa using hd
      obtain ⟨hc, ht, _⟩ := drop_cons hd'
      obtain ⟨f', hf', this⟩ := decodesAt_of_ben hsz hb (i + 1) [] f [] (by simpa using ht) (Or.inr hl) (by omega)
      have hlen : src.length = i + 1 + bs.length := by
        have := congrArg List.length hd'; simp at this; omega
      rw [sliceLoop_stop (by omega) (Or.inr (get_none_of_ge (j := i + 1 + bs.length) (by omega)))] at this
      simp only [decodeItem, hc, this, Res.bind_ok, Res.pure_eq]
      simp; omega
  | listIn hb ht ih =>
    rename_i l bs p v k
    intro i f hd hf hi
    simp only [List.length_append, List.length_cons, List.length_nil] at hf
    cases f with
    | zero => omega
    | succ f =>
      obtain ⟨c', t', hp, hc'⟩ := truncatedBy_head ht
      have hd' : src.drop i = 108 :: (bs ++ p) := by simpa using hd
      obtain ⟨hc, hdr, _⟩ := drop_cons hd'
      have hp0 : 0 < p.length := by simp [hp]
      obtain ⟨f', hf', this⟩ := decodesAt_of_ben hsz hb (i + 1) p f [] hdr
        (Or.inl (by simp [hp])) (by omega)
      have hdp := drop_append hdr
      have hcc := drop_cons (hdp.trans hp)
      cases f' with
      | zero => omega
      | succ f' =>
        have e := ih (i + 1 + bs.length) f' hdp (by omega) hcc.2.2
        simp only [sliceLoop, hcc.1, hc', if_false, e, Res.bind_ok] at this
        rw [sliceLoop_stop (by omega) (Or.inr (get_none_of_ge (j := src.length + k) (by omega)))] at this
        simp only [decodeItem, hc, this, Res.bind_ok, Res.pure_eq]
        simp; omega
  | dict hb hl =>
    rename_i l bs
    intro i f hd hf hi
    simp only [List.length_append, List.length_cons, List.length_nil] at hf
    cases f with
    | zero => omega
    | succ f =>
      have hd' : src.drop i = 100 :: bs := by simpa using hd
      obtain ⟨hc, ht, _⟩ := drop_cons hd'
      obtain ⟨f', hf', this⟩ := decodesAt_of_ben hsz hb (i + 1) [] f [] (by simpa using ht) (Or.inr hl) (by omega)
      have hlen : src.length = i + 1 + bs.length := by
        have := congrArg List.length hd'; simp at this; omega
      rw [dictLoop_stop (by omega) (Or.inr (get_none_of_ge (j := i + 1 + bs.length) (by omega)))] at this
      simp only [decodeItem, hc, this, Res.bind_ok, Res.pure_eq, mapOf]
      simp; omega
  | dictIn hb hq ht ih =>
    rename_i kvs key bs q p v k
    intro i f hd hf hi
    simp only [List.length_append, List.length_cons, List.length_nil] at hf
    have hq0 := ben_item_pos hq
    cases f with
    | zero => omega
    | succ f =>
      obtain ⟨c', t', hp, hc'⟩ := truncatedBy_head ht
      have hd' : src.drop i = 100 :: (bs ++ (q ++ p)) := by simpa using hd
      obtain ⟨hc, hdr, _⟩ := drop_cons hd'
      have hp0 : 0 < p.length := by simp [hp]
      obtain ⟨f', hf', this⟩ := decodesAt_of_ben hsz hb (i + 1) (q ++ p) f [] hdr
        (Or.inl (by simp [hp])) (by omega)
      have hdq := drop_append hdr
      have hdp := drop_append hdq
      have hcc := drop_cons (hdp.trans hp)
      cases f' with
      | zero => omega
      | succ f' =>
        rw [dictLoop_entry (bs := []) hsz hdq (by simp [hp]) hq (by omega)] at this
        have e := ih (i + 1 + bs.length + q.length) f' hdp (by omega) hcc.2.2
        rw [e] at this
        simp only [Res.bind_ok] at this
        rw [dictLoop_stop (by omega) (Or.inr (get_none_of_ge (j := src.length + k) (by omega)))] at this
        simp only [decodeItem, hc, this, Res.bind_ok, Res.pure_eq, mapOf, List.foldl_append]
        simp; omega

theorem decodeItem_str_lt {src : Bytes} (hsz : src.length < 2 ^ 63) {f i n : Nat} {s : Bytes}
    (h : decodeItem f src i = .ok (.str s, n)) : n < src.length := by
  cases f with
  | zero => simp [decodeItem] at h
  | succ f =>
    unfold decodeItem at h
    split at h
    · cases h
    · rename_i c hc
      split at h
      · obtain ⟨⟨x, m⟩, h1, h2⟩ := Res.bind_eq_ok.1 h
        cases h2
      · split at h
        · obtain ⟨⟨x, m⟩, h1, h2⟩ := Res.bind_eq_ok.1 h
          cases h2
        · split at h
          · obtain ⟨⟨x, m⟩, h1, h2⟩ := Res.bind_eq_ok.1 h
            cases h2
          · split at h
            · rename_i hcd
              obtain ⟨⟨x, m⟩, h1, h2⟩ := Res.bind_eq_ok.1 h
              cases h2
              obtain ⟨ds, hd, hds, hv, hm, hml⟩ := innerDecodeString_sound hsz hc hcd h1
              exact hml
            · cases h

theorem ben_nil_of {p : Bytes} (h : Ben (.items []) p) : p = [] := by
  generalize hs : Syn.items [] = s at h
  cases h <;> simp_all

theorem ben_enil_of {p : Bytes} (h : Ben (.entries []) p) : p = [] := by
  generalize hs : Syn.entries [] = s at h
  cases h <;> simp_all

/-- soundness for truncated containers -/
theorem truncated_sound {src : Bytes} (hsz : src.length < 2 ^ 63) (f : Nat) :
    (∀ i v n, decodeItem f src i = .ok (v, n) → src.length < n →
      TruncatedBy v (n - src.length) (src.drop i)) ∧
    (∀ i acc l j, sliceLoop f src i acc = .ok (l, j) → i ≤ src.length → src.length ≤ j →
      (j = src.length ∧ ∃ l', l = acc ++ l' ∧ Ben (.items l') (src.drop i) ∧
        ∀ v, l'.getLast? = some v → v.isStr = false) ∨
      (src.length < j ∧ ∃ l' v bs p, l = acc ++ l' ++ [v] ∧ Ben (.items l') bs ∧
        TruncatedBy v (j - src.length) p ∧ src.drop i = bs ++ p)) ∧
    (∀ i acc d j, dictLoop f src i acc = .ok (d, j) → i ≤ src.length → src.length ≤ j →
      (j = src.length ∧ ∃ kvs : Entries, d = kvs.foldl (fun d kv => dictPut d kv.1 kv.2) acc ∧
        Ben (.entries kvs) (src.drop i) ∧ ∀ kv, kvs.getLast? = some kv → kv.2.isStr = false) ∨
      (src.length < j ∧ ∃ (kvs : Entries) (key : Bytes) (v : GoVal) (bs q p : Bytes),
        d = (kvs ++ [(key, v)]).foldl (fun d kv => dictPut d kv.1 kv.2) acc ∧
        Ben (.entries kvs) bs ∧ Ben (.item (.str key)) q ∧
        TruncatedBy v (j - src.length) p ∧ src.drop i = bs ++ q ++ p)) := by
  induction f with
  | zero =>
    refine ⟨?_, ?_, ?_⟩
    · intro i v n h; simp [decodeItem] at h
    · intro i acc l j h; simp [sliceLoop] at h
    · intro i acc l j h; simp [dictLoop] at h
  | succ f ih =>
    obtain ⟨ihI, ihL, ihD⟩ := ih
    obtain ⟨sI, sL, sD⟩ := decode_sound hsz f
    refine ⟨?_, ?_, ?_⟩
    · intro i v n h hn
      unfold decodeItem at h
      split at h
      · cases h
      · rename_i c hc
        have hi := (List.getElem?_eq_some_iff.1 hc).1
        split at h
        · obtain ⟨⟨x, m⟩, h1, h2⟩ := Res.bind_eq_ok.1 h
          cases h2
          obtain ⟨body, hd, hb, hm, hml⟩ := innerDecodeInteger_sound h1
          omega
        · split at h
          · rename_i hc'
            subst hc'
            obtain ⟨⟨l, j⟩, h1, h2⟩ := Res.bind_eq_ok.1 h
            cases h2
            rw [drop_of_get hc]
            rcases ihL _ _ _ _ h1 (by omega) (by omega) with ⟨h3, l', h4, h5, h6⟩ | ⟨h3, l', v, bs, p, h4, h5, h6, h7⟩
            · simp only [List.nil_append] at h4
              subst h4
              have : j + 1 - src.length = 1 := by omega
              rw [this]
              exact .list h5 h6
            · simp only [List.nil_append] at h4
              subst h4
              have : j + 1 - src.length = (j - src.length) + 1 := by omega
              rw [this, h7]
              exact .listIn h5 h6
          · split at h
            · rename_i hc'
              subst hc'
              obtain ⟨⟨l, j⟩, h1, h2⟩ := Res.bind_eq_ok.1 h
              cases h2
              rw [drop_of_get hc]
              rcases ihD _ _ _ _ h1 (by omega) (by omega) with ⟨h3, l', h4, h5, h6⟩ | ⟨h3, l', key, v, bs, q, p, h4, h5, hq, h6, h7⟩
              · subst h4
                have : j + 1 - src.length = 1 := by omega
                rw [this]
                exact .dict h5 h6
              · subst h4
                have : j + 1 - src.length = (j - src.length) + 1 := by omega
                rw [this, h7]
                exact .dictIn h5 hq h6
            · split at h
              · rename_i hcd
                obtain ⟨⟨s, m⟩, h1, h2⟩ := Res.bind_eq_ok.1 h
                cases h2
                obtain ⟨ds, hd, hds, hv, hm, hml⟩ := innerDecodeString_sound hsz hc hcd h1
                omega
              · cases h
    · intro i acc l j h hi hj
      unfold sliceLoop at h
      split at h
      · rename_i hn
        cases h
        left
        exact ⟨by omega, [], by simp, by rw [List.drop_eq_nil_of_le hj]; exact .nil, by simp⟩
      · rename_i c hc
        have hic := (List.getElem?_eq_some_iff.1 hc).1
        split at h
        · cases h; omega
        · obtain ⟨⟨v, m⟩, h1, h2⟩ := Res.bind_eq_ok.1 h
          obtain ⟨h3, h4⟩ := sI _ _ _ h1
          simp only at h2
          by_cases hm : src.length < m
          · have ht := ihI _ _ _ h1 hm
            cases f with
            | zero => simp [sliceLoop] at h2
            | succ f =>
              rw [sliceLoop_stop (by omega) (Or.inr (get_none_of_ge (j := m) (by omega)))] at h2
              cases h2
              right
              exact ⟨hm, [], v, [], src.drop i, by simp, .nil, ht, by simp⟩
          · have hseg : src.drop i = seg src i m ++ src.drop m := by
              rw [seg_eq_slice src (by omega)]
              unfold slice
              have : src.drop m = (src.drop i).drop (m - i) := by
                rw [List.drop_drop]; congr 1; omega
              rw [this, List.take_append_drop]
            rcases ihL _ _ _ _ h2 (by omega) hj with ⟨h5, l', h6, h7, h8⟩ | ⟨h5, l', w, bs, p, h6, h7, h8, h9⟩
            · left
              refine ⟨h5, v :: l', by simp [h6], by rw [hseg]; exact .cons h4 h7, ?_⟩
              intro w hw
              rw [List.getLast?_cons] at hw
              cases hl : l'.getLast? with
              | some u => rw [hl] at hw; cases hw; exact h8 _ hl
              | none =>
                rw [hl] at hw; cases hw
                have hl0 : l' = [] := by simpa using hl
                subst hl0
                cases v with
                | str s =>
                  have := decodeItem_str_lt hsz h1
                  exfalso
                  have := congrArg List.length (ben_nil_of h7)
                  simp at this; omega
                | _ => rfl
            · right
              refine ⟨h5, v :: l', w, seg src i m ++ bs, p, by simp [h6], .cons h4 h7, h8, ?_⟩
              rw [hseg, h9]; simp
    · intro i acc d j h hi hj
      unfold dictLoop at h
      split at h
      · rename_i hn
        cases h
        left
        exact ⟨by omega, [], by simp, by rw [List.drop_eq_nil_of_le hj]; exact .enil, by simp⟩
      · rename_i c hc
        have hic := (List.getElem?_eq_some_iff.1 hc).1
        split at h
        · cases h; omega
        · obtain ⟨⟨kv, m⟩, h1, h2⟩ := Res.bind_eq_ok.1 h
          obtain ⟨h3, h4⟩ := sI _ _ _ h1
          simp only at h2
          split at h2
          · rename_i key
            obtain ⟨⟨v, m'⟩, h1', h2'⟩ := Res.bind_eq_ok.1 h2
            obtain ⟨h3', h4'⟩ := sI _ _ _ h1'
            simp only at h2'
            have hml := decodeItem_str_lt hsz h1
            have hsegk : src.drop i = seg src i m ++ src.drop m := by
              rw [seg_eq_slice src (by omega)]
              unfold slice
              have : src.drop m = (src.drop i).drop (m - i) := by
                rw [List.drop_drop]; congr 1; omega
              rw [this, List.take_append_drop]
            by_cases hm : src.length < m'
            · have ht := ihI _ _ _ h1' hm
              cases f with
              | zero => simp [dictLoop] at h2'
              | succ f =>
                rw [dictLoop_stop (by omega) (Or.inr (get_none_of_ge (j := m') (by omega)))] at h2'
                cases h2'
                right
                exact ⟨hm, [], key, v, [], seg src i m, src.drop m, by simp, .enil, h4, ht, by simpa using hsegk⟩
            · have hseg : src.drop m = seg src m m' ++ src.drop m' := by
                rw [seg_eq_slice src (by omega)]
                unfold slice
                have : src.drop m' = (src.drop m).drop (m' - m) := by
                  rw [List.drop_drop]; congr 1; omega
                rw [this, List.take_append_drop]
              rcases ihD _ _ _ _ h2' (by omega) hj with ⟨h5, l', h6, h7, h8⟩ | ⟨h5, l', key', w, bs, q, p, h6, h7, hq, h8, h9⟩
              · left
                refine ⟨h5, (key, v) :: l', by simp [h6], by rw [hsegk, hseg, ← List.append_assoc]; exact .econs h4 h4' h7, ?_⟩
                intro w hw
                rw [List.getLast?_cons] at hw
                cases hl : l'.getLast? with
                | some u => rw [hl] at hw; cases hw; exact h8 _ hl
                | none =>
                  rw [hl] at hw; cases hw
                  have hl0 : l' = [] := by simpa using hl
                  subst hl0
                  cases v with
                  | str s =>
                    have := decodeItem_str_lt hsz h1'
                    exfalso
                    have := congrArg List.length (ben_enil_of h7)
                    simp at this; omega
                  | _ => rfl
              · right
                refine ⟨h5, (key, v) :: l', key', w, seg src i m ++ seg src m m' ++ bs, q, p, by simp [h6], .econs h4 h4' h7, hq, h8, ?_⟩
                rw [hsegk, hseg, h9]; simp
          · cases h2

/-! ### outcomes: termination and panics -/

/-- An outcome that is neither budget exhaustion nor an application panic. -/
def Res.tame {α : Type} : Res α → Prop
  | .diverge => False
  | .panic p => p = .runtime
  | _ => True

theorem Res.tame_bind {α β : Type} {x : Res α} {g : α → Res β} (hx : x.tame)
    (hg : ∀ a, x = .ok a → (g a).tame) : (x >>= g).tame := by
  cases x with
  | ok a => exact hg a rfl
  | err e => trivial
  | panic p => exact hx
  | diverge => exact hx

theorem Res.noPanic_bind {α β : Type} {x : Res α} {g : α → Res β} (hx : x.noPanic)
    (hg : ∀ a, x = .ok a → (g a).noPanic) : (x >>= g).noPanic := by
  cases x with
  | ok a => exact hg a rfl
  | err e => trivial
  | panic p => exact hx
  | diverge => exact hx

theorem intLoop_tame (src : Bytes) (f i : Nat) : (intLoop src f i).tame := by
  induction f generalizing i with
  | zero => trivial
  | succ f ih =>
    unfold intLoop
    split
    · trivial
    · split
      · trivial
      · split
        · trivial
        · split
          · split
            · rfl
            · split
              · trivial
              · exact ih _
          · exact ih _

theorem innerDecodeInteger_tame (src : Bytes) (i : Nat) : (innerDecodeInteger src i).tame := by
  unfold innerDecodeInteger
  split
  · rfl
  · split
    · trivial
    · refine Res.tame_bind (intLoop_tame _ _ _) (fun k _ => ?_)
      split
      · rfl
      · split
        · split <;> trivial
        · trivial

theorem innerDecodeString_tame (src : Bytes) (i : Nat) : (innerDecodeString src i).tame := by
  unfold innerDecodeString
  split
  · trivial
  · split
    · trivial
    · split
      · trivial
      · simp only
        split
        · trivial
        · split
          · rfl
          · trivial

theorem innerDecodeString_progress {src s : Bytes} {i n : Nat} (h : innerDecodeString src i = .ok (s, n)) :
    i < n := by
  unfold innerDecodeString at h
  split at h
  · cases h
  · split at h
    · cases h
    · split at h
      · cases h
      · simp only at h
        split at h
        · cases h
        · split at h
          · cases h
          · cases h; omega

theorem decode_progress {src : Bytes} (f : Nat) :
    (∀ i v n, decodeItem f src i = .ok (v, n) → i < n) ∧
    (∀ i acc l j, sliceLoop f src i acc = .ok (l, j) → i ≤ j) ∧
    (∀ i acc d j, dictLoop f src i acc = .ok (d, j) → i ≤ j) := by
  induction f with
  | zero =>
    refine ⟨?_, ?_, ?_⟩
    · intro i v n h; simp [decodeItem] at h
    · intro i acc l j h; simp [sliceLoop] at h
    · intro i acc l j h; simp [dictLoop] at h
  | succ f ih =>
    obtain ⟨ihI, ihL, ihD⟩ := ih
    refine ⟨?_, ?_, ?_⟩
    · intro i v n h
      unfold decodeItem at h
      split at h
      · cases h
      · split at h
        · obtain ⟨⟨x, m⟩, h1, h2⟩ := Res.bind_eq_ok.1 h
          cases h2
          obtain ⟨body, hd, hb, hm, hml⟩ := innerDecodeInteger_sound h1
          omega
        · split at h
          · obtain ⟨⟨x, m⟩, h1, h2⟩ := Res.bind_eq_ok.1 h
            cases h2
            have := ihL _ _ _ _ h1; omega
          · split at h
            · obtain ⟨⟨x, m⟩, h1, h2⟩ := Res.bind_eq_ok.1 h
              cases h2
              have := ihD _ _ _ _ h1; omega
            · split at h
              · obtain ⟨⟨x, m⟩, h1, h2⟩ := Res.bind_eq_ok.1 h
                cases h2
                exact innerDecodeString_progress h1
              · cases h
    · intro i acc l j h
      unfold sliceLoop at h
      split at h
      · cases h; omega
      · split at h
        · cases h; omega
        · obtain ⟨⟨x, m⟩, h1, h2⟩ := Res.bind_eq_ok.1 h
          have := ihI _ _ _ h1
          have := ihL _ _ _ _ h2
          omega
    · intro i acc l j h
      unfold dictLoop at h
      split at h
      · cases h; omega
      · split at h
        · cases h; omega
        · obtain ⟨⟨x, m⟩, h1, h2⟩ := Res.bind_eq_ok.1 h
          have := ihI _ _ _ h1
          simp only at h2
          split at h2
          · obtain ⟨⟨x, m⟩, h1', h2'⟩ := Res.bind_eq_ok.1 h2
            have := ihI _ _ _ h1'
            have := ihD _ _ _ _ h2'
            simp only at *
            omega
          · cases h2

/-- With enough budget the decoder never runs out of it, and its only panics are runtime panics. -/
theorem decode_tame {src : Bytes} (f : Nat) :
    (∀ i, 1 ≤ f → 2 * (src.length - i) ≤ f → (decodeItem f src i).tame) ∧
    (∀ i acc, 2 * (src.length - i) + 1 ≤ f → (sliceLoop f src i acc).tame) ∧
    (∀ i acc, 2 * (src.length - i) + 1 ≤ f → (dictLoop f src i acc).tame) := by
  induction f with
  | zero => refine ⟨?_, ?_, ?_⟩ <;> intros <;> omega
  | succ f ih =>
    obtain ⟨ihI, ihL, ihD⟩ := ih
    refine ⟨?_, ?_, ?_⟩
    · intro i _ hf
      unfold decodeItem
      split
      · rfl
      · rename_i c hc
        have hi := (List.getElem?_eq_some_iff.1 hc).1
        split
        · exact Res.tame_bind (innerDecodeInteger_tame _ _) (fun _ _ => trivial)
        · split
          · exact Res.tame_bind (ihL _ _ (by omega)) (fun _ _ => trivial)
          · split
            · exact Res.tame_bind (ihD _ _ (by omega)) (fun _ _ => trivial)
            · split
              · exact Res.tame_bind (innerDecodeString_tame _ _) (fun _ _ => trivial)
              · trivial
    · intro i acc hf
      unfold sliceLoop
      split
      · trivial
      · rename_i c hc
        have hi := (List.getElem?_eq_some_iff.1 hc).1
        split
        · trivial
        · refine Res.tame_bind (ihI _ (by omega) (by omega)) (fun ⟨v, n⟩ h => ?_)
          have := (decode_progress f).1 _ _ _ h
          exact ihL _ _ (by omega)
    · intro i acc hf
      unfold dictLoop
      split
      · trivial
      · rename_i c hc
        have hi := (List.getElem?_eq_some_iff.1 hc).1
        split
        · trivial
        · refine Res.tame_bind (ihI _ (by omega) (by omega)) (fun ⟨v, n⟩ h => ?_)
          have := (decode_progress f).1 _ _ _ h
          simp only
          split
          · refine Res.tame_bind (ihI _ (by omega) (by omega)) (fun ⟨v, n⟩ h => ?_)
            have := (decode_progress f).1 _ _ _ h
            exact ihD _ _ (by simp only; omega)
          · trivial

/-! ### absence of panics -/

/-- the input ends with the byte `e` -/
def EndsInE (src : Bytes) : Prop := src[src.length - 1]? = some 101

theorem intLoop_noPanic {src : Bytes} (he : EndsInE src) (f i : Nat) : (intLoop src f i).noPanic := by
  induction f generalizing i with
  | zero => trivial
  | succ f ih =>
    unfold intLoop
    split
    · trivial
    · rename_i c hc
      split
      · trivial
      · rename_i hc'
        split
        · trivial
        · split
          · split
            · rename_i hn
              have h1 := List.getElem?_eq_none_iff.1 hn
              have h2 := (List.getElem?_eq_some_iff.1 hc).1
              have h3 : src.length - 1 = i := by omega
              unfold EndsInE at he
              rw [h3, hc] at he
              exact absurd (Option.some.inj he) hc'
            · split
              · trivial
              · exact ih _
          · exact ih _

theorem intLoop_stops {src : Bytes} (he : EndsInE src) {f i k : Nat} (hi : i < src.length)
    (h : intLoop src f i = .ok k) : k < src.length := by
  induction f generalizing i with
  | zero => simp [intLoop] at h; omega
  | succ f ih =>
    have key : ∀ c, src[i]? = some c → c ≠ 101 → i + 1 < src.length := by
      intro c hc hc'
      rcases Nat.lt_or_ge (i + 1) src.length with h | h
      · exact h
      · have h3 : src.length - 1 = i := by omega
        unfold EndsInE at he
        rw [h3, hc] at he
        exact absurd (Option.some.inj he) hc'
    unfold intLoop at h
    split at h
    · cases h; exact hi
    · rename_i c hc
      split at h
      · cases h; exact hi
      · rename_i hc'
        split at h
        · cases h
        · split at h
          · split at h
            · cases h
            · split at h
              · cases h
              · exact ih (key c hc hc') h
          · exact ih (key c hc hc') h

theorem innerDecodeInteger_noPanic {src : Bytes} (he : EndsInE src) {i : Nat} (hi : i < src.length) :
    (innerDecodeInteger src i).noPanic := by
  unfold innerDecodeInteger
  split
  · rename_i hn; have := List.getElem?_eq_none_iff.1 hn; omega
  · rename_i c hc
    split
    · trivial
    · rename_i h105
      simp only [ne_eq, Decidable.not_not] at h105
      subst h105
      have h1 : i + 1 < src.length := by
        rcases Nat.lt_or_ge (i + 1) src.length with h | h
        · exact h
        · have h3 : src.length - 1 = i := by omega
          unfold EndsInE at he
          rw [h3, hc] at he
          exact absurd (Option.some.inj he) (by decide)
      refine Res.noPanic_bind (intLoop_noPanic he _ _) (fun k hk => ?_)
      have := intLoop_stops he h1 hk
      split
      · rename_i hn; have := List.getElem?_eq_none_iff.1 hn; omega
      · split
        · split <;> trivial
        · trivial

theorem innerDecodeString_noPanic {src : Bytes} (hsz : src.length < 2 ^ 62)
    (hr : DigitRunsAtMost 18 src) {i : Nat} {c : UInt8} (hc : src[i]? = some c)
    (hcd : isDigit c = true) : (innerDecodeString src i).noPanic := by
  unfold innerDecodeString
  split
  · trivial
  · rename_i idx hidx
    obtain ⟨a, ha1, ha2, ha3⟩ := indexColon_sound _ _ _ _ hidx
    split
    · trivial
    · rename_i hgt
      rw [slice_of_drop' ha1 ha2]
      split
      · trivial
      · rename_i slen hat
        cases a with
        | nil => simp at ha2; omega
        | cons c' t =>
          have hcc : c' = c := by
            have := (drop_cons (c := c') (t := t ++ 58 :: src.drop (idx + 1)) (by simpa using ha1)).1
            rw [hc] at this
            exact (Option.some.inj this).symm
          subst hcc
          obtain ⟨hall, hlt, hslen⟩ := atoi_of_digit_head hcd hat
          have hrun : (c' :: t).length ≤ 18 := by
            refine hr (c' :: t) ?_ (digits_iff.2 ⟨by simp, hall⟩)
            refine ⟨src.take i, 58 :: src.drop (idx + 1), ?_⟩
            rw [List.append_assoc, ← ha1, List.take_append_drop]
          have hv := decVal_lt _ hall
          have hp : 10 ^ (c' :: t).length ≤ 10 ^ 18 := Nat.pow_le_pow_right (by omega) hrun
          generalize decVal (c' :: t) = v at *
          subst hslen
          rw [wrap64_id (by unfold IsInt64; omega)]
          simp only
          split
          · trivial
          · rw [if_neg (by omega)]; trivial

theorem decode_noPanic {src : Bytes} (hsz : src.length < 2 ^ 62) (he : EndsInE src)
    (hr : DigitRunsAtMost 18 src) (f : Nat) :
    (∀ i, i < src.length → 2 * (src.length - i) ≤ f → (decodeItem f src i).noPanic) ∧
    (∀ i acc, 2 * (src.length - i) + 1 ≤ f → (sliceLoop f src i acc).noPanic) ∧
    (∀ i acc, 2 * (src.length - i) + 1 ≤ f → (dictLoop f src i acc).noPanic) := by
  induction f with
  | zero => refine ⟨?_, ?_, ?_⟩ <;> intros <;> omega
  | succ f ih =>
    obtain ⟨ihI, ihL, ihD⟩ := ih
    refine ⟨?_, ?_, ?_⟩
    · intro i hi hf
      unfold decodeItem
      split
      · rename_i hn; have := List.getElem?_eq_none_iff.1 hn; omega
      · rename_i c hc
        split
        · exact Res.noPanic_bind (innerDecodeInteger_noPanic he hi) (fun _ _ => trivial)
        · split
          · exact Res.noPanic_bind (ihL _ _ (by omega)) (fun _ _ => trivial)
          · split
            · exact Res.noPanic_bind (ihD _ _ (by omega)) (fun _ _ => trivial)
            · split
              · rename_i hcd
                exact Res.noPanic_bind (innerDecodeString_noPanic hsz hr hc hcd) (fun _ _ => trivial)
              · trivial
    · intro i acc hf
      unfold sliceLoop
      split
      · trivial
      · rename_i c hc
        have hi := (List.getElem?_eq_some_iff.1 hc).1
        split
        · trivial
        · refine Res.noPanic_bind (ihI _ (by omega) (by omega)) (fun ⟨v, n⟩ h => ?_)
          have := (decode_progress f).1 _ _ _ h
          exact ihL _ _ (by omega)
    · intro i acc hf
      unfold dictLoop
      split
      · trivial
      · rename_i c hc
        have hi := (List.getElem?_eq_some_iff.1 hc).1
        split
        · trivial
        · refine Res.noPanic_bind (ihI _ (by omega) (by omega)) (fun ⟨v, n⟩ h => ?_)
          have := (decode_progress f).1 _ _ _ h
          simp only
          split
          · have hlt := decodeItem_str_lt (by omega) h
            refine Res.noPanic_bind (ihI _ (by omega) (by omega)) (fun ⟨v, n⟩ h => ?_)
            have := (decode_progress f).1 _ _ _ h
            exact ihD _ _ (by simp only; omega)
          · trivial

end P2P

import Verif.Spec.Bencode
import Verif.Lemmas.Num
/-! Lemmas about the bencode model: relation of the decoder to the grammar `Ben`. -/
namespace P2P

/-! ### positions and suffixes -/

theorem drop_cons {src t : Bytes} {j : Nat} {c : UInt8} (h : src.drop j = c :: t) :
    src[j]? = some c ∧ src.drop (j + 1) = t ∧ j < src.length := by
  have h1 : src[j]? = some c := by
    rw [← List.head?_drop, h]; rfl
  refine ⟨h1, ?_, ?_⟩
  · rw [← List.tail_drop, h]; rfl
  · exact (List.getElem?_eq_some_iff.1 h1).1

theorem drop_of_get {src : Bytes} {j : Nat} {c : UInt8} (h : src[j]? = some c) :
    src.drop j = c :: src.drop (j + 1) := by
  obtain ⟨hlt, rfl⟩ := List.getElem?_eq_some_iff.1 h
  exact List.drop_eq_getElem_cons hlt

theorem drop_append {src a t : Bytes} {j : Nat} (h : src.drop j = a ++ t) :
    src.drop (j + a.length) = t := by
  rw [← List.drop_drop, h]; simp

theorem slice_of_drop {src a t : Bytes} {j : Nat} (h : src.drop j = a ++ t) :
    slice src j (j + a.length) = a := by
  unfold slice; rw [h]; simp

theorem slice_of_drop' {src a t : Bytes} {j k : Nat} (h : src.drop j = a ++ t) (hk : k = j + a.length) :
    slice src j k = a := by subst hk; exact slice_of_drop h

theorem length_of_drop {src a t : Bytes} {j : Nat} (h : src.drop j = a ++ t) (hj : j ≤ src.length) :
    src.length = j + a.length + t.length := by
  have := congrArg List.length h
  simp only [List.length_drop, List.length_append] at this
  omega

/-! ### integers -/

/-- The digit/sign scan of lines 41-51 accepts `b` after the byte `prev`. -/
def ScanOk : UInt8 → Bytes → Prop
  | _, [] => True
  | prev, c :: r => c ≠ 101 ∧ ¬ (prev = 45 ∧ c = 48) ∧ (prev = 105 ∧ c = 48 → r = []) ∧ ScanOk c r

theorem intLoop_complete (src b rest : Bytes) (j f : Nat) (prev : UInt8)
    (hprev : src[j - 1]? = some prev) (hj : 0 < j)
    (hd : src.drop j = b ++ 101 :: rest) (hs : ScanOk prev b) (hf : b.length ≤ f) :
    intLoop src f j = .ok (j + b.length) := by
  induction b generalizing j f prev with
  | nil =>
    have := (drop_cons (c := 101) (t := rest) (by simpa using hd)).1
    cases f <;> simp [intLoop, this]
  | cons c r ih =>
    obtain ⟨h1, h2, h3, h4⟩ := hs
    obtain ⟨hc, ht, hlt⟩ := drop_cons (c := c) (t := r ++ 101 :: rest) (by simpa using hd)
    cases f with
    | zero => simp at hf
    | succ f =>
      have hrec := ih (j + 1) f c (by simpa using hc) (by omega) ht h4 (by simp at hf; omega)
      unfold intLoop
      simp only [hc, h1, if_false, hprev, Option.some.injEq]
      rw [if_neg h2]
      split
      · rename_i h5
        have hr := h3 h5
        subst hr
        have := (drop_cons (c := 101) (t := rest) (by simpa using ht)).1
        simp only [this, ne_eq, not_true, if_false]
        rw [hrec]; simp
      · rw [hrec]; simp; omega

theorem intLoop_sound (src : Bytes) (j f k : Nat) (prev : UInt8)
    (hprev : src[j - 1]? = some prev) (hj : 0 < j) (hf : f = src.length - j) (hjl : j ≤ src.length)
    (h : intLoop src f j = .ok k) :
    ∃ b, src.drop j = b ++ src.drop k ∧ k = j + b.length ∧ ScanOk prev b ∧ k ≤ src.length ∧
      (src[k]? = some 101 ∨ k = src.length) := by
  induction f generalizing j prev with
  | zero =>
    have : j = src.length := by omega
    simp only [intLoop, Res.ok.injEq] at h
    subst h
    exact ⟨[], by simp, by simp, trivial, hjl, Or.inr this⟩
  | succ f ih =>
    unfold intLoop at h
    split at h
    · rename_i hn
      have := List.getElem?_eq_none_iff.1 hn
      omega
    · rename_i c hc
      have hdr := drop_of_get hc
      have key : intLoop src f (j + 1) = .ok k → (c ≠ 101 ∧ ¬ (prev = 45 ∧ c = 48)) →
          (prev = 105 ∧ c = 48 → src[j + 1]? = some 101) →
          ∃ b, src.drop j = b ++ src.drop k ∧ k = j + b.length ∧ ScanOk prev b ∧ k ≤ src.length ∧
          (src[k]? = some 101 ∨ k = src.length) := by
        intro hk h1 h2
        obtain ⟨b, hb1, hb2, hb3, hb4, hb5⟩ := ih (j + 1) c (by simpa using hc) (by omega) (by omega)
          (by have := (List.getElem?_eq_some_iff.1 hc).1; omega) hk
        refine ⟨c :: b, by rw [hdr, hb1]; rfl, by simp; omega, ⟨h1.1, h1.2, ?_, hb3⟩, hb4, hb5⟩
        intro h3
        cases b with
        | nil => rfl
        | cons x y =>
          have h4 := h2 h3
          have := (drop_cons (c := x) (t := y ++ src.drop k) (by simpa using hb1)).1
          rw [h4] at this
          cases this
          exact absurd rfl hb3.1
      split at h
      · rename_i he
        simp only [Res.ok.injEq] at h
        subst h
        exact ⟨[], by simp, by simp, trivial, hjl, Or.inl (by rw [hc, he])⟩
      · rename_i he
        split at h
        · cases h
        · rename_i h45
          rw [hprev] at h45
          split at h
          · rename_i h105
            split at h
            · cases h
            · rename_i c' hc'
              split at h
              · cases h
              · rename_i hc''
                simp only [ne_eq, Decidable.not_not] at hc''
                refine key h ⟨he, by simpa using h45⟩ (fun _ => by rw [hc', hc''])
          · rename_i h105
            rw [hprev] at h105
            refine key h ⟨he, by simpa using h45⟩ (fun hh => ?_)
            exact absurd (by simpa using hh) h105

theorem digit_ne {c : UInt8} (h : isDigit c = true) : c ≠ 101 ∧ c ≠ 45 ∧ c ≠ 105 ∧ c ≠ 43 ∧ c ≠ 58 := by
  have := isDigit_iff.1 h
  refine ⟨?_, ?_, ?_, ?_, ?_⟩ <;> rintro rfl <;> simp at this

theorem scanOk_digits (prev : UInt8) (ds : Bytes) (hd : ∀ c ∈ ds, isDigit c = true)
    (h1 : prev = 45 → ds.head? ≠ some 48) (h2 : prev = 105 → ds.head? = some 48 → ds = [48]) :
    ScanOk prev ds := by
  induction ds generalizing prev with
  | nil => trivial
  | cons c r ih =>
    have hc := hd c (by simp)
    obtain ⟨n1, n2, n3, n4, n5⟩ := digit_ne hc
    refine ⟨n1, ?_, ?_, ih c (fun x hx => hd x (by simp [hx])) (fun h => absurd h n2) (fun h => absurd h n3)⟩
    · rintro ⟨h3, h4⟩; exact h1 h3 (by simp [h4])
    · rintro ⟨h3, h4⟩
      have := h2 h3 (by simp [h4])
      simpa using (List.cons.inj this).2

theorem digits_iff {ds : Bytes} : Digits ds ↔ ds ≠ [] ∧ ds.all isDigit = true := by
  simp [Digits, List.all_eq_true]

theorem intBody_scan {body : Bytes} {n : Int} (h : IntBody body n) :
    ScanOk 105 body ∧ atoi body = some n := by
  cases h with
  | pos ds hd h0 hlt =>
    obtain ⟨hd1, hd2⟩ := hd
    refine ⟨scanOk_digits _ _ hd2 (by simp) (fun _ => h0), atoi_digits hd1 ?_ hlt⟩
    exact List.all_eq_true.2 hd2
  | plus ds hd hlt =>
    obtain ⟨hd1, hd2⟩ := hd
    refine ⟨⟨by simp, by simp, by simp, scanOk_digits _ _ hd2 (by simp) (by simp)⟩, ?_⟩
    have hn : natOfDigits ds = some (decVal ds) :=
      natOfDigits_eq_some.2 ⟨hd1, List.all_eq_true.2 hd2, rfl⟩
    simp [atoi, hn, hlt]
  | minus ds hd h0 hlt =>
    obtain ⟨hd1, hd2⟩ := hd
    refine ⟨⟨by simp, by simp, by simp, scanOk_digits _ _ hd2 (fun _ => h0) (by simp)⟩, ?_⟩
    have hn : natOfDigits ds = some (decVal ds) :=
      natOfDigits_eq_some.2 ⟨hd1, List.all_eq_true.2 hd2, rfl⟩
    simp [atoi, hn, hlt]

theorem intBody_of_scan {body : Bytes} {n : Int} (hs : ScanOk 105 body) (ha : atoi body = some n) :
    IntBody body n := by
  unfold atoi at ha
  split at ha
  · rename_i r
    split at ha
    · rename_i m hm
      obtain ⟨h3, h4, h5⟩ := natOfDigits_eq_some.1 hm
      split at ha
      · rename_i hlt
        cases ha
        rw [← h5]
        exact IntBody.plus r (digits_iff.2 ⟨h3, h4⟩) (by omega)
      · cases ha
    · cases ha
  · rename_i r
    split at ha
    · rename_i m hm
      obtain ⟨h3, h4, h5⟩ := natOfDigits_eq_some.1 hm
      split at ha
      · rename_i hlt
        cases ha
        rw [← h5]
        refine IntBody.minus r (digits_iff.2 ⟨h3, h4⟩) ?_ (by omega)
        intro h0
        cases r with
        | nil => simp at h0
        | cons c t =>
          simp only [List.head?_cons, Option.some.injEq] at h0
          exact hs.2.2.2.2.1 ⟨rfl, h0⟩
      · cases ha
    · cases ha
  · split at ha
    · rename_i m hm
      obtain ⟨h3, h4, h5⟩ := natOfDigits_eq_some.1 hm
      split at ha
      · rename_i hlt
        cases ha
        rw [← h5]
        refine IntBody.pos body (digits_iff.2 ⟨h3, h4⟩) ?_ (by omega)
        intro h0
        cases body with
        | nil => simp at h0
        | cons c t =>
          simp only [List.head?_cons, Option.some.injEq] at h0
          have := hs.2.2.1 ⟨rfl, h0⟩
          rw [this, h0]
      · cases ha
    · cases ha

theorem innerDecodeInteger_complete {src body rest : Bytes} {i : Nat} {n : Int}
    (hd : src.drop i = 105 :: (body ++ 101 :: rest)) (hb : IntBody body n) :
    innerDecodeInteger src i = .ok (n, i + body.length + 2) := by
  obtain ⟨hs, ha⟩ := intBody_scan hb
  obtain ⟨hc, ht, hlt⟩ := drop_cons hd
  have hlen := length_of_drop ht (by omega)
  have hl := intLoop_complete src body rest (i + 1) (src.length - (i + 1)) 105 (by simpa using hc)
    (by omega) ht hs (by simp at hlen; omega)
  have he := (drop_cons (drop_append ht)).1
  unfold innerDecodeInteger
  simp only [hc, ne_eq, not_true, if_false, hl, Res.bind_ok, he, if_true]
  rw [slice_of_drop ht, ha]
  simp
  omega

theorem innerDecodeInteger_sound {src : Bytes} {i m : Nat} {n : Int}
    (h : innerDecodeInteger src i = .ok (n, m)) :
    ∃ body, src.drop i = 105 :: (body ++ 101 :: src.drop m) ∧ IntBody body n ∧
      m = i + body.length + 2 ∧ m ≤ src.length := by
  unfold innerDecodeInteger at h
  split at h
  · cases h
  · rename_i c hc
    split at h
    · cases h
    · rename_i hc'
      simp only [ne_eq, Decidable.not_not] at hc'
      subst hc'
      obtain ⟨k, hk, h⟩ := Res.bind_eq_ok.1 h
      have hlt := (List.getElem?_eq_some_iff.1 hc).1
      obtain ⟨b, hb1, hb2, hb3, hb4, hb5⟩ := intLoop_sound src (i + 1) _ k 105 (by simpa using hc)
        (by omega) rfl (by omega) hk
      split at h
      · cases h
      · rename_i c he
        split at h
        · rename_i hce
          subst hce
          split at h
          · cases h
          · rename_i n' ha
            cases h
            rw [slice_of_drop' hb1 hb2] at ha
            have hk' := (List.getElem?_eq_some_iff.1 he).1
            refine ⟨b, ?_, intBody_of_scan hb3 ha, by omega, by omega⟩
            rw [drop_of_get hc, hb1, drop_of_get he]
        · cases h

/-! ### strings -/

theorem wrap64_id {x : Int} (h : IsInt64 x) : wrap64 x = x := by
  unfold IsInt64 at h
  unfold wrap64 Int.bmod
  simp only [Nat.reducePow] at *
  split <;> omega

theorem indexColon_complete (src a rest : Bytes) (j f : Nat) (hd : src.drop j = a ++ 58 :: rest)
    (ha : ∀ c ∈ a, c ≠ 58) (hf : a.length < f) : indexColon src f j = some (j + a.length) := by
  induction a generalizing j f with
  | nil =>
    obtain ⟨hc, _, _⟩ := drop_cons (c := 58) (t := rest) (by simpa using hd)
    cases f with
    | zero => simp at hf
    | succ f => simp [indexColon, hc]
  | cons c r ih =>
    obtain ⟨hc, ht, _⟩ := drop_cons (c := c) (t := r ++ 58 :: rest) (by simpa using hd)
    cases f with
    | zero => simp at hf
    | succ f =>
      have h1 : c ≠ 58 := ha c (by simp)
      have := ih (j + 1) f ht (fun x hx => ha x (by simp [hx])) (by simp at hf; omega)
      simp only [indexColon, hc, h1, if_false, this, List.length_cons]
      congr 1; omega

theorem indexColon_sound (src : Bytes) (j f k : Nat) (h : indexColon src f j = some k) :
    ∃ a, src.drop j = a ++ 58 :: src.drop (k + 1) ∧ k = j + a.length ∧ k < src.length := by
  induction f generalizing j with
  | zero => simp [indexColon] at h
  | succ f ih =>
    unfold indexColon at h
    split at h
    · cases h
    · rename_i c hc
      split at h
      · rename_i h58
        cases h
        subst h58
        exact ⟨[], by simpa using drop_of_get hc, by simp, (List.getElem?_eq_some_iff.1 hc).1⟩
      · obtain ⟨a, h1, h2, h3⟩ := ih (j + 1) h
        exact ⟨c :: a, by rw [drop_of_get hc, h1]; rfl, by simp; omega, h3⟩

theorem innerDecodeString_complete {src ds s rest : Bytes} {i : Nat} (hsz : src.length < 2 ^ 63)
    (hd : src.drop i = ds ++ 58 :: (s ++ rest)) (hr : rest ≠ []) (hds : Digits ds)
    (hv : decVal ds = s.length) :
    innerDecodeString src i = .ok (s, i + ds.length + 1 + s.length) := by
  have hi : i ≤ src.length := by
    rcases Nat.lt_or_ge i src.length with h | h
    · omega
    · rw [List.drop_eq_nil_of_le h] at hd
      simp at hd
  have hlen := length_of_drop hd hi
  have hrl : 0 < rest.length := List.length_pos_iff.2 hr
  simp only [List.length_cons, List.length_append] at hlen
  have hdl : 0 < ds.length := List.length_pos_iff.2 hds.1
  have hidx := indexColon_complete src ds (s ++ rest) i (src.length - i) hd
    (fun c hc => (digit_ne (hds.2 c hc)).2.2.2.2) (by omega)
  have hat : atoi ds = some (decVal ds : Int) :=
    atoi_digits hds.1 (List.all_eq_true.2 hds.2) (by omega)
  have hw : wrap64 ((i + ds.length : Nat) + (decVal ds : Int) + 1)
      = ((i + ds.length + 1 + s.length : Nat) : Int) := by
    rw [hv, wrap64_id]
    · push_cast; omega
    · unfold IsInt64; push_cast; omega
  have h2 := (drop_cons (drop_append hd)).2.1
  unfold innerDecodeString
  rw [hidx]
  simp only [slice_of_drop hd, hat, hw]
  rw [if_neg (by omega), if_neg (by push_cast; omega), if_neg (by push_cast; omega)]
  simp only [Int.toNat_natCast, Res.ok.injEq, Prod.mk.injEq, and_true]
  exact slice_of_drop' (a := s) (t := rest) (by rw [h2]) (by omega)

theorem innerDecodeString_sound {src s : Bytes} {i m : Nat} {c : UInt8} (hsz : src.length < 2 ^ 63)
    (hc : src[i]? = some c) (hcd : isDigit c = true) (h : innerDecodeString src i = .ok (s, m)) :
    ∃ ds, src.drop i = ds ++ 58 :: (s ++ src.drop m) ∧ Digits ds ∧ decVal ds = s.length ∧
      m = i + ds.length + 1 + s.length ∧ m < src.length := by
  unfold innerDecodeString at h
  split at h
  · cases h
  · rename_i idx hidx
    obtain ⟨a, ha1, ha2, ha3⟩ := indexColon_sound _ _ _ _ hidx
    split at h
    · cases h
    · rename_i hgt
      rw [slice_of_drop' ha1 ha2] at h
      split at h
      · cases h
      · rename_i slen hat
        cases a with
        | nil => simp at ha2; omega
        | cons c' t =>
          have hcc : c' = c := by
            have := (drop_cons (c := c') (t := t ++ 58 :: src.drop (idx + 1)) (by simpa using ha1)).1
            rw [hc] at this
            exact (Option.some.inj this).symm
          subst hcc
          obtain ⟨hall, hlt, hslen⟩ := atoi_of_digit_head hcd hat
          generalize hdv : decVal (c' :: t) = v at hlt hslen
          subst hslen
          by_cases hov : (idx : Int) + (v : Int) + 1 < 2 ^ 63
          · rw [wrap64_id (by unfold IsInt64; omega)] at h
            simp only at h
            split at h
            · cases h
            · rename_i hstop
              split at h
              · cases h
              · simp only [Res.ok.injEq, Prod.mk.injEq] at h
                obtain ⟨h1, h2⟩ := h
                have hm : m = idx + v + 1 := by omega
                have hdr : src.drop (idx + 1) = s ++ src.drop m := by
                  rw [← h1, hm]
                  unfold slice
                  have : (idx : Int) + v + 1 = ((idx + v + 1 : Nat) : Int) := by push_cast; rfl
                  rw [this, Int.toNat_natCast]
                  have h3 : src.drop (idx + v + 1)
                      = (src.drop (idx + 1)).drop (idx + v + 1 - (idx + 1)) := by
                    rw [List.drop_drop]; congr 1; omega
                  rw [h3, List.take_append_drop]
                have hsl : s.length = v := by
                  have := length_of_drop hdr (by omega)
                  simp only [List.length_drop] at this
                  omega
                refine ⟨c' :: t, by rw [ha1, hdr], digits_iff.2 ⟨by simp, hall⟩, by omega, by omega, by omega⟩
          · exfalso
            have hw : wrap64 ((idx : Int) + (v : Int) + 1) = (idx : Int) + v + 1 - 2 ^ 64 := by
              unfold wrap64 Int.bmod
              simp only [Nat.reducePow] at *
              split <;> omega
            rw [hw] at h
            simp only at h
            rw [if_neg (by omega), if_pos (by omega)] at h
            cases h

/-! ### completeness: everything in the grammar is decoded -/

theorem ben_item_head {v : GoVal} {p : Bytes} (h : Ben (.item v) p) :
    ∃ c t, p = c :: t ∧ c ≠ 101 := by
  cases h with
  | int h => exact ⟨105, _, rfl, by decide⟩
  | str hd hv =>
    rename_i ds s
    cases ds with
    | nil => exact absurd rfl hd.1
    | cons c t => exact ⟨c, _, rfl, (digit_ne (hd.2 c (by simp))).1⟩
  | list h => exact ⟨108, _, rfl, by decide⟩
  | dict h => exact ⟨100, _, rfl, by decide⟩

theorem ben_item_pos {v : GoVal} {p : Bytes} (h : Ben (.item v) p) : 0 < p.length := by
  obtain ⟨c, t, rfl, _⟩ := ben_item_head h; simp

/-- What the decoder does on a well-formed piece of input at position `i`. -/
def DecodesAt (src : Bytes) : Syn → Bytes → Prop
  | .item v, p => ∀ i rest f, src.drop i = p ++ rest → (rest ≠ [] ∨ v.isStr = false) →
      2 * p.length ≤ f → decodeItem f src i = .ok (v, i + p.length)
  | .items l, p => ∀ i rest f acc, src.drop i = p ++ rest →
      (rest ≠ [] ∨ ∀ v, l.getLast? = some v → v.isStr = false) → 2 * p.length + 1 ≤ f →
      ∃ f', f ≤ f' + 2 * p.length ∧ sliceLoop f src i acc = sliceLoop f' src (i + p.length) (acc ++ l)
  | .entries kvs, p => ∀ i rest f acc, src.drop i = p ++ rest →
      (rest ≠ [] ∨ ∀ kv, kvs.getLast? = some kv → kv.2.isStr = false) → 2 * p.length + 1 ≤ f →
      ∃ f', f ≤ f' + 2 * p.length ∧ dictLoop f src i acc
        = dictLoop f' src (i + p.length) (kvs.foldl (fun d (kv : Bytes × GoVal) => dictPut d kv.1 kv.2) acc)

theorem sliceLoop_stop {src : Bytes} {f i : Nat} {acc : List GoVal} (hf : 1 ≤ f)
    (h : src[i]? = some 101 ∨ src[i]? = none) : sliceLoop f src i acc = .ok (acc, i) := by
  cases f with
  | zero => omega
  | succ f => rcases h with h | h <;> simp [sliceLoop, h]

theorem dictLoop_stop {src : Bytes} {f i : Nat} {acc : Entries} (hf : 1 ≤ f)
    (h : src[i]? = some 101 ∨ src[i]? = none) : dictLoop f src i acc = .ok (acc, i) := by
  cases f with
  | zero => omega
  | succ f => rcases h with h | h <;> simp [dictLoop, h]

theorem decodesAt_of_ben {src : Bytes} (hsz : src.length < 2 ^ 63) {syn : Syn} {p : Bytes}
    (h : Ben syn p) : DecodesAt src syn p := by
  induction h with
  | int hb =>
    rename_i body n
    intro i rest f hd hr hf
    cases f with
    | zero => simp at hf
    | succ f =>
      have hd' : src.drop i = 105 :: (body ++ 101 :: rest) := by simpa using hd
      have := innerDecodeInteger_complete hd' hb
      simp only [decodeItem, (drop_cons hd').1, if_true, this, Res.bind_ok, Res.pure_eq]
      simp; omega
  | str hds hv =>
    rename_i ds s
    intro i rest f hd hr hf
    have hr : rest ≠ [] := by simpa [GoVal.isStr] using hr
    cases f with
    | zero => simp at hf
    | succ f =>
      cases ds with
      | nil => exact absurd rfl hds.1
      | cons c t =>
        have hcd := hds.2 c (by simp)
        have hd' : src.drop i = (c :: t) ++ 58 :: (s ++ rest) := by simpa using hd
        have := innerDecodeString_complete hsz hd' hr hds hv
        have hnum := isDigit_iff.1 hcd
        have n1 : c ≠ 105 := by rintro rfl; simp at hnum
        have n2 : c ≠ 108 := by rintro rfl; simp at hnum
        have n3 : c ≠ 100 := by rintro rfl; simp at hnum
        have hc := (drop_cons (c := c) (t := t ++ 58 :: (s ++ rest)) (by simpa using hd')).1
        simp only [decodeItem, hc, n1, n2, n3, if_false, hcd, if_true, this, Res.bind_ok, Res.pure_eq]
        simp; omega
  | list hb ih =>
    rename_i l bs
    intro i rest f hd hr hf
    simp only [List.length_append, List.length_cons, List.length_nil] at hf
    cases f with
    | zero => omega
    | succ f =>
      have hd' : src.drop i = 108 :: (bs ++ 101 :: rest) := by simpa using hd
      obtain ⟨hc, ht, _⟩ := drop_cons hd'
      obtain ⟨f', hf', this⟩ := ih (i + 1) (101 :: rest) f [] ht (Or.inl (by simp)) (by omega)
      rw [sliceLoop_stop (by omega) (Or.inl (drop_cons (drop_append ht)).1)] at this
      simp only [decodeItem, hc, this, Res.bind_ok, Res.pure_eq]
      simp; omega
  | dict hb ih =>
    rename_i kvs bs
    intro i rest f hd hr hf
    simp only [List.length_append, List.length_cons, List.length_nil] at hf
    cases f with
    | zero => omega
    | succ f =>
      have hd' : src.drop i = 100 :: (bs ++ 101 :: rest) := by simpa using hd
      obtain ⟨hc, ht, _⟩ := drop_cons hd'
      obtain ⟨f', hf', this⟩ := ih (i + 1) (101 :: rest) f [] ht (Or.inl (by simp)) (by omega)
      rw [dictLoop_stop (by omega) (Or.inl (drop_cons (drop_append ht)).1)] at this
      simp only [decodeItem, hc, this, Res.bind_ok, Res.pure_eq, mapOf]
      simp; omega
  | nil =>
    intro i rest f acc hd hr hf
    exact ⟨f, by omega, by simp⟩
  | cons h1 h2 ih1 ih2 =>
    rename_i v l p bs
    intro i rest f acc hd hr hf
    have hpos := ben_item_pos h1
    simp only [List.length_append] at hf
    cases f with
    | zero => omega
    | succ f =>
      obtain ⟨c, t, rfl, hc⟩ := ben_item_head h1
      have hd' : src.drop i = (c :: t) ++ (bs ++ rest) := by simpa using hd
      have hcc := (drop_cons (c := c) (t := t ++ (bs ++ rest)) (by simpa using hd')).1
      have hr1 : (bs ++ rest ≠ []) ∨ v.isStr = false := by
        rcases hr with hr | hr
        · left; simp [hr]
        · cases l with
          | nil => right; exact hr v (by simp)
          | cons w l =>
            left
            cases h2 with
            | cons h21 h22 => have := ben_item_pos h21; intro h0; have := congrArg List.length h0; simp at this; simp_all
      have hr2 : rest ≠ [] ∨ ∀ v, l.getLast? = some v → v.isStr = false := by
        rcases hr with hr | hr
        · exact Or.inl hr
        · right; intro w hw; exact hr w (by rw [List.getLast?_cons, hw]; rfl)
      have e1 := ih1 i (bs ++ rest) f hd' hr1 (by omega)
      obtain ⟨f', hf', e2⟩ := ih2 (i + (c :: t).length) rest f (acc ++ [v]) (drop_append hd') hr2 (by omega)
      refine ⟨f', by simp only [List.length_append]; omega, ?_⟩
      simp only [sliceLoop, hcc, hc, if_false, e1, Res.bind_ok, e2]
      simp [Nat.add_assoc, Nat.add_comm, Nat.add_left_comm]
  | enil =>
    intro i rest f acc hd hr hf
    exact ⟨f, by omega, by simp⟩
  | econs h1 h2 h3 ih1 ih2 ih3 =>
    rename_i k v r p q bs
    intro i rest f acc hd hr hf
    have hpos := ben_item_pos h1
    have hposq := ben_item_pos h2
    simp only [List.length_append] at hf
    cases f with
    | zero => omega
    | succ f =>
      obtain ⟨c, t, rfl, hc⟩ := ben_item_head h1
      have hd' : src.drop i = (c :: t) ++ (q ++ (bs ++ rest)) := by simpa using hd
      have hcc := (drop_cons (c := c) (t := t ++ (q ++ (bs ++ rest))) (by simpa using hd')).1
      have hq := drop_append hd'
      have hr1 : (bs ++ rest ≠ []) ∨ v.isStr = false := by
        rcases hr with hr | hr
        · left; simp [hr]
        · cases r with
          | nil => right; exact hr (k, v) (by simp)
          | cons w l =>
            left
            cases h3 with
            | econs h21 h22 => have := ben_item_pos h21; intro h0; have := congrArg List.length h0; simp at this; simp_all
      have hr2 : rest ≠ [] ∨ ∀ kv, r.getLast? = some kv → kv.2.isStr = false := by
        rcases hr with hr | hr
        · exact Or.inl hr
        · right; intro w hw; exact hr w (by rw [List.getLast?_cons, hw]; rfl)
      have hq0 : q ++ (bs ++ rest) ≠ [] := by
        intro h0; have := congrArg List.length h0; simp at this; simp_all
      have e1 := ih1 i _ f hd' (Or.inl hq0) (by omega)
      have e2 := ih2 (i + (c :: t).length) (bs ++ rest) f hq hr1 (by omega)
      obtain ⟨f', hf', e3⟩ := ih3 (i + (c :: t).length + q.length) rest f (dictPut acc k v) (drop_append hq) hr2 (by omega)
      refine ⟨f', by simp only [List.length_append]; omega, ?_⟩
      simp only [dictLoop, hcc, hc, if_false, e1, Res.bind_ok, e2, e3]
      simp [Nat.add_assoc, Nat.add_comm, Nat.add_left_comm]

/-! ### soundness: everything decoded is in the grammar -/

/-- Bytes `i..j` of the input continued with infinitely many `e`. -/
def seg (src : Bytes) (i j : Nat) : Bytes := (List.range' i (j - i)).map (fun k => src.getD k 101)

theorem seg_append (src : Bytes) {i j k : Nat} (h1 : i ≤ j) (h2 : j ≤ k) :
    seg src i j ++ seg src j k = seg src i k := by
  unfold seg
  rw [← List.map_append]
  congr 1
  have h3 : j = i + 1 * (j - i) := by omega
  have h4 : k - i = (j - i) + (k - j) := by omega
  rw [h4, ← List.range'_append]
  congr 2

theorem seg_one (src : Bytes) (i : Nat) : seg src i (i + 1) = [src.getD i 101] := by
  simp [seg]

theorem seg_self (src : Bytes) (i : Nat) : seg src i i = [] := by simp [seg]

theorem seg_length (src : Bytes) (i j : Nat) : (seg src i j).length = j - i := by simp [seg]

theorem seg_eq_slice (src : Bytes) {i j : Nat} (hj : j ≤ src.length) : seg src i j = slice src i j := by
  unfold seg slice
  apply List.ext_getElem?
  intro k
  by_cases hk : k < j - i
  · have : i + k < src.length := by omega
    simp [hk, this]
  · rw [List.getElem?_eq_none (by simp; omega), List.getElem?_eq_none (by simp; omega)]

theorem seg_of_drop {src a : Bytes} {i n : Nat} (h : src.drop i = a ++ src.drop n)
    (hn : n = i + a.length) (hl : n ≤ src.length) : seg src i n = a := by
  rw [seg_eq_slice src hl]; exact slice_of_drop' h hn

theorem seg_overrun (src : Bytes) {n : Nat} (h : src.length ≤ n) :
    seg src 0 n = src ++ List.replicate (n - src.length) 101 := by
  rw [← seg_append src (Nat.zero_le src.length) h, seg_eq_slice src (Nat.le_refl _)]
  congr 1
  · simp [slice]
  · unfold seg
    apply List.ext_getElem?
    intro k
    by_cases hk : k < n - src.length
    · simp [hk, Nat.not_lt.2 (Nat.le_add_right src.length k)]
    · rw [List.getElem?_eq_none (by simp; omega), List.getElem?_eq_none (by simp; omega)]

theorem getD_of_get {src : Bytes} {i : Nat} {c d : UInt8} (h : src[i]? = some c) :
    src.getD i d = c := by simp [List.getD, h]

theorem decode_sound {src : Bytes} (hsz : src.length < 2 ^ 63) (f : Nat) :
    (∀ i v n, decodeItem f src i = .ok (v, n) → i < n ∧ Ben (.item v) (seg src i n)) ∧
    (∀ i acc l j, sliceLoop f src i acc = .ok (l, j) → i ≤ j ∧ src.getD j 101 = 101 ∧
      ∃ l', l = acc ++ l' ∧ Ben (.items l') (seg src i j)) ∧
    (∀ i acc d j, dictLoop f src i acc = .ok (d, j) → i ≤ j ∧ src.getD j 101 = 101 ∧
      ∃ kvs : Entries, d = kvs.foldl (fun d kv => dictPut d kv.1 kv.2) acc ∧
        Ben (.entries kvs) (seg src i j)) := by
  induction f with
  | zero =>
    refine ⟨?_, ?_, ?_⟩
    · intro i v n h; simp [decodeItem] at h
    · intro i acc l j h; simp [sliceLoop] at h
    · intro i acc l j h; simp [dictLoop] at h
  | succ f ih =>
    obtain ⟨ihI, ihL, ihD⟩ := ih
    refine ⟨?_, ?_, ?_⟩
    · intro i v n h
      unfold decodeItem at h
      split at h
      · cases h
      · rename_i c hc
        split at h
        · obtain ⟨⟨x, m⟩, h1, h2⟩ := Res.bind_eq_ok.1 h
          cases h2
          obtain ⟨body, hd, hb, hm, hml⟩ := innerDecodeInteger_sound h1
          refine ⟨by omega, ?_⟩
          rw [seg_of_drop (a := b!"i" ++ body ++ b!"e") (by simpa using hd) (by simp; omega) hml]
          exact .int hb
        · split at h
          · rename_i hc'
            subst hc'
            obtain ⟨⟨l, j⟩, h1, h2⟩ := Res.bind_eq_ok.1 h
            cases h2
            obtain ⟨hij, hj, l', hl, hb⟩ := ihL _ _ _ _ h1
            refine ⟨by omega, ?_⟩
            rw [← seg_append src (i := i) (j := i + 1) (by omega) (by omega),
              ← seg_append src (i := i + 1) (j := j) (by omega) (by omega), seg_one, seg_one, hj,
              getD_of_get hc, ← List.append_assoc]
            simp only [List.nil_append] at hl
            subst hl
            exact .list hb
          · split at h
            · rename_i hc'
              subst hc'
              obtain ⟨⟨l, j⟩, h1, h2⟩ := Res.bind_eq_ok.1 h
              cases h2
              obtain ⟨hij, hj, l', hl, hb⟩ := ihD _ _ _ _ h1
              refine ⟨by omega, ?_⟩
              rw [← seg_append src (i := i) (j := i + 1) (by omega) (by omega),
                ← seg_append src (i := i + 1) (j := j) (by omega) (by omega), seg_one, seg_one, hj,
                getD_of_get hc, ← List.append_assoc]
              subst hl
              exact .dict hb
            · split at h
              · rename_i hcd
                obtain ⟨⟨s, m⟩, h1, h2⟩ := Res.bind_eq_ok.1 h
                cases h2
                obtain ⟨ds, hd, hds, hv, hm, hml⟩ := innerDecodeString_sound hsz hc hcd h1
                refine ⟨by omega, ?_⟩
                rw [seg_of_drop (a := ds ++ b!":" ++ s) (by simpa using hd) (by simp; omega) (by omega)]
                exact .str hds hv
              · cases h
    · intro i acc l j h
      unfold sliceLoop at h
      split at h
      · rename_i hn
        cases h
        exact ⟨by omega, by simp [List.getD, hn], [], by simp, by rw [seg_self]; exact .nil⟩
      · rename_i c hc
        split at h
        · rename_i h101
          cases h
          exact ⟨by omega, by simp [List.getD, hc, h101], [], by simp, by rw [seg_self]; exact .nil⟩
        · obtain ⟨⟨v, m⟩, h1, h2⟩ := Res.bind_eq_ok.1 h
          obtain ⟨h3, h4⟩ := ihI _ _ _ h1
          obtain ⟨h5, h6, l', h7, h8⟩ := ihL _ _ _ _ h2
          refine ⟨by omega, h6, v :: l', by simp [h7], ?_⟩
          rw [← seg_append src (Nat.le_of_lt h3) h5]
          exact .cons h4 h8
    · intro i acc d j h
      unfold dictLoop at h
      split at h
      · rename_i hn
        cases h
        exact ⟨by omega, by simp [List.getD, hn], [], by simp, by rw [seg_self]; exact .enil⟩
      · rename_i c hc
        split at h
        · rename_i h101
          cases h
          exact ⟨by omega, by simp [List.getD, hc, h101], [], by simp, by rw [seg_self]; exact .enil⟩
        · obtain ⟨⟨kv, m⟩, h1, h2⟩ := Res.bind_eq_ok.1 h
          obtain ⟨h3, h4⟩ := ihI _ _ _ h1
          simp only at h2
          split at h2
          · rename_i key
            obtain ⟨⟨v, m'⟩, h1', h2'⟩ := Res.bind_eq_ok.1 h2
            obtain ⟨h3', h4'⟩ := ihI _ _ _ h1'
            obtain ⟨h5, h6, kvs, h7, h8⟩ := ihD _ _ _ _ h2'
            refine ⟨by omega, h6, (key, v) :: kvs, by simp [h7], ?_⟩
            rw [← seg_append src (i := i) (j := m') (by omega) h5,
              ← seg_append src (i := i) (j := m) (by omega) (by omega)]
            exact .econs h4 h4' h8
          · cases h2

end P2P

import Verif.Props.Identity
/-! # C77 for arbitrary ids: reading them as UTF-8 -/
namespace P2P

theorem isCont_iff (c : UInt8) : isCont c = true ↔ 0x80 ≤ c.toNat ∧ c.toNat ≤ 0xBF := by
  simp [isCont, UInt8.le_iff_toNat_le]

theorem u8_toNat {n : Nat} (h : n < 256) : (UInt8.ofNat n).toNat = n := by
  simp [UInt8.toNat_ofNat', Nat.mod_eq_of_lt h]

theorem decodeRune_enc {r : Nat} (h : Scalar r) (rest : Bytes) : decodeRune (utf8Enc r ++ rest) = (r, (utf8Enc r).length) := by
  unfold Scalar at h
  unfold utf8Enc
  have hlt : ∀ {n m : Nat}, n < 256 → m < 256 → (UInt8.ofNat n < UInt8.ofNat m ↔ n < m) := by
    intro n m hn hm
    rw [UInt8.lt_iff_toNat_lt, u8_toNat hn, u8_toNat hm]
  split
  · rename_i h1
    have : UInt8.ofNat r < 0x80 := (hlt (m := 0x80) (by omega) (by omega)).2 h1
    simp [decodeRune, this, Nat.mod_eq_of_lt (show r < 256 by omega)]
  · split
    · rename_i h1 h2
      have e0 : (UInt8.ofNat (0xC0 + r / 64)).toNat = 0xC0 + r / 64 := u8_toNat (by omega)
      have e1 : (UInt8.ofNat (0x80 + r % 64)).toNat = 0x80 + r % 64 := u8_toNat (by omega)
      have c1 : isCont (UInt8.ofNat (0x80 + r % 64)) = true := by rw [isCont_iff, e1]; omega
      generalize UInt8.ofNat (0xC0 + r / 64) = a at *
      generalize UInt8.ofNat (0x80 + r % 64) = b at *
      have k1 : ¬ a < 0x80 := by simp only [UInt8.lt_iff_toNat_lt, UInt8.reduceToNat]; omega
      have k2 : ¬ a < 0xC2 := by simp only [UInt8.lt_iff_toNat_lt, UInt8.reduceToNat]; omega
      have k3 : a < 0xE0 := by simp only [UInt8.lt_iff_toNat_lt, UInt8.reduceToNat]; omega
      simp only [decodeRune, List.cons_append, List.nil_append, k1, k2, k3, c1, e0, e1, List.length_cons, List.length_nil, Prod.mk.injEq, ↓reduceIte, and_true]
      omega
    · split
      · rename_i h1 h2 h3
        have e0 : (UInt8.ofNat (0xE0 + r / 4096)).toNat = 0xE0 + r / 4096 := u8_toNat (by omega)
        have e1 : (UInt8.ofNat (0x80 + r / 64 % 64)).toNat = 0x80 + r / 64 % 64 := u8_toNat (by omega)
        have e2 : (UInt8.ofNat (0x80 + r % 64)).toNat = 0x80 + r % 64 := u8_toNat (by omega)
        have c1 : isCont (UInt8.ofNat (0x80 + r / 64 % 64)) = true := by rw [isCont_iff, e1]; omega
        have c2 : isCont (UInt8.ofNat (0x80 + r % 64)) = true := by rw [isCont_iff, e2]; omega
        generalize UInt8.ofNat (0xE0 + r / 4096) = a at *
        generalize UInt8.ofNat (0x80 + r / 64 % 64) = b at *
        generalize UInt8.ofNat (0x80 + r % 64) = c at *
        have k1 : ¬ a < 0x80 := by simp only [UInt8.lt_iff_toNat_lt, UInt8.reduceToNat]; omega
        have k2 : ¬ a < 0xC2 := by simp only [UInt8.lt_iff_toNat_lt, UInt8.reduceToNat]; omega
        have k3 : ¬ a < 0xE0 := by simp only [UInt8.lt_iff_toNat_lt, UInt8.reduceToNat]; omega
        have k4 : a < 0xF0 := by simp only [UInt8.lt_iff_toNat_lt, UInt8.reduceToNat]; omega
        have d1 : (a != 0xE0 || decide (0xA0 ≤ b)) = true := by
          by_cases ha : a = 0xE0
          · simp only [Bool.or_eq_true, decide_eq_true_eq, UInt8.le_iff_toNat_le, UInt8.reduceToNat]
            right
            have : a.toNat = 0xE0 := by rw [ha]; rfl
            omega
          · simp [ha]
        have d2 : (a != 0xED || decide (b ≤ 0x9F)) = true := by
          by_cases ha : a = 0xED
          · simp only [Bool.or_eq_true, decide_eq_true_eq, UInt8.le_iff_toNat_le, UInt8.reduceToNat]
            right
            have : a.toNat = 0xED := by rw [ha]; rfl
            omega
          · simp [ha]
        simp only [decodeRune, List.cons_append, List.nil_append, k1, k2, k3, k4, c1, c2, d1, d2, Bool.and_true, e0, e1, e2, List.length_cons, List.length_nil, Prod.mk.injEq, ↓reduceIte, and_true]
        omega
      · rename_i h1 h2 h3
        have e0 : (UInt8.ofNat (0xF0 + r / 262144)).toNat = 0xF0 + r / 262144 := u8_toNat (by omega)
        have e1 : (UInt8.ofNat (0x80 + r / 4096 % 64)).toNat = 0x80 + r / 4096 % 64 := u8_toNat (by omega)
        have e2 : (UInt8.ofNat (0x80 + r / 64 % 64)).toNat = 0x80 + r / 64 % 64 := u8_toNat (by omega)
        have e3 : (UInt8.ofNat (0x80 + r % 64)).toNat = 0x80 + r % 64 := u8_toNat (by omega)
        have c1 : isCont (UInt8.ofNat (0x80 + r / 4096 % 64)) = true := by rw [isCont_iff, e1]; omega
        have c2 : isCont (UInt8.ofNat (0x80 + r / 64 % 64)) = true := by rw [isCont_iff, e2]; omega
        have c3 : isCont (UInt8.ofNat (0x80 + r % 64)) = true := by rw [isCont_iff, e3]; omega
        generalize UInt8.ofNat (0xF0 + r / 262144) = a at *
        generalize UInt8.ofNat (0x80 + r / 4096 % 64) = b at *
        generalize UInt8.ofNat (0x80 + r / 64 % 64) = c at *
        generalize UInt8.ofNat (0x80 + r % 64) = d at *
        have k1 : ¬ a < 0x80 := by simp only [UInt8.lt_iff_toNat_lt, UInt8.reduceToNat]; omega
        have k2 : ¬ a < 0xC2 := by simp only [UInt8.lt_iff_toNat_lt, UInt8.reduceToNat]; omega
        have k3 : ¬ a < 0xE0 := by simp only [UInt8.lt_iff_toNat_lt, UInt8.reduceToNat]; omega
        have k4 : ¬ a < 0xF0 := by simp only [UInt8.lt_iff_toNat_lt, UInt8.reduceToNat]; omega
        have k5 : a < 0xF5 := by simp only [UInt8.lt_iff_toNat_lt, UInt8.reduceToNat]; omega
        have d1 : (a != 0xF0 || decide (0x90 ≤ b)) = true := by
          by_cases ha : a = 0xF0
          · simp only [Bool.or_eq_true, decide_eq_true_eq, UInt8.le_iff_toNat_le, UInt8.reduceToNat]
            right
            have : a.toNat = 0xF0 := by rw [ha]; rfl
            omega
          · simp [ha]
        have d2 : (a != 0xF4 || decide (b ≤ 0x8F)) = true := by
          by_cases ha : a = 0xF4
          · simp only [Bool.or_eq_true, decide_eq_true_eq, UInt8.le_iff_toNat_le, UInt8.reduceToNat]
            right
            have : a.toNat = 0xF4 := by rw [ha]; rfl
            omega
          · simp [ha]
        simp only [decodeRune, List.cons_append, List.nil_append, k1, k2, k3, k4, k5, c1, c2, c3, d1, d2, Bool.and_true, e0, e1, e2, e3, List.length_cons, List.length_nil, Prod.mk.injEq, ↓reduceIte, and_true]
        omega

theorem u8_eq {c : UInt8} {n : Nat} (h : n < 256) (e : c.toNat = n) : c = UInt8.ofNat n := by
  rw [← UInt8.toNat_inj, u8_toNat h, e]

theorem decodeRune_sound (s : Bytes) (hs : s ≠ []) :
    (Scalar (decodeRune s).1 ∧ ∃ rest, s = utf8Enc (decodeRune s).1 ++ rest ∧ (decodeRune s).2 = (utf8Enc (decodeRune s).1).length) ∨ decodeRune s = (0xFFFD, 1) := by
  match s, hs with
  | c :: r, _ =>
    by_cases k1 : c < 0x80
    · left
      have : c.toNat < 0x80 := by simpa [UInt8.lt_iff_toNat_lt] using k1
      simp only [decodeRune, k1, if_true]
      refine ⟨.inl (by omega), r, ?_, by simp [utf8Enc, this]⟩
      simp only [utf8Enc, this, if_true, List.cons_append, List.nil_append]
      rw [← u8_eq (by omega) rfl]
    by_cases k2 : c < 0xC2
    · right; simp [decodeRune, k1, k2]
    by_cases k3 : c < 0xE0
    · match r with
      | [] => right; simp [decodeRune, k1, k2, k3]
      | c1 :: r =>
        by_cases h1 : isCont c1 = true
        · left
          have g1 := (isCont_iff _).1 h1
          simp only [UInt8.lt_iff_toNat_lt, UInt8.reduceToNat] at k1 k2 k3
          have hd : decodeRune (c :: c1 :: r) = ((c.toNat - 0xC0) * 64 + (c1.toNat - 0x80), 2) := by
            simp [decodeRune, UInt8.lt_iff_toNat_lt, k1, k2, k3, h1]
          have he : utf8Enc ((c.toNat - 0xC0) * 64 + (c1.toNat - 0x80)) = [c, c1] := by
            rw [utf8Enc, if_neg (by omega), if_pos (by omega), ← u8_eq (c := c) (by omega) (by omega), ← u8_eq (c := c1) (by omega) (by omega)]
          rw [hd]
          refine ⟨.inl (by simp only; omega), r, ?_, ?_⟩ <;> simp only [he] <;> rfl
        · right; simp [decodeRune, k1, k2, k3, h1]
    by_cases k4 : c < 0xF0
    · match r with
      | [] => right; simp [decodeRune, k1, k2, k3, k4]
      | [_] => right; simp [decodeRune, k1, k2, k3, k4]
      | c1 :: c2 :: r =>
        by_cases hc : (isCont c1 && isCont c2 && (c != 0xE0 || decide (0xA0 ≤ c1)) && (c != 0xED || decide (c1 ≤ 0x9F))) = true
        · left
          have hd : decodeRune (c :: c1 :: c2 :: r) = ((c.toNat - 0xE0) * 4096 + (c1.toNat - 0x80) * 64 + (c2.toNat - 0x80), 3) := by
            simp only [decodeRune, k1, k2, k3, k4, if_true, if_false, hc]
          simp only [Bool.and_eq_true, Bool.or_eq_true, decide_eq_true_eq, isCont_iff, bne_iff_ne, ne_eq, ← UInt8.toNat_inj, UInt8.le_iff_toNat_le, UInt8.reduceToNat] at hc
          simp only [UInt8.lt_iff_toNat_lt, UInt8.reduceToNat] at k1 k2 k3 k4
          obtain ⟨⟨⟨g1, g2⟩, g3⟩, g4⟩ := hc
          have he : utf8Enc ((c.toNat - 0xE0) * 4096 + (c1.toNat - 0x80) * 64 + (c2.toNat - 0x80)) = [c, c1, c2] := by
            rw [utf8Enc, if_neg (by omega), if_neg (by omega), if_pos (by omega), ← u8_eq (c := c) (by omega) (by omega), ← u8_eq (c := c1) (by omega) (by omega), ← u8_eq (c := c2) (by omega) (by omega)]
          rw [hd]
          refine ⟨by simp only [Scalar]; omega, r, ?_, ?_⟩ <;> simp only [he] <;> rfl
        · right; simp only [decodeRune, k1, k2, k3, k4, if_true, if_false, hc, Bool.false_eq_true]
    by_cases k5 : c < 0xF5
    · match r with
      | [] => right; simp [decodeRune, k1, k2, k3, k4, k5]
      | [_] => right; simp [decodeRune, k1, k2, k3, k4, k5]
      | [_, _] => right; simp [decodeRune, k1, k2, k3, k4, k5]
      | c1 :: c2 :: c3 :: r =>
        by_cases hc : (isCont c1 && isCont c2 && isCont c3 && (c != 0xF0 || decide (0x90 ≤ c1)) && (c != 0xF4 || decide (c1 ≤ 0x8F))) = true
        · left
          have hd : decodeRune (c :: c1 :: c2 :: c3 :: r) = ((c.toNat - 0xF0) * 262144 + (c1.toNat - 0x80) * 4096 + (c2.toNat - 0x80) * 64 + (c3.toNat - 0x80), 4) := by
            simp only [decodeRune, k1, k2, k3, k4, k5, if_true, if_false, hc]
          simp only [Bool.and_eq_true, Bool.or_eq_true, decide_eq_true_eq, isCont_iff, bne_iff_ne, ne_eq, ← UInt8.toNat_inj, UInt8.le_iff_toNat_le, UInt8.reduceToNat] at hc
          simp only [UInt8.lt_iff_toNat_lt, UInt8.reduceToNat] at k1 k2 k3 k4 k5
          obtain ⟨⟨⟨⟨g1, g2⟩, g3⟩, g4⟩, g5⟩ := hc
          have he : utf8Enc ((c.toNat - 0xF0) * 262144 + (c1.toNat - 0x80) * 4096 + (c2.toNat - 0x80) * 64 + (c3.toNat - 0x80)) = [c, c1, c2, c3] := by
            rw [utf8Enc, if_neg (by omega), if_neg (by omega), if_neg (by omega), ← u8_eq (c := c) (by omega) (by omega), ← u8_eq (c := c1) (by omega) (by omega), ← u8_eq (c := c2) (by omega) (by omega), ← u8_eq (c := c3) (by omega) (by omega)]
          rw [hd]
          refine ⟨by simp only [Scalar]; omega, r, ?_, ?_⟩ <;> simp only [he] <;> rfl
        · right; simp only [decodeRune, k1, k2, k3, k4, k5, if_true, if_false, hc, Bool.false_eq_true]
    · right; simp [decodeRune, k1, k2, k3, k4, k5]

theorem utf8Enc_ne (r : Nat) : utf8Enc r ≠ [] := by
  unfold utf8Enc; split <;> (try split) <;> (try split) <;> simp

theorem reads_aux (n : Nat) (s : Bytes) (h : s.length ≤ n) : Reads s (runesAux n s) := by
  induction n generalizing s with
  | zero =>
    have : s = [] := List.length_eq_zero_iff.1 (by omega)
    subst this; exact .nil
  | succ n ih =>
    cases s with
    | nil => exact .nil
    | cons c r =>
      rw [runesAux]
      · rcases decodeRune_sound (c :: r) (by simp) with ⟨hsc, rest, he, hw⟩ | hb
        · have hpos : 1 ≤ (utf8Enc (decodeRune (c :: r)).1).length := by
            have := utf8Enc_ne (decodeRune (c :: r)).1
            exact List.length_pos_iff.2 this
          have hd : (c :: r).drop (max 1 (decodeRune (c :: r)).2) = rest := by
            have h2 := congrArg (List.drop (utf8Enc (decodeRune (c :: r)).1).length) he
            rw [List.drop_left] at h2
            rw [hw, Nat.max_eq_right hpos, h2]
          rw [hd]
          conv => lhs; rw [he]
          refine .char hsc (ih rest ?_)
          have := congrArg List.length he
          simp at this h
          omega
        · by_cases hex : ∃ r' rest', Scalar r' ∧ c :: r = utf8Enc r' ++ rest'
          · -- U+FFFD itself cannot be read in one byte
            obtain ⟨r', rest', hsc, he⟩ := hex
            have h1 := decodeRune_enc hsc rest'
            rw [← he, hb] at h1
            simp only [Prod.mk.injEq] at h1
            have : (utf8Enc 0xFFFD).length = 3 := by decide
            rw [← h1.1, this] at h1
            omega
          · rw [hb]
            exact .bad hex (ih r (by simpa using h))
      · simp

theorem Reads.unique {s : Bytes} {rs ts : List Nat} (h1 : Reads s rs) (h2 : Reads s ts) : rs = ts := by
  induction h1 generalizing ts with
  | nil =>
    generalize hs : ([] : Bytes) = s at h2
    cases h2 with
    | nil => rfl
    | char => exact absurd (List.append_eq_nil_iff.1 hs.symm).1 (utf8Enc_ne _)
    | bad => cases hs
  | @char r rest rs hr _ ih =>
    generalize hs : utf8Enc r ++ rest = s at h2
    cases h2 with
    | nil => exact absurd (List.append_eq_nil_iff.1 hs).1 (utf8Enc_ne _)
    | @char r' rest' rs' hr' h' =>
      have a := decodeRune_enc hr rest
      rw [hs, decodeRune_enc hr' rest'] at a
      have e : r' = r := (Prod.mk.inj a).1
      subst e
      rw [ih (List.append_cancel_left hs ▸ h')]
    | bad hn _ => exact absurd ⟨r, rest, hr, hs.symm⟩ hn
  | @bad c rest rs hn _ ih =>
    generalize hs : c :: rest = s at h2
    cases h2 with
    | nil => cases hs
    | @char r' rest' _ hr' _ => exact absurd ⟨r', rest', hr', hs⟩ hn
    | bad _ h' =>
      obtain ⟨rfl, rfl⟩ := List.cons.inj hs
      rw [ih h']

/-- C77: every string is read in exactly one way, and `runes` is it. -/
theorem C77_reads (s : Bytes) (rs : List Nat) : Reads s rs ↔ rs = runes s :=
  ⟨fun h => h.unique (reads_aux _ s (Nat.le_refl _)), fun h => h ▸ reads_aux _ s (Nat.le_refl _)⟩

theorem foldRune_iff (fold : FoldTable) (a b : Nat) : foldRune fold a b = true ↔ SameRune fold a b := by
  unfold foldRune SameRune
  by_cases h : a = b
  · simp [h]
  · simp only [h, if_false, false_or]
    by_cases h2 : max a b < 0x80
    · simp only [h2, if_true, Bool.and_eq_true, decide_eq_true_eq, beq_iff_eq]
      omega
    · simp only [h2, if_false]
      constructor
      · exact fun hf => .inr (.inr ⟨h, by omega, hf⟩)
      · rintro (hx | hx | hx)
        · omega
        · omega
        · exact hx.2.2

theorem foldRunes_iff (fold : FoldTable) (rs ts : List Nat) : foldRunes fold rs ts = true ↔ SameRunes fold rs ts := by
  induction rs generalizing ts with
  | nil => cases ts <;> simp [foldRunes, SameRunes]
  | cons a rs ih =>
    cases ts with
    | nil => simp [foldRunes, SameRunes]
    | cons b ts =>
      simp only [foldRunes, Bool.and_eq_true, foldRune_iff, ih]
      unfold SameRunes
      simp only [List.length_cons, Nat.add_right_cancel_iff]
      constructor
      · rintro ⟨h1, h2, h3⟩
        refine ⟨h2, fun i x y hx hy => ?_⟩
        cases i with
        | zero => simp at hx hy; subst hx; subst hy; exact h1
        | succ i => exact h3 i x y (by simpa using hx) (by simpa using hy)
      · rintro ⟨h2, h3⟩
        exact ⟨h3 0 a b rfl rfl, h2, fun i x y hx hy => h3 (i + 1) x y (by simpa using hx) (by simpa using hy)⟩

/-- C77: **any two ids** are the same to the route table iff, read as UTF-8 with every byte that begins no character counting as U+FFFD, they
have the same number of characters and agree character by character up to case. -/
theorem C77_same_utf8 (fold : FoldTable) (s t : Bytes) :
    equalFold fold s t = true ↔ ∃ rs ts, Reads s rs ∧ Reads t ts ∧ SameRunes fold rs ts := by
  unfold equalFold
  rw [foldRunes_iff]
  constructor
  · exact fun h => ⟨_, _, (C77_reads s _).2 rfl, (C77_reads t _).2 rfl, h⟩
  · rintro ⟨rs, ts, h1, h2, h3⟩
    rw [← (C77_reads s rs).1 h1, ← (C77_reads t ts).1 h2]
    exact h3

theorem reads_valid (rs : List Nat) (h : ∀ r ∈ rs, Scalar r) : Reads (rs.flatMap utf8Enc) rs := by
  induction rs with
  | nil => exact .nil
  | cons r rs ih =>
    rw [List.flatMap_cons]
    exact .char (h r (by simp)) (ih fun x hx => h x (by simp [hx]))

/-- C77: ids that are valid UTF-8 and contain no character with case variants are the same only if they are equal. -/
theorem C77_valid_uncased (fold : FoldTable) {rs ts : List Nat} (h1 : ∀ r ∈ rs, Scalar r) (h2 : ∀ r ∈ ts, Scalar r)
    (hu : ∀ r ∈ rs, ∀ x, SameRune fold r x → x = r) :
    equalFold fold (rs.flatMap utf8Enc) (ts.flatMap utf8Enc) = true ↔ rs.flatMap utf8Enc = ts.flatMap utf8Enc := by
  constructor
  · intro h
    obtain ⟨a, b, ha, hb, hl, hs⟩ := (C77_same_utf8 fold _ _).1 h
    rw [ha.unique (reads_valid rs h1), hb.unique (reads_valid ts h2)] at hl hs
    have : rs = ts := by
      apply List.ext_getElem?
      intro i
      cases hx : rs[i]? with
      | none =>
        have : ts[i]? = none := by rw [List.getElem?_eq_none_iff] at hx ⊢; omega
        rw [this]
      | some x =>
        obtain ⟨y, hy⟩ : ∃ y, ts[i]? = some y := by
          have := (List.getElem?_eq_some_iff.1 hx).1
          exact ⟨_, List.getElem?_eq_getElem (by omega)⟩
        rw [hy, hu x (List.mem_of_getElem? hx) y (hs i x y hx hy)]
    rw [this]
  · intro h
    rw [h]; exact equalFold_refl _ _

/-- C77: `Find` for arbitrary ids: it answers with a stored node whose id reads the same, and with no node only if no stored node of the bucket
reads the same. -/
theorem C77_find_utf8 {env : Env} {t : RouteTable} (h : RouteTable.Reachable env t) (id : Bytes) :
    ∃ r, t.Find env id = .ok r ∧
      (∀ n, r = some n → n ∈ t.nodes ∧ ∃ rs ts, Reads n.id rs ∧ Reads id ts ∧ SameRunes env.fold rs ts) ∧
      (r = none → ∀ n ∈ t.nodes, t.place n.id = t.place id → ∀ rs ts, Reads n.id rs → Reads id ts → ¬ SameRunes env.fold rs ts) := by
  obtain ⟨r, h1, h2, h3, -⟩ := C23_find h id
  refine ⟨r, h1, fun n hr => ⟨(h2 n hr).1, (C77_same_utf8 env.fold _ _).1 (h2 n hr).2⟩, fun hr n hn hpl rs ts ha hb hs => ?_⟩
  have := h3 hr n hn hpl
  rw [(C77_same_utf8 env.fold _ _).2 ⟨rs, ts, ha, hb, hs⟩] at this
  cases this

/-! ## examples -/

/-- the euro sign, a lone continuation byte, an overlong form, "ß" and the last character of a plane (which ends in the byte BF) -/
example : Reads [0xE2, 0x82, 0xAC, 0xBF, 0xC0, 0x80, 0xC3, 0x9F, 0xF0, 0x9F, 0xBF, 0xBF] [0x20AC, 0xFFFD, 0xFFFD, 0xFFFD, 0xDF, 0x1FFFF] :=
  (C77_reads _ _).2 (by decide +kernel)

/-- hypotheses of `C77_valid_uncased`: CJK characters, with a table that knows only the Kelvin sign -/
example : (∀ r ∈ [0x4E2D, 0x6587], Scalar r) ∧
    ∀ r ∈ [0x4E2D, 0x6587], ∀ x, SameRune (fun a b => (a == 75 || a == 107) && b == 0x212A) r x → x = r := by
  constructor
  · intro r hr; simp at hr; unfold Scalar; omega
  · intro r hr x
    simp only [SameRune, Bool.and_eq_true, Bool.or_eq_true, beq_iff_eq, List.mem_cons, List.not_mem_nil, or_false] at hr ⊢
    omega

end P2P

import Verif.Spec.Identity
import Verif.Props.RouteTable
/-! # C77: which nodes the crawler confuses -/
namespace P2P

theorem decodeRune_ascii {c : UInt8} (h : Ascii c) (r : Bytes) : decodeRune (c :: r) = (c.toNat, 1) := by
  unfold Ascii at h
  simp [decodeRune, h]

theorem decodeRune_stray {c : UInt8} (h : Stray c) (r : Bytes) : decodeRune (c :: r) = (0xFFFD, 1) := by
  unfold Stray at h
  have h1 : ¬ c < 0x80 := by
    simp only [UInt8.lt_iff_toNat_lt, UInt8.le_iff_toNat_le, UInt8.reduceToNat] at h ⊢; omega
  rcases h with ⟨h2, h3⟩ | h2
  · simp [decodeRune, h1, h3]
  · have a : ¬ c < 0xC2 := by simp only [UInt8.lt_iff_toNat_lt, UInt8.le_iff_toNat_le, UInt8.reduceToNat] at h2 ⊢; omega
    have b : ¬ c < 0xE0 := by simp only [UInt8.lt_iff_toNat_lt, UInt8.le_iff_toNat_le, UInt8.reduceToNat] at h2 ⊢; omega
    have d : ¬ c < 0xF0 := by simp only [UInt8.lt_iff_toNat_lt, UInt8.le_iff_toNat_le, UInt8.reduceToNat] at h2 ⊢; omega
    have e : ¬ c < 0xF5 := by simp only [UInt8.lt_iff_toNat_lt, UInt8.le_iff_toNat_le, UInt8.reduceToNat] at h2 ⊢; omega
    simp [decodeRune, h1, a, b, d, e]

/-- the rune of a byte that is one on its own -/
def byteRune (c : UInt8) : Nat := if c < 0x80 then c.toNat else 0xFFFD

theorem runes_plain {s : Bytes} (h : PlainId s) : ∀ n, s.length ≤ n → runesAux n s = s.map byteRune := by
  induction s with
  | nil => intro n _; cases n <;> rfl
  | cons c r ih =>
    intro n hn
    cases n with
    | zero => simp at hn
    | succ n =>
      have hr : PlainId r := fun x hx => h x (by simp [hx])
      rcases h c (by simp) with hc | hc
      · simp only [runesAux, decodeRune_ascii hc, List.map_cons]
        rw [show (c :: r).drop (max 1 1) = r from rfl, ih hr n (by simp at hn; omega)]
        unfold Ascii at hc
        simp [byteRune, hc]
      · simp only [runesAux, decodeRune_stray hc, List.map_cons]
        rw [show (c :: r).drop (max 1 1) = r from rfl, ih hr n (by simp at hn; omega)]
        have : ¬ c < 0x80 := by
          unfold Stray at hc
          simp only [UInt8.lt_iff_toNat_lt, UInt8.le_iff_toNat_le, UInt8.reduceToNat] at hc ⊢; omega
        simp [byteRune, this]

theorem foldRune_byte (fold : FoldTable) (hf : ∀ a, fold a 0xFFFD = false) {a b : UInt8} (ha : Ascii a ∨ Stray a) (hb : Ascii b ∨ Stray b) :
    foldRune fold (byteRune a) (byteRune b) = true ↔ SameByte a b := by
  have key : ∀ c : UInt8, Stray c → ¬ c < 0x80 := by
    intro c hc
    unfold Stray at hc
    simp only [UInt8.lt_iff_toNat_lt, UInt8.le_iff_toNat_le, UInt8.reduceToNat] at hc ⊢; omega
  have disj : ∀ c : UInt8, Ascii c → ¬ Stray c := fun c h1 h2 => key c h2 h1
  rcases ha with ha | ha <;> rcases hb with hb | hb
  · -- both ASCII
    have e : SameByte a b ↔ lowerByte a = lowerByte b := by
      constructor
      · rintro (⟨-, -, h⟩ | ⟨h, -⟩)
        · exact h
        · exact absurd h (disj a ha)
      · exact fun h => .inl ⟨ha, hb, h⟩
    rw [e]
    unfold Ascii at ha hb
    simp only [byteRune, ha, hb, if_true, foldRune]
    have : ∀ a b : UInt8, a < 0x80 → b < 0x80 →
        ((if a.toNat = b.toNat then true else
          if max a.toNat b.toNat < 128 then decide (65 ≤ min a.toNat b.toNat) && decide (min a.toNat b.toNat ≤ 90) &&
            (max a.toNat b.toNat == min a.toNat b.toNat + 32) else fold (min a.toNat b.toNat) (max a.toNat b.toNat)) = true ↔ lowerByte a = lowerByte b) := by
      intro a b ha hb
      unfold lowerByte
      simp only [UInt8.lt_iff_toNat_lt, UInt8.le_iff_toNat_le, UInt8.reduceToNat] at ha hb ⊢
      have hmax : max a.toNat b.toNat < 128 := by omega
      simp only [hmax, if_true]
      have hadd : ∀ c : UInt8, c.toNat < 128 → (c + 32).toNat = c.toNat + 32 := by
        intro c hc
        simp [UInt8.toNat_add]
        omega
      rw [← UInt8.toNat_inj]
      by_cases hab : a.toNat = b.toNat
      · simp only [hab, if_true, true_iff]
        split <;> simp_all
      · simp only [hab, if_false, Bool.and_eq_true, decide_eq_true_eq, beq_iff_eq]
        split <;> split <;> (try simp only [hadd _ ha, hadd _ hb]) <;> omega
    exact this a b ha hb
  · have h1 : ¬ SameByte a b := by
      rintro (⟨-, h, -⟩ | ⟨h, -⟩)
      · exact disj b h hb
      · exact disj a ha h
    have hk := key b hb
    unfold Ascii at ha
    have hlt : a.toNat < 128 := by simpa [UInt8.lt_iff_toNat_lt] using ha
    simp only [byteRune, ha, hk, if_true, if_false, foldRune, h1, iff_false]
    rw [if_neg (by omega), if_neg (by omega), show min a.toNat 0xFFFD = a.toNat from by omega, show max a.toNat 0xFFFD = 0xFFFD from by omega, hf]
    simp
  · have h1 : ¬ SameByte a b := by
      rintro (⟨h, -, -⟩ | ⟨-, h⟩)
      · exact disj a h ha
      · exact disj b hb h
    have hk := key a ha
    unfold Ascii at hb
    have hlt : b.toNat < 128 := by simpa [UInt8.lt_iff_toNat_lt] using hb
    simp only [byteRune, hb, hk, if_true, if_false, foldRune, h1, iff_false]
    rw [if_neg (by omega), if_neg (by omega), show min 0xFFFD b.toNat = b.toNat from by omega, show max 0xFFFD b.toNat = 0xFFFD from by omega, hf]
    simp
  · simp only [byteRune, key a ha, key b hb, if_false, foldRune_refl, true_iff]
    exact .inr ⟨ha, hb⟩

/-- C77: ids of such bytes are the same to `strings.EqualFold` iff they have the same length and agree byte by byte, but for the case of letters and
except that invalid bytes are not told apart. (U+FFFD is the only case variant of itself in Unicode.) -/
theorem C77_same_id (fold : FoldTable) (hf : ∀ a, fold a 0xFFFD = false) {s t : Bytes} (hs : PlainId s) (ht : PlainId t) :
    equalFold fold s t = true ↔ SameId s t := by
  unfold equalFold runes
  rw [runes_plain hs _ (Nat.le_refl _), runes_plain ht _ (Nat.le_refl _)]
  induction s generalizing t with
  | nil =>
    cases t with
    | nil => simp [foldRunes, SameId]
    | cons b t => simp [foldRunes, SameId]
  | cons a s ih =>
    cases t with
    | nil => simp [foldRunes, SameId]
    | cons b t =>
      simp only [List.map_cons, foldRunes, Bool.and_eq_true]
      rw [foldRune_byte fold hf (hs a (by simp)) (ht b (by simp)), ih (fun c hc => hs c (by simp [hc])) (fun c hc => ht c (by simp [hc]))]
      unfold SameId
      simp only [List.length_cons, Nat.add_right_cancel_iff]
      constructor
      · rintro ⟨h1, h2, h3⟩
        refine ⟨h2, fun i x y hx hy => ?_⟩
        cases i with
        | zero => simp at hx hy; subst hx; subst hy; exact h1
        | succ i => exact h3 i x y (by simpa using hx) (by simpa using hy)
      · rintro ⟨h2, h3⟩
        exact ⟨h3 0 a b rfl rfl, h2, fun i x y hx hy => h3 (i + 1) x y (by simpa using hx) (by simpa using hy)⟩

/-- C77: text: two ids of ASCII characters are the same iff they are equal but for the case of letters. -/
theorem C77_ascii (fold : FoldTable) (hf : ∀ a, fold a 0xFFFD = false) {s t : Bytes} (hs : ∀ c ∈ s, Ascii c) (ht : ∀ c ∈ t, Ascii c) :
    equalFold fold s t = true ↔ s.map lowerByte = t.map lowerByte := by
  rw [C77_same_id fold hf (fun c hc => .inl (hs c hc)) (fun c hc => .inl (ht c hc))]
  constructor
  · rintro ⟨h1, h2⟩
    apply List.ext_getElem?
    intro i
    simp only [List.getElem?_map]
    cases hx : s[i]? with
    | none =>
      have : t[i]? = none := by rw [List.getElem?_eq_none_iff] at hx ⊢; omega
      rw [this]
    | some a =>
      obtain ⟨b, hb⟩ : ∃ b, t[i]? = some b := by
        have := (List.getElem?_eq_some_iff.1 hx).1
        exact ⟨_, List.getElem?_eq_getElem (by omega)⟩
      rw [hb]
      rcases h2 i a b hx hb with ⟨-, -, h⟩ | ⟨h, -⟩
      · simp [h]
      · exfalso
        have := hs a (List.mem_of_getElem? hx)
        unfold Ascii at this; unfold Stray at h
        simp only [UInt8.lt_iff_toNat_lt, UInt8.le_iff_toNat_le, UInt8.reduceToNat] at this h; omega
  · intro h
    refine ⟨by simpa using congrArg List.length h, fun i a b ha hb => .inl ⟨hs a (List.mem_of_getElem? ha), ht b (List.mem_of_getElem? hb), ?_⟩⟩
    have := congrArg (fun l => l[i]?) h
    simp only [List.getElem?_map, ha, hb, Option.map_some, Option.some.injEq] at this
    exact this

/-- C77: random bytes: ids of the same length all of whose bytes are invalid are all the same. -/
theorem C77_invalid (fold : FoldTable) (hf : ∀ a, fold a 0xFFFD = false) {s t : Bytes} (hl : s.length = t.length) (hs : ∀ c ∈ s, Stray c)
    (ht : ∀ c ∈ t, Stray c) : equalFold fold s t = true :=
  (C77_same_id fold hf (fun c hc => .inr (hs c hc)) (fun c hc => .inr (ht c hc))).2
    ⟨hl, fun _ a b ha hb => .inr ⟨hs a (List.mem_of_getElem? ha), ht b (List.mem_of_getElem? hb)⟩⟩

/-- C77: so a node is never stored beside another of the same address whose id, though different, is the same in this sense and belongs to the same bucket:
`AddNode` leaves the stored nodes as they are, and returns nil unless the bucket is full. -/
theorem C77_not_stored {env : Env} (hf : ∀ a, env.fold a 0xFFFD = false) {t : RouteTable} (h : RouteTable.Reachable env t) {n node : NodeInfo}
    (hn : n ∈ t.nodes) (haddr : n.addr = node.addr) (hp : t.place n.id = t.place node.id) (h1 : PlainId n.id) (h2 : PlainId node.id)
    (hid : SameId n.id node.id) :
    ∃ t' e, t.AddNode env node = .ok (t', e) ∧ t'.nodes = t.nodes ∧ (e = none ↔ (t.bucketNodes (t.place node.id)).length < t.k) := by
  have hhas : t.Has env node := by
    refine ⟨n, ?_, ?_⟩
    · have := h.inv.mem_nodes_iff.mp hn
      rw [hp] at this
      exact this
    · unfold NodeInfo.Equals
      rw [(C77_same_id env.fold hf h1 h2).2 hid, haddr, equalFold_refl]
      rfl
  have hc := RouteTable.addCase h.inv (RouteTable.addSplit env (t.capacity + 1)) node
  have hr : t.AddNode env node = RouteTable.addNodeWith env (RouteTable.addSplit env (t.capacity + 1)) t node (t.solveMaxPreLen node.id) := rfl
  rw [hr]
  generalize RouteTable.addNodeWith env (RouteTable.addSplit env (t.capacity + 1)) t node (t.solveMaxPreLen node.id) = r at hc
  cases hc with
  | store _ hno => exact absurd hhas hno
  | dup hlt _ => exact ⟨_, _, rfl, rfl, by simp [hlt]⟩
  | full hl _ => exact ⟨_, _, rfl, rfl, by simp; omega⟩
  | split _ _ hno => exact absurd hhas hno

/-- C77: and nothing else is confused among such ids: if `Find(id)` answers with a node whose id is of this kind, it is the same as `id`. -/
theorem C77_find {env : Env} (hf : ∀ a, env.fold a 0xFFFD = false) {t : RouteTable} (h : RouteTable.Reachable env t) {id : Bytes} (hid : PlainId id) :
    ∃ r, t.Find env id = .ok r ∧ (∀ n, r = some n → PlainId n.id → n ∈ t.nodes ∧ SameId n.id id) ∧
      (r = none → ∀ n ∈ t.nodes, PlainId n.id → t.place n.id = t.place id → ¬ SameId n.id id) := by
  obtain ⟨r, h1, h2, h3, -⟩ := C23_find h id
  refine ⟨r, h1, fun n hr hp => ⟨(h2 n hr).1, (C77_same_id env.fold hf hp hid).1 (h2 n hr).2⟩, fun hr n hn hp hpl hs => ?_⟩
  have := h3 hr n hn hpl
  rw [(C77_same_id env.fold hf hp hid).2 hs] at this
  cases this

/-! ## examples -/

example : PlainId [0xFF, 0x80, 0x41, 0xC1] ∧ PlainId [0xF5, 0x90, 0x61, 0xC0] ∧ SameId [0xFF, 0x80, 0x41, 0xC1] [0xF5, 0x90, 0x61, 0xC0] ∧
    ¬ SameId [0x41, 0x80] [0x42, 0x80] := by
  refine ⟨?_, ?_, ⟨rfl, ?_⟩, ?_⟩
  · intro c hc; simp at hc; unfold Ascii Stray; rcases hc with rfl | rfl | rfl | rfl <;> decide
  · intro c hc; simp at hc; unfold Ascii Stray; rcases hc with rfl | rfl | rfl | rfl <;> decide
  · intro i a b ha hb
    unfold SameByte Ascii Stray
    match i with
    | 0 => simp at ha hb; subst ha; subst hb; decide
    | 1 => simp at ha hb; subst ha; subst hb; decide
    | 2 => simp at ha hb; subst ha; subst hb; decide
    | 3 => simp at ha hb; subst ha; subst hb; decide
    | i + 4 => simp at ha
  · rintro ⟨-, h⟩
    have := h 0 _ _ rfl rfl
    unfold SameByte Ascii Stray lowerByte at this
    revert this; decide

/-- two different nodes with the same address: the second is not stored, and `AddNode` returns nil -/
example : ∃ t t', (RouteTable.new (nd 0 1) 8 8).AddNode env0 (nd 0xFF 7) = .ok (t, none) ∧ t.AddNode env0 (nd 0xF5 7) = .ok (t', none) ∧
    t'.nodes = t.nodes ∧ nd 0xF5 7 ∉ t'.nodes := by
  refine ⟨_, _, rfl, rfl, ?_⟩; decide +kernel

end P2P

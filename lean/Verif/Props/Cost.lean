import Verif.Model.Cost
import Verif.Lemmas.Bencode
import Verif.Props.Bencode
/-! # C91: what the codec costs -/
namespace P2P
open Counted

namespace Counted
variable {α β : Type}
@[simp] theorem res_pay (n : Nat) (r : Res α) : (pay n r).res = r := rfl
@[simp] theorem cost_pay (n : Nat) (r : Res α) : (pay n r).cost = n := rfl
@[simp] theorem res_after (n : Nat) (m : Counted α) : (after n m).res = m.res := rfl
@[simp] theorem cost_after (n : Nat) (m : Counted α) : (after n m).cost = n + m.cost := rfl
@[simp] theorem res_pure (a : α) : (Pure.pure a : Counted α).res = .ok a := rfl
@[simp] theorem cost_pure (a : α) : (Pure.pure a : Counted α).cost = 0 := rfl
theorem res_bind (m : Counted α) (f : α → Counted β) : (m >>= f).res = m.res >>= fun a => (f a).res := by
  show (Counted.bind m f).res = _
  unfold Counted.bind
  cases h : m.res <;> simp
theorem bind_ok {m : Counted α} {a : α} (h : m.res = .ok a) (f : α → Counted β) :
    (m >>= f).res = (f a).res ∧ (m >>= f).cost = m.cost + (f a).cost := by
  show (Counted.bind m f).res = _ ∧ (Counted.bind m f).cost = _
  unfold Counted.bind
  rw [h]
  exact ⟨rfl, rfl⟩
theorem bind_fail {m : Counted α} (h : ∀ a, m.res ≠ .ok a) (f : α → Counted β) :
    (∀ b, (m >>= f).res ≠ .ok b) ∧ (m >>= f).cost = m.cost := by
  show (∀ b, (Counted.bind m f).res ≠ .ok b) ∧ (Counted.bind m f).cost = _
  unfold Counted.bind
  cases hm : m.res with
  | ok a => exact absurd hm (h a)
  | err e => exact ⟨by simp, rfl⟩
  | panic p => exact ⟨by simp, rfl⟩
  | diverge => exact ⟨by simp, rfl⟩
theorem bind_bound {m : Counted α} {f : α → Counted β} {P : Res β → Nat → Prop}
    (hok : ∀ a, m.res = .ok a → P (f a).res (m.cost + (f a).cost))
    (hfail : (∀ a, m.res ≠ .ok a) → ∀ r, (∀ b, r ≠ .ok b) → P r m.cost) : P (m >>= f).res (m >>= f).cost := by
  by_cases h : ∃ a, m.res = .ok a
  · obtain ⟨a, h⟩ := h
    obtain ⟨h1, h2⟩ := bind_ok h f
    rw [h1, h2]
    exact hok a h
  · have h' : ∀ a, m.res ≠ .ok a := fun a ha => h ⟨a, ha⟩
    obtain ⟨h1, h2⟩ := bind_fail h' f
    rw [h2]
    exact hfail h' _ h1
end Counted

/-! ## Without the counter -/

theorem intLoopC_res (src : Bytes) : ∀ f i, (intLoopC src f i).res = intLoop src f i := by
  intro f
  induction f with
  | zero => intro i; rfl
  | succ f ih =>
    intro i
    simp only [intLoopC, intLoop]
    cases src[i]? with
    | none => rfl
    | some c =>
      simp only
      split
      · rfl
      · split
        · rfl
        · split
          · cases src[i + 1]? with
            | none => rfl
            | some c' => simp only; split <;> simp [ih]
          · simp [ih]

theorem innerDecodeIntegerC_res (src : Bytes) (i : Nat) : (innerDecodeIntegerC src i).res = innerDecodeInteger src i := by
  unfold innerDecodeIntegerC innerDecodeInteger
  cases src[i]? with
  | none => rfl
  | some c =>
    simp only
    split
    · rfl
    · rw [res_bind, intLoopC_res]
      congr 1
      funext k
      cases src[k]? with
      | none => rfl
      | some c =>
        simp only
        split
        · cases atoi (slice src (i + 1) k) <;> rfl
        · rfl

theorem indexColonC_fst (src : Bytes) : ∀ f i, (indexColonC src f i).1 = indexColon src f i := by
  intro f
  induction f with
  | zero => intro i; rfl
  | succ f ih =>
    intro i
    simp only [indexColonC, indexColon]
    cases src[i]? with
    | none => rfl
    | some c => simp only; split <;> simp [ih]

theorem innerDecodeStringC_res (src : Bytes) (i : Nat) : (innerDecodeStringC src i).res = innerDecodeString src i := by
  unfold innerDecodeStringC innerDecodeString
  simp only [indexColonC_fst]
  cases indexColon src (src.length - i) i with
  | none => rfl
  | some k =>
    simp only
    split
    · rfl
    · cases atoi (slice src i k) with
      | none => rfl
      | some n =>
        simp only
        split
        · rfl
        · split <;> rfl

theorem decodeC_res (f : Nat) : ∀ src i, (decodeItemC f src i).res = decodeItem f src i ∧
    (∀ acc, (sliceLoopC f src i acc).res = sliceLoop f src i acc) ∧ (∀ acc, (dictLoopC f src i acc).res = dictLoop f src i acc) := by
  induction f with
  | zero => intro src i; exact ⟨rfl, fun _ => rfl, fun _ => rfl⟩
  | succ f ih =>
    intro src i
    refine ⟨?_, ?_, ?_⟩
    · simp only [decodeItemC, decodeItem]
      cases src[i]? with
      | none => rfl
      | some c =>
        simp only
        split
        · simp only [res_after, res_bind, innerDecodeIntegerC_res]; rfl
        · split
          · simp only [res_after, res_bind, (ih src (i + 1)).2.1]; rfl
          · split
            · simp only [res_after, res_bind, (ih src (i + 1)).2.2]; rfl
            · split
              · simp only [res_after, res_bind, innerDecodeStringC_res]; rfl
              · rfl
    · intro acc
      simp only [sliceLoopC, sliceLoop]
      cases src[i]? with
      | none => rfl
      | some c =>
        simp only
        split
        · rfl
        · simp only [res_after, res_bind, (ih src i).1]
          congr 1
          funext x
          exact (ih src x.2).2.1 _
    · intro acc
      simp only [dictLoopC, dictLoop]
      cases src[i]? with
      | none => rfl
      | some c =>
        simp only
        split
        · rfl
        · simp only [res_after, res_bind, (ih src i).1]
          congr 1
          funext x
          cases x.1 <;> try rfl
          simp only [res_bind, (ih src x.2).1]
          congr 1
          funext y
          simp only [res_after]
          exact (ih src y.2).2.2 _

/-- C91: the functions with the counter are the functions of the other theorems. -/
theorem C91_same (src : Bytes) :
    (DecodeDictNoLimitC src).res = DecodeDictNoLimit src ∧ (DecodeDictC src).res = DecodeDict src ∧ (DecodeSliceC src).res = DecodeSlice src := by
  unfold DecodeDictNoLimitC DecodeDictC DecodeSliceC DecodeDictNoLimit DecodeDict DecodeSlice innerDecodeDict innerDecodeSlice
  refine ⟨?_, ?_, ?_⟩
  · split
    · rfl
    · split
      · rfl
      · rename_i h
        simp only [ne_eq, Decidable.not_not] at h
        simp only [res_after, res_bind, (decodeC_res _ src 1).2.2, h, ne_eq, not_true_eq_false, if_false]
        rfl
  · split
    · rfl
    · split
      · rfl
      · rename_i h
        simp only [ne_eq, not_or, Decidable.not_not] at h
        simp only [res_after, res_bind, (decodeC_res _ src 1).2.2, h.1, ne_eq, not_true_eq_false, if_false, bind_assoc]
        congr 1
        funext x
        simp only [Res.pure_eq, Res.bind_ok]
        split <;> rfl
  · split
    · rfl
    · split
      · rfl
      · rename_i h
        simp only [ne_eq, not_or, Decidable.not_not] at h
        simp only [res_after, res_bind, (decodeC_res _ src 1).2.1, h.1, ne_eq, not_true_eq_false, if_false, bind_assoc]
        congr 1
        funext x
        simp only [Res.pure_eq, Res.bind_ok]
        split <;> rfl

/-! ## Decoding is linear -/

mutual
/-- The memory of a value: its strings and keys byte by byte, and one for every value. -/
def GoVal.memory : GoVal → Nat
  | .str s => 1 + s.length
  | .list l => 1 + GoVal.memoryL l
  | .dict d => 1 + GoVal.memoryD d
  | _ => 1
def GoVal.memoryL : List GoVal → Nat
  | [] => 0
  | v :: r => v.memory + GoVal.memoryL r
def GoVal.memoryD : List (Bytes × GoVal) → Nat
  | [] => 0
  | (k, v) :: r => k.length + v.memory + GoVal.memoryD r
end

theorem memoryL_append (l m : List GoVal) : GoVal.memoryL (l ++ m) = GoVal.memoryL l + GoVal.memoryL m := by
  induction l with
  | nil => simp [GoVal.memoryL]
  | cons v r ih => simp only [List.cons_append, GoVal.memoryL, ih]; omega

theorem memoryD_put (d : Entries) (k : Bytes) (v : GoVal) : GoVal.memoryD (dictPut d k v) ≤ GoVal.memoryD d + k.length + v.memory := by
  induction d with
  | nil => simp [dictPut, GoVal.memoryD]
  | cons e r ih =>
    obtain ⟨k', v'⟩ := e
    simp only [dictPut]
    split
    · simp only [GoVal.memoryD]; omega
    · simp only [GoVal.memoryD]; omega

theorem intLoopC_cost (src : Bytes) : ∀ f i, i ≤ src.length →
    (∀ k, (intLoopC src f i).res = .ok k → i ≤ k ∧ k ≤ src.length ∧ (intLoopC src f i).cost = k - i + 1) ∧
    ((∀ k, (intLoopC src f i).res ≠ .ok k) → (intLoopC src f i).cost ≤ src.length - i) := by
  intro f
  induction f with
  | zero =>
    intro i hi
    refine ⟨fun k hk => ?_, fun h => absurd rfl (h i)⟩
    simp only [intLoopC, res_pay, Res.ok.injEq] at hk
    subst hk
    simp [intLoopC, hi]
  | succ f ih =>
    intro i hi
    simp only [intLoopC]
    cases hc : src[i]? with
    | none =>
      refine ⟨fun k hk => ?_, fun h => absurd rfl (h i)⟩
      simp only [res_pay, Res.ok.injEq] at hk
      subst hk
      simp [hi]
    | some c =>
      have hlt : i < src.length := (List.getElem?_eq_some_iff.1 hc).1
      have stop : ∀ r : Res Nat, (∀ k, r ≠ .ok k) → (∀ k, (pay 1 r).res = .ok k → i ≤ k ∧ k ≤ src.length ∧ (pay 1 r).cost = k - i + 1) ∧
          ((∀ k, (pay 1 r).res ≠ .ok k) → (pay 1 r).cost ≤ src.length - i) := by
        intro r hr
        refine ⟨fun k hk => absurd hk (hr k), fun _ => ?_⟩
        simp only [cost_pay]; omega
      have go : (∀ k, (after 1 (intLoopC src f (i + 1))).res = .ok k → i ≤ k ∧ k ≤ src.length ∧ (after 1 (intLoopC src f (i + 1))).cost = k - i + 1) ∧
          ((∀ k, (after 1 (intLoopC src f (i + 1))).res ≠ .ok k) → (after 1 (intLoopC src f (i + 1))).cost ≤ src.length - i) := by
        obtain ⟨h1, h2⟩ := ih (i + 1) (by omega)
        refine ⟨fun k hk => ?_, fun hk => ?_⟩
        · obtain ⟨a, b, c⟩ := h1 k hk
          simp only [cost_after, c]
          omega
        · have := h2 hk
          simp only [cost_after]
          omega
      simp only
      split
      · refine ⟨fun k hk => ?_, fun h => absurd rfl (h i)⟩
        simp only [res_pay, Res.ok.injEq] at hk
        subst hk
        simp [hi]
      · split
        · exact stop _ (by simp)
        · split
          · cases src[i + 1]? with
            | none => exact stop _ (by simp)
            | some c' =>
              simp only
              split
              · exact stop _ (by simp)
              · exact go
          · exact go

theorem indexColonC_cost (src : Bytes) : ∀ f i, i ≤ src.length →
    (∀ k, (indexColonC src f i).1 = some k → i ≤ k ∧ k < src.length ∧ (indexColonC src f i).2 = k - i + 1) ∧
    ((indexColonC src f i).1 = none → (indexColonC src f i).2 ≤ src.length - i) := by
  intro f
  induction f with
  | zero => intro i hi; simp [indexColonC]
  | succ f ih =>
    intro i hi
    simp only [indexColonC]
    cases hc : src[i]? with
    | none => simp
    | some c =>
      have hlt : i < src.length := (List.getElem?_eq_some_iff.1 hc).1
      obtain ⟨h1, h2⟩ := ih (i + 1) (by omega)
      simp only
      split
      · simp; omega
      · refine ⟨fun k hk => ?_, fun hk => ?_⟩
        · obtain ⟨a, b, c⟩ := h1 k hk
          simp only [c]; omega
        · have := h2 hk
          simp only; omega

theorem slice_length_le (src : Bytes) (i j : Nat) : (slice src i j).length ≤ j - i := by
  simp only [slice, List.length_take]; omega

/-- the claim about a string at position `i` -/
def StringB (src : Bytes) (i : Nat) (r : Res (Bytes × Nat)) (c : Nat) : Prop :=
  (∀ s n, r = .ok (s, n) → n < src.length ∧ i + 2 + s.length ≤ n ∧ c + s.length + 3 ≤ 3 * (n - i)) ∧
  ((∀ x, r ≠ .ok x) → c + 1 ≤ 3 * (src.length - i))
/-- ... about an integer -/
def IntegerB (src : Bytes) (i : Nat) (r : Res (Int × Nat)) (c : Nat) : Prop :=
  (∀ v n, r = .ok (v, n) → n ≤ src.length ∧ i + 2 ≤ n ∧ c + 2 ≤ 3 * (n - i)) ∧ ((∀ x, r ≠ .ok x) → c + 1 ≤ 3 * (src.length - i))
/-- ... about any item -/
def ItemB (src : Bytes) (i : Nat) (r : Res (GoVal × Nat)) (c : Nat) : Prop :=
  (∀ v n, r = .ok (v, n) → i < n ∧ c + 1 ≤ 3 * (min n src.length - i) ∧ v.memory ≤ min n src.length - i ∧
    ∀ s, v = .str s → n < src.length ∧ s.length + 1 ≤ n - i ∧ c + s.length + 2 ≤ 3 * (n - i)) ∧
  ((∀ x, r ≠ .ok x) → c ≤ 3 * (src.length - i))
/-- ... about the loop of a list or a dictionary; `w` is the memory -/
def LoopB {γ : Type} (src : Bytes) (i : Nat) (w : γ → Nat) (acc : γ) (r : Res (γ × Nat)) (c : Nat) : Prop :=
  (∀ l n, r = .ok (l, n) → i ≤ n ∧ c ≤ 3 * (min n src.length - min i src.length) + 1 ∧ w l ≤ w acc + (min n src.length - min i src.length)) ∧
  ((∀ x, r ≠ .ok x) → c ≤ 3 * (src.length - i) + 1)

theorem stringC_cost {src : Bytes} {i : Nat} (hi : i < src.length) : StringB src i (innerDecodeStringC src i).res (innerDecodeStringC src i).cost := by
  unfold innerDecodeStringC
  obtain ⟨h1, h2⟩ := indexColonC_cost src (src.length - i) i (by omega)
  simp only
  cases hk : (indexColonC src (src.length - i) i).1 with
  | none =>
    refine ⟨by simp, fun _ => ?_⟩
    have := h2 hk
    simp only [cost_pay]; omega
  | some k =>
    obtain ⟨a, b, c⟩ := h1 k hk
    have hs := slice_length_le src i k
    simp only
    split
    · refine ⟨by simp, fun _ => ?_⟩
      simp only [cost_pay, c]; omega
    · cases hn : atoi (slice src i k) with
      | none =>
        refine ⟨by simp, fun _ => ?_⟩
        simp only [cost_pay, c]; omega
      | some m =>
        simp only
        generalize wrap64 (k + m + 1) = stop
        split
        · refine ⟨by simp, fun _ => ?_⟩
          simp only [cost_pay, c]; omega
        · split
          · refine ⟨by simp, fun _ => ?_⟩
            simp only [cost_pay, c]; omega
          · refine ⟨fun s n h => ?_, fun h => absurd rfl (h _)⟩
            simp only [res_pay, Res.ok.injEq, Prod.mk.injEq] at h
            obtain ⟨rfl, rfl⟩ := h
            have hl := slice_length_le src (k + 1) stop.toNat
            simp only [cost_pay, c]
            omega

theorem integerC_cost {src : Bytes} {i : Nat} (hi : i < src.length) :
    IntegerB src i (innerDecodeIntegerC src i).res (innerDecodeIntegerC src i).cost := by
  unfold innerDecodeIntegerC
  cases hc : src[i]? with
  | none => exact ⟨by simp, fun _ => by simp only [cost_pay]; omega⟩
  | some c =>
    simp only
    split
    · exact ⟨by simp, fun _ => by simp only [cost_pay]; omega⟩
    · obtain ⟨h1, h2⟩ := intLoopC_cost src (src.length - (i + 1)) (i + 1) (by omega)
      refine bind_bound (P := IntegerB src i) ?_ ?_
      · intro k hk
        obtain ⟨a, b, d⟩ := h1 k hk
        have hs := slice_length_le src (i + 1) k
        rw [d]
        cases hk' : src[k]? with
        | none => exact ⟨by simp, fun _ => by simp only [cost_pay]; omega⟩
        | some c' =>
          have hlt : k < src.length := (List.getElem?_eq_some_iff.1 hk').1
          simp only
          split
          · cases atoi (slice src (i + 1) k) with
            | none => exact ⟨by simp, fun _ => by simp only [cost_pay]; omega⟩
            | some m =>
              refine ⟨fun v n h => ?_, fun h => absurd rfl (h _)⟩
              simp only [res_pay, Res.ok.injEq, Prod.mk.injEq] at h
              obtain ⟨-, rfl⟩ := h
              simp only [cost_pay]; omega
          · exact ⟨by simp, fun _ => by simp only [cost_pay]; omega⟩
      · intro hf r hr
        have := h2 hf
        exact ⟨fun v n h => absurd h (hr _), fun _ => by omega⟩

theorem decodeC_cost (src : Bytes) : ∀ f i,
    (i < src.length → ItemB src i (decodeItemC f src i).res (decodeItemC f src i).cost) ∧
    (∀ acc, LoopB src i GoVal.memoryL acc (sliceLoopC f src i acc).res (sliceLoopC f src i acc).cost) ∧
    (∀ acc, LoopB src i GoVal.memoryD acc (dictLoopC f src i acc).res (dictLoopC f src i acc).cost) := by
  intro f
  induction f with
  | zero =>
    intro i
    simp only [decodeItemC, sliceLoopC, dictLoopC]
    exact ⟨fun hi => ⟨by simp, fun _ => by simp only [cost_pay]; omega⟩, fun _ => ⟨by simp, fun _ => by simp⟩, fun _ => ⟨by simp, fun _ => by simp⟩⟩
  | succ f ih =>
    intro i
    refine ⟨?_, ?_, ?_⟩
    · intro hi
      simp only [decodeItemC]
      cases hc : src[i]? with
      | none => exact ⟨by simp, fun _ => by simp only [cost_pay]; omega⟩
      | some c =>
        simp only
        split
        · simp only [res_after, cost_after]
          obtain ⟨h1, h2⟩ := integerC_cost hi
          refine bind_bound (P := fun r c => ItemB src i r (1 + c)) ?_ ?_
          · rintro ⟨v, n⟩ hv
            obtain ⟨a, b, d⟩ := h1 v n hv
            refine ⟨fun w m h => ?_, fun h => absurd rfl (h _)⟩
            simp only [res_pure, Res.ok.injEq, Prod.mk.injEq] at h
            obtain ⟨rfl, rfl⟩ := h
            simp only [cost_pure, GoVal.memory]
            refine ⟨by omega, by omega, by omega, by simp⟩
          · intro hf r hr
            have := h2 hf
            exact ⟨fun v n h => absurd h (hr _), fun _ => by omega⟩
        · split
          · simp only [res_after, cost_after]
            obtain ⟨h1, h2⟩ := (ih (i + 1)).2.1 []
            refine bind_bound (P := fun r c => ItemB src i r (1 + c)) ?_ ?_
            · rintro ⟨l, j⟩ hl
              obtain ⟨a, b, d⟩ := h1 l j hl
              refine ⟨fun w m h => ?_, fun h => absurd rfl (h _)⟩
              simp only [res_pure, Res.ok.injEq, Prod.mk.injEq] at h
              obtain ⟨rfl, rfl⟩ := h
              simp only [GoVal.memoryL] at d
              simp only [cost_pure, GoVal.memory]
              refine ⟨by omega, by omega, by omega, by simp⟩
            · intro hf r hr
              have := h2 hf
              exact ⟨fun v n h => absurd h (hr _), fun _ => by omega⟩
          · split
            · simp only [res_after, cost_after]
              obtain ⟨h1, h2⟩ := (ih (i + 1)).2.2 []
              refine bind_bound (P := fun r c => ItemB src i r (1 + c)) ?_ ?_
              · rintro ⟨l, j⟩ hl
                obtain ⟨a, b, d⟩ := h1 l j hl
                refine ⟨fun w m h => ?_, fun h => absurd rfl (h _)⟩
                simp only [res_pure, Res.ok.injEq, Prod.mk.injEq] at h
                obtain ⟨rfl, rfl⟩ := h
                simp only [GoVal.memoryD] at d
                simp only [cost_pure, GoVal.memory]
                refine ⟨by omega, by omega, by omega, by simp⟩
              · intro hf r hr
                have := h2 hf
                exact ⟨fun v n h => absurd h (hr _), fun _ => by omega⟩
            · split
              · simp only [res_after, cost_after]
                obtain ⟨h1, h2⟩ := stringC_cost hi
                refine bind_bound (P := fun r c => ItemB src i r (1 + c)) ?_ ?_
                · rintro ⟨v, n⟩ hv
                  obtain ⟨a, b, d⟩ := h1 v n hv
                  refine ⟨fun w m h => ?_, fun h => absurd rfl (h _)⟩
                  simp only [res_pure, Res.ok.injEq, Prod.mk.injEq] at h
                  obtain ⟨rfl, rfl⟩ := h
                  simp only [cost_pure, GoVal.memory]
                  refine ⟨by omega, by omega, by omega, ?_⟩
                  rintro s' h
                  cases h
                  omega
                · intro hf r hr
                  have := h2 hf
                  exact ⟨fun v n h => absurd h (hr _), fun _ => by omega⟩
              · exact ⟨by simp, fun _ => by simp only [cost_pay]; omega⟩
    · intro acc
      simp only [sliceLoopC]
      have stop : LoopB src i GoVal.memoryL acc (pay 1 (Res.ok (acc, i))).res (pay 1 (Res.ok (acc, i))).cost := by
        refine ⟨fun l n h => ?_, fun h => absurd rfl (h _)⟩
        simp only [res_pay, Res.ok.injEq, Prod.mk.injEq] at h
        obtain ⟨rfl, rfl⟩ := h
        simp
      cases hc : src[i]? with
      | none => exact stop
      | some c =>
        have hi : i < src.length := (List.getElem?_eq_some_iff.1 hc).1
        simp only
        split
        · exact stop
        · simp only [res_after, cost_after]
          obtain ⟨h1, h2⟩ := (ih i).1 hi
          refine bind_bound (P := fun r c => LoopB src i GoVal.memoryL acc r (1 + c)) ?_ ?_
          · rintro ⟨v, n⟩ hv
            obtain ⟨a, b, d, -⟩ := h1 v n hv
            obtain ⟨g1, g2⟩ := (ih n).2.1 (acc ++ [v])
            refine ⟨fun l m h => ?_, fun h => ?_⟩
            · obtain ⟨e1, e2, e3⟩ := g1 l m h
              simp only [memoryL_append, GoVal.memoryL] at e3
              simp only
              omega
            · have := g2 h
              simp only
              omega
          · intro hf r hr
            have := h2 hf
            exact ⟨fun v n h => absurd h (hr _), fun _ => by omega⟩
    · intro acc
      simp only [dictLoopC]
      have stop : LoopB src i GoVal.memoryD acc (pay 1 (Res.ok (acc, i))).res (pay 1 (Res.ok (acc, i))).cost := by
        refine ⟨fun l n h => ?_, fun h => absurd rfl (h _)⟩
        simp only [res_pay, Res.ok.injEq, Prod.mk.injEq] at h
        obtain ⟨rfl, rfl⟩ := h
        simp
      cases hc : src[i]? with
      | none => exact stop
      | some c =>
        have hi : i < src.length := (List.getElem?_eq_some_iff.1 hc).1
        simp only
        split
        · exact stop
        · simp only [res_after, cost_after]
          obtain ⟨h1, h2⟩ := (ih i).1 hi
          refine bind_bound (P := fun r c => LoopB src i GoVal.memoryD acc r (1 + c)) ?_ ?_
          · rintro ⟨kv, n⟩ hv
            obtain ⟨a, b, d, hstr⟩ := h1 kv n hv
            have other : LoopB src i GoVal.memoryD acc (pay 1 (Res.err GoErr.wrongParam)).res
                (1 + ((decodeItemC f src i).cost + (pay 1 (Res.err GoErr.wrongParam : Res (Entries × Nat))).cost)) :=
              ⟨by simp, fun _ => by simp only [cost_pay]; omega⟩
            cases kv with
            | str key =>
              obtain ⟨s1, s2, s3⟩ := hstr key rfl
              obtain ⟨q1, q2⟩ := (ih n).1 s1
              simp only
              refine bind_bound (P := fun r c => LoopB src i GoVal.memoryD acc r (1 + ((decodeItemC f src i).cost + c))) ?_ ?_
              · rintro ⟨val, m⟩ hval
                obtain ⟨p1, p2, p3, -⟩ := q1 val m hval
                obtain ⟨g1, g2⟩ := (ih m).2.2 (dictPut acc key val)
                have hw := memoryD_put acc key val
                refine ⟨fun l j h => ?_, fun h => ?_⟩
                · obtain ⟨e1, e2, e3⟩ := g1 l j h
                  simp only [cost_after]
                  omega
                · have := g2 h
                  simp only [cost_after]
                  omega
              · intro hf r hr
                have := q2 hf
                exact ⟨fun v n h => absurd h (hr _), fun _ => by omega⟩
            | _ => exact other
          · intro hf r hr
            have := h2 hf
            exact ⟨fun v n h => absurd h (hr _), fun _ => by omega⟩

/-- C91: **decoding takes linear time**: whatever the input, at most three bytes are looked at (and hashed) per byte of the input. -/
theorem C91_decode_linear (src : Bytes) :
    (DecodeDictNoLimitC src).cost ≤ 3 * src.length + 1 ∧ (DecodeDictC src).cost ≤ 3 * src.length + 1 ∧ (DecodeSliceC src).cost ≤ 3 * src.length + 1 := by
  obtain ⟨-, hl, hd⟩ := decodeC_cost src (decodeBudget src) 1
  obtain ⟨l1, l2⟩ := hl []
  obtain ⟨d1, d2⟩ := hd []
  unfold DecodeDictNoLimitC DecodeDictC DecodeSliceC
  refine ⟨?_, ?_, ?_⟩
  · split
    · simp
    · split
      · simp
      · simp only [cost_after]
        refine bind_bound (P := fun _ c => 1 + c ≤ 3 * src.length + 1) ?_ ?_
        · rintro ⟨d, j⟩ h
          have := d1 d j h
          simp only [cost_pure]; omega
        · intro hf r hr
          have := d2 hf
          omega
  · split
    · simp
    · split
      · simp
      · simp only [cost_after]
        refine bind_bound (P := fun _ c => 1 + c ≤ 3 * src.length + 1) ?_ ?_
        · rintro ⟨d, j⟩ h
          have := d1 d j h
          simp only
          split <;> simp only [cost_pure] <;> omega
        · intro hf r hr
          have := d2 hf
          omega
  · split
    · simp
    · split
      · simp
      · simp only [cost_after]
        refine bind_bound (P := fun _ c => 1 + c ≤ 3 * src.length + 1) ?_ ?_
        · rintro ⟨d, j⟩ h
          have := l1 d j h
          simp only
          split <;> simp only [cost_pure, cost_pay] <;> omega
        · intro hf r hr
          have := l2 hf
          omega

/-- C91: **what is decoded is no larger than the input**: all strings and keys, and one for every value, together. -/
theorem C91_decode_size {src : Bytes} {d : Entries} {n : Nat} (h : DecodeDictNoLimit src = .ok (d, n)) : GoVal.memory (.dict d) ≤ src.length := by
  rw [← (C91_same src).1] at h
  unfold DecodeDictNoLimitC at h
  split at h
  · cases h
  · split at h
    · cases h
    · rw [res_after, res_bind] at h
      obtain ⟨⟨d', j⟩, h1, h2⟩ := Res.bind_eq_ok.1 h
      cases h2
      have := ((decodeC_cost src (decodeBudget src) 1).2.2 []).1 _ _ h1
      simp only [GoVal.memoryD] at this
      simp only [GoVal.memory]
      omega

/-! ## Encoding is quadratic -/

mutual
theorem encodeItemC_res : ∀ v, (encodeItemC v).res = encodeItem v
  | .int i => rfl
  | .str s => rfl
  | .list l => by
    simp only [encodeItemC, encodeItem, res_bind, encodeElemsC_res [] l, res_pay]
    cases encodeElems l <;> simp [Res.bind_ok]
  | .dict d => by
    simp only [encodeItemC, encodeItem, res_bind, encodeEntriesC_res [] d, res_pay]
    cases encodeEntries d <;> simp [Res.bind_ok]
  | .nilList => rfl
  | .nilDict => rfl
  | .nil => rfl
  | .namedInt _ => rfl
  | .namedStr _ => rfl
  | .otherSlice => rfl
  | .otherMap => rfl
  | .other => rfl
theorem encodeElemsC_res : ∀ (acc : Bytes) (l : List GoVal), (encodeElemsC acc l).res = encodeElems l >>= fun r => .ok (acc ++ r)
  | acc, [] => by simp [encodeElemsC, encodeElems]
  | acc, v :: r => by
    simp only [encodeElemsC, encodeElems, res_bind, encodeItemC_res v, res_after, bind_assoc]
    cases encodeItem v with
    | ok t =>
      simp only [Res.bind_ok, encodeElemsC_res (acc ++ t) r]
      cases encodeElems r <;> simp
    | err e => rfl
    | panic p => rfl
    | diverge => rfl
theorem encodeEntriesC_res : ∀ (acc : Bytes) (d : List (Bytes × GoVal)), (encodeEntriesC acc d).res = encodeEntries d >>= fun r => .ok (acc ++ r)
  | acc, [] => by simp [encodeEntriesC, encodeEntries]
  | acc, (k, v) :: r => by
    simp only [encodeEntriesC, encodeEntries, res_bind, encodeItemC_res v, res_after, bind_assoc]
    cases encodeItem v with
    | ok t =>
      simp only [Res.bind_ok, encodeEntriesC_res (acc ++ EncodeString k ++ t) r]
      cases encodeEntries r <;> simp
    | err e => rfl
    | panic p => rfl
    | diverge => rfl
end

/-- C91: the encoders with the counter are the encoders of the other theorems. -/
theorem C91_encode_same (d : Entries) (l : List GoVal) :
    (EncodeDictC d).res = EncodeDict (some d) ∧ (EncodeSliceC l).res = EncodeSlice (some l) :=
  ⟨encodeItemC_res _, encodeItemC_res _⟩

theorem encodeInteger_pos (i : Int) : 2 ≤ (EncodeInteger i).length := by
  simp only [EncodeInteger, List.length_append, List.length_cons, List.length_nil]; omega

theorem encodeString_pos (s : Bytes) : 1 ≤ (EncodeString s).length := by
  simp only [EncodeString, List.length_append, List.length_cons, List.length_nil]; omega

mutual
theorem encodeItemC_cost : ∀ (v : GoVal) (b : Bytes), (encodeItemC v).res = .ok b → 1 ≤ b.length ∧ (encodeItemC v).cost ≤ b.length * b.length
  | .int i, b, h => by
    cases h
    have := encodeInteger_pos i
    exact ⟨by omega, Nat.le_mul_of_pos_left _ (by omega)⟩
  | .str s, b, h => by
    cases h
    have := encodeString_pos s
    exact ⟨this, Nat.le_mul_of_pos_left _ this⟩
  | .list l, b, h => by
    rw [encodeItemC, res_bind] at h
    obtain ⟨r, h1, h2⟩ := Res.bind_eq_ok.1 h
    cases h2
    obtain ⟨e, hb⟩ := encodeElemsC_cost [] l r h1
    rw [encodeItemC, (bind_ok h1 _).2]
    simp only [List.length_nil, Nat.zero_add, Nat.mul_zero, Nat.sub_zero, cost_pay, List.length_append, List.length_cons, List.append_assoc] at e hb ⊢
    generalize r.length = n at *
    have : (1 + (n + 1)) * (1 + (n + 1)) = n * n + 4 * n + 4 := by
      simp only [Nat.add_mul, Nat.mul_add, Nat.mul_one, Nat.one_mul]; omega
    omega
  | .dict d, b, h => by
    rw [encodeItemC, res_bind] at h
    obtain ⟨r, h1, h2⟩ := Res.bind_eq_ok.1 h
    cases h2
    obtain ⟨e, hb⟩ := encodeEntriesC_cost [] d r h1
    rw [encodeItemC, (bind_ok h1 _).2]
    simp only [List.length_nil, Nat.zero_add, Nat.mul_zero, Nat.sub_zero, cost_pay, List.length_append, List.length_cons, List.append_assoc] at e hb ⊢
    generalize r.length = n at *
    have : (1 + (n + 1)) * (1 + (n + 1)) = n * n + 4 * n + 4 := by
      simp only [Nat.add_mul, Nat.mul_add, Nat.mul_one, Nat.one_mul]; omega
    omega
  | .nilList, b, h => by cases h
  | .nilDict, b, h => by cases h
  | .nil, b, h => by cases h
  | .namedInt _, b, h => by cases h
  | .namedStr _, b, h => by cases h
  | .otherSlice, b, h => by cases h
  | .otherMap, b, h => by cases h
  | .other, b, h => by cases h
theorem encodeElemsC_cost : ∀ (acc : Bytes) (l : List GoVal) (b : Bytes), (encodeElemsC acc l).res = .ok b →
    acc.length ≤ b.length ∧ (encodeElemsC acc l).cost + acc.length * acc.length + acc.length ≤ b.length * b.length + b.length
  | acc, [], b, h => by
    cases h
    simp only [encodeElemsC, cost_pay]
    omega
  | acc, v :: r, b, h => by
    rw [encodeElemsC, res_bind] at h
    obtain ⟨t, h1, h2⟩ := Res.bind_eq_ok.1 h
    rw [res_after] at h2
    obtain ⟨t1, t2⟩ := encodeItemC_cost v t h1
    obtain ⟨e1, e2⟩ := encodeElemsC_cost (acc ++ t) r b h2
    rw [encodeElemsC, (bind_ok h1 _).2, cost_after]
    rw [List.length_append] at e1 e2 ⊢
    have h3 : (acc.length + t.length) * (acc.length + t.length) = acc.length * acc.length + 2 * (acc.length * t.length) + t.length * t.length := by
      simp only [Nat.add_mul, Nat.mul_add, Nat.mul_comm t.length acc.length]; omega
    have h4 : acc.length ≤ acc.length * t.length := Nat.le_mul_of_pos_right _ t1
    generalize acc.length * t.length = x at *
    generalize t.length * t.length = y at *
    generalize b.length * b.length = z at *
    generalize acc.length * acc.length = u at *
    rw [h3] at e2
    omega
theorem encodeEntriesC_cost : ∀ (acc : Bytes) (d : List (Bytes × GoVal)) (b : Bytes), (encodeEntriesC acc d).res = .ok b →
    acc.length ≤ b.length ∧ (encodeEntriesC acc d).cost + acc.length * acc.length + acc.length ≤ b.length * b.length + b.length
  | acc, [], b, h => by
    cases h
    simp only [encodeEntriesC, cost_pay]
    omega
  | acc, (k, v) :: r, b, h => by
    rw [encodeEntriesC, res_after, res_bind] at h
    obtain ⟨t, h1, h2⟩ := Res.bind_eq_ok.1 h
    rw [res_after] at h2
    obtain ⟨t1, t2⟩ := encodeItemC_cost v t h1
    obtain ⟨e1, e2⟩ := encodeEntriesC_cost (acc ++ EncodeString k ++ t) r b h2
    rw [encodeEntriesC, cost_after, (bind_ok h1 _).2, cost_after]
    simp only [List.length_append] at e1 e2 ⊢
    have hk : 2 ≤ (EncodeString k).length := by
      have := List.length_pos_iff.2 (natDec_ne_nil k.length)
      simp only [EncodeString, List.length_append, List.length_cons, List.length_nil]; omega
    generalize (EncodeString k).length = kl at *
    have h3 : (acc.length + kl + t.length) * (acc.length + kl + t.length) =
        acc.length * acc.length + 2 * (acc.length * t.length) + t.length * t.length + 2 * (acc.length * kl) + kl * kl + 2 * (kl * t.length) := by
      simp only [Nat.add_mul, Nat.mul_add, Nat.mul_comm t.length acc.length, Nat.mul_comm kl acc.length, Nat.mul_comm t.length kl]; omega
    have h4 : acc.length ≤ acc.length * t.length := Nat.le_mul_of_pos_right _ t1
    have h5 : 2 * kl ≤ kl * kl := Nat.mul_le_mul_right _ hk
    have h6 : acc.length ≤ acc.length * kl := Nat.le_mul_of_pos_right _ (by omega)
    have h7 : kl ≤ kl * t.length := Nat.le_mul_of_pos_right _ t1
    rw [h3] at e2
    generalize acc.length * t.length = x at *
    generalize t.length * t.length = y at *
    generalize b.length * b.length = z at *
    generalize acc.length * acc.length = u at *
    generalize kl * kl = p at *
    generalize kl * t.length = q at *
    generalize acc.length * kl = q' at *
    omega
end

/-- C91: **encoding copies at most the square of its output**. -/
theorem C91_encode_quadratic {d : Entries} {b : Bytes} (h : EncodeDict (some d) = .ok b) : (EncodeDictC d).cost ≤ b.length * b.length :=
  (encodeItemC_cost (.dict d) b (by rw [encodeItemC_res]; exact h)).2

/-- C91: … and so for lists. -/
theorem C91_encode_quadratic_slice {l : List GoVal} {b : Bytes} (h : EncodeSlice (some l) = .ok b) : (EncodeSliceC l).cost ≤ b.length * b.length :=
  (encodeItemC_cost (.list l) b (by rw [encodeItemC_res]; exact h)).2

/-- The list of `n` zeros, with what was already written. -/
theorem zeros_elems : ∀ (n : Nat) (acc : Bytes), ∃ r : Bytes, (encodeElemsC acc (List.replicate n (.int 0))).res = .ok r ∧
    r.length = acc.length + 3 * n ∧ 2 * (encodeElemsC acc (List.replicate n (.int 0))).cost = 2 * (n * acc.length) + 3 * (n * n) + 9 * n
  | 0, acc => ⟨acc, rfl, by simp, by simp [encodeElemsC, cost_pay]⟩
  | n + 1, acc => by
    have h1 : (encodeItemC (.int 0)).res = .ok (EncodeInteger 0) := rfl
    have h2 : (EncodeInteger 0).length = 3 := by decide +kernel
    have h3 : (encodeItemC (.int 0)).cost = 3 := by decide +kernel
    obtain ⟨r, e1, e2, e3⟩ := zeros_elems n (acc ++ EncodeInteger 0)
    refine ⟨r, ?_, ?_, ?_⟩
    · rw [List.replicate_succ, encodeElemsC, res_bind, h1, Res.bind_ok, res_after, e1]
    · rw [e2, List.length_append, h2]; omega
    · rw [List.replicate_succ, encodeElemsC, (bind_ok h1 _).2, cost_after, h3]
      rw [List.length_append, h2] at e3 ⊢
      simp only [Nat.mul_add, Nat.add_mul, Nat.mul_one, Nat.one_mul] at e3 ⊢
      omega

/-- C91: **and the square is reached**: the list of `n` zeros is encoded in `3n + 2` bytes, and more than `3n²/2` bytes are copied to build them. -/
theorem C91_encode_quadratic_reached (n : Nat) : ∃ b, EncodeSlice (some (List.replicate n (.int 0))) = .ok b ∧ b.length = 3 * n + 2 ∧
    2 * (EncodeSliceC (List.replicate n (.int 0))).cost = 3 * (n * n) + 15 * n + 4 := by
  obtain ⟨r, e1, e2, e3⟩ := zeros_elems n []
  have e : (EncodeSliceC (List.replicate n (.int 0))).res = .ok (b!"l" ++ r ++ b!"e") := by
    rw [EncodeSliceC, encodeItemC, res_bind, e1, Res.bind_ok]; rfl
  refine ⟨b!"l" ++ r ++ b!"e", ?_, ?_, ?_⟩
  · rw [← (C91_encode_same [] _).2]; exact e
  · simp only [List.length_append, e2, List.length_nil]; simp; omega
  · rw [EncodeSliceC, encodeItemC, (bind_ok e1 _).2]
    simp only [cost_pay, e2, List.length_nil] at e3 ⊢
    omega

/-- A packet for which the bounds are not far off: 38 bytes, 56 looks. -/
example : (DecodeDictNoLimitC b!"d1:ad2:id3:abce1:q4:ping1:t2:aa1:y1:qe").cost ≤ 3 * 38 + 1 ∧ 38 ≤ (DecodeDictNoLimitC b!"d1:ad2:id3:abce1:q4:ping1:t2:aa1:y1:qe").cost ∧
    (DecodeDictNoLimitC b!"d1:ad2:id3:abce1:q4:ping1:t2:aa1:y1:qe").res ≠ .err .wrongParam := by decide +kernel

/-- Two looks per byte are not enough: a dictionary of empty strings. -/
example : 2 * b!"d0:0:0:0:0:0:0:0:0:0:e".length < (DecodeDictNoLimitC b!"d0:0:0:0:0:0:0:0:0:0:e").cost := by decide +kernel

/-- The exact cost of packets that are refused: decoding stops at the first byte that does not fit. -/
example : [b!"d1:axe", b!"d1:a", b!"d1:ai-0e", b!"d1:ai05ee", b!"d1:ai12", b!"d1:ali1ei2", b!"d12345", b!"d:xe", b!"d1x:ae", b!"d99:ae", b!"d-1:ae", b!"d1:ai1xee", b!"x", b!""].map (fun p => (DecodeDictNoLimitC p).cost) =
    [7, 6, 9, 8, 11, 17, 8, 3, 8, 8, 3, 12, 1, 1] := by decide +kernel

/-- Ten zeros: 32 bytes, 227 copied. -/
example : (EncodeSliceC (List.replicate 10 (.int 0))).cost = 227 := by decide +kernel

/-- A dictionary of two entries: 14 bytes, 56 copied (key, text of the value and the output so far, once each). -/
example : (EncodeDictC [(b!"a", .int 0), (b!"b", .int 0)]).cost = 56 := by decide +kernel

end P2P

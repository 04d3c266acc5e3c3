import Verif.Props.Bencode
/-! # C12, continued: how encoding fails, and C03 as an equivalence -/
namespace P2P

/-! ## Specification -/

mutual
/-- the values inside a value that are not themselves non-nil containers, in the order in which they are listed -/
def GoVal.leaves : GoVal → List GoVal
  | .list l => GoVal.leavesL l
  | .dict d => GoVal.leavesD d
  | v => [v]
def GoVal.leavesL : List GoVal → List GoVal
  | [] => []
  | v :: r => v.leaves ++ GoVal.leavesL r
def GoVal.leavesD : List (Bytes × GoVal) → List GoVal
  | [] => []
  | (_, v) :: r => v.leaves ++ GoVal.leavesD r
end

/-- neither an `int` nor a `string` -/
def GoVal.bad : GoVal → Bool
  | .int _ | .str _ => false
  | _ => true

/-- a nil interface value, or an int or string of a named type -/
def GoVal.untyped : GoVal → Bool
  | .nil | .namedInt _ | .namedStr _ => true
  | _ => false

/-- how encoding ends, judging by the first bad leaf -/
def failureOf : Option GoVal → Option (Res Bytes)
  | none => none
  | some v => if v.untyped then some (.panic .runtime) else some (.err .wrongParam)

/-! ## Theorems -/

private def Agrees (r : Res Bytes) (ls : List GoVal) : Prop :=
  match failureOf (ls.find? GoVal.bad) with
  | none => ∃ b, r = .ok b
  | some f => r = f

private theorem agrees_bind {r : Res Bytes} {ls ls' : List GoVal} {k : Bytes → Res Bytes} (h : Agrees r ls)
    (hk : ∀ b, Agrees (k b) ls') : Agrees (r >>= k) (ls ++ ls') := by
  unfold Agrees at h ⊢
  rw [List.find?_append]
  cases hf : ls.find? GoVal.bad with
  | none =>
    rw [hf] at h
    obtain ⟨b, rfl⟩ := h
    exact hk b
  | some v =>
    rw [hf] at h
    simp only [failureOf, Option.some_or] at h ⊢
    cases hu : v.untyped <;> rw [hu] at h <;> simp at h ⊢ <;> rw [h] <;> rfl

private theorem agrees_pure {b : Bytes} : Agrees (pure b) [] := ⟨b, rfl⟩

mutual
private theorem agrees_item : ∀ v : GoVal, Agrees (encodeItem v) v.leaves
  | .list l => by
      unfold encodeItem
      have := agrees_bind (k := fun r => pure (b!"l" ++ r ++ b!"e")) (agrees_elems l) (fun b => agrees_pure)
      simpa [GoVal.leaves] using this
  | .dict d => by
      unfold encodeItem
      have := agrees_bind (k := fun r => pure (b!"d" ++ r ++ b!"e")) (agrees_entries d) (fun b => agrees_pure)
      simpa [GoVal.leaves] using this
  | .int i => ⟨_, by unfold encodeItem; rfl⟩
  | .str s => ⟨_, by unfold encodeItem; rfl⟩
  | .nilList => by simp [Agrees, GoVal.leaves, GoVal.bad, failureOf, GoVal.untyped, encodeItem]
  | .nilDict => by simp [Agrees, GoVal.leaves, GoVal.bad, failureOf, GoVal.untyped, encodeItem]
  | .nil => by simp [Agrees, GoVal.leaves, GoVal.bad, failureOf, GoVal.untyped, encodeItem]
  | .namedInt _ => by simp [Agrees, GoVal.leaves, GoVal.bad, failureOf, GoVal.untyped, encodeItem]
  | .namedStr _ => by simp [Agrees, GoVal.leaves, GoVal.bad, failureOf, GoVal.untyped, encodeItem]
  | .otherSlice => by simp [Agrees, GoVal.leaves, GoVal.bad, failureOf, GoVal.untyped, encodeItem]
  | .otherMap => by simp [Agrees, GoVal.leaves, GoVal.bad, failureOf, GoVal.untyped, encodeItem]
  | .other => by simp [Agrees, GoVal.leaves, GoVal.bad, failureOf, GoVal.untyped, encodeItem]
private theorem agrees_elems : ∀ l : List GoVal, Agrees (encodeElems l) (GoVal.leavesL l)
  | [] => ⟨_, by unfold encodeElems; rfl⟩
  | v :: r => by
      unfold encodeElems GoVal.leavesL
      refine agrees_bind (agrees_item v) (fun t => ?_)
      have := agrees_bind (k := fun s => pure (t ++ s)) (agrees_elems r) (fun b => agrees_pure)
      simpa using this
private theorem agrees_entries : ∀ d : List (Bytes × GoVal), Agrees (encodeEntries d) (GoVal.leavesD d)
  | [] => ⟨_, by unfold encodeEntries; rfl⟩
  | (k, v) :: r => by
      unfold encodeEntries GoVal.leavesD
      refine agrees_bind (agrees_item v) (fun t => ?_)
      have := agrees_bind (k := fun s => pure (EncodeString k ++ t ++ s)) (agrees_entries r) (fun b => agrees_pure)
      simpa using this
end

/-- **How encoding ends**, for the iteration order given by the lists: the first value that is neither `int` nor `string` decides – a
nil interface or a value of a named type panics, anything else (nil or foreign containers, other kinds) gives an error. -/
theorem C12_outcome (v : GoVal) :
    match v.leaves.find? GoVal.bad with
    | none => ∃ b, encodeItem v = .ok b
    | some x => encodeItem v = if x.untyped then .panic .runtime else .err .wrongParam := by
  have := agrees_item v
  unfold Agrees at this
  cases h : v.leaves.find? GoVal.bad with
  | none => rw [h] at this; exact this
  | some x =>
    rw [h] at this
    simp only [failureOf] at this ⊢
    cases hu : x.untyped <;> rw [hu] at this <;> simpa using this

/-- encoding never panics on values without nil interfaces and named types -/
theorem C12_no_panic (v : GoVal) (h : ∀ x ∈ v.leaves, x.untyped = false) : ∀ p, encodeItem v ≠ .panic p := by
  intro p hp
  have := C12_outcome v
  cases hf : v.leaves.find? GoVal.bad with
  | none => rw [hf] at this; obtain ⟨b, hb⟩ := this; rw [hb] at hp; cases hp
  | some x =>
    rw [hf] at this
    simp only [h x (List.mem_of_find?_eq_some hf)] at this
    rw [this] at hp; cases hp

example : encodeItem (.list [.int 1, .dict [(b!"a", .nil)], .nilList]) = .panic .runtime ∧
    encodeItem (.list [.int 1, .dict [(b!"a", .nilList)], .nil]) = .err .wrongParam ∧
    encodeItem (.list [.list [], .str b!"x"]) = .ok b!"lle1:xe" := by decide +kernel

/-- **C03: exactly the strings without ':' survive.** -/
theorem C03_string_roundtrip_iff (s : Bytes) (hs : GoString s) : DecodeString (EncodeString s) = .ok s ↔ (58 : UInt8) ∉ s := by
  constructor
  · intro h hc; rw [C03_string_with_colon_fails s hc] at h; cases h
  · exact C03_string_roundtrip_without_colon s hs

end P2P

import Verif.Model.Types
/-! # Property theorems C13, C14 (misc/types.go) -/
namespace P2P

/-! ## C13 -/

/-- the getters return exactly the stored value of the right dynamic type ... -/
theorem C13_present (d : Entries) (k : Bytes) :
    (∀ i, Dict.GetInteger d k = .ok i ↔ dictGet d k = some (.int i)) ∧
    (∀ s, Dict.GetString d k = .ok s ↔ dictGet d k = some (.str s)) ∧
    (∀ l, Dict.GetList d k = .ok (some l) ↔ dictGet d k = some (.list l)) ∧
    (∀ e, Dict.GetDict d k = .ok (some e) ↔ dictGet d k = some (.dict e)) := by
  refine ⟨fun i => ?_, fun s => ?_, fun l => ?_, fun e => ?_⟩
  · unfold Dict.GetInteger Dict.GetVal
    cases h : dictGet d k with
    | none => simp
    | some v => cases v <;> simp [GoVal.asInt]
  · unfold Dict.GetString Dict.GetVal
    cases h : dictGet d k with
    | none => simp
    | some v => cases v <;> simp [GoVal.asStr]
  · unfold Dict.GetList Dict.GetVal
    cases h : dictGet d k with
    | none => simp
    | some v => cases v <;> simp [GoVal.asList]
  · unfold Dict.GetDict Dict.GetVal
    cases h : dictGet d k with
    | none => simp
    | some v => cases v <;> simp [GoVal.asDict]

/-- a stored nil list or dictionary is returned as such (it reads as an empty one), by the getters of dictionaries and of lists -/
theorem C13_nil (d : Entries) (k : Bytes) (l : List GoVal) (i : Int) :
    (Dict.GetList d k = .ok none ↔ dictGet d k = some .nilList) ∧ (Dict.GetDict d k = .ok none ↔ dictGet d k = some .nilDict) ∧
    (GoList.GetList l i = .ok none ↔ 0 ≤ i ∧ l[i.toNat]? = some .nilList) ∧
    (GoList.GetDict l i = .ok none ↔ 0 ≤ i ∧ l[i.toNat]? = some .nilDict) := by
  refine ⟨?_, ?_, ?_, ?_⟩
  · unfold Dict.GetList Dict.GetVal
    cases h : dictGet d k with
    | none => simp
    | some v => cases v <;> simp [GoVal.asList]
  · unfold Dict.GetDict Dict.GetVal
    cases h : dictGet d k with
    | none => simp
    | some v => cases v <;> simp [GoVal.asDict]
  · unfold GoList.GetList GoList.GetVal
    by_cases hi : 0 ≤ i
    · cases h : l[i.toNat]? with
      | none => simp [hi]
      | some v => cases v <;> simp [hi, GoVal.asList]
    · simp [hi]
  · unfold GoList.GetDict GoList.GetVal
    by_cases hi : 0 ≤ i
    · cases h : l[i.toNat]? with
      | none => simp [hi]
      | some v => cases v <;> simp [hi, GoVal.asDict]
    · simp [hi]

/-- ... and otherwise panic with a `*misc.Error`, never with a runtime panic and never with an error -/
theorem C13_absent_or_wrong_type (d : Entries) (k : Bytes) :
    ((∀ i, dictGet d k ≠ some (.int i)) → ∃ m, Dict.GetInteger d k = .panic (.biz m)) ∧
    ((∀ s, dictGet d k ≠ some (.str s)) → ∃ m, Dict.GetString d k = .panic (.biz m)) ∧
    ((∀ l, dictGet d k ≠ some (.list l)) → dictGet d k ≠ some .nilList →
      ∃ m, Dict.GetList d k = .panic (.biz m)) ∧
    ((∀ e, dictGet d k ≠ some (.dict e)) → dictGet d k ≠ some .nilDict →
      ∃ m, Dict.GetDict d k = .panic (.biz m)) := by
  refine ⟨fun hn => ?_, fun hn => ?_, fun hn hn' => ?_, fun hn hn' => ?_⟩
  · unfold Dict.GetInteger Dict.GetVal
    cases h : dictGet d k with
    | none => exact ⟨_, rfl⟩
    | some v => rw [h] at hn; cases v <;> first | exact ⟨_, rfl⟩ | exact absurd rfl (hn _)
  · unfold Dict.GetString Dict.GetVal
    cases h : dictGet d k with
    | none => exact ⟨_, rfl⟩
    | some v => rw [h] at hn; cases v <;> first | exact ⟨_, rfl⟩ | exact absurd rfl (hn _)
  · unfold Dict.GetList Dict.GetVal
    cases h : dictGet d k with
    | none => exact ⟨_, rfl⟩
    | some v =>
      rw [h] at hn hn'
      cases v <;> first | exact ⟨_, rfl⟩ | exact absurd rfl (hn _) | exact absurd rfl hn'
  · unfold Dict.GetDict Dict.GetVal
    cases h : dictGet d k with
    | none => exact ⟨_, rfl⟩
    | some v =>
      rw [h] at hn hn'
      cases v <;> first | exact ⟨_, rfl⟩ | exact absurd rfl (hn _) | exact absurd rfl hn'

/-- which `*misc.Error` it is: "cannot find" for an absent key, "cannot match" for a wrong type -/
theorem C13_message (d : Entries) (k : Bytes) :
    (dictGet d k = none → Dict.GetString d k = .panic (.biz (b!"cannot find " ++ k ++ b!"'s val")) ∧
      Dict.GetInteger d k = .panic (.biz (b!"cannot find " ++ k ++ b!"'s val"))) ∧
    (∀ v, dictGet d k = some v → v.asStr = none →
      Dict.GetString d k = .panic (.biz (k ++ b!"'s val cannot match type of string"))) ∧
    (∀ v, dictGet d k = some v → v.asInt = none →
      Dict.GetInteger d k = .panic (.biz (k ++ b!"'s val cannot match type of int"))) := by
  refine ⟨fun h => ?_, fun v h h' => ?_, fun v h h' => ?_⟩
  · simp [Dict.GetString, Dict.GetInteger, Dict.GetVal, h]
  · simp [Dict.GetString, Dict.GetVal, h, h']
  · simp [Dict.GetInteger, Dict.GetVal, h, h']

/-- ... and the same for containers and for lists -/
theorem C13_message_containers (d : Entries) (k : Bytes) (l : List GoVal) (i : Nat) :
    (dictGet d k = none → Dict.GetList d k = .panic (.biz (b!"cannot find " ++ k ++ b!"'s val")) ∧
      Dict.GetDict d k = .panic (.biz (b!"cannot find " ++ k ++ b!"'s val"))) ∧
    (∀ v, dictGet d k = some v → v.asList = none → Dict.GetList d k = .panic (.biz (k ++ b!"'s val cannot match type of List"))) ∧
    (∀ v, dictGet d k = some v → v.asDict = none → Dict.GetDict d k = .panic (.biz (k ++ b!"'s val cannot match type of Dict"))) ∧
    (∀ v, l[i]? = some v → v.asInt = none → GoList.GetInteger l i = .panic (.biz b!"val cannot match type of int")) ∧
    (∀ v, l[i]? = some v → v.asStr = none → GoList.GetString l i = .panic (.biz b!"val cannot match type of string")) ∧
    (∀ v, l[i]? = some v → v.asList = none → GoList.GetList l i = .panic (.biz b!"val cannot match type of List")) ∧
    (∀ v, l[i]? = some v → v.asDict = none → GoList.GetDict l i = .panic (.biz b!"val cannot match type of Dict")) := by
  refine ⟨fun h => ?_, fun v h h' => ?_, fun v h h' => ?_, fun v h h' => ?_, fun v h h' => ?_, fun v h h' => ?_, fun v h h' => ?_⟩
  · simp [Dict.GetList, Dict.GetDict, Dict.GetVal, h]
  · simp [Dict.GetList, Dict.GetVal, h, h']
  · simp [Dict.GetDict, Dict.GetVal, h, h']
  · simp [GoList.GetInteger, GoList.GetVal, h, h']
  · simp [GoList.GetString, GoList.GetVal, h, h']
  · simp [GoList.GetList, GoList.GetVal, h, h']
  · simp [GoList.GetDict, GoList.GetVal, h, h']

/-- the `OrDefault` getters are total -/
theorem C13_or_default (d : Entries) (k : Bytes) (i : Int) (s : Bytes) :
    (∀ j, dictGet d k = some (.int j) → Dict.GetIntegerOrDefault d k i = j) ∧
    ((∀ j, dictGet d k ≠ some (.int j)) → Dict.GetIntegerOrDefault d k i = i) ∧
    (∀ t, dictGet d k = some (.str t) → Dict.GetStringOrDefault d k s = t) ∧
    ((∀ t, dictGet d k ≠ some (.str t)) → Dict.GetStringOrDefault d k s = s) := by
  refine ⟨fun j h => ?_, fun hn => ?_, fun t h => ?_, fun hn => ?_⟩
  · simp [Dict.GetIntegerOrDefault, Dict.GetValOrDefault, h, GoVal.asInt]
  · unfold Dict.GetIntegerOrDefault Dict.GetValOrDefault
    cases h : dictGet d k with
    | none => rfl
    | some v => rw [h] at hn; cases v <;> first | rfl | exact absurd rfl (hn _)
  · simp [Dict.GetStringOrDefault, Dict.GetValOrDefault, h, GoVal.asStr]
  · unfold Dict.GetStringOrDefault Dict.GetValOrDefault
    cases h : dictGet d k with
    | none => rfl
    | some v => rw [h] at hn; cases v <;> first | rfl | exact absurd rfl (hn _)

/-- the untyped default getter ignores its default -/
theorem C13_val_or_default_ignores_default (d : Entries) (k : Bytes) (v : GoVal) :
    (∀ w, dictGet d k = some w → Dict.GetValOrDefault d k v = w) ∧
    (dictGet d k = none → Dict.GetValOrDefault d k v = .nil) := by
  constructor
  · intro w h; simp [Dict.GetValOrDefault, h]
  · intro h; simp [Dict.GetValOrDefault, h]

theorem C13_exist (d : Entries) (k : Bytes) : Dict.Exist d k = true ↔ ∃ v, dictGet d k = some v := by
  simp [Dict.Exist, Option.isSome_iff_exists]

example : let d : Entries := [(b!"t", .str b!"aa"), (b!"n", .int 7)]
    Dict.GetString d b!"t" = .ok b!"aa" ∧ Dict.GetInteger d b!"t" = .panic (.biz b!"t's val cannot match type of int") ∧
    Dict.GetIntegerOrDefault d b!"t" 3 = 3 ∧ Dict.GetIntegerOrDefault d b!"n" 3 = 7 ∧
    Dict.GetValOrDefault d b!"x" (.int 1) = .nil := by decide +kernel

/-! ## C14 -/

theorem C14_in_range (l : List GoVal) (i : Int) :
    (∀ v, GoList.GetVal l i = .ok v ↔ 0 ≤ i ∧ l[i.toNat]? = some v) ∧
    (∀ n, GoList.GetInteger l i = .ok n ↔ 0 ≤ i ∧ l[i.toNat]? = some (.int n)) ∧
    (∀ s, GoList.GetString l i = .ok s ↔ 0 ≤ i ∧ l[i.toNat]? = some (.str s)) ∧
    (∀ m, GoList.GetList l i = .ok (some m) ↔ 0 ≤ i ∧ l[i.toNat]? = some (.list m)) ∧
    (∀ e, GoList.GetDict l i = .ok (some e) ↔ 0 ≤ i ∧ l[i.toNat]? = some (.dict e)) := by
  unfold GoList.GetInteger GoList.GetString GoList.GetList GoList.GetDict GoList.GetVal
  by_cases hi : 0 ≤ i
  · cases h : l[i.toNat]? with
    | none => simp [hi]
    | some v => cases v <;> simp [hi, GoVal.asInt, GoVal.asStr, GoVal.asList, GoVal.asDict]
  · simp [hi]

theorem C14_out_of_range (l : List GoVal) (i : Int) (h : i < 0 ∨ (l.length : Int) ≤ i) :
    GoList.GetVal l i = .panic .runtime ∧ GoList.GetInteger l i = .panic .runtime ∧
    GoList.GetString l i = .panic .runtime ∧ GoList.GetList l i = .panic .runtime ∧
    GoList.GetDict l i = .panic .runtime := by
  have : GoList.GetVal l i = .panic .runtime := by
    unfold GoList.GetVal
    split
    · rw [List.getElem?_eq_none (by omega)]
    · rfl
  simp [GoList.GetInteger, GoList.GetString, GoList.GetList, GoList.GetDict, this]

theorem C14_wrong_type (l : List GoVal) (i : Nat) (v : GoVal) (h : l[i]? = some v) :
    (v.asInt = none → ∃ m, GoList.GetInteger l i = .panic (.biz m)) ∧
    (v.asStr = none → ∃ m, GoList.GetString l i = .panic (.biz m)) ∧
    (v.asList = none → ∃ m, GoList.GetList l i = .panic (.biz m)) ∧
    (v.asDict = none → ∃ m, GoList.GetDict l i = .panic (.biz m)) := by
  have hv : GoList.GetVal l i = .ok v := by simp [GoList.GetVal, h]
  refine ⟨fun h => ?_, fun h => ?_, fun h => ?_, fun h => ?_⟩
  · exact ⟨_, by simp only [GoList.GetInteger, hv, h, Res.bind_ok]; rfl⟩
  · exact ⟨_, by simp only [GoList.GetString, hv, h, Res.bind_ok]; rfl⟩
  · exact ⟨_, by simp only [GoList.GetList, hv, h, Res.bind_ok]; rfl⟩
  · exact ⟨_, by simp only [GoList.GetDict, hv, h, Res.bind_ok]; rfl⟩

/-- `Exist(i)` for non-negative indices; it is also true for every negative index -/
theorem C14_exist (l : List GoVal) (i : Int) : GoList.Exist l i = true ↔ i < l.length := by
  simp [GoList.Exist]

theorem containsLoop_strings (fold : FoldTable) (t : Bytes) (pre : List GoVal) (ss : List Bytes)
    (post : List GoVal) (n : Nat) (hn : n = ss.length) :
    GoList.containsLoop fold (pre ++ ss.map .str ++ post) t n pre.length
      = .ok (ss.any (fun s => equalFold fold s t)) := by
  subst hn
  induction ss generalizing pre with
  | nil => simp [GoList.containsLoop]
  | cons s r ih =>
    have hs : GoList.GetString (pre ++ (s :: r).map .str ++ post) (pre.length : Int) = .ok s := by
      simp [GoList.GetString, GoList.GetVal, GoVal.asStr]
    simp only [List.length_cons, GoList.containsLoop, hs, Res.bind_ok, List.any_cons]
    by_cases h : equalFold fold s t = true
    · simp [h]
    · have := ih (pre ++ [.str s])
      simp only [List.length_append, List.length_cons, List.length_nil, List.append_assoc,
        List.cons_append, List.nil_append, List.map_cons] at this ⊢
      simp [h, this]

theorem C14_contains_string (fold : FoldTable) (ss : List Bytes) (t : Bytes) :
    GoList.ContainsString fold (ss.map .str) t = .ok true ↔ ∃ s ∈ ss, equalFold fold s t = true := by
  have := containsLoop_strings fold t [] ss [] ss.length rfl
  simp only [List.nil_append, List.append_nil, List.length_nil] at this
  simp [GoList.ContainsString, this]

/-- on a list of strings the only other outcome is `false` -/
theorem C14_contains_string_total (fold : FoldTable) (ss : List Bytes) (t : Bytes) :
    ∃ b, GoList.ContainsString fold (ss.map .str) t = .ok b := by
  have := containsLoop_strings fold t [] ss [] ss.length rfl
  simp only [List.nil_append, List.append_nil, List.length_nil] at this
  exact ⟨_, by simp [GoList.ContainsString, this]; rfl⟩

/-- a non-string met before any match panics with a `*misc.Error` -/
theorem C14_contains_non_string (fold : FoldTable) (ss : List Bytes) (v : GoVal) (post : List GoVal) (t : Bytes)
    (hv : v.asStr = none) (hs : ∀ s ∈ ss, equalFold fold s t = false) :
    GoList.ContainsString fold (ss.map .str ++ v :: post) t
      = .panic (.biz b!"val cannot match type of string") := by
  unfold GoList.ContainsString
  have key : ∀ (pre : List GoVal) (ss : List Bytes) (n : Nat), (∀ s ∈ ss, equalFold fold s t = false) →
      ss.length < n →
      GoList.containsLoop fold (pre ++ ss.map .str ++ v :: post) t n pre.length
        = .panic (.biz b!"val cannot match type of string") := by
    intro pre ss
    induction ss generalizing pre with
    | nil =>
      intro n _ hn
      cases n with
      | zero => omega
      | succ n =>
        have : GoList.GetString (pre ++ v :: post) (pre.length : Int)
            = .panic (.biz b!"val cannot match type of string") := by
          simp [GoList.GetString, GoList.GetVal, hv]
        simp [GoList.containsLoop, this]
    | cons s r ih =>
      intro n hs hn
      cases n with
      | zero => omega
      | succ n =>
        have h1 : GoList.GetString (pre ++ (s :: r).map .str ++ v :: post) (pre.length : Int) = .ok s := by
          simp [GoList.GetString, GoList.GetVal, GoVal.asStr]
        have h2 := ih (pre ++ [.str s]) n (fun x hx => hs x (by simp [hx])) (by simp at hn; omega)
        simp only [GoList.containsLoop, h1, Res.bind_ok, hs s (by simp)]
        simp only [List.length_append, List.length_cons, List.length_nil, List.append_assoc,
          List.cons_append, List.nil_append, List.map_cons] at h2 ⊢
        simp [h2]
  have := key [] ss (ss.map GoVal.str ++ v :: post).length hs (by simp)
  simpa using this

example : GoList.ContainsString (fun _ _ => false) [.str b!"ping", .str b!"find_node"] b!"FIND_node" = .ok true ∧
    GoList.Exist [] (-1) = true ∧ GoList.GetString [.int 1] 0 = .panic (.biz b!"val cannot match type of string") := by
  decide +kernel

end P2P

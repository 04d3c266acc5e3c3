import Verif.Props.PeerwirePieces
import Verif.Props.PeerwireMsgsNV
/-! # C44: three pieces, two buffers -/
namespace P2P

def exPs (c : UInt8) : List Bytes := [List.replicate 16384 97, List.replicate 16384 99, List.replicate 10 c]
def exHeads3 : List Bytes := [exHead 0 32778, exHead 1 32778, exHead 2 32778]

theorem exMsg3 (i : Nat) (hi : i = 0 ∨ i = 1 ∨ i = 2) (p : Bytes) (hp : p ≠ []) (hl : p.length ≤ 16384) : meaning (exHead i 32778 ++ p) = .piece i p := by
  have hhead : ([20, 1] : Bytes) ++ (b!"d" ++ (EncodeString b!"msg_type" ++ EncodeInteger ExData ++ EncodeString b!"piece" ++ EncodeInteger i ++
      EncodeString b!"total_size" ++ EncodeInteger 32778) ++ b!"e") = exHead i 32778 := by
    rcases hi with rfl | rfl | rfl <;> decide +kernel
  have hw : withExtendedFetchMetaMsg id 1 ExData i 32778 p = .ok (be32 (exHead i 32778 ++ p).length ++ (exHead i 32778 ++ p)) := by
    unfold withExtendedFetchMetaMsg ExFetchMeta.Bytes ExFetchMeta.dict
    have hpl : p.length > 0 := List.length_pos_iff.2 hp
    simp only [hpl, if_true]
    have : EncodeDict (some (id (dictPut [(b!"msg_type", GoVal.int ExData), (b!"piece", .int i)] b!"total_size" (.int 32778)))) =
        .ok (b!"d" ++ (EncodeString b!"msg_type" ++ EncodeInteger ExData ++ EncodeString b!"piece" ++ EncodeInteger i ++
      EncodeString b!"total_size" ++ EncodeInteger 32778) ++ b!"e") := by
      rcases hi with rfl | rfl | rfl <;> decide +kernel
    rw [this]
    rw [← hhead]
    generalize b!"d" ++ (EncodeString b!"msg_type" ++ EncodeInteger ExData ++ EncodeString b!"piece" ++ EncodeInteger i ++
      EncodeString b!"total_size" ++ EncodeInteger 32778) ++ b!"e" = dst
    have e : (([20, 1] : Bytes) ++ dst ++ p).length = 2 + dst.length + p.length := by simp; omega
    rw [e]
    simp only [List.append_assoc]
    rfl
  obtain ⟨pre, bd, a1, a2, a3, a4⟩ := C40_roundtrip id (fun d h => ⟨h, .refl _⟩) 1 ExData i 32778 p (by decide)
    (by unfold IsInt64 ExData; omega) (by unfold IsInt64; omega) (by unfold IsInt64; omega)
  rw [hw] at a1
  injection a1 with a1
  obtain ⟨b1, b2⟩ := List.append_inj a1 (by rw [a2]; rfl)
  subst b2
  have hbl : (exHead i 32778 ++ p).length ≤ 32768 := by
    have : (exHead i 32778).length = 47 := by rcases hi with rfl | rfl | rfl <;> decide +kernel
    rw [List.length_append, this]; omega
  obtain ⟨r, c1, c2, c3, c4, c5, c6⟩ := a4 (by unfold GoString; omega)
  obtain ⟨rest, hrest⟩ : ∃ rest, exHead i 32778 ++ p = 20 :: 1 :: rest := ⟨_, rfl⟩
  rw [hrest] at c1 hbl ⊢
  unfold meaning
  rw [if_neg (by omega)]
  simp only
  rw [if_neg (by simp), if_neg (by decide), if_pos trivial, c1]
  simp only
  rw [if_pos (show r.msgType = 1 from c3), c4, c5]

theorem exPs_pieces (c : UInt8) : IsPieces (exPs c) :=
  ⟨[List.replicate 16384 97, List.replicate 16384 99], List.replicate 10 c, rfl, (by
    intro p hp
    simp only [List.mem_cons, List.not_mem_nil, or_false] at hp
    rcases hp with rfl | rfl <;> exact List.length_replicate), by rw [List.length_replicate]; omega, by rw [List.length_replicate]; omega⟩

theorem exPs_len (c : UInt8) : (exPs c).flatten.length = 32778 := by
  unfold exPs
  simp only [List.flatten_cons, List.flatten_nil, List.length_append, List.length_replicate, List.length_nil]

theorem exExt3 : meaning (exExt 32778) = .announce 32778 := by decide +kernel

def exWire3 (c : UInt8) : List Bytes := exExt 32778 :: List.zipWith (· ++ ·) exHeads3 (exPs c)

theorem exWire3_stream (c : UInt8) (info : Bytes) (hi : info.length = 20) :
    Stream (calmEnv (exHandshake :: (exWire3 c).flatMap wire)) b!"cccccccccccccccccccc" info exMem2 exPool2
      [{ arr := 0, off := 0, len := 32768, cap := 32768 }, { arr := 1, off := 0, len := 32768, cap := 32768 }] exHandshake (exWire3 c) 5 where
  calm := calmEnv_calm _
  ready := exPool2_ready
  peer := rfl
  info := hi
  handshake := exHandshake_ok
  delivers := calmEnv_delivers _
  lengths := by
    intro b hb
    have h1 : (exExt 32778).length < 100 := by decide +kernel
    have h2 : (exHead 0 32778).length = 47 ∧ (exHead 1 32778).length = 47 ∧ (exHead 2 32778).length = 47 := by decide +kernel
    simp only [exWire3, exHeads3, exPs, List.zipWith_cons_cons, List.zipWith_nil_left, List.mem_cons, List.not_mem_nil, or_false] at hb
    obtain ⟨h2, h3, h4⟩ := h2
    rcases hb with rfl | rfl | rfl | rfl
    · omega
    · rw [List.length_append, List.length_replicate, h2]; decide
    · rw [List.length_append, List.length_replicate, h3]; decide
    · rw [List.length_append, List.length_replicate, h4]; decide
  rounds := Nat.le_of_eq rfl

/-- the data that is checked: the third message overwrote the first piece -/
theorem exThree (c : UInt8) (info : Bytes) (hi : info.length = 20) :
    ∃ s, FetchMetaData (calmEnv (exHandshake :: (exWire3 c).flatMap wire)) toyHash (fun _ _ => false) 5 b!"cccccccccccccccccccc" info exMem2 exPool2 =
      if toyHash ((List.range 3).flatMap (finalPiece 2 (exPs c))) = info then .returned (some ((List.range 3).flatMap (finalPiece 2 (exPs c)))) none s
      else .returned none (some b!"check sum err") s := by
  refine C44_honest_pieces (heads := exHeads3) (ps := exPs c) (h := 47) (exWire3_stream c info hi) toyHash (fun _ _ => false) (exPs_pieces c)
    (by rw [exPs_len]; decide) (by rw [exPs_len]; exact exExt3) ⟨rfl, by decide +kernel⟩ ?_
  intro i hd p h1 h2
  have hl : ∀ (n : Nat) (x : UInt8), 1 ≤ n → List.replicate n x ≠ [] := by
    intro n x hn h
    have := congrArg List.length h
    rw [List.length_replicate] at this
    simp at this
    omega
  match i with
  | 0 =>
    simp only [exHeads3, exPs, List.getElem?_cons_zero, Option.some.injEq] at h1 h2
    subst h1; subst h2
    exact exMsg3 0 (.inl rfl) _ (hl _ _ (by omega)) (by rw [List.length_replicate]; omega)
  | 1 =>
    simp only [exHeads3, exPs, List.getElem?_cons_zero, List.getElem?_cons_succ, Option.some.injEq] at h1 h2
    subst h1; subst h2
    exact exMsg3 1 (.inr (.inl rfl)) _ (hl _ _ (by omega)) (by rw [List.length_replicate]; omega)
  | 2 =>
    simp only [exHeads3, exPs, List.getElem?_cons_zero, List.getElem?_cons_succ, Option.some.injEq] at h1 h2
    subst h1; subst h2
    exact exMsg3 2 (.inr (.inr rfl)) _ (hl _ _ (by omega)) (by rw [List.length_replicate]; omega)
  | i + 3 => cases h1

/-- a third piece that differs from the start of the first one: refused -/
example : ∃ s, FetchMetaData (calmEnv (exHandshake :: (exWire3 98).flatMap wire)) toyHash (fun _ _ => false) 5 b!"cccccccccccccccccccc"
    (toyHash (exPs 98).flatten) exMem2 exPool2 = .returned none (some b!"check sum err") s := by
  obtain ⟨s, h⟩ := exThree 98 (toyHash (exPs 98).flatten) (by unfold toyHash; simp)
  refine ⟨s, ?_⟩
  rw [h, if_neg]
  intro h0
  have := congrArg (fun l => l[0]?) h0
  obtain ⟨r0, e0⟩ : ∃ r, List.replicate 16384 (97 : UInt8) = 97 :: r := ⟨_, List.replicate_succ (n := 16383)⟩
  have e1 : List.replicate 10 (98 : UInt8) = 98 :: List.replicate 9 98 := rfl
  have e2 : (List.range 3).flatMap (finalPiece 2 (exPs 98)) = 98 :: (List.replicate 9 98 ++ (List.replicate 16384 97).drop 10 ++ finalPiece 2 (exPs 98) 1 ++
      finalPiece 2 (exPs 98) 2) := by
    have : finalPiece 2 (exPs 98) 0 = 98 :: (List.replicate 9 98 ++ (List.replicate 16384 97).drop 10) := rfl
    rw [show List.range 3 = [0, 1, 2] from rfl]
    simp only [List.flatMap_cons, List.flatMap_nil, this, List.append_nil, List.cons_append, List.append_assoc]
  have e3 : (exPs 98).flatten = 97 :: (r0 ++ (List.replicate 16384 99 ++ List.replicate 10 98)) := by
    unfold exPs
    simp only [List.flatten_cons, List.flatten_nil, e0, List.append_nil, List.cons_append]
  rw [e2, e3] at this
  generalize List.replicate 9 98 ++ (List.replicate 16384 97).drop 10 ++ finalPiece 2 (exPs 98) 1 ++ finalPiece 2 (exPs 98) 2 = y at this
  generalize r0 ++ (List.replicate 16384 99 ++ List.replicate 10 98) = x at this
  simp [toyHash] at this

/-- a third piece that is the start of the first one: downloaded, with two buffers only -/
example : Periodic 2 (exPs 97) ∧ ∃ s, FetchMetaData (calmEnv (exHandshake :: (exWire3 97).flatMap wire)) toyHash (fun _ _ => false) 5 b!"cccccccccccccccccccc"
    (toyHash (exPs 97).flatten) exMem2 exPool2 = .returned (some (exPs 97).flatten) none s := by
  have hper : Periodic 2 (exPs 97) := by
    intro i p p' h1 h2
    match i with
    | 0 =>
      simp only [exPs, List.getElem?_cons_zero, List.getElem?_cons_succ, Option.some.injEq] at h1 h2
      subst h1; subst h2
      exact ⟨List.replicate 16374 97, List.replicate_append_replicate⟩
    | i + 1 => cases h2
  refine ⟨hper, ?_⟩
  obtain ⟨s, h⟩ := exThree 97 (toyHash (exPs 97).flatten) (by unfold toyHash; simp)
  have := (C44_intact_iff (m := 2) (by omega) (exPs_pieces 97)).2 hper
  rw [show (exPs 97).length = 3 from rfl] at this
  rw [this, if_pos rfl] at h
  exact ⟨s, h⟩

end P2P

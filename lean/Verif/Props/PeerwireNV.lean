import Verif.Props.PeerwireFrame
/-! # Concrete cases that meet the hypotheses of C41–C45, C57 and C59 -/
namespace P2P

/-- an undisturbed connection that delivers the given chunks -/
def calmEnv (chunks : List Bytes) : PEnv := { chunkEnv chunks with outOfMemory := fun _ _ => false }

theorem calmEnv_calm (chunks : List Bytes) : Calm (calmEnv chunks) where
  dial := rfl
  alone := fun _ _ => rfl
  writes := fun _ => rfl
  time := fun _ => rfl
  memory := fun _ _ => rfl
  order := fun _ _ h => ⟨h, .refl _⟩

theorem calmEnv_delivers (chunks : List Bytes) : Delivers (calmEnv chunks) chunks := by
  intro tr size c h
  obtain ⟨hlt, h⟩ := List.getElem?_eq_some_iff.1 h
  simp [calmEnv, chunkEnv, List.getD, hlt, h]

theorem exPool_ready : Ready (NewPeerConn (fun _ => []) exPool) [] :=
  ⟨⟨[], ⟨by decide, by decide, by decide, by simp, by simp, by simp, by simp⟩, by decide⟩, by decide⟩

/-- a pool with two spare 32 KiB buffers -/
def exPool2 : BPool :=
  { chans := [(4, []), (32768, [{ arr := 0, off := 0, len := 32768, cap := 32768 }, { arr := 1, off := 0, len := 32768, cap := 32768 }])],
    defaultWidth := 4, maxSize := 10000, fresh := 2 }

def exMem2 : Nat → Bytes := fun _ => List.replicate 32768 0

theorem exPool2_ready : Ready (NewPeerConn exMem2 exPool2)
    [{ arr := 0, off := 0, len := 32768, cap := 32768 }, { arr := 1, off := 0, len := 32768, cap := 32768 }] :=
  ⟨⟨[], ⟨by decide, by decide, by decide, by simp, (by
    intro b hb
    have hl : (List.replicate 32768 (0 : UInt8)).length = 32768 := List.length_replicate
    simp only [List.mem_cons, List.not_mem_nil, or_false] at hb
    rcases hb with rfl | rfl <;> exact ⟨rfl, rfl, rfl, hl⟩), by simp, (by
    intro b hb
    simp only [List.nil_append, List.mem_cons, List.not_mem_nil, or_false] at hb
    rcases hb with rfl | rfl <;> decide)⟩, by decide⟩,
    by decide⟩

theorem exHandshake_ok : IsPeerHandshake exHandshake :=
  ⟨[0, 0, 0, 0, 0, 0x10, 0, 0], b!"hhhhhhhhhhhhhhhhhhhh" ++ b!"pppppppppppppppppppp", 0x10, rfl, rfl, rfl, rfl, rfl⟩

def exExt (size : Nat) : Bytes := [20, 0] ++ b!"d1:md11:ut_metadatai2ee13:metadata_sizei" ++ natDec size ++ b!"ee"
def exHead (i : Nat) (size : Nat) : Bytes := [20, 1] ++ b!"d8:msg_typei1e5:piecei" ++ natDec i ++ b!"e10:total_sizei" ++ natDec size ++ b!"ee"

/-- two pieces: 16384 bytes and 10 bytes -/
def exP0 : Bytes := List.replicate 16384 97
def exP1 : Bytes := List.replicate 10 98

theorem exMsg (i : Nat) (hi : i = 0 ∨ i = 1) (p : Bytes) (hp : p ≠ []) (hl : p.length ≤ 16384) : IsDataMsg i p (exHead i 16394 ++ p) := by
  have hhead : ([20, 1] : Bytes) ++ (b!"d" ++ (EncodeString b!"msg_type" ++ EncodeInteger ExData ++ EncodeString b!"piece" ++ EncodeInteger i ++
      EncodeString b!"total_size" ++ EncodeInteger 16394) ++ b!"e") = exHead i 16394 := by
    rcases hi with rfl | rfl <;> decide +kernel
  have hw : withExtendedFetchMetaMsg id 1 ExData i 16394 p = .ok (be32 (exHead i 16394 ++ p).length ++ (exHead i 16394 ++ p)) := by
    unfold withExtendedFetchMetaMsg ExFetchMeta.Bytes ExFetchMeta.dict
    have hpl : p.length > 0 := List.length_pos_iff.2 hp
    simp only [hpl, if_true]
    have : EncodeDict (some (id (dictPut [(b!"msg_type", GoVal.int ExData), (b!"piece", .int i)] b!"total_size" (.int 16394)))) =
        .ok (b!"d" ++ (EncodeString b!"msg_type" ++ EncodeInteger ExData ++ EncodeString b!"piece" ++ EncodeInteger i ++
      EncodeString b!"total_size" ++ EncodeInteger 16394) ++ b!"e") := by
      rcases hi with rfl | rfl <;> decide +kernel
    rw [this]
    rw [← hhead]
    generalize b!"d" ++ (EncodeString b!"msg_type" ++ EncodeInteger ExData ++ EncodeString b!"piece" ++ EncodeInteger i ++
      EncodeString b!"total_size" ++ EncodeInteger 16394) ++ b!"e" = dst
    have e : (([20, 1] : Bytes) ++ dst ++ p).length = 2 + dst.length + p.length := by simp; omega
    rw [e]
    simp only [List.append_assoc]
    rfl
  obtain ⟨pre, bd, a1, a2, a3, a4⟩ := C40_roundtrip id (fun d h => ⟨h, .refl _⟩) 1 ExData i 16394 p (by decide)
    (by unfold IsInt64 ExData; omega) (by unfold IsInt64; omega) (by unfold IsInt64; omega)
  rw [hw] at a1
  injection a1 with a1
  obtain ⟨b1, b2⟩ := List.append_inj a1 (by rw [a2]; rfl)
  subst b2
  have hbl : (exHead i 16394 ++ p).length ≤ 32768 := by
    have : (exHead i 16394).length = 47 := by rcases hi with rfl | rfl <;> decide +kernel
    rw [List.length_append, this]; omega
  obtain ⟨r, c1, c2, c3, c4, c5, c6⟩ := a4 (by unfold GoString; omega)
  exact ⟨hbl, r, c1, c2, c3, c4, c5⟩

theorem exP0_len : exP0.length = 16384 := List.length_replicate
theorem exP1_len : exP1.length = 10 := List.length_replicate

/-- what the peer sends: 7 reads -/
def exTwo : List Bytes :=
  exHandshake :: framed (exExt 16394) ++ [exHead 0 16394 ++ exP0, exHead 1 16394 ++ exP1].flatMap framed

theorem exExt_ok : (exExt 16394).length ≤ 32768 ∧
    parseExtendedHandShake (exExt 16394) = .ok [(b!"m", .dict [(b!"ut_metadata", .int 2)]), (b!"metadata_size", .int 16394)] := by
  decide +kernel

/-- C43: with two spare buffers the two pieces arrive intact … -/
example : ∃ s, FetchMetaData (calmEnv exTwo) toyHash (fun _ _ => false) 10 b!"cccccccccccccccccccc" (toyHash (exP0 ++ exP1)) exMem2 exPool2 =
    .returned (some (exP0 ++ exP1)) none s := by
  have h := C43_honest_download (calmEnv_calm exTwo) toyHash (fun _ _ => false) 10 b!"cccccccccccccccccccc" (toyHash (exP0 ++ exP1)) exMem2
    exPool2 _ exPool2_ready rfl (by simp [toyHash, exP0_len, exP1_len]) (hs := exHandshake) (ext := exExt 16394)
    (pieces := [exP0, exP1]) (bodies := [exHead 0 16394 ++ exP0, exHead 1 16394 ++ exP1]) (calmEnv_delivers exTwo) exHandshake_ok
    ⟨exExt_ok.1, exExt_ok.2, by simp [exP0_len, exP1_len]; rfl⟩ (by simp [exP0_len, exP1_len])
    (by
      intro p hp h0
      simp only [List.mem_cons, List.not_mem_nil, or_false] at hp
      rcases hp with rfl | rfl
      · have := exP0_len; rw [h0] at this; simp at this
      · have := exP1_len; rw [h0] at this; simp at this)
    (by simp [exP0_len, exP1_len]) rfl
    (by
      intro j p body h1 h2
      match j with
      | 0 =>
        simp at h1 h2; subst h1; subst h2
        exact exMsg 0 (.inl rfl) _ (by intro h0; have := exP0_len; rw [h0] at this; simp at this) (by rw [exP0_len]; omega)
      | 1 =>
        simp at h1 h2; subst h1; subst h2
        exact exMsg 1 (.inr rfl) _ (by intro h0; have := exP1_len; rw [h0] at this; simp at this) (by rw [exP1_len]; omega)
      | j + 2 => simp at h1)
    (by decide) (by decide) (by simp)
  simpa using h

/-- … C44: with the pool as it is at start-up they do not: the same honest peer's metadata is refused. -/
example : ∃ s, FetchMetaData (calmEnv exTwo) toyHash (fun _ _ => false) 10 b!"cccccccccccccccccccc" (toyHash (exP0 ++ exP1)) (fun _ => []) exPool =
    .returned none (some b!"check sum err") s := by
  obtain ⟨s, h⟩ := C44_second_piece_overwrites (calmEnv_calm exTwo) toyHash (fun _ _ => false) 10 b!"cccccccccccccccccccc"
    (toyHash (exP0 ++ exP1)) (fun _ => []) exPool _ exPool_ready (by decide) rfl (by simp [toyHash, exP0_len, exP1_len])
    (hs := exHandshake) (ext := exExt 16394) (p0 := exP0) (p1 := exP1) (head0 := exHead 0 16394) (head1 := exHead 1 16394)
    (calmEnv_delivers exTwo) exHandshake_ok
    ⟨exExt_ok.1, exExt_ok.2, by simp [exP0_len, exP1_len]; rfl⟩ exP0_len (by rw [exP1_len]; omega) (by decide +kernel)
    (exMsg 0 (.inl rfl) _ (by intro h0; have := exP0_len; rw [h0] at this; simp at this) (by rw [exP0_len]; omega))
    (exMsg 1 (.inr rfl) _ (by intro h0; have := exP1_len; rw [h0] at this; simp at this) (by rw [exP1_len]; omega)) (by omega)
  refine ⟨s, ?_⟩
  rw [h, if_neg]
  intro h0
  have := congrArg (fun l => l[0]?) h0
  obtain ⟨r0, e0⟩ : ∃ r, exP0 = 97 :: r := ⟨_, List.replicate_succ (n := 16383)⟩
  obtain ⟨r1, e1⟩ : ∃ r, exP1 = 98 :: r := ⟨_, List.replicate_succ (n := 9)⟩
  rw [e0, e1] at this
  simp [toyHash] at this

/-- C41, C42, C57: a download that succeeds -/
example : ∃ d s, exRun = .returned (some d) none s ∧ (∃ b, .put b ∈ s.trace) := by
  have h : (match exRun with
    | .returned (some d) none s => s.trace.any (fun e => match e with | .put _ => true | _ => false)
    | _ => false) = true := by decide +kernel
  revert h
  cases exRun with
  | returned r e s =>
    cases r with
    | none => simp
    | some d =>
      cases e with
      | some e => simp
      | none =>
        intro h
        refine ⟨d, s, rfl, ?_⟩
        simp only [List.any_eq_true] at h
        obtain ⟨x, h1, h2⟩ := h
        cases x <;> simp at h2
        exact ⟨_, h1⟩
  | _ => simp

/-- C45: the pool and connection of `C45_framed` -/
example : ∃ b t, readBytesByPrefixLenMsg (calmEnv [be32 3, [7, 8, 9]]) (NewPeerConn (fun _ => []) exPool) = .ok (false, some b, false) t ∧
    readSlice t.mem b = [7, 8, 9] ∧ reads t.trace = 2 :=
  C45_framed (calmEnv_calm _) exPool_ready (body := [7, 8, 9]) (by decide)
    (fun tr h => calmEnv_delivers [be32 3, [7, 8, 9]] tr 4 _ (by rw [h]; rfl))
    (fun tr h => calmEnv_delivers [be32 3, [7, 8, 9]] tr 32768 _ (by rw [h]; rfl))

example : ∃ t, readBytesByPrefixLenMsg (calmEnv [[0, 0, 128, 1]]) (NewPeerConn (fun _ => []) exPool) = .ok (false, none, true) t ∧
    reads t.trace = 1 :=
  C45_prefix_only (calmEnv_calm _) exPool_ready (pre := [0, 0, 128, 1]) rfl (.inr (by decide +kernel))
    (fun tr h => calmEnv_delivers [[0, 0, 128, 1]] tr 4 _ (by rw [h]; rfl))

/-- C59: any finite list of chunks -/
theorem chunkEnv_deadline (chunks : List Bytes) : DeadlineAfter (chunkEnv chunks) chunks.length := by
  intro tr size h
  simp [chunkEnv, h]

example : DeadlineAfter (chunkEnv exChunks) 6 := chunkEnv_deadline exChunks

end P2P

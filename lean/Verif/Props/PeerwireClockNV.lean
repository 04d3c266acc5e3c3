import Verif.Props.PeerwireClock
import Verif.Props.PeerwireMsgsNV
/-! # C74, C75: concrete downloads, and the peer that never reads -/
namespace P2P

theorem exExt_meaning (z : Nat) (hz : z < 2 ^ 63) : meaning (exExt z) = .announce z := by
  have hl := natDec_length hz
  have henc : EncodeDict (some [(b!"m", .dict [(b!"ut_metadata", .int 2)]), (b!"metadata_size", .int z)]) =
      .ok (b!"d1:md11:ut_metadatai2ee13:metadata_sizei" ++ natDec z ++ b!"ee") := by
    have e1 : EncodeInteger (z : Int) = b!"i" ++ natDec z ++ b!"e" := rfl
    simp only [EncodeDict, encodeItem, encodeEntries, e1, Res.bind]
    have e2 : EncodeString b!"m" = b!"1:m" := by decide +kernel
    have e3 : EncodeString b!"ut_metadata" = b!"11:ut_metadata" := by decide +kernel
    have e4 : EncodeString b!"metadata_size" = b!"13:metadata_size" := by decide +kernel
    have e5 : EncodeInteger 2 = b!"i2e" := by decide +kernel
    rw [e2, e3, e4, e5]
    simp
  have hwf : GoVal.WF (.dict [(b!"m", .dict [(b!"ut_metadata", .int 2)]), (b!"metadata_size", .int z)]) := by
    simp [GoVal.WF, GoVal.WFD, IsInt64]; omega
  have hd := DecodeDict_encoded hwf henc (by unfold GoString; simp; omega)
  have hp : parseExtendedHandShake (exExt z) = .ok (dictPut [(b!"m", .dict [(b!"ut_metadata", .int 2)]), (b!"metadata_size", .int z)] b!"m"
      (.dict [(b!"ut_metadata", .int 2)])) := (C39_accepts _ _).2 ⟨_, _, _, rfl, hd, .inl ⟨rfl, rfl⟩⟩
  unfold meaning
  rw [if_neg (by simp [exExt]; omega)]
  have he : ∃ r, exExt z = 20 :: 0 :: r := ⟨_, rfl⟩
  obtain ⟨r, he⟩ := he
  rw [he] at hp ⊢
  simp only [hp]
  rfl

/-- reads take a millisecond; writes take none as long as the buffers hold `B` bytes, and never end afterwards -/
def stuckEnds (B : Nat) (tr : List PEvent) : Option Nat := if written tr ≤ B then some (min 1000 (reads tr)) else none

theorem stuck_timed (B : Nat) (chunks : List Bytes) (hc : chunks.length ≤ 1000) : Timed (calmEnv chunks) (stuckEnds B) where
  start := by simp [stuckEnds, written, reads]
  forward := by
    intro tr e t h
    unfold stuckEnds at h ⊢
    rw [written_append] at h
    split at h
    · rw [if_pos (by omega)]
      refine ⟨_, rfl, ?_⟩
      cases h
      simp only [reads_snoc]
      omega
    · cases h
  late := by
    intro tr n t h ht
    unfold stuckEnds at h
    split at h
    · cases h
      simp [calmEnv, chunkEnv]
      omega
    · cases h
  read := by
    intro tr e t he h
    unfold stuckEnds at h ⊢
    rw [written_append]
    split at h
    · cases e <;> simp [PEvent.isRead] at he
      rename_i hle _ _ _
      rw [if_pos (by simpa [written] using hle)]
      exact ⟨_, rfl, by omega⟩
    · cases h
  timer := by
    intro tr
    simp only [calmEnv, chunkEnv, Bool.false_eq_true, false_iff, not_exists]
    rintro t ⟨h, ht⟩
    unfold stuckEnds at h
    split at h
    · cases h; omega
    · cases h

theorem stuck_reads_nothing (B : Nat) : PeerReadsNothing (stuckEnds B) B := by
  intro tr e _ h
  unfold stuckEnds
  rw [if_neg (by omega)]

/-- C75: for any size of the buffers in between (up to 2^48 bytes) there is a peer, sending three chunks and reading nothing, whose download never ends. -/
theorem C75_attack (B : Nat) (hB : B ≤ 2 ^ 48) : ∃ (chunks : List Bytes) (s : PSt), chunks.length = 3 ∧
    Timed (calmEnv chunks) (stuckEnds B) ∧ PeerReadsNothing (stuckEnds B) B ∧
    FetchMetaData (calmEnv chunks) toyHash (fun _ _ => false) 2 b!"cccccccccccccccccccc" b!"hhhhhhhhhhhhhhhhhhhh" (fun _ => []) exPool =
      .returned none (some b!"FetchMetaData err") s ∧ stuckEnds B s.trace = none := by
  let z := 16384 * (B / 31 + 1)
  have hz : z = 16384 * (B / 31 + 1) := rfl
  have hlen : (exExt z).length ≤ 100 := by
    have := natDec_length (n := z) (by omega)
    simp [exExt]; omega
  have hm := exExt_meaning z (by omega)
  have hne : exExt z ≠ [] := by simp [exExt]
  have hw : [exExt z].flatMap wire = [be32 (exExt z).length, exExt z] := by simp [wire, hne]
  have S := exStream_ok [exExt z] (by simp; omega)
  have hcond : (0 : Int) ≤ z ∧ 24 * (((z : Int) + 16383) / 16384) ≤ 2 ^ 48 := by omega
  obtain ⟨s, h⟩ := C70_waiting S toyHash (fun _ _ => false) (by
      unfold verdict
      rw [if_neg (by decide)]
      simp only [hm, Received.after, if_pos hcond]
      unfold verdict
      rw [if_neg ?_]
      unfold Received.all
      have : 0 < (((z : Int) + 16383) / 16384).toNat := by omega
      simp
      omega)
    (fun tr size h => by simp [calmEnv, chunkEnv, hw] at h ⊢; omega)
  have hann := stream_announced S toyHash (fun _ _ => false) hm hcond (s := s) (by rw [h]; rfl)
  refine ⟨_, s, by rw [hw]; rfl, stuck_timed B _ (by rw [hw]; simp), stuck_reads_nothing B, h, ?_⟩
  exact C75_hangs (stuck_timed B _ (by rw [hw]; simp)) S.calm.order (stuck_reads_nothing B) S.calm.writes h hann (by omega)

/-- what was written -/
def sent (tr : List PEvent) : List Bytes := tr.filterMap fun e => match e with | .write d _ => some d | _ => none

/-- C74: the two-piece announcement of C70's setting: hello, extended hello, two requests; then the peer is gone and the connection is closed -/
example : (match FetchMetaData (calmEnv (exHandshake :: [[], exExt 16385].flatMap wire)) toyHash (fun _ _ => false) 3
      b!"cccccccccccccccccccc" b!"hhhhhhhhhhhhhhhhhhhh" (fun _ => []) exPool with
    | .returned r _ s => decide (r = none ∧ s.trace.getLast? = some .close ∧ .announced 16385 ∈ s.trace ∧
        sent s.trace = [helloMsg b!"cccccccccccccccccccc" b!"hhhhhhhhhhhhhhhhhhhh", extendedHelloMsg,
          [0, 0, 0, 27] ++ [20, 1] ++ b!"d8:msg_typei0e5:piecei0ee", [0, 0, 0, 27] ++ [20, 1] ++ b!"d8:msg_typei0e5:piecei1ee"])
    | _ => false) = true := by decide +kernel

/-- and its interactions are a conversation -/
example : ∃ s, FetchMetaData (calmEnv (exHandshake :: [exExt 24].flatMap wire)) toyHash (fun _ _ => false) 2
    b!"cccccccccccccccccccc" b!"hhhhhhhhhhhhhhhhhhhh" (fun _ => []) exPool = .returned none (some b!"FetchMetaData err") s ∧
    Conversation (fun _ _ => false) b!"cccccccccccccccccccc" b!"hhhhhhhhhhhhhhhhhhhh" s.trace .closed ∧ .announced 24 ∈ s.trace := by
  have S := exStream_ok [exExt 24] (by decide +kernel)
  obtain ⟨s, h⟩ := C70_waiting S toyHash (fun _ _ => false) (by decide +kernel) (fun tr size h => by simp [calmEnv, chunkEnv, h]; omega)
  exact ⟨s, h, C74_conversation _ S.calm.order _ _ _ _ _ _ _ h, stream_announced S _ _ (exExt_meaning 24 (by decide)) (by decide) (by rw [h]; rfl)⟩

/-- C74: a request that cannot be written is the last interaction but closing -/
example : (match FetchMetaData { calmEnv (exHandshake :: [exExt 16385].flatMap wire) with writeFails := fun tr => decide (3 ≤ writeCount tr) } toyHash (fun _ _ => false) 3
      b!"cccccccccccccccccccc" b!"hhhhhhhhhhhhhhhhhhhh" (fun _ => []) exPool with
    | .returned r _ s => decide (r = none ∧ (s.trace.filter fun e => e.isWrite || e.isRead).getLast? =
        some (.write ([0, 0, 0, 27] ++ [20, 1] ++ b!"d8:msg_typei0e5:piecei1ee") true) ∧ writeCount s.trace = 4)
    | _ => false) = true := by decide +kernel

/-- a peer that reads at once -/
def promptEnds (tr : List PEvent) : Option Nat := some (min 1000 (reads tr))

theorem prompt_timed (chunks : List Bytes) (hc : chunks.length ≤ 1000) : Timed (calmEnv chunks) promptEnds where
  start := by simp [promptEnds, reads]
  forward := by
    intro tr e t h
    refine ⟨_, rfl, ?_⟩
    cases h
    simp only [reads_snoc]
    omega
  late := by
    intro tr n t h ht
    cases h
    simp [calmEnv, chunkEnv]
    omega
  read := fun tr e t he h => ⟨_, rfl, by omega⟩
  timer := by
    intro tr
    simp only [calmEnv, chunkEnv, Bool.false_eq_true, false_iff, not_exists]
    rintro t ⟨h, ht⟩
    cases h
    omega

/-- C75: such a download takes at most a second, at any moment -/
example (tr : List PEvent) : ∃ t, promptEnds tr = some t ∧ t ≤ 1000 := by
  obtain ⟨t, h1, h2⟩ := C75_duration (prompt_timed exChunks (by decide +kernel)) 0 (fun tr e t he h => ⟨_, rfl, by
    cases h
    simp only [reads_snoc]
    cases e <;> simp [PEvent.isRead] at he ⊢⟩) tr
  exact ⟨t, h1, by omega⟩

/-- C75: 4 KiB of requests in the buffers, an announcement of three megabytes -/
example : ∃ (chunks : List Bytes) (s : PSt), chunks.length = 3 ∧ Timed (calmEnv chunks) (stuckEnds 4096) ∧ PeerReadsNothing (stuckEnds 4096) 4096 ∧
    FetchMetaData (calmEnv chunks) toyHash (fun _ _ => false) 2 b!"cccccccccccccccccccc" b!"hhhhhhhhhhhhhhhhhhhh" (fun _ => []) exPool =
      .returned none (some b!"FetchMetaData err") s ∧ stuckEnds 4096 s.trace = none := C75_attack 4096 (by decide)

end P2P

import Verif.Props.PeerwireDone
/-! # C58 (memory asked for by a peer) and concrete downloads meeting the hypotheses of C41, C42, C57, C59 -/
namespace P2P

/-! ## C58 -/

/-- how `m` can kill the process -/
def FatalOnlyAlloc {α : Type} (E : PEnv) (m : PM α) : Prop := ∀ s t, m s = .fatal t →
  ∃ tr n, t.trace = tr ++ [.alloc n] ∧ n ≤ 2 ^ 48 ∧ E.outOfMemory t.trace n = true

section
variable {E : PEnv}
theorem FatalOnlyAlloc.bind {α β : Type} {m : PM α} {f : α → PM β} (h1 : FatalOnlyAlloc E m) (h2 : ∀ a, FatalOnlyAlloc E (f a)) :
    FatalOnlyAlloc E (m >>= f) := by
  intro s t h
  rw [PM.bind_apply] at h
  cases hm : m s with
  | ok a u => rw [hm] at h; exact h2 a u t h
  | panic p u => rw [hm] at h; cases h
  | fatal u => rw [hm] at h; cases h; exact h1 s _ hm
  | diverge u => rw [hm] at h; cases h
theorem FatalOnlyAlloc.pure {α : Type} (a : α) : FatalOnlyAlloc E (Pure.pure a : PM α) := fun s t h => by cases h
theorem FatalOnlyAlloc.panic {α : Type} (p : Panic) : FatalOnlyAlloc E (PM.panic p : PM α) := fun s t h => by cases h
theorem FatalOnlyAlloc.modify (f : PSt → PSt) : FatalOnlyAlloc E (PM.modify f) := fun s t h => by cases h
theorem FatalOnlyAlloc.get : FatalOnlyAlloc E PM.get := fun s t h => by cases h
theorem FatalOnlyAlloc.ite {α : Type} {c : Prop} [Decidable c] {m n : PM α} (h1 : FatalOnlyAlloc E m) (h2 : FatalOnlyAlloc E n) :
    FatalOnlyAlloc E (if c then m else n) := by split <;> assumption
theorem FatalOnlyAlloc.lift {α : Type} (r : Res α) : FatalOnlyAlloc E (PM.lift r) := by
  intro s t h
  cases r <;> simp [PM.lift] at h
theorem FatalOnlyAlloc.deferred {α : Type} {m : PM α} {c : PM Unit} (h1 : FatalOnlyAlloc E m) (h2 : FatalOnlyAlloc E c) :
    FatalOnlyAlloc E (PM.deferred m c) := by
  intro s t h
  unfold PM.deferred at h
  cases hm : m s with
  | ok a u =>
    rw [hm] at h
    simp only at h
    cases hc : c u with
    | fatal v => rw [hc] at h; cases h; exact h2 u _ hc
    | ok a v => rw [hc] at h; cases h
    | panic p v => rw [hc] at h; cases h
    | diverge v => rw [hc] at h; cases h
  | panic p u =>
    rw [hm] at h
    simp only at h
    cases hc : c u with
    | fatal v => rw [hc] at h; cases h; exact h2 u _ hc
    | ok a v => rw [hc] at h; cases h
    | panic p v => rw [hc] at h; cases h
    | diverge v => rw [hc] at h; cases h
  | fatal u => rw [hm] at h; cases h; exact h1 s _ hm
  | diverge u => rw [hm] at h; cases h

theorem foa_poolGet (n : Nat) : FatalOnlyAlloc E (poolGet E n) := by
  refine .bind (.modify _) fun _ => .bind .get fun s => ?_
  split
  · exact .bind (.modify _) fun _ => .bind (.modify _) fun _ => .pure _
  · exact .panic _
  · exact .panic _
  · exact .panic _
theorem foa_poolPut (b : Slice) : FatalOnlyAlloc E (poolPut E b) := .bind (.modify _) fun _ => .bind (.modify _) fun _ => .modify _
theorem foa_connRead (b : Slice) : FatalOnlyAlloc E (connRead E b) :=
  .bind (.modify _) fun _ => .bind .get fun _ => .bind (.modify _) fun _ => .bind (.modify _) fun _ => .pure _
theorem foa_connReadNew (n : Nat) : FatalOnlyAlloc E (connReadNew E n) :=
  .bind (.modify _) fun _ => .bind .get fun _ => .bind (.modify _) fun _ => .pure _
theorem foa_connWrite (b : Bytes) : FatalOnlyAlloc E (connWrite E b) :=
  .bind (.modify _) fun _ => .bind .get fun _ => .bind (.modify _) fun _ => .pure _
theorem foa_loadSlice (b : Slice) : FatalOnlyAlloc E (loadSlice E b) := .bind (.modify _) fun _ => .bind .get fun _ => .bind (.modify _) fun _ => .pure _

theorem foa_makeSized (n : Int) (w : Nat) : FatalOnlyAlloc E (makeSized E n w) := by
  refine .ite (.panic _) ?_
  intro s t h
  by_cases hn : n.toNat * w > maxAlloc
  · rw [if_pos hn] at h; cases h
  · rw [if_neg hn] at h
    simp only [emitP, PM.bind_apply, PM.modify_apply, PM.get_apply] at h
    split at h
    · rename_i ho
      cases h
      exact ⟨_, _, rfl, Nat.not_lt.1 hn, ho⟩
    · cases h

theorem foa_requestLoop : ∀ n i, FatalOnlyAlloc E (requestLoop E n i) := by
  intro n
  induction n with
  | zero => intro i; exact .pure _
  | succ n ih => intro i; exact .bind .get fun _ => .bind (.lift _) fun _ => .bind (foa_connWrite _) fun _ => .ite (.lift _) (ih _)

theorem foa_handleExtendedMsg (rb : Slice) (d : Bytes) : FatalOnlyAlloc E (handleExtendedMsg E rb d) := by
  unfold handleExtendedMsg
  cases d[1]? with
  | none => exact .panic _
  | some c =>
    refine .ite ?_ (.ite ?_ (.pure _))
    · refine .bind (.lift _) fun _ => .ite (.lift _) (.bind (.lift _) fun _ => .bind (.modify _) fun _ => ?_)
      refine .bind (foa_makeSized _ _) fun _ => .bind (.modify _) fun _ => .bind (foa_makeSized _ _) fun _ => .bind (.modify _) fun _ => ?_
      exact .bind (.modify _) fun _ => foa_requestLoop _ _
    · refine .bind (.lift _) fun r => .ite (.pure _) (.bind .get fun s => ?_)
      simp only
      split
      · exact .panic _
      · refine .bind (.modify _) fun _ => ?_
        split
        · exact .panic _
        · exact .bind (.modify _) fun _ => .modify _

theorem foa_handler : FatalOnlyAlloc E (readMetaDataHandler E) := by
  refine .bind (.bind (foa_poolGet _) fun _ => .bind (foa_connRead _) fun _ => .ite (.pure _) ?_) fun r => .deferred ?_ ?_
  · refine .bind (foa_loadSlice _) fun _ => .ite (.panic _) (.ite (.pure _) (.bind (foa_poolPut _) fun _ => .ite (.pure _) ?_))
    exact .bind (foa_poolGet _) fun _ => .bind (foa_connRead _) fun _ => .ite (.pure _) (.pure _)
  · refine .ite (.pure _) (.ite (.lift _) ?_)
    cases r.2.1 with
    | none => exact .panic _
    | some rb => exact .bind (foa_loadSlice _) fun d => .bind (.lift _) fun t => .ite (foa_handleExtendedMsg _ _) (.pure _)
  · cases r.2.1 with
    | none => exact .pure _
    | some rb => exact .ite (foa_poolPut _) (.pure _)

theorem foa_loop : ∀ n, FatalOnlyAlloc E (readMetaDataLoop E n) := by
  intro n
  induction n with
  | zero => intro s t h; cases h
  | succ n ih =>
    exact .bind .get fun _ => .ite (.pure _) (.bind (.bind .get fun _ => .bind (.modify _) fun _ => .pure _) fun _ =>
      .ite (.pure _) (.bind foa_handler fun _ => ih))

theorem foa_mergeLoop : ∀ n i r, FatalOnlyAlloc E (mergeLoop E n i r) := by
  intro n
  induction n with
  | zero => intro i r; exact .pure _
  | succ n ih =>
    intro i r
    refine .bind .get fun s => ?_
    split
    · exact .panic _
    · exact ih _ _
    · exact .bind (foa_loadSlice _) fun d => ih _ _
end

/-- A download ends the process only if memory runs out in an allocation whose size the peer chose, and such an
allocation asks for at most 2^48 bytes. -/
theorem C58_fatal_only_by_allocation (E : PEnv) (sha1 : Bytes → Bytes) (fold : FoldTable) (fuel : Nat) (peerId infoHash : Bytes)
    (mem : Nat → Bytes) (pool : BPool) (t : PSt)
    (h : FetchMetaData E sha1 fold fuel peerId infoHash mem pool = .fatal t) :
    ∃ tr n, t.trace = tr ++ [.alloc n] ∧ n ≤ 2 ^ 48 ∧ E.outOfMemory t.trace n = true := by
  have key : FatalOnlyAlloc E (fetchBody E sha1 fold fuel peerId infoHash) := by
    unfold fetchBody
    refine .bind ?_ fun _ => .bind ?_ fun _ => .bind (foa_loop _) fun _ => .bind .get fun s => ?_
    · refine .bind (.lift _) fun _ => .bind (foa_connWrite _) fun _ => .ite (.lift _) (.bind (foa_connReadNew _) fun r => ?_)
      exact .ite (.lift _) (.bind (.lift _) fun _ => .ite (.lift _) (.bind (.lift _) fun _ => .ite (.lift _) (.pure _)))
    · exact .bind .get fun _ => .bind (.lift _) fun _ => .bind (foa_connWrite _) fun _ => .ite (.lift _) (.pure _)
    · exact .ite (.pure _) (.bind (foa_makeSized _ _) fun _ => .bind (foa_mergeLoop _ _ _) fun r => .ite (.pure _) (.pure _))
  unfold FetchMetaData at h
  by_cases hd : E.dialFails = true
  · rw [if_pos hd] at h; cases h
  · rw [if_neg hd] at h
    cases hb : fetchBody E sha1 fold fuel peerId infoHash (NewPeerConn mem pool) with
    | ok r u => rw [hb] at h; simp [emitP] at h
    | panic p u => rw [hb] at h; simp [emitP] at h
    | fatal u => rw [hb] at h; cases h; exact key _ _ hb
    | diverge u => rw [hb] at h; cases h

/-- The first allocation made for a handshake that announces `size` bytes: 24 bytes per piece. -/
theorem C58_asks (E : PEnv) (rb : Slice) (data : Bytes) (dict : Entries) (size : Int)
    (hid : data[1]? = some 0) (hp : parseExtendedHandShake data = .ok dict) (hm : dict.lookup b!"metadata_size" = some (.int size))
    (hsz : 0 ≤ size) (hmax : 24 * ((size + 16383) / 16384) ≤ 2 ^ 48) (s : PSt) :
    ∃ rest, (handleExtendedMsg E rb data s).state.trace =
      s.trace ++ .alloc (24 * ((size + 16383) / 16384).toNat) :: rest := by
  have hc := C42_piece_count size hsz
  have hex : Dict.Exist dict b!"metadata_size" = true := by simp [Dict.Exist, dictGet, hm]
  have hgi : Dict.GetInteger dict b!"metadata_size" = .ok size := by simp [Dict.GetInteger, Dict.GetVal, dictGet, hm, GoVal.asInt]
  have e1 : 24 * ((size + 16383) / 16384).toNat = (pieceCount size).toNat * 24 := by rw [hc]; omega
  have hpos : ¬ pieceCount size < 0 := by rw [hc]; omega
  have hle : ¬ (pieceCount size).toNat * 24 > maxAlloc := by rw [← e1]; unfold maxAlloc; omega
  have hJ : TraceInv (fun _ => True) (fun tr => ∃ rest, tr = s.trace ++ .alloc ((pieceCount size).toNat * 24) :: rest) :=
    ⟨fun tr e h _ => by obtain ⟨r, rfl⟩ := h; exact ⟨r ++ [e], by simp⟩⟩
  let P : PSt → Prop := fun t => ∃ rest, t.trace = s.trace ++ .alloc ((pieceCount size).toNat * 24) :: rest
  have key : Triple (fun t => t.trace = s.trace) (handleExtendedMsg E rb data) (fun _ => P) P := by
    unfold handleExtendedMsg
    rw [hid]
    simp only
    rw [if_pos (by decide), hp]
    refine Triple.bind_ok ?_
    rw [if_neg (by simp [hex]), hgi]
    refine Triple.bind_ok ?_
    refine Triple.bind (Q := fun _ t => t.trace = s.trace) (Triple.modify fun t ht => ht) fun _ => ?_
    refine Triple.bind (Q := fun _ => P) ?_ fun _ => ?_
    · unfold makeSized
      rw [if_neg hpos, if_neg hle]
      refine Triple.bind (Q := fun _ => P) (Triple.modify fun t ht => ⟨[], by rw [ht]⟩) fun _ => ?_
      exact Keeps.bind Keeps.get fun _ => Keeps.ite (fun _ h => h) (Keeps.pure _)
    · refine Keeps.bind (fun _ h => h) fun _ => Keeps.bind (keeps_makeSized hJ E _ 1 fun _ => True.intro) fun _ => ?_
      exact Keeps.bind (fun _ h => h) fun _ => Keeps.bind (keeps_emit hJ _ True.intro) fun _ =>
        keeps_requestLoop hJ E (fun _ _ => True.intro) _ _
  have := key s rfl
  rw [e1]
  cases h : handleExtendedMsg E rb data s <;> rw [h] at this <;> exact this

/-! ## Concrete downloads -/

/-- A peer that sends these chunks, one per read, and then lets reads fail. Nobody else is using the buffers. -/
def chunkEnv (chunks : List Bytes) : PEnv where
  dialFails := false
  read := fun tr _ => (chunks.getD (reads tr) [], decide (chunks.length ≤ reads tr))
  writeFails := fun _ => false
  expired := fun _ => false
  outOfMemory := fun _ n => decide (2 ^ 40 ≤ n)
  interfere := fun _ x => x
  order := fun _ d => d

/-- a toy hash: the first 20 bytes, padded -/
def toyHash (d : Bytes) : Bytes := (d ++ List.replicate 20 0).take 20

def exHandshake : Bytes :=
  [19] ++ b!"BitTorrent protocol" ++ [0, 0, 0, 0, 0, 0x10, 0, 0] ++ b!"hhhhhhhhhhhhhhhhhhhh" ++ b!"pppppppppppppppppppp"

/-- the pool of dht/peerwire/bep3.go:17 at start -/
def exPool : BPool := { chans := [(4, [])], defaultWidth := 4, maxSize := 10000, fresh := 0 }

def exMeta : Bytes := b!"hhhhhhhhhhhhhhhhhhhhmeta"

/-- an honest download, with a keep-alive in between -/
def exChunks : List Bytes :=
  [exHandshake, [0, 0, 0, 0], be32 46, [20, 0] ++ b!"d1:md11:ut_metadatai2ee13:metadata_sizei24ee", be32 70,
   [20, 1] ++ b!"d8:msg_typei1e5:piecei0e10:total_sizei24ee" ++ exMeta]

def exRun : FetchOut :=
  FetchMetaData (chunkEnv exChunks) toyHash (fun _ _ => false) 10 b!"cccccccccccccccccccc" b!"hhhhhhhhhhhhhhhhhhhh" (fun _ => []) exPool

def isReturned (r : FetchOut) (d : Option Bytes) : Bool :=
  match r with
  | .returned ret _ _ => ret == d
  | _ => false

example : isReturned exRun (some exMeta) = true := by decide +kernel
example : isReturned (FetchMetaData (chunkEnv exChunks) toyHash (fun _ _ => false) 10 b!"cccccccccccccccccccc" b!"hhhhhhhhhhhhhhhhhhhx" (fun _ => []) exPool) none = true := by decide +kernel

def isFatal : FetchOut → Bool
  | .fatal _ => true
  | _ => false

/-- **A peer can kill the crawler** with one short message: announcing 192153584101130240 bytes makes
`handleExtendedMsg` ask for about 2^48 bytes at once; no `recover` stops the out-of-memory error. -/
theorem C58_peer_can_kill : isFatal (FetchMetaData
    (chunkEnv [exHandshake, be32 60, [20, 0] ++ b!"d1:md11:ut_metadatai2ee13:metadata_sizei192153584101130240ee"])
    toyHash (fun _ _ => false) 10 b!"cccccccccccccccccccc" b!"hhhhhhhhhhhhhhhhhhhh" (fun _ => []) exPool) = true := by
  decide +kernel

end P2P

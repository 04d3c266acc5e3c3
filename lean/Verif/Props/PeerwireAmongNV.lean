import Verif.Props.PeerwireAmong3
import Verif.Props.PeerwireMsgsNV
/-! # C110: concrete downloads among others -/
namespace P2P

/-- another download: it takes a 32 KiB buffer, receives zeros into all of it and gives it back -/
def meddle (x : (Nat → Bytes) × BPool) : (Nat → Bytes) × BPool :=
  match x.2.GetBySize 32768 with
  | .ok (b, p) => (upd (if p.fresh = x.2.fresh then x.1 else upd x.1 b.arr (List.replicate b.cap 0)) b.arr (List.replicate b.cap 0), p.Put b)
  | _ => x

theorem meddle_others {H : List Nat} {x : (Nat → Bytes) × BPool} (h : Own H x) : OthersDo H x (meddle x) := by
  obtain ⟨mem, pool⟩ := x
  unfold meddle
  simp only
  split
  · rename_i b p hg
    obtain ⟨g1, g2, g3, g4, -, -⟩ := own_get h hg
    have hn := g1.nodup
    simp only [List.cons_append, List.nodup_cons, List.mem_append, not_or] at hn
    exact .put b (.write b.arr _ (.get 32768 b p (.nothing _) hg) hn.1.2 hn.1.1 (by rw [List.length_replicate, g4.2])) g4.1 (by rw [upd_same, List.length_replicate])
      (g1.old b.arr (by simp)) hn.1.2 hn.1.1
  · exact .nothing _

def isAlloc : Option PEvent → Bool
  | some (.alloc _) => true
  | _ => false

/-- another download is active just when this one merges its pieces -/
def rudeEnv (chunks : List Bytes) : PEnv := { calmEnv chunks with interfere := fun tr x => if isAlloc tr.getLast? then meddle x else x }

/-- another download is active always except then -/
def politeEnv (chunks : List Bytes) : PEnv := { calmEnv chunks with interfere := fun tr x => if isAlloc tr.getLast? then x else meddle x }

theorem rudeEnv_among (chunks : List Bytes) : Among (rudeEnv chunks) where
  dial := rfl
  others := fun tr x h => by
    show OthersDo _ x (if isAlloc tr.getLast? then meddle x else x)
    split
    · exact meddle_others h
    · exact .nothing _
  writes := fun _ => rfl
  time := fun _ => rfl
  memory := fun _ _ => rfl
  order := fun _ _ h => ⟨h, .refl _⟩

theorem politeEnv_among (chunks : List Bytes) : Among (politeEnv chunks) where
  dial := rfl
  others := fun tr x h => by
    show OthersDo _ x (if isAlloc tr.getLast? then x else meddle x)
    split
    · exact .nothing _
    · exact meddle_others h
  writes := fun _ => rfl
  time := fun _ => rfl
  memory := fun _ _ => rfl
  order := fun _ _ h => ⟨h, .refl _⟩

theorem exPool_own : Own [] ((fun _ => []), exPool) := by
  refine ⟨fun i c h b hb => ?_, by decide, by decide⟩
  have : exPool.chan i = some [] ∨ exPool.chan i = none := by
    unfold exPool BPool.chan
    simp only [List.lookup]
    split
    · exact .inl rfl
    · exact .inr rfl
  simp only at h
  rcases this with h' | h' <;> rw [h'] at h <;> cases h
  cases hb

theorem rude_stream (bodies : List Bytes) (hl : ∀ b ∈ bodies, b.length < 2 ^ 32) :
    StreamAmong (rudeEnv (exHandshake :: bodies.flatMap wire)) b!"cccccccccccccccccccc" b!"hhhhhhhhhhhhhhhhhhhh" (fun _ => []) exPool exHandshake bodies
      (bodies.length + 1) where
  among := rudeEnv_among _
  own := exPool_own
  peer := rfl
  info := rfl
  handshake := exHandshake_ok
  delivers := calmEnv_delivers _
  lengths := hl
  rounds := Nat.le_refl _

theorem polite_stream (bodies : List Bytes) (hl : ∀ b ∈ bodies, b.length < 2 ^ 32) :
    StreamAmong (politeEnv (exHandshake :: bodies.flatMap wire)) b!"cccccccccccccccccccc" b!"hhhhhhhhhhhhhhhhhhhh" (fun _ => []) exPool exHandshake bodies
      (bodies.length + 1) where
  among := politeEnv_among _
  own := exPool_own
  peer := rfl
  info := rfl
  handshake := exHandshake_ok
  delivers := calmEnv_delivers _
  lengths := hl
  rounds := Nat.le_refl _

/-- C110_one_piece: another download is active all the time but not at the wrong moment -/
example : ∃ s, FetchMetaData (politeEnv (exHandshake :: exStream.flatMap wire)) toyHash (fun _ _ => false) 8 b!"cccccccccccccccccccc" b!"hhhhhhhhhhhhhhhhhhhh"
    (fun _ => []) exPool = .returned (some exMeta) none s ∧ reads s.trace = 14 := by
  obtain ⟨s, h1, h2⟩ := C110_one_piece (polite_stream exStream (by decide +kernel)) toyHash (fun _ _ => false) 7 6 5 24 exMeta exStream_verdict (by decide +kernel)
    (fun tr b m x => by
      have e : (tr ++ [PEvent.put b, .alloc m]).getLast? = some (.alloc m) := by simp
      show (if isAlloc (tr ++ [PEvent.put b, .alloc m]).getLast? then x else meddle x).1 b.arr = _
      rw [e]
      rfl)
  rw [if_pos (by decide +kernel)] at h1
  exact ⟨s, h1, by rw [h2]; decide +kernel⟩

/-- C110_failed: data for a piece that was not announced -/
example : ∃ s, FetchMetaData (rudeEnv (exHandshake :: [exExt 24, [20, 1] ++ b!"d8:msg_typei1e5:piecei1ee"].flatMap wire)) toyHash (fun _ _ => false) 3
    b!"cccccccccccccccccccc" b!"hhhhhhhhhhhhhhhhhhhh" (fun _ => []) exPool = .returned none (some b!"FetchMetaData err") s ∧ reads s.trace ≤ 5 :=
  C110_failed (rude_stream [exExt 24, [20, 1] ++ b!"d8:msg_typei1e5:piecei1ee"] (by decide +kernel)) toyHash (fun _ _ => false) 1 (by decide +kernel)

/-- C110_waiting: the peer stops after the announcement -/
example : ∃ s, FetchMetaData (rudeEnv (exHandshake :: [exExt 24].flatMap wire)) toyHash (fun _ _ => false) 2
    b!"cccccccccccccccccccc" b!"hhhhhhhhhhhhhhhhhhhh" (fun _ => []) exPool = .returned none (some b!"FetchMetaData err") s :=
  C110_waiting (rude_stream [exExt 24] (by decide +kernel)) toyHash (fun _ _ => false) (by decide +kernel)
    (fun tr size h => by simp [rudeEnv, calmEnv, chunkEnv, h]; omega)

/-- **One other download suffices to spoil a download.** The peer is honest, all pieces (one) were received, their hash is right and alone the download
would return them: but another download uses the buffer between its being given back and the merging, and the metadata are refused. -/
theorem C110_spoilt :
    ∃ (E : PEnv) (bodies : List Bytes) (peerId infoHash : Bytes) (mem : Nat → Bytes) (pool : BPool) (hs : Bytes) (fuel n k : Nat) (g : Received) (sha1 : Bytes → Bytes) (fold : FoldTable),
      StreamAmong E peerId infoHash mem pool hs bodies fuel ∧ verdict 0 0 .start bodies = .complete n k g ∧ sha1 g.content = infoHash ∧
      (∃ s, FetchMetaData (calmEnv (hs :: bodies.flatMap wire)) sha1 fold fuel peerId infoHash mem pool = .returned (some g.content) none s) ∧
      ∃ s, FetchMetaData E sha1 fold fuel peerId infoHash mem pool = .returned none (some b!"check sum err") s := by
  refine ⟨rudeEnv (exHandshake :: [exExt 24, exData0].flatMap wire), [exExt 24, exData0], b!"cccccccccccccccccccc", b!"hhhhhhhhhhhhhhhhhhhh", fun _ => [], exPool, exHandshake, 3, 2, 2,
    { size := 24, pieces := [some (1, exMeta)] }, toyHash, fun _ _ => false, rude_stream [exExt 24, exData0] (by decide +kernel), by decide +kernel, by decide +kernel, ?_, ?_⟩
  · obtain ⟨s, h1, -⟩ := C70_complete (exStream_ok [exExt 24, exData0] (by decide +kernel)) toyHash (fun _ _ => false) 2 2 { size := 24, pieces := [some (1, exMeta)] } (by decide +kernel) (by decide +kernel)
      (fun j d h _ => by simp at h; omega)
    rw [if_pos (by decide +kernel)] at h1
    exact ⟨s, h1⟩
  · have h : (match FetchMetaData (rudeEnv (exHandshake :: [exExt 24, exData0].flatMap wire)) toyHash (fun _ _ => false) 3 b!"cccccccccccccccccccc" b!"hhhhhhhhhhhhhhhhhhhh" (fun _ => []) exPool with
        | .returned none (some e) _ => decide (e = b!"check sum err")
        | _ => false) = true := by decide +kernel
    generalize FetchMetaData (rudeEnv (exHandshake :: [exExt 24, exData0].flatMap wire)) toyHash (fun _ _ => false) 3 b!"cccccccccccccccccccc" b!"hhhhhhhhhhhhhhhhhhhh" (fun _ => []) exPool = r at h
    match r, h with
    | .returned none (some e) s, h => exact ⟨s, by rw [of_decide_eq_true h]⟩

/-- the metadata of another torrent, and its peer's messages -/
def exMeta2 : Bytes := b!"iiiiiiiiiiiiiiiiiiiimeta"
def exBodies2 : List Bytes := [exExt 24, [20, 1] ++ b!"d8:msg_typei1e5:piecei0e10:total_sizei24ee" ++ exMeta2]
def exChunks2 : List Bytes := exHandshake :: exBodies2.flatMap wire

/-- the whole other download -/
def otherWhole (x : (Nat → Bytes) × BPool) : FetchOut :=
  FetchMetaData (calmEnv exChunks2) toyHash (fun _ _ => false) 3 b!"cccccccccccccccccccc" b!"iiiiiiiiiiiiiiiiiiii" x.1 x.2

/-- it runs just when this download merges its piece -/
def twoEnv (chunks : List Bytes) : PEnv := { calmEnv chunks with interfere := fun tr x => if isAlloc tr.getLast? then (otherWhole x).left x else x }

theorem twoEnv_among (chunks : List Bytes) : Among (twoEnv chunks) where
  dial := rfl
  others := fun tr x h => by
    show OthersDo _ x (if isAlloc tr.getLast? then (otherWhole x).left x else x)
    split
    · exact C110_is_proper (calmEnv exChunks2) _ (fun _ _ _ => .nothing _) _ _ _ _ _ _ _ h
    · exact .nothing _
  writes := fun _ => rfl
  time := fun _ => rfl
  memory := fun _ _ => rfl
  order := fun _ _ h => ⟨h, .refl _⟩

/-- how a download of `exMeta` among the other one ends -/
def twoRun : FetchOut :=
  FetchMetaData (twoEnv (exHandshake :: [exExt 24, exData0].flatMap wire)) toyHash (fun _ _ => false) 3 b!"cccccccccccccccccccc" b!"hhhhhhhhhhhhhhhhhhhh" (fun _ => []) exPool

/-- **Two honest downloads suffice.** Each of them alone returns its metadata (one piece); when the second runs between the first one's last message and
its merging, the first ends with an error. -/
theorem C110_two_honest :
    isReturned (FetchMetaData (calmEnv (exHandshake :: [exExt 24, exData0].flatMap wire)) toyHash (fun _ _ => false) 3 b!"cccccccccccccccccccc" b!"hhhhhhhhhhhhhhhhhhhh"
      (fun _ => []) exPool) (some exMeta) = true ∧
    isReturned (otherWhole (fun _ => [], exPool)) (some exMeta2) = true ∧
    Among (twoEnv (exHandshake :: [exExt 24, exData0].flatMap wire)) ∧
    ∃ s, twoRun = .returned none (some b!"check sum err") s := by
  refine ⟨by decide +kernel, by decide +kernel, twoEnv_among _, ?_⟩
  have h : (match twoRun with
      | .returned none (some e) _ => decide (e = b!"check sum err")
      | _ => false) = true := by decide +kernel
  generalize twoRun = r at h
  match r, h with
  | .returned none (some e) s, h =>
    exact ⟨s, by rw [of_decide_eq_true h]⟩

end P2P

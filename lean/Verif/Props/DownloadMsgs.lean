import Verif.Props.DownloadLines
import Verif.Props.Torrent
/-! # C97, continued: what each message leaves in the log; C55: a directory that cannot be read -/
namespace P2P

/-- an informational record of the download from `laddr` -/
def dlInfo (laddr msg : Bytes) (fields : List (Bytes × LogVal)) : LogRec :=
  { pfx := b!"FetchMetadata", method := .Info, msg, ctx := some ((b!"laddr", lstr laddr) :: fields) }

/-- **C97: what a message leaves in the log.** A keep-alive leaves nothing. A message `t :: rest` of any type but 20 leaves one record with its type and
its length. An extension message with the id 2, or with an id above 2, leaves one record with the id and the length. -/
theorem C97_message (E : PEnv) (C : DlEnv) (laddr : Bytes) (s : PSt) (l : List LogRec) :
    (∀ rb err, handleMsgL E C laddr true rb err s l = (.ok () s, l)) ∧
    ∀ (rb : Slice) (t : UInt8) (rest : Bytes) (s' : PSt), loadSlice E rb s = .ok (t :: rest) s' →
      (t ≠ 20 → handleMsgL E C laddr false (some rb) false s l =
        (.ok () s', l ++ [dlInfo laddr b!"fetch bep3 msg" [(b!"peerMsgType", lint t.toNat), (b!"payloadLen", lint (rest.length + 1))]])) ∧
      (∀ id rest', t = 20 → rest = id :: rest' → 2 ≤ id → handleMsgL E C laddr false (some rb) false s l =
        (.ok () s', l ++ [dlInfo laddr (if id = 2 then b!"fetch pexExtendedId extend msg" else b!"fetch pexExtendedId wrong extend msg")
          [(b!"msgid", lint id.toNat), (b!"payloadLen", lint (rest.length + 1))]])) := by
  refine ⟨fun rb err => by simp only [handleMsgL, if_pos]; rfl, ?_⟩
  intro rb t rest s' hl
  have step : ∀ g : Bytes → PL Unit, (PL.quiet (loadSlice E rb) >>= g) s l = g (t :: rest) s' l := by
    intro g
    simp only [Bind.bind, PL.bind, PL.quiet, hl]
  have step2 : ∀ g : Nat → PL Unit, (PL.quiet (PM.lift (parsePrefixLenMsg (t :: rest))) >>= g) s' l = g t.toNat s' l := by
    intro g
    rfl
  constructor
  · intro ht
    have hn : t.toNat ≠ ExtendedPeerMsg := fun h => ht (UInt8.toNat_inj.1 h)
    simp only [handleMsgL]
    rw [if_neg (by simp), if_neg (by simp)]
    rw [step, step2, if_neg hn]
    rfl
  · rintro id rest' rfl rfl hid
    have hid' : 2 ≤ id.toNat := hid
    have hn : (20 : UInt8).toNat = ExtendedPeerMsg := rfl
    simp only [handleMsgL]
    rw [if_neg (by simp), if_neg (by simp)]
    rw [step, step2, if_pos hn]
    unfold handleExtendedMsgL
    simp only [List.getElem?_cons_succ, List.getElem?_cons_zero]
    rw [if_neg (by omega), if_neg (by omega)]
    by_cases h2 : id = 2
    · subst h2
      rw [if_pos (by decide)]
      rfl
    · have : id.toNat ≠ 2 := fun h => h2 (UInt8.toNat_inj.1 h)
      rw [if_neg this]
      simp only [if_neg h2]
      rfl

/-- **C97: what a metadata message leaves in the log**: its numbers as the peer sent them; a message that is not a piece (a request or a reject) leaves an
error as well, and nothing else happens. -/
theorem C97_metadata_message (E : PEnv) (C : DlEnv) (laddr : Bytes) (s : PSt) (l : List LogRec) (rb : Slice) (data : Bytes) (s' : PSt)
    (hl : loadSlice E rb s = .ok data s') (h0 : data[0]? = some 20) (h1 : data[1]? = some 1) (resp : ExFetchMeta) (hr : parseExtendedFetchMetaMsg data = .ok resp) :
    let got := dlInfo laddr b!"fetch extended msg" [(b!"fetchMetaResp", ljson resp.json)]
    (∃ o, handleMsgL E C laddr false (some rb) false s l = (o, l ++ got :: if resp.msgType = 1 then []
      else [{ got with method := .Error, msg := b!"get extended piece wrong format" }])) ∧
    (resp.msgType ≠ 1 → (handleMsgL E C laddr false (some rb) false s l).1 = .ok () s') := by
  have step : ∀ g : Bytes → PL Unit, (PL.quiet (loadSlice E rb) >>= g) s l = g data s' l := by
    intro g
    simp only [Bind.bind, PL.bind, PL.quiet, hl]
  have hp : parsePrefixLenMsg data = .ok 20 := by unfold parsePrefixLenMsg; rw [h0]; rfl
  have step2 : ∀ g : Nat → PL Unit, (PL.quiet (PM.lift (parsePrefixLenMsg data)) >>= g) s' l = g 20 s' l := by
    intro g
    rw [hp]; rfl
  intro got
  have e : handleMsgL E C laddr false (some rb) false s l = handleExtendedMsgL E C laddr rb data s' l := by
    simp only [handleMsgL]
    rw [if_neg (by simp), if_neg (by simp)]
    rw [step, step2, if_pos (by rfl : 20 = ExtendedPeerMsg)]
  rw [e]
  unfold handleExtendedMsgL
  rw [h1]
  simp only
  rw [if_neg (by decide), if_pos (by decide), hr]
  have c : ∀ ctx (g : ExFetchMeta → PL Unit), (PL.codec (.ok resp) ctx >>= g) s' l = g resp s' l := fun _ _ => rfl
  rw [c]
  have i : ∀ (g : PL Unit), ((fmInfo b!"fetch extended msg" [(b!"laddr", lstr laddr), (b!"fetchMetaResp", ljson resp.json)] : PL Unit) >>= fun _ => g) s' l =
      g s' (l ++ [got]) := fun _ => rfl
  rw [i]
  by_cases h : resp.msgType = 1
  · rw [if_neg (by simp [h, ExData])]
    simp only [if_pos h]
    refine ⟨?_, fun hn => absurd h hn⟩
    have g : ∀ (g : PSt → PL Unit) (l' : List LogRec), (PL.quiet PM.get >>= g) s' l' = g s' s' l' := fun _ _ => rfl
    rw [g]
    generalize setAt s'.metaData resp.pieceNum _ = x
    generalize setAt s'.requested resp.pieceNum true = y
    cases x with
    | none => exact ⟨_, rfl⟩
    | some md =>
      cases y with
      | none => exact ⟨_, rfl⟩
      | some rq => exact ⟨_, rfl⟩
  · rw [if_pos (by simp only [ExData]; exact fun hh => h hh.symm)]
    simp only [if_neg h]
    refine ⟨⟨.ok () s', ?_⟩, fun _ => rfl⟩
    show (_, l ++ [got] ++ [_]) = (_, l ++ [got, _])
    rw [List.append_assoc]
    rfl

/-- a buffer with the message `have piece 7` (type 4): the case of `C97_message` -/
example : ∃ t, loadSlice (chunkEnv []) { arr := 0, off := 0, len := 5, cap := 5 } (NewPeerConn (fun _ => [4, 0, 0, 0, 7]) exPool) =
    .ok [4, 0, 0, 0, 7] t := ⟨_, rfl⟩

/-- a reject of piece 0: the case of `C97_metadata_message` -/
example : ∃ resp, parseExtendedFetchMetaMsg ([20, 1] ++ b!"d8:msg_typei2e5:piecei0ee") = .ok resp ∧ resp.msgType = 2 ∧
    resp.json = b!"{\"MsgId\":1,\"ExMsgType\":2,\"ExPieceNum\":0,\"ExTotalSize\":0}" := by
  refine ⟨ExFetchMeta.mk 1 2 0 0 [] none, ?_, ?_, ?_⟩ <;> decide +kernel

/-- **C55: a directory that cannot be listed** ends the command with a panic and without output; so does the missing argument. -/
theorem C55_unreadable (fs : TorrentFs) (path : Bytes) (more : List Bytes) (hd : fs.isDir path = true) (hr : fs.readDir path = none) :
    torrentCmd fs (path :: more) = { lines := [], ended := .panic (.biz b!"open torrent dir err") } ∧
    torrentCmd fs [] = { lines := [], ended := .panic .runtime } := by
  refine ⟨?_, rfl⟩
  simp [torrentCmd, hd, hr]

end P2P

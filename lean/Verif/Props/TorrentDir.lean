import Verif.Props.Torrent
import Verif.Props.Restart
/-! # C94: the `torrent` command on the directory of the crawler

`p2pcrawler torrent torrent` (cmd/torrent.go) lists what the crawler (dht/fetchtorrent.go) has saved. -/
namespace P2P

/-! ## Specification -/

/-- `V` is what the command sees when `files` are the files: the directory `torrent` is listed with the names of its files, in some order. -/
structure DirView (files : Bytes → Option Bytes) (V : TorrentFs) (dirs : List (Bytes × Bool)) : Prop where
  isDir : V.isDir b!"torrent" = true
  listing : V.readDir b!"torrent" = some dirs
  names : ∀ name, (name, false) ∈ dirs ↔ (files (b!"torrent/" ++ name)).isSome
  read : ∀ name, V.readFile (V.join b!"torrent" name) = files (b!"torrent/" ++ name)

/-- The file cannot be listed: it is empty, or does not begin with `d`, or does not end with `e`. -/
def Unlistable (b : Bytes) : Prop := b.head? ≠ some 100 ∨ b.getLast? ≠ some 101

instance (b : Bytes) : Decidable (Unlistable b) := inferInstanceAs (Decidable (_ ∨ _))

theorem unlistable_panics {V : TorrentFs} {name path b : Bytes} (hf : V.readFile path = some b) (hb : Unlistable b) :
    printTorrentInfo V name path = .panic (.biz b!"DecodeDict torrent file err") := by
  have : DecodeDict b = .err .wrongParam := by
    unfold DecodeDict
    split
    · rfl
    · rw [if_pos]
      rw [← List.head?_eq_getElem?, ← List.getLast?_eq_getElem?]
      exact hb
  simp [printTorrentInfo, hf, this]

theorem torrentNames_of_file {files : Bytes → Option Bytes} {V : TorrentFs} {dirs : List (Bytes × Bool)} (h : DirView files V dirs) {name b : Bytes}
    (hf : files (b!"torrent/" ++ name ++ b!".torrent") = some b) : name ++ b!".torrent" ∈ torrentNames dirs := by
  refine List.mem_map.2 ⟨(name ++ b!".torrent", false), List.mem_filter.2 ⟨(h.names _).2 ?_, ?_⟩, rfl⟩
  · rw [← List.append_assoc, hf]; rfl
  · simp only [Bool.not_false, Bool.true_and]
    exact (hasSuffix_iff _ _).2 ⟨name, rfl⟩

/-- **C94** If every torrent file holds a bencoded dictionary, the listing has one line for each of them, in the order of the directory, and ends
normally. -/
theorem C94_listing {files : Bytes → Option Bytes} {V : TorrentFs} {dirs : List (Bytes × Bool)} (h : DirView files V dirs) (more : List Bytes)
    (hall : ∀ name ∈ torrentNames dirs, ∃ b d, files (b!"torrent/" ++ name) = some b ∧ GoString b ∧ Bencodes (.dict d) b) :
    let out := torrentCmd V (b!"torrent" :: more)
    out.ended = .ok () ∧ out.lines.length = (torrentNames dirs).length ∧
    ∀ (i : Nat) (name : Bytes), (torrentNames dirs)[i]? = some name →
      ∃ b d, files (b!"torrent/" ++ name) = some b ∧ Bencodes (.dict d) b ∧ out.lines[i]? = some (torrentLine d name) := by
  intro out
  obtain ⟨h1, h2, h3, h4⟩ := C55_directory V b!"torrent" dirs more h.isDir h.listing
  have ok : ∀ name ∈ torrentNames dirs, ∃ b d, files (b!"torrent/" ++ name) = some b ∧ Bencodes (.dict d) b ∧
      printTorrentInfo V name (V.join b!"torrent" name) = .ok (torrentLine d name) := by
    intro name hn
    obtain ⟨b, d, hb, hs, hd⟩ := hall name hn
    exact ⟨b, d, hb, hd, C55_line V name _ b d ((h.read name).trans hb) hs hd⟩
  have hlen : out.lines.length = (torrentNames dirs).length := by
    refine Classical.byContradiction fun hne => ?_
    have hlt : out.lines.length < (torrentNames dirs).length := Nat.lt_of_le_of_ne h1 hne
    obtain ⟨p, hp, -⟩ := h4 _ (List.getElem?_eq_getElem hlt)
    obtain ⟨b, d, -, -, hl⟩ := ok _ (List.getElem_mem hlt)
    rw [hl] at hp; cases hp
  refine ⟨h3 hlen, hlen, fun i name hi => ?_⟩
  obtain ⟨b, d, hb, hd, hl⟩ := ok name (List.mem_of_getElem? hi)
  obtain ⟨l, a1, a2⟩ := h2 i name (by rw [hlen]; exact (List.getElem?_eq_some_iff.1 hi).1) hi
  rw [hl] at a2; injection a2 with a2; subst a2
  exact ⟨b, d, hb, hd, a1⟩

/-- **C94** One file that cannot be listed ends the command with a panic: neither it nor any file behind it in the listing is shown. -/
theorem C94_unlistable {files : Bytes → Option Bytes} {V : TorrentFs} {dirs : List (Bytes × Bool)} (h : DirView files V dirs) (more : List Bytes)
    {name b : Bytes} (hf : files (b!"torrent/" ++ name ++ b!".torrent") = some b) (hb : Unlistable b) :
    (∃ p, (torrentCmd V (b!"torrent" :: more)).ended = .panic p) ∧
    ∃ before behind, torrentNames dirs = before ++ (name ++ b!".torrent") :: behind ∧
      (torrentCmd V (b!"torrent" :: more)).lines.length ≤ before.length := by
  obtain ⟨h1, h2, h3, h4⟩ := C55_directory V b!"torrent" dirs more h.isDir h.listing
  obtain ⟨k, hk, hkn⟩ := List.getElem_of_mem (torrentNames_of_file h hf)
  have hpan : ∀ l, printTorrentInfo V (name ++ b!".torrent") (V.join b!"torrent" (name ++ b!".torrent")) ≠ .ok l := by
    intro l
    rw [unlistable_panics ((h.read _).trans (by rw [← List.append_assoc]; exact hf)) hb]
    exact fun h => nomatch h
  have hle : (torrentCmd V (b!"torrent" :: more)).lines.length ≤ k := by
    refine Classical.byContradiction fun hlt => ?_
    obtain ⟨l, -, hl⟩ := h2 k _ (by omega) (by rw [List.getElem?_eq_getElem hk, hkn])
    exact hpan l hl
  refine ⟨?_, (torrentNames dirs).take k, (torrentNames dirs).drop (k + 1), ?_, ?_⟩
  · obtain ⟨p, -, hp⟩ := h4 _ (List.getElem?_eq_getElem (Nat.lt_of_le_of_lt hle hk))
    exact ⟨p, hp⟩
  · rw [← hkn, ← List.drop_eq_getElem_cons hk, List.take_append_drop]
  · rw [List.length_take]; omega

/-- **C94** Anybody can break the listing for good. The crawler saves whatever has the announced hash: an announce whose peer delivers bytes that are no
dictionary – and the hash is announced only finitely often – makes every later listing of the directory end with a panic, at this file or before. -/
theorem C94_poison (K : KEnv) {O : Nat → Oracle} (hO : ∀ p, (O p).Fair) (pkts : Nat → RecvPacket) (conn : Nat → Bytes → PEnv) (sha1 : Bytes → Bytes)
    (fuel : Nat) (peerId : Bytes) (mem : Nat → Nat → Bytes) (pool : Nat → BPool)
    {dir : Bool} {fs0 : Bytes → Option Bytes} {W1 Q W2 : Nat} (hW1 : 1 ≤ W1) {e : Nat → CrSt}
    (F : FairWhole (crawlTraces K O pkts) (crawlOut K O pkts conn sha1 fuel peerId mem pool) dir fs0 W1 Q W2 e)
    (hsame : SameData (flushes (crawlOut K O pkts conn sha1 fuel peerId mem pool)))
    {i p : Nat} (hp : p < (e i).pl.arrived) {job : Job} (hj : IsAnnounce (pkts p) job)
    {infoHash laddr md : Bytes} {st : PSt} (hih : (asMap job.req.body).lookup b!"info_hash" = some (.str infoHash))
    (haddr : parseFetchAddr K.env job = .ok laddr)
    (hfetch : FetchMetaData (conn p laddr) sha1 K.env.fold fuel peerId infoHash (mem p) (pool p) = .returned (some md) none st)
    (nofail : ∀ m k, (e m).fs.pc k ≠ .failed)
    (finite : ∃ N, ∀ k, N ≤ k → ∀ job', IsAnnounce (pkts k) job' → (asMap job'.req.body).lookup b!"info_hash" ≠ some (.str infoHash))
    {hex : Bytes} (hhex : IsHexOf hex infoHash) (hmd : Unlistable md) :
    ∃ j, i ≤ j ∧ ∀ m, j ≤ m → ∀ V dirs more, DirView (e m).fs.fs V dirs →
      (∃ p, (torrentCmd V (b!"torrent" :: more)).ended = .panic p) ∧
      ∃ before behind, torrentNames dirs = before ++ (hex ++ b!".torrent") :: behind ∧
        (torrentCmd V (b!"torrent" :: more)).lines.length ≤ before.length := by
  obtain ⟨j, hij, h⟩ := C92_announced K hO pkts conn sha1 fuel peerId mem pool hW1 F hsame hp hj hih haddr hfetch nofail finite hhex
  exact ⟨j, hij, fun m hm V dirs more hV => C94_unlistable hV more (h m hm) hmd⟩

/-- **C94** … and restarting does not help: as long as nobody announces the torrent again, the listing is broken in all later lives of the crawler. -/
theorem C94_poison_stays {fs0 : Bytes → Option Bytes} {l : List Session} {fs : Bytes → Option Bytes} (h : AfterSessions fs0 l fs) {hex md : Bytes}
    (h0 : fs0 (b!"torrent/" ++ hex ++ b!".torrent") = some md) (hmd : Unlistable md)
    (hn : ∀ S ∈ l, ∀ p hash data, flushes S.out p = some (hash, data) → hash ≠ hex) {V : TorrentFs} {dirs : List (Bytes × Bool)}
    (hV : DirView fs V dirs) (more : List Bytes) :
    (∃ p, (torrentCmd V (b!"torrent" :: more)).ended = .panic p) ∧
    ∃ before behind, torrentNames dirs = before ++ (hex ++ b!".torrent") :: behind ∧
      (torrentCmd V (b!"torrent" :: more)).lines.length ≤ before.length := by
  refine C94_unlistable hV more (b := md) ?_ hmd
  rw [C93_stays h _ fun S hS p hash data hf hp => hn S hS p hash data hf ?_]
  · exact h0
  · exact (torrentPath_inj (a := hex) hp).symm

/-- **C94** A torrent that is a dictionary is shown with its fields: its line is among those of the listing if nothing in front of it stops the
listing. -/
theorem C94_shown {files : Bytes → Option Bytes} {V : TorrentFs} {dirs : List (Bytes × Bool)} (h : DirView files V dirs) (more : List Bytes)
    {name md : Bytes} {d : Entries} (hf : files (b!"torrent/" ++ name ++ b!".torrent") = some md) (hs : GoString md) (hd : Bencodes (.dict d) md)
    (hok : (torrentCmd V (b!"torrent" :: more)).ended = .ok ()) :
    torrentLine d (name ++ b!".torrent") ∈ (torrentCmd V (b!"torrent" :: more)).lines := by
  obtain ⟨h1, h2, h3, h4⟩ := C55_directory V b!"torrent" dirs more h.isDir h.listing
  obtain ⟨k, hk, hkn⟩ := List.getElem_of_mem (torrentNames_of_file h hf)
  have hlen : (torrentCmd V (b!"torrent" :: more)).lines.length = (torrentNames dirs).length := by
    refine Classical.byContradiction fun hne => ?_
    have hlt := Nat.lt_of_le_of_ne h1 hne
    obtain ⟨p, -, hp⟩ := h4 _ (List.getElem?_eq_getElem hlt)
    rw [hok] at hp; cases hp
  obtain ⟨l, a1, a2⟩ := h2 k _ (by rw [hlen]; exact hk) (by rw [List.getElem?_eq_getElem hk, hkn])
  rw [C55_line V _ _ md d ((h.read _).trans (by rw [← List.append_assoc]; exact hf)) hs hd] at a2
  injection a2 with a2; subst a2
  exact List.mem_of_getElem? a1

/-! ## Concrete cases -/

/-- what the command sees when the only file is the one of `C92_example` -/
def exDirView (content : Bytes) : TorrentFs where
  isDir := fun p => p == b!"torrent"
  readDir := fun _ => some [(b!"6868686868686868686868686868686868686868.torrent", false)]
  readFile := fun p => if p = b!"torrent/6868686868686868686868686868686868686868.torrent" then some content else none
  join := fun a b => a ++ b!"/" ++ b

theorem exDirView_view (content : Bytes) :
    DirView (fun p => if p = b!"torrent/6868686868686868686868686868686868686868.torrent" then some content else none) (exDirView content)
      [(b!"6868686868686868686868686868686868686868.torrent", false)] where
  isDir := by simp [exDirView]
  listing := rfl
  names := by
    intro name
    have e : b!"torrent/6868686868686868686868686868686868686868.torrent" = b!"torrent/" ++ b!"6868686868686868686868686868686868686868.torrent" := rfl
    simp only [List.mem_singleton, Prod.mk.injEq, and_true, e]
    constructor
    · intro h; simp [h]
    · intro h
      split at h
      · rename_i hx; exact List.append_cancel_left hx
      · cases h
  read := fun name => rfl

/-- the torrent of `C92_example` is no dictionary, an empty file (`C93_example`) neither -/
example : Unlistable exMeta ∧ Unlistable [] ∧ ¬ Unlistable b!"d6:lengthi5e4:name1:xe" := by decide +kernel

example : torrentCmd (exDirView exMeta) [b!"torrent"] = { lines := [], ended := .panic (.biz b!"DecodeDict torrent file err") } ∧
    torrentCmd (exDirView b!"d6:lengthi5e4:name1:xe") [b!"torrent"] =
      { lines := [b!"x||6868686868686868686868686868686868686868.torrent||5||0\r\n"], ended := .ok () } := by decide +kernel

end P2P

import Verif.Model.Torrent
import Verif.Props.Bencode
/-! # C55: the `torrent` command -/
namespace P2P

/-- a string field of a dictionary, or a default -/
def strField (d : Entries) (k dflt : Bytes) : Bytes :=
  match d.lookup k with
  | some (.str s) => s
  | _ => dflt

/-- an integer field of a dictionary, or zero -/
def intField (d : Entries) (k : Bytes) : Int :=
  match d.lookup k with
  | some (.int i) => i
  | _ => 0

/-- `name||file||length||piece length` -/
def torrentLine (d : Entries) (filename : Bytes) : Bytes :=
  strField d b!"name" b!"name err" ++ b!"||" ++ filename ++ b!"||" ++ itoa (intField d b!"length") ++ b!"||" ++
    itoa (intField d b!"piece length") ++ b!"\r\n"

/-- the entries of a listing that are torrents: files whose name ends in `.torrent` -/
def torrentNames (dirs : List (Bytes × Bool)) : List Bytes :=
  (dirs.filter (fun e => !e.2 && hasSuffix e.1 b!".torrent")).map (·.1)

/-- `hasSuffix` is what its name says -/
theorem hasSuffix_iff (s suf : Bytes) : hasSuffix s suf = true ↔ suf <:+ s := by
  simp only [hasSuffix, Bool.and_eq_true, decide_eq_true_eq]
  constructor
  · rintro ⟨h1, h2⟩
    exact ⟨s.take (s.length - suf.length), by conv => rhs; rw [← List.take_append_drop (s.length - suf.length) s]
                                              rw [h2]⟩
  · rintro ⟨t, rfl⟩
    simp

theorem printLine (fs : TorrentFs) (filename path b : Bytes) (d : Option Entries) (hf : fs.readFile path = some b)
    (hd : DecodeDict b = .ok d) : printTorrentInfo fs filename path = .ok (torrentLine (d.getD []) filename) := by
  have hs : ∀ (e : Entries) k dflt, Dict.GetStringOrDefault e k dflt = strField e k dflt := by
    intro e k dflt
    simp only [Dict.GetStringOrDefault, Dict.GetValOrDefault, dictGet, strField]
    cases h : e.lookup k with
    | none => rfl
    | some v => cases v <;> rfl
  have hi : ∀ (e : Entries) k, Dict.GetIntegerOrDefault e k 0 = intField e k := by
    intro e k
    simp only [Dict.GetIntegerOrDefault, Dict.GetValOrDefault, dictGet, intField]
    cases h : e.lookup k with
    | none => rfl
    | some v => cases v <;> rfl
  simp only [printTorrentInfo, hf, Res.pure_eq, Res.bind_ok, hd, hs, hi, torrentLine]

/-- **A file that holds a bencoded dictionary gives the line with its fields** (defaults for missing or wrongly typed ones). -/
theorem C55_line (fs : TorrentFs) (filename path b : Bytes) (d : Entries) (hf : fs.readFile path = some b) (hs : GoString b)
    (hb : Bencodes (.dict d) b) : printTorrentInfo fs filename path = .ok (torrentLine d filename) :=
  printLine fs filename path b (some d) hf ((C08_dict_whole b d hs).2 (.inl hb))

/-- **A dictionary followed by anything that ends in `e` is printed with the defaults instead of an error.** -/
theorem C55_trailing (fs : TorrentFs) (filename path p rest : Bytes) (d : Entries) (hf : fs.readFile path = some (p ++ rest))
    (hs : GoString (p ++ rest)) (hb : Bencodes (.dict d) p) (hr : rest.getLast? = some 101) :
    printTorrentInfo fs filename path = .ok (b!"name err||" ++ filename ++ b!"||0||0\r\n") := by
  rw [printLine fs filename path _ none hf (C08_dict_leftover_nil_nil _ p rest d hs rfl hb hr)]
  simp [torrentLine, strField, intField, itoa, natDec, natDecAux]

/-- **An unreadable file, or one that is not a dictionary at all, ends the command with a panic.** -/
theorem C55_bad (fs : TorrentFs) (filename path : Bytes) :
    (fs.readFile path = none → ∃ p, printTorrentInfo fs filename path = .panic p) ∧
    (∀ b e, fs.readFile path = some b → DecodeDict b = .err e → ∃ p, printTorrentInfo fs filename path = .panic p) := by
  constructor
  · intro h; exact ⟨.biz b!"open torrent file err", by simp [printTorrentInfo, h]⟩
  · intro b e h h'; exact ⟨.biz b!"DecodeDict torrent file err", by simp [printTorrentInfo, h, h']⟩

/-- the command's output for one file never is an error value, and always comes to an end -/
theorem C55_ends (fs : TorrentFs) (filename path : Bytes) :
    (∃ l, printTorrentInfo fs filename path = .ok l) ∨ ∃ p, printTorrentInfo fs filename path = .panic p := by
  cases hf : fs.readFile path with
  | none => exact .inr ((C55_bad fs filename path).1 hf)
  | some b =>
    cases hd : DecodeDict b with
    | ok d => exact .inl ⟨_, printLine fs filename path b d hf hd⟩
    | err e => exact .inr ((C55_bad fs filename path).2 b e hf hd)
    | panic p => exact .inr ⟨p, by simp [printTorrentInfo, hf, hd]⟩
    | diverge => exact absurd hd (C09_decoders_terminate b).2.2.2.1

/-- **For a directory one line is printed per torrent file, in the order of the listing, up to the first that fails; that one ends
the command with its panic.** -/
theorem C55_directory (fs : TorrentFs) (path : Bytes) (dirs : List (Bytes × Bool)) (more : List Bytes)
    (hd : fs.isDir path = true) (hr : fs.readDir path = some dirs) :
    let names := torrentNames dirs
    let out := torrentCmd fs (path :: more)
    out.lines.length ≤ names.length ∧
    (∀ (i : Nat) (n : Bytes), i < out.lines.length → names[i]? = some n →
      ∃ l, out.lines[i]? = some l ∧ printTorrentInfo fs n (fs.join path n) = .ok l) ∧
    (out.lines.length = names.length → out.ended = .ok ()) ∧
    (∀ n, names[out.lines.length]? = some n → ∃ p, printTorrentInfo fs n (fs.join path n) = .panic p ∧ out.ended = .panic p) := by
  intro names out
  have hout : out = torrentLoop fs path dirs := by simp [out, torrentCmd, hd, hr]
  rw [hout]
  simp only [names]
  clear hout
  clear_value out names
  clear hr
  induction dirs with
  | nil => simp [torrentNames, torrentLoop]
  | cons e rest ih =>
    obtain ⟨name, dir⟩ := e
    by_cases hc : (!dir && hasSuffix name b!".torrent") = true
    · have hn : torrentNames ((name, dir) :: rest) = name :: torrentNames rest := by simp [torrentNames, hc]
      rw [hn]
      rcases C55_ends fs name (fs.join path name) with ⟨l, hl⟩ | ⟨p, hp⟩
      · have ho : torrentLoop fs path ((name, dir) :: rest) =
            { lines := l :: (torrentLoop fs path rest).lines, ended := (torrentLoop fs path rest).ended } := by
          simp [torrentLoop, hc, hl]
        rw [ho]
        obtain ⟨i1, i2, i3, i4⟩ := ih
        refine ⟨by simpa using i1, ?_, ?_, ?_⟩
        · intro i n hi hin
          cases i with
          | zero => simp at hin; subst hin; exact ⟨l, rfl, hl⟩
          | succ i => simp at hi hin; simpa using i2 i n hi hin
        · intro h; simp at h; exact i3 h
        · intro n h; simp at h; exact i4 n h
      · have ho : torrentLoop fs path ((name, dir) :: rest) = { lines := [], ended := .panic p } := by
          simp [torrentLoop, hc, hp]
        rw [ho]
        refine ⟨by simp, by intro i n hi; simp at hi, by intro h; simp at h, ?_⟩
        intro n h; simp at h; subst h; exact ⟨p, hp, rfl⟩
    · have hn : torrentNames ((name, dir) :: rest) = torrentNames rest := by simp [torrentNames, hc]
      have ho : torrentLoop fs path ((name, dir) :: rest) = torrentLoop fs path rest := by
        conv => lhs; unfold torrentLoop
        rw [if_neg hc]
      rw [hn, ho]
      exact ih

/-- **A path that is no directory gives its one line**; without an argument the command panics. -/
theorem C55_single (fs : TorrentFs) (path : Bytes) (more : List Bytes) (hd : fs.isDir path = false) :
    (∀ l, printTorrentInfo fs path path = .ok l → torrentCmd fs (path :: more) = { lines := [l], ended := .ok () }) ∧
    (∀ p, printTorrentInfo fs path path = .panic p → torrentCmd fs (path :: more) = { lines := [], ended := .panic p }) ∧
    (torrentCmd fs []).ended = .panic .runtime := by
  refine ⟨?_, ?_, rfl⟩
  · intro l h; simp [torrentCmd, hd, h]
  · intro p h; simp [torrentCmd, hd, h]

/-- a directory with two torrents, something else and a broken torrent -/
def exTorrentFs : TorrentFs where
  isDir := fun p => p == b!"d"
  readDir := fun _ => some [(b!"a.torrent", false), (b!"b.txt", false), (b!"c.torrent", true), (b!"e.torrent", false), (b!"f.torrent", false),
    (b!"g.torrent", false)]
  readFile := fun p =>
    if p = b!"d/a.torrent" then some b!"d6:lengthi5e4:name1:xe"
    else if p = b!"d/e.torrent" then some b!"d6:length1:5ei7e"
    else if p = b!"d/f.torrent" then some b!"oops"
    else none
  join := fun a b => a ++ b!"/" ++ b

example : torrentCmd exTorrentFs [b!"d"] = { lines := [b!"x||a.torrent||5||0\r\n", b!"name err||e.torrent||0||0\r\n"],
                                             ended := .panic (.biz b!"DecodeDict torrent file err") } := by decide +kernel

end P2P

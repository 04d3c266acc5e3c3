import Verif.Model.Types
/-! # Model of cmd/torrent.go: `p2pcrawler torrent <path>` -/
namespace P2P

/-- what the command sees of the file system -/
structure TorrentFs where
  /-- `misc.IsDir` (misc/file.go:33-44) -/
  isDir : Bytes → Bool
  /-- `ioutil.ReadDir`: names with "is a directory", in the order of the listing; `none` is an error -/
  readDir : Bytes → Option (List (Bytes × Bool))
  /-- the bytes of a file; `none`: it cannot be opened or read -/
  readFile : Bytes → Option Bytes
  /-- `filepath.Join` -/
  join : Bytes → Bytes → Bytes

/-- `strings.HasSuffix` -/
def hasSuffix (s suf : Bytes) : Bool := decide (suf.length ≤ s.length) && decide (s.drop (s.length - suf.length) = suf)

/-- cmd/torrent.go:35-44: the line that is printed. A nil dictionary reads like an empty one. -/
def printTorrentInfo (fs : TorrentFs) (filename path : Bytes) : Res Bytes := do
  let bytes ← match fs.readFile path with
    | some b => (pure b : Res Bytes)
    | none => .panic (.biz b!"open torrent file err")
  let dict ← match DecodeDict bytes with
    | .ok d => (pure (d.getD []) : Res Entries)
    | .err _ => .panic (.biz b!"DecodeDict torrent file err")
    | .panic p => .panic p
    | .diverge => .diverge
  pure (Dict.GetStringOrDefault dict b!"name" b!"name err" ++ b!"||" ++ filename ++ b!"||" ++
    itoa (Dict.GetIntegerOrDefault dict b!"length" 0) ++ b!"||" ++ itoa (Dict.GetIntegerOrDefault dict b!"piece length" 0) ++ b!"\r\n")

/-- Output of the command: the lines printed, and how it ended. -/
structure TorrentOut where
  lines : List Bytes
  ended : Res Unit
deriving DecidableEq

/-- the loop cmd/torrent.go:24-28 -/
def torrentLoop (fs : TorrentFs) (path : Bytes) : List (Bytes × Bool) → TorrentOut
  | [] => { lines := [], ended := .ok () }
  | (name, dir) :: rest =>
    if !dir && hasSuffix name b!".torrent" then
      match printTorrentInfo fs name (fs.join path name) with
      | .ok l => let o := torrentLoop fs path rest; { o with lines := l :: o.lines }
      | .err e => { lines := [], ended := .err e }
      | .panic p => { lines := [], ended := .panic p }
      | .diverge => { lines := [], ended := .diverge }
    else torrentLoop fs path rest

/-- cmd/torrent.go:19-32 -/
def torrentCmd (fs : TorrentFs) (args : List Bytes) : TorrentOut :=
  match args with
  | [] => { lines := [], ended := .panic .runtime }
  | path :: _ =>
    if fs.isDir path then
      match fs.readDir path with
      | none => { lines := [], ended := .panic (.biz b!"open torrent dir err") }
      | some dirs => torrentLoop fs path dirs
    else
      match printTorrentInfo fs path path with
      | .ok l => { lines := [l], ended := .ok () }
      | .err e => { lines := [], ended := .err e }
      | .panic p => { lines := [], ended := .panic p }
      | .diverge => { lines := [], ended := .diverge }

end P2P

import Verif.Model.Bencode
import Verif.Model.Udp
import Verif.Lts
/-! # Strings that share memory

The other models treat strings as values. In Go a string is an address and a length; the decoders of misc/beancode.go return substrings of their
argument, that is, addresses inside it, and misc/strings.go:31-39 converts between strings and byte slices without copying. Here the decoders once
more, returning where in the source each string lies, and a memory of arrays, some of which are buffers that are written again and again.
`Props/Memory` proves when it is sound to treat strings as values. -/
namespace P2P

/-- a substring: its place in the source it was cut from -/
structure StrAt where
  off : Nat
  len : Nat
deriving DecidableEq

/-- what the decoders return: a tree of numbers and places (`interface{}` holding int, string, List or Dict) -/
inductive ViewVal where
  | int (n : Int)
  | str (v : StrAt)
  | list (l : List ViewVal)
  | dict (d : List (StrAt × ViewVal))

/-- the bytes a substring stands for, if the source holds `src` -/
def StrAt.read (src : Bytes) (v : StrAt) : Bytes := slice src v.off (v.off + v.len)

mutual
/-- the value a tree stands for, if the source holds `src` -/
def ViewVal.read (src : Bytes) : ViewVal → GoVal
  | .int n => .int n
  | .str v => .str (v.read src)
  | .list l => .list (readElems src l)
  | .dict d => .dict (readEntries src d)
def readElems (src : Bytes) : List ViewVal → List GoVal
  | [] => []
  | v :: r => v.read src :: readElems src r
def readEntries (src : Bytes) : List (StrAt × ViewVal) → Entries
  | [] => []
  | (k, v) :: r => (k.read src, v.read src) :: readEntries src r
end

/-- `result[key] = val` (misc/beancode.go:294): keys are compared by their bytes; Go stores the new key (the runtime's map of strings updates keys,
as the old string might keep a larger memory alive) -/
def viewPut (src : Bytes) : List (StrAt × ViewVal) → StrAt → ViewVal → List (StrAt × ViewVal)
  | [], k, v => [(k, v)]
  | (k', v') :: r, k, v => if k'.read src = k.read src then (k, v) :: r else (k', v') :: viewPut src r k v

/-- misc/beancode.go:89-106, see `innerDecodeString`: the result is `src[idx+1:end]` -/
def innerDecodeStringV (src : Bytes) (start : Nat) : Res (StrAt × Nat) :=
  match indexColon src (src.length - start) start with
  | none => .err .wrongParam
  | some idx =>
    if idx ≤ start then .err .wrongParam
    else
      match atoi (slice src start idx) with
      | none => .err .atoi
      | some slen =>
        let stop : Int := wrap64 (idx + slen + 1)
        if stop ≥ src.length then .err .wrongParam
        else if stop < idx + 1 then .panic .runtime
        else .ok ({ off := idx + 1, len := stop.toNat - (idx + 1) }, stop.toNat)

mutual
/-- misc/beancode.go:193-205, see `decodeItem` -/
def decodeItemV : Nat → Bytes → Nat → Res (ViewVal × Nat)
  | 0, _, _ => .diverge
  | f + 1, src, i =>
    match src[i]? with
    | none => .panic .runtime
    | some c =>
      if c = 105 then do
        let (n, next) ← innerDecodeInteger src i
        pure (.int n, next)
      else if c = 108 then do
        let (l, j) ← sliceLoopV f src (i + 1) []
        pure (.list l, j + 1)
      else if c = 100 then do
        let (d, j) ← dictLoopV f src (i + 1) []
        pure (.dict d, j + 1)
      else if isDigit c then do
        let (s, next) ← innerDecodeStringV src i
        pure (.str s, next)
      else .err .wrongParam
/-- misc/beancode.go:180-189, see `sliceLoop` -/
def sliceLoopV : Nat → Bytes → Nat → List ViewVal → Res (List ViewVal × Nat)
  | 0, _, _, _ => .diverge
  | f + 1, src, i, acc =>
    match src[i]? with
    | none => .ok (acc, i)
    | some c =>
      if c = 101 then .ok (acc, i)
      else do
        let (v, next) ← decodeItemV f src i
        sliceLoopV f src next (acc ++ [v])
/-- misc/beancode.go:275-296, see `dictLoop` -/
def dictLoopV : Nat → Bytes → Nat → List (StrAt × ViewVal) → Res (List (StrAt × ViewVal) × Nat)
  | 0, _, _, _ => .diverge
  | f + 1, src, i, acc =>
    match src[i]? with
    | none => .ok (acc, i)
    | some c =>
      if c = 101 then .ok (acc, i)
      else do
        let (kv, next) ← decodeItemV f src i
        match kv with
        | .str key => do
          let (val, next') ← decodeItemV f src next
          dictLoopV f src next' (viewPut src acc key val)
        | _ => .err .wrongParam
end

/-- misc/beancode.go:269-299, see `innerDecodeDict` -/
def innerDecodeDictV (src : Bytes) (start : Nat) : Res (List (StrAt × ViewVal) × Nat) :=
  match src[start]? with
  | none => .panic .runtime
  | some c =>
    if c ≠ 100 then .err .wrongParam
    else do
      let (d, j) ← dictLoopV (decodeBudget src) src (start + 1) []
      pure (d, j + 1)

/-- misc/beancode.go:249-267, see `DecodeDictNoLimit` -/
def DecodeDictNoLimitV (src : Bytes) : Res (List (StrAt × ViewVal) × Nat) :=
  if src.length < 2 then .err .wrongParam
  else if src[0]? ≠ some 100 then .err .wrongParam
  else innerDecodeDictV src 0

/-- misc/beancode.go:229-247, see `DecodeDict` -/
def DecodeDictV (src : Bytes) : Res (Option (List (StrAt × ViewVal))) :=
  if src.length < 2 then .err .wrongParam
  else if src[0]? ≠ some 100 ∨ src[src.length - 1]? ≠ some 101 then .err .wrongParam
  else do
    let (d, next) ← innerDecodeDictV src 0
    if next < src.length then pure none else pure (some d)

/-! ## Memory -/

/-- arrays by number; those from `fresh` on are unused -/
structure Heap where
  mem : Nat → Bytes
  fresh : Nat

/-- a Go string: an address and a length -/
structure Str where
  arr : Nat
  off : Nat
  len : Nat
deriving DecidableEq

def Str.read (mem : Nat → Bytes) (s : Str) : Bytes := ((mem s.arr).drop s.off).take s.len

/-- misc/strings.go:37-39: the first two words of the slice's header -/
def Bytes2Str (b : Slice) : Str := { arr := b.arr, off := b.off, len := b.len }

/-- misc/strings.go:31-35: the string's length serves as length and capacity -/
def Str2Bytes (s : Str) : Slice := { arr := s.arr, off := s.off, len := s.len, cap := s.len }

/-- Go's `string(b)`: a copy in new memory -/
def copyStr (h : Heap) (b : Slice) : Heap × Str :=
  ({ mem := upd h.mem h.fresh (readSlice h.mem b), fresh := h.fresh + 1 }, { arr := h.fresh, off := 0, len := (readSlice h.mem b).length })

/-- Go's `append(b, xs...)`: in place if the capacity suffices, else a copy in new memory (of some capacity) -/
def goAppend (h : Heap) (b : Slice) (xs : Bytes) (spare : Nat) : Heap × Slice :=
  if b.len + xs.length ≤ b.cap then
    ({ h with mem := writeSlice h.mem { b with off := b.off + b.len } xs }, { b with len := b.len + xs.length })
  else
    ({ mem := upd h.mem h.fresh (readSlice h.mem b ++ xs ++ List.replicate spare 0), fresh := h.fresh + 1 },
     { arr := h.fresh, off := 0, len := b.len + xs.length, cap := b.len + xs.length + spare })

/-! ## What is kept of packets while their buffers are used again -/

/-- a dictionary that somebody goes on using: the announce in the channel of info hashes (dht/requesthandler.go), a node of the route table, a request
handed to a handler. Ghosts: the bytes it was decoded from and the moment's value. -/
structure Kept where
  /-- the string that was decoded -/
  src : Str
  tree : List (StrAt × ViewVal)
  packet : Bytes

structure KeepSt where
  heap : Heap
  /-- the arrays that are buffers: of the pools (misc/bytespool.go), written by the receive goroutine and by downloads, at any time -/
  isBuf : Nat → Bool
  kept : List Kept

/-- how a packet's bytes become the string that is decoded -/
abbrev Conv := Heap → Slice → Heap × Str

/-- dht/krpc/server.go:121: `string(packet.Bytes)` -/
def convCopy : Conv := copyStr
/-- as dht/peerwire/bep9.go:97 does it: `misc.Bytes2Str(data)` -/
def convAlias : Conv := fun h b => (h, Bytes2Str b)

def KeepInit (s : KeepSt) : Prop := s.kept = [] ∧ ∀ a, s.isBuf a = true → a < s.heap.fresh

inductive KeepStep (conv : Conv) : KeepSt → KeepSt → Prop where
  /-- misc/bytespool.go:28-50: a pool allocates a buffer -/
  | newBuf {s} (data : Bytes) : KeepStep conv s { s with
      heap := { mem := upd s.heap.mem s.heap.fresh data, fresh := s.heap.fresh + 1 }
      isBuf := upd s.isBuf s.heap.fresh true }
  /-- a buffer is written: dht/krpc/udp.go:99, dht/peerwire/peer.go -/
  | write {s} (b : Slice) (data : Bytes) : s.isBuf b.arr = true →
      KeepStep conv s { s with heap := { s.heap with mem := writeSlice s.heap.mem b data } }
  /-- dht/krpc/server.go:121: a packet is decoded and what came out is kept -/
  | handle {s} (b : Slice) (d : List (StrAt × ViewVal)) (n : Nat) : s.isBuf b.arr = true → DecodeDictNoLimitV (readSlice s.heap.mem b) = .ok (d, n) →
      KeepStep conv s { s with
        heap := (conv s.heap b).1
        kept := s.kept ++ [{ src := (conv s.heap b).2, tree := d, packet := readSlice s.heap.mem b }] }
  /-- cmd/torrent.go:36-38: `ioutil.ReadAll` into new memory that nothing else refers to, decoded in place -/
  | load {s} (file : Bytes) (d : List (StrAt × ViewVal)) : DecodeDictV file = .ok (some d) →
      KeepStep conv s { s with
        heap := { mem := upd s.heap.mem s.heap.fresh file, fresh := s.heap.fresh + 1 }
        kept := s.kept ++ [{ src := Bytes2Str { arr := s.heap.fresh, off := 0, len := file.length, cap := file.length }, tree := d, packet := file }] }
  /-- Go code that extends a converted string: dht/fetchtorrent.go:39 hands `Str2Bytes(infoHash)` to the download -/
  | extend {s} (k : Kept) (v : StrAt) (xs : Bytes) (spare : Nat) : k ∈ s.kept → xs ≠ [] → KeepStep conv s { s with
      heap := (goAppend s.heap (Str2Bytes { arr := k.src.arr, off := k.src.off + v.off, len := v.len }) xs spare).1 }

end P2P

import Verif.Model.PeerMsg
/-! # `crypto/sha1` and the values made with it

`sha1.Sum` belongs to Go's standard library. It is modelled by the algorithm of FIPS 180-4 (section 6.1), which the package
documents to implement. -/
namespace P2P

/-- FIPS 180-4, 5.1.1: the bit 1, zeros up to 56 bytes modulo 64, the length in bits as 64-bit big-endian number. `sha1.Sum` counts
the length modulo 2^64. -/
def sha1Pad (m : Bytes) : Bytes :=
  m ++ 0x80 :: List.replicate ((119 - m.length % 64) % 64) 0 ++ be32 (8 * m.length / 2 ^ 32) ++ be32 (8 * m.length)

/-- `ROTL^n` on 32-bit words (0 < n < 32) -/
def rotl (n : UInt32) (x : UInt32) : UInt32 := (x <<< n) ||| (x >>> (32 - n))

/-- a word of the message, big-endian -/
def beWord (s : Bytes) : UInt32 := UInt32.ofNat (beVal (s.take 4))

/-- the first sixteen words of a block -/
def blockWords : Nat → Bytes → List UInt32
  | 0, _ => []
  | n + 1, s => beWord s :: blockWords n (s.drop 4)

/-- The five words of the working state. -/
structure Sha1St where
  a : UInt32
  b : UInt32
  c : UInt32
  d : UInt32
  e : UInt32
deriving DecidableEq

/-- FIPS 180-4, 5.3.1 -/
def sha1Init : Sha1St := ⟨0x67452301, 0xEFCDAB89, 0x98BADCFE, 0x10325476, 0xC3D2E1F0⟩

/-- `f_t` (FIPS 180-4, 4.1.1) -/
def sha1F (t : Nat) (b c d : UInt32) : UInt32 :=
  if t < 20 then (b &&& c) ||| (~~~b &&& d)
  else if t < 40 then b ^^^ c ^^^ d
  else if t < 60 then (b &&& c) ||| (b &&& d) ||| (c &&& d)
  else b ^^^ c ^^^ d

/-- `K_t` (FIPS 180-4, 4.2.1) -/
def sha1K (t : Nat) : UInt32 :=
  if t < 20 then 0x5A827999 else if t < 40 then 0x6ED9EBA1 else if t < 60 then 0x8F1BBCDC else 0xCA62C1D6

/-- Rounds `t` to 79 (`n = 80 - t` of them); `w` holds the words `W_t ... W_{t+15}` of the message schedule. -/
def sha1Rounds : Nat → Nat → List UInt32 → Sha1St → Sha1St
  | 0, _, _, s => s
  | n + 1, t, w, s =>
    let wt := w.getD 0 0
    let next := rotl 1 (w.getD 13 0 ^^^ w.getD 8 0 ^^^ w.getD 2 0 ^^^ w.getD 0 0)
    let x := rotl 5 s.a + sha1F t s.b s.c s.d + s.e + sha1K t + wt
    sha1Rounds n (t + 1) (w.drop 1 ++ [next]) ⟨x, s.a, rotl 30 s.b, s.c, s.d⟩

/-- FIPS 180-4, 6.1.2, one block -/
def sha1Block (h : Sha1St) (block : Bytes) : Sha1St :=
  let r := sha1Rounds 80 0 (blockWords 16 block) h
  ⟨h.a + r.a, h.b + r.b, h.c + r.c, h.d + r.d, h.e + r.e⟩

/-- the first `n` blocks of `s`, one after the other -/
def sha1Blocks : Nat → Bytes → Sha1St → Sha1St
  | 0, _, h => h
  | n + 1, s, h => sha1Blocks n (s.drop 64) (sha1Block h (s.take 64))

/-- `sha1.Sum(m)`, as a byte string -/
def sha1Sum (m : Bytes) : Bytes :=
  let p := sha1Pad m
  let h := sha1Blocks (p.length / 64) p sha1Init
  be32 h.a.toNat ++ be32 h.b.toNat ++ be32 h.c.toNat ++ be32 h.d.toNat ++ be32 h.e.toNat

/-- dht/node.go:120-123 -/
def generateNodeId (str : Bytes) : Bytes := sha1Sum str

/-- dht/peerwire/peer.go:55-58 -/
def GeneratePeerId (str : Bytes) : Bytes := sha1Sum str

/-- dht/peerwire/peer.go:60-63 -/
def GenerateInfoHash (bytes : Bytes) : Bytes := sha1Sum bytes

/-- dht/dht.go:13 -/
def localNodeId : Bytes := generateNodeId b!"galaio.p2pclawer"

/-- dht/peerwire/bep3.go:22 -/
def LocalPeerId : Bytes := GeneratePeerId b!"galaio.peerId"

end P2P

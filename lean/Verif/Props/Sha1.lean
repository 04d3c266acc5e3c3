import Verif.Model.Sha1
import Verif.Props.Fetch
import Verif.Props.PeerwireNV
import Verif.Props.FetchAddr
import Verif.Props.Amplify
/-! # C81: the concrete hash and the program's own identities -/
namespace P2P

theorem be32_length (n : Nat) : (be32 n).length = 4 := rfl

/-- C81: every digest has 20 bytes. -/
theorem C81_length (m : Bytes) : (sha1Sum m).length = 20 := by
  simp [sha1Sum, be32_length]

/-- the number of padding bytes -/
theorem sha1Pad_length (m : Bytes) : (sha1Pad m).length = m.length + (119 - m.length % 64) % 64 + 9 := by
  simp [sha1Pad, be32_length]; omega

theorem be32_inj {a b : Nat} (h : be32 a = be32 b) : a % 2 ^ 32 = b % 2 ^ 32 := by
  have key : ∀ n : Nat, beVal (be32 n) = n % 2 ^ 32 := by
    intro n
    simp [beVal, be32, UInt8.toNat_ofNat']
    omega
  rw [← key a, ← key b, h]

/-- C81: the padded message is a whole number of 64-byte blocks, at least one, at most one more than the message has, and begins with the message;
different messages (shorter than 2^61 bytes, so that the length is not truncated) are padded differently: two messages with the same digest are a collision of the compression
function, not of the padding. -/
theorem C81_padding (m : Bytes) :
    (sha1Pad m).length % 64 = 0 ∧ m.length + 9 ≤ (sha1Pad m).length ∧ (sha1Pad m).length < m.length + 73 ∧ m <+: sha1Pad m ∧
      ∀ m' : Bytes, m.length < 2 ^ 61 → m'.length < 2 ^ 61 → sha1Pad m = sha1Pad m' → m = m' := by
  refine ⟨by rw [sha1Pad_length]; omega, by rw [sha1Pad_length]; omega, by rw [sha1Pad_length]; omega, ?_, ?_⟩
  · unfold sha1Pad; simp only [List.append_assoc]; exact List.prefix_append _ _
  · intro m' h1 h2 h
    have hl : m.length = m'.length := by
      unfold sha1Pad at h
      obtain ⟨h3, h4⟩ := List.append_inj' h (by simp [be32_length])
      obtain ⟨-, h5⟩ := List.append_inj' h3 (by simp [be32_length])
      have := be32_inj h4
      have := be32_inj h5
      omega
    unfold sha1Pad at h
    simp only [List.append_assoc] at h
    exact (List.append_inj h hl).1

/-- C81: the program's node id and peer id, byte for byte. -/
theorem C81_ids : localNodeId = [0x9b, 0xe1, 0x69, 0x60, 0x18, 0xa6, 0x9b, 0xa1, 0x61, 0x65, 0x19, 0x78, 0xc7, 0x6c, 0x46, 0xf3, 0x4a, 0x6a, 0xba, 0x74] ∧
    LocalPeerId = [0x37, 0xa0, 0x59, 0xcc, 0xbf, 0xd0, 0x00, 0x63, 0x90, 0xa4, 0x75, 0x74, 0xc3, 0xf3, 0x73, 0x46, 0x51, 0x75, 0x47, 0xc8] := by
  decide +kernel

/-- C81: the first message of every download is, for every info hash of 20 bytes, these 68 bytes; for every other info hash the call
panics before anything is sent. -/
theorem C81_handshake (infoHash : Bytes) :
    (infoHash.length = 20 → withHandShakeMsg LocalPeerId infoHash =
      .ok ([19] ++ b!"BitTorrent protocol" ++ [0, 0, 0, 0, 0, 0x10, 0, 0] ++ infoHash ++
        [0x37, 0xa0, 0x59, 0xcc, 0xbf, 0xd0, 0x00, 0x63, 0x90, 0xa4, 0x75, 0x74, 0xc3, 0xf3, 0x73, 0x46, 0x51, 0x75, 0x47, 0xc8])) ∧
    (infoHash.length ≠ 20 → withHandShakeMsg LocalPeerId infoHash = .panic (.str b!"wrong peerId or infohash")) := by
  refine ⟨fun h => ?_, fun h => C38_build_panics _ _ (.inr h)⟩
  rw [C38_wire_format LocalPeerId _ (C81_length _) h, C81_ids.2]

/-- C81: whatever the torrent (1 byte to 2^40), a peer that serves it under its SHA-1 hash is downloaded from: the hypothesis of C43 on the hash
holds for the hash function the program uses. -/
theorem C81_honest_peer {E : PEnv} (hE : Calm E) (fold : FoldTable) (fuel : Nat) (mem : Nat → Bytes) (pool : BPool) (q32 : List Slice)
    (hpool : Ready (NewPeerConn mem pool) q32) (md : Bytes) (h1 : 1 ≤ md.length) (h2 : md.length < 2 ^ 40)
    (hspare : (md.length + 16383) / 16384 ≤ max 1 q32.length) (hfuel : (md.length + 16383) / 16384 + 2 ≤ fuel)
    {hs ext : Bytes} {bodies : List Bytes} (hhs : IsPeerHandshake hs)
    (orderA : Entries → Entries) (hoA : OrderOK orderA) (m e : Entries)
    (hm : GoVal.WF (.dict m)) (hme : Encodable (.dict m)) (he : GoVal.WF (.dict e)) (hee : Encodable (.dict e))
    (hsize : e.lookup b!"metadata_size" = some (.int md.length))
    (hext : withExtendedhandShake orderA (some m) (some e) = .ok (be32 ext.length ++ ext)) (hextl : ext.length ≤ 32768)
    (orderB : Nat → Entries → Entries) (hoB : ∀ j, OrderOK (orderB j)) (hbl : bodies.length = (cut md).length)
    (hbodies : ∀ j p body, (cut md)[j]? = some p → bodies[j]? = some body →
      withExtendedFetchMetaMsg (orderB j) 1 ExData j md.length p = .ok (be32 body.length ++ body))
    (hD : Delivers E (hs :: framed ext ++ bodies.flatMap framed)) :
    ∃ s, FetchMetaData E sha1Sum fold fuel LocalPeerId (GenerateInfoHash md) mem pool = .returned (some md) none s :=
  C43_honest_peer hE sha1Sum fold fuel LocalPeerId (GenerateInfoHash md) mem pool q32 hpool (C81_length _) (C81_length _) md h1 h2 rfl
    hspare hfuel hhs orderA hoA m e hm hme he hee hsize hext hextl orderB hoB hbl hbodies hD

/-- C81: the files of the running program (C46 for the hash function and the peer id it uses): unless two downloaded torrents form a SHA-1 collision, a file
is as it was, or it is named by 40 hex digits after the SHA-1 hash of a downloaded torrent and holds bytes of this torrent (or zeros) only. -/
theorem C81_files (env : Env) (conn : Nat → Bytes → PEnv) (fuel : Nat)
    (mem : Nat → Nat → Bytes) (pool : Nat → BPool) (ctx : Nat → Job) (fs0 : Bytes → Option Bytes) (s : FsSt)
    (hcol : ∀ i j hi hj d d', fetchJobs env conn sha1Sum fuel LocalPeerId mem pool ctx i = some (hi, d) →
      fetchJobs env conn sha1Sum fuel LocalPeerId mem pool ctx j = some (hj, d') → sha1Sum d = sha1Sum d' → d = d')
    (h : Reach (FsInit fs0) (FsStep (fetchJobs env conn sha1Sum fuel LocalPeerId mem pool ctx)) s) (p : Bytes) :
    s.fs p = fs0 p ∨
    ∃ name data c, IsHexOf name (sha1Sum data) ∧ name.length = 40 ∧ p = b!"torrent/" ++ name ++ b!".torrent" ∧
      s.fs p = some c ∧ c.length ≤ data.length ∧ ∀ i : Nat, c[i]? = none ∨ c[i]? = some 0 ∨ c[i]? = data[i]? := by
  have hflush : ∀ i hash d, fetchJobs env conn sha1Sum fuel LocalPeerId mem pool ctx i = some (hash, d) → IsHexOf hash (sha1Sum d) := by
    intro i hash d hi
    unfold fetchJobs at hi
    split at hi
    · rename_i hash' d' hf
      cases hi
      obtain ⟨ih, -, -, h3, h4⟩ := C46_flush _ _ _ _ _ _ _ _ _ _ hf
      rw [h4]; exact h3
    · cases hi
  have hsame : SameData (fetchJobs env conn sha1Sum fuel LocalPeerId mem pool ctx) := by
    intro i j hash d d' hi hj
    exact hcol i j _ _ d d' hi hj ((hflush i hash d hi).unique (hflush j hash d' hj))
  rcases C46_files env conn sha1Sum fuel LocalPeerId mem pool ctx fs0 s hsame h p with h1 | ⟨j, ih, name, data, c, -, h2, h3, h4, h5, h6, h7, h8⟩
  · exact .inl h1
  · refine .inr ⟨name, data, c, by rw [h5]; exact h3, ?_, h4, h6, h7, h8⟩
    have := h3.1; omega

/-- C81: what one packet makes the running program send (C78 for its node id). -/
theorem C81_reaction (K : KEnv) (hK : K.nodeId = localNodeId) {O : Oracle} (hO : O.Fair) (pkt : RecvPacket) (hs : GoString pkt.bytes)
    {S : Nat} (hS : S < 2 ^ 62) (hst : ∀ tr, (O.stack tr).length ≤ S) :
    ∃ run, dhtPacket K O pkt = some run ∧ 26 * (sends run.trace).length ≤ max 26 pkt.bytes.length ∧
      bytesSent run.trace ≤ 4 * pkt.bytes.length + S + 100 :=
  C78_any K hO (by rw [hK]; exact C81_length _) pkt hs hS hst

/-! ## Concrete cases -/

/-- test vectors of FIPS 180 -/
example : hexEncode (sha1Sum []) = b!"da39a3ee5e6b4b0d3255bfef95601890afd80709" ∧
    hexEncode (sha1Sum b!"abc") = b!"a9993e364706816aba3e25717850c26c9cd0d89d" ∧
    hexEncode (sha1Sum b!"abcdbcdecdefdefgefghfghighijhijkijkljklmklmnlmnomnopnopq") = b!"84983e441c3bd26ebaae4aa1f95129e5e54670f1" := by
  decide +kernel

/-- a download with the program's hash and peer id: the peer serves the metadata whose SHA-1 is asked for -/
example : (match FetchMetaData (calmEnv exChunks) sha1Sum (fun _ _ => false) 10 LocalPeerId (GenerateInfoHash exMeta) (fun _ => []) exPool with
    | .returned (some d) none _ => decide (d = exMeta)
    | _ => false) = true := by decide +kernel

/-- … and under another info hash it is refused -/
example : (match FetchMetaData (calmEnv exChunks) sha1Sum (fun _ _ => false) 10 LocalPeerId b!"hhhhhhhhhhhhhhhhhhhh" (fun _ => []) exPool with
    | .returned none (some e) _ => decide (e = b!"check sum err")
    | _ => false) = true := by decide +kernel

end P2P

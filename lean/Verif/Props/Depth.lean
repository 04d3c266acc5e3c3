import Verif.Model.Depth
import Verif.Lemmas.Bencode
import Verif.Props.Bencode
import Verif.Props.Cost
import Verif.Props.Udp
import Verif.Props.Torrent
import Verif.Model.PeerMsg
/-! # C104: how deep the codec recurses -/
namespace P2P
open Deep

namespace Deep
variable {α β : Type}
@[simp] theorem res_here (r : Res α) : (here r).res = r := rfl
@[simp] theorem depth_here (r : Res α) : (here r).depth = 0 := rfl
@[simp] theorem res_call (m : Deep α) : (call m).res = m.res := rfl
@[simp] theorem depth_call (m : Deep α) : (call m).depth = m.depth + 1 := rfl
@[simp] theorem res_pure' (a : α) : (Pure.pure a : Deep α).res = .ok a := rfl
@[simp] theorem depth_pure (a : α) : (Pure.pure a : Deep α).depth = 0 := rfl
theorem res_bind' (m : Deep α) (f : α → Deep β) : (m >>= f).res = m.res >>= fun a => (f a).res := by
  show (Deep.bind m f).res = _
  unfold Deep.bind
  cases h : m.res <;> simp
theorem depth_bind_ok {m : Deep α} {a : α} (h : m.res = .ok a) (f : α → Deep β) :
    (m >>= f).depth = max m.depth (f a).depth := by
  show (Deep.bind m f).depth = _
  unfold Deep.bind
  rw [h]
theorem depth_left (m : Deep α) (f : α → Deep β) : m.depth ≤ (m >>= f).depth := by
  show _ ≤ (Deep.bind m f).depth
  unfold Deep.bind
  cases m.res <;> simp
  exact Nat.le_max_left _ _
theorem depth_right {m : Deep α} {a : α} (h : m.res = .ok a) (f : α → Deep β) : (f a).depth ≤ (m >>= f).depth := by
  rw [depth_bind_ok h]
  exact Nat.le_max_right _ _
theorem depth_bind_le {m : Deep α} {f : α → Deep β} {n : Nat} (hm : m.depth ≤ n) (hf : ∀ a, m.res = .ok a → (f a).depth ≤ n) :
    (m >>= f).depth ≤ n := by
  show (Deep.bind m f).depth ≤ n
  unfold Deep.bind
  cases h : m.res with
  | ok a => exact Nat.max_le.2 ⟨hm, hf a h⟩
  | err e => exact hm
  | panic p => exact hm
  | diverge => exact hm
end Deep

/-! ## Without the counter -/

theorem decodeD_res (f : Nat) : ∀ src i, (decodeItemD f src i).res = decodeItem f src i ∧
    (∀ acc, (sliceLoopD f src i acc).res = sliceLoop f src i acc) ∧ (∀ acc, (dictLoopD f src i acc).res = dictLoop f src i acc) := by
  induction f with
  | zero => intro src i; exact ⟨rfl, fun _ => rfl, fun _ => rfl⟩
  | succ f ih =>
    intro src i
    refine ⟨?_, ?_, ?_⟩
    · simp only [decodeItemD, decodeItem, res_call]
      cases src[i]? with
      | none => rfl
      | some c =>
        simp only
        split
        · simp only [res_call, res_bind', res_here]; rfl
        · split
          · simp only [res_call, res_bind', (ih src (i + 1)).2.1]; rfl
          · split
            · simp only [res_call, res_bind', (ih src (i + 1)).2.2]; rfl
            · split
              · simp only [res_call, res_bind', res_here]; rfl
              · rfl
    · intro acc
      simp only [sliceLoopD, sliceLoop]
      cases src[i]? with
      | none => rfl
      | some c =>
        simp only
        split
        · rfl
        · simp only [res_bind', (ih src i).1]
          congr 1
          funext x
          exact (ih src x.2).2.1 _
    · intro acc
      simp only [dictLoopD, dictLoop]
      cases src[i]? with
      | none => rfl
      | some c =>
        simp only
        split
        · rfl
        · simp only [res_bind', (ih src i).1]
          congr 1
          funext x
          cases x.1 <;> try rfl
          simp only [res_bind', (ih src x.2).1]
          congr 1
          funext y
          exact (ih src y.2).2.2 _

theorem innerDecodeDictD_res (src : Bytes) (i : Nat) : (innerDecodeDictD src i).res = innerDecodeDict src i := by
  simp only [innerDecodeDictD, innerDecodeDict, res_call]
  cases src[i]? with
  | none => rfl
  | some c =>
    simp only
    split
    · rfl
    · simp only [res_bind', (decodeD_res _ src (i + 1)).2.2]; rfl

theorem innerDecodeSliceD_res (src : Bytes) (i : Nat) : (innerDecodeSliceD src i).res = innerDecodeSlice src i := by
  simp only [innerDecodeSliceD, innerDecodeSlice, res_call]
  cases src[i]? with
  | none => rfl
  | some c =>
    simp only
    split
    · rfl
    · simp only [res_bind', (decodeD_res _ src (i + 1)).2.1]; rfl

mutual
theorem encodeItemD_res : ∀ v, (encodeItemD v).res = encodeItem v
  | .int _ => rfl
  | .str _ => rfl
  | .list l => by simp only [encodeItemD, encodeItem, res_call, res_bind', encodeElemsD_res l]; rfl
  | .dict d => by simp only [encodeItemD, encodeItem, res_call, res_bind', encodeEntriesD_res d]; rfl
  | .nilList => rfl
  | .nilDict => rfl
  | .nil => rfl
  | .namedInt _ => rfl
  | .namedStr _ => rfl
  | .otherSlice => rfl
  | .otherMap => rfl
  | .other => rfl
theorem encodeElemsD_res : ∀ l, (encodeElemsD l).res = encodeElems l
  | [] => rfl
  | v :: r => by
    simp only [encodeElemsD, encodeElems, res_bind', encodeItemD_res v, encodeElemsD_res r]
    rfl
theorem encodeEntriesD_res : ∀ d, (encodeEntriesD d).res = encodeEntries d
  | [] => rfl
  | (k, v) :: r => by
    simp only [encodeEntriesD, encodeEntries, res_bind', res_call, res_here, encodeItemD_res v, encodeEntriesD_res r]
    rfl
end

/-- C104: the functions with the counter are the functions of the other theorems. -/
theorem C104_same (src : Bytes) (d : Entries) :
    (DecodeDictNoLimitD src).res = DecodeDictNoLimit src ∧ (DecodeDictD src).res = DecodeDict src ∧
    (DecodeSliceD src).res = DecodeSlice src ∧ (EncodeDictD d).res = EncodeDict (some d) := by
  unfold DecodeDictNoLimitD DecodeDictD DecodeSliceD DecodeDictNoLimit DecodeDict DecodeSlice
  refine ⟨?_, ?_, ?_, ?_⟩
  · simp only [res_call]
    split
    · rfl
    · split
      · rfl
      · exact innerDecodeDictD_res src 0
  · simp only [res_call]
    split
    · rfl
    · split
      · rfl
      · simp only [res_bind', innerDecodeDictD_res]
        congr 1
        funext x
        split <;> rfl
  · simp only [res_call]
    split
    · rfl
    · split
      · rfl
      · simp only [res_bind', innerDecodeSliceD_res]
        congr 1
        funext x
        split <;> rfl
  · simp only [EncodeDictD, EncodeDict, encodeItem, res_call, res_bind', encodeEntriesD_res]; rfl

/-! ## The bound -/

/-- a decoded item ends behind its beginning -/
theorem decodeItem_goes_on {f : Nat} {src : Bytes} {i n : Nat} {v : GoVal} (h : decodeItem f src i = .ok (v, n)) : i < n := by
  by_cases hi : i < src.length
  · have := ((decodeC_cost src f i).1 hi).1 v n (by rw [(decodeC_res f src i).1]; exact h)
    omega
  · cases f with
    | zero => simp [decodeItem] at h
    | succ f =>
      rw [decodeItem, List.getElem?_eq_none (by omega)] at h
      cases h

theorem decodeD_depth (src : Bytes) : ∀ f i,
    (decodeItemD f src i).depth ≤ 2 * (src.length - i) + 1 ∧
    (∀ acc, (sliceLoopD f src i acc).depth ≤ 2 * (src.length - i) + 1) ∧
    (∀ acc, (dictLoopD f src i acc).depth ≤ 2 * (src.length - i) + 1) := by
  intro f
  induction f with
  | zero => intro i; simp [decodeItemD, sliceLoopD, dictLoopD]
  | succ f ih =>
    intro i
    refine ⟨?_, ?_, ?_⟩
    · simp only [decodeItemD, depth_call]
      cases hc : src[i]? with
      | none => simp
      | some c =>
        have hi : i < src.length := (List.getElem?_eq_some_iff.1 hc).1
        have hs := (ih (i + 1)).2.1 []
        have hd := (ih (i + 1)).2.2 []
        apply Nat.succ_le_succ
        simp only
        split
        · exact depth_bind_le (by simp only [depth_call, depth_here]; omega) (fun _ _ => Nat.zero_le _)
        · split
          · exact depth_bind_le (by simp only [depth_call]; omega) (fun _ _ => Nat.zero_le _)
          · split
            · exact depth_bind_le (by simp only [depth_call]; omega) (fun _ _ => Nat.zero_le _)
            · split
              · exact depth_bind_le (by simp only [depth_call, depth_here]; omega) (fun _ _ => Nat.zero_le _)
              · exact Nat.zero_le _
    · intro acc
      simp only [sliceLoopD]
      cases hc : src[i]? with
      | none => simp
      | some c =>
        simp only
        split
        · simp
        · refine depth_bind_le (ih i).1 ?_
          rintro ⟨v, n⟩ h
          rw [(decodeD_res f src i).1] at h
          have hn := decodeItem_goes_on h
          have := (ih n).2.1 (acc ++ [v])
          simp only
          omega
    · intro acc
      simp only [dictLoopD]
      cases hc : src[i]? with
      | none => simp
      | some c =>
        simp only
        split
        · simp
        · refine depth_bind_le (ih i).1 ?_
          rintro ⟨kv, n⟩ h
          rw [(decodeD_res f src i).1] at h
          have hn := decodeItem_goes_on h
          cases kv with
          | str key =>
            have hv := (ih n).1
            refine depth_bind_le (show (decodeItemD f src n).depth ≤ _ by omega) ?_
            rintro ⟨v, m⟩ h'
            rw [(decodeD_res f src n).1] at h'
            have hm := decodeItem_goes_on h'
            have := (ih m).2.2 (dictPut acc key v)
            simp only
            omega
          | _ => simp

/-- C104: **the depth of the recursion is bounded by the length of the input**: decoding `n` bytes never has more than `2n + 1` calls active at once,
whatever the bytes are and whether or not decoding succeeds. -/
theorem C104_decode_depth (src : Bytes) :
    (DecodeDictNoLimitD src).depth ≤ 2 * src.length + 1 ∧ (DecodeDictD src).depth ≤ 2 * src.length + 1 ∧
    (DecodeSliceD src).depth ≤ 2 * src.length + 1 := by
  have hd := (decodeD_depth src (decodeBudget src) 1).2.2 []
  have hs := (decodeD_depth src (decodeBudget src) 1).2.1 []
  have inner : 1 ≤ src.length → (innerDecodeDictD src 0).depth ≤ 2 * src.length := by
    intro hl
    unfold innerDecodeDictD
    simp only [depth_call]
    cases src[0]? with
    | none => simp only [depth_here]; omega
    | some c =>
      simp only
      split
      · simp only [depth_here]; omega
      · have := depth_bind_le (f := fun x => (pure (x.1, x.2 + 1) : Deep (Entries × Nat))) hd (fun _ _ => Nat.zero_le _)
        show (dictLoopD (decodeBudget src) src 1 [] >>= fun x => (pure (x.1, x.2 + 1) : Deep (Entries × Nat))).depth + 1 ≤ _
        omega
  have innerS : 1 ≤ src.length → (innerDecodeSliceD src 0).depth ≤ 2 * src.length := by
    intro hl
    unfold innerDecodeSliceD
    simp only [depth_call]
    cases src[0]? with
    | none => simp only [depth_here]; omega
    | some c =>
      simp only
      split
      · simp only [depth_here]; omega
      · have := depth_bind_le (f := fun x => (pure (x.1, x.2 + 1) : Deep (List GoVal × Nat))) hs (fun _ _ => Nat.zero_le _)
        show (sliceLoopD (decodeBudget src) src 1 [] >>= fun x => (pure (x.1, x.2 + 1) : Deep (List GoVal × Nat))).depth + 1 ≤ _
        omega
  refine ⟨?_, ?_, ?_⟩
  · unfold DecodeDictNoLimitD
    rw [depth_call]
    apply Nat.succ_le_succ
    split
    · simp
    · split
      · simp
      · exact inner (by omega)
  · unfold DecodeDictD
    rw [depth_call]
    apply Nat.succ_le_succ
    split
    · simp
    · split
      · simp
      · refine depth_bind_le (inner (by omega)) (fun x _ => ?_)
        obtain ⟨a, b⟩ := x
        simp only
        split <;> exact Nat.zero_le _
  · unfold DecodeSliceD
    rw [depth_call]
    apply Nat.succ_le_succ
    split
    · simp
    · split
      · simp
      · refine depth_bind_le (innerS (by omega)) (fun x _ => ?_)
        obtain ⟨a, b⟩ := x
        simp only
        split <;> exact Nat.zero_le _

/-- C104: **no datagram overflows the stack**: whatever is received, decoding it has at most 2049 calls active. -/
theorem C104_datagram {s : UdpSt} (hr : Reach UdpSt.init UdpStep s) {p : UdpPacket} (hp : p ∈ s.received) :
    (DecodeDictNoLimitD p.data).depth ≤ 2049 := by
  have h1 := (C104_decode_depth p.data).1
  have h2 : p.data.length ≤ 1024 := by
    obtain ⟨i, hi⟩ := List.mem_iff_getElem?.1 hp
    exact ((UdpInv.of_reach hr).numbered i p hi).2
  omega

/-- C104: **no message of a peer overflows the stack**: a message is at most 32768 bytes long (`C45`), its first two bytes are not decoded. -/
theorem C104_peer_message {body : Bytes} (h : body.length ≤ maxReadLength) :
    (DecodeDictD (body.drop 2)).depth ≤ 65537 ∧ (DecodeDictNoLimitD (body.drop 2)).depth ≤ 65537 := by
  have h1 := C104_decode_depth (body.drop 2)
  have h2 : (body.drop 2).length ≤ 32768 := by
    simp only [List.length_drop]
    have : maxReadLength = 32768 := rfl
    omega
  omega

/-! ## The bound is reached up to a constant, and files are not bounded -/

/-- items inside `n` opening brackets: the decoder is `2n` calls deep -/
theorem brackets_depth (src : Bytes) : ∀ n f i, 2 * n ≤ f → (∀ j, i ≤ j → j < i + n → src[j]? = some 108) →
    2 * n ≤ (decodeItemD f src i).depth := by
  intro n
  induction n with
  | zero => intros; omega
  | succ n ih =>
    intro f i hf h
    obtain ⟨f, rfl⟩ : ∃ g, f = g + 2 := ⟨f - 2, by omega⟩
    have hi := h i (by omega) (by omega)
    simp only [decodeItemD, depth_call, hi]
    have : 2 * n + 1 ≤ (call (sliceLoopD (f + 1) src (i + 1) [])).depth := by
      rw [depth_call]
      cases n with
      | zero => omega
      | succ n =>
        have h1 := h (i + 1) (by omega) (by omega)
        have h2 := ih f (i + 1) (by omega) (fun j hj hj' => h j (by omega) (by omega))
        simp only [sliceLoopD, h1]
        have := depth_left (decodeItemD f src (i + 1)) (fun x => sliceLoopD f src x.2 ([] ++ [x.1]))
        show _ ≤ (decodeItemD f src (i + 1) >>= fun x => sliceLoopD f src x.2 ([] ++ [x.1])).depth + 1
        omega
    have h3 := depth_left (call (sliceLoopD (f + 1) src (i + 1) [])) (fun x => (pure (.list x.1, x.2 + 1) : Deep (GoVal × Nat)))
    have h4 : 2 * (n + 1) ≤ (call (sliceLoopD (f + 1) src (i + 1) []) >>= fun x => (pure (.list x.1, x.2 + 1) : Deep (GoVal × Nat))).depth + 1 := by omega
    exact h4

/-- the metadata dictionary with one entry `a`: `n` lists inside each other -/
def nestedLists : Nat → GoVal
  | 0 => .int 0
  | n + 1 => .list [nestedLists n]
def nestedBytes : Nat → Bytes
  | 0 => b!"i0e"
  | n + 1 => b!"l" ++ nestedBytes n ++ b!"e"

theorem nestedBytes_eq (n : Nat) : nestedBytes n = List.replicate n 108 ++ b!"i0e" ++ List.replicate n 101 := by
  induction n with
  | zero => rfl
  | succ n ih => rw [nestedBytes, ih, List.replicate_succ, List.replicate_succ' (n := n) (a := (101 : UInt8))]; simp

theorem nested_bencodes : ∀ n, Bencodes (nestedLists n) (nestedBytes n)
  | 0 => Ben.int (body := [48]) (IntBody.pos [48] ⟨by simp, by simp; decide⟩ (fun _ => rfl) (by decide))
  | n + 1 => by
    have := Ben.list (Ben.cons (nested_bencodes n) Ben.nil)
    simpa [nestedLists, nestedBytes, Bencodes] using this

/-- a file with `n` lists inside each other -/
def deepFile (n : Nat) : Bytes := b!"d1:a" ++ nestedBytes n ++ b!"e"

theorem deepFile_bencodes (n : Nat) : Bencodes (.dict [(b!"a", nestedLists n)]) (deepFile n) := by
  have hk : Ben (.item (.str b!"a")) b!"1:a" := Ben.str (ds := [49]) (s := b!"a") ⟨by simp, by simp; decide⟩ (by decide)
  have := Ben.dict (Ben.econs hk (nested_bencodes n) Ben.enil)
  simpa [deepFile, Bencodes, mapOf, dictPut] using this

theorem deepFile_length (n : Nat) : (deepFile n).length = 2 * n + 8 := by
  simp [deepFile, nestedBytes_eq]; omega

theorem deepFile_at (n j : Nat) (h : 4 ≤ j) (h' : j < 4 + n) : (deepFile n)[j]? = some 108 := by
  rw [deepFile, nestedBytes_eq]
  rw [List.append_assoc, List.getElem?_append_right (by simpa using h)]
  rw [List.append_assoc, List.append_assoc, List.getElem?_append_left (by simp; omega)]
  rw [List.getElem?_replicate]
  simp; omega

/-- the first key of a dictionary that begins with `d1:a` -/
theorem key_a {src rest : Bytes} (h : src = b!"d1:a" ++ rest) (hr : rest ≠ []) : innerDecodeString src 1 = .ok (b!"a", 4) := by
  have hl : 1 ≤ rest.length := by cases rest with | nil => exact absurd rfl hr | cons => simp
  have hlen : src.length = rest.length + 4 := by rw [h]; simp
  have e1 : src[1]? = some 49 := by rw [h]; rfl
  have e2 : src[2]? = some 58 := by rw [h]; rfl
  have hc : indexColon src (src.length - 1) 1 = some 2 := by
    rw [hlen]
    show indexColon src (rest.length + 1 + 1 + 1) 1 = _
    simp only [indexColon, e1, e2]
    rfl
  unfold innerDecodeString
  rw [hc]
  have hs : slice src 1 2 = b!"1" := by rw [h]; rfl
  have ha : atoi b!"1" = some 1 := by decide
  simp only [hs, ha]
  have hw : wrap64 ((2 : Nat) + 1 + 1) = 4 := by decide
  rw [if_neg (by decide), hw, if_neg (by rw [hlen]; omega), if_neg (by decide)]
  rw [h]
  rfl

/-- a dictionary that begins with `d1:a` and `n` opening brackets -/
theorem opening_depth {src rest : Bytes} (n : Nat) (h : src = b!"d1:a" ++ rest) (hr : rest ≠ [])
    (hb : ∀ j, 4 ≤ j → j < 4 + n → src[j]? = some 108) (hn : n + 4 ≤ src.length) : 2 * n + 1 ≤ (innerDecodeDictD src 0).depth := by
  have e0 : src[0]? = some 100 := by rw [h]; rfl
  have e1 : src[1]? = some 49 := by rw [h]; rfl
  unfold innerDecodeDictD
  rw [depth_call]
  apply Nat.succ_le_succ
  simp only [e0]
  rw [if_neg (by decide)]
  refine Nat.le_trans ?_ (depth_left _ _)
  have hf : ∃ f, decodeBudget src = f + 1 + 1 ∧ 2 * n ≤ f := ⟨decodeBudget src - 2, by unfold decodeBudget; omega, by unfold decodeBudget; omega⟩
  obtain ⟨f, hf, hf'⟩ := hf
  rw [hf]
  simp only [dictLoopD, Nat.zero_add, e1]
  rw [if_neg (by decide)]
  have hk : (decodeItemD (f + 1) src 1).res = .ok (.str b!"a", 4) := by
    rw [(decodeD_res _ _ _).1, decodeItem]
    simp only [e1, key_a h hr]
    rfl
  refine Nat.le_trans ?_ (depth_right hk _)
  refine Nat.le_trans ?_ (depth_left _ _)
  exact brackets_depth src n _ 4 (by omega) hb

theorem opening_depths (n : Nat) (hn : 1 ≤ n) : 2 * n + 2 ≤ (DecodeDictNoLimitD (b!"d1:a" ++ List.replicate n 108)).depth := by
  have hl : (b!"d1:a" ++ List.replicate n (108 : UInt8)).length = n + 4 := by simp
  unfold DecodeDictNoLimitD
  rw [depth_call, if_neg (by omega), if_neg (by simp)]
  have := opening_depth (rest := List.replicate n 108) n rfl (by simp; omega) (fun j h h' => by
    rw [List.getElem?_append_right (by simpa using h), List.getElem?_replicate]
    simp; omega) (by omega)
  omega

/-- C104: the bound is nearly reached: the datagram `d1:alll...` of 1024 bytes makes 2042 calls active at once. -/
theorem C104_deep_datagram : ∃ b : Bytes, b.length = 1024 ∧ 2042 ≤ (DecodeDictNoLimitD b).depth :=
  ⟨b!"d1:a" ++ List.replicate 1020 108, by rw [List.length_append, List.length_replicate]; rfl, opening_depths 1020 (by omega)⟩

/-- C104: **the torrent command has no such bound**: for every `n` there is a file of `2n + 8` bytes, a proper bencoded dictionary, which the torrent
command decodes with more than `2n` calls active at once (a Go process whose stack grows beyond its limit dies, without a panic that could be
recovered); in unbounded memory its line would be printed like any other. -/
theorem C104_deep_file (n : Nat) : ∃ b d, b.length = 2 * n + 8 ∧ Bencodes (.dict d) b ∧ 2 * n + 2 ≤ (DecodeDictD b).depth ∧
    ∀ (fs : TorrentFs) (filename path : Bytes), GoString b → fs.readFile path = some b →
      printTorrentInfo fs filename path = .ok (torrentLine d filename) := by
  refine ⟨deepFile n, _, deepFile_length n, deepFile_bencodes n, ?_, fun fs filename path hs hf => C55_line fs filename path _ _ hf hs (deepFile_bencodes n)⟩
  have hlen := deepFile_length n
  have e0 : (deepFile n)[0]? = some 100 := rfl
  have el : (deepFile n)[(deepFile n).length - 1]? = some 101 := by
    rw [← List.getLast?_eq_getElem?, show deepFile n = (b!"d1:a" ++ nestedBytes n) ++ [101] from rfl, List.getLast?_concat]
  unfold DecodeDictD
  rw [depth_call, if_neg (by omega), if_neg (by rw [e0, el]; simp)]
  apply Nat.succ_le_succ
  refine Nat.le_trans ?_ (depth_left _ _)
  exact opening_depth n (rest := nestedBytes n ++ [101]) rfl (by simp) (fun j hj hj' => deepFile_at n j hj hj') (by omega)

/-- C104: so whatever the size of a stack frame (in bytes) and the limit of the stack, some file is too deep. -/
theorem C104_some_file_is_too_deep (frame limit : Nat) (hf : 1 ≤ frame) : ∃ b d, Bencodes (.dict d) b ∧ limit < frame * (DecodeDictD b).depth := by
  obtain ⟨b, d, -, hb, hd, -⟩ := C104_deep_file limit
  refine ⟨b, d, hb, ?_⟩
  have : 1 * (DecodeDictD b).depth ≤ frame * (DecodeDictD b).depth := Nat.mul_le_mul_right _ hf
  omega

/-- C104: with frames of at most 15000 bytes neither a datagram nor a message of a peer fills a stack of 10^9 bytes. -/
theorem C104_fits {frame : Nat} (hf : frame ≤ 15000) {src : Bytes} (h : src.length ≤ maxReadLength) :
    frame * (DecodeDictD src).depth < 10 ^ 9 ∧ frame * (DecodeDictNoLimitD src).depth < 10 ^ 9 := by
  have h1 := C104_decode_depth src
  have h2 : src.length ≤ 32768 := h
  have a : frame * (DecodeDictD src).depth ≤ 15000 * 65537 := Nat.mul_le_mul hf (by omega)
  have b : frame * (DecodeDictNoLimitD src).depth ≤ 15000 * 65537 := Nat.mul_le_mul hf (by omega)
  omega

/-! ## Encoding -/

theorem encodeString_pos2 (s : Bytes) : 2 ≤ (EncodeString s).length := by
  have : 1 ≤ (natDec s.length).length := by
    cases h : natDec s.length with
    | nil => exact absurd h (natDec_ne_nil _)
    | cons => simp
  simp only [EncodeString, List.length_append, List.length_cons, List.length_nil]
  omega

mutual
theorem encodeItemD_depth : ∀ (v : GoVal) (b : Bytes), encodeItem v = .ok b → (encodeItemD v).depth ≤ b.length
  | .int i, b, h => by
    cases h
    simp only [encodeItemD, depth_call, depth_here]
    exact encodeInteger_pos i
  | .str s, b, h => by
    cases h
    have := encodeString_pos2 s
    simp only [encodeItemD, depth_call, depth_here]
    exact this
  | .list l, b, h => by
    simp only [encodeItem] at h
    obtain ⟨r, hr, he⟩ := Res.bind_eq_ok.1 h
    cases he
    have := encodeElemsD_depth l r hr
    simp only [encodeItemD, depth_call]
    have h2 := depth_bind_le (f := fun r => (pure (b!"l" ++ r ++ b!"e") : Deep Bytes)) this (fun _ _ => Nat.zero_le _)
    simp only [List.length_append, List.length_cons, List.length_nil]
    omega
  | .dict d, b, h => by
    simp only [encodeItem] at h
    obtain ⟨r, hr, he⟩ := Res.bind_eq_ok.1 h
    cases he
    have := encodeEntriesD_depth d r hr
    simp only [encodeItemD, depth_call]
    have h2 := depth_bind_le (f := fun r => (pure (b!"d" ++ r ++ b!"e") : Deep Bytes)) this (fun _ _ => Nat.zero_le _)
    simp only [List.length_append, List.length_cons, List.length_nil]
    omega
  | .nilList, b, h => by cases h
  | .nilDict, b, h => by cases h
  | .nil, b, h => by cases h
  | .namedInt _, b, h => by cases h
  | .namedStr _, b, h => by cases h
  | .otherSlice, b, h => by cases h
  | .otherMap, b, h => by cases h
  | .other, b, h => by cases h
theorem encodeElemsD_depth : ∀ (l : List GoVal) (b : Bytes), encodeElems l = .ok b → (encodeElemsD l).depth ≤ b.length
  | [], b, h => Nat.zero_le _
  | v :: r, b, h => by
    simp only [encodeElems] at h
    obtain ⟨t, ht, h⟩ := Res.bind_eq_ok.1 h
    obtain ⟨s, hs, he⟩ := Res.bind_eq_ok.1 h
    cases he
    have h1 := encodeItemD_depth v t ht
    have h2 := encodeElemsD_depth r s hs
    simp only [encodeElemsD]
    rw [List.length_append]
    refine depth_bind_le (by omega) (fun _ _ => depth_bind_le (by omega) (fun _ _ => Nat.zero_le _))
theorem encodeEntriesD_depth : ∀ (d : List (Bytes × GoVal)) (b : Bytes), encodeEntries d = .ok b → (encodeEntriesD d).depth ≤ b.length
  | [], b, h => Nat.zero_le _
  | (k, v) :: r, b, h => by
    simp only [encodeEntries] at h
    obtain ⟨t, ht, h⟩ := Res.bind_eq_ok.1 h
    obtain ⟨s, hs, he⟩ := Res.bind_eq_ok.1 h
    cases he
    have h1 := encodeItemD_depth v t ht
    have h2 := encodeEntriesD_depth r s hs
    have h3 := encodeString_pos k
    simp only [encodeEntriesD]
    rw [List.length_append, List.length_append]
    exact depth_bind_le (by simp only [depth_call, depth_here]; omega) (fun _ _ =>
      depth_bind_le (by omega) (fun _ _ => depth_bind_le (by omega) (fun _ _ => Nat.zero_le _)))
end

/-- C104: encoding to `n` bytes has at most `n` calls active at once. -/
theorem C104_encode_depth {d : Entries} {b : Bytes} (h : EncodeDict (some d) = .ok b) : (EncodeDictD d).depth ≤ b.length := by
  simp only [EncodeDict, encodeItem] at h
  obtain ⟨r, hr, he⟩ := Res.bind_eq_ok.1 h
  cases he
  have := encodeEntriesD_depth d r hr
  have h2 := depth_bind_le (f := fun r => (pure (b!"d" ++ r ++ b!"e") : Deep Bytes)) this (fun _ _ => Nat.zero_le _)
  simp only [EncodeDictD, depth_call, List.length_append, List.length_cons, List.length_nil]
  omega

theorem nested_encode_depth : ∀ n, 2 * n + 2 ≤ (encodeItemD (nestedLists n)).depth
  | 0 => Nat.le_refl _
  | n + 1 => by
    have ih := nested_encode_depth n
    simp only [nestedLists, encodeItemD, depth_call, encodeElemsD]
    refine Nat.succ_le_succ (Nat.succ_le_succ (Nat.le_trans ?_ (depth_left _ _)))
    exact Nat.le_trans ih (depth_left _ _)

theorem nested_encodes : ∀ n, encodeItem (nestedLists n) = .ok (nestedBytes n)
  | 0 => rfl
  | n + 1 => by
    simp only [nestedLists, encodeItem, encodeElems, nested_encodes n, nestedBytes]
    simp [Bind.bind, Res.bind, Pure.pure]

/-- C104: and that is nearly reached: a dictionary of `2n + 8` bytes is made with `2n + 3` calls active at once. -/
theorem C104_encode_deep (n : Nat) : ∃ d b, EncodeDict (some d) = .ok b ∧ b.length = 2 * n + 8 ∧ 2 * n + 3 ≤ (EncodeDictD d).depth := by
  refine ⟨[(b!"a", nestedLists n)], deepFile n, ?_, deepFile_length n, ?_⟩
  · simp only [EncodeDict, encodeItem, encodeEntries, nested_encodes n]
    simp [Bind.bind, Res.bind, Pure.pure, deepFile, EncodeString]
    rfl
  · simp only [EncodeDictD, depth_call, encodeEntriesD]
    refine Nat.succ_le_succ (Nat.le_trans ?_ (depth_left _ _))
    refine Nat.le_trans ?_ (depth_right (a := EncodeString b!"a") rfl _)
    exact Nat.le_trans (nested_encode_depth n) (depth_left _ _)

end P2P

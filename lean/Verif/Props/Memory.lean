import Verif.Model.Memory
/-! # C106: what is kept of a packet does not change when its buffer is used again -/
namespace P2P

/-- the outcome with another result -/
def rmap {α β : Type} (g : α → β) : Res α → Res β
  | .ok a => .ok (g a)
  | .err e => .err e
  | .panic p => .panic p
  | .diverge => .diverge

theorem readElems_append (src : Bytes) (l r : List ViewVal) : readElems src (l ++ r) = readElems src l ++ readElems src r := by
  induction l with
  | nil => rfl
  | cons v t ih => simp only [List.cons_append, readElems, ih]

theorem readEntries_put (src : Bytes) (d : List (StrAt × ViewVal)) (k : StrAt) (v : ViewVal) :
    readEntries src (viewPut src d k v) = dictPut (readEntries src d) (k.read src) (v.read src) := by
  induction d with
  | nil => rfl
  | cons x t ih =>
    obtain ⟨k', v'⟩ := x
    simp only [viewPut, readEntries, dictPut]
    split <;> simp only [readEntries, ih]

theorem innerDecodeStringV_read (src : Bytes) (i : Nat) :
    innerDecodeString src i = rmap (fun x => (x.1.read src, x.2)) (innerDecodeStringV src i) := by
  unfold innerDecodeString innerDecodeStringV
  cases indexColon src (src.length - i) i with
  | none => rfl
  | some idx =>
    simp only
    by_cases h1 : idx ≤ i
    · simp only [h1, if_true]; rfl
    · simp only [h1, if_false]
      cases atoi (slice src i idx) with
      | none => rfl
      | some slen =>
        simp only
        by_cases h2 : wrap64 (↑idx + slen + 1) ≥ (src.length : Int)
        · simp only [h2, if_true]; rfl
        · simp only [h2, if_false]
          by_cases h3 : wrap64 (↑idx + slen + 1) < (idx : Int) + 1
          · simp only [h3, if_true]; rfl
          · simp only [h3, if_false, rmap, StrAt.read]
            rw [show idx + 1 + ((wrap64 (↑idx + slen + 1)).toNat - (idx + 1)) = (wrap64 (↑idx + slen + 1)).toNat by omega]

theorem decodeV_read (f : Nat) (src : Bytes) :
    (∀ i, decodeItem f src i = rmap (fun x => (x.1.read src, x.2)) (decodeItemV f src i)) ∧
    (∀ i acc, sliceLoop f src i (readElems src acc) = rmap (fun x => (readElems src x.1, x.2)) (sliceLoopV f src i acc)) ∧
    (∀ i acc, dictLoop f src i (readEntries src acc) = rmap (fun x => (readEntries src x.1, x.2)) (dictLoopV f src i acc)) := by
  induction f with
  | zero => exact ⟨fun _ => rfl, fun _ _ => rfl, fun _ _ => rfl⟩
  | succ f ih =>
    obtain ⟨h1, h2, h3⟩ := ih
    refine ⟨?_, ?_, ?_⟩
    · intro i
      simp only [decodeItem, decodeItemV]
      cases src[i]? with
      | none => rfl
      | some c =>
        simp only
        split
        · cases innerDecodeInteger src i <;> rfl
        · split
          · rw [show ([] : List GoVal) = readElems src [] from rfl, h2]
            cases sliceLoopV f src (i + 1) [] <;> rfl
          · split
            · rw [show ([] : Entries) = readEntries src [] from rfl, h3]
              cases dictLoopV f src (i + 1) [] <;> rfl
            · split
              · rw [innerDecodeStringV_read]
                cases innerDecodeStringV src i <;> rfl
              · rfl
    · intro i acc
      simp only [sliceLoop, sliceLoopV]
      cases src[i]? with
      | none => rfl
      | some c =>
        simp only
        split
        · rfl
        · rw [h1]
          cases decodeItemV f src i with
          | ok x =>
            have := h2 x.2 (acc ++ [x.1])
            rw [readElems_append] at this
            exact this
          | err _ => rfl
          | panic _ => rfl
          | diverge => rfl
    · intro i acc
      simp only [dictLoop, dictLoopV]
      cases src[i]? with
      | none => rfl
      | some c =>
        simp only
        split
        · rfl
        · rw [h1]
          cases decodeItemV f src i with
          | ok x =>
            obtain ⟨v, n⟩ := x
            cases v with
            | str k =>
              show (decodeItem f src n >>= _) = rmap _ (decodeItemV f src n >>= _)
              rw [h1]
              cases decodeItemV f src n with
              | ok y =>
                have := h3 y.2 (viewPut src acc k y.1)
                rw [readEntries_put] at this
                exact this
              | err _ => rfl
              | panic _ => rfl
              | diverge => rfl
            | int _ => rfl
            | list _ => rfl
            | dict _ => rfl
          | err _ => rfl
          | panic _ => rfl
          | diverge => rfl

theorem innerDecodeDictV_read (src : Bytes) (i : Nat) :
    innerDecodeDict src i = rmap (fun x => (readEntries src x.1, x.2)) (innerDecodeDictV src i) := by
  unfold innerDecodeDict innerDecodeDictV
  cases src[i]? with
  | none => rfl
  | some c =>
    simp only
    by_cases h : c ≠ 100
    · rw [if_pos h, if_pos h]; rfl
    · rw [if_neg h, if_neg h]
      rw [show ([] : Entries) = readEntries src [] from rfl, (decodeV_read _ src).2.2]
      cases dictLoopV (decodeBudget src) src (i + 1) [] <;> rfl

/-- C106: **the decoders with places are the decoders**: reading the places in the source gives what the decoders of the other theorems return. -/
theorem C106_same (src : Bytes) :
    DecodeDictNoLimit src = rmap (fun x => (readEntries src x.1, x.2)) (DecodeDictNoLimitV src) ∧
    DecodeDict src = rmap (fun x => x.map (readEntries src)) (DecodeDictV src) := by
  constructor
  · unfold DecodeDictNoLimit DecodeDictNoLimitV
    split
    · rfl
    · split
      · rfl
      · exact innerDecodeDictV_read src 0
  · unfold DecodeDict DecodeDictV
    split
    · rfl
    · split
      · rfl
      · rw [innerDecodeDictV_read]
        cases innerDecodeDictV src 0 with
        | ok x =>
          show (if x.2 < src.length then _ else _) = rmap _ (if x.2 < src.length then _ else _)
          split <;> rfl
        | err _ => rfl
        | panic _ => rfl
        | diverge => rfl

/-! ## Conversions -/

/-- C106: **the conversions of misc/strings.go** show the same bytes, at the same place, and undo each other on strings. -/
theorem C106_views (mem : Nat → Bytes) (s : Str) (b : Slice) :
    readSlice mem (Str2Bytes s) = s.read mem ∧ (Bytes2Str b).read mem = readSlice mem b ∧ Bytes2Str (Str2Bytes s) = s ∧
    (Str2Bytes s).cap = s.len := ⟨rfl, rfl, rfl, rfl⟩

/-- C106: **extending a converted string never writes into the string**: `append` to `Str2Bytes(s)` leaves all existing memory alone, and the result
holds the bytes of the string and the new ones. -/
theorem C106_append (h : Heap) (s : Str) (xs : Bytes) (spare : Nat) (hx : xs ≠ []) (hs : (s.read h.mem).length = s.len) :
    (∀ a, a < h.fresh → (goAppend h (Str2Bytes s) xs spare).1.mem a = h.mem a) ∧
    readSlice (goAppend h (Str2Bytes s) xs spare).1.mem (goAppend h (Str2Bytes s) xs spare).2 = s.read h.mem ++ xs := by
  have hl : 0 < xs.length := List.length_pos_iff.2 hx
  have hn : ¬ (Str2Bytes s).len + xs.length ≤ (Str2Bytes s).cap := by
    show ¬ s.len + xs.length ≤ s.len
    omega
  unfold goAppend
  rw [if_neg hn]
  refine ⟨fun a ha => upd_ne _ _ (Nat.ne_of_lt ha), ?_⟩
  simp only [readSlice, upd_same, List.drop_zero]
  change List.take (s.len + xs.length) (s.read h.mem ++ xs ++ _) = s.read h.mem ++ xs
  rw [← hs, ← List.length_append]
  exact List.take_left ..

/-! ## Kept values -/

abbrev KeepReach (conv : Conv) : KeepSt → Prop := Reach KeepInit (KeepStep conv)

structure KeepInv (s : KeepSt) : Prop where
  bufs : ∀ a, s.isBuf a = true → a < s.heap.fresh
  kept : ∀ k ∈ s.kept, k.src.arr < s.heap.fresh ∧ s.isBuf k.src.arr = false ∧ k.src.off = 0 ∧ k.src.len = k.packet.length ∧
    s.heap.mem k.src.arr = k.packet ∧ ((∃ n, DecodeDictNoLimitV k.packet = .ok (k.tree, n)) ∨ DecodeDictV k.packet = .ok (some k.tree))

theorem keep_inv {s : KeepSt} (h : KeepReach convCopy s) : KeepInv s := by
  refine Reach.inv KeepInv ?_ ?_ h
  · intro s ⟨h1, h2⟩
    exact ⟨h2, fun k hk => by rw [h1] at hk; cases hk⟩
  · intro s t hi st
    cases st with
    | newBuf data =>
      refine ⟨?_, ?_⟩
      · intro a ha
        change upd s.isBuf s.heap.fresh true a = true at ha
        show a < s.heap.fresh + 1
        by_cases e : a = s.heap.fresh
        · omega
        · rw [upd_ne _ _ e] at ha; have := hi.bufs a ha; omega
      · intro k hk
        obtain ⟨h1, h2, h3, h4, h5, h6⟩ := hi.kept k hk
        refine ⟨Nat.lt_succ_of_lt h1, ?_, h3, h4, ?_, h6⟩
        · show upd s.isBuf s.heap.fresh true k.src.arr = false
          rw [upd_ne _ _ (Nat.ne_of_lt h1), h2]
        · show upd s.heap.mem s.heap.fresh data k.src.arr = _
          rw [upd_ne _ _ (Nat.ne_of_lt h1), h5]
    | write b data hb =>
      refine ⟨hi.bufs, ?_⟩
      intro k hk
      obtain ⟨h1, h2, h3, h4, h5, h6⟩ := hi.kept k hk
      refine ⟨h1, h2, h3, h4, ?_, h6⟩
      show upd s.heap.mem b.arr _ k.src.arr = _
      rw [upd_ne _ _ (by intro e; rw [e, hb] at h2; cases h2), h5]
    | handle b d n hb hd =>
      refine ⟨fun a ha => Nat.lt_succ_of_lt (hi.bufs a ha), ?_⟩
      intro k hk
      change k ∈ s.kept ++ _ at hk
      rcases List.mem_append.1 hk with hk | hk
      · obtain ⟨h1, h2, h3, h4, h5, h6⟩ := hi.kept k hk
        refine ⟨Nat.lt_succ_of_lt h1, h2, h3, h4, ?_, h6⟩
        show upd s.heap.mem s.heap.fresh _ k.src.arr = _
        rw [upd_ne _ _ (Nat.ne_of_lt h1), h5]
      · rw [List.mem_singleton] at hk
        subst hk
        refine ⟨Nat.lt_succ_self _, ?_, rfl, rfl, upd_same .., .inl ⟨n, hd⟩⟩
        show s.isBuf s.heap.fresh = false
        cases e : s.isBuf s.heap.fresh
        · rfl
        · exact absurd (hi.bufs _ e) (Nat.lt_irrefl _)
    | load file d hd =>
      refine ⟨fun a ha => Nat.lt_succ_of_lt (hi.bufs a ha), ?_⟩
      intro k hk
      change k ∈ s.kept ++ _ at hk
      rcases List.mem_append.1 hk with hk | hk
      · obtain ⟨h1, h2, h3, h4, h5, h6⟩ := hi.kept k hk
        refine ⟨Nat.lt_succ_of_lt h1, h2, h3, h4, ?_, h6⟩
        show upd s.heap.mem s.heap.fresh _ k.src.arr = _
        rw [upd_ne _ _ (Nat.ne_of_lt h1), h5]
      · rw [List.mem_singleton] at hk
        subst hk
        refine ⟨Nat.lt_succ_self _, ?_, rfl, rfl, upd_same .., .inr hd⟩
        show s.isBuf s.heap.fresh = false
        cases e : s.isBuf s.heap.fresh
        · rfl
        · exact absurd (hi.bufs _ e) (Nat.lt_irrefl _)
    | extend k0 v xs spare hk0 hx =>
      have hl : 0 < xs.length := List.length_pos_iff.2 hx
      have key : ∀ (h : Heap) (w : Str), h.fresh < (goAppend h (Str2Bytes w) xs spare).1.fresh ∧
          ∀ a, a < h.fresh → (goAppend h (Str2Bytes w) xs spare).1.mem a = h.mem a := by
        intro h w
        unfold goAppend
        rw [if_neg (show ¬ (Str2Bytes w).len + xs.length ≤ (Str2Bytes w).cap by show ¬ w.len + xs.length ≤ w.len; omega)]
        exact ⟨Nat.lt_succ_self _, fun a ha => upd_ne _ _ (Nat.ne_of_lt ha)⟩
      obtain ⟨g1, g2⟩ := key s.heap { arr := k0.src.arr, off := k0.src.off + v.off, len := v.len }
      refine ⟨fun a ha => Nat.lt_trans (hi.bufs a ha) g1, ?_⟩
      intro k hk
      obtain ⟨h1, h2, h3, h4, h5, h6⟩ := hi.kept k hk
      exact ⟨Nat.lt_trans h1 g1, h2, h3, h4, (g2 _ h1).trans h5, h6⟩

theorem kept_read {s : KeepSt} (h : KeepReach convCopy s) {k : Kept} (hk : k ∈ s.kept) : k.src.read s.heap.mem = k.packet := by
  obtain ⟨-, -, h3, h4, h5, -⟩ := (keep_inv h).kept k hk
  simp only [Str.read, h3, h4, h5, List.drop_zero, List.take_length]

/-- C106: **what is kept of a packet is what was received**: at every later moment, however often the buffer the packet came in has been given back,
handed out and overwritten since, the dictionary kept of it reads, field by field, as the decoding of the bytes the packet had when it was handled;
the same holds of a torrent file in the torrent command. -/
theorem C106_kept {s : KeepSt} (h : KeepReach convCopy s) {k : Kept} (hk : k ∈ s.kept) :
    (∃ n, DecodeDictNoLimit k.packet = .ok (readEntries (k.src.read s.heap.mem) k.tree, n)) ∨
    DecodeDict k.packet = .ok (some (readEntries (k.src.read s.heap.mem) k.tree)) := by
  rw [kept_read h hk]
  obtain ⟨-, -, -, -, -, h6⟩ := (keep_inv h).kept k hk
  rcases h6 with ⟨n, e⟩ | e
  · left; refine ⟨n, ?_⟩
    rw [(C106_same k.packet).1, e]; rfl
  · right
    rw [(C106_same k.packet).2, e]; rfl

/-- C106: **it never changes**: what is kept stays kept and reads the same at all later moments; so does every substring of it. -/
theorem C106_for_ever {s t : KeepSt} (h : KeepReach convCopy s) (ht : Reach (fun x => x = s) (KeepStep convCopy) t) {k : Kept} (hk : k ∈ s.kept) :
    k ∈ t.kept ∧ readEntries (k.src.read t.heap.mem) k.tree = readEntries (k.src.read s.heap.mem) k.tree ∧
    ∀ off len, Str.read t.heap.mem { arr := k.src.arr, off, len } = Str.read s.heap.mem { arr := k.src.arr, off, len } := by
  have hr : KeepReach convCopy t ∧ k ∈ t.kept := by
    induction ht with
    | init e => subst e; exact ⟨h, hk⟩
    | step _ st ih =>
      refine ⟨.step ih.1 st, ?_⟩
      cases st with
      | handle b d n hb hd => exact List.mem_append_left _ ih.2
      | load file d hd => exact List.mem_append_left _ ih.2
      | newBuf _ => exact ih.2
      | write _ _ _ => exact ih.2
      | extend _ _ _ _ _ _ => exact ih.2
  refine ⟨hr.2, by rw [kept_read hr.1 hr.2, kept_read h hk], ?_⟩
  intro off len
  obtain ⟨-, -, -, -, e1, -⟩ := (keep_inv hr.1).kept k hr.2
  obtain ⟨-, -, -, -, e2, -⟩ := (keep_inv h).kept k hk
  simp only [Str.read, e1, e2]

/-- C106: **numbers need no copy**: a number in a decoded dictionary is the same whatever happens to the memory, so that a message of a peer, of which
only numbers are taken (`msg_type`, `piece`, `total_size`), may be decoded in place. -/
theorem C106_numbers (v : ViewVal) (src : Bytes) (n : Int) (h : v.read src = .int n) : v = .int n ∧ ∀ src', v.read src' = .int n := by
  cases v with
  | int m => simp only [ViewVal.read, GoVal.int.injEq] at h; subst h; exact ⟨rfl, fun _ => rfl⟩
  | str w => simp only [ViewVal.read] at h; cases h
  | list l => simp only [ViewVal.read] at h; cases h
  | dict d => simp only [ViewVal.read] at h; cases h

/-- a small announce: one info hash (shortened) -/
def exKeepPkt : Bytes := b!"d9:info_hash2:abe"

/-- a buffer with the packet -/
def exKeep0 : KeepSt where
  heap := { mem := fun _ => exKeepPkt, fresh := 1 }
  isBuf a := a == 0
  kept := []

theorem exKeep_init : KeepInit exKeep0 := ⟨rfl, fun a ha => by
  have : a = 0 := by simpa [exKeep0] using ha
  subst this; decide⟩

theorem exKeep_decodes : ∃ d, DecodeDictNoLimitV exKeepPkt = .ok (d, 17) ∧ readEntries exKeepPkt d = [(b!"info_hash", .str b!"ab")] ∧
    readEntries b!"d9:info_hash2:xye" d = [(b!"info_hash", .str b!"xy")] := by
  have key : (match DecodeDictNoLimitV exKeepPkt with
    | .ok (d, n) => decide (n = 17 ∧ readEntries exKeepPkt d = [(b!"info_hash", GoVal.str b!"ab")] ∧
        readEntries b!"d9:info_hash2:xye" d = [(b!"info_hash", GoVal.str b!"xy")])
    | _ => false) = true := by decide +kernel
  cases h : DecodeDictNoLimitV exKeepPkt with
  | ok x =>
    rw [h] at key
    have := of_decide_eq_true key
    exact ⟨x.1, by rw [← this.1], this.2⟩
  | err _ => rw [h] at key; cases key
  | panic _ => rw [h] at key; cases key
  | diverge => rw [h] at key; cases key

/-- C106 (example): the hypotheses are met: a packet is kept, its buffer is overwritten, the kept info hash is what was announced. -/
theorem C106_example : ∃ s k, KeepReach convCopy s ∧ k ∈ s.kept ∧ s.heap.mem 0 ≠ exKeepPkt ∧
    readEntries (k.src.read s.heap.mem) k.tree = [(b!"info_hash", .str b!"ab")] := by
  obtain ⟨d, hd, hd1, hd2⟩ := exKeep_decodes
  refine ⟨_, _, .step (.step (.init exKeep_init) (.handle (s := exKeep0) { arr := 0, off := 0, len := 17, cap := 17 } d 17 rfl hd))
    (.write { arr := 0, off := 0, len := 17, cap := 17 } (List.replicate 17 0) rfl), List.mem_append_right _ (List.mem_singleton.2 rfl), ?_, ?_⟩
  · show writeSlice (convCopy exKeep0.heap { arr := 0, off := 0, len := 17, cap := 17 }).1.mem { arr := 0, off := 0, len := 17, cap := 17 }
      (List.replicate 17 0) 0 ≠ exKeepPkt
    decide +kernel
  · exact hd1

/-- C106: **the copy is needed**: with the conversion without a copy, as the download uses it, the info hash of a kept announce would become something
else as soon as the buffer is used for another packet. -/
theorem C106_alias_fails : ∃ s k, KeepReach convAlias s ∧ k ∈ s.kept ∧ k.packet = exKeepPkt ∧
    (∃ n, DecodeDictNoLimit k.packet = .ok ([(b!"info_hash", .str b!"ab")], n)) ∧
    readEntries (k.src.read s.heap.mem) k.tree = [(b!"info_hash", .str b!"xy")] := by
  obtain ⟨d, hd, hd1, hd2⟩ := exKeep_decodes
  refine ⟨_, _, .step (.step (.init exKeep_init) (.handle (s := exKeep0) { arr := 0, off := 0, len := 17, cap := 17 } d 17 rfl hd))
    (.write { arr := 0, off := 0, len := 17, cap := 17 } b!"d9:info_hash2:xye" rfl), List.mem_append_right _ (List.mem_singleton.2 rfl), rfl, ⟨17, ?_⟩, ?_⟩
  · show DecodeDictNoLimit exKeepPkt = _
    rw [(C106_same _).1, hd]
    show Res.ok (readEntries exKeepPkt d, 17) = _
    rw [hd1]
  · exact hd2

end P2P

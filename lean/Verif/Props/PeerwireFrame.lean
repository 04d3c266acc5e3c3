import Verif.Props.PeerwireHonest2
/-! # C44 (pieces sharing a buffer) and C45 (framing), with concrete chunkings -/
namespace P2P

/-! ## C45 -/

/-- A length prefix between 1 and 32768 arriving in a read of its own: `readBytesByPrefixLenMsg` returns exactly what
the next read delivers, and performs exactly these two reads. -/
theorem C45_two_reads {E : PEnv} (hE : Calm E) {s : PSt} {q32 : List Slice} {pre d : Bytes} (H : Ready s q32)
    (hpre : pre.length = 4) (hval : 1 ≤ beVal pre ∧ beVal pre ≤ 32768) (hd : d.length ≤ 32768)
    (hr1 : ∀ tr, reads tr = reads s.trace → E.read tr 4 = (pre, false))
    (hr2 : ∀ tr, reads tr = reads s.trace + 1 → E.read tr 32768 = (d, false)) :
    ∃ b t, readBytesByPrefixLenMsg E s = .ok (false, some b, false) t ∧ readSlice t.mem b = d ∧ reads t.trace = reads s.trace + 2 := by
  obtain ⟨q4, H0, hq4⟩ := H.pool
  obtain ⟨b, t, q4', h1, h2, h3, h4, h5, h6, h7, h8, h9⟩ := readBytes_ok hE H0 ⟨H.room.1, hq4⟩ hpre hval hd hr1 hr2
  exact ⟨_, t, h1, h4, h9⟩

/-- So a message whose body arrives in one read is returned exactly. -/
theorem C45_framed {E : PEnv} (hE : Calm E) {s : PSt} {q32 : List Slice} {body : Bytes} (H : Ready s q32)
    (hb : 1 ≤ body.length ∧ body.length ≤ 32768)
    (hr1 : ∀ tr, reads tr = reads s.trace → E.read tr 4 = (be32 body.length, false))
    (hr2 : ∀ tr, reads tr = reads s.trace + 1 → E.read tr 32768 = (body, false)) :
    ∃ b t, readBytesByPrefixLenMsg E s = .ok (false, some b, false) t ∧ readSlice t.mem b = body ∧ reads t.trace = reads s.trace + 2 :=
  C45_two_reads hE H rfl (by rw [beVal_be32 (by omega)]; exact hb) hb.2 hr1 hr2

/-- A zero prefix is a keep-alive and a prefix above 32768 an error; nothing else is read. -/
theorem C45_prefix_only {E : PEnv} (hE : Calm E) {s : PSt} {q32 : List Slice} {pre : Bytes} (H : Ready s q32)
    (hpre : pre.length = 4) (hval : beVal pre = 0 ∨ beVal pre > 32768)
    (hr1 : ∀ tr, reads tr = reads s.trace → E.read tr 4 = (pre, false)) :
    ∃ t, readBytesByPrefixLenMsg E s = .ok (decide (beVal pre = 0), none, decide (beVal pre ≠ 0)) t ∧ reads t.trace = reads s.trace + 1 := by
  obtain ⟨q4, H0, hq4⟩ := H.pool
  obtain ⟨p, s1, g1, H1, hp1, hm1, -, f1, t1⟩ := get_ok hE H0
  have hrd1 : reads s1.trace = reads s.trace := by simp only [t1, reads_snoc, Nat.add_zero]
  obtain ⟨s2, g2, e2, hm2, hv2, hp2, f2, t2⟩ := read_ok hE hp1 (Nat.le_of_eq hpre) (hr1 _ hrd1)
  have hrd2 : reads s2.trace = reads s.trace + 1 := by simp only [t2, reads_snoc, hrd1]
  have H2 := H1.change e2 hm2
  have hload : readSlice s2.mem p = pre := by
    have h4 := hp1.2.2.2
    unfold readSlice
    rw [hv2, hp2.1, hp2.2.1]
    simp only [List.drop_zero]
    rw [List.take_append_of_le_length (by omega), List.take_of_length_le (by omega)]
  have e0 : pre.take 4 = pre := List.take_of_length_le (by omega)
  have hstart : readBytesByPrefixLenMsg E s = readAfterPrefix E p s2 := by
    unfold readBytesByPrefixLenMsg
    simp only [PM.bind_apply, PrefixLen, g1, g2, Bool.false_eq_true, if_false]
  rw [hstart]
  unfold readAfterPrefix
  simp only [PM.bind_apply, load_ok hE, hload, e0]
  rw [if_neg (by omega)]
  rcases hval with h0 | h0
  · refine ⟨{ s2 with trace := s2.trace ++ [.load] }, ?_, by simp only [reads_snoc, hrd2]⟩
    rw [if_pos (by omega)]
    simp [h0]
  · obtain ⟨s3, g3, H3, hm3, f3, t3⟩ := put_ok hE (s := { s2 with trace := s2.trace ++ [.load] }) (H2.change rfl fun _ _ => rfl) hp2 (by
      show q4.tail.length < s2.pool.maxSize
      have := H.room; rw [f2.2.2.2, f1.2.2.2, List.length_tail]; omega) (rb := p) (by
        obtain ⟨a1, a2, a3, a4⟩ := hp2
        cases p; simp at a2 a3; simp [a2, a3])
    refine ⟨s3, ?_, by simp only [t3, reads_snoc, hrd2]⟩
    rw [if_neg (by omega)]
    simp only [PM.bind_apply, g3]
    rw [if_pos (by unfold maxReadLength; omega)]
    have : beVal pre ≠ 0 := by omega
    simp [this]

/-- the results of `n` calls on the chunks delivered, as bytes -/
def readMsgs (chunks : List Bytes) (n : Nat) : List (Option Bytes) :=
  go n (NewPeerConn (fun _ => []) exPool)
where
  go : Nat → PSt → List (Option Bytes)
    | 0, _ => []
    | n + 1, s =>
      match readBytesByPrefixLenMsg (chunkEnv chunks) s with
      | .ok (_, b, _) t => b.map (readSlice t.mem) :: go n t
      | _ => []

/-- In general framing is lost: two messages delivered together are returned as one (the second is swallowed); a body
delivered in two reads is returned in part, and its rest is taken for a prefix; a prefix delivered in two reads is
completed with stale bytes. -/
theorem C45_framing_lost :
    readMsgs [be32 2, [7, 8] ++ be32 1 ++ [9]] 1 = [some ([7, 8] ++ be32 1 ++ [9])] ∧
    readMsgs [be32 6, [7, 8], [0, 0, 0, 1], [5, 5]] 2 = [some [7, 8], some [5, 5]] ∧
    readMsgs [[0, 0, 0], [2, 7, 8]] 1 = [none] ∧
    readMsgs [be32 1, [6], [0, 0], [0, 2, 9, 9]] 2 = [some [6], some [0, 2, 9, 9]] := by
  decide +kernel

/-! ## C44 -/

/-- **Pieces do not survive**: an honest peer sends two pieces `p0` (not shorter than `p1`), each message in two reads, and
nobody else uses the pool, which has at most one spare 32 KiB buffer. Both pieces end up in the same buffer: the data that
is checked is `p1`, the rest of `p0`, and `p1` again. -/
theorem C44_second_piece_overwrites {E : PEnv} (hE : Calm E) (sha1 : Bytes → Bytes) (fold : FoldTable) (fuel : Nat)
    (peerId infoHash : Bytes) (mem : Nat → Bytes) (pool : BPool) (q32 : List Slice) (hpool : Ready (NewPeerConn mem pool) q32)
    (hone : q32.length ≤ 1) (hp : peerId.length = 20) (hi : infoHash.length = 20)
    {hs ext : Bytes} {dict : Entries} {p0 p1 head0 head1 : Bytes}
    (hD : Delivers E (hs :: framed ext ++ [head0 ++ p0, head1 ++ p1].flatMap framed))
    (hhs : IsPeerHandshake hs)
    (hext : ext.length ≤ 32768 ∧ parseExtendedHandShake ext = .ok dict ∧
      dict.lookup b!"metadata_size" = some (.int (p0 ++ p1).length))
    (hl0 : p0.length = 16384) (hl1 : 1 ≤ p1.length ∧ p1.length ≤ 16384) (hhead : head0.length = head1.length)
    (hm0 : IsDataMsg 0 p0 (head0 ++ p0)) (hm1 : IsDataMsg 1 p1 (head1 ++ p1)) (hfuel : 4 ≤ fuel) :
    ∃ s, FetchMetaData E sha1 fold fuel peerId infoHash mem pool =
      if sha1 (p1 ++ p0.drop p1.length ++ p1) = infoHash then .returned (some (p1 ++ p0.drop p1.length ++ p1)) none s
      else .returned none (some b!"check sum err") s := by
  have hinit : (NewPeerConn mem pool).requested = [false] ∧ reads (NewPeerConn mem pool).trace = 0 := ⟨rfl, rfl⟩
  unfold FetchMetaData
  rw [hE.dial]
  simp only [Bool.false_eq_true, if_false]
  generalize NewPeerConn mem pool = s0 at *
  obtain ⟨tr1, g1, r1⟩ := handshake_ok hE (fold := fold) hhs hp hi s0 (fun tr htr => hD tr 68 _ (by rw [htr, hinit.2]; rfl))
  have r1 : reads tr1 = 1 := by rw [r1, hinit.2]
  obtain ⟨tr2, g2, r2⟩ := initial_ok hE { s0 with trace := tr1 }
  have r2 : reads tr2 = 1 := by rw [r2]; exact r1
  obtain ⟨e1, e2, e3⟩ := hext
  obtain ⟨rest, -, -, hext1, -⟩ := (C39_accepts ext dict).1 e2
  have hsize : (p0 ++ p1).length < 2 ^ 40 := by simp; omega
  have hn : ((p0 ++ p1).length + 16383) / 16384 = 2 := by simp; omega
  have hexp : ∀ (s : PSt) (q : List Slice), Ready s q → Ready { s with trace := s.trace ++ [.expired false] } q := fun s q h =>
    ⟨(by obtain ⟨q4, H, h⟩ := h.pool; exact ⟨q4, ⟨H.ne, H.c1, H.c2, H.b1, H.b2, H.nodup, H.old⟩, h⟩), h.room⟩
  -- extended handshake
  have hready : Ready { s0 with trace := tr2 ++ [.expired false] } q32 :=
    ⟨(by obtain ⟨q4, H, h⟩ := hpool.pool; exact ⟨q4, ⟨H.ne, H.c1, H.c2, H.b1, H.b2, H.nodup, H.old⟩, h⟩), hpool.room⟩
  have r3 : reads (tr2 ++ [.expired false]) = 1 := by simp only [reads_snoc, r2]
  obtain ⟨b, t, hq, hbuf, hrd, hmem, hf, hreads, hcont⟩ := handler_ok hE hready (pre := be32 ext.length) (body := ext) rfl
    (beVal_be32 (by omega)) (by rw [hext1]; rfl) e1
    (fun tr htr => hD tr 4 _ (by rw [htr, r3]; rfl)) (fun tr htr => hD tr 32768 _ (by rw [htr, r3]; rfl))
  obtain ⟨tr4, g4, r4⟩ := announce_ok hE (s := t) (rb := { b with len := ext.length }) (by rw [hext1]; rfl) e2 e3 hsize
  obtain ⟨v, hv1, hv2, hv3, hv4, hv5⟩ := hcont _ g4 rfl rfl
  rw [hn] at hv4
  have htail : q32.tail = [] := by cases q32 with | nil => rfl | cons x r => cases r with | nil => rfl | cons => simp at hone
  rw [htail, List.nil_append] at hv2
  have rv : reads v.trace = 3 := by rw [hv5]; show reads tr4 = _; rw [r4, hreads, r3]
  -- a data message
  have datamsg : ∀ (s : PSt) (i : Nat) (p head : Bytes), Ready s [b] → IsDataMsg i p (head ++ p) → p ≠ [] → i < 2 →
      s.metaData.length = 2 → s.requested.length = 2 → reads s.trace = 3 + 2 * i →
      [head0 ++ p0, head1 ++ p1][i]? = some (head ++ p) →
      ∃ t, readMetaDataHandler E s = .ok () t ∧ Ready t [b] ∧ t.metaDataSize = s.metaDataSize ∧
        t.metaData = s.metaData.set i (some { b with off := b.off + head.length, len := p.length, cap := b.cap - head.length }) ∧
        t.requested = s.requested.set i true ∧ reads t.trace = 5 + 2 * i ∧
        t.mem b.arr = (head ++ p) ++ (s.mem b.arr).drop (head ++ p).length := by
    intro s i p head hR hm hpne hi2 hml hrl hrs hget
    obtain ⟨hle, r, hr, hr1, hr2, hr3, hr4⟩ := hm
    obtain ⟨id, rest, -, -, hbody, hid, -⟩ := C40_payload_is_rest _ r hr
    have hid : id = 1 := by rw [hr1] at hid; exact UInt8.toNat_inj.1 (by have : ((1 : UInt8).toNat : Int) = 1 := rfl; omega)
    obtain ⟨f1, f2⟩ := framed_get _ i _ hget
    have hgetk : ∀ k c, ([head0 ++ p0, head1 ++ p1].flatMap framed)[k]? = some c →
        (hs :: framed ext ++ [head0 ++ p0, head1 ++ p1].flatMap framed)[3 + k]? = some c := by
      intro k c h
      rw [show 3 + k = k + 1 + 1 + 1 by omega]
      simpa [framed] using h
    obtain ⟨b', t', hq', hbuf', hrd', hmem', hf', hreads', hcont'⟩ := handler_ok hE hR (pre := be32 (head ++ p).length) (body := head ++ p) rfl
      (beVal_be32 (by omega)) (by rw [hbody]; rfl) hle
      (fun tr htr => hD tr 4 _ (by rw [htr, hrs]; exact hgetk _ _ f1))
      (fun tr htr => hD tr 32768 _ (by rw [htr, hrs]; exact hgetk _ _ f2))
    have hb' : b' = b := by have := (hq' (by simp)).1; simp at this; exact this.symm
    subst hb'
    obtain ⟨sl, n, hsl, hoff, hnle, hdat, hsl2, hh⟩ := data_ok hE (s := t') (rb := { b' with len := (head ++ p).length })
      (by rw [hbody, hid]; rfl) hr hr2 hr3 (by rw [hr4]; exact hpne) rfl (by rw [hf'.1, hf'.2.2.1, hml, hrl]; omega) hrd'
    have hnh : n = head.length := by
      have := congrArg List.length hdat
      rw [hr4] at this
      simp at this hnle
      omega
    subst hnh
    obtain ⟨v, hv1, hv2, hv3, hv4, hv5⟩ := hcont' _ hh rfl rfl
    refine ⟨v, hv1, by simpa using hv2, hv4.2.1.trans hf'.2.1, ?_, ?_, ?_, ?_⟩
    · rw [hv4.1]; show t'.metaData.set i (some sl) = _; rw [hf'.1, hsl]; simp
    · rw [hv4.2.2.1]; show t'.requested.set i true = _; rw [hf'.2.2.1]
    · rw [hv5]; simp only [reads_snoc]; rw [hreads', hrs]; omega
    · rw [hv3]; exact (hq' (by simp)).2
  have hp0 : p0 ≠ [] := by intro h; rw [h] at hl0; simp at hl0
  have hp1 : p1 ≠ [] := by intro h; rw [h] at hl1; simp at hl1
  obtain ⟨w, w1, w2, w3, w4, w5, w6, w7⟩ := datamsg { v with trace := v.trace ++ [.expired false] } 0 p0 head0 (hexp _ _ hv2) hm0 hp0 (by omega)
    (by show v.metaData.length = 2; rw [hv4.1]; simp) (by show v.requested.length = 2; rw [hv4.2.2.1]; simp)
    (by simp only [reads_snoc]; exact rv) rfl
  have w4 : w.metaData = [some { b with off := b.off + head0.length, len := p0.length, cap := b.cap - head0.length }, none] := by
    rw [w4]; show v.metaData.set 0 _ = _; rw [hv4.1]; rfl
  have w5 : w.requested = [true, false] := by rw [w5]; show v.requested.set 0 _ = _; rw [hv4.2.2.1]; rfl
  obtain ⟨u, u1, u2, u3, u4, u5, u6, u7⟩ := datamsg { w with trace := w.trace ++ [.expired false] } 1 p1 head1 (hexp _ _ w2) hm1 hp1 (by omega)
    (by show w.metaData.length = 2; rw [w4]; rfl) (by show w.requested.length = 2; rw [w5]; rfl)
    (by simp only [reads_snoc]; exact w6) rfl
  have u4 : u.metaData = [some { b with off := b.off + head0.length, len := p0.length, cap := b.cap - head0.length },
      some { b with off := b.off + head1.length, len := p1.length, cap := b.cap - head1.length }] := by
    rw [u4]; show w.metaData.set 1 _ = _; rw [w4]; rfl
  have u5 : u.requested = [true, true] := by rw [u5]; show w.requested.set 1 _ = _; rw [w5]; rfl
  have usz : u.metaDataSize = ((p0 ++ p1).length : Nat) := by
    rw [u3]; show w.metaDataSize = _; rw [w3]; show v.metaDataSize = _; exact hv4.2.1
  -- the loop
  obtain ⟨f, rfl⟩ : ∃ f, fuel = f + 1 + 1 + 1 + 1 := ⟨fuel - 4, by omega⟩
  have hloop : readMetaDataLoop E (f + 1 + 1 + 1 + 1) { s0 with trace := tr2 } = .ok () u := by
    have c0 : CompledMetaData { s0 with trace := tr2 } = false := by unfold CompledMetaData; rw [hinit.1]; rfl
    have c1 : CompledMetaData v = false := by unfold CompledMetaData; rw [hv4.2.2.1]; rfl
    have c2 : CompledMetaData w = false := by unfold CompledMetaData; rw [w5]; rfl
    have c3 : CompledMetaData u = true := by unfold CompledMetaData; rw [u5]; rfl
    simp only [readMetaDataLoop, PM.bind_apply, PM.get_apply, c0, c1, c2, c3, Bool.false_eq_true, if_false, if_true, IsReadLoopExpire,
      hE.time, emitP, PM.modify_apply, PM.pure_apply, hv1, w1, u1]
  have hdone : CompledMetaData u = true := by unfold CompledMetaData; rw [u5]; rfl
  -- contents of the shared buffer
  have hoff : b.off = 0 := hbuf.1
  have hcont0 : ∀ (m : Nat → Bytes), m b.arr = u.mem b.arr →
      readSlice m { b with off := b.off + head0.length, len := p0.length, cap := b.cap - head0.length } = p1 ++ p0.drop p1.length := by
    intro m hm
    unfold readSlice
    simp only [hm, u7, hoff, Nat.zero_add]
    show (((head1 ++ p1) ++ (w.mem b.arr).drop (head1 ++ p1).length).drop head0.length).take p0.length = _
    rw [w7, hhead, List.append_assoc, List.drop_left]
    rw [List.length_append, ← hhead, List.append_assoc, ← List.drop_drop, List.drop_left, List.drop_append_of_le_length (by omega)]
    rw [← List.append_assoc, List.take_append_of_le_length (by simp; omega), List.take_of_length_le (by simp; omega)]
  have hcont1 : ∀ (m : Nat → Bytes), m b.arr = u.mem b.arr →
      readSlice m { b with off := b.off + head1.length, len := p1.length, cap := b.cap - head1.length } = p1 := by
    intro m hm
    unfold readSlice
    simp only [hm, u7, hoff, Nat.zero_add]
    rw [List.append_assoc, List.drop_left, List.take_append_of_le_length (by omega), List.take_of_length_le (by omega)]
  have hmerge : ∀ tr, mergeLoop E 2 0 [] { u with trace := tr } = .ok (p1 ++ p0.drop p1.length ++ p1) { u with trace := tr ++ [.load] ++ [.load] } := by
    intro tr
    simp only [mergeLoop, PM.bind_apply, PM.get_apply, u4, List.getElem?_cons_zero, List.getElem?_cons_succ, load_ok hE, hcont0 _ rfl,
      hcont1 _ rfl, List.nil_append, PM.pure_apply]
  refine ⟨{ u with trace := u.trace ++ [.alloc ((p0 ++ p1).length * 1)] ++ [.load] ++ [.load] ++ [.close] }, ?_⟩
  have hbody : fetchBody E sha1 fold (f + 1 + 1 + 1 + 1) peerId infoHash s0 =
      .ok (if sha1 (p1 ++ p0.drop p1.length ++ p1) = infoHash then (some (p1 ++ p0.drop p1.length ++ p1), none)
        else (none, some b!"check sum err")) { u with trace := u.trace ++ [.alloc ((p0 ++ p1).length * 1)] ++ [.load] ++ [.load] } := by
    unfold fetchBody
    have hm' := hmerge (u.trace ++ [.alloc ((p0 ++ p1).length * 1)])
    rw [usz, u5] at hm'
    simp only [PM.bind_apply, g1, g2, hloop, PM.get_apply, hdone, not_true_eq_false, if_false, usz,
      make_ok hE _ 1 (show (p0 ++ p1).length * 1 ≤ 2 ^ 48 by omega), u5, List.length_cons, List.length_nil, Nat.zero_add, Nat.reduceAdd, hm', ne_eq]
    by_cases hsum : sha1 (p1 ++ p0.drop p1.length ++ p1) = infoHash
    · rw [if_neg (fun h => h hsum.symm), if_pos hsum]; rfl
    · rw [if_pos (fun h => hsum h.symm), if_neg hsum]; rfl
  rw [hbody]
  by_cases hsum : sha1 (p1 ++ p0.drop p1.length ++ p1) = infoHash
  · rw [if_pos hsum, if_pos hsum]; rfl
  · rw [if_neg hsum, if_neg hsum]; rfl

end P2P

import Verif.Props.PeerwireEx
import Verif.Props.BytesPool
/-! # C43 (an honest peer is downloaded from), C44 (pieces sharing a buffer), C45 (framing) -/
namespace P2P

/-- nobody else touches the buffers, writes succeed, there is time and memory -/
structure Calm (E : PEnv) : Prop where
  dial : E.dialFails = false
  alone : ∀ tr x, E.interfere tr x = x
  writes : ∀ tr, E.writeFails tr = false
  time : ∀ tr, E.expired tr = false
  memory : ∀ tr n, E.outOfMemory tr n = false
  order : ∀ tr, OrderOK (E.order tr)

/-- `Read` number `i` (from 0) delivers `chunks[i]` -/
def Delivers (E : PEnv) (chunks : List Bytes) : Prop :=
  ∀ tr size c, chunks[reads tr]? = some c → E.read tr size = (c, false)

/-- a pooled buffer of width `w` -/
def Buf (mem : Nat → Bytes) (w : Nat) (b : Slice) : Prop := b.off = 0 ∧ b.len = w ∧ b.cap = w ∧ (mem b.arr).length = w

/-- The buffers of two widths in the pool and the buffers held are distinct and well-formed. -/
structure PoolI (s : PSt) (h : List Slice) (w : Nat) (q : List Slice) (w' : Nat) (q' : List Slice) : Prop where
  ne : w ≠ w'
  c1 : (s.pool.chan w).getD [] = q
  c2 : (s.pool.chan w').getD [] = q'
  b1 : ∀ b ∈ q, Buf s.mem w b
  b2 : ∀ b ∈ q', Buf s.mem w' b
  nodup : ((h ++ (q ++ q')).map Slice.arr).Nodup
  old : ∀ b ∈ h ++ (q ++ q'), b.arr < s.pool.fresh

theorem PoolI.swap {s : PSt} {h q q' : List Slice} {w w' : Nat} (H : PoolI s h w q w' q') : PoolI s h w' q' w q := by
  have hp : (h ++ (q ++ q')).Perm (h ++ (q' ++ q)) := List.Perm.append_left _ List.perm_append_comm
  exact ⟨H.ne.symm, H.c2, H.c1, H.b2, H.b1, (hp.map _).nodup_iff.1 H.nodup, fun b hb => H.old b (hp.mem_iff.2 hb)⟩

theorem PoolI.change {s t : PSt} {h q q' : List Slice} {w w' : Nat} {b : Slice} (H : PoolI s (b :: h) w q w' q') (hp : t.pool = s.pool)
    (hm : ∀ a, a ≠ b.arr → t.mem a = s.mem a) : PoolI t (b :: h) w q w' q' := by
  have hn := H.nodup
  simp only [List.cons_append, List.map_cons, List.nodup_cons, List.map_append, List.mem_append, not_or, List.mem_map, not_exists,
    not_and] at hn
  refine ⟨H.ne, by rw [hp]; exact H.c1, by rw [hp]; exact H.c2, fun x hx => ?_, fun x hx => ?_, H.nodup, by rw [hp]; exact H.old⟩
  · have := H.b1 x hx
    unfold Buf at *
    rw [hm _ (hn.1.2.1 x hx)]; exact this
  · have := H.b2 x hx
    unfold Buf at *
    rw [hm _ (hn.1.2.2 x hx)]; exact this

/-- everything but memory, pool and trace is unchanged -/
def Frame (s t : PSt) : Prop :=
  t.metaData = s.metaData ∧ t.metaDataSize = s.metaDataSize ∧ t.requested = s.requested ∧ t.pool.maxSize = s.pool.maxSize

theorem Frame.refl (s : PSt) : Frame s s := ⟨rfl, rfl, rfl, rfl⟩
theorem Frame.trans {s t u : PSt} (h1 : Frame s t) (h2 : Frame t u) : Frame s u :=
  ⟨h2.1.trans h1.1, h2.2.1.trans h1.2.1, h2.2.2.1.trans h1.2.2.1, h2.2.2.2.trans h1.2.2.2⟩

section
variable {E : PEnv} (hE : Calm E)
include hE

theorem others_calm (s : PSt) : others E s = .ok () s := by
  simp only [others, PM.modify_apply, hE.alone]

theorem get_ok {s : PSt} {h q q' : List Slice} {w w' : Nat} (H : PoolI s h w q w' q') :
    ∃ b t, poolGet E w s = .ok b t ∧ PoolI t (b :: h) w q.tail w' q' ∧ Buf t.mem w b ∧
      (∀ a, a < s.pool.fresh → t.mem a = s.mem a) ∧ (q ≠ [] → q = b :: q.tail ∧ t.mem = s.mem) ∧ Frame s t ∧ t.trace = s.trace ++ [.get b] := by
  have hload : ∀ j : Int, (s.pool.loadOrStore w).chan j = if j = (w : Int) then some q else s.pool.chan j := by
    intro j; rw [loadOrStore_chan, H.c1]
  have hfresh : (s.pool.loadOrStore w).fresh = s.pool.fresh := by unfold BPool.loadOrStore; split <;> rfl
  have hmax : (s.pool.loadOrStore w).maxSize = s.pool.maxSize := by unfold BPool.loadOrStore; split <;> rfl
  cases q with
  | cons b r =>
    have hg : s.pool.GetBySize w = .ok (b, { s.pool.loadOrStore w with chans := setChan (s.pool.loadOrStore w).chans w r }) := by
      unfold BPool.GetBySize BPool.selectGet
      rw [hload]; simp
    have hch : ∀ j : Int, BPool.chan { s.pool.loadOrStore w with chans := setChan (s.pool.loadOrStore w).chans w r } j =
        if j = (w : Int) then some r else s.pool.chan j := by
      intro j
      simp only [BPool.chan, lookup_setChan]
      by_cases hj : j = (w : Int)
      · rw [if_pos hj, if_pos hj]
        have := hload w
        simp only [BPool.chan, if_true] at this
        rw [this]; rfl
      · rw [if_neg hj, if_neg hj]
        have := hload j
        rw [if_neg hj] at this
        exact this
    have hperm : (b :: h ++ (r ++ q')).Perm (h ++ (b :: r ++ q')) := by
      simpa using (List.perm_middle (a := b) (l₁ := h) (l₂ := r ++ q')).symm
    refine ⟨b, { s with
        pool := { s.pool.loadOrStore w with chans := setChan (s.pool.loadOrStore w).chans w r }
        trace := s.trace ++ [.get b] }, ?_, ?_, ?_, ?_, fun _ => ⟨rfl, rfl⟩, ?_, ?_⟩
    · simp only [poolGet, PM.bind_apply, others_calm hE, PM.get_apply, hg, PM.modify_apply, hfresh, if_true, emitP, PM.pure_apply]
    · refine ⟨H.ne, ?_, ?_, fun x hx => H.b1 x (List.mem_cons_of_mem _ hx), H.b2, (hperm.map _).nodup_iff.2 H.nodup, fun x hx => ?_⟩
      · simp only [hch]; simp
      · simp only [hch]; rw [if_neg (by have := H.ne; omega)]; exact H.c2
      · simp only [hfresh]; exact H.old x (hperm.mem_iff.1 hx)
    · exact H.b1 b (by simp)
    · intro a _; rfl
    · exact ⟨rfl, rfl, rfl, hmax⟩
    · rfl
  | nil =>
    have hg : s.pool.GetBySize w = .ok ({ arr := s.pool.fresh, off := 0, len := w, cap := w },
        { s.pool.loadOrStore w with fresh := s.pool.fresh + 1 }) := by
      unfold BPool.GetBySize BPool.selectGet
      rw [hload]; simp [hfresh]
    refine ⟨{ arr := s.pool.fresh, off := 0, len := w, cap := w }, { s with
        pool := { s.pool.loadOrStore w with fresh := s.pool.fresh + 1 }
        mem := upd s.mem s.pool.fresh (List.replicate w 0)
        trace := s.trace ++ [.get { arr := s.pool.fresh, off := 0, len := w, cap := w }] }, ?_, ?_, ?_, ?_, fun h => absurd rfl h, ?_, ?_⟩
    · simp only [poolGet, PM.bind_apply, others_calm hE, PM.get_apply, hg, PM.modify_apply, emitP, PM.pure_apply]
      rw [if_neg (by omega)]
    · refine ⟨H.ne, ?_, ?_, by simp, fun x hx => ?_, ?_, fun x hx => ?_⟩
      · show ((s.pool.loadOrStore w).chan w).getD [] = _
        rw [hload]; simp
      · show ((s.pool.loadOrStore w).chan w').getD [] = _
        rw [hload, if_neg (by have := H.ne; omega)]; exact H.c2
      · have h1 := H.b2 x hx
        have h2 := H.old x (by simp [hx])
        show Buf (upd s.mem s.pool.fresh (List.replicate w 0)) w' x
        unfold Buf at *
        rw [upd_ne _ _ (by omega)]; exact h1
      · simp only [List.tail_nil, List.cons_append, List.map_cons, List.nodup_cons]
        refine ⟨fun hx => ?_, H.nodup⟩
        obtain ⟨x, hx, he⟩ := List.mem_map.1 hx
        have := H.old x hx
        omega
      · rcases List.mem_cons.1 hx with rfl | hx
        · show s.pool.fresh < s.pool.fresh + 1; omega
        · have := H.old x hx
          show x.arr < s.pool.fresh + 1; omega
    · simp [Buf]
    · intro a ha
      exact upd_ne _ _ (by omega)
    · exact ⟨rfl, rfl, rfl, hmax⟩
    · rfl

theorem put_ok {s : PSt} {h q q' : List Slice} {w w' : Nat} {b rb : Slice} (H : PoolI s (b :: h) w q w' q') (hb : Buf s.mem w b)
    (hroom : q.length < s.pool.maxSize) (hrb : { rb with len := rb.cap } = b) :
    ∃ t, poolPut E rb s = .ok () t ∧ PoolI t h w (q ++ [b]) w' q' ∧ t.mem = s.mem ∧ Frame s t ∧ t.trace = s.trace ++ [.put rb] := by
  have hcap : rb.cap = w := by rw [← hb.2.2.1, ← hrb]
  have hload : ∀ j : Int, (s.pool.loadOrStore w).chan j = if j = (w : Int) then some q else s.pool.chan j := by
    intro j; rw [loadOrStore_chan, H.c1]
  have hfresh : (s.pool.loadOrStore w).fresh = s.pool.fresh := by unfold BPool.loadOrStore; split <;> rfl
  have hmax : (s.pool.loadOrStore w).maxSize = s.pool.maxSize := by unfold BPool.loadOrStore; split <;> rfl
  have hput : s.pool.Put rb = { s.pool.loadOrStore w with chans := setChan (s.pool.loadOrStore w).chans w (q ++ [b]) } := by
    unfold BPool.Put BPool.selectPut
    rw [hcap, hload]
    simp only [if_true]
    rw [if_pos (by rw [hmax]; exact hroom), ← hrb, hcap]
  have hch : ∀ j : Int, BPool.chan (s.pool.Put rb) j = if j = (w : Int) then some (q ++ [b]) else s.pool.chan j := by
    intro j
    rw [hput]
    simp only [BPool.chan, lookup_setChan]
    by_cases hj : j = (w : Int)
    · rw [if_pos hj, if_pos hj]
      have := hload w
      simp only [BPool.chan, if_true] at this
      rw [this]; rfl
    · rw [if_neg hj, if_neg hj]
      have := hload j
      rw [if_neg hj] at this
      exact this
  have hperm : (h ++ (q ++ [b] ++ q')).Perm (b :: h ++ (q ++ q')) := by
    have h1 : (q ++ [b] ++ q').Perm (b :: (q ++ q')) := by simpa using List.perm_middle
    exact (List.Perm.append_left h h1).trans List.perm_middle
  refine ⟨{ s with pool := s.pool.Put rb, trace := s.trace ++ [.put rb] }, ?_, ?_, rfl, ⟨rfl, rfl, rfl, ?_⟩, rfl⟩
  · simp only [poolPut, PM.bind_apply, others_calm hE, PM.modify_apply, emitP]
  · refine ⟨H.ne, ?_, ?_, fun x hx => ?_, H.b2, (hperm.map _).nodup_iff.2 H.nodup, fun x hx => ?_⟩
    · simp only [hch]; simp
    · simp only [hch]; rw [if_neg (by have := H.ne; omega)]; exact H.c2
    · rcases List.mem_append.1 hx with hx | hx
      · exact H.b1 x hx
      · rw [List.mem_singleton.1 hx]; exact hb
    · have := H.old x (hperm.mem_iff.1 hx)
      show x.arr < (s.pool.Put rb).fresh
      rw [hput]; simp only [hfresh]; exact this
  · rw [hput]; exact hmax

theorem read_ok {s : PSt} {w : Nat} {b : Slice} {d : Bytes} (hb : Buf s.mem w b) (hd : d.length ≤ w)
    (hr : E.read s.trace w = (d, false)) :
    ∃ t, connRead E b s = .ok (d.length, false) t ∧ t.pool = s.pool ∧ (∀ a, a ≠ b.arr → t.mem a = s.mem a) ∧
      t.mem b.arr = d ++ (s.mem b.arr).drop d.length ∧ Buf t.mem w b ∧ Frame s t ∧ t.trace = s.trace ++ [.read w d false] := by
  have htake : d.take w = d := List.take_of_length_le hd
  obtain ⟨h1, h2, h3, h4⟩ := hb
  refine ⟨{ s with mem := writeSlice s.mem b d, trace := s.trace ++ [.read w d false] }, ?_, rfl, ?_, ?_, ?_, ⟨rfl, rfl, rfl, rfl⟩, rfl⟩
  · simp only [connRead, PM.bind_apply, others_calm hE, PM.get_apply, PM.modify_apply, emitP, PM.pure_apply, h2, hr, htake]
  · intro a ha; exact upd_ne _ _ ha
  · simp [writeSlice, h1]
  · refine ⟨h1, h2, h3, ?_⟩
    simp [writeSlice, h1, h4]; omega

theorem load_ok (s : PSt) (b : Slice) : loadSlice E b s = .ok (readSlice s.mem b) { s with trace := s.trace ++ [.load] } := by
  simp only [loadSlice, PM.bind_apply, others_calm hE, PM.get_apply, emitP, PM.modify_apply, PM.pure_apply]

omit hE in
theorem reads_snoc (tr : List PEvent) (e : PEvent) :
    reads (tr ++ [e]) = reads tr + (match e with | .read .. => 1 | _ => 0) := by
  unfold reads
  rw [List.countP_append]
  cases e <;> rfl

omit hE in
theorem PoolI.held_ne {s : PSt} {h q q' : List Slice} {w w' : Nat} {b : Slice} (H : PoolI s (b :: h) w q w' q') :
    ∀ x ∈ q ++ q', x.arr ≠ b.arr := by
  have hn := H.nodup
  simp only [List.cons_append, List.map_cons, List.nodup_cons, List.mem_map, not_exists, not_and] at hn
  exact fun x hx => hn.1 x (List.mem_append_right _ hx)

/-- a length prefix delivered by one read, and what the next read delivers: the latter is returned, and the prefix buffer is
back in the pool -/
theorem readBytes_ok {s : PSt} {q4 q32 : List Slice} {pre body : Bytes} (H : PoolI s [] 4 q4 32768 q32)
    (hmax : 1 ≤ s.pool.maxSize ∧ q4.length ≤ s.pool.maxSize)
    (hpre : pre.length = 4) (hval : 1 ≤ beVal pre ∧ beVal pre ≤ 32768) (hle : body.length ≤ 32768)
    (hr1 : ∀ tr, reads tr = reads s.trace → E.read tr 4 = (pre, false))
    (hr2 : ∀ tr, reads tr = reads s.trace + 1 → E.read tr 32768 = (body, false)) :
    ∃ b t q4', readBytesByPrefixLenMsg E s = .ok (false, some { b with len := body.length }, false) t ∧
      PoolI t [b] 4 q4' 32768 q32.tail ∧ Buf t.mem 32768 b ∧ readSlice t.mem { b with len := body.length } = body ∧
      q4'.length ≤ s.pool.maxSize ∧
      (q32 ≠ [] → q32 = b :: q32.tail ∧ t.mem b.arr = body ++ (s.mem b.arr).drop body.length) ∧ (∀ x ∈ q32.tail, t.mem x.arr = s.mem x.arr) ∧ Frame s t ∧ reads t.trace = reads s.trace + 2 := by
  obtain ⟨p, s1, g1, H1, hp1, hm1, -, f1, t1⟩ := get_ok hE H
  have hrd1 : reads s1.trace = reads s.trace := by simp only [t1, reads_snoc, Nat.add_zero]
  obtain ⟨s2, g2, e2, hm2, hv2, hp2, f2, t2⟩ := read_ok hE hp1 (Nat.le_of_eq hpre) (hr1 _ hrd1)
  have hrd2 : reads s2.trace = reads s.trace + 1 := by simp only [t2, reads_snoc, hrd1, Nat.add_zero]
  have H2 := H1.change e2 hm2
  have hload : readSlice s2.mem p = pre := by
    have h4 := hp1.2.2.2
    unfold readSlice
    rw [hv2, hp2.1, hp2.2.1]
    simp only [List.drop_zero]
    rw [List.take_append_of_le_length (by omega), List.take_of_length_le (by omega)]
  obtain ⟨s3, g3, H3, hm3, f3, t3⟩ := put_ok hE (s := { s2 with trace := s2.trace ++ [.load] }) (H2.change rfl fun _ _ => rfl) hp2 (by
    show q4.tail.length < s2.pool.maxSize
    rw [f2.2.2.2, f1.2.2.2, List.length_tail]; omega) (rb := p) (by
      obtain ⟨a1, a2, a3, a4⟩ := hp2
      cases p; simp at a2 a3; simp [a2, a3])
  have hrd3 : reads s3.trace = reads s.trace + 1 := by simp only [t3, reads_snoc, hrd2, Nat.add_zero]
  replace f3 : Frame s2 s3 := f3
  obtain ⟨b, s4, g4, H4, hb4, hm4, hq4, f4, t4⟩ := get_ok hE H3.swap
  have hrd4 : reads s4.trace = reads s.trace + 1 := by simp only [t4, reads_snoc, hrd3, Nat.add_zero]
  obtain ⟨s5, g5, e5, hm5, hv5, hp5, f5, t5⟩ := read_ok hE hb4 hle (hr2 _ hrd4)
  have H5 := H4.swap.change e5 hm5
  refine ⟨b, s5, _, ?_, H5, hp5, ?_, ?_, fun hne => ⟨(hq4 hne).1, ?_⟩, fun x hx => ?_, (((f1.trans f2).trans f3).trans f4).trans f5, ?_⟩
  · have e0 : pre.take 4 = pre := List.take_of_length_le (by omega)
    unfold readBytesByPrefixLenMsg
    simp only [PM.bind_apply, PrefixLen, g1, g2, Bool.false_eq_true, if_false]
    unfold readAfterPrefix
    simp only [PM.bind_apply, load_ok hE, hload, e0]
    rw [if_neg (by omega), if_neg (by omega)]
    simp only [PM.bind_apply, g3]
    rw [if_neg (by unfold maxReadLength; omega)]
    simp only [PM.bind_apply, maxReadLength]
    rw [show (32 * 1024 : Nat) = 32768 from rfl, g4]
    simp only [g5, Bool.false_eq_true, if_false, PM.pure_apply]
  · unfold readSlice
    simp only [hv5, hp5.1, List.drop_zero]
    rw [List.take_append_of_le_length (by omega), List.take_of_length_le (by omega)]
  · simp only [List.length_append, List.length_tail, List.length_cons, List.length_nil]; omega
  · have hbm : b ∈ q32 := by rw [(hq4 hne).1]; simp
    rw [hv5, (hq4 hne).2, hm3, hm2 _ (H1.held_ne b (by simp [hbm])), hm1 _ (H.old b (by simp [hbm]))]
  · have h1 : x ∈ q32 := List.mem_of_mem_tail hx
    rw [hm5 _ (H4.held_ne x (by simp [hx])), hm4 _ (H3.old x (by simp [h1])), hm3, hm2 _ (H1.held_ne x (by simp [h1])),
      hm1 _ (H.old x (by simp [h1]))]
  · simp only [t5, reads_snoc, hrd4, Nat.add_zero]

/-- what the honest download's bookkeeping needs of the pool between two messages -/
structure Ready (s : PSt) (q32 : List Slice) : Prop where
  pool : ∃ q4, PoolI s [] 4 q4 32768 q32 ∧ q4.length ≤ s.pool.maxSize
  room : 1 ≤ s.pool.maxSize ∧ q32.length ≤ s.pool.maxSize

/-- an extended message: `handleMsg` runs `handleExtendedMsg` on it -/
theorem handler_ok {s : PSt} {q32 : List Slice} {pre body : Bytes} (H : Ready s q32)
    (hpre : pre.length = 4) (hval : beVal pre = body.length) (h0 : body[0]? = some 20) (hle : body.length ≤ 32768)
    (hr1 : ∀ tr, reads tr = reads s.trace → E.read tr 4 = (pre, false))
    (hr2 : ∀ tr, reads tr = reads s.trace + 1 → E.read tr 32768 = (body, false)) :
    ∃ b t, (q32 ≠ [] → q32 = b :: q32.tail ∧ t.mem b.arr = body ++ (s.mem b.arr).drop body.length) ∧ Buf t.mem 32768 b ∧ readSlice t.mem { b with len := body.length } = body ∧
      (∀ x ∈ q32.tail, x.arr ≠ b.arr ∧ t.mem x.arr = s.mem x.arr) ∧ Frame s t ∧ reads t.trace = reads s.trace + 2 ∧
      ∀ u, handleExtendedMsg E { b with len := body.length } body t = .ok () u → u.pool = t.pool → u.mem = t.mem →
        ∃ v, readMetaDataHandler E s = .ok () v ∧ Ready v (q32.tail ++ [b]) ∧ v.mem = u.mem ∧ Frame u v ∧ reads v.trace = reads u.trace := by
  obtain ⟨⟨q4, H0, hq4⟩, hroom⟩ := H
  have hpos : 1 ≤ body.length := by cases body with | nil => cases h0 | cons => simp
  obtain ⟨b, t, q4', g, H1, hb, hrd, hl, hq, hm, hf, hreads⟩ := readBytes_ok hE H0 ⟨hroom.1, hq4⟩ hpre (by omega) hle hr1 hr2
  refine ⟨b, { t with trace := t.trace ++ [.load] }, hq, hb, hrd, fun x hx => ⟨H1.held_ne x (by simp [hx]), hm x hx⟩, hf,
    by simp only [reads_snoc, hreads], fun u hu hup hum => ?_⟩
  have H2 : PoolI u [b] 4 q4' 32768 q32.tail := H1.change hup (fun a _ => by rw [hum])
  have hb2 : Buf u.mem 32768 b := by rw [hum]; exact hb
  have hms : u.pool.maxSize = s.pool.maxSize := by rw [hup]; exact hf.2.2.2
  obtain ⟨v, g3, H3, hm3, f3, t3⟩ := put_ok hE H2.swap hb2 (by rw [hms, List.length_tail]; omega) (rb := { b with len := body.length }) (by
      obtain ⟨a1, a2, a3, a4⟩ := hb
      cases b; simp at a2 a3; simp [a2, a3])
  have hcap : ({ b with len := body.length } : Slice).cap > 0 := by
    show b.cap > 0; rw [hb.2.2.1]; omega
  refine ⟨v, ?_, ⟨⟨q4', H3.swap, by rw [f3.2.2.2, hms]; exact hl⟩, by rw [f3.2.2.2, hms]; exact hroom.1, ?_⟩, hm3, f3, ?_⟩
  · unfold readMetaDataHandler
    rw [PM.bind_apply, g]
    simp only [PM.deferred, handleMsg, Bool.false_eq_true, if_false, PM.bind_apply, load_ok hE, hrd, parsePrefixLenMsg, h0, PM.lift_ok]
    rw [if_pos (by decide), hu]
    simp only [putBack, if_pos hcap, g3]
  · rw [f3.2.2.2, hms]
    simp only [List.length_append, List.length_tail, List.length_cons, List.length_nil]; omega
  · simp only [t3, reads_snoc, Nat.add_zero]

theorem write_ok (s : PSt) (d : Bytes) : connWrite E d s = .ok false { s with trace := s.trace ++ [.write d false] } := by
  simp only [connWrite, PM.bind_apply, others_calm hE, PM.get_apply, hE.writes, emitP, PM.modify_apply, PM.pure_apply]

theorem requestLoop_ok (n i : Nat) (hi : i + n ≤ 2 ^ 63) (s : PSt) :
    ∃ tr, requestLoop E n i s = .ok () { s with trace := tr } ∧ reads tr = reads s.trace := by
  induction n generalizing i s with
  | zero => exact ⟨s.trace, rfl, rfl⟩
  | succ n ih =>
    obtain ⟨w, hw, -⟩ := request_ok (E.order s.trace) (hE.order _) i (by omega)
    obtain ⟨tr, h1, h2⟩ := ih (i + 1) (by omega) { s with trace := s.trace ++ [.write w false] }
    refine ⟨tr, ?_, by simp only [h2, reads_snoc, Nat.add_zero]⟩
    unfold requestLoop
    simp only [PM.bind_apply, PM.get_apply, hw, PM.lift_ok, write_ok hE, Bool.false_eq_true, if_false, h1]

theorem make_ok (n w : Nat) (h : n * w ≤ 2 ^ 48) (s : PSt) :
    makeSized E n w s = .ok () { s with trace := s.trace ++ [.alloc (n * w)] } := by
  unfold makeSized
  rw [if_neg (by omega), if_neg (by unfold maxAlloc; simp only [Int.toNat_natCast]; omega)]
  simp only [PM.bind_apply, emitP, PM.modify_apply, PM.get_apply, hE.memory, Int.toNat_natCast, Bool.false_eq_true, if_false, PM.pure_apply]

/-- the extended handshake of an honest peer with `size` bytes of metadata -/
theorem announce_ok {body : Bytes} {dict : Entries} {size : Nat} (hid : body[1]? = some 0)
    (hp : parseExtendedHandShake body = .ok dict) (hm : dict.lookup b!"metadata_size" = some (.int size)) (hsz : size < 2 ^ 40)
    (rb : Slice) (s : PSt) :
    ∃ tr, handleExtendedMsg E rb body s = .ok () { s with
        metaDataSize := size, metaData := List.replicate ((size + 16383) / 16384) none
        requested := List.replicate ((size + 16383) / 16384) false, trace := tr } ∧
      reads tr = reads s.trace := by
  have hc : pieceCount size = ((size + 16383) / 16384 : Nat) := by rw [C42_piece_count _ (by omega)]; omega
  have hex : Dict.Exist dict b!"metadata_size" = true := by simp [Dict.Exist, dictGet, hm]
  have hgi : Dict.GetInteger dict b!"metadata_size" = .ok (size : Int) := by simp [Dict.GetInteger, Dict.GetVal, dictGet, hm, GoVal.asInt]
  have hn : (size + 16383) / 16384 ≤ 2 ^ 27 := by omega
  generalize (size + 16383) / 16384 = n at *
  obtain ⟨tr, h1, h2⟩ := requestLoop_ok hE n 0 (by omega) { s with
        metaDataSize := size, metaData := List.replicate n none
        requested := List.replicate n false
        trace := s.trace ++ [.alloc (n * 24)] ++ [.alloc (n * 1)] ++ [.announced size] }
  refine ⟨tr, ?_, ?_⟩
  · unfold handleExtendedMsg
    rw [hid]
    simp only
    rw [if_pos (by decide), hp]
    simp only [PM.bind_apply, PM.lift_ok]
    rw [if_neg (by simp [hex]), hgi]
    simp only [PM.bind_apply, PM.lift_ok, PM.modify_apply, hc, make_ok hE n 24 (by omega), make_ok hE n 1 (by omega), emitP,
      Int.toNat_natCast, h1]
  · simp only [h2, reads_snoc, Nat.add_zero]

omit hE in
/-- where the payload of a data message starts -/
theorem dataOff_of_parse {body : Bytes} {r : ExFetchMeta} (h : parseExtendedFetchMetaMsg body = .ok r) (hd : r.data ≠ []) :
    ∃ n, r.dataOff = some n ∧ n ≤ body.length ∧ r.data = body.drop n := by
  match body with
  | [] => cases h
  | c0 :: rest =>
    simp only [parseExtendedFetchMetaMsg, List.getElem?_cons_zero] at h
    by_cases hc : ExtendedPeerMsg ≠ c0.toNat
    · rw [if_pos hc] at h; cases h
    · rw [if_neg hc] at h
      cases hr : (c0 :: rest)[1]? with
      | none => rw [hr] at h; cases h
      | some c1 =>
        rw [hr] at h
        simp only at h
        cases hdec : DecodeDictNoLimit ((c0 :: rest).drop 2) with
        | err _ => rw [hdec] at h; cases h
        | panic _ => rw [hdec] at h; cases h
        | diverge => rw [hdec] at h; cases h
        | ok o =>
          obtain ⟨d, n⟩ := o
          rw [hdec] at h
          simp only at h
          by_cases hn : n + 2 ≥ (c0 :: rest).length
          · rw [if_pos hn] at h
            obtain ⟨t, ht, h⟩ := Res.bind_eq_ok.1 h
            obtain ⟨p, hp, h⟩ := Res.bind_eq_ok.1 h
            injection h with h
            subst h
            exact absurd rfl hd
          · rw [if_neg hn] at h
            obtain ⟨tot, _, h⟩ := Res.bind_eq_ok.1 h
            obtain ⟨t, ht, h⟩ := Res.bind_eq_ok.1 h
            obtain ⟨p, hp, h⟩ := Res.bind_eq_ok.1 h
            injection h with h
            subst h
            exact ⟨_, rfl, by omega, rfl⟩

/-- a data message for piece `i`: the stored slice is its payload inside the buffer -/
theorem data_ok {body : Bytes} {r : ExFetchMeta} {i : Nat} (hid : body[1]? = some 1) (hp : parseExtendedFetchMetaMsg body = .ok r)
    (ht : r.msgType = 1) (hi : r.pieceNum = i) (hd : r.data ≠ []) (rb : Slice) (hrb : rb.len = body.length) (s : PSt)
    (hlen : i < s.metaData.length ∧ i < s.requested.length) (hread : readSlice s.mem rb = body) :
    ∃ sl n, sl = { rb with off := rb.off + n, len := rb.len - n, cap := rb.cap - n } ∧ r.dataOff = some n ∧ n ≤ body.length ∧
      r.data = body.drop n ∧ readSlice s.mem sl = r.data ∧
      handleExtendedMsg E rb body s = .ok () { s with
        metaData := s.metaData.set i (some sl), requested := s.requested.set i true, trace := s.trace ++ [.gotPiece i] } := by
  obtain ⟨n, h1, h2, h3⟩ := dataOff_of_parse hp hd
  refine ⟨{ rb with off := rb.off + n, len := rb.len - n, cap := rb.cap - n }, n, rfl, h1, h2, h3, ?_, ?_⟩
  · rw [h3, ← hread]
    simp only [readSlice]
    rw [List.drop_take, List.drop_drop]
  · unfold handleExtendedMsg
    rw [hid]
    simp only
    rw [if_neg (by decide), if_pos (by decide), hp]
    simp only [PM.bind_apply, PM.lift_ok]
    rw [if_neg (by rw [ht]; decide)]
    simp only [PM.bind_apply, PM.get_apply, h1, Option.map_some, hi, setAt]
    rw [if_pos ⟨by omega, by simpa using hlen.1⟩]
    simp only [PM.bind_apply, PM.modify_apply]
    rw [if_pos ⟨by omega, by simpa using hlen.2⟩]
    simp only [PM.bind_apply, PM.modify_apply, emitP, Int.toNat_natCast]

/-- a data message of BEP 9 carrying `d` as piece `i` -/
def IsDataMsg (i : Nat) (d body : Bytes) : Prop :=
  body.length ≤ 32768 ∧ ∃ r, parseExtendedFetchMetaMsg body = .ok r ∧ r.msgId = 1 ∧ r.msgType = 1 ∧ r.pieceNum = i ∧ r.data = d

/-- a framed message, prefix and body in separate reads -/
def framed (body : Bytes) : List Bytes := [be32 body.length, body]

omit hE in
theorem framed_get (bodies : List Bytes) (j : Nat) (body : Bytes) (h : bodies[j]? = some body) :
    (bodies.flatMap framed)[2 * j]? = some (be32 body.length) ∧ (bodies.flatMap framed)[2 * j + 1]? = some body := by
  induction bodies generalizing j with
  | nil => simp at h
  | cons c r ih =>
    cases j with
    | zero => simp at h; subst h; simp [framed]
    | succ j =>
      have h2 := ih j (by simpa using h)
      rw [show 2 * (j + 1) = 2 * j + 1 + 1 by omega]
      simpa [framed] using h2

/-- `j` of `n` pieces received, in the first `j` of the buffers `Q` -/
structure Progress (s : PSt) (Q : List Slice) (pieces : List Bytes) (size : Nat) (j : Nat) : Prop where
  ready : Ready s (Q.drop j ++ Q.take j)
  reads : reads s.trace = 3 + 2 * j
  size : s.metaDataSize = size
  len : s.metaData.length = pieces.length
  req : s.requested = List.replicate j true ++ List.replicate (pieces.length - j) false
  got : ∀ i, i < j → ∃ sl x p, s.metaData[i]? = some (some sl) ∧ Q[i]? = some x ∧ pieces[i]? = some p ∧ sl.arr = x.arr ∧
    readSlice s.mem sl = p

theorem piece_step {s : PSt} {Q : List Slice} {pieces bodies : List Bytes} {size j : Nat} {hs ext body p : Bytes}
    (hP : Progress s Q pieces size j) (hQ : pieces.length ≤ Q.length) (hp : pieces[j]? = some p) (hpne : p ≠ [])
    (hb : bodies[j]? = some body) (hmsg : IsDataMsg j p body)
    (hD : Delivers E (hs :: framed ext ++ bodies.flatMap framed)) :
    ∃ t, readMetaDataHandler E s = .ok () t ∧ Progress t Q pieces size (j + 1) := by
  have hj : j < pieces.length := by
    rcases Nat.lt_or_ge j pieces.length with h | h
    · exact h
    · rw [List.getElem?_eq_none h] at hp; cases hp
  obtain ⟨hle, r, hr, hm1, hm2, hm3, hm4⟩ := hmsg
  obtain ⟨id, rest, -, -, hbody, hid, -⟩ := C40_payload_is_rest body r hr
  have hid : id = 1 := by rw [hm1] at hid; exact UInt8.toNat_inj.1 (by have : ((1 : UInt8).toNat : Int) = 1 := rfl; omega)
  obtain ⟨f1, f2⟩ := framed_get bodies j body hb
  have hget : ∀ k c, (bodies.flatMap framed)[k]? = some c → (hs :: framed ext ++ bodies.flatMap framed)[3 + k]? = some c := by
    intro k c h
    rw [show 3 + k = k + 1 + 1 + 1 by omega]
    simpa [framed] using h
  have hdrop : Q.drop j ++ Q.take j = Q[j] :: (Q.drop (j + 1) ++ Q.take j) := by
    rw [List.drop_eq_getElem_cons (by omega)]; rfl
  have hready := hP.ready
  rw [hdrop] at hready
  have hlt : body.length < 2 ^ 32 := by omega
  obtain ⟨b, t, hq, hbuf, hrd, hmem, hf, hreads, hcont⟩ := handler_ok hE hready (pre := be32 body.length) (body := body) rfl
    (beVal_be32 hlt) (by rw [hbody]; rfl) hle
    (fun tr htr => hD tr 4 _ (by rw [htr, hP.reads]; exact hget _ _ f1))
    (fun tr htr => hD tr 32768 _ (by rw [htr, hP.reads]; exact hget _ _ f2))
  have hbj : b = Q[j] := by have := (hq (by simp)).1; simp at this; exact this.symm
  obtain ⟨sl, n, hsl1, -, -, -, hsl2, hh⟩ := data_ok hE (s := t) (rb := { b with len := body.length }) (by rw [hbody, hid]; rfl) hr hm2 hm3
    (by rw [hm4]; exact hpne) rfl (by rw [hf.1, hf.2.2.1, hP.len, hP.req]; simp; omega) hrd
  obtain ⟨v, hv1, hv2, hv3, hv4, hv5⟩ := hcont _ hh rfl rfl
  refine ⟨v, hv1, ?_, ?_, ?_, ?_, ?_, ?_⟩
  · have : (Q[j] :: (Q.drop (j + 1) ++ Q.take j)).tail ++ [b] = Q.drop (j + 1) ++ Q.take (j + 1) := by
      rw [hbj, List.take_add_one, List.getElem?_eq_getElem (by omega)]; simp
    rw [← this]; exact hv2
  · rw [hv5]; simp only [reads_snoc]; rw [hreads, hP.reads]; omega
  · rw [hv4.2.1]; exact hf.2.1.trans hP.size
  · rw [hv4.1]; simp only [List.length_set]; rw [hf.1]; exact hP.len
  · rw [hv4.2.2.1]
    show t.requested.set j true = _
    rw [hf.2.2.1, hP.req, List.set_append_right _ _ (by simp), List.length_replicate, Nat.sub_self]
    rw [show pieces.length - j = (pieces.length - (j + 1)) + 1 by omega, List.replicate_succ (n := pieces.length - (j + 1)), List.set_cons_zero,
      List.replicate_succ' (n := j)]
    simp
  · intro i hi
    rw [hv3, hv4.1]
    show ∃ sl' x q, (t.metaData.set j (some sl))[i]? = some (some sl') ∧ _ ∧ _ ∧ _ ∧ readSlice t.mem sl' = q
    by_cases hij : i = j
    · subst hij
      refine ⟨sl, Q[i], p, ?_, List.getElem?_eq_getElem (by omega), hp, by rw [hsl1, hbj], by rw [hsl2, hm4]⟩
      rw [List.getElem?_set_self (by rw [hf.1, hP.len]; exact hj)]
    · obtain ⟨sl', x, q, h1, h2, h3, h4, h5⟩ := hP.got i (by omega)
      refine ⟨sl', x, q, ?_, h2, h3, h4, ?_⟩
      · rw [List.getElem?_set_ne (Ne.symm hij), hf.1]; exact h1
      · rw [← h5]
        unfold readSlice
        rw [h4, (hmem x ?_).2]
        have hxi : i < Q.length := by omega
        rw [List.getElem?_eq_getElem hxi] at h2
        have : Q[i] = x := Option.some.inj h2
        simp only [List.tail_cons, List.mem_append]
        right
        rw [← this]
        exact List.mem_take_iff_getElem.2 ⟨i, by omega, rfl⟩

theorem pieces_loop {Q : List Slice} {pieces bodies : List Bytes} {size : Nat} {hs ext : Bytes} (hQ : pieces.length ≤ Q.length)
    (hlen : bodies.length = pieces.length) (hne : ∀ p ∈ pieces, p ≠ [])
    (hmsg : ∀ j p body, pieces[j]? = some p → bodies[j]? = some body → IsDataMsg j p body)
    (hD : Delivers E (hs :: framed ext ++ bodies.flatMap framed)) (k : Nat) :
    ∀ j s fuel, j + k = pieces.length → k + 1 ≤ fuel → Progress s Q pieces size j →
      ∃ t, readMetaDataLoop E fuel s = .ok () t ∧ Progress t Q pieces size pieces.length := by
  induction k with
  | zero =>
    intro j s fuel hj hf hP
    obtain ⟨f, rfl⟩ : ∃ f, fuel = f + 1 := ⟨fuel - 1, by omega⟩
    obtain rfl : j = pieces.length := by omega
    refine ⟨s, ?_, hP⟩
    unfold readMetaDataLoop
    have : CompledMetaData s = true := by
      unfold CompledMetaData; rw [hP.req]; simp
    simp only [PM.bind_apply, PM.get_apply, this, if_true, PM.pure_apply]
  | succ k ih =>
    intro j s fuel hj hf hP
    obtain ⟨f, rfl⟩ : ∃ f, fuel = f + 1 := ⟨fuel - 1, by omega⟩
    have hjl : j < pieces.length := by omega
    have hjb : j < bodies.length := by omega
    have hP' : Progress { s with trace := s.trace ++ [.expired false] } Q pieces size j :=
      ⟨⟨(by obtain ⟨q4, H, h⟩ := hP.ready.pool; exact ⟨q4, ⟨H.ne, H.c1, H.c2, H.b1, H.b2, H.nodup, H.old⟩, h⟩), hP.ready.room⟩,
        by simp only [reads_snoc]; exact hP.reads, hP.size, hP.len, hP.req, hP.got⟩
    obtain ⟨t, h1, h2⟩ := piece_step hE hP' hQ (List.getElem?_eq_getElem hjl) (hne _ (List.getElem_mem hjl))
      (List.getElem?_eq_getElem hjb) (hmsg j _ _ (List.getElem?_eq_getElem hjl) (List.getElem?_eq_getElem hjb)) hD
    obtain ⟨u, h3, h4⟩ := ih (j + 1) t f (by omega) (by omega) h2
    refine ⟨u, ?_, h4⟩
    unfold readMetaDataLoop
    have : CompledMetaData s = false := by
      unfold CompledMetaData; rw [hP.req]
      rw [show pieces.length - j = (pieces.length - (j + 1)) + 1 by omega, List.replicate_succ]
      simp
    simp only [PM.bind_apply, PM.get_apply, this, Bool.false_eq_true, if_false, IsReadLoopExpire, hE.time, emitP, PM.modify_apply,
      PM.pure_apply, h1, h3]

theorem merge_ok {s : PSt} {pieces : List Bytes} (k : Nat) :
    ∀ i acc, i + k = pieces.length →
      (∀ i, i < pieces.length → ∃ sl p, s.metaData[i]? = some (some sl) ∧ pieces[i]? = some p ∧ readSlice s.mem sl = p) →
      ∃ tr, mergeLoop E k i acc s = .ok (acc ++ (pieces.drop i).flatten) { s with trace := tr } := by
  induction k generalizing s with
  | zero =>
    intro i acc hi _
    rw [List.drop_of_length_le (by omega)]
    exact ⟨s.trace, by simp [mergeLoop]⟩
  | succ k ih =>
    intro i acc hi h
    obtain ⟨sl, p, h1, h2, h3⟩ := h i (by omega)
    obtain ⟨tr, hm⟩ := ih (s := { s with trace := s.trace ++ [.load] }) (i + 1) (acc ++ p) (by omega) h
    refine ⟨tr, ?_⟩
    unfold mergeLoop
    simp only [PM.bind_apply, PM.get_apply, h1, load_ok hE, h3]
    rw [hm]
    have hi' : i < pieces.length := by omega
    rw [List.getElem?_eq_getElem hi'] at h2
    rw [List.drop_eq_getElem_cons hi', ← Option.some.inj h2]
    simp only [List.flatten_cons, List.append_assoc]

/-- a handshake of a peer that supports extensions -/
def IsPeerHandshake (hs : Bytes) : Prop :=
  ∃ rsv rest c, hs = [19] ++ b!"BitTorrent protocol" ++ rsv ++ rest ∧ rsv.length = 8 ∧ rest.length = 40 ∧ rsv[5]? = some c ∧
    c.toNat.testBit 4 = true

theorem handshake_ok {hs peerId infoHash : Bytes} {fold : FoldTable} (hhs : IsPeerHandshake hs) (hp : peerId.length = 20)
    (hi : infoHash.length = 20) (s : PSt) (hr : ∀ tr, reads tr = reads s.trace → E.read tr 68 = (hs, false)) :
    ∃ tr, handshakePeer E fold peerId infoHash s = .ok () { s with trace := tr } ∧ reads tr = reads s.trace + 1 := by
  obtain ⟨rsv, rest, c, rfl, h1, h2, h3, h4⟩ := hhs
  have hlen : ([19] ++ b!"BitTorrent protocol" ++ rsv ++ rest).length = 68 := by simp [h1, h2]
  generalize hhs : [19] ++ b!"BitTorrent protocol" ++ rsv ++ rest = hs at *
  have hparse := C38_parse hs [] 19 hlen (by rw [← hhs]; rfl)
  rw [if_pos (by decide)] at hparse
  have hproto : slice (hs ++ []) 1 (1 + (19 : UInt8).toNat) = supportProtocolName := by
    rw [← hhs]; simp [slice, supportProtocolName]
  obtain ⟨c', b', hc1, hc2, hc3⟩ := C38_support_extended hs [] _ hlen hparse
  have hc0 : c' = 19 := by rw [← hhs] at hc1; simp at hc1; exact hc1.symm
  have hb : b' = c := by
    subst hc0
    rw [← hhs, List.append_nil] at hc2
    have : ([19] ++ b!"BitTorrent protocol" ++ rsv ++ rest)[6 + (19 : UInt8).toNat]? = rsv[5]? := by
      rw [List.getElem?_append_left (by simp [h1]), List.getElem?_append_right (by simp)]
      simp
    rw [this, h3] at hc2
    exact (Option.some.inj hc2).symm
  rw [hb, h4] at hc3
  refine ⟨s.trace ++ [.write (HandShake.Bytes { protocol := supportProtocolName, rBytes := reservedBytes, infoHash, peerId }) false] ++
    [.read 68 hs false], ?_, by simp only [reads_snoc]⟩
  have hw : withHandShakeMsg peerId infoHash = .ok (HandShake.Bytes { protocol := supportProtocolName, rBytes := reservedBytes, infoHash, peerId }) := by
    unfold withHandShakeMsg
    rw [if_neg (by simp [PeerIdLen, InfoHashLen, hp, hi])]
  unfold handshakePeer
  simp only [PM.bind_apply, hw, PM.lift_ok, write_ok hE, Bool.false_eq_true, if_false, connReadNew, others_calm hE, PM.get_apply,
    handShakeLen, emitP, PM.modify_apply, PM.pure_apply]
  rw [hr _ (by simp only [reads_snoc, Nat.add_zero])]
  have htake : hs.take 68 = hs := List.take_of_length_le (by omega)
  simp only [htake, hlen, Nat.sub_self, List.replicate_zero, List.append_nil, Bool.false_eq_true, if_false, PM.bind_apply]
  rw [List.append_nil] at hparse hproto
  rw [hparse]
  simp only [PM.lift_ok]
  rw [if_neg (by rw [hproto, equalFold_refl]; simp)]
  rw [List.append_nil] at hc3
  simp only [PM.bind_apply, hc3, PM.lift_ok]
  simp

theorem initial_ok (s : PSt) : ∃ tr, initialMessages E s = .ok () { s with trace := tr } ∧ reads tr = reads s.trace := by
  obtain ⟨pre, body, h, -⟩ := C39_roundtrip (E.order s.trace) (hE.order _) [(b!"ut_metadata", .int 1)] none
    (by simp [GoVal.WF, GoVal.WFD, IsInt64]) (by simp [Encodable, EncodableD]) (by simp [GoVal.WF, GoVal.WFD]) (by simp [Encodable, EncodableD])
  refine ⟨s.trace ++ [.write (pre ++ body) false], ?_, by simp only [reads_snoc, Nat.add_zero]⟩
  unfold initialMessages
  simp only [PM.bind_apply, PM.get_apply, h, PM.lift_ok, write_ok hE, Bool.false_eq_true, if_false, PM.pure_apply]

/-- A peer that speaks the protocol is downloaded from: it answers the handshake, announces the size of its
metadata and sends the pieces in order, every message arriving as two reads (prefix, body); nobody else uses the
buffers; and the pool holds enough spare 32 KiB buffers (`q32`) for all pieces (one piece needs none). -/
theorem C43_honest_download (sha1 : Bytes → Bytes) (fold : FoldTable) (fuel : Nat) (peerId infoHash : Bytes)
    (mem : Nat → Bytes) (pool : BPool) (q32 : List Slice) (hpool : Ready (NewPeerConn mem pool) q32)
    (hp : peerId.length = 20) (hi : infoHash.length = 20)
    {hs ext : Bytes} {dict : Entries} {pieces bodies : List Bytes}
    (hD : Delivers E (hs :: framed ext ++ bodies.flatMap framed))
    (hhs : IsPeerHandshake hs)
    (hext : ext.length ≤ 32768 ∧ parseExtendedHandShake ext = .ok dict ∧
      dict.lookup b!"metadata_size" = some (.int pieces.flatten.length))
    (hcut : pieces.length = (pieces.flatten.length + 16383) / 16384) (hne : ∀ p ∈ pieces, p ≠ [])
    (hsz : pieces.flatten.length < 2 ^ 40)
    (hlen : bodies.length = pieces.length)
    (hmsg : ∀ j p body, pieces[j]? = some p → bodies[j]? = some body → IsDataMsg j p body)
    (hspare : pieces.length ≤ max 1 q32.length) (hfuel : pieces.length + 2 ≤ fuel)
    (hsum : sha1 pieces.flatten = infoHash) :
    ∃ s, FetchMetaData E sha1 fold fuel peerId infoHash mem pool = .returned (some pieces.flatten) none s := by
  have hinit : (NewPeerConn mem pool).requested = [false] ∧ reads (NewPeerConn mem pool).trace = 0 := ⟨rfl, rfl⟩
  unfold FetchMetaData
  rw [hE.dial]
  simp only [Bool.false_eq_true, if_false]
  generalize NewPeerConn mem pool = s0 at *
  obtain ⟨tr1, g1, r1⟩ := handshake_ok hE (fold := fold) hhs hp hi s0
    (fun tr htr => hD tr 68 _ (by rw [htr, hinit.2]; rfl))
  have r1 : reads tr1 = 1 := by rw [r1, hinit.2]
  obtain ⟨tr2, g2, r2⟩ := initial_ok hE { s0 with trace := tr1 }
  have r2 : reads tr2 = 1 := by rw [r2]; exact r1
  obtain ⟨e1, e2, e3⟩ := hext
  obtain ⟨rest, -, -, hext1, -⟩ := (C39_accepts ext dict).1 e2
  -- the extended handshake
  have hready : Ready { s0 with trace := tr2 ++ [.expired false] } q32 :=
    ⟨(by obtain ⟨q4, H, h⟩ := hpool.pool; exact ⟨q4, ⟨H.ne, H.c1, H.c2, H.b1, H.b2, H.nodup, H.old⟩, h⟩), hpool.room⟩
  have r3 : reads (tr2 ++ [.expired false]) = 1 := by simp only [reads_snoc, r2]
  obtain ⟨b, t, hq, hbuf, hrd, hmem, hf, hreads, hcont⟩ := handler_ok hE hready (pre := be32 ext.length) (body := ext) rfl
    (beVal_be32 (by omega)) (by rw [hext1]; rfl) e1
    (fun tr htr => hD tr 4 _ (by rw [htr, r3]; rfl))
    (fun tr htr => hD tr 32768 _ (by rw [htr, r3]; rfl))
  obtain ⟨tr4, g4, r4⟩ := announce_ok hE (s := t) (rb := { b with len := ext.length }) (by rw [hext1]; rfl) e2 e3 hsz
  obtain ⟨v, hv1, hv2, hv3, hv4, hv5⟩ := hcont _ g4 rfl rfl
  have hP : Progress v (q32.tail ++ [b]) pieces pieces.flatten.length 0 := by
    refine ⟨by simpa using hv2, ?_, ?_, ?_, ?_, fun i h => absurd h (Nat.not_lt_zero _)⟩
    · rw [hv5]; show reads tr4 = _; rw [r4, hreads, r3]
    · exact hv4.2.1
    · rw [hv4.1]; simp [hcut]
    · rw [hv4.2.2.1]; simp [hcut]
  obtain ⟨f, rfl⟩ : ∃ f, fuel = f + 1 := ⟨fuel - 1, by omega⟩
  obtain ⟨u, h1, h2⟩ := pieces_loop hE (Q := q32.tail ++ [b]) (by simp; omega) hlen hne hmsg hD pieces.length 0 v f (by omega) (by omega) hP
  have hloop : readMetaDataLoop E (f + 1) { s0 with trace := tr2 } = .ok () u := by
    unfold readMetaDataLoop
    have : CompledMetaData { s0 with trace := tr2 } = false := by unfold CompledMetaData; rw [hinit.1]; rfl
    simp only [PM.bind_apply, PM.get_apply, this, Bool.false_eq_true, if_false, IsReadLoopExpire, hE.time, emitP, PM.modify_apply,
      PM.pure_apply, hv1, h1]
  have hdone : CompledMetaData u = true := by unfold CompledMetaData; rw [h2.req]; simp
  have hreqlen : u.requested.length = pieces.length := by rw [h2.req]; simp
  obtain ⟨tr', hmerge⟩ := merge_ok hE (s := { u with trace := u.trace ++ [.alloc (pieces.flatten.length * 1)] }) (pieces := pieces) pieces.length 0 []
    (by omega) (fun i hi => by
      obtain ⟨sl, x, p, a1, a2, a3, a4, a5⟩ := h2.got i hi
      exact ⟨sl, p, a1, a3, a5⟩)
  rw [h2.size] at hmerge
  refine ⟨{ u with trace := tr' ++ [.close] }, ?_⟩
  have hbody : fetchBody E sha1 fold (f + 1) peerId infoHash (s0) =
      .ok (some pieces.flatten, none) { u with trace := tr' } := by
    unfold fetchBody
    simp only [PM.bind_apply, g1, g2, hloop, PM.get_apply, hdone, not_true_eq_false, if_false, h2.size,
      make_ok hE _ 1 (show pieces.flatten.length * 1 ≤ 2 ^ 48 by omega), hreqlen, hmerge, List.nil_append, List.drop_zero, hsum, ne_eq,
      PM.pure_apply]
  rw [hbody]
  rfl
end

end P2P

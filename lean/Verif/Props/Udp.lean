import Verif.Model.Udp
import Verif.Props.BytesPool
/-! # C37: packets are not overwritten before they are handled; C56: closing the server -/
namespace P2P

/-- packet waiting in the receive routine -/
def RecvPc.packets : RecvPc → List UdpPacket
  | .sending p => [p]
  | _ => []

/-- Packets that have been received and whose handling has not finished. -/
def UdpSt.inFlight (s : UdpSt) : List UdpPacket :=
  s.active.map Handling.pkt ++ s.queue ++ s.listen.toList ++ s.recvq ++ s.rpc.packets

/-- the array the kernel is about to write to -/
def RecvPc.arrs : RecvPc → List Nat
  | .reading b => [b.arr]
  | _ => []

/-- arrays in use -/
def UdpSt.used (s : UdpSt) : List Nat := s.rpc.arrs ++ s.inFlight.map (fun p => p.buf.arr)

/-- all pooled slices start at the beginning of their array -/
def BPool.Whole (p : BPool) : Prop := ∀ i c, p.chan i = some c → ∀ b ∈ c, b.off = 0

theorem whole_get {p p' : BPool} {n : Int} {b : Slice} (h : p.Whole) (hg : p.GetBySize n = .ok (b, p')) :
    p'.Whole ∧ b.off = 0 := by
  unfold BPool.GetBySize BPool.selectGet at hg
  have hw : (p.loadOrStore n).Whole := by
    intro j c hc
    rw [loadOrStore_chan] at hc
    by_cases hj : j = n
    · subst hj
      rw [if_pos rfl, Option.some.injEq] at hc
      subst hc
      cases hp : p.chan j with
      | none => simp
      | some d => exact h j d hp
    · rw [if_neg hj] at hc; exact h j c hc
  split at hg
  · rename_i b0 r hc
    simp only [Res.ok.injEq, Prod.mk.injEq] at hg
    obtain ⟨rfl, rfl⟩ := hg
    refine ⟨fun j c hj => ?_, hw _ _ hc b0 (by simp)⟩
    simp only [BPool.chan, lookup_setChan] at hj
    by_cases hji : j = n
    · subst hji
      simp only [BPool.chan] at hc
      rw [if_pos rfl, hc] at hj
      simp only [Option.map_some, Option.some.injEq] at hj
      subst hj
      exact fun x hx => hw _ _ hc x (by simp [hx])
    · rw [if_neg hji] at hj
      exact hw j c hj
  · split at hg
    · cases hg
    · simp only [Res.ok.injEq, Prod.mk.injEq] at hg
      obtain ⟨rfl, rfl⟩ := hg
      exact ⟨hw, rfl⟩

theorem whole_put {p : BPool} (h : p.Whole) (b : Slice) (hb : b.off = 0) : (p.Put b).Whole := by
  unfold BPool.Put BPool.selectPut
  have hw : (p.loadOrStore b.cap).Whole := by
    intro j c hc
    rw [loadOrStore_chan] at hc
    by_cases hj : j = (b.cap : Int)
    · subst hj
      rw [if_pos rfl, Option.some.injEq] at hc
      subst hc
      cases hp : p.chan b.cap with
      | none => simp
      | some d => exact h _ d hp
    · rw [if_neg hj] at hc; exact h j c hc
  split
  · rename_i c hc
    split
    · intro j d hj
      simp only [BPool.chan, lookup_setChan] at hj
      by_cases hji : j = (b.cap : Int)
      · subst hji
        simp only [BPool.chan] at hc
        rw [if_pos rfl, hc] at hj
        simp only [Option.map_some, Option.some.injEq] at hj
        subst hj
        intro x hx
        rcases List.mem_append.1 hx with hx | hx
        · exact hw _ _ hc x hx
        · simp at hx; subst hx; exact hb
      · rw [if_neg hji] at hj
        exact hw j d hj
    · exact hw
  · exact hw

theorem pooled_get {p p' : BPool} {n : Int} {b : Slice} (h : p.GetBySize n = .ok (b, p')) :
    (List.Perm (b.arr :: pooled p') (pooled p) ∧ p'.fresh = p.fresh) ∨
    (b.arr = p.fresh ∧ pooled p' = pooled p ∧ p'.fresh = p.fresh + 1) := by
  have := selectGet_pooled h
  rwa [pooled_loadOrStore, loadOrStore_fresh] at this

theorem pooled_put (p : BPool) (b : Slice) : (p.Put b).fresh = p.fresh ∧
    (List.Perm (pooled (p.Put b)) (b.arr :: pooled p) ∨ pooled (p.Put b) = pooled p) := by
  have := selectPut_pooled (p.loadOrStore b.cap) b
  rwa [pooled_loadOrStore, loadOrStore_fresh] at this

/-- what all interleavings maintain -/
structure UdpInv (s : UdpSt) : Prop where
  nodup : (s.used ++ pooled s.pool).Nodup
  old : ∀ a ∈ s.used ++ pooled s.pool, a < s.pool.fresh
  ok : s.pool.Ok
  whole : s.pool.Whole
  reading : ∀ b, s.rpc = .reading b → b.off = 0 ∧ b.len = RecvPacketLen ∧ b.cap = RecvPacketLen
  intact : ∀ p ∈ s.inFlight, p.buf.off = 0 ∧ readSlice s.mem p.buf = p.data
  seen : ∀ h ∈ s.active, ∀ d, h.seen = some d → d = h.pkt.data
  done : ∀ h ∈ s.finished, h.seen = some h.pkt.data
  order : s.received = s.started ++ s.queue ++ s.listen.toList ++ s.recvq ++ s.rpc.packets
  handled : List.Perm s.started (s.active.map Handling.pkt ++ s.finished.map Handling.pkt)
  numbered : ∀ (i : Nat) (p : UdpPacket), s.received[i]? = some p → p.no = i ∧ p.data.length ≤ RecvPacketLen

theorem readSlice_upd_ne {mem : Nat → Bytes} {b : Slice} {a : Nat} {x : Bytes} (h : b.arr ≠ a) :
    readSlice (upd mem a x) b = readSlice mem b := by
  simp [readSlice, upd_ne _ _ h]

/-- a step that only moves packets around keeps what concerns buffers -/
theorem UdpInv.init {s : UdpSt} (h : s.init) : UdpInv s := by
  obtain ⟨hp, hm, hr, hq, hl, hqu, ha, -, -, -, -, hrc, hst, hfi, -⟩ := h
  have hin : s.inFlight = [] := by simp [UdpSt.inFlight, ha, hqu, hl, hq, hr, RecvPc.packets]
  have hus : s.used = [] := by simp [UdpSt.used, hin, hr, RecvPc.arrs]
  have hpo : pooled s.pool = [] := by
    simp only [NewBytesPool] at hp
    rw [if_neg (by omega)] at hp
    simp only [Res.ok.injEq] at hp
    rw [← hp]; rfl
  obtain ⟨h1, h2, h3⟩ := new_ok hp
  exact {
    nodup := by simp [hus, hpo]
    old := by simp [hus, hpo]
    ok := h1
    whole := fun i c hc => by rw [h3 i c hc]; simp
    reading := by simp [hr]
    intact := by simp [hin]
    seen := by simp [ha]
    done := by simp [hfi]
    order := by simp [hrc, hst, hqu, hl, hq, hr, RecvPc.packets]
    handled := by simp [hst, ha, hfi]
    numbered := by simp [hrc] }

theorem UdpInv.step {s t : UdpSt} (h : UdpInv s) (hs : UdpStep s t) : UdpInv t := by
  cases hs with
  | test hr =>
    have hin : UdpSt.inFlight { s with rpc := if s.closed then .stopped else .loop } = s.inFlight := by
      simp only [UdpSt.inFlight, hr]; split <;> rfl
    have hus : UdpSt.used { s with rpc := if s.closed then .stopped else .loop } = s.used := by
      simp only [UdpSt.used, hin, hr]; split <;> rfl
    exact {
      nodup := by rw [hus]; exact h.nodup
      old := by rw [hus]; exact h.old
      ok := h.ok, whole := h.whole
      reading := by intro b hb; simp only at hb; split at hb <;> cases hb
      intact := by rw [hin]; exact h.intact
      seen := h.seen, done := h.done
      order := by have := h.order; rw [hr] at this; simp only; split <;> exact this
      handled := h.handled, numbered := h.numbered }
  | @getOld b p hr hg hf =>
    obtain ⟨hw, hoff⟩ := whole_get h.whole hg
    obtain ⟨hok, hcap, hlen, -⟩ := selectGet_ok (loadOrStore_ok h.ok _) hg
    have hin : UdpSt.inFlight { s with pool := p, rpc := .reading b } = s.inFlight := by
      simp only [UdpSt.inFlight, hr]; rfl
    have hperm : List.Perm (UdpSt.used { s with pool := p, rpc := .reading b } ++ pooled p) (s.used ++ pooled s.pool) := by
      simp only [UdpSt.used, hin, hr, RecvPc.arrs, List.nil_append]
      rcases pooled_get hg with ⟨hp, -⟩ | ⟨-, -, hf'⟩
      · simp only [List.cons_append, List.nil_append]
        exact List.perm_middle.symm.trans (hp.append_left _)
      · omega
    have hc : b.cap = RecvPacketLen := by exact_mod_cast hcap
    exact {
      nodup := hperm.nodup_iff.2 h.nodup
      old := fun a ha => by show a < p.fresh; rw [hf]; exact h.old a (hperm.mem_iff.1 ha)
      ok := hok, whole := hw
      reading := by intro b' hb; simp only [RecvPc.reading.injEq] at hb; subst hb; exact ⟨hoff, by omega, hc⟩
      intact := by rw [hin]; exact h.intact
      seen := h.seen, done := h.done
      order := by have := h.order; rw [hr] at this; exact this
      handled := h.handled, numbered := h.numbered }
  | @getNew b p hr hg hf =>
    obtain ⟨hw, hoff⟩ := whole_get h.whole hg
    obtain ⟨hok, hcap, hlen, -⟩ := selectGet_ok (loadOrStore_ok h.ok _) hg
    have hc : b.cap = RecvPacketLen := by exact_mod_cast hcap
    rcases pooled_get hg with ⟨-, hf'⟩ | ⟨harr, hpo, hf'⟩
    · exact absurd hf' hf
    have hin : UdpSt.inFlight { s with pool := p, rpc := .reading b, mem := upd s.mem b.arr (List.replicate b.cap 0) } =
        s.inFlight := by simp only [UdpSt.inFlight, hr]; rfl
    have hus : UdpSt.used { s with pool := p, rpc := .reading b, mem := upd s.mem b.arr (List.replicate b.cap 0) } =
        b.arr :: s.used := by simp only [UdpSt.used, hin, hr, RecvPc.arrs]; rfl
    have hnew : b.arr ∉ s.used ++ pooled s.pool := fun hm => by have := h.old _ hm; omega
    exact {
      nodup := by
        show (_ ++ pooled p).Nodup
        rw [hus, hpo, List.cons_append, List.nodup_cons]; exact ⟨hnew, h.nodup⟩
      old := by
        intro a ha
        show a < p.fresh
        replace ha : a ∈ UdpSt.used { s with pool := p, rpc := .reading b, mem := upd s.mem b.arr (List.replicate b.cap 0) } ++ pooled p := ha
        rw [hus, hpo, List.cons_append, List.mem_cons] at ha
        rcases ha with rfl | ha
        · omega
        · have := h.old a ha; omega
      ok := hok, whole := hw
      reading := by intro b' hb; simp only [RecvPc.reading.injEq] at hb; subst hb; exact ⟨hoff, by omega, hc⟩
      intact := by
        rw [hin]
        intro q hq
        refine ⟨(h.intact q hq).1, ?_⟩
        show readSlice (upd s.mem b.arr _) q.buf = _
        rw [readSlice_upd_ne]
        · exact (h.intact q hq).2
        · intro he
          exact hnew (List.mem_append_left _ (List.mem_append_right _ (List.mem_map.2 ⟨q, hq, he⟩)))
      seen := h.seen, done := h.done
      order := by have := h.order; rw [hr] at this; exact this
      handled := h.handled, numbered := h.numbered }
  | @recv b addr datagram hr ho =>
    obtain ⟨hoff, hlen, hcap⟩ := h.reading b hr
    generalize hd : datagram.take b.len = data
    have hdl : data.length ≤ RecvPacketLen := by rw [← hd, List.length_take]; omega
    generalize hp : ({ addr, buf := { b with len := data.length }, data, no := s.received.length } : UdpPacket) = pkt
    have hpa : pkt.buf.arr = b.arr := by rw [← hp]
    have hin : UdpSt.inFlight { s with mem := writeSlice s.mem b data, rpc := .sending pkt, received := s.received ++ [pkt] } =
        s.inFlight ++ [pkt] := by simp only [UdpSt.inFlight, hr, RecvPc.packets, List.append_nil]
    have hus : List.Perm
        (UdpSt.used { s with mem := writeSlice s.mem b data, rpc := .sending pkt, received := s.received ++ [pkt] }) s.used := by
      simp only [UdpSt.used, hin, hr, RecvPc.arrs, List.nil_append, List.map_append, List.map_cons, List.map_nil, hpa]
      exact List.perm_append_comm
    have hne : ∀ q ∈ s.inFlight, q.buf.arr ≠ b.arr := by
      intro q hq he
      have hn := (List.nodup_append.1 h.nodup).1
      simp only [UdpSt.used, hr, RecvPc.arrs, List.cons_append, List.nil_append, List.nodup_cons] at hn
      exact hn.1 (List.mem_map.2 ⟨q, hq, he⟩)
    exact {
      nodup := (hus.append_right _).nodup_iff.2 h.nodup
      old := fun a ha => h.old a ((hus.append_right _).mem_iff.1 ha)
      ok := h.ok, whole := h.whole
      reading := by intro b' hb; cases hb
      intact := by
        rw [hin]
        intro q hq
        rcases List.mem_append.1 hq with hq | hq
        · refine ⟨(h.intact q hq).1, ?_⟩
          show readSlice (writeSlice s.mem b data) q.buf = _
          unfold writeSlice
          rw [readSlice_upd_ne (hne q hq)]
          exact (h.intact q hq).2
        · simp only [List.mem_singleton] at hq
          subst hq
          rw [← hp]
          refine ⟨hoff, ?_⟩
          show readSlice (writeSlice s.mem b data) _ = _
          simp [readSlice, writeSlice, hoff]
      seen := h.seen, done := h.done
      order := by
        have := h.order
        rw [hr] at this
        simp only [RecvPc.packets, List.append_nil] at this ⊢
        rw [this]
      handled := h.handled
      numbered := by
        intro i q hq
        simp only at hq
        rw [List.getElem?_append] at hq
        split at hq
        · exact h.numbered i q hq
        · rename_i hi
          have : i - s.received.length = 0 := by
            rcases Nat.eq_zero_or_pos (i - s.received.length) with h0 | h0
            · exact h0
            · rw [List.getElem?_eq_none (by simp; omega)] at hq; cases hq
          rw [this] at hq
          simp only [List.getElem?_cons_zero, Option.some.injEq] at hq
          subst hq
          rw [← hp]
          exact ⟨by show s.received.length = i; omega, hdl⟩ }
  | @recvErr b hr =>
    have hin : UdpSt.inFlight { s with rpc := .top, leaked := b.arr :: s.leaked } = s.inFlight := by
      simp only [UdpSt.inFlight, hr]; rfl
    have hus : s.used = b.arr :: UdpSt.used { s with rpc := .top, leaked := b.arr :: s.leaked } := by
      simp only [UdpSt.used, hin, hr, RecvPc.arrs]; rfl
    exact {
      nodup := by
        have := h.nodup
        rw [hus, List.cons_append, List.nodup_cons] at this
        exact this.2
      old := by
        intro a ha
        refine h.old a ?_
        rw [hus, List.cons_append]
        exact List.mem_cons_of_mem _ ha
      ok := h.ok, whole := h.whole
      reading := by intro b' hb; cases hb
      intact := by rw [hin]; exact h.intact
      seen := h.seen, done := h.done
      order := by have := h.order; rw [hr] at this; exact this
      handled := h.handled, numbered := h.numbered }
  | @enqueue p hr hl =>
    have hin : UdpSt.inFlight { s with rpc := .top, recvq := s.recvq ++ [p] } = s.inFlight := by
      simp only [UdpSt.inFlight, hr, RecvPc.packets, List.append_nil, List.append_assoc]
    have hus : UdpSt.used { s with rpc := .top, recvq := s.recvq ++ [p] } = s.used := by
      simp only [UdpSt.used, hin, hr, RecvPc.arrs]
    exact {
      nodup := by rw [hus]; exact h.nodup
      old := by rw [hus]; exact h.old
      ok := h.ok, whole := h.whole
      reading := by intro b' hb; cases hb
      intact := by rw [hin]; exact h.intact
      seen := h.seen, done := h.done
      order := by have := h.order; rw [hr] at this; simpa [RecvPc.packets] using this
      handled := h.handled, numbered := h.numbered }
  | @take p r hl hq =>
    have hin : UdpSt.inFlight { s with listen := some p, recvq := r } = s.inFlight := by
      simp [UdpSt.inFlight, hl, hq]
    have hus : UdpSt.used { s with listen := some p, recvq := r } = s.used := by
      simp only [UdpSt.used, hin]
    exact {
      nodup := by rw [hus]; exact h.nodup
      old := by rw [hus]; exact h.old
      ok := h.ok, whole := h.whole
      reading := h.reading
      intact := by rw [hin]; exact h.intact
      seen := h.seen, done := h.done
      order := by have := h.order; rw [hl, hq] at this; simpa using this
      handled := h.handled, numbered := h.numbered }
  | @submit p hl =>
    have hin : UdpSt.inFlight { s with listen := none, queue := s.queue ++ [p] } = s.inFlight := by
      simp [UdpSt.inFlight, hl]
    have hus : UdpSt.used { s with listen := none, queue := s.queue ++ [p] } = s.used := by
      simp only [UdpSt.used, hin]
    exact {
      nodup := by rw [hus]; exact h.nodup
      old := by rw [hus]; exact h.old
      ok := h.ok, whole := h.whole
      reading := h.reading
      intact := by rw [hin]; exact h.intact
      seen := h.seen, done := h.done
      order := by have := h.order; rw [hl] at this; simpa using this
      handled := h.handled, numbered := h.numbered }
  | @start p r hq =>
    have hin : UdpSt.inFlight { s with queue := r, active := s.active ++ [{ pkt := p, seen := none }], started := s.started ++ [p] } =
        s.inFlight := by
      simp [UdpSt.inFlight, hq]
    have hus : UdpSt.used { s with queue := r, active := s.active ++ [{ pkt := p, seen := none }], started := s.started ++ [p] } =
        s.used := by
      simp only [UdpSt.used, hin]
    exact {
      nodup := by rw [hus]; exact h.nodup
      old := by rw [hus]; exact h.old
      ok := h.ok, whole := h.whole
      reading := h.reading
      intact := by rw [hin]; exact h.intact
      seen := by
        intro x hx d hd
        rcases List.mem_append.1 hx with hx | hx
        · exact h.seen x hx d hd
        · simp at hx; subst hx; cases hd
      done := h.done
      order := by have := h.order; rw [hq] at this; simpa using this
      handled := by
        simp only [List.map_append, List.map_cons, List.map_nil, List.append_assoc]
        refine (h.handled.append_right [p]).trans ?_
        rw [List.append_assoc]
        exact List.Perm.append_left _ List.perm_append_comm
      numbered := h.numbered }
  | @decode p l r ha =>
    have hin : UdpSt.inFlight { s with active := l ++ { pkt := p, seen := some (readSlice s.mem p.buf) } :: r } = s.inFlight := by
      simp [UdpSt.inFlight, ha]
    have hus : UdpSt.used { s with active := l ++ { pkt := p, seen := some (readSlice s.mem p.buf) } :: r } = s.used := by
      simp only [UdpSt.used, hin]
    have hp : p ∈ s.inFlight := by simp [UdpSt.inFlight, ha]
    exact {
      nodup := by rw [hus]; exact h.nodup
      old := by rw [hus]; exact h.old
      ok := h.ok, whole := h.whole
      reading := h.reading
      intact := by rw [hin]; exact h.intact
      seen := by
        intro x hx d hd
        simp only [List.mem_append, List.mem_cons] at hx
        rcases hx with hx | rfl | hx
        · exact h.seen x (by simp [ha, hx]) d hd
        · simp only [Option.some.injEq] at hd
          rw [← hd]; exact (h.intact p hp).2
        · exact h.seen x (by simp [ha, hx]) d hd
      done := h.done, order := h.order
      handled := by have := h.handled; rw [ha] at this; simpa using this
      numbered := h.numbered }
  | @finish x l r ha hseen =>
    have hin : List.Perm s.inFlight
        (x.pkt :: UdpSt.inFlight { s with active := l ++ r, pool := s.pool.Put x.pkt.buf, finished := s.finished ++ [x] }) := by
      simp only [UdpSt.inFlight, ha, List.map_append, List.map_cons, List.append_assoc, List.cons_append]
      exact List.perm_middle
    have hus : List.Perm s.used
        (x.pkt.buf.arr :: UdpSt.used { s with active := l ++ r, pool := s.pool.Put x.pkt.buf, finished := s.finished ++ [x] }) := by
      simp only [UdpSt.used]
      refine ((hin.map _).append_left _).trans ?_
      simp only [List.map_cons]
      exact List.perm_middle
    have hx : x.pkt ∈ s.inFlight := by simp [UdpSt.inFlight, ha]
    have hxa : x ∈ s.active := by simp [ha]
    obtain ⟨hf, hpo⟩ := pooled_put s.pool x.pkt.buf
    have hnd := (hus.append_right (pooled s.pool)).nodup_iff.1 h.nodup
    have hold : ∀ a ∈ (x.pkt.buf.arr ::
        UdpSt.used { s with active := l ++ r, pool := s.pool.Put x.pkt.buf, finished := s.finished ++ [x] }) ++ pooled s.pool,
        a < s.pool.fresh :=
      fun a ha => h.old a ((hus.append_right _).mem_iff.2 ha)
    exact {
      nodup := by
        show (_ ++ pooled (s.pool.Put x.pkt.buf)).Nodup
        rcases hpo with hp | hp
        · exact ((hp.append_left _).trans List.perm_middle).nodup_iff.2 hnd
        · rw [hp]; exact (List.nodup_cons.1 hnd).2
      old := by
        intro a ha
        show a < (s.pool.Put x.pkt.buf).fresh
        rw [hf]
        rcases hpo with hp | hp
        · exact hold a (((hp.append_left _).trans List.perm_middle).mem_iff.1 ha)
        · refine hold a ?_
          rw [List.cons_append]
          refine List.mem_cons_of_mem _ ?_
          simpa only [hp] using ha
      ok := selectPut_ok (loadOrStore_ok h.ok _) _
      whole := whole_put h.whole _ (h.intact _ hx).1
      reading := h.reading
      intact := fun q hq => h.intact q (hin.mem_iff.2 (List.mem_cons_of_mem _ hq))
      seen := by
        intro y hy d hd
        refine h.seen y ?_ d hd
        rw [ha]
        rcases List.mem_append.1 hy with hy | hy <;> simp [hy]
      done := by
        intro y hy
        rcases List.mem_append.1 hy with hy | hy
        · exact h.done y hy
        · simp only [List.mem_singleton] at hy
          subst hy
          obtain ⟨d, hd⟩ := Option.isSome_iff_exists.1 hseen
          rw [hd, h.seen y hxa d hd]
      order := h.order
      handled := by
        refine h.handled.trans ?_
        rw [ha]
        simp only [List.map_append, List.map_cons, List.map_nil, List.append_assoc, List.cons_append]
        refine List.perm_middle.trans ?_
        rw [← List.append_assoc, ← List.append_assoc, ← List.append_assoc]
        exact (List.perm_append_singleton x.pkt _).symm
      numbered := h.numbered }
  | closeTest g hg => exact ⟨h.nodup, h.old, h.ok, h.whole, h.reading, h.intact, h.seen, h.done, h.order, h.handled, h.numbered⟩
  | closeLock hg hl => exact ⟨h.nodup, h.old, h.ok, h.whole, h.reading, h.intact, h.seen, h.done, h.order, h.handled, h.numbered⟩
  | closeStore hg => exact ⟨h.nodup, h.old, h.ok, h.whole, h.reading, h.intact, h.seen, h.done, h.order, h.handled, h.numbered⟩
  | closeConn hg => exact ⟨h.nodup, h.old, h.ok, h.whole, h.reading, h.intact, h.seen, h.done, h.order, h.handled, h.numbered⟩

theorem UdpInv.of_reach {s : UdpSt} (hr : Reach UdpSt.init UdpStep s) : UdpInv s :=
  Reach.inv UdpInv (fun _ h => .init h) (fun _ _ h hs => h.step hs) hr

/-! ## C37 -/

/-- C37: in every interleaving of the receive routine, `Listen`, any number of workers and `Close` callers, the bytes a worker
decodes are exactly those received with that packet (the datagram, cut after 1024 bytes). -/
theorem C37_decoded_is_received {s : UdpSt} (hr : Reach UdpSt.init UdpStep s) :
    (∀ h ∈ s.active, ∀ d, h.seen = some d → d = h.pkt.data) ∧ (∀ h ∈ s.finished, h.seen = some h.pkt.data) :=
  ⟨(UdpInv.of_reach hr).seen, (UdpInv.of_reach hr).done⟩

/-- C37: no two packets in flight share a buffer, the buffer being filled is nobody's, and none of these is in the pool. -/
theorem C37_no_sharing {s : UdpSt} (hr : Reach UdpSt.init UdpStep s) :
    (s.inFlight.map (fun p => p.buf.arr)).Nodup ∧
    (∀ b, s.rpc = .reading b → b.arr ∉ pooled s.pool ∧ ∀ p ∈ s.inFlight, p.buf.arr ≠ b.arr) ∧
    ∀ p ∈ s.inFlight, p.buf.arr ∉ pooled s.pool := by
  have h := (UdpInv.of_reach hr).nodup
  have h1 := List.nodup_append.1 h
  have h2 := List.nodup_append.1 h1.1
  refine ⟨h2.2.1, fun b hb => ⟨fun hm => ?_, fun p hp he => ?_⟩, fun p hp hm => ?_⟩
  · exact h1.2.2 b.arr (by simp [UdpSt.used, hb, RecvPc.arrs]) _ hm rfl
  · exact h2.2.2 b.arr (by simp [hb, RecvPc.arrs]) _ (List.mem_map.2 ⟨p, hp, rfl⟩) he.symm
  · exact h1.2.2 p.buf.arr (List.mem_append_right _ (List.mem_map.2 ⟨p, hp, rfl⟩)) _ hm rfl

/-- C37: every received packet is handled at most once, handling starts in the order of arrival, and no packet is lost on the way:
the packets read so far are those started, queued in the work pool, being submitted, in the receive channel and being enqueued –
in this order. -/
theorem C37_in_order {s : UdpSt} (hr : Reach UdpSt.init UdpStep s) :
    s.received = s.started ++ s.queue ++ s.listen.toList ++ s.recvq ++ s.rpc.packets ∧
    List.Perm s.started (s.active.map Handling.pkt ++ s.finished.map Handling.pkt) ∧
    s.started.Nodup := by
  have h := UdpInv.of_reach hr
  refine ⟨h.order, h.handled, ?_⟩
  have hn : s.received.Nodup := by
    unfold List.Nodup
    rw [List.pairwise_iff_getElem]
    intro i j hi hj hij he
    have h1 := h.numbered j _ (List.getElem?_eq_getElem hj)
    have h2 := h.numbered i _ (List.getElem?_eq_getElem hi)
    rw [he] at h2
    omega
  rw [h.order] at hn
  simp only [List.append_assoc] at hn
  exact (List.nodup_append.1 hn).1

/-- what reading a datagram yields: its first 1024 bytes -/
theorem C37_truncated {s t : UdpSt} (hr : Reach UdpSt.init UdpStep s) (hs : UdpStep s t) {p : UdpPacket}
    (ht : t.received = s.received ++ [p]) : p.data.length ≤ 1024 := by
  have h := (UdpInv.of_reach (.step hr hs)).numbered s.received.length p (by rw [ht]; simp)
  exact h.2

/-- C37: a receive routine that is waiting for a datagram takes whichever comes, from whomever, and keeps exactly its first 1024 bytes. -/
theorem C37_reads {s : UdpSt} (hr : Reach UdpSt.init UdpStep s) {b : Slice} (hb : s.rpc = .reading b) (ho : s.connOpen = true)
    (addr : UDPAddr) (datagram : Bytes) :
    ∃ t p, UdpStep s t ∧ t.received = s.received ++ [p] ∧ p.addr = addr ∧ p.data = datagram.take 1024 := by
  have hl := ((UdpInv.of_reach hr).reading b hb).2.1
  exact ⟨_, _, .recv addr datagram hb ho, rfl, rfl, by rw [hl]; rfl⟩

/-- a run: a packet is received, handled, its buffer goes back to the pool and is used again for a second packet -/
example : ∃ s, Reach UdpSt.init UdpStep s ∧
    s.finished.map (fun h => (h.pkt.data, h.seen)) = [(b!"d1:y1:ee", some b!"d1:y1:ee")] ∧
    s.inFlight.map (fun p => (p.buf.arr, p.data)) = [(0, b!"hi")] ∧ readSlice s.mem { arr := 0, off := 0, len := 4, cap := 1024 } = b!"hi:y" := by
  let a : UDPAddr := { ip := [1, 2, 3, 4], port := 5 }
  let s0 : UdpSt := {
    pool := { chans := [(100, [])], defaultWidth := 100, maxSize := 10000, fresh := 0 }, mem := fun _ => [],
    rpc := .top, recvq := [], listen := none, queue := [], active := [], closed := false, connOpen := true, lock := none,
    closer := fun _ => .idle, received := [], started := [], finished := [], leaked := [] }
  have r0 : Reach UdpSt.init UdpStep s0 :=
    .init ⟨rfl, rfl, rfl, rfl, rfl, rfl, rfl, rfl, rfl, rfl, fun _ => rfl, rfl, rfl, rfl, rfl⟩
  have r1 := Reach.step r0 (.test rfl)
  have r2 := Reach.step r1 (.getNew (b := { arr := 0, off := 0, len := 1024, cap := 1024 })
    (p := { chans := [(1024, []), (100, [])], defaultWidth := 100, maxSize := 10000, fresh := 1 }) rfl (by decide) (by decide))
  have r3 := Reach.step r2 (.recv a b!"d1:y1:ee" rfl rfl)
  have r4 := Reach.step r3 (.enqueue rfl (by decide))
  have r5 := Reach.step r4 (.take rfl rfl)
  have r6 := Reach.step r5 (.submit rfl)
  have r7 := Reach.step r6 (.start rfl)
  have r8 := Reach.step r7 (.decode (l := []) (r := []) rfl)
  have r9 := Reach.step r8 (.finish (l := []) (r := []) rfl rfl)
  have r10 := Reach.step r9 (.test rfl)
  have r11 := Reach.step r10 (.getOld (b := { arr := 0, off := 0, len := 1024, cap := 1024 })
    (p := { chans := [(1024, []), (100, [])], defaultWidth := 100, maxSize := 10000, fresh := 1 }) rfl (by decide +kernel) (by decide +kernel))
  have r12 := Reach.step r11 (.recv a b!"hi" rfl rfl)
  exact ⟨_, r12, by decide +kernel, by decide +kernel, by decide +kernel⟩

/-! ## C56: closing -/

/-- states reachable from `s` -/
def After (s t : UdpSt) : Prop := Reach (fun x => x = s) UdpStep t

/-- how far the receive routine is from its end once `closed` is set -/
def RecvPc.rank : RecvPc → Nat
  | .loop => 4
  | .reading _ => 3
  | .sending _ => 2
  | .top => 1
  | .stopped => 0

/-- C56: once `closed` has been stored, it stays; every further step of the receive routine brings it closer to its end, so it
takes at most four more steps; and it can always take one unless it waits for room in the receive channel. -/
theorem C56_receiver_ends {s t : UdpSt} (hc : s.closed = true) (hs : UdpStep s t) :
    t.closed = true ∧ (t.rpc = s.rpc ∨ t.rpc.rank < s.rpc.rank) := by
  cases hs with
  | test hr => exact ⟨hc, .inr (by simp [hr, hc, RecvPc.rank])⟩
  | getOld hr hg hf => exact ⟨hc, .inr (by simp [hr, RecvPc.rank])⟩
  | getNew hr hg hf => exact ⟨hc, .inr (by simp [hr, RecvPc.rank])⟩
  | recv addr datagram hr ho => exact ⟨hc, .inr (by simp [hr, RecvPc.rank])⟩
  | recvErr hr => exact ⟨hc, .inr (by simp [hr, RecvPc.rank])⟩
  | enqueue hr hl => exact ⟨hc, .inr (by simp [hr, RecvPc.rank])⟩
  | closeStore hg => exact ⟨rfl, .inl rfl⟩
  | _ => exact ⟨hc, .inl rfl⟩

theorem C56_receiver_not_stuck (s : UdpSt) : s.rpc = .stopped ∨ (∃ p, s.rpc = .sending p ∧ RecvChanLen ≤ s.recvq.length) ∨
    ∃ t, UdpStep s t ∧ t.rpc ≠ s.rpc := by
  cases hr : s.rpc with
  | stopped => exact .inl rfl
  | top => exact .inr (.inr ⟨_, .test hr, by simp only; split <;> simp⟩)
  | loop =>
    right; right
    have : ∃ b p, s.pool.GetBySize RecvPacketLen = .ok (b, p) := by
      unfold BPool.GetBySize BPool.selectGet
      split
      · exact ⟨_, _, rfl⟩
      · rw [if_neg (by simp [RecvPacketLen])]; exact ⟨_, _, rfl⟩
    obtain ⟨b, p, hg⟩ := this
    by_cases hf : p.fresh = s.pool.fresh
    · exact ⟨_, .getOld hr hg hf, by simp⟩
    · exact ⟨_, .getNew hr hg hf, by simp⟩
  | reading b => exact .inr (.inr ⟨_, .recvErr hr, by simp⟩)
  | sending p =>
    by_cases hl : s.recvq.length < RecvChanLen
    · exact .inr (.inr ⟨_, .enqueue hr hl, by simp⟩)
    · exact .inr (.inl ⟨p, rfl, by omega⟩)

/-- C56: after the connection has been closed no datagram is read any more, and `closed` is set. -/
theorem C56_no_more_packets {s t : UdpSt} (hr : Reach UdpSt.init UdpStep s) (hc : s.connOpen = false) (ht : After s t) :
    t.received = s.received ∧ t.connOpen = false ∧ t.closed = true := by
  have hI : ∀ s, Reach UdpSt.init UdpStep s → (s.connOpen = false → s.closed = true) ∧
      (∀ g, s.closer g = .stored → s.closed = true) := by
    intro s hr
    refine Reach.inv (fun s => (s.connOpen = false → s.closed = true) ∧ (∀ g, s.closer g = .stored → s.closed = true)) ?_ ?_ hr
    · rintro s ⟨-, -, -, -, -, -, -, hcl, ho, -, hg, -⟩
      exact ⟨by simp [ho], by simp [hg]⟩
    · rintro s t ⟨h1, h2⟩ hs
      cases hs with
      | closeTest g hg =>
        refine ⟨h1, fun g' hg' => ?_⟩
        by_cases he : g' = g
        · subst he; simp only [upd_same] at hg'; split at hg' <;> cases hg'
        · simp only [upd_ne _ _ he] at hg'; exact h2 g' hg'
      | closeLock hg hl =>
        rename_i g
        refine ⟨h1, fun g' hg' => ?_⟩
        by_cases he : g' = g
        · subst he; simp at hg'
        · simp only [upd_ne _ _ he] at hg'; exact h2 g' hg'
      | closeStore hg => exact ⟨fun _ => rfl, fun _ _ => rfl⟩
      | closeConn hg =>
        rename_i g
        exact ⟨fun _ => h2 g hg, fun _ _ => h2 g hg⟩
      | _ => exact ⟨h1, h2⟩
  refine Reach.inv (fun t => t.received = s.received ∧ t.connOpen = false ∧ t.closed = true) ?_ ?_ ht
  · rintro t rfl; exact ⟨rfl, hc, (hI t hr).1 hc⟩
  · rintro t u ⟨h1, h2, h3⟩ hs
    cases hs with
    | recv addr datagram hr ho => rw [h2] at ho; cases ho
    | closeStore hg => exact ⟨h1, h2, rfl⟩
    | closeConn hg => exact ⟨h1, rfl, h3⟩
    | _ => exact ⟨h1, h2, h3⟩

/-- C56: when `Close` returns, `closed` is set – but the connection may still be open: a second caller returns at once while the
first is about to close it. -/
theorem C56_closed_on_return {s : UdpSt} (hr : Reach UdpSt.init UdpStep s) {g : Nat} {e : Bool}
    (h : s.closer g = .returned e) : s.closed = true := by
  have hI : (∀ g e, s.closer g = .returned e → s.closed = true) ∧ (∀ g, s.closer g = .stored → s.closed = true) := by
    refine Reach.inv (fun s => (∀ g e, s.closer g = .returned e → s.closed = true) ∧
      (∀ g, s.closer g = .stored → s.closed = true)) ?_ ?_ hr
    · rintro s ⟨-, -, -, -, -, -, -, -, -, -, hg, -⟩
      exact ⟨by simp [hg], by simp [hg]⟩
    · rintro s t ⟨h1, h2⟩ hs
      cases hs with
      | closeTest g hg =>
        refine ⟨fun g' e hg' => ?_, fun g' hg' => ?_⟩
        · by_cases he : g' = g
          · subst he
            simp only [upd_same] at hg'
            split at hg'
            · assumption
            · cases hg'
          · simp only [upd_ne _ _ he] at hg'; exact h1 g' e hg'
        · by_cases he : g' = g
          · subst he; simp only [upd_same] at hg'; split at hg' <;> cases hg'
          · simp only [upd_ne _ _ he] at hg'; exact h2 g' hg'
      | closeLock hg hl =>
        rename_i g
        refine ⟨fun g' e hg' => ?_, fun g' hg' => ?_⟩
        · by_cases he : g' = g
          · subst he; simp at hg'
          · simp only [upd_ne _ _ he] at hg'; exact h1 g' e hg'
        · by_cases he : g' = g
          · subst he; simp at hg'
          · simp only [upd_ne _ _ he] at hg'; exact h2 g' hg'
      | closeStore hg => exact ⟨fun _ _ _ => rfl, fun _ _ => rfl⟩
      | closeConn hg =>
        rename_i g
        exact ⟨fun _ _ _ => h2 g hg, fun _ _ => h2 g hg⟩
      | _ => exact ⟨h1, h2⟩
  exact hI.1 g e h

/-- the second of two callers returns while the connection is still open -/
example : ∃ s, Reach UdpSt.init UdpStep s ∧ s.closer 1 = .returned false ∧ s.connOpen = true := by
  let s0 : UdpSt := {
    pool := { chans := [(100, [])], defaultWidth := 100, maxSize := 10000, fresh := 0 }, mem := fun _ => [],
    rpc := .top, recvq := [], listen := none, queue := [], active := [], closed := false, connOpen := true, lock := none,
    closer := fun _ => .idle, received := [], started := [], finished := [], leaked := [] }
  have r0 : Reach UdpSt.init UdpStep s0 :=
    .init ⟨rfl, rfl, rfl, rfl, rfl, rfl, rfl, rfl, rfl, rfl, fun _ => rfl, rfl, rfl, rfl, rfl⟩
  have r1 := Reach.step r0 (.closeTest 0 rfl)
  have r2 := Reach.step r1 (.closeLock (g := 0) rfl rfl)
  have r3 := Reach.step r2 (.closeStore (g := 0) rfl)
  have r4 := Reach.step r3 (.closeTest 1 rfl)
  exact ⟨_, r4, rfl, rfl⟩

/-- the first of two racing callers closes the connection, the second gets an error -/
example : ∃ s, Reach UdpSt.init UdpStep s ∧ s.closer 0 = .returned false ∧ s.closer 1 = .returned true ∧ s.connOpen = false := by
  let s0 : UdpSt := {
    pool := { chans := [(100, [])], defaultWidth := 100, maxSize := 10000, fresh := 0 }, mem := fun _ => [],
    rpc := .top, recvq := [], listen := none, queue := [], active := [], closed := false, connOpen := true, lock := none,
    closer := fun _ => .idle, received := [], started := [], finished := [], leaked := [] }
  have r0 : Reach UdpSt.init UdpStep s0 :=
    .init ⟨rfl, rfl, rfl, rfl, rfl, rfl, rfl, rfl, rfl, rfl, fun _ => rfl, rfl, rfl, rfl, rfl⟩
  have r1 := Reach.step r0 (.closeTest 0 rfl)
  have r2 := Reach.step r1 (.closeTest 1 rfl)
  have r3 := Reach.step r2 (.closeLock (g := 0) rfl rfl)
  have r4 := Reach.step r3 (.closeStore (g := 0) rfl)
  have r5 := Reach.step r4 (.closeConn (g := 0) rfl)
  have r6 := Reach.step r5 (.closeLock (g := 1) rfl rfl)
  have r7 := Reach.step r6 (.closeStore (g := 1) rfl)
  have r8 := Reach.step r7 (.closeConn (g := 1) rfl)
  exact ⟨_, r8, rfl, rfl, rfl⟩

end P2P

import Verif.Props.Udp
/-! # C109: the receive buffers of the UDP server are bounded and reused -/
namespace P2P

/-- Executions in which the work pool has at most `W` workers busy and at most `W` tasks queued (C48: the queue has as many places as there
are workers). -/
def UdpStepW (W : Nat) (s t : UdpSt) : Prop := UdpStep s t ∧ t.queue.length ≤ W ∧ t.active.length ≤ W

/-- only receive buffers are in the pool -/
def RecvShape (p : BPool) : Prop := p.chans = [(100, [])] ∨ ∃ c, p.chans = [(1024, c), (100, [])]

theorem recv_get {p p' : BPool} {b : Slice} (h : RecvShape p) (hg : p.GetBySize RecvPacketLen = .ok (b, p')) :
    RecvShape p' ∧ p'.maxSize = p.maxSize ∧
      ((p'.fresh = p.fresh ∧ (pooled p).length = (pooled p').length + 1) ∨ (p'.fresh = p.fresh + 1 ∧ (pooled p).length = 0 ∧ (pooled p').length = 0)) := by
  have key : ∀ (q : BPool) (c : List Slice), q.chans = [(1024, c), (100, [])] → q.selectGet 1024 = .ok (b, p') →
      RecvShape p' ∧ p'.maxSize = q.maxSize ∧ ((p'.fresh = q.fresh ∧ c.length = (pooled p').length + 1) ∨ (p'.fresh = q.fresh + 1 ∧ c.length = 0 ∧ (pooled p').length = 0)) := by
    intro q c hq hs
    have hc : q.chan 1024 = some c := by unfold BPool.chan; rw [hq]; rfl
    unfold BPool.selectGet at hs
    rw [hc] at hs
    cases c with
    | nil =>
      simp only at hs
      rw [if_neg (by omega)] at hs
      cases hs
      exact ⟨.inr ⟨[], hq⟩, rfl, .inr ⟨rfl, rfl, by unfold pooled; simp only [hq]; rfl⟩⟩
    | cons x r =>
      simp only at hs
      cases hs
      have e : setChan q.chans 1024 r = [(1024, r), (100, [])] := by rw [hq]; rfl
      refine ⟨.inr ⟨r, e⟩, rfl, .inl ⟨rfl, ?_⟩⟩
      unfold pooled
      simp only [e]
      simp
  unfold BPool.GetBySize at hg
  have hg : (p.loadOrStore 1024).selectGet 1024 = .ok (b, p') := hg
  unfold BPool.loadOrStore at hg
  rcases h with h | ⟨c, h⟩
  · have hc : p.chan 1024 = none := by unfold BPool.chan; rw [h]; rfl
    rw [hc] at hg
    have := key { p with chans := (1024, []) :: p.chans } [] (by simp only [h]) hg
    obtain ⟨h1, h2, h3⟩ := this
    refine ⟨h1, h2, ?_⟩
    have e : (pooled p).length = 0 := by unfold pooled; rw [h]; rfl
    rw [e]
    exact h3
  · have hc : p.chan 1024 = some c := by unfold BPool.chan; rw [h]; rfl
    rw [hc] at hg
    have := key p c h hg
    have e : (pooled p).length = c.length := by unfold pooled; rw [h]; simp
    rw [e]
    exact this

theorem recv_put {p : BPool} {b : Slice} (h : RecvShape p) (hb : b.cap = 1024) :
    RecvShape (p.Put b) ∧ (p.Put b).maxSize = p.maxSize ∧ (p.Put b).fresh = p.fresh ∧
      ((pooled (p.Put b)).length = (pooled p).length + 1 ∨ (p.maxSize ≤ (pooled p).length ∧ (pooled (p.Put b)).length = (pooled p).length)) := by
  have key : ∀ (q : BPool) (c : List Slice), q.chans = [(1024, c), (100, [])] →
      RecvShape (q.selectPut b) ∧ (q.selectPut b).maxSize = q.maxSize ∧ (q.selectPut b).fresh = q.fresh ∧
      ((pooled (q.selectPut b)).length = c.length + 1 ∨ (q.maxSize ≤ c.length ∧ (pooled (q.selectPut b)).length = c.length)) := by
    intro q c hq
    have hc : q.chan b.cap = some c := by unfold BPool.chan; rw [hq, hb]; rfl
    unfold BPool.selectPut
    rw [hc]
    simp only
    by_cases hl : c.length < q.maxSize
    · rw [if_pos hl]
      have e : setChan q.chans b.cap (c ++ [{ b with len := b.cap }]) = [(1024, c ++ [{ b with len := b.cap }]), (100, [])] := by rw [hq, hb]; rfl
      refine ⟨.inr ⟨_, e⟩, rfl, rfl, .inl ?_⟩
      unfold pooled
      simp only [e]
      simp
    · rw [if_neg hl]
      refine ⟨.inr ⟨c, hq⟩, rfl, rfl, .inr ⟨by omega, ?_⟩⟩
      unfold pooled
      rw [hq]
      simp
  unfold BPool.Put
  unfold BPool.loadOrStore
  rcases h with h | ⟨c, h⟩
  · have hc : p.chan b.cap = none := by unfold BPool.chan; rw [h, hb]; rfl
    rw [hc]
    have e : (pooled p).length = 0 := by unfold pooled; rw [h]; rfl
    rw [e]
    exact key { p with chans := (b.cap, []) :: p.chans } [] (by simp only [h, hb]; rfl)
  · have hc : p.chan b.cap = some c := by unfold BPool.chan; rw [h, hb]; rfl
    rw [hc]
    have e : (pooled p).length = c.length := by unfold pooled; rw [h]; simp
    rw [e]
    exact key p c h

/-- shape of the pool, sizes of the buffers, and the receive channel's capacity -/
structure BufInv (s : UdpSt) : Prop where
  shape : RecvShape s.pool
  max : s.pool.maxSize = 10000
  caps : ∀ p ∈ s.inFlight, p.buf.cap = 1024
  queue : s.recvq.length ≤ 100

theorem used_length (s : UdpSt) : s.used.length =
    s.rpc.arrs.length + s.rpc.packets.length + s.active.length + s.queue.length + s.listen.toList.length + s.recvq.length := by
  unfold UdpSt.used UdpSt.inFlight
  simp only [List.length_append, List.length_map]
  omega

theorem udp_caps {s t : UdpSt} (h : UdpInv s) (hI : BufInv s) (hs : UdpStep s t) : ∀ p ∈ t.inFlight, p.buf.cap = 1024 := by
  intro p hp
  by_cases hold : p ∈ s.inFlight
  · exact hI.caps p hold
  · cases hs with
    | recv addr datagram hr ho =>
      simp only [UdpSt.inFlight, List.mem_append, RecvPc.packets, List.mem_singleton] at hp hold
      rcases hp with hp | rfl
      · exact absurd (Or.inl hp) hold
      · exact (h.reading _ hr).2.2
    | test hr =>
      exfalso; apply hold
      simp only [UdpSt.inFlight, List.mem_append] at hp ⊢
      rcases hp with hp | hp
      · exact .inl hp
      · split at hp <;> cases hp
    | getOld hr hg hf =>
      exfalso; apply hold
      simp only [UdpSt.inFlight, List.mem_append] at hp ⊢
      rcases hp with hp | hp
      · exact .inl hp
      · cases hp
    | getNew hr hg hf =>
      exfalso; apply hold
      simp only [UdpSt.inFlight, List.mem_append] at hp ⊢
      rcases hp with hp | hp
      · exact .inl hp
      · cases hp
    | recvErr hr =>
      exfalso; apply hold
      simp only [UdpSt.inFlight, List.mem_append] at hp ⊢
      rcases hp with hp | hp
      · exact .inl hp
      · cases hp
    | enqueue hr hl =>
      exfalso; apply hold
      simp only [UdpSt.inFlight, List.mem_append, hr, RecvPc.packets, List.mem_singleton, List.not_mem_nil, or_false] at hp ⊢
      rcases hp with hp | hp | hp
      · exact .inl (.inl hp)
      · exact .inl (.inr hp)
      · exact .inr hp
    | take hl hq =>
      exfalso; apply hold
      simp only [UdpSt.inFlight, List.mem_append, hl, hq, Option.toList, List.mem_cons, List.not_mem_nil, or_false] at hp ⊢
      rcases hp with ((hp | hp) | hp) | hp
      · exact .inl (.inl hp)
      · exact .inl (.inr (.inl hp))
      · exact .inl (.inr (.inr hp))
      · exact .inr hp
    | submit hl =>
      exfalso; apply hold
      simp only [UdpSt.inFlight, List.mem_append, hl, Option.toList, List.mem_cons, List.not_mem_nil, or_false] at hp ⊢
      rcases hp with ((hp | hp | hp) | hp) | hp
      · exact .inl (.inl (.inl (.inl hp)))
      · exact .inl (.inl (.inl (.inr hp)))
      · exact .inl (.inl (.inr hp))
      · exact .inl (.inr hp)
      · exact .inr hp
    | start hq =>
      exfalso; apply hold
      simp only [UdpSt.inFlight, List.mem_append, hq, List.map_append, List.map_cons, List.map_nil, List.mem_cons, List.not_mem_nil, or_false] at hp ⊢
      rcases hp with ((((hp | hp) | hp) | hp) | hp) | hp
      · exact .inl (.inl (.inl (.inl hp)))
      · exact .inl (.inl (.inl (.inr (.inl hp))))
      · exact .inl (.inl (.inl (.inr (.inr hp))))
      · exact .inl (.inl (.inr hp))
      · exact .inl (.inr hp)
      · exact .inr hp
    | decode ha =>
      exfalso; apply hold
      simp only [UdpSt.inFlight, ha, List.map_append, List.map_cons] at hp ⊢
      exact hp
    | finish ha hsn =>
      exfalso; apply hold
      simp only [UdpSt.inFlight, ha, List.map_append, List.map_cons, List.mem_append, List.mem_cons] at hp ⊢
      rcases hp with ((((hp | hp) | hp) | hp) | hp) | hp
      · exact .inl (.inl (.inl (.inl (.inl hp))))
      · exact .inl (.inl (.inl (.inl (.inr (.inr hp)))))
      · exact .inl (.inl (.inl (.inr hp)))
      · exact .inl (.inl (.inr hp))
      · exact .inl (.inr hp)
      · exact .inr hp
    | closeTest g hg => exact absurd hp hold
    | closeLock hg hl => exact absurd hp hold
    | closeStore hg => exact absurd hp hold
    | closeConn hg => exact absurd hp hold

/-- what one step does to the numbers of buffers: `pool`ed, `used`, `leaked`, allocated (`fresh`) -/
inductive BufMoves (s t : UdpSt) : Prop
  /-- nothing is taken, given back or lost -/
  | stays : (pooled t.pool).length = (pooled s.pool).length → t.used.length = s.used.length → t.leaked.length = s.leaked.length → t.pool.fresh = s.pool.fresh → BufMoves s t
  /-- a pooled buffer is used again -/
  | reuse : (pooled s.pool).length = (pooled t.pool).length + 1 → t.used.length = s.used.length + 1 → t.leaked.length = s.leaked.length → t.pool.fresh = s.pool.fresh → BufMoves s t
  /-- a buffer is allocated: none is pooled -/
  | alloc : (pooled s.pool).length = 0 → (pooled t.pool).length = 0 → t.used.length = s.used.length + 1 → t.leaked.length = s.leaked.length → t.pool.fresh = s.pool.fresh + 1 → BufMoves s t
  /-- a read fails: its buffer is lost -/
  | leak : (pooled t.pool).length = (pooled s.pool).length → s.used.length = t.used.length + 1 → t.leaked.length = s.leaked.length + 1 → t.pool.fresh = s.pool.fresh → BufMoves s t
  /-- a packet is done with: its buffer goes back, or is dropped if 10000 buffers are pooled -/
  | back : (pooled t.pool).length = (pooled s.pool).length + 1 ∨ 10000 ≤ (pooled s.pool).length ∧ (pooled t.pool).length = (pooled s.pool).length →
      s.used.length = t.used.length + 1 → t.leaked.length = s.leaked.length → t.pool.fresh = s.pool.fresh → BufMoves s t

theorem buf_moves {s t : UdpSt} (hI : BufInv s) (hs : UdpStep s t) : BufMoves s t := by
  cases hs with
  | test hr =>
    refine .stays rfl ?_ rfl rfl
    rw [used_length, used_length]
    simp only [hr]
    split <;> rfl
  | getOld hr hg hf =>
    obtain ⟨-, -, ⟨h1, h2⟩ | ⟨h1, -, -⟩⟩ := recv_get hI.shape hg
    · refine .reuse h2 ?_ rfl hf
      rw [used_length, used_length]
      simp only [hr, RecvPc.arrs, RecvPc.packets, List.length_cons, List.length_nil]
      omega
    · exact absurd (h1.symm.trans hf) (by omega)
  | getNew hr hg hf =>
    obtain ⟨-, -, ⟨h1, h2⟩ | ⟨h1, h2, h3⟩⟩ := recv_get hI.shape hg
    · exact absurd h1 hf
    · refine .alloc h2 h3 ?_ rfl h1
      rw [used_length, used_length]
      simp only [hr, RecvPc.arrs, RecvPc.packets, List.length_cons, List.length_nil]
      omega
  | recv addr datagram hr ho =>
    refine .stays rfl ?_ rfl rfl
    rw [used_length, used_length]
    simp only [hr, RecvPc.arrs, RecvPc.packets, List.length_cons, List.length_nil]
  | recvErr hr =>
    refine .leak rfl ?_ rfl rfl
    rw [used_length, used_length]
    simp only [hr, RecvPc.arrs, RecvPc.packets, List.length_cons, List.length_nil]
    omega
  | enqueue hr hl =>
    refine .stays rfl ?_ rfl rfl
    rw [used_length, used_length]
    simp only [hr, RecvPc.arrs, RecvPc.packets, List.length_cons, List.length_nil, List.length_append]
    omega
  | take hl hq =>
    refine .stays rfl ?_ rfl rfl
    rw [used_length, used_length]
    simp only [hl, hq, Option.toList, List.length_cons, List.length_nil]
    omega
  | submit hl =>
    refine .stays rfl ?_ rfl rfl
    rw [used_length, used_length]
    simp only [hl, Option.toList, List.length_cons, List.length_nil, List.length_append]
    omega
  | start hq =>
    refine .stays rfl ?_ rfl rfl
    rw [used_length, used_length]
    simp only [hq, List.length_cons, List.length_nil, List.length_append]
    omega
  | decode ha =>
    refine .stays rfl ?_ rfl rfl
    rw [used_length, used_length]
    simp only [ha, List.length_cons, List.length_append]
  | finish ha hsn =>
    rename_i h l r
    have hcap : h.pkt.buf.cap = 1024 := hI.caps h.pkt (by simp [UdpSt.inFlight, ha])
    obtain ⟨-, -, h1, h2⟩ := recv_put hI.shape hcap
    rw [hI.max] at h2
    refine .back h2 ?_ rfl h1
    rw [used_length, used_length]
    simp only [ha, List.length_cons, List.length_append]
    omega
  | closeTest g hg => exact .stays rfl rfl rfl rfl
  | closeLock hg hl => exact .stays rfl rfl rfl rfl
  | closeStore hg => exact .stays rfl rfl rfl rfl
  | closeConn hg => exact .stays rfl rfl rfl rfl

theorem BufInv.step {s t : UdpSt} (h : UdpInv s) (hI : BufInv s) (hs : UdpStep s t) : BufInv t := by
  have hcaps := udp_caps h hI hs
  cases hs with
  | getOld hr hg hf =>
    obtain ⟨h1, h2, -⟩ := recv_get hI.shape hg
    exact ⟨h1, h2.trans hI.max, hcaps, hI.queue⟩
  | getNew hr hg hf =>
    obtain ⟨h1, h2, -⟩ := recv_get hI.shape hg
    exact ⟨h1, h2.trans hI.max, hcaps, hI.queue⟩
  | enqueue hr hl =>
    refine ⟨hI.shape, hI.max, hcaps, ?_⟩
    simp only [List.length_append, List.length_cons, List.length_nil]
    unfold RecvChanLen at hl
    omega
  | take hl hq =>
    have := hI.queue
    rw [hq, List.length_cons] at this
    exact ⟨hI.shape, hI.max, hcaps, by simp only; omega⟩
  | finish ha hsn =>
    rename_i h l r
    obtain ⟨h1, h2, -⟩ := recv_put hI.shape (b := h.pkt.buf) (hI.caps h.pkt (by simp [UdpSt.inFlight, ha]))
    exact ⟨h1, h2.trans hI.max, hcaps, hI.queue⟩
  | _ => exact ⟨hI.shape, hI.max, hcaps, hI.queue⟩

theorem BufInv.init {s : UdpSt} (h : s.init) : BufInv s ∧ (pooled s.pool).length = 0 ∧ s.used.length = 0 ∧ s.leaked.length = 0 ∧ s.pool.fresh = 0 := by
  obtain ⟨hp, hm, hr, hq, hl, hqu, ha, -, -, -, -, hrc, hst, hfi, hlk⟩ := h
  simp only [NewBytesPool] at hp
  rw [if_neg (by omega)] at hp
  simp only [Res.ok.injEq] at hp
  have hin : s.inFlight = [] := by simp [UdpSt.inFlight, ha, hqu, hl, hq, hr, RecvPc.packets]
  refine ⟨⟨.inl (by rw [← hp]), by rw [← hp]; rfl, by rw [hin]; simp, by rw [hq]; simp⟩, by rw [← hp]; rfl, ?_, by rw [hlk]; rfl, by rw [← hp]⟩
  simp [UdpSt.used, hin, hr, RecvPc.arrs]

theorem reachW_reach {W : Nat} {s : UdpSt} (hr : Reach UdpSt.init (UdpStepW W) s) : Reach UdpSt.init UdpStep s ∧ s.queue.length ≤ W ∧ s.active.length ≤ W := by
  induction hr with
  | init h => exact ⟨.init h, by rw [h.2.2.2.2.2.1]; simp, by rw [h.2.2.2.2.2.2.1]; simp⟩
  | step _ hs ih => exact ⟨.step ih.1 hs.1, hs.2⟩

theorem bufInv_of_reach {s : UdpSt} (hr : Reach UdpSt.init UdpStep s) : BufInv s := by
  induction hr with
  | init h => exact (BufInv.init h).1
  | step hr hs ih => exact BufInv.step (UdpInv.of_reach hr) ih hs

/-- packets in flight and the buffer being filled: at most `2 W + 102` -/
theorem C109_in_use {W : Nat} {s : UdpSt} (hr : Reach UdpSt.init (UdpStepW W) s) : s.used.length ≤ 2 * W + 102 := by
  obtain ⟨h1, h2, h3⟩ := reachW_reach hr
  have hq := (bufInv_of_reach h1).queue
  rw [used_length]
  have a1 : s.rpc.arrs.length + s.rpc.packets.length ≤ 1 := by cases s.rpc <;> simp [RecvPc.arrs, RecvPc.packets]
  have a2 : s.listen.toList.length ≤ 1 := by cases s.listen <;> simp
  omega

/-- **Bounded**: the receive buffers that exist, in use or pooled, are at most `2 W + 102` at any time, each of 1024 bytes – whatever is received,
however fast, and for however long. -/
theorem C109_bounded {W : Nat} {s : UdpSt} (hr : Reach UdpSt.init (UdpStepW W) s) :
    s.used.length + (pooled s.pool).length ≤ 2 * W + 102 ∧
    (∀ p ∈ s.inFlight, p.buf.cap = 1024) ∧ (∀ i c, s.pool.chan i = some c → ∀ b ∈ c, b.cap = 1024) := by
  have hB := bufInv_of_reach (reachW_reach hr).1
  refine ⟨?_, hB.caps, ?_⟩
  · induction hr with
    | init h => obtain ⟨-, h1, h2, -, -⟩ := BufInv.init h; omega
    | step hr hs ih =>
      have := C109_in_use (.step hr hs)
      have hI := bufInv_of_reach (reachW_reach hr).1
      have ih := ih hI
      rcases buf_moves hI hs.1 with ⟨a, b, -, -⟩ | ⟨a, b, -, -⟩ | ⟨-, a, b, -, -⟩ | ⟨a, b, -, -⟩ | ⟨a, b, -, -⟩ <;> omega
  · intro i c hc b hb
    have hok := (UdpInv.of_reach (reachW_reach hr).1).ok
    rcases hB.shape with h | ⟨c', h⟩
    · unfold BPool.chan at hc
      rw [h] at hc
      simp only [List.lookup] at hc
      split at hc
      · cases hc; cases hb
      · cases hc
    · unfold BPool.chan at hc
      rw [h] at hc
      simp only [List.lookup] at hc
      split at hc
      · rename_i hi
        have hi : i = 1024 := by simpa using hi
        subst hi
        cases hc
        have := (hok 1024 c (by unfold BPool.chan; rw [h]; rfl)).2 b hb
        omega
      · split at hc
        · cases hc; cases hb
        · cases hc

/-- **None is lost** except by reads that fail, if the pool has room for all of them: every buffer ever allocated is in use, pooled, or was lost by a
failed read. -/
theorem C109_accounted {W : Nat} (hW : 2 * W + 102 ≤ 10000) {s : UdpSt} (hr : Reach UdpSt.init (UdpStepW W) s) :
    s.pool.fresh = s.used.length + (pooled s.pool).length + s.leaked.length := by
  induction hr with
  | init h => obtain ⟨-, h1, h2, h3, h4⟩ := BufInv.init h; omega
  | step hr hs ih =>
    have hI := bufInv_of_reach (reachW_reach hr).1
    have hb := (C109_bounded hr).1
    rcases buf_moves hI hs.1 with ⟨a, b, c, d⟩ | ⟨a, b, c, d⟩ | ⟨a', a, b, c, d⟩ | ⟨a, b, c, d⟩ | ⟨a, b, c, d⟩ <;> omega

/-- **Reused**: over the whole life of the server at most `2 W + 102` buffers are allocated, and one more for every read that fails. -/
theorem C109_allocations {W : Nat} (hW : 2 * W + 102 ≤ 10000) {s : UdpSt} (hr : Reach UdpSt.init (UdpStepW W) s) :
    s.pool.fresh ≤ 2 * W + 102 + s.leaked.length := by
  have := C109_accounted hW hr
  have := (C109_bounded hr).1
  omega

/-- A buffer is allocated only while none is pooled (with any number of workers, whatever the queue). -/
theorem C109_allocates_when_empty {s t : UdpSt} (hr : Reach UdpSt.init UdpStep s) (hs : UdpStep s t) (hf : t.pool.fresh ≠ s.pool.fresh) :
    pooled s.pool = [] ∧ t.pool.fresh = s.pool.fresh + 1 := by
  rcases buf_moves (bufInv_of_reach hr) hs with ⟨a, b, c, d⟩ | ⟨a, b, c, d⟩ | ⟨a', a, b, c, d⟩ | ⟨a, b, c, d⟩ | ⟨a, b, c, d⟩
  · exact absurd d hf
  · exact absurd d hf
  · exact ⟨List.length_eq_zero_iff.1 a', d⟩
  · exact absurd d hf
  · exact absurd d hf

/-- the numbers of the default configuration: 2000 workers -/
theorem C109_default {s : UdpSt} (hr : Reach UdpSt.init (UdpStepW 2000) s) :
    s.used.length + (pooled s.pool).length ≤ 4102 ∧ s.pool.fresh ≤ 4102 + s.leaked.length :=
  ⟨(C109_bounded hr).1, C109_allocations (by omega) hr⟩

/-- one worker: two packets are received, the first one is handled and its buffer is used again for a third read, which fails -/
example : ∃ s, Reach UdpSt.init (UdpStepW 1) s ∧ s.received.length = 2 ∧ s.used = [1] ∧ pooled s.pool = [] ∧ s.leaked = [0] ∧ s.pool.fresh = 2 := by
  let a : UDPAddr := { ip := [1, 2, 3, 4], port := 5 }
  let s0 : UdpSt := {
    pool := { chans := [(100, [])], defaultWidth := 100, maxSize := 10000, fresh := 0 }, mem := fun _ => [],
    rpc := .top, recvq := [], listen := none, queue := [], active := [], closed := false, connOpen := true, lock := none,
    closer := fun _ => .idle, received := [], started := [], finished := [], leaked := [] }
  have r0 : Reach UdpSt.init (UdpStepW 1) s0 :=
    .init ⟨rfl, rfl, rfl, rfl, rfl, rfl, rfl, rfl, rfl, rfl, fun _ => rfl, rfl, rfl, rfl, rfl⟩
  have go : ∀ {s t : UdpSt}, Reach UdpSt.init (UdpStepW 1) s → UdpStep s t → t.queue.length ≤ 1 ∧ t.active.length ≤ 1 → Reach UdpSt.init (UdpStepW 1) t :=
    fun h1 h2 h3 => .step h1 ⟨h2, h3⟩
  have r1 := go r0 (.test rfl) (by decide)
  have r2 := go r1 (.getNew (b := { arr := 0, off := 0, len := 1024, cap := 1024 })
    (p := { chans := [(1024, []), (100, [])], defaultWidth := 100, maxSize := 10000, fresh := 1 }) rfl (by decide) (by decide)) (by decide)
  have r3 := go r2 (.recv a b!"d1:y1:ee" rfl rfl) (by decide)
  have r4 := go r3 (.enqueue rfl (by decide)) (by decide)
  have r5 := go r4 (.take rfl rfl) (by decide)
  have r6 := go r5 (.submit rfl) (by decide)
  have r7 := go r6 (.start rfl) (by decide)
  have r8 := go r7 (.test rfl) (by decide)
  have r9 := go r8 (.getNew (b := { arr := 1, off := 0, len := 1024, cap := 1024 })
    (p := { chans := [(1024, []), (100, [])], defaultWidth := 100, maxSize := 10000, fresh := 2 }) rfl (by decide +kernel) (by decide +kernel)) (by decide)
  have r10 := go r9 (.recv a b!"hi" rfl rfl) (by decide)
  have r11 := go r10 (.enqueue rfl (by decide)) (by decide)
  have r12 := go r11 (.decode (l := []) (r := []) rfl) (by decide)
  have r13 := go r12 (.finish (l := []) (r := []) rfl rfl) (by decide)
  have r14 := go r13 (.test rfl) (by decide)
  have r15 := go r14 (.getOld (b := { arr := 0, off := 0, len := 1024, cap := 1024 })
    (p := { chans := [(1024, []), (100, [])], defaultWidth := 100, maxSize := 10000, fresh := 2 }) rfl (by decide +kernel) (by decide +kernel)) (by decide)
  have r16 := go r15 (.recvErr rfl) (by decide)
  exact ⟨_, r16, by decide +kernel, by decide +kernel, by decide +kernel, by decide +kernel, by decide +kernel⟩

end P2P

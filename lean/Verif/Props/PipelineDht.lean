import Verif.Props.PipelineStall
import Verif.Props.KrpcSafe
import Verif.Props.KrpcExamples
/-! # C62 for the crawler: the interactions are those of its packet handler -/
namespace P2P

/-- the interactions with the packets `pkts 0`, `pkts 1`, …, when the other goroutines behave like `O p` during packet `p` -/
def crawlTraces (K : KEnv) (O : Nat → Oracle) (pkts : Nat → RecvPacket) (p : Nat) : List Event :=
  match dhtPacket K (O p) (pkts p) with
  | some run => run.trace
  | none => []

/-- the packet is an announce_peer query with everything the server asks for, `job` is what it asks to download -/
def IsAnnounce (pkt : RecvPacket) (job : Job) : Prop :=
  ∃ d t a, IsQuery pkt.bytes d t b!"announce_peer" ∧ Answerable d b!"announce_peer" ∧ d.lookup b!"a" = some (.dict a) ∧
    job = { req := { txId := t, qType := b!"announce_peer", body := some a, handler := none }, addr := pkt.addr }

theorem countP_enqueue (tr : List Event) : tr.countP Event.isEnqueue = (enqueued tr).length := by
  unfold enqueued
  induction tr with
  | nil => rfl
  | cons e r ih => cases e <;> simp [List.countP_cons, Event.isEnqueue, ih]

/-- an announce: first the job is enqueued, then the reply is sent; no other packet enqueues anything -/
theorem crawlTraces_spec (K : KEnv) {O : Nat → Oracle} (hO : ∀ p, (O p).Fair) (pkts : Nat → RecvPacket) (p : Nat) :
    (∃ job b failed, IsAnnounce (pkts p) job ∧
      crawlTraces K O pkts p = [.dispatch job.req (pkts p).addr, .record (announceRecord K.env (asMap job.req.body) (pkts p).addr),
        .enqueue job, .send (pkts p).addr b failed]) ∨
    ((∀ job, ¬ IsAnnounce (pkts p) job) ∧ enqueued (crawlTraces K O pkts p) = []) := by
  by_cases h : ∃ job, IsAnnounce (pkts p) job
  · left
    obtain ⟨job, d, t, a, hq, hans, ha, hj⟩ := h
    obtain ⟨tr, b, failed, reply, h1, -, h3⟩ := dhtPacket_query K (hO p) hq
    rcases h3 with ⟨-, a', ha', rfl, -⟩ | ⟨hn, -⟩
    · rw [ha] at ha'; injection ha' with ha'; injection ha' with ha'; subst ha'
      refine ⟨job, b, failed, ⟨d, t, a, hq, hans, ha, hj⟩, ?_⟩
      simp [crawlTraces, h1, answerTrace, hj]
    · exact absurd hans hn
  · right
    refine ⟨fun job hj => h ⟨job, hj⟩, ?_⟩
    obtain ⟨run, h1, h2⟩ := C34_others K (hO p) (pkts p) (by
      intro d t hq hans
      have hans' := hans
      obtain ⟨-, a, ha, -⟩ := hans
      exact h ⟨_, d, t, a, hq, hans', ha, rfl⟩)
    simp [crawlTraces, h1, h2]

theorem crawl_single (K : KEnv) {O : Nat → Oracle} (hO : ∀ p, (O p).Fair) (pkts : Nat → RecvPacket) :
    SingleEnqueue (crawlTraces K O pkts) := by
  intro p
  rw [countP_enqueue]
  rcases crawlTraces_spec K hO pkts p with ⟨job, b, f, -, e⟩ | ⟨-, e⟩
  · rw [e]; simp [enqueued]
  · rw [e]; simp

abbrev CrawlReach (K : KEnv) (O : Nat → Oracle) (pkts : Nat → RecvPacket) (W1 Q W2 : Nat) : PlSt → Prop :=
  PlReach (crawlTraces K O pkts) W1 Q W2

/-- **What is downloaded**: exactly announces are accepted, each at most once; the downloads started are the first ones accepted, in
order. -/
theorem C62_downloads (K : KEnv) {O : Nat → Oracle} (hO : ∀ p, (O p).Fair) (pkts : Nat → RecvPacket) {W1 Q W2 : Nat} {s : PlSt}
    (h : CrawlReach K O pkts W1 Q W2 s) :
    s.p2.started <+: s.accepted ∧ s.accepted.Nodup ∧
    ∀ p ∈ s.accepted, p < s.arrived ∧ ∃ job, IsAnnounce (pkts p) job ∧ (p, Event.enqueue job) ∈ s.log := by
  obtain ⟨a, b, c⟩ := C62_once h (crawl_single K hO pkts)
  refine ⟨c, a, ?_⟩
  intro p hp
  have I := pl_inv h
  have hp' := hp
  rw [I.acc] at hp
  obtain ⟨⟨q, e⟩, hm, rfl⟩ := List.mem_map.1 hp
  simp only at *
  obtain ⟨hm, he⟩ := List.mem_filter.1 hm
  have hlog : e ∈ logOf q s.log := List.mem_filterMap.2 ⟨(q, e), hm, by simp⟩
  rw [I.log] at hlog
  have hmem := List.mem_of_mem_take hlog
  constructor
  · apply Classical.byContradiction
    intro hlt
    have : q ∉ s.p1.started := by
      intro hs
      have : q ∈ List.range s.arrived := by rw [← (C62_fifo h).1]; simp [hs]
      exact hlt (List.mem_range.1 this)
    rw [I.idle q this] at hlog
    simp at hlog
  · rcases crawlTraces_spec K hO pkts q with ⟨job, bb, f, hj, e'⟩ | ⟨-, e'⟩
    · rw [e'] at hmem
      simp at hmem
      rcases hmem with rfl | rfl | rfl | rfl
      · cases he
      · cases he
      · exact ⟨job, hj, hm⟩
      · cases he
    · exfalso
      cases e with
      | enqueue j =>
        have : j ∈ enqueued (crawlTraces K O pkts q) := List.mem_filterMap.2 ⟨_, hmem, rfl⟩
        rw [e'] at this; cases this
      | _ => cases he

/-- **Replies to announces**: an announce is answered only after its job has been accepted. -/
theorem C62_reply_after_accept (K : KEnv) {O : Nat → Oracle} (hO : ∀ p, (O p).Fair) (pkts : Nat → RecvPacket) {W1 Q W2 : Nat} {s : PlSt}
    (h : CrawlReach K O pkts W1 Q W2 s) (p : Nat) (job : Job) (hp : IsAnnounce (pkts p) job) (a : UDPAddr) (b : Bytes) (f : Bool)
    (hs : (p, Event.send a b f) ∈ s.log) : p ∈ s.accepted := by
  have I := pl_inv h
  have hlog : Event.send a b f ∈ logOf p s.log := List.mem_filterMap.2 ⟨_, hs, by simp⟩
  rw [← List.one_le_count_iff, I.acc, ← countP_logOf]
  rw [I.log] at hlog ⊢
  rcases crawlTraces_spec K hO pkts p with ⟨job', bb, f', hj, e'⟩ | ⟨hn, -⟩
  · rw [e'] at hlog ⊢
    match hh : s.hdl p with
    | 0 => rw [hh] at hlog; simp at hlog
    | 1 => rw [hh] at hlog; simp at hlog
    | 2 => rw [hh] at hlog; simp at hlog
    | 3 => rw [hh] at hlog; simp at hlog
    | n + 4 => simp [Event.isEnqueue]
  · exact absurd hp (hn job)

/-- **Back-pressure**: the announces answered so far exceed the finished downloads by at most `2*W2 + 1 + Q`. -/
theorem C62_backpressure (K : KEnv) {O : Nat → Oracle} (hO : ∀ p, (O p).Fair) (pkts : Nat → RecvPacket) {W1 Q W2 : Nat} {s : PlSt}
    (h : CrawlReach K O pkts W1 Q W2 s) (ps : List Nat) (hnd : ps.Nodup)
    (hps : ∀ p ∈ ps, (∃ job, IsAnnounce (pkts p) job) ∧ ∃ a b f, (p, Event.send a b f) ∈ s.log) :
    ps.length ≤ s.p2.finished.length + (2 * W2 + 1 + Q) := by
  refine Nat.le_trans (length_le_of_nodup_subset hnd (m := s.accepted) ?_) (C62_bounded h).2
  intro p hp
  obtain ⟨⟨job, hj⟩, a, b, f, hs⟩ := hps p hp
  exact C62_reply_after_accept K hO pkts h p job hj a b f hs

/-- **Everything gets done**: when nothing but an arrival can happen, every packet's handler has run to its end and every announce that
arrived has been downloaded. -/
theorem C62_crawler_all_done (K : KEnv) {O : Nat → Oracle} (hO : ∀ p, (O p).Fair) (pkts : Nat → RecvPacket) {W1 Q W2 : Nat}
    (hW1 : 1 ≤ W1) (hW2 : 1 ≤ W2) {s : PlSt} (h : CrawlReach K O pkts W1 Q W2 s)
    (hq : ∀ t, ¬ PlQuiet (crawlTraces K O pkts) W1 Q W2 s t) :
    (∀ p < s.arrived, ∃ run, dhtPacket K (O p) (pkts p) = some run ∧ logOf p s.log = run.trace) ∧
    (∀ p < s.arrived, p ∈ s.p2.finished ↔ ∃ job, IsAnnounce (pkts p) job) := by
  obtain ⟨-, h2, h3⟩ := C62_all_done hW1 hW2 (crawl_single K hO pkts) h hq
  have I := pl_inv h
  constructor
  · intro p hp
    obtain ⟨run, hr, -⟩ := C29_crawler K (O p) (pkts p)
    exact ⟨run, hr, by rw [h2 p hp]; simp [crawlTraces, hr]⟩
  · intro p hp
    rw [h3.mem_iff]
    constructor
    · intro ha
      obtain ⟨-, job, hj, -⟩ := (C62_downloads K hO pkts h).2.2 p ha
      exact ⟨job, hj⟩
    · rintro ⟨job, hj⟩
      rw [← List.one_le_count_iff, I.acc, ← countP_logOf, h2 p hp, countP_enqueue]
      rcases crawlTraces_spec K hO pkts p with ⟨job', bb, f', -, e'⟩ | ⟨hn, -⟩
      · rw [e']; simp [enqueued]
      · exact absurd hj (hn job)

/-- **The server can be brought to a halt by announces**: if every packet is an announce, then a stall is reached – whatever the sizes of
the pools and of the queue –, and from then on, until a download returns, no datagram is sent (nor anything else done by a handler). -/
theorem C62_halt (K : KEnv) {O : Nat → Oracle} (hO : ∀ p, (O p).Fair) (pkts : Nat → RecvPacket) {W1 Q W2 : Nat}
    (hW1 : 1 ≤ W1) (ha : ∀ p, ∃ job, IsAnnounce (pkts p) job) :
    ∃ s, CrawlReach K O pkts W1 Q W2 s ∧ s.arrived ≤ 2 * W2 + 1 + Q + W1 ∧ s.p2.finished = [] ∧
      ∀ t, Reach (fun x => x = s) (fun a b => PlStep (crawlTraces K O pkts) W1 Q W2 a b ∧ b.p2.finished = []) t → t.log = s.log := by
  have haa : AllAnnounces (crawlTraces K O pkts) := by
    intro p
    rw [countP_enqueue]
    rcases crawlTraces_spec K hO pkts p with ⟨job', bb, f', -, e'⟩ | ⟨hn, -⟩
    · rw [e']; simp [enqueued]
    · obtain ⟨job, hj⟩ := ha p; exact absurd hj (hn job)
  obtain ⟨s, h1, h2, h3, h4⟩ := C62_stall_reachable (Q := Q) hW1 haa
  refine ⟨s, h1, h3, h4, fun t ht => ?_⟩
  rw [← h4] at ht
  exact (C62_stall h2 ht).2.1

/-- such packets exist -/
example : IsAnnounce { addr := peerAddr, bytes := exAnnounce }
    { req := { txId := b!"zz", qType := b!"announce_peer", body := some exArgs, handler := none }, addr := peerAddr } := by
  refine ⟨exDict, b!"zz", exArgs, ?_, ?_, rfl, rfl⟩
  · exact ⟨⟨exAnnounce.length, by decide +kernel⟩, rfl, rfl, rfl⟩
  · exact ⟨by decide, exArgs, rfl, ⟨_, rfl, rfl⟩, fun _ => ⟨_, rfl⟩, fun _ => ⟨_, rfl⟩⟩

end P2P

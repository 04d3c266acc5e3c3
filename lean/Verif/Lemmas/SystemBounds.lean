import Verif.Lemmas.SystemLift
/-! # How much there is to do

Bounds that do not depend on the answers the handlers get. -/
namespace P2P

theorem Fanout.length {nodeId : Bytes} {ns : List NodeInfo} {tr : List Event} (h : Fanout nodeId ns tr) : tr.length ≤ 4 * ns.length := by
  induction h with
  | nil => exact Nat.le_refl _
  | refused _ ih => simp only [List.length_cons]; omega
  | accepted _ _ ih => simp only [List.length_cons]; omega

/-- however the shared objects answer, a packet leads to at most so many interactions -/
theorem packet_bound (K : KEnv) (pkt : RecvPacket) :
    ∃ B, ∀ O run, Oracle.Fair O → dhtPacket K O pkt = some run → run.trace.length ≤ B := by
  by_cases hq : ∃ d t q, IsQuery pkt.bytes d t q
  · obtain ⟨d, t, q, hq⟩ := hq
    refine ⟨4, fun O run hO hr => ?_⟩
    obtain ⟨tr, b, failed, reply, h1, -, h3⟩ := dhtPacket_query K hO hq
    rw [h1] at hr
    cases hr
    have : tr.length ≤ 3 := by
      rcases h3 with ⟨-, a, -, rfl, -⟩ | ⟨-, msg, -, rfl | ⟨a, -, rfl⟩, -⟩
      · unfold answerTrace; split
        · simp
        · split <;> simp
      · simp
      · simp
    simp only [List.length_append, List.length_cons, List.length_nil]; omega
  · by_cases hr : ∃ t body, IsResponse pkt.bytes t body
    · obtain ⟨t, body, hresp⟩ := hr
      have key : ∃ N, ∀ s ns, body.lookup b!"nodes" = some (.str s) → parseNodeInfo s = .ok ns → ns.length ≤ N := by
        by_cases h : ∃ s ns, body.lookup b!"nodes" = some (.str s) ∧ parseNodeInfo s = .ok ns
        · obtain ⟨s, ns, h1, h2⟩ := h
          refine ⟨ns.length, fun s' ns' h1' h2' => ?_⟩
          rw [h1] at h1'; injection h1' with h1'; injection h1' with h1'; subst h1'
          rw [h2] at h2'; injection h2' with h2'; subst h2'
          exact Nat.le_refl _
        · exact ⟨0, fun s ns h1 h2 => absurd ⟨s, ns, h1, h2⟩ h⟩
      obtain ⟨N, hN⟩ := key
      refine ⟨4 * N + 2, fun O run hO hr => ?_⟩
      obtain ⟨tr, h1, h2⟩ := dhtPacket_response K hO hresp
      rw [h1] at hr
      cases hr
      simp only [List.length_cons]
      rcases h2 with ⟨-, rfl⟩ | ⟨req, tr', -, -, rfl, h3⟩
      · simp
      · simp only [List.length_cons]
        rcases h3 with ⟨-, s, ns, h4, h5, h6⟩ | ⟨rfl, -⟩
        · have := h6.length; have := hN s ns h4 h5; omega
        · simp
    · refine ⟨0, fun O run hO hr' => ?_⟩
      rw [dhtPacket_ignored K O pkt (fun d t q h => hq ⟨d, t, q, h⟩) (fun t body h => hr ⟨t, body, h⟩)] at hr'
      cases hr'
      exact Nat.le_refl _

theorem traces_bound (K : KEnv) (pkts : Nat → RecvPacket) : ∃ B : Nat → Nat, ∀ O : Nat → Oracle, (∀ p, (O p).Fair) → ∀ p, (crawlTraces K O pkts p).length ≤ B p := by
  obtain ⟨B, hB⟩ := Classical.axiomOfChoice fun p => packet_bound K (pkts p)
  refine ⟨B, fun O hO p => ?_⟩
  obtain ⟨run, hr, -⟩ := C29_crawler K (O p) (pkts p)
  have := hB p (O p) run (hO p) hr
  simpa [crawlTraces, hr] using this

/-! ## A measure of the backlog -/

/-- a goroutine in `AsyncSubmit` -/
def fwdWeight (l : FwdPc) (p : WpSt) : Nat :=
  match l with
  | .recv => 0
  | .hold x => if p.subs x = .start then 5 else 4
def workerWeight : WPc → Nat
  | .select => 1
  | .running _ => 2
  | _ => 0
def poolWeight (p : WpSt) : Nat := 3 * p.queue.length + (p.workers.map workerWeight).sum
/-- what is left to do if the handler of packet `p` has at most `B p` interactions -/
def backlog (B : Nat → Nat) (s : PlSt) : Nat :=
  ((List.range s.arrived).map fun p => 8 * (B p - s.hdl p)).sum + 6 * s.recvq.length + fwdWeight s.l s.p1 + poolWeight s.p1 + 6 * s.jobs.length +
    fwdWeight s.f s.p2 + poolWeight s.p2

theorem sum_weights {ws : List WPc} {i : Nat} {old new : WPc} (h : ws[i]? = some old) :
    ((ws.set i new).map workerWeight).sum + workerWeight old = (ws.map workerWeight).sum + workerWeight new := by
  induction ws generalizing i with
  | nil => simp at h
  | cons w r ih =>
    cases i with
    | zero => simp at h; subst h; simp; omega
    | succ i => simp at h; have := ih h; simp only [List.set_cons_succ, List.map_cons, List.sum_cons]; omega

theorem sum_left {B hdl : Nat → Nat} {p : Nat} (hb : hdl p < B p) :
    ∀ n : Nat, p < n → ((List.range n).map fun q => 8 * (B q - hdl q)).sum =
      8 + ((List.range n).map fun q => 8 * (B q - upd hdl p (hdl p + 1) q)).sum := by
  have same : ∀ n, n ≤ p → ((List.range n).map fun q => 8 * (B q - hdl q)).sum = ((List.range n).map fun q => 8 * (B q - upd hdl p (hdl p + 1) q)).sum := by
    intro n hn
    congr 1
    apply List.map_congr_left
    intro q hq
    have : q ≠ p := by have := List.mem_range.1 hq; omega
    rw [upd_ne _ _ this]
  intro n
  induction n with
  | zero => omega
  | succ n ih =>
    intro hn
    rw [List.range_succ]
    simp only [List.map_append, List.sum_append, List.map_cons, List.map_nil, List.sum_cons, List.sum_nil]
    by_cases e' : p = n
    · subst e'
      rw [same p (Nat.le_refl _), upd_same]; omega
    · rw [ih (by omega), upd_ne _ _ (Ne.symm e')]; omega

theorem fwdWeight_le (l : FwdPc) (p : WpSt) : fwdWeight l p ≤ 5 := by
  unfold fwdWeight; split
  · omega
  · split <;> omega
theorem fwdWeight_recv (p : WpSt) : fwdWeight .recv p = 0 := rfl

theorem backlog_decreases {B : Nat → Nat} {tr : Nat → List Event} {W1 Q W2 : Nat} {s t : PlSt} (h : PlReach tr W1 Q W2 s) (hB : ∀ p, (tr p).length ≤ B p)
    (st : PlQuiet tr W1 Q W2 s t) : backlog B t < backlog B s := by
  have I := pl_inv h
  have lt : ∀ (i p : Nat), s.p1.workers[i]? = some (WPc.running p) → p < s.arrived := by
    intro i p hw
    have := started_of_running I.reach1 hw
    have : p ∈ List.range s.arrived := by
      rw [← (C62_fifo h).1]; simp [this]
    exact List.mem_range.1 this
  have left : ∀ {p : Nat} {e : Event}, (tr p)[s.hdl p]? = some e → s.hdl p < B p := by
    intro p e he
    have := (List.getElem?_eq_some_iff.1 he).1
    have := hB p
    omega
  obtain ⟨st, hq⟩ := st
  cases st with
  | arrive _ => simp at hq
  | listenTake p q hl hr =>
    have := fwdWeight_le (.hold p) s.p1; have := fwdWeight_le (.hold p) s.p2
    simp only [backlog]; rw [hl, hr]; simp only [fwdWeight_recv, List.length_cons]; omega
  | listenCheck p hl hs _ =>
    simp only [backlog, poolWeight]; rw [hl]; simp only [fwdWeight, hs, upd_same]; simp
  | listenSend p hl hs _ =>
    simp only [backlog, poolWeight]; rw [hl]; simp only [fwdWeight, hs]; simp; omega
  | select1 i hw =>
    have := sum_weights (new := .recv) hw
    simp only [backlog, poolWeight]; simp only [fwdWeight, workerWeight] at *; omega
  | recv1 i p q hw hr =>
    have := sum_weights (new := .running p) hw
    simp only [backlog, poolWeight]; rw [hr]; simp only [fwdWeight, workerWeight, List.length_cons] at *; omega
  | handle i p e hw he hne =>
    have := sum_left (left he) s.arrived (lt i p hw)
    simp only [backlog]; rw [this]; omega
  | enqueue i p j hw he hr =>
    have := sum_left (left he) s.arrived (lt i p hw)
    simp only [backlog]; rw [this]; simp only [List.length_append]; simp; omega
  | handoff i p j hw he hr hf =>
    have := sum_left (left he) s.arrived (lt i p hw)
    simp only [backlog]; rw [this, hf]; have := fwdWeight_le (.hold p) s.p2
    simp only [fwdWeight_recv]; omega
  | done1 i p hw _ =>
    have := sum_weights (new := .select) hw
    simp only [backlog, poolWeight]; simp only [fwdWeight, workerWeight] at *; omega
  | fetchTake p q hl hr =>
    have := fwdWeight_le (.hold p) s.p1; have := fwdWeight_le (.hold p) s.p2
    simp only [backlog]; rw [hl, hr]; simp only [fwdWeight_recv, List.length_cons]; omega
  | fetchCheck p hl hs _ =>
    simp only [backlog, poolWeight]; rw [hl]; simp only [fwdWeight, hs, upd_same]; simp
  | fetchSend p hl hs _ =>
    simp only [backlog, poolWeight]; rw [hl]; simp only [fwdWeight, hs]; simp; omega
  | select2 i hw =>
    have := sum_weights (new := .recv) hw
    simp only [backlog, poolWeight]; simp only [fwdWeight, workerWeight] at *; omega
  | recv2 i p q hw hr =>
    have := sum_weights (new := .running p) hw
    simp only [backlog, poolWeight]; rw [hr]; simp only [fwdWeight, workerWeight, List.length_cons] at *; omega
  | done2 i p hw =>
    have := sum_weights (new := .select) hw
    simp only [backlog, poolWeight]; simp only [fwdWeight, workerWeight] at *; omega

/-! ## Bootstrapping -/

theorem pres_BootStrap (K : KEnv) (O : Oracle) (a : Option UDPAddr) : Pres (AnsweredBy O) (BootStrap K O a) := by
  unfold BootStrap
  refine (pres_nextTxId).bind fun v => ?_
  cases a with
  | none => exact .panic _
  | some addr =>
    refine (pres_Query _ _).bind fun e => ?_
    cases e with
    | none => exact .pure _
    | some _ => exact .panic _

end P2P

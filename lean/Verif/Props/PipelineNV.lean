import Verif.Props.PipelineDht
/-! # C62: the states in which everything has been done are reached, for every number of packets -/
namespace P2P

/-- **Any number of packets is served**: for every `n` there is a run in which `n` packets have arrived and nothing but an arrival is possible any more
(so that, by `C62_all_done`, all of them have been handled and all accepted jobs have been downloaded). -/
theorem C62_all_done_reachable {tr : Nat → List Event} {W1 Q W2 : Nat} (hW1 : 1 ≤ W1) (hW2 : 1 ≤ W2) (h1 : SingleEnqueue tr) (n : Nat) :
    ∃ s, PlReach tr W1 Q W2 s ∧ s.arrived = n ∧ ∀ t, ¬ PlQuiet tr W1 Q W2 s t := by
  have wp : ∀ n, ∃ s, WpInit n s := fun n =>
    ⟨{ status := .running, queue := [], closed := false, wg := n, workers := List.replicate n .select, subs := fun _ => .start,
       shuts := fun c => if c = 0 then .listening else .check, cancelled := false, dead := false, submitted := [], started := [],
       finished := [] }, rfl, rfl, rfl, rfl, rfl, fun _ => rfl, rfl, fun c hc => by simp [hc], rfl, rfl, rfl, rfl⟩
  obtain ⟨w1, hw1⟩ := wp W1
  obtain ⟨w2, hw2⟩ := wp W2
  induction n with
  | zero =>
    have r0 : PlReach tr W1 Q W2 ⟨[], 0, .recv, w1, fun _ => 0, [], .recv, w2, [], []⟩ :=
      .init ⟨rfl, rfl, rfl, hw1, fun _ => rfl, rfl, rfl, hw2, rfl, rfl⟩
    obtain ⟨t, a, b, c⟩ := quiet_settle r0
    exact ⟨t, a, b, c⟩
  | succ n ih =>
    obtain ⟨s, a, b, c⟩ := ih
    have hr : s.recvq.length = 0 := by
      have hf := (C62_all_done hW1 hW2 h1 a c).1.length_eq
      have h0 := (C62_fifo a).1
      have hl := congrArg List.length h0
      simp only [List.length_append, List.length_range] at hl hf
      have e1 := (wp_inv (pl_inv a).reach1).exec.length_eq
      simp only [List.length_append] at e1
      omega
    have r := Reach.step a (PlStep.arrive (by rw [hr]; decide))
    obtain ⟨t, a', b', c'⟩ := quiet_settle r
    exact ⟨t, a', by rw [b']; simp [b], c'⟩

/-- the crawler with one worker in each pool, a queue of one job, and three packets: an announce, garbage, an announce. When all is done, exactly the
announces have been downloaded. -/
example : ∃ s, CrawlReach exK (fun _ => exO) (fun p => { addr := peerAddr, bytes := if p = 1 then b!"garbage" else exAnnounce }) 1 1 1 s ∧
    s.arrived = 3 ∧ 0 ∈ s.p2.finished ∧ 1 ∉ s.p2.finished ∧ 2 ∈ s.p2.finished := by
  have hO : ∀ _ : Nat, exO.Fair := fun _ => exO_fair
  have ann : ∀ p, p ≠ 1 → IsAnnounce { addr := peerAddr, bytes := if p = 1 then b!"garbage" else exAnnounce }
      { req := { txId := b!"zz", qType := b!"announce_peer", body := some exArgs, handler := none }, addr := peerAddr } := by
    intro p hp
    rw [if_neg hp]
    exact ⟨exDict, b!"zz", exArgs, ⟨⟨exAnnounce.length, by decide +kernel⟩, rfl, rfl, rfl⟩,
      ⟨by decide, exArgs, rfl, ⟨_, rfl, rfl⟩, fun _ => ⟨_, rfl⟩, fun _ => ⟨_, rfl⟩⟩, rfl, rfl⟩
  obtain ⟨s, a, b, c⟩ := C62_all_done_reachable (W1 := 1) (Q := 1) (W2 := 1) (by omega) (by omega)
    (crawl_single exK hO (fun p => { addr := peerAddr, bytes := if p = 1 then b!"garbage" else exAnnounce })) 3
  have d := (C62_crawler_all_done exK hO _ (by omega) (by omega) a c).2
  refine ⟨s, a, b, (d 0 (by omega)).2 ⟨_, ann 0 (by omega)⟩, fun h => ?_, (d 2 (by omega)).2 ⟨_, ann 2 (by omega)⟩⟩
  obtain ⟨job, e, t, a', ⟨⟨n, hn⟩, -⟩, -⟩ := (d 1 (by omega)).1 h
  have : (match DecodeDictNoLimit b!"garbage" with | .ok _ => true | _ => false) = false := by decide +kernel
  simp only [if_true] at hn
  rw [hn] at this
  cases this

end P2P

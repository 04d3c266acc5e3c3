import Verif.Props.Interleave
import Verif.Props.PeerwireAmong4
/-! # C111: what the peers' messages decide, in every schedule -/
namespace P2P

theorem reach_any {R : Nat → PSt → Shared → Prop} {tasks : List Task} {init : Net → Prop} {n : Net} (h : Reach init (TurnStepIf R tasks) n) : Reach init (TurnStepAny tasks) n := by
  induction h with
  | init h => exact .init h
  | step _ hs ih => obtain ⟨i, hs, -⟩ := hs; exact .step ih ⟨i, hs⟩

theorem reach_true {tasks : List Task} {init : Net → Prop} {n : Net} (h : Reach init (TurnStepAny tasks) n) : Reach init (TurnStepIf (fun _ _ _ => True) tasks) n := by
  induction h with
  | init h => exact .init h
  | step _ hs ih => obtain ⟨i, hs⟩ := hs; exact .step ih ⟨i, hs, fun _ _ _ => trivial⟩

/-- The peer of this download delivers the handshake `hs` and then the messages `bodies`; nothing fails on this side. -/
structure Fed (t : Task) (hs : Bytes) (bodies : List Bytes) : Prop where
  dial : t.E.dialFails = false
  writes : ∀ tr, t.E.writeFails tr = false
  time : ∀ tr, t.E.expired tr = false
  memory : ∀ tr n, t.E.outOfMemory tr n = false
  order : ∀ tr, OrderOK (t.E.order tr)
  peer : t.peerId.length = 20
  info : t.infoHash.length = 20
  handshake : IsPeerHandshake hs
  delivers : Delivers t.E (hs :: bodies.flatMap wire)
  lengths : ∀ b ∈ bodies, b.length < 2 ^ 32
  rounds : bodies.length + 1 ≤ t.fuel

theorem Fed.stream {t : Task} {hs : Bytes} {bodies : List Bytes} (h : Fed t hs bodies) {f : List PEvent → Shared → Shared} {mem : Nat → Bytes} {pool : BPool}
    (hf : ∀ tr y, Own (heldP tr) y → OthersDo (heldP tr) y (f tr y)) (hown : Own [] (mem, pool)) :
    StreamAmong (t.E.among f) t.peerId t.infoHash mem pool hs bodies t.fuel where
  among := ⟨h.dial, hf, h.writes, h.time, h.memory, h.order⟩
  own := hown
  peer := h.peer
  info := h.info
  handshake := h.handshake
  delivers := h.delivers
  lengths := h.lengths
  rounds := h.rounds

/-- In some schedule of the downloads `tasks`, download `i`, which is `t`, has ended in `o`. -/
structure Ended (tasks : List Task) (i : Nat) (t : Task) (o : POut (Option Bytes × Option Bytes)) : Prop where
  task : tasks[i]? = some t
  ends : ∃ x n, Own [] x ∧ Reach (· = Net.fresh x tasks) (TurnStepAny tasks) n ∧ n.threads[i]? = some (.running (.done o))

theorem Ended.alone {tasks : List Task} {i : Nat} {t : Task} {o : POut (Option Bytes × Option Bytes)} (h : Ended tasks i t o) :
    ∃ f mem pool, (∀ tr y, Own (heldP tr) y → OthersDo (heldP tr) y (f tr y)) ∧ Own [] (mem, pool) ∧
      FetchMetaData (t.E.among f) t.sha1 t.fold t.fuel t.peerId t.infoHash mem pool = .of o := by
  obtain ⟨x, n, hx, hn, hi⟩ := h.ends
  obtain ⟨f, mem, pool, h1, h2, -, h3⟩ := C111_any_interleaving _ tasks x hx n (reach_true hn) i t h.task o hi
  exact ⟨f, mem, pool, h1, h2, h3⟩

section
variable {tasks : List Task} {i : Nat} {t : Task} {o : POut (Option Bytes × Option Bytes)}

/-- C111: in every schedule, what a download returns is an error and no data, or data with the right hash. -/
theorem C111_authentic (h : Ended tasks i t o) {ret err : Option Bytes} {s : PSt} (hr : FetchOut.of o = .returned ret err s) :
    (ret = none ∧ err ≠ none) ∨ (∃ d, ret = some d ∧ err = none ∧ t.sha1 d = t.infoHash) := by
  obtain ⟨f, mem, pool, -, -, h3⟩ := h.alone
  exact C41_authentic (t.E.among f) _ _ _ _ _ _ _ _ _ _ (h3.trans hr)

/-- C111: a message that is wrong makes the download fail, in every schedule, before the next message is read. -/
theorem C111_failed (h : Ended tasks i t o) {hs : Bytes} {bodies : List Bytes} (hf : Fed t hs bodies) (n : Nat) (hv : verdict 0 0 .start bodies = .failed n) :
    ∃ s, FetchOut.of o = .returned none (some b!"FetchMetaData err") s ∧ reads s.trace ≤ 1 + ((bodies.take (n + 1)).flatMap wire).length := by
  obtain ⟨f, mem, pool, h1, h2, h3⟩ := h.alone
  rw [← h3]
  exact C110_failed (hf.stream h1 h2) t.sha1 t.fold n hv

/-- C111: a peer that stops too early makes the download fail, in every schedule. -/
theorem C111_waiting (h : Ended tasks i t o) {hs : Bytes} {bodies : List Bytes} (hf : Fed t hs bodies) (hv : verdict 0 0 .start bodies = .waiting)
    (hend : ∀ tr size, reads tr = 1 + (bodies.flatMap wire).length → (t.E.read tr size).2 = true) :
    ∃ s, FetchOut.of o = .returned none (some b!"FetchMetaData err") s := by
  obtain ⟨f, mem, pool, h1, h2, h3⟩ := h.alone
  rw [← h3]
  exact C110_waiting (hf.stream h1 h2) t.sha1 t.fold hv hend

/-- C111: if all announced pieces came, then in every schedule the download reads no more, and checks bytes of the right number. -/
theorem C111_complete (h : Ended tasks i t o) {hs : Bytes} {bodies : List Bytes} (hf : Fed t hs bodies) (n k : Nat) (g : Received)
    (hv : verdict 0 0 .start bodies = .complete n k g) (hsz : g.size ≤ 2 ^ 48) :
    ∃ data s, data.length = g.content.length ∧
      FetchOut.of o = (if t.sha1 data = t.infoHash then .returned (some data) none s else .returned none (some b!"check sum err") s) ∧
      reads s.trace = 1 + ((bodies.take n).flatMap wire).length := by
  obtain ⟨f, mem, pool, h1, h2, h3⟩ := h.alone
  rw [← h3]
  exact C110_complete (hf.stream h1 h2) t.sha1 t.fold n k g hv hsz
end

/-- The schedules in which, whenever download `i` goes on, the others have left alone the buffers in which it received pieces. -/
def Spared (i j : Nat) (s : PSt) (x : Shared) : Prop := j = i → ∀ a ∈ pieceBuffers s.trace, x.1 a = s.mem a

/-- C111: **in every schedule in which the others leave alone the buffers with pieces of download `i`**, and it does not take one of them again itself, what is
checked – and returned, if its hash is right – is exactly what its peer sent. -/
theorem C111_spared {tasks : List Task} {i : Nat} {t : Task} {o : POut (Option Bytes × Option Bytes)} (ht : tasks[i]? = some t) {x : Shared} (hx : Own [] x) {n : Net}
    (hn : Reach (· = Net.fresh x tasks) (TurnStepIf (Spared i) tasks) n) (hi : n.threads[i]? = some (.running (.done o)))
    {hs : Bytes} {bodies : List Bytes} (hf : Fed t hs bodies) (m k : Nat) (g : Received) (hv : verdict 0 0 .start bodies = .complete m k g) (hsz : g.size ≤ 2 ^ 48) :
    ∃ data s, (NotRetaken s.trace → data = g.content) ∧
      FetchOut.of o = (if t.sha1 data = t.infoHash then .returned (some data) none s else .returned none (some b!"check sum err") s) := by
  obtain ⟨f, mem, pool, h1, h2, h3, h4⟩ := C111_any_interleaving _ tasks x hx n hn i t ht o hi
  have hA : LeaveAlone (t.E.among f) := by
    intro tr y a ha
    show (f tr y).1 a = y.1 a
    rcases h3 tr y with h | ⟨s, rfl, rfl, hR⟩
    · rw [h]
    · exact hR rfl a ha
  obtain ⟨data, s, g1, g2, -⟩ := C110_undisturbed (hf.stream h1 h2) hA t.sha1 t.fold m k g hv hsz
  exact ⟨data, s, g1, by rw [← h4]; exact g2⟩

end P2P

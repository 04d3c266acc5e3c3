import Verif.Props.SystemNet
import Verif.Props.InterleaveEnd
/-! # C113: downloads that take turns come to an end -/
namespace P2P

section
variable {S : SysEnv} {port : Int} {fs0 : Bytes → Option Bytes} {s : SysNetSt}

/-- a download that runs belongs to a job that was sent -/
theorem running_job (h : SysNetReach S port fs0 s) {i p : Nat} (hw : s.sys.pl.p2.workers[i]? = some (.running p)) : ∃ job l, enqueued (logOf p s.sys.pl.log) = job :: l := by
  obtain ⟨f, mem, pool, -, -, hr, -⟩ := C113_refines h
  obtain ⟨O, hO, hc⟩ := sys_crawler hr
  have hpl := (C92_refines hc).1
  obtain ⟨h1, h2, h3⟩ := C62_downloads S.K hO S.pkts hpl
  obtain ⟨-, job, hj, hm⟩ := h3 p (h1.subset (started_of_running (pl_inv hpl).reach2 hw))
  have hm : (p, Event.enqueue job) ∈ s.sys.pl.log := hm
  have hlog : Event.enqueue job ∈ logOf p s.sys.pl.log := List.mem_filterMap.2 ⟨(p, .enqueue job), hm, by simp⟩
  have hin : job ∈ enqueued (logOf p s.sys.pl.log) := List.mem_filterMap.2 ⟨_, hlog, rfl⟩
  cases he : enqueued (logOf p s.sys.pl.log) with
  | nil => rw [he] at hin; cases hin
  | cons a l => exact ⟨a, l, rfl⟩

/-- **C113** No download waits for another one, nor for anything else in the program: while the process lives, a worker whose download has not come out yet can take the next turn of it. -/
theorem C113_never_stuck (h : SysNetReach S port fs0 s) (up : s.sys.up) {i p : Nat} (hw : s.sys.pl.p2.workers[i]? = some (.running p)) (hn : s.outcome S p = none) :
    ∃ t, SysNetStep S s t ∧ (s.dl p).Goes (t.dl p) ∧ t.sys = s.sys ∧ ∀ q, q ≠ p → t.dl q = s.dl q := by
  obtain ⟨job, l, he⟩ := running_job h hw
  have hdl : ∀ q v, q ≠ p → upd s.dl p v q = s.dl q := fun q v hq => if_neg hq
  have hne : ∀ v, upd s.dl p v p = v := fun v => if_pos rfl
  unfold SysNetSt.outcome at hn
  rw [he] at hn
  simp only at hn
  cases ha : fetchArgs S.K.env job with
  | ok a =>
    rw [ha] at hn
    simp only at hn
    by_cases hd : (S.conn p a.2).dialFails = true
    · rw [if_pos hd] at hn; cases hn
    · rw [if_neg hd] at hn
      have htask : s.sys.task S p = some (S.task p a.1 a.2) := by unfold SysSt.task; rw [he]; simp only [ha]
      cases hp : s.dl p with
      | idle =>
        refine ⟨_, .start i p _ up hw htask (show (S.conn p a.2).dialFails = false by simpa using hd) hp, ?_, rfl, fun q hq => hdl q _ hq⟩
        simp only [hne]
        exact .start _
      | running st =>
        cases st with
        | done o => rw [hp] at hn; cases hn
        | wait st k =>
          refine ⟨_, .turn i p st k up hw hp, ?_, rfl, fun q hq => hdl q _ hq⟩
          simp only [hne]
          exact .resume st k _
  | _ => rw [ha] at hn; cases hn

/-- a step leaves a download where it is, or takes it one turn further -/
theorem netStep_dl {t : SysNetSt} (st : SysNetStep S s t) (p : Nat) : t.dl p = s.dl p ∨ (s.dl p).Goes (t.dl p) := by
  cases st with
  | start i q x up hw hx hd hq =>
    by_cases e : p = q
    · subst e
      right
      simp only [upd, if_pos, hq]
      exact .start _
    · left; simp [upd, e]
  | turn i q st k up hw hq =>
    by_cases e : p = q
    · subst e
      right
      simp only [upd, if_pos, hq]
      exact .resume st k _
    · left; simp [upd, e]
  | _ => exact .inl rfl

theorem goes_ne {a b : Thread} (h : a.Goes b) : b ≠ a := by
  rintro rfl
  have := thread_acc b
  induction this with
  | intro x _ ih => exact ih x h h

/-- **C113** In every execution, however long, each download takes finitely many turns: from some moment on it stands still (it has ended, or is never scheduled again). -/
theorem C113_turns_end {e : Nat → SysNetSt} (run : ∀ k, SysNetStep S (e k) (e (k + 1)) ∨ e (k + 1) = e k) (p : Nat) : ∃ k, ∀ k', k ≤ k' → (e k').dl p = (e k).dl p := by
  have key : ∀ th, Acc (fun b a => Thread.Goes a b) th → ∀ k, (e k).dl p = th → ∃ k, ∀ k', k ≤ k' → (e k').dl p = (e k).dl p := by
    intro th hacc
    induction hacc with
    | intro th _ ih =>
      intro k hk
      refine Classical.byContradiction fun hno => ?_
      have hstay : ∀ j, (e (k + j)).dl p = th := by
        intro j
        induction j with
        | zero => exact hk
        | succ j ihj =>
          rcases run (k + j) with h | h
          · rcases netStep_dl h p with h | h
            · rw [← Nat.add_assoc]; exact h.trans ihj
            · rw [ihj] at h
              exact (hno (ih _ h _ rfl)).elim
          · rw [← Nat.add_assoc, h]; exact ihj
      refine hno ⟨k, fun k' hk' => ?_⟩
      have := hstay (k' - k)
      rw [show k + (k' - k) = k' by omega] at this
      rw [this, hk]
  exact key _ (thread_acc _) 0 rfl

/-- **C113** When nothing more can happen to packets, jobs, downloads and files although the process lives and listens, and no download has run out of memory or of rounds, everything has been
done: every packet handed on has been handled, and every announce among them has been downloaded to the end. -/
theorem C113_all_done (hW1 : 1 ≤ S.W1) (hW2 : 1 ≤ S.W2) (h : SysNetReach S port fs0 s) (up : s.sys.up) (hl : s.sys.pg.st.pc = .listen)
    (hend : ∀ p out, s.outcome S p = some out → out.Ends)
    (stuck : ∀ t, SysNetStep S s t → t.sys.pl.arrived = s.sys.pl.arrived → t.sys.pl = s.sys.pl ∧ t.sys.fs = s.sys.fs ∧ t.dl = s.dl) :
    s.sys.pl.p1.finished.Perm (List.range s.sys.pl.arrived) ∧ s.sys.pl.p2.finished.Perm s.sys.pl.accepted ∧
    ∀ p job, p < s.sys.pl.arrived → IsAnnounce (S.pkts p) job → p ∈ s.sys.pl.p2.finished ∧ (p, Event.enqueue job) ∈ s.sys.pl.log := by
  obtain ⟨f, mem, pool, -, -, hr, ho, -⟩ := C113_refines h
  have come : ∀ (i p : Nat), s.sys.pl.p2.workers[i]? = some (.running p) → ∃ out, s.outcome S p = some out := by
    intro i p hw
    cases hn : s.outcome S p with
    | some out => exact ⟨out, rfl⟩
    | none =>
      obtain ⟨t, ht, hg, hs, -⟩ := C113_never_stuck h up hw hn
      have := (stuck t ht (by rw [hs])).2.2
      rw [this] at hg
      exact (goes_ne hg rfl).elim
  refine C101_all_done (S := S.instead (fun p laddr => (S.conn p laddr).among (f p)) mem pool) hW1 hW2 hr up hl (fun i p hw => ?_) fun t st harr => ?_
  · obtain ⟨out, hout⟩ := come i p hw
    rw [ho p out hout]
    exact hend p out hout
  · have rest : ∀ {t : SysSt}, SysStep S s.sys t → t.fs = s.sys.fs → t.pl.p2.finished = s.sys.pl.p2.finished → t.oom = s.sys.oom → t.pl.arrived = s.sys.pl.arrived →
        t.pl = s.sys.pl ∧ t.fs = s.sys.fs := fun a b c d e => let ⟨x, y, _⟩ := stuck _ (.rest a b c d) e; ⟨x, y⟩
    cases st with
    | life a b c d e => exact ⟨rfl, rfl⟩
    | boot tr a b c d => exact ⟨rfl, rfl⟩
    | read a b c => exact ⟨rfl, rfl⟩
    | deliver x a b c => exact rest (.deliver x a b c) rfl rfl rfl harr
    | take x p q a b c d e => exact rest (.take x p q a b c d e) rfl rfl rfl harr
    | pipe new a b c d e f g hh i j => exact rest (.pipe new a b c d e f g hh i j) rfl f rfl harr
    | @file fs i p _ hw hs hd =>
      obtain ⟨out, hout⟩ := come i p hw
      have e := ho p out hout
      have hs' : FsStep (fun j => if j = p then flushes (fun _ => out) j else none) s.sys.fs fs := by
        refine FsStep.mono (fun j x hx => ?_) hs
        by_cases ej : j = p
        · subst ej
          rw [if_pos rfl] at hx ⊢
          unfold flushes at hx ⊢
          rw [e] at hx
          exact hx
        · rw [if_neg ej] at hx; cases hx
      obtain ⟨x, y, -⟩ := stuck _ (.file i p out up hw hout hs' hd) rfl
      exact ⟨x, y⟩
    | back i p _ hw hret =>
      obtain ⟨out, hout⟩ := come i p hw
      have e := ho p out hout
      obtain ⟨x, y, -⟩ := stuck _ (.back i p out up hw hout (by
        unfold HandlerReturns at hret ⊢
        rw [e] at hret
        exact hret)) rfl
      exact ⟨x, y⟩
    | fatal i p _ hw hf => exact ⟨rfl, rfl⟩

end
end P2P

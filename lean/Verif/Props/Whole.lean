import Verif.Model.Whole
import Verif.Props.PipelineLive
import Verif.Props.Fetch
import Verif.Props.Sha1
import Verif.Props.Capture
/-! # C92: from an announce to a file – the whole crawler

`C62`, `C86` end where a download starts or ends, `C46` begins there. Here both are parts of one execution: what is in the directory at any moment
of the crawler's life, and that an announced torrent is in the directory in the end. -/
namespace P2P

/-! ## The two projections -/

theorem FsStep.mono {j1 j2 : Nat → Option (Bytes × Bytes)} (h : ∀ j x, j1 j = some x → j2 j = some x) {s t : FsSt} (st : FsStep j1 s t) :
    FsStep j2 s t := by
  cases st with
  | create j hash data a b => exact .create j hash data (h _ _ a) b
  | createFails j hash data a b => exact .createFails j hash data (h _ _ a) b
  | write j hash data c off n a b c d e => exact .write j hash data _ off n (h _ _ a) b c d e
  | finish j hash data off a b c => exact .finish j hash data off (h _ _ a) b c
  | writeFails j hash data off a b => exact .writeFails j hash data off (h _ _ a) b

/-- what is left to do for a job with `len` bytes of data -/
def JobPc.rank (len : Nat) : JobPc → Nat
  | .start => len + 2
  | .writing off => (len - off) + 1
  | .done => 0
  | .failed => 0

/-- a step of one job: the others stand still, and there is less to do for this one -/
theorem fsStep_one {out : Nat → HandlerOut} {p : Nat} {s t : FsSt} (st : FsStep (fun j => if j = p then flushes out j else none) s t) :
    ∃ hash data, flushes out p = some (hash, data) ∧ (t.pc p).rank data.length < (s.pc p).rank data.length ∧
      (∀ q, q ≠ p → t.pc q = s.pc q) ∧ s.pc p ≠ .done ∧ s.pc p ≠ .failed ∧ t.pc p ≠ .start := by
  have get : ∀ {j x}, (if j = p then flushes out j else none) = some x → j = p ∧ flushes out p = some x := by
    intro j x h
    by_cases e : j = p
    · subst e; rw [if_pos rfl] at h; exact ⟨rfl, h⟩
    · rw [if_neg e] at h; cases h
  cases st with
  | create j hash data a b =>
    obtain ⟨rfl, a⟩ := get a
    exact ⟨hash, data, a, by simp [b, JobPc.rank], fun q hq => upd_ne _ _ hq, by simp [b], by simp [b], by simp⟩
  | createFails j hash data a b =>
    obtain ⟨rfl, a⟩ := get a
    exact ⟨hash, data, a, by simp [b, JobPc.rank], fun q hq => upd_ne _ _ hq, by simp [b], by simp [b], by simp⟩
  | write j hash data c off n a b _ d e =>
    obtain ⟨rfl, a⟩ := get a
    exact ⟨hash, data, a, by simp [b, JobPc.rank]; omega, fun q hq => upd_ne _ _ hq, by simp [b], by simp [b], by simp⟩
  | finish j hash data off a b c =>
    obtain ⟨rfl, a⟩ := get a
    exact ⟨hash, data, a, by simp [b, JobPc.rank], fun q hq => upd_ne _ _ hq, by simp [b], by simp [b], by simp⟩
  | writeFails j hash data off a b =>
    obtain ⟨rfl, a⟩ := get a
    exact ⟨hash, data, a, by simp [b, JobPc.rank], fun q hq => upd_ne _ _ hq, by simp [b], by simp [b], by simp⟩

section
variable {tr : Nat → List Event} {out : Nat → HandlerOut} {dir : Bool} {W1 Q W2 : Nat} {fs0 : Bytes → Option Bytes}

theorem cr_pl {s t : CrSt} (st : CrStep tr out dir W1 Q W2 s t) : t.pl = s.pl ∨ PlStep tr W1 Q W2 s.pl t.pl := by
  cases st with
  | pipe h _ => exact .inr h
  | file i p _ _ _ => exact .inl rfl
  | back p h _ _ => exact .inr h

theorem cr_fs {s t : CrSt} (st : CrStep tr out dir W1 Q W2 s t) : t.fs = s.fs ∨ FsStep (flushes out) s.fs t.fs := by
  cases st with
  | pipe h _ => exact .inl rfl
  | file i p _ h _ =>
    refine .inr (h.mono fun j x hx => ?_)
    split at hx
    · exact hx
    · cases hx
  | back p h _ _ => exact .inl rfl

/-- reachable states of the whole crawler -/
abbrev CrReach (tr : Nat → List Event) (out : Nat → HandlerOut) (dir : Bool) (fs0 : Bytes → Option Bytes) (W1 Q W2 : Nat) : CrSt → Prop :=
  Reach (CrInit fs0 W1 W2) (CrStep tr out dir W1 Q W2)

/-- **C92** The whole crawler is the pipeline (of which C62 speaks) and the directory (of which C46 speaks) at the same time. -/
theorem C92_refines {s : CrSt} (h : CrReach tr out dir fs0 W1 Q W2 s) :
    PlReach tr W1 Q W2 s.pl ∧ Reach (FsInit fs0) (FsStep (flushes out)) s.fs := by
  refine h.inv (fun s => PlReach tr W1 Q W2 s.pl ∧ Reach (FsInit fs0) (FsStep (flushes out)) s.fs) ?_ ?_
  · exact fun s h => ⟨.init h.1, .init h.2⟩
  · intro s t ⟨a, b⟩ st
    refine ⟨?_, ?_⟩
    · rcases cr_pl st with h | h
      · rw [h]; exact a
      · exact .step a h
    · rcases cr_fs st with h | h
      · rw [h]; exact b
      · exact .step b h

theorem pl_started2 {s t : PlSt} (st : PlStep tr W1 Q W2 s t) {p : Nat} (hp : p ∈ s.p2.started) : p ∈ t.p2.started := by
  cases st with
  | recv2 i q r _ _ => exact List.mem_append_left _ hp
  | _ => exact hp

/-- Files are written by downloads that have been started; a download that has returned has finished its file. -/
structure CrInv (out : Nat → HandlerOut) (s : CrSt) : Prop where
  started : ∀ p, s.fs.pc p ≠ .start → p ∈ s.pl.p2.started
  finished : ∀ p ∈ s.pl.p2.finished, HandlerReturns out s.fs p

theorem cr_inv {s : CrSt} (h : CrReach tr out dir fs0 W1 Q W2 s) : CrInv out s := by
  suffices H : CrInv out s ∧ PlReach tr W1 Q W2 s.pl from H.1
  refine h.inv (fun s => CrInv out s ∧ PlReach tr W1 Q W2 s.pl) ?_ ?_
  · intro s ⟨a, b⟩
    refine ⟨⟨fun p hp => absurd (b.2.1 p) hp, fun p hp => ?_⟩, .init a⟩
    have : s.pl.p2.finished = [] := by
      obtain ⟨-, -, -, -, -, -, -, hw, -, -⟩ := a
      exact hw.2.2.2.2.2.2.2.2.2.2.2
    rw [this] at hp; cases hp
  · intro s t ⟨I, a⟩ st
    have a' : PlReach tr W1 Q W2 t.pl := by
      rcases cr_pl st with h | h
      · rw [h]; exact a
      · exact .step a h
    refine ⟨?_, a'⟩
    cases st with
    | pipe h hf => exact ⟨fun p hp => pl_started2 h (I.started p hp), fun p hp => I.finished p (by rw [← hf]; exact hp)⟩
    | back p h hf hr =>
      refine ⟨fun p hp => pl_started2 h (I.started p hp), fun q hq => ?_⟩
      rw [hf] at hq
      rcases List.mem_append.1 hq with hq | hq
      · exact I.finished q hq
      · rw [List.mem_singleton.1 hq]; exact hr
    | file i p hw h hd =>
      obtain ⟨hash, data, h1, h2, h3, h4, h5, h6⟩ := fsStep_one h
      refine ⟨fun q hq => ?_, fun q hq => ?_⟩
      · by_cases e : q = p
        · subst e; exact started_of_running (pl_inv a).reach2 hw
        · rw [h3 q e] at hq; exact I.started q hq
      · have e : q ≠ p := fun e => not_finished_of_running (pl_inv a).reach2 hw (e ▸ hq)
        have := I.finished q hq
        unfold HandlerReturns at this ⊢
        simp only [h3 q e]
        exact this

/-- **C92** Without the directory `torrent` – which the program does not create – no file is ever written. -/
theorem C92_no_directory {s : CrSt} (h : CrReach tr out false fs0 W1 Q W2 s) :
    s.fs.fs = fs0 ∧ ∀ p, s.fs.pc p = .start ∨ s.fs.pc p = .failed := by
  refine h.inv (fun s => s.fs.fs = fs0 ∧ ∀ p, s.fs.pc p = .start ∨ s.fs.pc p = .failed) ?_ ?_
  · exact fun s h => ⟨h.2.1, fun p => .inl (h.2.2.1 p)⟩
  · intro s t ⟨a, b⟩ st
    cases st with
    | pipe h _ => exact ⟨a, b⟩
    | back p h _ _ => exact ⟨a, b⟩
    | file i p hw h hd =>
      have hd := hd rfl
      obtain ⟨hash, data, h1, h2, h3, h4, h5, h6⟩ := fsStep_one h
      refine ⟨?_, fun q => ?_⟩
      · cases h with
        | create j hash data x y => split at x; · rename_i e; subst e; simp at hd
                                    · cases x
        | createFails j hash data x y => exact a
        | write j hash data c off n x y _ _ _ =>
          split at x
          · rename_i e; subst e; simp at hd
          · cases x
        | finish j hash data off x y _ => exact a
        | writeFails j hash data off x y => exact a
      · by_cases e : q = p
        · subst e; exact .inr hd
        · rw [h3 q e]; exact b q

/-! ## Fair executions -/

/-- the download comes to an end -/
def HandlerOut.Ends : HandlerOut → Prop
  | .nothing => True
  | .flush _ _ => True
  | .fatal => False
  | .diverge => False

/-- The call of `fetchHandler` for packet `p` on worker `w` of the download pool takes a step (writing its file, or returning). -/
def DownloadMoves (tr : Nat → List Event) (out : Nat → HandlerOut) (dir : Bool) (W1 Q W2 w p : Nat) (s t : CrSt) : Prop :=
  CrStep tr out dir W1 Q W2 s t ∧ (t.pl.p2.workers[w]?, t.fs.pc p) ≠ (s.pl.p2.workers[w]?, s.fs.pc p)

/-- A fair execution of the crawler: the scheduler forgets nobody (`FairCrawl` for the pipeline), and one worker of the downloads never gets a
download that does not end (C76). The process is not killed; in particular no download takes it down. -/
structure FairWhole (tr : Nat → List Event) (out : Nat → HandlerOut) (dir : Bool) (fs0 : Bytes → Option Bytes) (W1 Q W2 : Nat) (e : Nat → CrSt) :
    Prop where
  run : Run (CrInit fs0 W1 W2) (CrStep tr out dir W1 Q W2) e
  listen : WeaklyFair (fun i => (e i).pl) (ListenMoves tr W1 Q W2)
  fetch : WeaklyFair (fun i => (e i).pl) (FetchMoves tr W1 Q W2)
  worker1 : ∀ w, w < W1 → WorkerScheduled W1 (fun i => (e i).pl.p1) w
  handler : ∀ w, w < W1 → StronglyFair (fun i => (e i).pl) (HandlerMoves tr W1 Q W2 w)
  worker2 : ∀ w, w < W2 → WorkerScheduled W2 (fun i => (e i).pl.p2) w
  download : ∀ w p, w < W2 → WeaklyFair e (DownloadMoves tr out dir W1 Q W2 w p)
  free : ∃ w, w < W2 ∧ ∀ i p, (e i).pl.p2.workers[w]? = some (.running p) → (out p).Ends

variable {e : Nat → CrSt}

theorem FairWhole.reach (F : FairWhole tr out dir fs0 W1 Q W2 e) (i : Nat) : CrReach tr out dir fs0 W1 Q W2 (e i) := F.run.reach i

/-- A download that ends returns to the pool. -/
theorem FairWhole.returns (F : FairWhole tr out dir fs0 W1 Q W2 e) {w p k : Nat} (hw : w < W2) (hend : (out p).Ends)
    (hk : (e k).pl.p2.workers[w]? = some (.running p)) : ∃ j, k ≤ j ∧ (e j).pl.p2.workers[w]? ≠ some (.running p) := by
  refine eventually (fun i => ((e i).pl.p2.workers[w]?, (e i).fs.pc p))
    (fun i => ((e i).fs.pc p).rank (match flushes out p with | some x => x.2.length | none => 0))
    (fun i => (e i).pl.p2.workers[w]? ≠ some (.running p)) k ?_ ?_
  · intro i _ hrun
    have hrun : (e i).pl.p2.workers[w]? = some (.running p) := Classical.byContradiction hrun
    by_cases hw' : (e (i + 1)).pl.p2.workers[w]? = some (.running p)
    · right
      simp only [hrun, hw']
      have key : (e (i + 1)).fs.pc p = (e i).fs.pc p ∨ ((e (i + 1)).fs.pc p).rank (match flushes out p with | some x => x.2.length | none => 0) <
          ((e i).fs.pc p).rank (match flushes out p with | some x => x.2.length | none => 0) := by
        rcases F.run.next i with h | h
        · rw [h]; exact .inl rfl
        · generalize e (i + 1) = t at h
          cases h with
          | pipe h _ => exact .inl rfl
          | back q h _ _ => exact .inl rfl
          | file x q hx h hd =>
            obtain ⟨hash, data, h1, h2, h3, -⟩ := fsStep_one h
            by_cases hq : p = q
            · subst hq; right; rw [h1]; exact h2
            · exact .inl (h3 p hq)
      rcases key with h | h
      · rw [h]; exact ⟨Nat.le_refl _, fun hne => absurd rfl hne⟩
      · exact ⟨Nat.le_of_lt h, fun _ => h⟩
    · exact .inl hw'
  · intro i _ hrun
    refine (F.download w p hw).moves (fun s => (s.pl.p2.workers[w]?, s.fs.pc p)) (fun s t h => h.2) i
      (fun i => (e i).pl.p2.workers[w]? ≠ some (.running p)) ?_
    intro j _ hg _
    have hrun : (e j).pl.p2.workers[w]? = some (.running p) := Classical.byContradiction hg
    have lt : w < (e j).pl.p2.workers.length := (List.getElem?_eq_some_iff.1 hrun).1
    have back : HandlerReturns out (e j).fs p → ∃ t, DownloadMoves tr out dir W1 Q W2 w p (e j) t := by
      intro hr
      refine ⟨_, .back p (.done2 w p hrun) rfl hr, fun h => ?_⟩
      simp only [Prod.mk.injEq] at h
      rw [List.getElem?_set_self lt, hrun] at h
      cases h.1
    cases ho : out p with
    | fatal => rw [ho] at hend; cases hend
    | diverge => rw [ho] at hend; cases hend
    | nothing => exact back (by unfold HandlerReturns; rw [ho]; trivial)
    | flush hash data =>
      have hfl : (fun j => if j = p then flushes out j else none) p = some (hash, data) := by simp [flushes, ho]
      cases hpc : (e j).fs.pc p with
      | start =>
        refine ⟨_, .file w p hrun (.createFails p hash data hfl hpc) (by simp), fun h => ?_⟩
        simp only [Prod.mk.injEq, upd_same, hpc] at h
        cases h.2
      | writing off =>
        refine ⟨_, .file w p hrun (.writeFails p hash data off hfl hpc) (by simp), fun h => ?_⟩
        simp only [Prod.mk.injEq, upd_same, hpc] at h
        cases h.2
      | done => exact back (by unfold HandlerReturns; rw [ho]; exact .inl hpc)
      | failed => exact back (by unfold HandlerReturns; rw [ho]; exact .inr hpc)

/-- a fair execution of the crawler is a fair execution of the pipeline -/
theorem FairWhole.crawl (F : FairWhole tr out dir fs0 W1 Q W2 e) : FairCrawl tr W1 Q W2 (fun i => (e i).pl) := by
  refine ⟨⟨F.run.start.1, fun i => ?_⟩, F.listen, F.fetch, F.worker1, F.handler, ?_⟩
  · rcases F.run.next i with h | h
    · exact .inl (by rw [h])
    · exact cr_pl h
  · obtain ⟨w, hw, hfree⟩ := F.free
    exact ⟨w, hw, F.worker2 w hw, fun k p hk => F.returns hw (hfree k p hk) hk⟩

theorem pl_leaves {s t : PlSt} (st : PlStep tr W1 Q W2 s t) {w p : Nat} (h1 : s.p2.workers[w]? = some (.running p))
    (h2 : t.p2.workers[w]? ≠ some (.running p)) : p ∈ t.p2.finished := by
  cases st with
  | select2 i hi =>
    rcases getElem?_set_cases (w := w) (new := .recv) hi with h | ⟨-, h, -⟩
    · exact absurd (h.trans h1) h2
    · rw [h1] at h; cases h
  | recv2 i q r hi hq =>
    rcases getElem?_set_cases (w := w) (new := .running q) hi with h | ⟨-, h, -⟩
    · exact absurd (h.trans h1) h2
    · rw [h1] at h; cases h
  | done2 i q hi =>
    rcases getElem?_set_cases (w := w) (new := .select) hi with h | ⟨-, h, -⟩
    · exact absurd (h.trans h1) h2
    · rw [h1] at h; injection h with h; injection h with h; subst h; simp
  | _ => exact absurd h1 h2

/-- A download that has been started and ends has finished in the end. -/
theorem FairWhole.finishes (F : FairWhole tr out dir fs0 W1 Q W2 e) {p k : Nat} (hend : (out p).Ends) (hk : p ∈ (e k).pl.p2.started) :
    ∃ j, k ≤ j ∧ p ∈ (e j).pl.p2.finished := by
  have I := wp_inv (F.crawl.inv k).reach2
  rcases List.mem_append.1 (I.exec.mem_iff.1 hk) with h | h
  · exact ⟨k, Nat.le_refl k, h⟩
  · obtain ⟨x, hx, hxp⟩ := List.mem_filterMap.1 h
    have : x = .running p := by
      cases x <;> simp at hxp
      rw [hxp]
    subst this
    obtain ⟨w, hw⟩ := List.getElem?_of_mem hx
    have hlt : w < W2 := by rw [← I.len]; exact (List.getElem?_eq_some_iff.1 hw).1
    obtain ⟨j, hj, hne⟩ := F.returns hlt hend hw
    obtain ⟨m, hm, -, hm1, hm2⟩ := becomes (P := fun j => (e j).pl.p2.workers[w]? ≠ some (.running p)) hj (fun h => h hw) hne
    refine ⟨m + 1, by omega, ?_⟩
    have hm1 : (e m).pl.p2.workers[w]? = some (.running p) := Classical.byContradiction hm1
    rcases F.crawl.run.next m with h | h
    · exact absurd (by rw [h]; exact hm1) hm2
    · exact pl_leaves h hm1 hm2

/-- **C92** A worker whose download does not end (C76: the peer reads nothing) is lost for the rest of the life of the process: whatever happens, it goes
on with this download. -/
theorem C92_captured {s t : CrSt} (h0 : CrReach tr out dir fs0 W1 Q W2 s) {w p : Nat} (hw : s.pl.p2.workers[w]? = some (.running p))
    (hend : ¬ (out p).Ends) (h : Reach (fun u => u = s) (CrStep tr out dir W1 Q W2) t) : t.pl.p2.workers[w]? = some (.running p) := by
  suffices H : t.pl.p2.workers[w]? = some (.running p) ∧ CrReach tr out dir fs0 W1 Q W2 t from H.1
  refine h.inv (fun t => t.pl.p2.workers[w]? = some (.running p) ∧ CrReach tr out dir fs0 W1 Q W2 t) (fun u hu => by rw [hu]; exact ⟨hw, h0⟩) ?_
  intro u v ⟨a, b⟩ st
  have b' := Reach.step b st
  refine ⟨Classical.byContradiction fun hne => ?_, b'⟩
  have hfin : p ∈ v.pl.p2.finished := by
    rcases cr_pl st with h | h
    · rw [h] at hne; exact absurd a hne
    · exact pl_leaves h a hne
  have := (cr_inv b').finished p hfin
  unfold HandlerReturns at this
  cases ho : out p <;> rw [ho] at this hend <;> first | exact hend trivial | exact this

theorem FairWhole.settled (F : FairWhole tr out dir fs0 W1 Q W2 e) {p i j : Nat} (hij : i ≤ j)
    (h : (e i).fs.pc p = .done ∨ (e i).fs.pc p = .failed) : (e j).fs.pc p = (e i).fs.pc p := by
  refine F.run.stays (fun s => s.fs.pc p = (e i).fs.pc p) ?_ hij rfl
  intro k hk st
  generalize e (k + 1) = t at st
  show t.fs.pc p = _
  cases st with
  | pipe h _ => exact hk
  | back q h _ _ => exact hk
  | file x q hx hs hd =>
    obtain ⟨hash, data, h1, h2, h3, h4, h5, -⟩ := fsStep_one hs
    by_cases hq : p = q
    · subst hq
      rw [← hk] at h
      rcases h with h | h
      · exact absurd h h4
      · exact absurd h h5
    · show _ = _
      rw [h3 p hq]; exact hk

theorem flushes_ends {p : Nat} {x : Bytes × Bytes} (h : flushes out p = some x) : (out p).Ends := by
  unfold flushes at h
  cases ho : out p <;> rw [ho] at h <;> first | trivial | cases h

/-- **C92** The file of every job that is accepted and whose download delivers data is dealt with: written completely, or a call of the file system
has failed. -/
theorem C92_written (F : FairWhole tr out dir fs0 W1 Q W2 e) (h1 : SingleEnqueue tr) {i p : Nat} (hp : p ∈ (e i).pl.accepted)
    {hash data : Bytes} (hf : flushes out p = some (hash, data)) :
    ∃ j, i ≤ j ∧ ((∀ m, j ≤ m → (e m).fs.pc p = .done) ∨ (∀ m, j ≤ m → (e m).fs.pc p = .failed)) := by
  obtain ⟨k, hk, hs⟩ := C86_job_started F.crawl h1 hp
  obtain ⟨j, hj, hfin⟩ := F.finishes (flushes_ends hf) hs
  have hr := (cr_inv (F.reach j)).finished p hfin
  have hpc : (e j).fs.pc p = .done ∨ (e j).fs.pc p = .failed := by
    unfold HandlerReturns at hr
    unfold flushes at hf
    cases ho : out p <;> rw [ho] at hr hf <;> first | exact hr | cases hf
  refine ⟨j, by omega, ?_⟩
  rcases hpc with h | h
  · exact .inl fun m hm => by rw [F.settled hm (.inl h)]; exact h
  · exact .inr fun m hm => by rw [F.settled hm (.inr h)]; exact h

/-- No job writes for ever. -/
theorem FairWhole.not_writing (F : FairWhole tr out dir fs0 W1 Q W2 e) (k : Nat) :
    ∃ j, ∀ m, j ≤ m → ∀ off, (e m).fs.pc k ≠ .writing off := by
  by_cases h : ∃ m off, (e m).fs.pc k = .writing off
  · obtain ⟨m, off, hm⟩ := h
    have hfl : ∃ x, flushes out k = some x := by
      refine Classical.byContradiction fun hno => ?_
      have hno : flushes out k = none := by
        cases hx : flushes out k with
        | none => rfl
        | some x => exact absurd ⟨x, hx⟩ hno
      have : (e m).fs.pc k = (e 0).fs.pc k := by
        refine F.run.stays (fun s => s.fs.pc k = (e 0).fs.pc k) ?_ (Nat.zero_le m) rfl
        intro i hi st
        generalize e (i + 1) = t at st
        show t.fs.pc k = _
        cases st with
        | pipe h _ => exact hi
        | back q h _ _ => exact hi
        | file x q hx hs hd =>
          obtain ⟨hash, data, h1, -, h3, -⟩ := fsStep_one hs
          have hq : k ≠ q := by rintro rfl; rw [h1] at hno; cases hno
          show _ = _
          rw [h3 k hq]; exact hi
      rw [F.run.start.2.2.1 k] at this
      rw [this] at hm; cases hm
    obtain ⟨⟨hash, data⟩, hfl⟩ := hfl
    have hs := (cr_inv (F.reach m)).started k (by rw [hm]; simp)
    obtain ⟨j, hj, hfin⟩ := F.finishes (flushes_ends hfl) hs
    have hr := (cr_inv (F.reach j)).finished k hfin
    have hpc : (e j).fs.pc k = .done ∨ (e j).fs.pc k = .failed := by
      unfold HandlerReturns at hr
      unfold flushes at hfl
      cases ho : out k <;> rw [ho] at hr hfl <;> first | exact hr | cases hfl
    refine ⟨j, fun i hi off hw => ?_⟩
    rw [F.settled hi hpc] at hw
    rcases hpc with h | h <;> rw [h] at hw <;> cases hw
  · exact ⟨0, fun m _ off hm => h ⟨m, off, hm⟩⟩

/-- **C92** An announced torrent is on the disk: from some moment on the file is complete whenever no download of the same torrent is just being
written (a second announce of the torrent empties the file and writes it again). -/
theorem C92_between (F : FairWhole tr out dir fs0 W1 Q W2 e) (h1 : SingleEnqueue tr) (hsame : SameData (flushes out)) {i p : Nat}
    (hp : p ∈ (e i).pl.accepted) {hash data : Bytes} (hf : flushes out p = some (hash, data))
    (nofail : ∀ m k d, flushes out k = some (hash, d) → (e m).fs.pc k ≠ .failed) :
    ∃ j, i ≤ j ∧ ∀ m, j ≤ m → (∀ k d off, flushes out k = some (hash, d) → (e m).fs.pc k ≠ .writing off) →
      (e m).fs.fs (torrentPath hash) = some data := by
  obtain ⟨j, hj, h⟩ := C92_written F h1 hp hf
  have hdone : ∀ m, j ≤ m → (e m).fs.pc p = .done := by
    rcases h with h | h
    · exact h
    · exact absurd (h j (Nat.le_refl j)) (nofail j p data hf)
  refine ⟨j, hj, fun m hm hq => ?_⟩
  refine C46_complete hsame (C92_refines (F.reach m)).2 p hash data hf (hdone m hm) fun k d hk => ?_
  cases hpc : (e m).fs.pc k with
  | start => exact .inl rfl
  | done => exact .inr rfl
  | writing off => exact absurd hpc (hq k d off hk)
  | failed => exact absurd hpc (nofail m k d hk)

/-- **C92** … and if it is announced only finitely often, the file is complete from some moment on, for ever. -/
theorem C92_on_disk (F : FairWhole tr out dir fs0 W1 Q W2 e) (h1 : SingleEnqueue tr) (hsame : SameData (flushes out)) {i p : Nat}
    (hp : p ∈ (e i).pl.accepted) {hash data : Bytes} (hf : flushes out p = some (hash, data))
    (nofail : ∀ m k d, flushes out k = some (hash, d) → (e m).fs.pc k ≠ .failed)
    (finite : ∃ N, ∀ k d, flushes out k = some (hash, d) → k < N) :
    ∃ j, i ≤ j ∧ ∀ m, j ≤ m → (e m).fs.fs (torrentPath hash) = some data := by
  obtain ⟨j, hj, h⟩ := C92_between F h1 hsame hp hf nofail
  obtain ⟨N, hN⟩ := finite
  have key : ∀ n, ∃ j, ∀ m, j ≤ m → ∀ k, k < n → ∀ off, (e m).fs.pc k ≠ .writing off := by
    intro n
    induction n with
    | zero => exact ⟨0, fun m _ k hk => absurd hk (Nat.not_lt_zero k)⟩
    | succ n ih =>
      obtain ⟨a, ha⟩ := ih
      obtain ⟨b, hb⟩ := F.not_writing n
      refine ⟨max a b, fun m hm k hk => ?_⟩
      by_cases hkn : k = n
      · subst hkn; exact hb m (by omega)
      · exact ha m (by omega) k (by omega)
  obtain ⟨j', hj'⟩ := key N
  exact ⟨max j j', by omega, fun m hm => h m (by omega) fun k d off hk => hj' m (by omega) k (hN k d hk) off⟩

end

/-! ## The crawler -/

/-- What the download for packet `p` leads to: `fetchHandler` with the job its handler queues, in whatever environment (`conn p`) and with whatever
contents of the shared buffers (`mem p`, `pool p`). -/
def crawlOut (K : KEnv) (O : Nat → Oracle) (pkts : Nat → RecvPacket) (conn : Nat → Bytes → PEnv) (sha1 : Bytes → Bytes) (fuel : Nat)
    (peerId : Bytes) (mem : Nat → Nat → Bytes) (pool : Nat → BPool) (p : Nat) : HandlerOut :=
  match enqueued (crawlTraces K O pkts p) with
  | job :: _ => fetchHandler K.env (conn p) sha1 fuel peerId (mem p) (pool p) job
  | [] => .nothing

theorem IsAnnounce.unique {pkt : RecvPacket} {j j' : Job} (h : IsAnnounce pkt j) (h' : IsAnnounce pkt j') : j = j' := by
  obtain ⟨d, t, a, hq, -, ha, rfl⟩ := h
  obtain ⟨d', t', a', hq', -, ha', rfl⟩ := h'
  obtain ⟨e1, e2, -⟩ := query_functional hq hq'
  subst e1; subst e2
  rw [ha] at ha'; injection ha' with ha'; injection ha' with ha'; subst ha'; rfl

section
variable (K : KEnv) {O : Nat → Oracle} (hO : ∀ p, (O p).Fair) (pkts : Nat → RecvPacket) (conn : Nat → Bytes → PEnv) (sha1 : Bytes → Bytes)
  (fuel : Nat) (peerId : Bytes) (mem : Nat → Nat → Bytes) (pool : Nat → BPool)
include hO

theorem crawlOut_announce {p : Nat} {job : Job} (h : IsAnnounce (pkts p) job) :
    crawlOut K O pkts conn sha1 fuel peerId mem pool p = fetchHandler K.env (conn p) sha1 fuel peerId (mem p) (pool p) job := by
  rcases crawlTraces_spec K hO pkts p with ⟨job', b, f, hj, e⟩ | ⟨hn, -⟩
  · have := hj.unique h; subst this
    unfold crawlOut
    rw [e]; rfl
  · exact absurd h (hn job)

theorem crawlOut_flush {p : Nat} {hash data : Bytes} (h : flushes (crawlOut K O pkts conn sha1 fuel peerId mem pool) p = some (hash, data)) :
    ∃ job, IsAnnounce (pkts p) job ∧ fetchHandler K.env (conn p) sha1 fuel peerId (mem p) (pool p) job = .flush hash data := by
  rcases crawlTraces_spec K hO pkts p with ⟨job, b, f, hj, e⟩ | ⟨-, e⟩
  · refine ⟨job, hj, ?_⟩
    rw [← crawlOut_announce K hO pkts conn sha1 fuel peerId mem pool hj]
    unfold flushes at h
    cases ho : crawlOut K O pkts conn sha1 fuel peerId mem pool p <;> rw [ho] at h <;> simp at h
    rw [h.1, h.2]
  · unfold flushes crawlOut at h
    rw [e] at h; cases h

/-- **C92** What is in the directory at any moment of the crawler's life, and so whenever it is killed: a file is as it was when the crawler was
started, or there is an announce_peer query that has arrived, has been written to the log of info hashes, and whose download has been started and has
delivered data with the announced SHA-1 hash; the file is named after this hash, in hex, and every byte in it is the byte of this data at that place, or zero. -/
theorem C92_files {dir : Bool} {fs0 : Bytes → Option Bytes} {W1 Q W2 : Nat} {s : CrSt}
    (h : CrReach (crawlTraces K O pkts) (crawlOut K O pkts conn sha1 fuel peerId mem pool) dir fs0 W1 Q W2 s)
    (hsame : SameData (flushes (crawlOut K O pkts conn sha1 fuel peerId mem pool))) (path : Bytes) :
    s.fs.fs path = fs0 path ∨
    ∃ p job infoHash r data c, p < s.pl.arrived ∧ IsAnnounce (pkts p) job ∧
      (asMap job.req.body).lookup b!"info_hash" = some (.str infoHash) ∧ infoHash.length = 20 ∧
      Recorded K.env (pkts p) r ∧ r.kind = b!"announce_peer" ∧ (p, Event.record r) ∈ s.pl.log ∧ p ∈ s.pl.p2.started ∧
      IsHexOf r.infoHash infoHash ∧ path = b!"torrent/" ++ r.infoHash ++ b!".torrent" ∧ sha1 data = infoHash ∧
      s.fs.fs path = some c ∧ c.length ≤ data.length ∧ ∀ i : Nat, c[i]? = none ∨ c[i]? = some 0 ∨ c[i]? = data[i]? := by
  obtain ⟨hpl, hfs⟩ := C92_refines h
  have I := fs_inv hsame hfs
  cases ho : s.fs.owner path with
  | none => exact .inl (I.untouched path ho)
  | some p =>
    obtain ⟨hash, data, c, a1, a2, a3, a4, a5, -, a7⟩ := I.owned path p ho
    obtain ⟨job, hj, hfl⟩ := crawlOut_flush K hO pkts conn sha1 fuel peerId mem pool a1
    obtain ⟨ih, b1, b2, b3, b4⟩ := C46_flush _ _ _ _ _ _ _ _ _ _ hfl
    have hst := (cr_inv h).started p a7
    obtain ⟨job', r, c1, c2, c3, c4, c5⟩ := C69_file_recorded K hO pkts hpl p hst
    have := c1.unique hj; subst this
    have hr := c5 _ _ _ _ _ _ _ _ hfl
    obtain ⟨hpre, -, hacc⟩ := C62_downloads K hO pkts hpl
    have hlt := (hacc p (hpre.subset hst)).1
    exact .inr ⟨p, job', ih, r, data, c, hlt, hj, b1, b2, c2, c3, c4, hst, by rw [hr]; exact b3, by rw [hr]; exact a2, b4, a3, a4, a5⟩

/-- **C92** From announce to file: an announce_peer query has arrived, and the peer it names delivers data with the announced hash; no call of
the file system fails, and the same info hash is announced only finitely often. Then in every fair execution, whatever else arrives, the file named after
the info hash holds exactly this data from some moment on, for ever. -/
theorem C92_announced {dir : Bool} {fs0 : Bytes → Option Bytes} {W1 Q W2 : Nat} (hW1 : 1 ≤ W1) {e : Nat → CrSt}
    (F : FairWhole (crawlTraces K O pkts) (crawlOut K O pkts conn sha1 fuel peerId mem pool) dir fs0 W1 Q W2 e)
    (hsame : SameData (flushes (crawlOut K O pkts conn sha1 fuel peerId mem pool)))
    {i p : Nat} (hp : p < (e i).pl.arrived) {job : Job} (hj : IsAnnounce (pkts p) job)
    {infoHash laddr md : Bytes} {st : PSt} (hih : (asMap job.req.body).lookup b!"info_hash" = some (.str infoHash))
    (haddr : parseFetchAddr K.env job = .ok laddr)
    (hfetch : FetchMetaData (conn p laddr) sha1 K.env.fold fuel peerId infoHash (mem p) (pool p) = .returned (some md) none st)
    (nofail : ∀ m k, (e m).fs.pc k ≠ .failed)
    (finite : ∃ N, ∀ k, N ≤ k → ∀ job', IsAnnounce (pkts k) job' → (asMap job'.req.body).lookup b!"info_hash" ≠ some (.str infoHash))
    {hex : Bytes} (hhex : IsHexOf hex infoHash) :
    ∃ j, i ≤ j ∧ ∀ m, j ≤ m → (e m).fs.fs (b!"torrent/" ++ hex ++ b!".torrent") = some md := by
  have hx : hex = hexEncode infoHash := hhex.unique_hex (hexEncode_isHexOf infoHash)
  subst hx
  have hout : fetchHandler K.env (conn p) sha1 fuel peerId (mem p) (pool p) job = .flush (hexEncode infoHash) md := by
    unfold fetchHandler
    simp only [Dict.GetString, Dict.GetVal, dictGet, hih, Res.bind_ok, GoVal.asStr, haddr, Res.pure_eq, hfetch]
    simp
  have hf : flushes (crawlOut K O pkts conn sha1 fuel peerId mem pool) p = some (hexEncode infoHash, md) := by
    unfold flushes
    rw [crawlOut_announce K hO pkts conn sha1 fuel peerId mem pool hj, hout]
  obtain ⟨k, hk, hlog, -, -⟩ := C86_announce K hO pkts hW1 F.crawl hp hj
  have hacc : p ∈ (e k).pl.accepted := by
    rw [(F.crawl.inv k).acc]
    exact List.mem_map.2 ⟨(p, .enqueue job), List.mem_filter.2 ⟨hlog, rfl⟩, rfl⟩
  obtain ⟨j, hj2, h⟩ := C92_on_disk F (crawl_single K hO pkts) hsame hacc hf (fun m k _ _ => nofail m k) (by
    obtain ⟨N, hN⟩ := finite
    refine ⟨N, fun q d hq => ?_⟩
    refine Classical.byContradiction fun hlt => ?_
    obtain ⟨job', hj', hfl⟩ := crawlOut_flush K hO pkts conn sha1 fuel peerId mem pool hq
    obtain ⟨ih', b1, b2, b3, b4⟩ := C46_flush _ _ _ _ _ _ _ _ _ _ hfl
    have := b3.unique (hexEncode_isHexOf infoHash)
    subst this
    exact hN q (by omega) job' hj' b1)
  exact ⟨j, by omega, h⟩

end

/-! ## Fair executions exist -/

/-- Every execution of the pipeline is part of an execution of the whole crawler in which no call of the file system fails. -/
theorem whole_of_pipeline {tr : Nat → List Event} {out : Nat → HandlerOut} {W1 Q W2 : Nat} (fs0 : Bytes → Option Bytes)
    (hends : ∀ p, (out p).Ends) {s : PlSt} (h : PlReach tr W1 Q W2 s) :
    ∃ fs, CrReach tr out true fs0 W1 Q W2 ⟨s, fs⟩ ∧ (∀ p, fs.pc p = .start ∨ fs.pc p = .done) ∧ ∀ p, p ∉ s.p2.finished → fs.pc p = .start := by
  induction h with
  | @init s h => exact ⟨⟨fs0, fun _ => .start, fun _ => none⟩, .init ⟨h, rfl, fun _ => rfl, fun _ => rfl⟩, fun _ => .inl rfl, fun _ _ => rfl⟩
  | @step s t h st ih =>
    obtain ⟨fs, hr, h1, h2⟩ := ih
    have pipe : t.p2.finished = s.p2.finished →
        ∃ fs, CrReach tr out true fs0 W1 Q W2 ⟨t, fs⟩ ∧ (∀ p, fs.pc p = .start ∨ fs.pc p = .done) ∧ ∀ p, p ∉ t.p2.finished → fs.pc p = .start := by
      intro hf
      exact ⟨fs, .step hr (.pipe st hf), h1, fun p hp => h2 p (by rw [← hf]; exact hp)⟩
    have st' := st
    cases st' with
    | done2 i p hw =>
      have hstart := h2 p (not_finished_of_running (pl_inv h).reach2 hw)
      cases ho : out p with
      | fatal => have := hends p; rw [ho] at this; cases this
      | diverge => have := hends p; rw [ho] at this; cases this
      | nothing =>
        refine ⟨fs, .step hr (.back p st rfl (by unfold HandlerReturns; rw [ho]; trivial)), h1, fun q hq => h2 q ?_⟩
        exact fun hq' => hq (List.mem_append_left _ hq')
      | flush hash data =>
        have hfl : (fun j => if j = p then flushes out j else none) p = some (hash, data) := by simp [flushes, ho]
        have r1 := Reach.step hr (CrStep.file i p hw (.create p hash data hfl hstart) (fun h => nomatch h))
        obtain ⟨t, ht⟩ : ∃ t : PlSt, t = { s with p2 := { s.p2 with workers := s.p2.workers.set i .select, finished := s.p2.finished ++ [p] } } := ⟨_, rfl⟩
        rw [← ht]
        have hfin : t.p2.finished = s.p2.finished ++ [p] := by rw [ht]
        rw [hfin]
        have fin : ∀ (fs' : FsSt), CrReach tr out true fs0 W1 Q W2 ⟨s, fs'⟩ → fs'.pc p = .writing data.length → (∀ q, q ≠ p → fs'.pc q = fs.pc q) →
            ∃ fs, CrReach tr out true fs0 W1 Q W2 (CrSt.mk t fs) ∧ (∀ p, fs.pc p = .start ∨ fs.pc p = .done) ∧
              ∀ q, q ∉ s.p2.finished ++ [p] → fs.pc q = .start := by
          intro fs' r2 hpc hoth
          subst ht
          have r3 := Reach.step r2 (CrStep.file i p hw (.finish p hash data data.length hfl hpc rfl) (fun h => nomatch h))
          have r4 := Reach.step r3 (CrStep.back p st rfl (by unfold HandlerReturns; rw [ho]; exact .inl (upd_same _ _ _)))
          refine ⟨_, r4, fun q => ?_, fun q hq => ?_⟩
          · by_cases e : q = p
            · subst e; exact .inr (upd_same _ _ _)
            · show upd fs'.pc p .done q = _ ∨ upd fs'.pc p .done q = _
              rw [upd_ne _ _ e, hoth q e]; exact h1 q
          · simp only [List.mem_append, List.mem_singleton, not_or] at hq
            show upd fs'.pc p .done q = _
            rw [upd_ne _ _ hq.2, hoth q hq.2]; exact h2 q hq.1
        by_cases hd : data = []
        · subst hd
          exact fin _ r1 (upd_same _ _ _) fun q hq => upd_ne _ _ hq
        · have hpos : 0 < data.length := List.length_pos_iff.2 hd
          have r2 := Reach.step r1 (CrStep.file i p hw (.write p hash data [] 0 data.length hfl (upd_same _ _ _) (upd_same _ _ _) hpos (by omega))
            (fun h => nomatch h))
          refine fin _ r2 ?_ ?_
          · simp
          · intro q hq
            show upd (upd fs.pc p _) p _ q = _
            rw [upd_ne _ _ hq, upd_ne _ _ hq]
    | _ => exact pipe rfl

/-- Non-vacuity: for every number of packets there is a fair execution of the crawler in which that many packets arrive and no call of the file
system fails. -/
theorem C92_fair_runs {tr : Nat → List Event} {out : Nat → HandlerOut} {W1 Q W2 : Nat} (hW1 : 1 ≤ W1) (hW2 : 1 ≤ W2) (h1 : SingleEnqueue tr)
    (hends : ∀ p, (out p).Ends) (fs0 : Bytes → Option Bytes) (n : Nat) :
    ∃ e N, FairWhole tr out true fs0 W1 Q W2 e ∧ (e N).pl.arrived = n ∧ ∀ m k, (e m).fs.pc k ≠ .failed := by
  obtain ⟨s, hs, hn, hq⟩ := C62_all_done_reachable (Q := Q) hW1 hW2 h1 n
  obtain ⟨fs, hr, hpc, -⟩ := whole_of_pipeline fs0 hends hs
  obtain ⟨e, N, r, hN⟩ := run_of_reach hr
  have rp : Run (PlInit W1 W2) (PlStep tr W1 Q W2) (fun i => (e i).pl) := by
    refine ⟨r.start.1, fun i => ?_⟩
    rcases r.next i with h | h
    · exact .inl (by rw [h])
    · exact cr_pl h
  obtain ⟨Fc, sch, norun⟩ := fairCrawl_of_rest hW1 hW2 h1 (s := s) (N := N) rp (fun i hi => by simp only [hN i hi]) hq
  have F : FairWhole tr out true fs0 W1 Q W2 e := by
    refine ⟨r, Fc.listen, Fc.fetch, Fc.worker1, Fc.handler, fun w _ => sch w, ?_, 0, hW2, fun i p _ => hends p⟩
    intro w p _ i h
    obtain ⟨t, st, hne⟩ := h (N + i) (by omega)
    rw [hN _ (by omega)] at st hne
    exfalso
    cases st with
    | pipe hp hf =>
      have hq' := fun h => hq _ ⟨hp, h⟩
      cases hp with
      | arrive hr => exact hne rfl
      | _ => exact hq' rfl
    | file x q hx _ _ => exact norun x q hx
    | back q hp hf _ =>
      have hq' := fun h => hq _ ⟨hp, h⟩
      cases hp with
      | arrive hr => exact hne rfl
      | _ => exact hq' rfl
  refine ⟨e, N, F, by rw [hN N (Nat.le_refl N)]; exact hn, fun m k hf => ?_⟩
  have := F.settled (by omega : m ≤ N + m) (.inr hf)
  rw [hN _ (by omega), hf] at this
  rcases hpc k with h | h <;> simp only at this <;> rw [h] at this <;> cases this

/-- **C92** The same for a peer that follows the protocol (C43, C81): it serves the torrent `md`, whose SHA-1 hash has been announced. -/
theorem C92_honest_peer (K : KEnv) {O : Nat → Oracle} (hO : ∀ p, (O p).Fair) (pkts : Nat → RecvPacket) (conn : Nat → Bytes → PEnv)
    (fuel : Nat) (mem : Nat → Nat → Bytes) (pool : Nat → BPool)
    {dir : Bool} {fs0 : Bytes → Option Bytes} {W1 Q W2 : Nat} (hW1 : 1 ≤ W1) {e : Nat → CrSt}
    (F : FairWhole (crawlTraces K O pkts) (crawlOut K O pkts conn sha1Sum fuel LocalPeerId mem pool) dir fs0 W1 Q W2 e)
    (hsame : SameData (flushes (crawlOut K O pkts conn sha1Sum fuel LocalPeerId mem pool)))
    {i p : Nat} (hp : p < (e i).pl.arrived) {job : Job} (hj : IsAnnounce (pkts p) job) (md : Bytes) {laddr : Bytes}
    (hih : (asMap job.req.body).lookup b!"info_hash" = some (.str (sha1Sum md))) (haddr : parseFetchAddr K.env job = .ok laddr)
    (hE : Calm (conn p laddr)) (q32 : List Slice) (hpool : Ready (NewPeerConn (mem p) (pool p)) q32) (h1 : 1 ≤ md.length)
    (h2 : md.length < 2 ^ 40) (hspare : (md.length + 16383) / 16384 ≤ max 1 q32.length) (hfuel : (md.length + 16383) / 16384 + 2 ≤ fuel)
    {hs ext : Bytes} {bodies : List Bytes} (hhs : IsPeerHandshake hs)
    (orderA : Entries → Entries) (hoA : OrderOK orderA) (m x : Entries)
    (hm : GoVal.WF (.dict m)) (hme : Encodable (.dict m)) (hx : GoVal.WF (.dict x)) (hxe : Encodable (.dict x))
    (hsize : x.lookup b!"metadata_size" = some (.int md.length))
    (hext : withExtendedhandShake orderA (some m) (some x) = .ok (be32 ext.length ++ ext)) (hextl : ext.length ≤ 32768)
    (orderB : Nat → Entries → Entries) (hoB : ∀ j, OrderOK (orderB j)) (hbl : bodies.length = (cut md).length)
    (hbodies : ∀ j p body, (cut md)[j]? = some p → bodies[j]? = some body →
      withExtendedFetchMetaMsg (orderB j) 1 ExData j md.length p = .ok (be32 body.length ++ body))
    (hD : Delivers (conn p laddr) (hs :: framed ext ++ bodies.flatMap framed))
    (nofail : ∀ m k, (e m).fs.pc k ≠ .failed)
    (finite : ∃ N, ∀ k, N ≤ k → ∀ job', IsAnnounce (pkts k) job' → (asMap job'.req.body).lookup b!"info_hash" ≠ some (.str (sha1Sum md)))
    {hex : Bytes} (hhex : IsHexOf hex (sha1Sum md)) :
    ∃ j, i ≤ j ∧ ∀ m, j ≤ m → (e m).fs.fs (b!"torrent/" ++ hex ++ b!".torrent") = some md := by
  obtain ⟨st, hst⟩ := C81_honest_peer hE K.env.fold fuel (mem p) (pool p) q32 hpool md h1 h2 hspare hfuel hhs orderA hoA m x hm hme hx hxe hsize hext
    hextl orderB hoB hbl hbodies hD
  exact C92_announced K hO pkts conn sha1Sum fuel LocalPeerId mem pool hW1 F hsame hp hj hih haddr hst nofail finite hhex

/-! ## A concrete case -/

/-- an announce, then garbage for ever -/
def exWholePkts (p : Nat) : RecvPacket := { addr := peerAddr, bytes := if p = 0 then exAnnounce else b!"garbage" }

/-- the peer of `exChunks` answers every connection -/
def exWholeOut : Nat → HandlerOut :=
  crawlOut exK (fun _ => exO) exWholePkts (fun _ _ => chunkEnv exChunks) toyHash 10 b!"cccccccccccccccccccc" (fun _ _ => []) (fun _ => exPool)

theorem exGarbage_noAnnounce {p : Nat} (hp : p ≠ 0) (job : Job) : ¬ IsAnnounce (exWholePkts p) job := by
  rintro ⟨d, t, a, ⟨⟨n, hn⟩, -⟩, -⟩
  have : (match DecodeDictNoLimit b!"garbage" with | .ok _ => true | _ => false) = false := by decide +kernel
  simp only [exWholePkts, if_neg hp] at hn
  rw [hn] at this
  cases this

theorem exWholeOut_zero : exWholeOut 0 = .flush b!"6868686868686868686868686868686868686868" exMeta := by decide +kernel

theorem exWholeOut_flush {p : Nat} {x : Bytes × Bytes} (h : flushes exWholeOut p = some x) : p = 0 := by
  refine Classical.byContradiction fun hp => ?_
  obtain ⟨job, hj, -⟩ := crawlOut_flush exK (fun _ => exO_fair) exWholePkts _ _ _ _ _ _ (hash := x.1) (data := x.2) h
  exact exGarbage_noAnnounce hp job hj

/-- Non-vacuity of `C92_announced`: there is a fair execution of the crawler in which five packets arrive, the first of them an announce, and the file
holds the torrent in the end. -/
theorem C92_example : ∃ e : Nat → CrSt,
    FairWhole (crawlTraces exK (fun _ => exO) exWholePkts) exWholeOut true (fun _ => none) 2 1 2 e ∧ (∃ i, (e i).pl.arrived = 5) ∧
    ∃ j, ∀ m, j ≤ m → (e m).fs.fs b!"torrent/6868686868686868686868686868686868686868.torrent" = some exMeta := by
  have hO : ∀ _ : Nat, exO.Fair := fun _ => exO_fair
  have hends : ∀ p, (exWholeOut p).Ends := by
    intro p
    by_cases hp : p = 0
    · subst hp; rw [exWholeOut_zero]; trivial
    · rcases crawlTraces_spec exK hO exWholePkts p with ⟨job, b, f, hj, -⟩ | ⟨-, he⟩
      · exact absurd hj (exGarbage_noAnnounce hp job)
      · unfold exWholeOut crawlOut
        rw [he]; trivial
  have hsame : SameData (flushes exWholeOut) := by
    intro i j hash d d' hi hj
    have := exWholeOut_flush hi; subst this
    have := exWholeOut_flush hj; subst this
    exact (Prod.mk.inj (Option.some.inj (hi.symm.trans hj))).2
  obtain ⟨e, N, F, hN, hno⟩ := C92_fair_runs (W1 := 2) (Q := 1) (W2 := 2) (by omega) (by omega) (crawl_single exK hO exWholePkts) hends (fun _ => none) 5
  refine ⟨e, F, ⟨N, hN⟩, ?_⟩
  have hfetch : ∃ st, FetchMetaData (chunkEnv exChunks) toyHash exK.env.fold 10 b!"cccccccccccccccccccc" b!"hhhhhhhhhhhhhhhhhhhh" (fun _ => []) exPool =
      .returned (some exMeta) none st := by
    have : (match FetchMetaData (chunkEnv exChunks) toyHash exK.env.fold 10 b!"cccccccccccccccccccc" b!"hhhhhhhhhhhhhhhhhhhh" (fun _ => []) exPool with
      | .returned (some d) none _ => decide (d = exMeta) | _ => false) = true := by decide +kernel
    split at this
    · rename_i d s heq
      exact ⟨s, by rw [heq, of_decide_eq_true this]⟩
    · cases this
  obtain ⟨st, hst⟩ := hfetch
  obtain ⟨j, -, hj⟩ := C92_announced exK hO exWholePkts (fun _ _ => chunkEnv exChunks) toyHash 10 b!"cccccccccccccccccccc" (fun _ _ => [])
    (fun _ => exPool) (by omega) F hsame (i := N) (p := 0) (by omega) exAnnounce_isAnnounce
    (infoHash := b!"hhhhhhhhhhhhhhhhhhhh") (laddr := b!"10.0.0.1:6881") (md := exMeta) (st := st) rfl (by decide +kernel) hst hno
    ⟨1, fun k hk job' hj' => absurd hj' (exGarbage_noAnnounce (by omega) job')⟩ (hexEncode_isHexOf _)
  have hpath : b!"torrent/" ++ hexEncode b!"hhhhhhhhhhhhhhhhhhhh" ++ b!".torrent" = b!"torrent/6868686868686868686868686868686868686868.torrent" := by
    decide +kernel
  rw [hpath] at hj
  exact ⟨j, hj⟩

end P2P

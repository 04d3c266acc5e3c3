import Verif.Model.PoolSize
import Verif.Props.StartupSend
import Verif.Props.SystemLive
import Verif.Props.PipelineStall
/-! # C108: what the configured sizes do

The sizes of the pools and of the queue of jobs are read from a file that users edit. Here: what happens for every value, also for those nobody would choose on purpose. -/
namespace P2P

/-! ## Sizes that are none -/

/-- **C108** `NewWorkPool` makes a pool of exactly `size` workers with room for `size` tasks, for every size from 0 to the greatest one Go accepts for a channel, and panics for all others. -/
theorem C108_pool (maxChan size : Int) :
    (0 ≤ size ∧ size ≤ maxChan → ∃ p n, newWorkPool maxChan size = .ok p ∧ size = ((n : Nat) : Int) ∧ WpInit n p) ∧
    (size < 0 ∨ maxChan < size → newWorkPool maxChan size = .panic .runtime) := by
  constructor
  · intro ⟨h1, h2⟩
    obtain ⟨n, rfl⟩ := Int.eq_ofNat_of_zero_le h1
    refine ⟨freshPool n, n, ?_, rfl, rfl, rfl, rfl, rfl, rfl, fun _ => rfl, rfl, fun c hc => by simp [freshPool, hc], rfl, rfl, rfl, rfl⟩
    simp only [newWorkPool]
    rw [if_neg (by omega)]
    rfl
  · intro h
    simp only [newWorkPool, if_pos h]

/-- the states the starting program can be in, for given sizes of the pools -/
abbrev SizeReach (K : KEnv) (hosts : List (Option UDPAddr)) (maxChan size1 size2 : Int) : SizeSt → Prop :=
  Reach (SizeInit hosts) (SizeStep K maxChan size1 size2)

section
variable {K : KEnv} {hosts : List (Option UDPAddr)} {maxChan size1 size2 : Int} {s : SizeSt} {e : Nat → SizeSt}

/-- **C108** The start-up sequence is that of `Model/Startup` (C63 speaks of it), whatever the sizes are. -/
theorem C108_startup (h : SizeReach K hosts maxChan size1 size2 s) : StReach K hosts s.st := by
  induction h with
  | init h => exact .init h.1
  | step _ st ih =>
    cases st with
    | run r =>
      cases r with
      | startup _ m _ => exact ih.step (.main m)
      | take _ _ m _ => exact ih.step (.main m)
      | make _ _ _ _ => exact ih
      | makePanics _ _ _ _ => exact ih
    | fetch r => cases r <;> exact ih
    | arrive p _ a b => exact ih.step (.arrive p a b)

theorem stMain_listen {s t : StSt} (m : StMain K s t) (hl : s.pc = .listen) : t.pc = .listen ∧ t.taken ≠ s.taken := by
  cases m with
  | take _ _ => exact ⟨hl, by simp⟩
  | bootOk a _ _ => rw [hl] at a; cases a
  | bootPanic a _ _ => rw [hl] at a; cases a
  | run a => rw [hl] at a; cases a
  | register a _ => rw [hl] at a; cases a
  | registered a => rw [hl] at a; cases a
  | fetch a => rw [hl] at a; cases a
  | clean a => rw [hl] at a; cases a

theorem stMain_early {s t : StSt} (m : StMain K s t) (hl : s.pc ≠ .listen) : t.taken = s.taken := by
  cases m with
  | take a _ => exact absurd a hl
  | _ => rfl

/-- what is true of the pools -/
structure SizeInv (K : KEnv) (hosts : List (Option UDPAddr)) (maxChan size1 size2 : Int) (s : SizeSt) : Prop where
  server : ∀ p, s.server = some p → s.st.pc = .listen ∧ newWorkPool maxChan size1 = .ok p
  downloads : ∀ p, s.downloads = some p → s.st.fetching = true ∧ newWorkPool maxChan size2 = .ok p
  taken : s.server = none → s.st.taken = []
  died : s.died = true → s.st.fetching = true ∧
    ((s.st.pc = .listen ∧ s.server = none ∧ newWorkPool maxChan size1 = .panic .runtime) ∨ (s.downloads = none ∧ newWorkPool maxChan size2 = .panic .runtime))

theorem newWorkPool_panic {x : Panic} (h : newWorkPool maxChan size1 = .panic x) : newWorkPool maxChan size1 = .panic .runtime := by
  rw [h]
  simp only [newWorkPool] at h
  split at h
  · cases h; rfl
  · cases h

theorem stMain_fetching {s t : StSt} (m : StMain K s t) (hf : s.fetching = true) : t.fetching = true := by
  cases m <;> first | exact hf | rfl

theorem size_inv (h : SizeReach K hosts maxChan size1 size2 s) : SizeInv K hosts maxChan size1 size2 s := by
  induction h with
  | init h =>
    obtain ⟨h1, h2, h3, h4⟩ := h
    refine ⟨fun p hp => (by rw [h2] at hp; cases hp), fun p hp => (by rw [h3] at hp; cases hp), fun _ => ?_, fun hd => (by rw [h4] at hd; cases hd)⟩
    rw [StSt.start] at h1; rw [h1]
  | step hr st ih =>
    have hst := C108_startup hr
    cases st with
    | run r =>
      cases r with
      | startup hd m ht =>
        refine ⟨fun p hp => ?_, fun p hp => ⟨stMain_fetching m (ih.downloads p hp).1, (ih.downloads p hp).2⟩, fun hn => ht.trans (ih.taken hn), fun hd' => ?_⟩
        · exact absurd ht (stMain_listen m (ih.server p hp).1).2
        · exact absurd (hd.symm.trans hd') (by simp)
      | take hd hs m ht =>
        refine ⟨fun p hp => ⟨(stMain_listen m (ih.server p hp).1).1, (ih.server p hp).2⟩, fun p hp => ⟨stMain_fetching m (ih.downloads p hp).1, (ih.downloads p hp).2⟩,
          fun hn => absurd hn hs, fun hd' => absurd (hd.symm.trans hd') (by simp)⟩
      | make hd hl hs hp =>
        exact ⟨fun p hp' => by cases hp'; exact ⟨hl, hp⟩, ih.downloads, fun hn => (nomatch hn), fun hd' => absurd (hd.symm.trans hd') (by simp)⟩
      | makePanics hd hl hs hp =>
        refine ⟨ih.server, ih.downloads, ih.taken, fun _ => ⟨?_, .inl ⟨hl, hs, newWorkPool_panic hp⟩⟩⟩
        have := (stReach_inv hst).2.2.2
        rw [hl] at this
        exact this.2.2.1
    | fetch r =>
      cases r with
      | make hd hf hs hp =>
        exact ⟨ih.server, fun p hp' => by cases hp'; exact ⟨hf, hp⟩, ih.taken, fun hd' => absurd (hd.symm.trans hd') (by simp)⟩
      | makePanics hd hf hs hp =>
        exact ⟨ih.server, ih.downloads, ih.taken, fun _ => ⟨hf, .inr ⟨hs, newWorkPool_panic hp⟩⟩⟩
    | arrive p hd a b => exact ⟨ih.server, ih.downloads, ih.taken, fun hd' => absurd (hd.symm.trans hd') (by simp)⟩

/-- **C108** The sizes of the pools matter only after the bootstrap: if a pool cannot be made, the process ends by a panic, but it has by then sent its find_node query to **every** bootstrap host and
registered its handlers; the size of the pool that could not be made is out of range. Nothing happens any more. -/
theorem C108_dies_late (h : SizeReach K hosts maxChan size1 size2 s) (hd : s.died = true) :
    BootSeq K.nodeId hosts s.st.boots ∧ s.st.router = registrations K ∧
    ((size1 < 0 ∨ maxChan < size1) ∨ (size2 < 0 ∨ maxChan < size2)) ∧ ∀ t, ¬ SizeStep K maxChan size1 size2 s t := by
  have I := size_inv h
  obtain ⟨hf, hc⟩ := I.died hd
  have hi := (stReach_inv (C108_startup h)).2.2.2
  have hb : BootSeq K.nodeId hosts s.st.boots ∧ s.st.router = registrations K := by
    revert hi
    cases s.st.pc with
    | boot r => rintro ⟨dn, -, -, -, -, a, -⟩; rw [hf] at a; cases a
    | dead => rintro ⟨dn, _, _, _, _, -, -, -, -, -, -, a, -⟩; rw [hf] at a; cases a
    | register r => rintro ⟨-, -, -, a, -⟩; rw [hf] at a; cases a
    | spawnFetch => rintro ⟨-, -, -, a, -⟩; rw [hf] at a; cases a
    | registerClean => exact fun a => ⟨a.1, a.2.1⟩
    | listen => exact fun a => ⟨a.1, a.2.1⟩
  have bad : ∀ {n : Int}, newWorkPool maxChan n = .panic .runtime → n < 0 ∨ maxChan < n := by
    intro n hn
    refine Classical.byContradiction fun hno => ?_
    simp only [newWorkPool, if_neg hno] at hn
    cases hn
  refine ⟨hb.1, hb.2, ?_, ?_⟩
  · rcases hc with ⟨-, -, h⟩ | ⟨-, h⟩
    · exact .inl (bad h)
    · exact .inr (bad h)
  · intro t st
    cases st with
    | run r => cases r <;> simp_all
    | fetch r => cases r <;> simp_all
    | arrive p a _ _ => simp_all

/-- **C108** If the size of the server's pool is out of range, no packet is ever handled; what arrives in the meantime waits in vain. If the size of the other pool is, no download is ever begun. If both are in range,
the process does not end in this way, and the pools have the configured sizes. -/
theorem C108_sizes (h : SizeReach K hosts maxChan size1 size2 s) :
    ((size1 < 0 ∨ maxChan < size1) → s.st.taken = [] ∧ s.server = none ∧ s.st.queue = s.st.arrived ∧ s.st.arrived.length ≤ 100) ∧
    ((size2 < 0 ∨ maxChan < size2) → s.downloads = none) ∧
    ((0 ≤ size1 ∧ size1 ≤ maxChan) → (0 ≤ size2 ∧ size2 ≤ maxChan) → s.died = false) ∧
    (∀ p, s.server = some p → ∃ n : Nat, size1 = n ∧ WpInit n p) ∧ (∀ p, s.downloads = some p → ∃ n : Nat, size2 = n ∧ WpInit n p) := by
  have I := size_inv h
  have ok : ∀ {n : Int} {p : WpSt}, newWorkPool maxChan n = .ok p → (0 ≤ n ∧ n ≤ maxChan) ∧ ∃ k : Nat, n = k ∧ WpInit k p := by
    intro n p hp
    have hr : ¬ (n < 0 ∨ maxChan < n) := fun hb => by rw [(C108_pool maxChan n).2 hb] at hp; cases hp
    have hr' : 0 ≤ n ∧ n ≤ maxChan := by omega
    obtain ⟨q, k, h1, h2, h3⟩ := (C108_pool maxChan n).1 hr'
    rw [h1] at hp; cases hp
    exact ⟨hr', k, h2, h3⟩
  refine ⟨fun hb => ?_, fun hb => ?_, fun h1 h2 => ?_, fun p hp => (ok (I.server p hp).2).2, fun p hp => (ok (I.downloads p hp).2).2⟩
  · have hn : s.server = none := by
      cases hs : s.server with
      | none => rfl
      | some p => have := (ok (I.server p hs).2).1; omega
    have ht := I.taken hn
    obtain ⟨i1, i2, -⟩ := stReach_inv (C108_startup h)
    rw [ht] at i1
    simp only [List.map_nil, List.nil_append] at i1
    exact ⟨ht, hn, i1, by rw [← i1]; exact i2⟩
  · cases hs : s.downloads with
    | none => rfl
    | some p => have := (ok (I.downloads p hs).2).1; omega
  · cases hd : s.died with
    | false => rfl
    | true =>
      obtain ⟨-, -, hb, -⟩ := C108_dies_late h hd
      omega

/-- the scheduler forgets neither the goroutine of `Run` nor that of `fetchTorrent` -/
structure FairSize (K : KEnv) (hosts : List (Option UDPAddr)) (maxChan size1 size2 : Int) (e : Nat → SizeSt) : Prop where
  exec : Run (SizeInit hosts) (SizeStep K maxChan size1 size2) e
  run : WeaklyFair e (RunStep K maxChan size1)
  fetch : WeaklyFair e (FetchStep maxChan size2)

theorem size_left (h : SizeReach K hosts maxChan size1 size2 s) {t : SizeSt} (st : SizeStep K maxChan size1 size2 s t) : t.st.pc.left ≤ s.st.pc.left := by
  have hp := (C63_progress (C108_startup h) exO_fair).2.2.1
  cases st with
  | run r =>
    cases r with
    | startup _ m _ => exact hp _ (.main m)
    | take _ _ m _ => exact hp _ (.main m)
    | make _ _ _ _ => exact Nat.le_refl _
    | makePanics _ _ _ _ => exact Nat.le_refl _
  | fetch r => cases r <;> exact Nat.le_refl _
  | arrive p _ a b => exact hp _ (.arrive p a b)

/-- start-up ends -/
theorem FairSize.starts (F : FairSize K hosts maxChan size1 size2 e) :
    ∃ j, (e j).died = true ∨ (e j).st.pc = .dead ∨ (e j).st.pc = .listen := by
  have mono : ∀ {i j}, i ≤ j → (e j).st.pc.left ≤ (e i).st.pc.left := by
    intro i j hij
    exact F.exec.stays (fun s => s.st.pc.left ≤ (e i).st.pc.left) (fun k hk st => Nat.le_trans (size_left (F.exec.reach k) st) hk) hij (Nat.le_refl _)
  have key : ∀ n i, (e i).st.pc.left ≤ n → ∃ j, (e j).died = true ∨ (e j).st.pc = .dead ∨ (e j).st.pc = .listen := by
    intro n
    induction n with
    | zero =>
      intro i hi
      rcases (C63_progress (C108_startup (F.exec.reach i)) exO_fair).2.2.2.2.1 (Nat.le_zero.1 hi) with h | h
      · exact ⟨i, .inr (.inr h)⟩
      · exact ⟨i, .inr (.inl h)⟩
    | succ n ih =>
      intro i hi
      refine Classical.byContradiction fun hno => ?_
      have hj : ∀ j, (e j).died = false ∧ (e j).st.pc ≠ .dead ∧ (e j).st.pc ≠ .listen := by
        intro j
        refine ⟨?_, fun h => hno ⟨j, .inr (.inl h)⟩, fun h => hno ⟨j, .inr (.inr h)⟩⟩
        cases hd : (e j).died with
        | false => rfl
        | true => exact absurd ⟨j, .inl hd⟩ hno
      obtain ⟨j, hij, st⟩ := F.run i (fun j _ => by
        obtain ⟨a, b, c⟩ := hj j
        obtain ⟨t, ht⟩ := (C63_progress (C108_startup (F.exec.reach j)) exO_fair).1 b (.inl c)
        exact ⟨_, .startup a ht (stMain_early ht c)⟩)
      have hdec := (C63_progress (C108_startup (F.exec.reach j)) exO_fair).2.1
      have hlt : (e (j + 1)).st.pc.left < (e j).st.pc.left := by
        have h3 := (hj j).2.2
        have h4 := (hj (j + 1)).1
        generalize e (j + 1) = t at st h4 ⊢
        cases st with
        | startup _ m _ => exact hdec _ m h3
        | make _ hl _ _ => exact absurd hl h3
        | makePanics _ hl _ _ => exact absurd hl h3
        | take _ _ m _ => exact hdec _ m h3
      have := mono hij
      exact hno (ih (j + 1) (by omega))
  exact key _ 0 (Nat.le_refl _)

/-- **C108** With a size out of range the process does not go on: under a scheduler that forgets no goroutine it ends, by the panic of `NewWorkPool` (or during the bootstrap, if a host cannot be contacted). -/
theorem C108_dies (F : FairSize K hosts maxChan size1 size2 e)
    (hb : (size1 < 0 ∨ maxChan < size1) ∨ (size2 < 0 ∨ maxChan < size2)) : ∃ j, (e j).died = true ∨ (e j).st.pc = .dead := by
  obtain ⟨L, h⟩ := F.starts
  rcases h with h | h | hl
  · exact ⟨L, .inl h⟩
  · exact ⟨L, .inr h⟩
  · refine Classical.byContradiction fun hno => ?_
    have live : ∀ j, (e j).died = false := by
      intro j
      cases hd : (e j).died with
      | false => rfl
      | true => exact absurd ⟨j, .inl hd⟩ hno
    have listens : ∀ j, L ≤ j → (e j).st.pc = .listen := by
      intro j hj
      refine F.exec.stays (fun s => s.st.pc = .listen) (fun k hk st => ?_) hj hl
      have hlive := live (k + 1)
      generalize e (k + 1) = t at st ⊢
      cases st with
      | run r =>
        cases r with
        | startup _ m ht => exact absurd ht (stMain_listen m hk).2
        | take _ _ m _ => exact (stMain_listen m hk).1
        | make _ _ _ _ => exact hk
        | makePanics _ _ _ _ => exact hk
      | fetch r => cases r <;> exact hk
      | arrive p _ _ _ => exact hk
    rcases hb with hb | hb
    · have hp := (C108_pool maxChan size1).2 hb
      have hn : ∀ j, (e j).server = none := fun j => ((C108_sizes (F.exec.reach j)).1 hb).2.1
      obtain ⟨j, hj, st⟩ := F.run L (fun j hj => ⟨_, .makePanics (live j) (listens j hj) (hn j) hp⟩)
      have h1 := live (j + 1)
      have h2 := listens j hj
      have h3 := hn j
      generalize e (j + 1) = t at st h1
      cases st with
      | startup _ m ht => exact (stMain_listen m h2).2 ht
      | take _ h _ _ => exact h h3
      | make _ _ _ h => rw [hp] at h; cases h
      | makePanics _ _ _ _ => cases h1
    · have hp := (C108_pool maxChan size2).2 hb
      have hn : ∀ j, (e j).downloads = none := fun j => (C108_sizes (F.exec.reach j)).2.1 hb
      obtain ⟨j, hj, st⟩ := F.fetch L (fun j hj => ⟨_, .makePanics (live j) (by
        have := (stReach_inv (C108_startup (F.exec.reach j))).2.2.2
        rw [listens j hj] at this
        exact this.2.2.1) (hn j) hp⟩)
      have h1 := live (j + 1)
      generalize e (j + 1) = t at st h1
      cases st with
      | make _ _ _ h => rw [hp] at h; cases h
      | makePanics _ _ _ _ => cases h1

end

/-! ## Zero -/

section
variable {S : SysEnv} {port : Int} {fs0 : Bytes → Option Bytes} {s : SysSt}

theorem pool_zero {p : WpSt} (h : WpReach 0 p) : p.started = [] ∧ p.finished = [] ∧ p.queue = [] ∧ p.submitted = [] := by
  have I := wp_inv h
  have hq : p.queue = [] := List.length_eq_zero_iff.1 (Nat.le_zero.1 I.room)
  have hw : p.workers = [] := List.length_eq_zero_iff.1 I.len
  have hs : p.submitted = [] := by
    induction h with
    | init h => exact h.2.2.2.2.2.2.2.2.2.1
    | step hr st ih =>
      have I' := wp_inv hr
      have := ih I' (List.length_eq_zero_iff.1 (Nat.le_zero.1 I'.room)) (List.length_eq_zero_iff.1 I'.len)
      cases st <;> first | exact this | (simp only at *; omega) | skip
  obtain ⟨f1, f2, f3, f4, -⟩ := C48_fifo_once h
  rw [hs] at f1
  have : p.started = [] := by
    have := f1.symm
    simp at this
    exact this.1
  rw [this] at f4
  have h4 := f4.length_eq
  rw [List.length_append] at h4
  simp only [List.length_nil] at h4
  exact ⟨this, List.length_eq_zero_iff.1 (by omega), hq, hs⟩

theorem pl_nothing {tr : Nat → List Event} {W1 Q W2 : Nat} {s : PlSt} (h : PlReach tr W1 Q W2 s) (h1 : s.p1.started = []) :
    s.log = [] ∧ s.accepted = [] := by
  have I := pl_inv h
  have hl : s.log = [] := by
    cases hlog : s.log with
    | nil => rfl
    | cons x l =>
      obtain ⟨p, ev⟩ := x
      have := I.log p
      rw [I.idle p (by rw [h1]; simp), hlog] at this
      simp [logOf] at this
  exact ⟨hl, by rw [I.acc, hl]; rfl⟩

theorem cr_untouched {tr : Nat → List Event} {out : Nat → HandlerOut} {dir : Bool} {W1 Q W2 : Nat} {c : CrSt}
    (h : CrReach tr out dir fs0 W1 Q W2 c) (h2 : c.pl.p2.started = []) : c.fs.fs = fs0 := by
  induction h with
  | init h => exact h.2.1
  | step hr st ih =>
    have hpl := (C92_refines hr).1
    have mono : ∀ {s t : PlSt}, PlStep tr W1 Q W2 s t → t.p2.started = [] → s.p2.started = [] := by
      intro s t st ht
      refine List.eq_nil_iff_forall_not_mem.2 fun p hp => ?_
      have := pl_started2 st hp
      rw [ht] at this; cases this
    cases st with
    | pipe a _ => exact ih (mono a h2)
    | back p a _ _ => exact ih (mono a h2)
    | file i p hw _ _ =>
      have := started_of_running (pl_inv hpl).reach2 hw
      rw [h2] at this; cases this

/-- **C108** No workers of the server (`WorkPoolSize` 0 in the section `dht`): the program starts, contacts the bootstrap hosts and listens, but handles no packet: nothing is answered, noted, downloaded or written, and after 102 datagrams it
does not even read any more. All it does is what the calls of `BootStrap` do. -/
theorem C108_no_server_workers (h : SysReach S port fs0 s) (h0 : S.W1 = 0) :
    s.pl.log = [] ∧ s.history.map Prod.snd = s.pg.st.boots.flatten ∧ s.pl.accepted = [] ∧ s.fs.fs = fs0 ∧ s.pg.got.length ≤ 102 := by
  obtain ⟨O, hO, hc⟩ := sys_crawler h
  have hpl := (C92_refines hc).1
  have I := pl_inv hpl
  have r1 := I.reach1
  rw [h0] at r1
  obtain ⟨a1, a2, -⟩ := pool_zero r1
  obtain ⟨b1, b2⟩ := pl_nothing hpl a1
  have b3 : s.pl.p2.started = [] := by
    have : s.pl.p2.submitted = [] := by
      have := I.in2
      rw [b2] at this
      have := this.symm
      simp at this
      exact this.1
    obtain ⟨f1, -⟩ := C48_fifo_once I.reach2
    rw [show (CrSt.mk s.pl s.fs).pl = s.pl from rfl, this] at f1
    have := f1.symm
    simp at this
    exact this.1
  have d := (C101_datagrams h).2.2.2.2.2.2.2
  have a2 : s.pl.p1.finished = [] := a2
  have b1 : s.pl.log = [] := b1
  rw [a2, h0] at d
  refine ⟨b1, ?_, b2, cr_untouched hc b3, by simpa using d⟩
  rw [history_events, b1]; simp

/-- **C108** No workers of the downloads (`WorkPoolSize` 0 in the section `fetchTorrent`): no download is ever begun, no file is ever touched, and only `Q + 1` announces (the capacity of the queue, and the one in the hands of `fetchTorrent`)
are ever taken in; the handlers of all others wait for ever. -/
theorem C108_no_download_workers (h : SysReach S port fs0 s) (h0 : S.W2 = 0) :
    s.pl.p2.started = [] ∧ s.fs.fs = fs0 ∧ s.pl.accepted.length ≤ S.Q + 1 := by
  obtain ⟨O, hO, hc⟩ := sys_crawler h
  have hpl := (C92_refines hc).1
  have I := pl_inv hpl
  have r2 := I.reach2
  rw [h0] at r2
  obtain ⟨a1, a2, -⟩ := pool_zero r2
  have b := (C62_bounded hpl).2
  rw [a2, h0] at b
  refine ⟨a1, cr_untouched hc a1, ?_⟩
  have b : s.pl.accepted.length ≤ ([] : List Nat).length + (2 * 0 + 1 + S.Q) := b
  simp at b; omega

/-- **C108** Capacity 0 of the queue of jobs is no obstacle: an announce is handed from its handler to `fetchTorrent` directly; none waits in between. -/
theorem C108_no_queue (h : SysReach S port fs0 s) (h0 : S.Q = 0) :
    s.pl.jobs = [] ∧ s.pl.p2.started ++ s.pl.p2.queue ++ s.pl.f.item = s.pl.accepted := by
  obtain ⟨O, hO, hc⟩ := sys_crawler h
  have hpl := (C92_refines hc).1
  have I := pl_inv hpl
  have hj : s.pl.jobs = [] := by
    have := I.room
    rw [h0] at this
    exact List.length_eq_zero_iff.1 (Nat.le_zero.1 this)
  refine ⟨hj, ?_⟩
  have := (C62_fifo hpl).2.1
  rw [show (CrSt.mk s.pl s.fs).pl = s.pl from rfl, hj, List.append_nil] at this
  exact this

/-- **C108** With no workers of the downloads the halt of C62 is for ever: after at most `1 + Q + W1` announces no handler does anything any more, whatever happens. -/
theorem C108_halt_for_ever (K : KEnv) {O : Nat → Oracle} (hO : ∀ p, (O p).Fair) (pkts : Nat → RecvPacket) {W1 Q : Nat} (hW1 : 1 ≤ W1)
    (ha : ∀ p, ∃ job, IsAnnounce (pkts p) job) :
    ∃ s, CrawlReach K O pkts W1 Q 0 s ∧ s.arrived ≤ 1 + Q + W1 ∧ s.accepted.length = Q + 1 ∧
      ∀ t, Reach (fun x => x = s) (PlStep (crawlTraces K O pkts) W1 Q 0) t → t.log = s.log ∧ t.accepted = s.accepted := by
  have haa : AllAnnounces (crawlTraces K O pkts) := by
    intro p
    rw [countP_enqueue]
    rcases crawlTraces_spec K hO pkts p with ⟨job', bb, f', -, e'⟩ | ⟨hn, -⟩
    · rw [e']; simp [enqueued]
    · obtain ⟨job, hj⟩ := ha p; exact absurd hj (hn job)
  obtain ⟨s, h1, h2, h3, h4⟩ := C62_stall_reachable (Q := Q) (W2 := 0) hW1 haa
  have hacc : s.accepted.length = Q + 1 := by
    rw [(pl_inv h1).in2, (pool_zero (pl_inv h1).reach2).2.2.2]
    obtain ⟨p, hp⟩ := h2.held
    simp [hp, FwdPc.item, h2.full]
  refine ⟨s, h1, by omega, hacc, fun t ht => ?_⟩
  have key : Reach (fun x => x = s) (fun a b => PlStep (crawlTraces K O pkts) W1 Q 0 a b ∧ b.p2.finished = s.p2.finished) t ∧ CrawlReach K O pkts W1 Q 0 t := by
    induction ht with
    | init h => subst h; exact ⟨.init rfl, h1⟩
    | step _ st ih =>
      have r := ih.2.step st
      exact ⟨ih.1.step ⟨st, by rw [h4]; exact (pool_zero (pl_inv r).reach2).2.1⟩, r⟩
  exact ⟨(C62_stall h2 key.1).2.1, (C62_stall h2 key.1).2.2.1⟩

/-! ## These cases occur -/

/-- **C108** The bound is exact: with no workers of the server, 102 datagrams are read if that many arrive (one in the hands of `Listen`, a hundred in the queue, one in the hands of the receive goroutine). -/
theorem C108_reads_102 (h0 : S.W1 = 0) {t0 : RouteTable} (ht : initialTable port = .ok t0) (hh : ∀ a ∈ S.hosts, a ≠ none) :
    ∃ s, SysReach S port fs0 s ∧ s.up ∧ s.pg.st.pc = .listen ∧ s.pg.got.length = 102 := by
  obtain ⟨a, ca, e1, -, e3⟩ := sys_listens (fs0 := fs0) ht hh
  -- one datagram arrives and is taken
  obtain ⟨b, cb, f1, f2⟩ := calm_arrive ca (by rw [e1]; exact (by decide : 0 < 100))
  have hq : b.pl.recvq = [b.pl.arrived - 1] := by rw [f2, e1]; rfl
  have hl : b.pl.l = .recv := by rw [f2, e1]; rfl
  have hgb : b.pg.got.length = 1 := by rw [f1, e3]; rfl
  obtain ⟨x, hx⟩ : ∃ x, b.pg.st.queue = [x] := by
    have := (sys_link cb.reach).queue
    rw [hq] at this
    exact ⟨_, this⟩
  obtain ⟨st, got, hg⟩ := cb.pg
  have step : SysStep S b { b with
      pg := { b.pg with st := { b.pg.st with queue := [], taken := b.pg.st.taken ++ [(x, b.pg.st.router)] } }
      pl := { b.pl with l := .hold (b.pl.arrived - 1), recvq := [] } } :=
    .take (x, b.pg.st.router) (b.pl.arrived - 1) [] cb.up (.other cb.up.1 (.startup (.take cb.listen hx))) rfl hl hq
  have cc : Calmly S port fs0 { b with
      pg := { b.pg with st := { b.pg.st with queue := [], taken := b.pg.st.taken ++ [(x, b.pg.st.router)] } }
      pl := { b.pl with l := .hold (b.pl.arrived - 1), recvq := [] } } :=
    ⟨.step cb.reach step, cb.listen, cb.mem, cb.pc, cb.fresh, _, got, by rw [hg]⟩
  -- a hundred more wait
  have key : ∀ n, n ≤ 100 → ∃ s, Calmly S port fs0 s ∧ s.pg.got.length = n + 1 ∧ s.pl.recvq.length = n := by
    intro n
    induction n with
    | zero => exact fun _ => ⟨_, cc, hgb, rfl⟩
    | succ n ih =>
      intro hn
      obtain ⟨s, cs, g, q⟩ := ih (by omega)
      obtain ⟨t, ct, g', q'⟩ := calm_arrive cs (by omega)
      exact ⟨t, ct, by rw [g', List.length_append, g]; rfl, by rw [q']; simp [q]⟩
  obtain ⟨s, cs, g, -⟩ := key 100 (Nat.le_refl _)
  -- and one is read that finds no room
  obtain ⟨st', got', hg'⟩ := cs.pg
  have alive : ∀ r g, ({ s.pg with rcv := r, got := g } : PgSt).alive := fun r g => ⟨cs.up.1.1, cs.up.1.2.1, cs.up.1.2.2⟩
  have htop : s.pg.rcv = .top := by rw [hg']; rfl
  have hopen : s.pg.connOpen = true := by rw [hg']; rfl
  have hcl : s.pg.closed = false := by rw [hg']; rfl
  have r1 : SysReach S port fs0 { s with pg := { s.pg with rcv := .reading } } := by
    have hp : PgStep S.K s.pg { s.pg with rcv := .reading } := by
      have := PgStep.other (K := S.K) cs.up.1 (.test htop)
      simpa [hcl] using this
    exact .step cs.reach (.life cs.up hp rfl rfl rfl)
  have r2 : SysReach S port fs0 { s with pg := { s.pg with rcv := .sending (S.pkts s.pg.got.length), got := s.pg.got ++ [S.pkts s.pg.got.length] } } :=
    .step r1 (SysStep.read (s := { s with pg := { s.pg with rcv := .reading } }) ⟨alive .reading s.pg.got, cs.up.2⟩
      (.other (alive .reading s.pg.got) (.read (S.pkts s.pg.got.length) rfl hopen)) rfl)
  exact ⟨_, r2, ⟨alive _ _, cs.up.2⟩, cs.listen, by simp [g]⟩

end

/-- hypotheses of `C108_reads_102` -/
example : ∃ s, SysReach { exSys with W1 := 0 } 21000 (fun _ => none) s ∧ s.up ∧ s.pg.st.pc = .listen ∧ s.pg.got.length = 102 := by
  obtain ⟨t0, h0⟩ : ∃ t0, initialTable 21000 = .ok t0 := ⟨_, rfl⟩
  exact C108_reads_102 rfl h0 (by simp [exSys])

/-- **C108** A negative size of the server's pool, concretely: the process bootstraps from all hosts, has its handlers registered, receives a packet and dies without having looked at it; also under a fair scheduler. -/
theorem C108_example (hosts : List UDPAddr) (p : RecvPacket) :
    ∃ e : Nat → SizeSt, FairSize exK (hosts.map some) 1000000 (-1) 500 e ∧
      ∃ j, (e j).died = true ∧ (e j).st.queue = [p] ∧ (e j).st.boots.length = hosts.length := by
  have lift : ∀ {s : StSt}, StReach exK (hosts.map some) s → s.taken = [] → SizeReach exK (hosts.map some) 1000000 (-1) 500 ⟨s, none, none, false⟩ := by
    intro s h
    induction h with
    | init h => exact fun _ => .init ⟨h, rfl, rfl, rfl⟩
    | step hr st ih =>
      intro ht
      cases st with
      | main m =>
        have : _ = _ := stMain_early m (fun hl => by
          refine (stMain_listen m hl).2 ?_
          rw [ht]
          cases m with
          | take _ _ => simp at ht
          | _ => exact ht.symm)
        exact (ih (this ▸ ht)).step (.run (.startup rfl m this))
      | arrive p a b => exact (ih ht).step (.arrive p rfl a b)
  have h0 : StReach exK (hosts.map some)
      { pc := .boot (hosts.map some), router := [], queue := [], fetching := false, cleanup := false, boots := [],
        arrived := [], taken := [] } := .init rfl
  have h1 := h0.step (.arrive p (by simp) (by simp [recvqCap]))
  obtain ⟨t, ht, hp, hq, htk⟩ := reach_listen h1 (rest := hosts) rfl
  have hi : BootSeq exK.nodeId (hosts.map some) t.boots := by
    have := (stReach_inv ht).2.2.2
    rw [hp] at this
    exact this.1
  have r := (lift ht htk).step (.run (.makePanics rfl hp rfl ((C108_pool 1000000 (-1)).2 (by omega))))
  obtain ⟨e, N, hr, hN⟩ := run_of_reach r
  have hdead : ∀ j, N ≤ j → (e j).died = true := fun j hj => by rw [hN j hj]
  refine ⟨e, ⟨hr, fun i hi => ?_, fun i hi => ?_⟩, N, hdead N (Nat.le_refl _), by rw [hN N (Nat.le_refl _)]; exact hq, ?_⟩
  · obtain ⟨t, st⟩ := hi (max i N) (by omega)
    exact absurd (.run st) ((C108_dies_late (hr.reach (max i N)) (hdead _ (by omega))).2.2.2 t)
  · obtain ⟨t, st⟩ := hi (max i N) (by omega)
    exact absurd (.fetch st) ((C108_dies_late (hr.reach (max i N)) (hdead _ (by omega))).2.2.2 t)
  · rw [hN N (Nat.le_refl _)]
    have := hi.length
    simpa using this.symm

end P2P

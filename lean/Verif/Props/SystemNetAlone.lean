import Verif.Props.SystemNetSpared
import Verif.Props.PeerwirePieces
/-! # C116: a download with nobody else at work

A piece stays in the buffer it was received into, and this buffer goes back to the pool before the next read (dht/peerwire/bep9.go:172-178). So a download takes the spare buffers of the
pool in turn, and how many spare ones there are is decided by the past of the process: in a process with `W2` download workers never more than `W2` (C112, C113).
Here: what exactly is checked and stored for a download that nobody else comes between – with one worker: for every download. -/
namespace P2P

/-- no channel is longer than it may be, and it may be that long -/
def RoomyPool (p : BPool) : Prop := p.Ok ∧ p.maxSize = 10000

theorem roomy_did {e : PEvent} {p q : BPool} (h : PoolDid e p q) (hp : RoomyPool p) : RoomyPool q := by
  cases e with
  | get b =>
    have h : (p.loadOrStore b.cap).selectGet b.cap = .ok (b, q) := h
    obtain ⟨h1, -, -, h2⟩ := selectGet_ok (loadOrStore_ok hp.1 _) h
    exact ⟨h1, by rw [h2, loadOrStore_maxSize]; exact hp.2⟩
  | put b =>
    have h : q = (p.loadOrStore b.cap).selectPut b := h
    subst h
    refine ⟨selectPut_ok (loadOrStore_ok hp.1 _) b, ?_⟩
    unfold BPool.selectPut
    split
    · split
      · exact (loadOrStore_maxSize p _).trans hp.2
      · exact (loadOrStore_maxSize p _).trans hp.2
    · exact (loadOrStore_maxSize p _).trans hp.2
  | _ =>
    have h : q = p := h
    subst h; exact hp

theorem roomy_runs {es : List PEvent} {p q : BPool} (h : PoolRuns es p q) (hp : RoomyPool p) : RoomyPool q := by
  induction h with
  | nil => exact hp
  | snoc e _ hd ih => exact roomy_did hd (ih hp)

theorem net_roomy (tasks : List Task) (x : Shared) (hx : Own [] x) (hr : RoomyPool x.2) (n : Net) (h : Reach (· = Net.fresh x tasks) (TurnStepAny tasks) n) :
    Own [] n.shared ∧ RoomyPool n.shared.2 := by
  have inv : ∀ {n}, Reach (· = Net.fresh x tasks) (TurnStepAny tasks) n → TurnInv (fun _ _ _ => True) tasks n := fun hr =>
    Reach.inv (TurnInv (fun _ _ _ => True) tasks) (fun s hs => by subst hs; exact inv_fresh _ tasks hx)
      (fun _ _ h hs => turnStep_inv h (by obtain ⟨i, hs⟩ := hs; exact ⟨i, hs, fun _ _ _ => trivial⟩)) hr
  have weak : ∀ {H y}, Own H y → Own [] y := by
    intro H
    induction H with
    | nil => exact id
    | cons a H ih => exact fun h => ih h.weaken
  refine ⟨weak (inv h).own, ?_⟩
  induction h with
  | init h => subst h; exact hr
  | @step n m hn hs ih =>
    have inv := inv hn
    obtain ⟨i, hs⟩ := hs
    cases hs with
    | start t ht hth hd =>
      obtain ⟨-, k2⟩ := body_start t n.shared
      show RoomyPool (t.body n.shared).state.pool
      rw [k2]; exact ih
    | resume s k hth =>
      have hlen := (List.getElem?_eq_some_iff.1 hth).1
      obtain ⟨t, ht⟩ : ∃ t, tasks[i]? = some t := ⟨tasks[i]'(by rw [← inv.len]; exact hlen), List.getElem?_eq_getElem _⟩
      obtain ⟨g1, g2, -, g3, -⟩ := inv.each i t _ ht hth
      have hown : Own (heldP s.trace ++ n.heldElse i) n.shared := inv.own.perm (perm_eraseIdx Thread.held n.threads i _ hth)
      obtain ⟨es, -, k2⟩ := (ends_good (g3 s k rfl (n.heldElse i) n.shared hown (g1.keeps g2).2.1)).2.1
      exact roomy_runs k2 ih

/-- two lists of the pool have no buffer in common -/
theorem chans_apart {p : BPool} {i j : Int} (hij : i ≠ j) (hn : (pooled p).Nodup) : ((((p.chan i).getD []) ++ ((p.chan j).getD [])).map Slice.arr).Nodup := by
  have key : ∀ (l : List (Int × List Slice)), (l.flatMap fun x => x.2.map Slice.arr).Nodup →
      ((((l.lookup i).getD []) ++ ((l.lookup j).getD [])).map Slice.arr).Nodup := by
    have sub : ∀ (l : List (Int × List Slice)) k, List.Sublist (((l.lookup k).getD []).map Slice.arr) (l.flatMap fun x => x.2.map Slice.arr) := by
      intro l k
      cases h : l.lookup k with
      | none => exact List.nil_sublist _
      | some c =>
        obtain ⟨a, b, e, -⟩ := flatMap_setChan l k c c h
        rw [e]
        show List.Sublist (c.map Slice.arr) _
        rw [List.append_assoc]
        exact (List.sublist_append_left _ _).trans (List.sublist_append_right _ _)
    intro l
    induction l with
    | nil => intro _; exact List.nodup_nil
    | cons x r ih =>
      obtain ⟨k, d⟩ := x
      intro h
      have h : (d.map Slice.arr ++ r.flatMap fun x => x.2.map Slice.arr).Nodup := h
      have hr := (List.nodup_append.1 h).2.1
      by_cases hi : i = k
      · subst hi
        have e1 : List.lookup i ((i, d) :: r) = some d := by simp [List.lookup]
        have e2 : List.lookup j ((i, d) :: r) = r.lookup j := by simp [List.lookup, beq_eq_false_iff_ne.2 hij.symm]
        rw [e1, e2, List.map_append]
        exact h.sublist (List.Sublist.append_left (sub r j) _)
      · have e1 : List.lookup i ((k, d) :: r) = r.lookup i := by simp [List.lookup, beq_eq_false_iff_ne.2 hi]
        by_cases hj : j = k
        · subst hj
          have e2 : List.lookup j ((j, d) :: r) = some d := by simp [List.lookup]
          rw [e1, e2, List.map_append]
          exact (List.perm_append_comm.nodup_iff).1 (h.sublist (List.Sublist.append_left (sub r i) _))
        · have e2 : List.lookup j ((k, d) :: r) = r.lookup j := by simp [List.lookup, beq_eq_false_iff_ne.2 hj]
          rw [e1, e2]
          exact ih hr
  exact key p.chans hn

/-- a memory and pool as in the process are fit for a download -/
theorem ready_of {x : Shared} (h : Own [] x) (hr : RoomyPool x.2) : Ready (NewPeerConn x.1 x.2) ((x.2.chan 32768).getD []) := by
  have bufs : ∀ (w : Nat), ∀ b ∈ (x.2.chan w).getD [], Buf x.1 w b ∧ b.arr ∈ pooled x.2 := by
    intro w b hb
    cases hc : x.2.chan w with
    | none => rw [hc] at hb; cases hb
    | some c =>
      rw [hc] at hb
      obtain ⟨h1, h2, h3, h4⟩ := h.bufs _ c hc b hb
      have h1 : b.cap = w := by omega
      exact ⟨⟨h3, by omega, h1, by omega⟩, chan_pooled hc hb⟩
  have room : ∀ (w : Nat), ((x.2.chan w).getD []).length ≤ x.2.maxSize := by
    intro w
    cases hc : x.2.chan w with
    | none => exact Nat.zero_le _
    | some c => exact (hr.1 _ c hc).1
  refine ⟨⟨(x.2.chan (4 : Nat)).getD [], ⟨by decide, rfl, rfl, fun b hb => (bufs 4 b hb).1, fun b hb => (bufs 32768 b hb).1, ?_, fun b hb => ?_⟩, room 4⟩, ?_, room 32768⟩
  · exact chans_apart (by decide) (by simpa using h.nodup)
  · rcases List.mem_append.1 hb with hb | hb
    · cases hb
    rcases List.mem_append.1 hb with hb | hb
    · exact h.old _ (by simpa using (bufs 4 b hb).2)
    · exact h.old _ (by simpa using (bufs 32768 b hb).2)
  · show 1 ≤ x.2.maxSize
    rw [hr.2]; omega

section
variable {S : SysEnv} {port : Int} {fs0 : Bytes → Option Bytes} {s : SysNetSt}

/-- at every moment the memory and the pool are fit for a download, and there are at most as many spare buffers as workers -/
theorem net_ready (h : SysNetReach S port fs0 s) : Ready (NewPeerConn s.shared.1 s.shared.2) ((s.shared.2.chan 32768).getD []) ∧ ((s.shared.2.chan 32768).getD []).length ≤ S.W2 := by
  obtain ⟨N, τ, x, hN, -, hx, hfresh, hr⟩ := net_alone h
  have hroom : RoomyPool x.2 := by
    refine ⟨(new_ok hfresh).1, ?_⟩
    have : NewBytesPool 10000 4 0 = .ok { chans := [(4, [])], defaultWidth := 4, maxSize := 10000, fresh := 0 } := by decide
    rw [this] at hfresh
    rw [← Res.ok.inj hfresh]
  obtain ⟨h1, h2⟩ := net_roomy _ x hx hroom _ (forget_busy hr)
  refine ⟨ready_of h1 h2, ?_⟩
  have := C113_memory h 0
  have : inPool maxReadLength s.shared.2 ≤ S.W2 := by omega
  exact this

/-- The steps of the program in which nobody else uses memory or pool while download `d` is under way. -/
def SysNetAlone (S : SysEnv) (d : Nat) (s t : SysNetSt) : Prop :=
  SysNetStep S s t ∧ ∀ st k, s.dl d = .running (.wait st k) → t.dl d = .running (.wait st k) → t.shared = s.shared

theorem netAlone_reach {d : Nat} (h : Reach (SysNetInit S port fs0) (SysNetAlone S d) s) : SysNetReach S port fs0 s := by
  induction h with
  | init h => exact .init h
  | step _ st ih => exact .step ih st.1

/-- how it is with download `d`: it is on the way of a call by itself, from a memory and pool fit for it -/
def OnItsWay (S : SysEnv) (s : SysNetSt) (d : Nat) : Prop :=
  ∀ st, s.dl d = .running st → ∃ (t : Task) (x : Shared), s.sys.task S d = some t ∧ t.E.dialFails = false ∧
    Ready (NewPeerConn x.1 x.2) ((x.2.chan 32768).getD []) ∧ ((x.2.chan 32768).getD []).length ≤ S.W2 ∧
    st.run t.E.alone = (t.body x).run t.E.alone ∧ ∀ s0 k, st = .wait s0 k → s.shared = (s0.mem, s0.pool)

theorem on_its_way {d : Nat} (h : Reach (SysNetInit S port fs0) (SysNetAlone S d) s) : OnItsWay S s d := by
  induction h with
  | @init s h =>
    intro st hd
    rw [h.2.2] at hd
    cases hd
  | @step s t hr st ih =>
    obtain ⟨st, hal⟩ := st
    have log := netStep_log st
    have hreach := netAlone_reach hr
    -- a step that leaves this download alone
    have stays : t.dl d = s.dl d → OnItsWay S t d := by
      intro e v hv
      rw [e] at hv
      obtain ⟨task, x, h1, h2, h3, h4, h5, h6⟩ := ih v hv
      refine ⟨task, x, task_stays log h1, h2, h3, h4, h5, fun s0 k hk => ?_⟩
      subst hk
      rw [hal s0 k hv (e.trans hv)]
      exact h6 s0 k rfl
    cases st with
    | start i q x up hw hx hd hq =>
      by_cases hqd : d = q
      · subst hqd
        intro v hv
        have hv : upd s.dl d (.running (x.body s.shared)) d = .running v := hv
        rw [upd_same] at hv
        have hv : x.body s.shared = v := by injection hv
        subst hv
        obtain ⟨r1, r2⟩ := net_ready hreach
        refine ⟨x, s.shared, task_stays log hx, hd, r1, r2, rfl, fun s0 k hk => ?_⟩
        show ((x.body s.shared).state.mem, (x.body s.shared).state.pool) = _
        rw [hk]; rfl
      · exact stays (by show upd s.dl q _ d = _; simp [upd, hqd])
    | turn i q s1 k1 up hw hq =>
      by_cases hqd : d = q
      · subst hqd
        intro v hv
        have hv : upd s.dl d (.running (k1 s.shared)) d = .running v := hv
        rw [upd_same] at hv
        have hv : k1 s.shared = v := by injection hv
        subst hv
        obtain ⟨task, x, h1, h2, h3, h4, h5, h6⟩ := ih _ hq
        refine ⟨task, x, task_stays log h1, h2, h3, h4, ?_, fun s0 k hk => ?_⟩
        · rw [← h5, h6 s1 k1 rfl]; rfl
        · show ((k1 s.shared).state.mem, (k1 s.shared).state.pool) = _
          rw [hk]; rfl
      · exact stays (by show upd s.dl q _ d = _; simp [upd, hqd])
    | rest a b c d' => exact stays rfl
    | file i q out up hw ho hs hd => exact stays rfl
    | back i q out up hw ho hr => exact stays rfl
    | fatal i q up hw ho => exact stays rfl

/-- a download that nobody comes between is a call by itself; there are at most as many spare buffers as workers -/
theorem alone_stream {d : Nat} (h : Reach (SysNetInit S port fs0) (SysNetAlone S d) s) {t : Task} (ht : s.sys.task S d = some t) {o : POut (Option Bytes × Option Bytes)}
    (hp : s.dl d = .running (.done o)) {hs : Bytes} {bodies : List Bytes} (hf : Fed t hs bodies) :
    ∃ mem pool q32, q32.length ≤ S.W2 ∧ Stream t.E.alone t.peerId t.infoHash mem pool q32 hs bodies t.fuel ∧
      FetchMetaData t.E.alone t.sha1 t.fold t.fuel t.peerId t.infoHash mem pool = .of o := by
  obtain ⟨t', x, h1, h2, h3, h4, h5, -⟩ := on_its_way h _ hp
  rw [ht] at h1; cases h1
  refine ⟨x.1, x.2, _, h4, ⟨⟨hf.dial, fun _ _ => rfl, hf.writes, hf.time, hf.memory, hf.order⟩, h3, hf.peer, hf.info, hf.handshake, hf.delivers, hf.lengths, hf.rounds⟩, ?_⟩
  rw [FetchMetaData_eq (E := t.E.alone) h2]
  have e := congrFun (run_fetchBodyR (E := t.E) (f := fun _ y => y) t.sha1 t.fold t.fuel t.peerId t.infoHash) (NewPeerConn x.1 x.2)
  have e : (t.body x).run t.E.alone = fetchBody t.E.alone t.sha1 t.fold t.fuel t.peerId t.infoHash (NewPeerConn x.1 x.2) := e
  have h5 : o = (t.body x).run t.E.alone := h5
  rw [h5, e]

theorem goes_irrefl {th : Thread} (h : th.Goes th) : False := by
  have key : ∀ th, Acc (fun b a => Thread.Goes a b) th → ¬ th.Goes th := by
    intro th hacc
    induction hacc with
    | intro th _ ih => exact fun h => ih th h h
  exact key th (thread_acc th) h

/-- with one worker nobody can come between -/
theorem one_worker_alone (hW2 : S.W2 = 1) (h : SysNetReach S port fs0 s) (d : Nat) : Reach (SysNetInit S port fs0) (SysNetAlone S d) s := by
  induction h with
  | init h => exact .init h
  | @step s t hr st ih =>
    refine .step ih ⟨st, fun st' k' hd ht => ?_⟩
    have only : ∀ {i q : Nat}, s.sys.pl.p2.workers[i]? = some (WPc.running q) → d = q := by
      intro i q hw
      obtain ⟨j, hj⟩ := (dlInv hr).worker d st' k' hd
      have hlen := (dlInv hr).workers
      rw [hW2] at hlen
      have hi := (List.getElem?_eq_some_iff.1 hw).1
      have hj' := (List.getElem?_eq_some_iff.1 hj).1
      have e1 : i = j := by omega
      subst e1
      rw [hw] at hj
      cases hj; rfl
    cases st with
    | start i q x up hw hx hdf hq =>
      have := only hw
      subst this
      rw [hq] at hd; cases hd
    | turn i q s1 k1 up hw hq =>
      have := only hw
      subst this
      rw [hq] at hd
      cases hd
      have ht : upd s.dl d (.running (k' s.shared)) d = .running (.wait st' k') := ht
      rw [upd_same] at ht
      exact (goes_irrefl (ht ▸ Thread.Goes.resume st' k' s.shared)).elim
    | rest a b c d' => rfl
    | file i q out up hw ho hs hd => rfl
    | back i q out up hw ho hr => rfl
    | fatal i q up hw ho => rfl

/-- **C116** What is checked – and goes to the file, if its hash is right – at the end of a download that nobody comes between: the pieces, as the buffers hold them after all messages, where
`m` buffers were used in turn, at most one for each worker (at least one). -/
theorem C116_alone {d : Nat} (h : Reach (SysNetInit S port fs0) (SysNetAlone S d) s) {t : Task} (ht : s.sys.task S d = some t) {o : POut (Option Bytes × Option Bytes)}
    (hp : s.dl d = .running (.done o)) {hs : Bytes} {bodies : List Bytes} (hf : Fed t hs bodies) (n k : Nat) (g : Received)
    (hv : verdict 0 0 .start bodies = .complete n k g) (hsz : g.size ≤ 2 ^ 48) :
    ∃ m, 1 ≤ m ∧ m ≤ max 1 S.W2 ∧ s.outcome S d = some (if sha1Sum (g.merged m (nonEmpty (bodies.take n))) = t.infoHash
      then .flush (hexEncode t.infoHash) (g.merged m (nonEmpty (bodies.take n))) else .nothing) := by
  obtain ⟨mem, pool, q32, hq, hst, he⟩ := alone_stream h ht hp hf
  obtain ⟨st, h1, -⟩ := C44_any_pieces hst t.sha1 t.fold n k g hv hsz
  exact ⟨max 1 q32.length, by omega, by omega, outcome_of ht hf.dial hp (he.symm.trans h1)⟩

/-- **C116** With one worker: of every download, in every execution. -/
theorem C116_one_worker (hW2 : S.W2 = 1) (h : SysNetReach S port fs0 s) {d : Nat} {t : Task} (ht : s.sys.task S d = some t) {o : POut (Option Bytes × Option Bytes)}
    (hp : s.dl d = .running (.done o)) {hs : Bytes} {bodies : List Bytes} (hf : Fed t hs bodies) (n k : Nat) (g : Received)
    (hv : verdict 0 0 .start bodies = .complete n k g) (hsz : g.size ≤ 2 ^ 48) :
    s.outcome S d = some (if sha1Sum (g.merged 1 (nonEmpty (bodies.take n))) = t.infoHash
      then .flush (hexEncode t.infoHash) (g.merged 1 (nonEmpty (bodies.take n))) else .nothing) := by
  obtain ⟨m, h1, h2, h3⟩ := C116_alone (one_worker_alone hW2 h d) ht hp hf n k g hv hsz
  have : m = 1 := by omega
  subst this
  exact h3

/-- **C116** An honest peer that sends metadata of two or more pieces in order, and a process with one download worker: every full piece but the last two, and these too, are replaced by what is
in the one buffer at the end – the last piece, and what it leaves over of the one before. Only if this has the announced hash anything is stored. -/
theorem C116_honest (hW2 : S.W2 = 1) (h : SysNetReach S port fs0 s) {d : Nat} {t : Task} (ht : s.sys.task S d = some t) {o : POut (Option Bytes × Option Bytes)}
    (hp : s.dl d = .running (.done o)) {hs ext : Bytes} {heads init : List Bytes} {a w : Bytes} {len : Nat}
    (hf : Fed t hs (ext :: List.zipWith (· ++ ·) heads (init ++ [a, w]))) (hps : IsPieces (init ++ [a, w])) (hsz : (init ++ [a, w]).flatten.length ≤ 2 ^ 40)
    (hext : meaning ext = .announce (init ++ [a, w]).flatten.length) (hheads : heads.length = (init ++ [a, w]).length ∧ ∀ x ∈ heads, x.length = len)
    (hmsgs : ∀ (i : Nat) hd p, heads[i]? = some hd → (init ++ [a, w])[i]? = some p → meaning (hd ++ p) = .piece i p) :
    s.outcome S d = some (if sha1Sum ((List.replicate (init.length + 1) (w ++ a.drop w.length)).flatten ++ w) = t.infoHash
      then .flush (hexEncode t.infoHash) ((List.replicate (init.length + 1) (w ++ a.drop w.length)).flatten ++ w) else .nothing) := by
  obtain ⟨mem, pool, q32, hq, hst, he⟩ := alone_stream (one_worker_alone hW2 h d) ht hp hf
  obtain ⟨st, h1⟩ := C44_honest_pieces hst t.sha1 t.fold hps hsz hext hheads hmsgs
  have hm : max 1 q32.length = 1 := by omega
  rw [hm, C44_one_buffer] at h1
  exact outcome_of ht hf.dial hp (he.symm.trans h1)

/-- **C116** So nothing is stored, if only one piece is not the beginning of the one before it – or other data than the peer has sent has the announced hash: if what it has sent has
this hash too, that is a collision of SHA-1. -/
theorem C116_not_stored (hW2 : S.W2 = 1) (h : SysNetReach S port fs0 s) {d : Nat} {t : Task} (ht : s.sys.task S d = some t) {o : POut (Option Bytes × Option Bytes)}
    (hp : s.dl d = .running (.done o)) {hs ext : Bytes} {heads ps : List Bytes} {len : Nat}
    (hf : Fed t hs (ext :: List.zipWith (· ++ ·) heads ps)) (hps : IsPieces ps) (hsz : ps.flatten.length ≤ 2 ^ 40)
    (hext : meaning ext = .announce ps.flatten.length) (hheads : heads.length = ps.length ∧ ∀ x ∈ heads, x.length = len)
    (hmsgs : ∀ (i : Nat) hd p, heads[i]? = some hd → ps[i]? = some p → meaning (hd ++ p) = .piece i p)
    {i : Nat} {p p' : Bytes} (h1 : ps[i]? = some p) (h2 : ps[i + 1]? = some p') (h3 : ¬ p' <+: p) :
    s.outcome S d = some .nothing ∨ ∃ bad, bad ≠ ps.flatten ∧ sha1Sum bad = t.infoHash := by
  obtain ⟨mem, pool, q32, hq, hst, he⟩ := alone_stream (one_worker_alone hW2 h d) ht hp hf
  obtain ⟨st, e1⟩ := C44_honest_pieces hst t.sha1 t.fold hps hsz hext hheads hmsgs
  have hm : max 1 q32.length = 1 := by omega
  rw [hm] at e1
  have hne : (List.range ps.length).flatMap (finalPiece 1 ps) ≠ ps.flatten := fun e => h3 ((C44_intact_iff (Nat.le_refl 1) hps).1 e i p p' h1 h2)
  have out := outcome_of ht hf.dial hp (he.symm.trans e1)
  by_cases hc : sha1Sum ((List.range ps.length).flatMap (finalPiece 1 ps)) = t.infoHash
  · exact .inr ⟨_, hne, hc⟩
  · rw [if_neg hc] at out
    exact .inl out

/-- a file is written only after a download that has come to its end, under the name of its hash -/
theorem flush_done {p : Nat} {hash data : Bytes} (ho : s.outcome S p = some (.flush hash data)) :
    ∃ t o, s.sys.task S p = some t ∧ s.dl p = .running (.done o) ∧ hash = hexEncode t.infoHash := by
  obtain ⟨job, l, he⟩ := outcome_job ho
  unfold SysNetSt.outcome at ho
  rw [he] at ho
  simp only at ho
  unfold SysSt.task
  rw [he]
  simp only
  cases ha : fetchArgs S.K.env job with
  | ok a =>
    rw [ha] at ho
    simp only at ho
    split at ho
    · cases ho
    · split at ho
      · rename_i o hd
        refine ⟨_, o, rfl, hd, ?_⟩
        cases o with
        | ok r st =>
          have ho := Option.some.inj ho
          unfold FetchOut.of afterFetch at ho
          simp only at ho
          split at ho
          · cases ho
          · injection ho with h1; exact h1.symm
        | panic q st =>
          have ho := Option.some.inj ho
          unfold FetchOut.of afterFetch at ho
          simp at ho
        | fatal st => cases ho
        | diverge st => cases ho
      · cases ho
  | err e => rw [ha] at ho; cases ho
  | panic e => rw [ha] at ho; cases ho
  | diverge => rw [ha] at ho; cases ho

/-- **C116** On the disk: with one worker, if every download of a hash gets all announced pieces, but these do not have the hash any more as the one buffer holds them in the end, the file named
after the hash is as it was before the process began, at every moment of every execution. -/
theorem C116_no_file (hW2 : S.W2 = 1) (h : SysNetReach S port fs0 s) (hone : s.OneDataPerHash S) (infoHash : Bytes)
    (all : ∀ p t, s.sys.task S p = some t → t.infoHash = infoHash → ∃ hs bodies n k g, Fed t hs bodies ∧ verdict 0 0 .start bodies = .complete n k g ∧ g.size ≤ 2 ^ 48 ∧
      sha1Sum (g.merged 1 (nonEmpty (bodies.take n))) ≠ infoHash) :
    s.sys.fs.fs (b!"torrent/" ++ hexEncode infoHash ++ b!".torrent") = fs0 (b!"torrent/" ++ hexEncode infoHash ++ b!".torrent") := by
  rcases C113_files h hone (b!"torrent/" ++ hexEncode infoHash ++ b!".torrent") with e | ⟨p, job, ih, r, data, c, -, -, -, -, -, -, -, -, -, -, e, ho, -⟩
  · exact e
  · obtain ⟨t, o, ht, hd, hr⟩ := flush_done ho
    have e := List.append_cancel_left (List.append_cancel_right e)
    obtain ⟨hs, bodies, n, k, g, hf, hv, hsz, hne⟩ := all p t ht (hexEncode_inj (hr.symm.trans e.symm))
    have out := C116_one_worker hW2 h ht hd hf n k g hv hsz
    rw [hexEncode_inj (hr.symm.trans e.symm), if_neg hne, ho] at out
    cases out

end
end P2P

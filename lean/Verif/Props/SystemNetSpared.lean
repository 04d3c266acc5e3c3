import Verif.Props.SystemNetLive
import Verif.Props.OnePiece
/-! # C115: right data and wrong data, in the whole crawler

`C114_socket_to_disk` says that an announce is downloaded to the end, and that its file holds the data if the hash is right. Which of the two it is, with the same datagrams and the same
peers, is up to the schedule: a download reads a piece in a buffer which it gives back (dht/peerwire/peer.go:216-218) before it uses the piece (dht/peerwire/bep9.go:148-150). Here: if nobody writes
into these buffers in between, the file holds what the peer sent; and in the model of the whole program two honest downloads, at the same time, can make one of them fail. -/
namespace P2P

/-- The steps of the program in which download `d` is spared: whenever it goes on (from where it stood, `st`), the memory of the buffers in which it has received pieces is as it left it. -/
def SysNetSpares (S : SysEnv) (d : Nat) (s t : SysNetSt) : Prop :=
  SysNetStep S s t ∧ ∀ st k, s.dl d = .running (.wait st k) → t.dl d = .running (k s.shared) → ∀ a ∈ pieceBuffers st.trace, s.shared.1 a = st.mem a

/-- The downloads of such an execution are downloads taking turns, where `d` is spared. -/
theorem net_turns_if {S : SysEnv} {port : Int} {fs0 : Bytes → Option Bytes} {d : Nat} {s : SysNetSt} (h : Reach (SysNetInit S port fs0) (SysNetSpares S d) s) (N : Nat) (hN : ∀ p, N ≤ p → s.dl p = .idle)
    (τ : Nat → Task) (hτ : ∀ p t, s.sys.task S p = some t → τ p = t) :
    ∃ x : Shared, NewBytesPool 10000 4 0 = .ok x.2 ∧
      Reach (· = Net.fresh x ((List.range N).map τ)) (TurnStepIf (Spared d) ((List.range N).map τ)) (s.net N) := by
  induction h with
  | @init s h =>
    refine ⟨s.shared, h.2.1, .init ?_⟩
    unfold SysNetSt.net Net.fresh
    rw [h.2.2]
    simp
  | @step s t hr sp ih =>
    obtain ⟨st, hsp⟩ := sp
    have log := netStep_log st
    have go : ∀ {q v}, t.dl = upd s.dl q v → v ≠ .idle → q < N := by
      intro q v e hv
      refine Classical.byContradiction fun hq => hv ?_
      have := hN q (by omega)
      rw [e] at this
      simpa [upd] using this
    have ih := fun hN => ih hN fun p x hx => hτ p x (task_stays log hx)
    cases st with
    | start i q x up hw hx hd hq =>
      have hlt := go rfl (fun e => by cases e)
      obtain ⟨y, hy, hn⟩ := ih fun p hp => by
        have := hN p hp
        have e : p ≠ q := by omega
        simpa [upd, e] using this
      refine ⟨y, hy, .step hn ⟨q, ?_, ?_⟩⟩
      · unfold SysNetSt.net
        rw [map_upd]
        refine .start x ?_ ?_ hd
        · rw [List.getElem?_map, List.getElem?_range hlt]
          exact congrArg some (hτ q x hx)
        · rw [List.getElem?_map, List.getElem?_range hlt]
          exact congrArg some hq
      · intro s' k' hs'
        have : ((List.range N).map s.dl)[q]? = some (.running (.wait s' k')) := hs'
        rw [List.getElem?_map, List.getElem?_range hlt] at this
        have := Option.some.inj this
        rw [hq] at this
        cases this
    | turn i q st k up hw hq =>
      have hlt : q < N := by
        refine Classical.byContradiction fun hlt => ?_
        have hNq := hN q (by omega)
        have : upd s.dl q (.running (k s.shared)) q = .idle := hNq
        simp [upd] at this
      obtain ⟨y, hy, hn⟩ := ih fun p hp => by
        have := hN p hp
        have e : p ≠ q := by omega
        simpa [upd, e] using this
      refine ⟨y, hy, .step hn ⟨q, ?_, ?_⟩⟩
      · unfold SysNetSt.net
        rw [map_upd]
        refine .resume st k ?_
        rw [List.getElem?_map, List.getElem?_range hlt]
        exact congrArg some hq
      · intro s' k' hs' e
        have : ((List.range N).map s.dl)[q]? = some (.running (.wait s' k')) := hs'
        rw [List.getElem?_map, List.getElem?_range hlt] at this
        have hd := Option.some.inj this
        rw [hq] at hd
        cases hd
        subst e
        exact hsp st k hq (if_pos rfl)
    | rest a b c d => exact ih hN
    | file i q out up hw ho hs hd => exact ih hN
    | back i q out up hw ho hr => exact ih hN
    | fatal i q up hw ho => exact ih hN


section
variable {S : SysEnv} {port : Int} {fs0 : Bytes → Option Bytes} {s : SysNetSt} {e : Nat → SysNetSt}

theorem spares_reach {d : Nat} (h : Reach (SysNetInit S port fs0) (SysNetSpares S d) s) : SysNetReach S port fs0 s := by
  induction h with
  | init h => exact .init h
  | step _ st ih => exact .step ih st.1

/-- nobody has to spare a download that has not begun -/
theorem spares_idle {d : Nat} (h : SysNetReach S port fs0 s) (hd : s.dl d = .idle) : Reach (SysNetInit S port fs0) (SysNetSpares S d) s := by
  induction h with
  | init h => exact .init h
  | @step s t hr st ih =>
    have hs : s.dl d = .idle := by
      cases st with
      | start i q x _ _ _ _ hq =>
        have hd : upd s.dl q (.running (x.body s.shared)) d = .idle := hd
        by_cases e : d = q
        · subst e; exact hq
        · simpa [upd, e] using hd
      | turn i q st k _ _ hq =>
        have hd : upd s.dl q (.running (k s.shared)) d = .idle := hd
        by_cases e : d = q
        · subst e; simp [upd] at hd
        · simpa [upd, e] using hd
      | _ => exact hd
    exact .step (ih hs) ⟨st, fun st k h => by rw [hs] at h; cases h⟩

/-- a download of the program, by itself among downloads taking turns -/
theorem spared_alone {d : Nat} (h : Reach (SysNetInit S port fs0) (SysNetSpares S d) s) {t : Task} (ht : s.sys.task S d = some t) {o : POut (Option Bytes × Option Bytes)}
    (hp : s.dl d = .running (.done o)) : ∃ tasks x n, tasks[d]? = some t ∧ Own [] x ∧ Reach (· = Net.fresh x tasks) (TurnStepIf (Spared d) tasks) n ∧
      n.threads[d]? = some (.running (.done o)) := by
  have hreach := spares_reach h
  obtain ⟨-, -, -, N, hN⟩ := dlInv hreach
  have hτ : ∀ p t, s.sys.task S p = some t → (fun p => (s.sys.task S p).getD (S.task p [] [])) p = t := by
    intro p t ht
    simp only [ht, Option.getD_some]
  obtain ⟨x, hx, hr⟩ := net_turns_if h N hN _ hτ
  have hlt : d < N := Classical.byContradiction fun hlt => by
    have := hN d (by omega)
    rw [hp] at this; cases this
  refine ⟨_, x, _, ?_, own_fresh hx, hr, ?_⟩
  · rw [List.getElem?_map, List.getElem?_range hlt]; exact congrArg some (hτ d t ht)
  · show ((List.range N).map s.dl)[d]? = _
    rw [List.getElem?_map, List.getElem?_range hlt]; exact congrArg some hp

theorem task_sha1 {s : SysSt} {d : Nat} {t : Task} (ht : s.task S d = some t) : t.sha1 = sha1Sum := by
  unfold SysSt.task at ht
  split at ht
  · split at ht
    · cases ht; rfl
    · cases ht
  · cases ht

/-- what a download leads to, from what it returns -/
theorem outcome_of {d : Nat} {t : Task} (ht : s.sys.task S d = some t) (hdl : t.E.dialFails = false) {o : POut (Option Bytes × Option Bytes)}
    (hp : s.dl d = .running (.done o)) {data : Bytes} {st : PSt}
    (h2 : FetchOut.of o = if t.sha1 data = t.infoHash then .returned (some data) none st else .returned none (some b!"check sum err") st) :
    s.outcome S d = some (if sha1Sum data = t.infoHash then .flush (hexEncode t.infoHash) data else .nothing) := by
  rw [task_sha1 ht] at h2
  unfold SysSt.task at ht
  unfold SysNetSt.outcome
  cases hj : enqueued (logOf d s.sys.pl.log) with
  | nil => rw [hj] at ht; cases ht
  | cons job l =>
    rw [hj] at ht
    simp only at ht ⊢
    cases ha : fetchArgs S.K.env job with
    | ok a =>
      rw [ha] at ht
      simp only [Option.some.injEq] at ht ⊢
      subst ht
      have hd : (S.conn d a.2).dialFails = false := hdl
      rw [hd, hp]
      have h2 : FetchOut.of o = if sha1Sum data = a.1 then .returned (some data) none st else .returned none (some b!"check sum err") st := h2
      simp only [h2]
      show some _ = some (if sha1Sum data = a.1 then HandlerOut.flush (hexEncode a.1) data else .nothing)
      by_cases hsum : sha1Sum data = a.1
      · rw [if_pos hsum, if_pos hsum]; rfl
      · rw [if_neg hsum, if_neg hsum]; rfl
    | _ => rw [ha] at ht; cases ht

/-- **C115** In every execution of the whole program in which download `d` is spared, and does not take again a buffer in which it has received a piece: if its peer has sent all announced
pieces, what is checked is exactly what the peer sent; if its hash is right, this is what goes to the file, and otherwise nothing does. -/
theorem C115_spared {d : Nat} (h : Reach (SysNetInit S port fs0) (SysNetSpares S d) s) {t : Task} (ht : s.sys.task S d = some t) {o : POut (Option Bytes × Option Bytes)}
    (hp : s.dl d = .running (.done o)) {hs : Bytes} {bodies : List Bytes} (hf : Fed t hs bodies) (n k : Nat) (g : Received)
    (hv : verdict 0 0 .start bodies = .complete n k g) (hsz : g.size ≤ 2 ^ 48) (hnr : ∀ ret err st, FetchOut.of o = .returned ret err st → NotRetaken st.trace) :
    s.outcome S d = some (if sha1Sum g.content = t.infoHash then .flush (hexEncode t.infoHash) g.content else .nothing) := by
  obtain ⟨tasks, x, m, htask, hx, hr, hth⟩ := spared_alone h ht hp
  obtain ⟨data, st, h1, h2⟩ := C111_spared htask hx hr hth hf n k g hv hsz
  have hdata : data = g.content := by
    refine h1 ?_
    by_cases hsum : t.sha1 data = t.infoHash
    · rw [if_pos hsum] at h2; exact hnr _ _ _ h2
    · rw [if_neg hsum] at h2; exact hnr _ _ _ h2
  subst hdata
  exact outcome_of ht hf.dial hp h2

/-- **C115** With metadata of one piece it is enough that the download is spared. -/
theorem C115_one_piece {d : Nat} (h : Reach (SysNetInit S port fs0) (SysNetSpares S d) s) {t : Task} (ht : s.sys.task S d = some t) {o : POut (Option Bytes × Option Bytes)}
    (hp : s.dl d = .running (.done o)) {hs : Bytes} {bodies : List Bytes} (hf : Fed t hs bodies) (n k j : Nat) (size : Int) (piece : Bytes)
    (hv : verdict 0 0 .start bodies = .complete n k { size, pieces := [some (j, piece)] }) (hsz : size ≤ 2 ^ 48) :
    s.outcome S d = some (if sha1Sum piece = t.infoHash then .flush (hexEncode t.infoHash) piece else .nothing) := by
  obtain ⟨tasks, x, m, htask, hx, hr, hth⟩ := spared_alone h ht hp
  obtain ⟨st, h2⟩ := C111_one_piece_spared htask hx hr hth hf n k j size piece hv hsz
  exact outcome_of ht hf.dial hp h2

/-- an announce whose peer can be reached comes to an end of its download, and what this has led to goes to its file -/
theorem announce_to_disk (hW1 : 1 ≤ S.W1) (F : FairNet S port fs0 e) (hone : ∀ i, (e i).OneDataPerHash S) {i p : Nat} (hp : p < (e i).sys.pg.got.length)
    {job : Job} (hj : IsAnnounce (S.pkts p) job) {infoHash laddr data : Bytes} (hih : (asMap job.req.body).lookup b!"info_hash" = some (.str infoHash))
    (haddr : parseFetchAddr S.K.env job = .ok laddr) (hdial : (S.conn p laddr).dialFails = false)
    (hres : ∀ j o, (e j).sys.task S p = some (S.task p infoHash laddr) → (e j).dl p = .running (.done o) →
      (e j).outcome S p = some (.flush (hexEncode infoHash) data)) (nofail : ∀ m k, (e m).sys.fs.pc k ≠ .failed)
    (finite : ∃ N, ∀ k, N ≤ k → ∀ job', IsAnnounce (S.pkts k) job' → (asMap job'.req.body).lookup b!"info_hash" ≠ some (.str infoHash)) :
    ∃ j, i ≤ j ∧ ∀ m, j ≤ m → (e m).sys.fs.fs (b!"torrent/" ++ hexEncode infoHash ++ b!".torrent") = some data := by
  obtain ⟨j, out, hij, hout, -⟩ := C114_downloaded hW1 F hp hj
  have ho := hout j (Nat.le_refl j)
  obtain ⟨job', l, he, hj'⟩ := outcome_announce (F.reach j) ho
  have := hj.unique hj'
  subst this
  obtain ⟨ha, ht⟩ := task_of_job he hih haddr
  have hdone : ∃ o, (e j).dl p = .running (.done o) := by
    have ho' := ho
    unfold SysNetSt.outcome at ho'
    rw [he] at ho'
    simp only [ha] at ho'
    rw [if_neg (show ¬ (S.conn p laddr).dialFails = true by rw [hdial]; simp)] at ho'
    split at ho'
    · rename_i o hd; exact ⟨o, hd⟩
    · cases ho'
  obtain ⟨o, hd⟩ := hdone
  obtain ⟨m, hm, hfile⟩ := C114_on_disk F hone (hres j o ht hd) nofail finite
  exact ⟨m, by omega, hfile⟩

/-- the download `p` is spared in the whole execution `e` -/
def SparedIn (e : Nat → SysNetSt) (p : Nat) : Prop :=
  ∀ j st k, (e j).dl p = .running (.wait st k) → (e (j + 1)).dl p = .running (k (e j).shared) → ∀ a ∈ pieceBuffers st.trace, (e j).shared.1 a = st.mem a

theorem sparedIn_reach (F : FairNet S port fs0 e) {p : Nat} (spared : SparedIn e p) (j : Nat) : Reach (SysNetInit S port fs0) (SysNetSpares S p) (e j) := by
  induction j with
  | zero => exact .init F.run.start
  | succ j ih =>
    rcases F.run.next j with h | h
    · rw [h]; exact ih
    · exact .step ih ⟨h, spared j⟩

/-- **C115** From the socket to the disk: an announce is read from the socket, its peer can be reached and sends all announced pieces, these have the announced hash, and the download is
spared. Then in the end, for ever, the file named after the hash holds exactly what the peer sent. -/
theorem C115_socket_to_disk (hW1 : 1 ≤ S.W1) (F : FairNet S port fs0 e) (hone : ∀ i, (e i).OneDataPerHash S) {i p : Nat} (hp : p < (e i).sys.pg.got.length)
    (spared : SparedIn e p) (notRetaken : ∀ j o ret err st, (e j).dl p = .running (.done o) → FetchOut.of o = .returned ret err st → NotRetaken st.trace)
    {job : Job} (hj : IsAnnounce (S.pkts p) job) {infoHash laddr : Bytes} (hih : (asMap job.req.body).lookup b!"info_hash" = some (.str infoHash))
    (haddr : parseFetchAddr S.K.env job = .ok laddr) {hs : Bytes} {bodies : List Bytes} (hf : Fed (S.task p infoHash laddr) hs bodies) (n k : Nat) (g : Received)
    (hv : verdict 0 0 .start bodies = .complete n k g) (hsz : g.size ≤ 2 ^ 48) (hsum : sha1Sum g.content = infoHash) (nofail : ∀ m k, (e m).sys.fs.pc k ≠ .failed)
    (finite : ∃ N, ∀ k, N ≤ k → ∀ job', IsAnnounce (S.pkts k) job' → (asMap job'.req.body).lookup b!"info_hash" ≠ some (.str infoHash)) :
    ∃ j, i ≤ j ∧ ∀ m, j ≤ m → (e m).sys.fs.fs (b!"torrent/" ++ hexEncode infoHash ++ b!".torrent") = some g.content := by
  refine announce_to_disk hW1 F hone hp hj hih haddr hf.dial (fun j o ht hd => ?_) nofail finite
  have hres := C115_spared (sparedIn_reach F spared j) ht hd hf n k g hv hsz (fun ret err st => notRetaken j o ret err st hd)
  have hres : (e j).outcome S p = some (if sha1Sum g.content = infoHash then .flush (hexEncode infoHash) g.content else .nothing) := hres
  rw [if_pos hsum] at hres
  exact hres

end

/-! ## One worker -/

section
variable {S : SysEnv} {port : Int} {fs0 : Bytes → Option Bytes} {s : SysNetSt} {e : Nat → SysNetSt}

/-- **C115** With one worker for downloads, the memory is as a download under way has left it whenever it goes on: every execution spares every download. -/
theorem C115_one_worker (hW2 : S.W2 = 1) (h : SysNetReach S port fs0 s) : ∀ d st k, s.dl d = .running (.wait st k) → s.shared.1 = st.mem := by
  induction h with
  | @init s h =>
    intro d st k hd
    rw [h.2.2] at hd
    cases hd
  | @step s t hr st ih =>
    -- only the download of the one worker can be under way
    have only : ∀ {i q d : Nat} {v : Thread}, s.sys.pl.p2.workers[i]? = some (WPc.running q) → ∀ {st k}, upd s.dl q v d = .running (.wait st k) → d = q := by
      intro i q d v hw st k hd
      refine Classical.byContradiction fun hne => ?_
      have hd : s.dl d = .running (.wait st k) := by simpa [upd, hne] using hd
      obtain ⟨j, hj⟩ := (dlInv hr).worker d st k hd
      have hlen := (dlInv hr).workers
      rw [hW2] at hlen
      have hi := (List.getElem?_eq_some_iff.1 hw).1
      have hj' := (List.getElem?_eq_some_iff.1 hj).1
      have e1 : i = j := by omega
      subst e1
      rw [hw] at hj
      cases hj
      exact hne rfl
    cases st with
    | start i q x up hw hx hd hq =>
      intro d st k h
      have h : upd s.dl q (.running (x.body s.shared)) d = .running (.wait st k) := h
      have e := only hw h
      subst e
      rw [upd_same] at h
      have h : x.body s.shared = .wait st k := by injection h
      show (x.body s.shared).state.mem = st.mem
      rw [h]; rfl
    | turn i q st' k' up hw hq =>
      intro d st k h
      have h : upd s.dl q (.running (k' s.shared)) d = .running (.wait st k) := h
      have e := only hw h
      subst e
      rw [upd_same] at h
      have h : k' s.shared = .wait st k := by injection h
      show (k' s.shared).state.mem = st.mem
      rw [h]; rfl
    | rest a b c d => exact ih
    | file i q out up hw ho hs hd => exact ih
    | back i q out up hw ho hr => exact ih
    | fatal i q up hw ho => exact ih

/-- **C115** With one worker for downloads (`WorkPoolSize` 1): **whatever the schedule**, an announce that is read from the socket, whose peer can be reached and sends metadata of one piece with
the announced hash, gets into its file, which then holds exactly what the peer sent, for ever. -/
theorem C115_one_worker_to_disk (hW1 : 1 ≤ S.W1) (hW2 : S.W2 = 1) (F : FairNet S port fs0 e) (hone : ∀ i, (e i).OneDataPerHash S) {i p : Nat} (hp : p < (e i).sys.pg.got.length)
    {job : Job} (hj : IsAnnounce (S.pkts p) job) {infoHash laddr : Bytes} (hih : (asMap job.req.body).lookup b!"info_hash" = some (.str infoHash))
    (haddr : parseFetchAddr S.K.env job = .ok laddr) {hs : Bytes} {bodies : List Bytes} (hf : Fed (S.task p infoHash laddr) hs bodies) (n k j : Nat) (size : Int) (piece : Bytes)
    (hv : verdict 0 0 .start bodies = .complete n k { size, pieces := [some (j, piece)] }) (hsz : size ≤ 2 ^ 48) (hsum : sha1Sum piece = infoHash)
    (nofail : ∀ m k, (e m).sys.fs.pc k ≠ .failed)
    (finite : ∃ N, ∀ k, N ≤ k → ∀ job', IsAnnounce (S.pkts k) job' → (asMap job'.req.body).lookup b!"info_hash" ≠ some (.str infoHash)) :
    ∃ j, i ≤ j ∧ ∀ m, j ≤ m → (e m).sys.fs.fs (b!"torrent/" ++ hexEncode infoHash ++ b!".torrent") = some piece := by
  have spared : SparedIn e p := fun j st k hd _ a _ => by rw [C115_one_worker hW2 (F.reach j) p st k hd]
  refine announce_to_disk hW1 F hone hp hj hih haddr hf.dial (fun m o ht hd => ?_) nofail finite
  have hres := C115_one_piece (sparedIn_reach F spared m) ht hd hf n k j size piece hv hsz
  have hres : (e m).outcome S p = some (if sha1Sum piece = infoHash then .flush (hexEncode infoHash) piece else .nothing) := hres
  rw [if_pos hsum] at hres
  exact hres

end

/-! ## The schedule decides -/

theorem exSysNet_one {s : SysNetSt} {port : Int} {fs0 : Bytes → Option Bytes} (h : SysNetReach exSysNet port fs0 s) : s.OneDataPerHash exSysNet := by
  intro p q hash d d' a b
  obtain ⟨hp, h1⟩ := exSysNet_flush h a
  obtain ⟨hq, h2⟩ := exSysNet_flush h b
  have hpq : p = q := by
    have hne : hexEncode (sha1Sum exMeta) ≠ hexEncode (sha1Sum exMeta2) := by decide +kernel
    have hp' : p = 0 ∨ p = 1 := by omega
    have hq' : q = 0 ∨ q = 1 := by omega
    rcases hp' with rfl | rfl <;> rcases hq' with rfl | rfl
    · rfl
    · exact absurd (h1.symm.trans h2) hne
    · exact absurd (h2.symm.trans h1) hne
    · rfl
  subst hpq
  rw [a] at b; cases b; rfl

/-- the first download up to just before it merges its piece; then the whole second one; then the rest of the first -/
def exSysNetBad : Net := turns exSysNetTasks exSysNetFresh badTurns

theorem exSysNetBad_ends : (match endOf exSysNetBad 0 with
    | some (.returned none (some err) _) => decide (err = b!"check sum err")
    | _ => false) = true := by decide +kernel

/-- **C115** **The schedule decides.** The whole program comes to a point where two datagrams, announces of different torrents, have been read and each of the two workers has just begun one of
the downloads. The peers deliver exactly what was announced. From there the program can go on so that the first file holds the first torrent; and it can go on so that the first download is
over, with nothing to write, and there is no such file. -/
theorem C115_schedule_decides : ∃ s t u : SysNetSt, SysNetReach exSysNet 21000 (fun _ => none) s ∧
    Fed (exSysNetTask 0) exHandshake (exSysNetBodies 0) ∧ s.sys.task exSysNet 0 = some (exSysNetTask 0) ∧
    verdict 0 0 .start (exSysNetBodies 0) = .complete 2 2 { size := 24, pieces := [some (1, exMeta)] } ∧ sha1Sum exMeta = (exSysNetTask 0).infoHash ∧
    Reach (· = s) (SysNetStep exSysNet) t ∧ t.outcome exSysNet 0 = some (.flush (hexEncode (sha1Sum exMeta)) exMeta) ∧
    Reach (· = s) (SysNetStep exSysNet) u ∧ u.outcome exSysNet 0 = some .nothing ∧ 0 ∈ u.sys.pl.p2.finished ∧
    u.sys.fs.fs (b!"torrent/" ++ hexEncode (sha1Sum exMeta) ++ b!".torrent") = none := by
  obtain ⟨s, i0, i1, hs, hfin, hat, h0, h1, hjob⟩ := exSysNet_both
  obtain ⟨m, rm, em, am⟩ := netAt_turns (List.replicate 10 [0, 1]).flatten hs.up h0 h1 (hjob h0).2.1 (hjob h1).2.1 hat
  obtain ⟨t, rt, et, at'⟩ := netAt_turns (s := m) (List.replicate 14 [0, 1]).flatten (by rw [em]; exact hs.up) (by rw [em]; exact h0) (by rw [em]; exact h1)
    (by rw [em]; exact (hjob h0).2.1) (by rw [em]; exact (hjob h1).2.1) am
  have et := et.trans em
  have at' : NetAt t exSysNetEnd := at'
  obtain ⟨u, ru, eu, au⟩ := netAt_turns badTurns hs.up h0 h1 (hjob h0).2.1 (hjob h1).2.1 hat
  have au : NetAt u exSysNetBad := au
  obtain ⟨-, -, l, he⟩ := hjob h0
  have out : ∀ {v : SysNetSt} {o : POut (Option Bytes × Option Bytes)}, v.sys = s.sys → v.dl 0 = .running (.done o) →
      v.outcome exSysNet 0 = some (afterFetch (sha1Sum exMeta) (.of o)) := by
    intro v o hv hd
    unfold SysNetSt.outcome
    rw [hv, he]
    simp only [exSysNet_args (show 0 < 2 by omega)]
    rw [if_neg (show ¬ (exSysNet.conn 0 b!"10.0.0.1:6881").dialFails = true by rw [show (exSysNet.conn 0 b!"10.0.0.1:6881").dialFails = false from rfl]; simp), hd]
    rfl
  obtain ⟨o0, s0, d0, e0⟩ := endsWith_done exSysNetEnd_both.1
  rw [at'.threads] at d0
  have good := out et (Option.some.inj d0)
  rw [e0] at good
  have bad : u.outcome exSysNet 0 = some .nothing := by
    have h := exSysNetBad_ends
    unfold endOf at h
    rw [au.threads] at h
    cases hd : u.dl 0 with
    | idle => simp only [hd, List.getElem?_cons_zero] at h; cases h
    | running x =>
      simp only [hd, List.getElem?_cons_zero] at h
      cases x with
      | wait _ _ => cases h
      | done o =>
        rw [out eu hd]
        simp only at h
        split at h
        · rename_i err st hre
          have hre := Option.some.inj hre
          rw [hre]
          rfl
        · cases h
  have hur : SysNetReach exSysNet 21000 (fun _ => none) u := reach_trans hs.reach ru
  have hstep : SysNetStep exSysNet u _ := .back i0 0 .nothing (by rw [eu]; exact hs.up) (by rw [eu]; exact h0) bad (by unfold HandlerReturns; trivial)
  have hw := Reach.step hur hstep
  refine ⟨s, t, _, hs.reach, exSysNet_fed (by omega), (hjob h0).2.1, exSysNet_verdict (p := 0) (by omega), rfl, reach_trans rm rt, good, .step ru hstep, bad, ?_, ?_⟩
  · show 0 ∈ u.sys.pl.p2.finished ++ [0]
    simp
  · rcases C113_files hw (exSysNet_one hw) (b!"torrent/" ++ hexEncode (sha1Sum exMeta) ++ b!".torrent") with h | ⟨p, job, ih, r, data, c, -, -, -, -, -, -, -, -, -, -, hpath, hout, -⟩
    · exact h
    · exfalso
      obtain ⟨hp, hh⟩ := exSysNet_flush hw hout
      rw [hh] at hpath
      have hp' : p = 0 ∨ p = 1 := by omega
      rcases hp' with rfl | rfl
      · have : u.outcome exSysNet 0 = some (.flush r.infoHash data) := hout
        rw [bad] at this
        cases this
      · have hne : ¬ (b!"torrent/" ++ hexEncode (sha1Sum exMeta) ++ b!".torrent" = b!"torrent/" ++ hexEncode (sha1Sum exMeta2) ++ b!".torrent") := by decide +kernel
        exact hne hpath

end P2P

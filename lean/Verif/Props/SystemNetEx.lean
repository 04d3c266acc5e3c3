import Verif.Props.SystemNetNV
import Verif.Props.SystemLive
import Verif.Props.InterleaveNV
/-! # C113: a concrete execution in which two downloads run at the same time -/
namespace P2P

def exSysNetAnnounce (m : Bytes) : Bytes :=
  b!"d1:ad2:id20:bbbbbbbbbbbbbbbbbbbb9:info_hash20:" ++ sha1Sum m ++ b!"4:porti6881e5:token2:xye1:q13:announce_peer1:t2:zz1:y1:qe"
def exSysNetArgs (m : Bytes) : Entries :=
  [(b!"id", .str b!"bbbbbbbbbbbbbbbbbbbb"), (b!"info_hash", .str (sha1Sum m)), (b!"port", .int 6881), (b!"token", .str b!"xy")]
def exSysNetDict (m : Bytes) : Entries := [(b!"a", .dict (exSysNetArgs m)), (b!"q", .str b!"announce_peer"), (b!"t", .str b!"zz"), (b!"y", .str b!"q")]
def exSysNetJob (m : Bytes) : Job := { req := { txId := b!"zz", qType := b!"announce_peer", body := some (exSysNetArgs m), handler := none }, addr := peerAddr }

/-- what is announced in datagram `p` -/
def exSysNetMeta (p : Nat) : Bytes := if p = 0 then exMeta else exMeta2
def exSysNetPkts (p : Nat) : RecvPacket := { addr := peerAddr, bytes := if p < 2 then exSysNetAnnounce (exSysNetMeta p) else b!"garbage" }

def exSysNetBodies (p : Nat) : List Bytes := if p = 0 then [exExt 24, exData0] else exBodies2

/-- one bootstrap host; two announces of different torrents, then garbage; the peers deliver them; pools of two workers -/
def exSysNet : SysEnv where
  K := exK
  hosts := [some peerAddr]
  pkts := exSysNetPkts
  W1 := 2
  Q := 1
  W2 := 2
  dir := true
  conn := fun p _ => calmEnv (exHandshake :: (exSysNetBodies p).flatMap wire)
  fuel := 3
  mem := fun _ _ => []
  pool := fun _ => exPool

theorem exSysNet_announce {p : Nat} (hp : p < 2) : IsAnnounce (exSysNet.pkts p) (exSysNetJob (exSysNetMeta p)) := by
  have h : p = 0 ∨ p = 1 := by omega
  rcases h with rfl | rfl
  · refine ⟨exSysNetDict exMeta, b!"zz", exSysNetArgs exMeta, ⟨⟨(exSysNetAnnounce exMeta).length, ?_⟩, by decide +kernel, by decide +kernel, by decide +kernel⟩,
     ⟨by simp [methods], exSysNetArgs exMeta, rfl, ⟨_, rfl, rfl⟩, fun _ => ⟨_, rfl⟩, fun _ => ⟨_, rfl⟩⟩, rfl, rfl⟩
    decide +kernel
  · refine ⟨exSysNetDict exMeta2, b!"zz", exSysNetArgs exMeta2, ⟨⟨(exSysNetAnnounce exMeta2).length, ?_⟩, by decide +kernel, by decide +kernel, by decide +kernel⟩,
     ⟨by simp [methods], exSysNetArgs exMeta2, rfl, ⟨_, rfl, rfl⟩, fun _ => ⟨_, rfl⟩, fun _ => ⟨_, rfl⟩⟩, rfl, rfl⟩
    decide +kernel

theorem exSysNet_garbage {p : Nat} (hp : ¬ p < 2) (job : Job) : ¬ IsAnnounce (exSysNet.pkts p) job := by
  rintro ⟨d, t, a, ⟨⟨n, hn⟩, -⟩, -⟩
  have : (match DecodeDictNoLimit b!"garbage" with | .ok _ => true | _ => false) = false := by decide +kernel
  simp only [exSysNet, exSysNetPkts, if_neg hp] at hn
  rw [hn] at this
  cases this

theorem exSysNet_job {s : SysNetSt} {port : Int} {fs0 : Bytes → Option Bytes} (h : SysNetReach exSysNet port fs0 s) {p : Nat} {job : Job} {l : List Job}
    (he : enqueued (logOf p s.sys.pl.log) = job :: l) : p < 2 ∧ job = exSysNetJob (exSysNetMeta p) := by
  obtain ⟨conn, mem, pool, hr⟩ := net_sys h
  obtain ⟨O, hO, hc⟩ := sys_crawler hr
  have hlog : logOf p s.sys.pl.log = _ := (pl_inv (C92_refines hc).1).log p
  have hm : job ∈ enqueued (crawlTraces exSysNet.K O exSysNet.pkts p) := by
    have : job ∈ enqueued (logOf p s.sys.pl.log) := by rw [he]; simp
    rw [hlog] at this
    obtain ⟨e, h1, h2⟩ := List.mem_filterMap.1 this
    exact List.mem_filterMap.2 ⟨e, (List.take_subset _ _ h1), h2⟩
  rcases crawlTraces_spec exSysNet.K hO exSysNet.pkts p with ⟨job', b, f, hj, e⟩ | ⟨-, e⟩
  · rw [e] at hm
    have : job = job' := by simpa [enqueued] using hm
    subst this
    by_cases hp : p < 2
    · exact ⟨hp, hj.unique (exSysNet_announce hp)⟩
    · exact absurd hj (exSysNet_garbage hp _)
  · rw [e] at hm; cases hm

/-- the download of datagram `p` -/
def exSysNetTask (p : Nat) : Task := exSysNet.task p (sha1Sum (exSysNetMeta p)) b!"10.0.0.1:6881"

theorem exSysNet_args {p : Nat} (hp : p < 2) : fetchArgs exSysNet.K.env (exSysNetJob (exSysNetMeta p)) = .ok (sha1Sum (exSysNetMeta p), b!"10.0.0.1:6881") := by
  have h : p = 0 ∨ p = 1 := by omega
  rcases h with rfl | rfl <;> decide +kernel

theorem exSysNet_fed {p : Nat} (hp : p < 2) : Fed (exSysNetTask p) exHandshake (exSysNetBodies p) where
  dial := rfl
  writes := fun _ => rfl
  time := fun _ => rfl
  memory := fun _ _ => rfl
  order := fun _ _ h => ⟨h, .refl _⟩
  peer := by show LocalPeerId.length = 20; decide
  info := by have h : p = 0 ∨ p = 1 := by omega
             rcases h with rfl | rfl <;> decide +kernel
  handshake := exHandshake_ok
  delivers := calmEnv_delivers _
  lengths := by have h : p = 0 ∨ p = 1 := by omega
                rcases h with rfl | rfl <;> decide +kernel
  rounds := by have h : p = 0 ∨ p = 1 := by omega
               rcases h with rfl | rfl <;> decide +kernel

theorem exSysNet_verdict {p : Nat} (hp : p < 2) : verdict 0 0 .start (exSysNetBodies p) = .complete 2 2 { size := 24, pieces := [some (1, exSysNetMeta p)] } := by
  have h : p = 0 ∨ p = 1 := by omega
  rcases h with rfl | rfl <;> decide +kernel

theorem exSysNet_ends (port : Int) (fs0 : Bytes → Option Bytes) : exSysNet.NetEnds port fs0 := by
  intro s h p out ho
  cases he : enqueued (logOf p s.sys.pl.log) with
  | nil => unfold SysNetSt.outcome at ho; rw [he] at ho; cases ho
  | cons job l =>
    obtain ⟨hp, rfl⟩ := exSysNet_job h he
    have htask : s.sys.task exSysNet p = some (exSysNetTask p) := by unfold SysSt.task; rw [he]; simp only [exSysNet_args hp]; rfl
    have ho' := ho
    unfold SysNetSt.outcome at ho
    rw [he] at ho
    simp only [exSysNet_args hp] at ho
    rw [if_neg (show ¬ (exSysNet.conn p b!"10.0.0.1:6881").dialFails = true by rw [show (exSysNet.conn p b!"10.0.0.1:6881").dialFails = false from rfl]; simp)] at ho
    split at ho
    · rename_i o hd
      obtain ⟨data, -, h2⟩ := C113_complete h htask hd (exSysNet_fed hp) 2 2 _ (exSysNet_verdict hp) (by show 24 ≤ 2 ^ 48; decide)
      rw [ho'] at h2
      cases h2
      split <;> trivial
    · cases ho

/-- C113_runs, C113_complete: five datagrams are handled completely; both announced torrents have been downloaded. -/
example : ∃ s, SysNetReach exSysNet 21000 (fun _ => none) s ∧ s.sys.pg.got.length = 5 ∧ s.sys.pl.p1.finished.Perm (List.range 5) ∧
    0 ∈ s.sys.pl.p2.finished ∧ 1 ∈ s.sys.pl.p2.finished := by
  obtain ⟨s, h1, -, -, h4, h5, h6, -⟩ := C113_runs (S := exSysNet) (port := 21000) (fs0 := fun _ => none) (by decide) (by decide) realH_history.1 (by simp [exSysNet]) rfl (exSysNet_ends _ _) 5
  exact ⟨s, h1, h4, h5, h6 0 _ (by omega) (exSysNet_announce (by omega)), h6 1 _ (by omega) (exSysNet_announce (by omega))⟩

/-! ## At the same time -/

def exSysNetTasks : List Task := [exSysNetTask 0, exSysNetTask 1]

/-- the first two downloads are where `n` says -/
structure NetAt (s : SysNetSt) (n : Net) : Prop where
  shared : s.shared = n.shared
  threads : n.threads = [s.dl 0, s.dl 1]

/-- the program can take every turn that the two downloads alone can take -/
theorem netAt_turn {s : SysNetSt} (up : s.sys.up) {i0 i1 : Nat} (h0 : s.sys.pl.p2.workers[i0]? = some (.running 0)) (h1 : s.sys.pl.p2.workers[i1]? = some (.running 1))
    (t0 : s.sys.task exSysNet 0 = some (exSysNetTask 0)) (t1 : s.sys.task exSysNet 1 = some (exSysNetTask 1)) {n : Net} (hn : NetAt s n) (i : Nat) :
    ∃ t, Reach (· = s) (SysNetStep exSysNet) t ∧ t.sys = s.sys ∧ NetAt t (turn exSysNetTasks n i) := by
  have hne : ∀ v, upd s.dl 0 v 0 = v := fun v => if_pos rfl
  have hne1 : ∀ v, upd s.dl 1 v 1 = v := fun v => if_pos rfl
  unfold turn
  split
  · rename_i t g1 g2
    by_cases hd : t.E.dialFails = true
    · rw [if_pos hd]; exact ⟨s, .init rfl, rfl, hn⟩
    · rw [if_neg hd]
      have hd : t.E.dialFails = false := by simpa using hd
      match i, g1, g2 with
      | 0, g1, g2 =>
        rw [hn.threads] at g1
        cases g2
        refine ⟨_, .step (.init rfl) (.start i0 0 _ up h0 t0 hd (Option.some.inj g1)), rfl, ?_, ?_⟩
        · simp only [hn.shared]
        · simp only [hn.threads, hne, hn.shared]; rfl
      | 1, g1, g2 =>
        rw [hn.threads] at g1
        cases g2
        refine ⟨_, .step (.init rfl) (.start i1 1 _ up h1 t1 hd (Option.some.inj g1)), rfl, ?_, ?_⟩
        · simp only [hn.shared]
        · simp only [hn.threads, hne1, hn.shared]; rfl
      | k + 2, _, g2 => simp [exSysNetTasks] at g2
  · rename_i st k g1
    match i, g1 with
    | 0, g1 =>
      rw [hn.threads] at g1
      refine ⟨_, .step (.init rfl) (.turn i0 0 st k up h0 (Option.some.inj g1)), rfl, ?_, ?_⟩
      · simp only [hn.shared]
      · simp only [hn.threads, hne, hn.shared]; rfl
    | 1, g1 =>
      rw [hn.threads] at g1
      refine ⟨_, .step (.init rfl) (.turn i1 1 st k up h1 (Option.some.inj g1)), rfl, ?_, ?_⟩
      · simp only [hn.shared]
      · simp only [hn.threads, hne1, hn.shared]; rfl
    | k + 2, g1 => rw [hn.threads] at g1; simp at g1
  · exact ⟨s, .init rfl, rfl, hn⟩

theorem netAt_turns (l : List Nat) {s : SysNetSt} (up : s.sys.up) {i0 i1 : Nat} (h0 : s.sys.pl.p2.workers[i0]? = some (.running 0)) (h1 : s.sys.pl.p2.workers[i1]? = some (.running 1))
    (t0 : s.sys.task exSysNet 0 = some (exSysNetTask 0)) (t1 : s.sys.task exSysNet 1 = some (exSysNetTask 1)) {n : Net} (hn : NetAt s n) :
    ∃ t, Reach (· = s) (SysNetStep exSysNet) t ∧ t.sys = s.sys ∧ NetAt t (turns exSysNetTasks n l) := by
  induction l generalizing s n with
  | nil => exact ⟨s, .init rfl, rfl, hn⟩
  | cons i l ih =>
    obtain ⟨t, a1, a2, a3⟩ := netAt_turn up h0 h1 t0 t1 hn i
    obtain ⟨u, b1, b2, b3⟩ := ih (s := t) (by rw [a2]; exact up) (by rw [a2]; exact h0) (by rw [a2]; exact h1) (by rw [a2]; exact t0) (by rw [a2]; exact t1) a3
    exact ⟨u, reach_trans a1 b1, b2.trans a2, b3⟩

def exSysNetFresh : Net := .fresh (fun _ => [], exPool) exSysNetTasks
/-- half of it, turn and turn about -/
def exSysNetMid : Net := turns exSysNetTasks exSysNetFresh (List.replicate 10 [0, 1]).flatten
/-- the rest of it -/
def exSysNetEnd : Net := turns exSysNetTasks exSysNetMid (List.replicate 14 [0, 1]).flatten

def usesAt (n : Net) (i : Nat) : Nat := ((n.threads[i]?).map Thread.inUse).getD 0

theorem exSysNetMid_uses : usesAt exSysNetMid 0 = 1 ∧ usesAt exSysNetMid 1 = 1 := by decide +kernel

theorem exSysNetEnd_both : endsWith exSysNetEnd 0 exMeta = true ∧ endsWith exSysNetEnd 1 exMeta2 = true := by decide +kernel

/-- the program can get to where both workers have just begun one of the two downloads each -/
theorem exSysNet_both : ∃ (s : SysNetSt) (i0 i1 : Nat), NetCalm exSysNet 21000 (fun _ => none) s ∧ s.sys.pl.p2.finished = [] ∧ NetAt s exSysNetFresh ∧
    s.sys.pl.p2.workers[i0]? = some (WPc.running 0) ∧ s.sys.pl.p2.workers[i1]? = some (WPc.running 1) ∧
    ∀ {i p : Nat}, s.sys.pl.p2.workers[i]? = some (WPc.running p) → p < 2 ∧ s.sys.task exSysNet p = some (exSysNetTask p) ∧
      ∃ l, enqueued (logOf p s.sys.pl.log) = exSysNetJob (exSysNetMeta p) :: l := by
  obtain ⟨s, hs, -, hfin, hdl, hm, hpool, hrun⟩ := C113_parallel (S := exSysNet) (port := 21000) (fs0 := fun _ => none) (by decide) (by decide) realH_history.1 (by simp [exSysNet]) 2 (by decide)
  obtain ⟨conn, mem, pool, hr⟩ := net_sys hs.reach
  obtain ⟨O, hO, hc⟩ := sys_crawler hr
  have I := pl_inv (C92_refines hc).1
  -- both workers run one of the two downloads
  have hjob : ∀ {i p : Nat}, s.sys.pl.p2.workers[i]? = some (WPc.running p) → p < 2 ∧ s.sys.task exSysNet p = some (exSysNetTask p) ∧
      ∃ l, enqueued (logOf p s.sys.pl.log) = exSysNetJob (exSysNetMeta p) :: l := by
    intro i p hw
    obtain ⟨job, l, he⟩ := running_job hs.reach hw
    obtain ⟨hp, rfl⟩ := exSysNet_job hs.reach he
    exact ⟨hp, by unfold SysSt.task; rw [he]; simp only [exSysNet_args hp]; rfl, l, he⟩
  have hboth : (∃ i : Nat, s.sys.pl.p2.workers[i]? = some (WPc.running 0)) ∧ ∃ i : Nat, s.sys.pl.p2.workers[i]? = some (WPc.running 1) := by
    rcases hrun with h | h
    · exact ⟨h 0 _ (by decide) (exSysNet_announce (by decide)), h 1 _ (by decide) (exSysNet_announce (by decide))⟩
    · obtain ⟨p, hp⟩ := h 0 (by decide)
      obtain ⟨q, hq⟩ := h 1 (by decide)
      have hlen : s.sys.pl.p2.workers.length = 2 := (C50_workers_never_exit I.reach2).1
      have hnd : (runningTasks s.sys.pl.p2.workers).Nodup := by
        have := (wp_inv I.reach2).exec.nodup_iff.1 (started_nodup I.reach2)
        exact (List.nodup_append.1 this).2.1
      have hws : s.sys.pl.p2.workers = [.running p, .running q] := by
        generalize s.sys.pl.p2.workers = ws at hp hq hlen
        match ws, hlen with
        | [a, b], _ => cases hp; cases hq; rfl
      have hne : p ≠ q := by rw [hws] at hnd; simpa [runningTasks] using hnd
      have h1 := (hjob hp).1
      have h2 := (hjob hq).1
      have : (p = 0 ∧ q = 1) ∨ (p = 1 ∧ q = 0) := by omega
      rcases this with ⟨rfl, rfl⟩ | ⟨rfl, rfl⟩
      · exact ⟨⟨0, hp⟩, 1, hq⟩
      · exact ⟨⟨1, hq⟩, 0, hp⟩
  obtain ⟨⟨i0, h0⟩, i1, h1⟩ := hboth
  have hat : NetAt s exSysNetFresh := by
    refine ⟨?_, by rw [hdl]; rfl⟩
    have : NewBytesPool 10000 4 0 = .ok exPool := rfl
    rw [this] at hpool
    have hpool : exPool = s.shared.2 := Res.ok.inj hpool
    show s.shared = (fun _ => [], exPool)
    rw [← hm, hpool]
  exact ⟨s, i0, i1, hs, hfin, hat, h0, h1, hjob⟩

/-- **C113** In one execution of the whole program two downloads are under way at the same time, each with a buffer of its own, between the steps of one another; both
come out, and both files hold the announced torrents. -/
theorem C113_overlap : ∃ s t u : SysNetSt, SysNetReach exSysNet 21000 (fun _ => none) s ∧ s.sys.pl.p2.finished = [] ∧ (s.dl 0).inUse = 1 ∧ (s.dl 1).inUse = 1 ∧
    inPool maxReadLength s.shared.2 = 0 ∧
    Reach (· = s) (SysNetStep exSysNet) t ∧ t.outcome exSysNet 0 = some (.flush (hexEncode (sha1Sum exMeta)) exMeta) ∧ t.outcome exSysNet 1 = some (.flush (hexEncode (sha1Sum exMeta2)) exMeta2) ∧
    SysNetReach exSysNet 21000 (fun _ => none) u ∧ u.dl = t.dl ∧ u.sys.pl.p2.finished = [0, 1] ∧
    u.sys.fs.fs (b!"torrent/" ++ hexEncode (sha1Sum exMeta) ++ b!".torrent") = some exMeta ∧
    u.sys.fs.fs (b!"torrent/" ++ hexEncode (sha1Sum exMeta2) ++ b!".torrent") = some exMeta2 := by
  obtain ⟨s, i0, i1, hs, hfin, hat, h0, h1, hjob⟩ := exSysNet_both
  obtain ⟨m, rm, em, am⟩ := netAt_turns (List.replicate 10 [0, 1]).flatten hs.up h0 h1 (hjob h0).2.1 (hjob h1).2.1 hat
  obtain ⟨t, rt, et, at'⟩ := netAt_turns (s := m) (List.replicate 14 [0, 1]).flatten (by rw [em]; exact hs.up) (by rw [em]; exact h0) (by rw [em]; exact h1)
    (by rw [em]; exact (hjob h0).2.1) (by rw [em]; exact (hjob h1).2.1) am
  have et := et.trans em
  have am : NetAt m exSysNetMid := am
  have at' : NetAt t exSysNetEnd := at'
  have hmr : SysNetReach exSysNet 21000 (fun _ => none) m := reach_trans hs.reach rm
  have htc : NetCalm exSysNet 21000 (fun _ => none) t := ⟨reach_trans hmr rt, by rw [et]; exact hs.listen, by rw [et]; exact hs.mem, by rw [et]; exact hs.pc, by rw [et]; exact hs.fresh, by rw [et]; exact hs.pg⟩
  have u0 : (m.dl 0).inUse = 1 := by
    have := exSysNetMid_uses.1; unfold usesAt at this; rw [am.threads] at this; exact this
  have u1 : (m.dl 1).inUse = 1 := by
    have := exSysNetMid_uses.2; unfold usesAt at this; rw [am.threads] at this; exact this
  have hmem := C113_memory hmr 2
  have hsum : (((List.range 2).map m.dl).map Thread.inUse).sum = 2 := by
    show (m.dl 0).inUse + ((m.dl 1).inUse + 0) = 2
    rw [u0, u1]
  rw [hsum] at hmem
  have hmem : inPool maxReadLength m.shared.2 + 2 ≤ 2 := hmem
  -- what they lead to
  obtain ⟨o0, s0, d0, e0⟩ := endsWith_done exSysNetEnd_both.1
  obtain ⟨o1, s1, d1, e1⟩ := endsWith_done exSysNetEnd_both.2
  rw [at'.threads] at d0 d1
  have out : ∀ {p i : Nat} {o : POut (Option Bytes × Option Bytes)} {st : PSt}, s.sys.pl.p2.workers[i]? = some (WPc.running p) → t.dl p = .running (.done o) →
      FetchOut.of o = .returned (some (exSysNetMeta p)) none st → t.outcome exSysNet p = some (.flush (hexEncode (sha1Sum (exSysNetMeta p))) (exSysNetMeta p)) := by
    intro p i o st hw hd ho
    obtain ⟨hp, -, l, he⟩ := hjob hw
    unfold SysNetSt.outcome
    rw [et, he]
    simp only [exSysNet_args hp]
    rw [if_neg (show ¬ (exSysNet.conn p b!"10.0.0.1:6881").dialFails = true by rw [show (exSysNet.conn p b!"10.0.0.1:6881").dialFails = false from rfl]; simp), hd]
    simp only [ho]
    rfl
  have o0 := out h0 (Option.some.inj d0) e0
  have o1 := out h1 (Option.some.inj d1) e1
  -- the files
  have hf : t.sys.pl.p2.finished = [] := by rw [et]; exact hfin
  obtain ⟨v, hv, v1, v2, v3, v4, v5⟩ := net_save htc rfl (exSysNet_ends _ _) (by rw [et]; exact h0) (by rw [hf]; simp) o0
  have hi : i0 ≠ i1 := by rintro rfl; rw [h0] at h1; cases h1
  have hvo : v.outcome exSysNet 1 = some (.flush (hexEncode (sha1Sum exMeta2)) exMeta2) := by
    refine Eq.trans ?_ o1
    unfold SysNetSt.outcome; rw [v1, v3]
  have hvf : v.sys.pl.p2.finished = [0] := by rw [v1]; simp only [hf]; rfl
  obtain ⟨w, hw, w1, w2, w3, w4, w5⟩ := net_save (i := i1) (p := 1) hv rfl (exSysNet_ends _ _) (by rw [v1]; simp only; rw [List.getElem?_set_ne hi, et]; exact h1) (by rw [hvf]; simp) hvo
  refine ⟨m, t, w, hmr, by rw [em]; exact hfin, u0, u1, by omega, rt, o0, o1, hw.reach, w3.trans v3, by rw [w1]; simp only [hvf]; rfl, ?_, w4 _ _ rfl⟩
  rw [w5 _ fun h d e => ?_]
  · exact v4 _ _ rfl
  · cases e
    have hne : ¬ (b!"torrent/" ++ hexEncode (sha1Sum exMeta) ++ b!".torrent" = torrentPath (hexEncode (sha1Sum exMeta2))) := by decide +kernel
    exact hne

end P2P

import Verif.Props.SystemNetSpared
/-! # C115: a concrete case with one worker for downloads -/
namespace P2P

/-- `exSysNet`, with one worker for downloads -/
def exSysNetOne : SysEnv := { exSysNet with W2 := 1 }

theorem exSysNetOne_args {p : Nat} (hp : p < 2) : fetchArgs exSysNetOne.K.env (exSysNetJob (exSysNetMeta p)) = .ok (sha1Sum (exSysNetMeta p), b!"10.0.0.1:6881") :=
  exSysNet_args hp

theorem exSysNetOne_job {s : SysNetSt} {port : Int} {fs0 : Bytes → Option Bytes} (h : SysNetReach exSysNetOne port fs0 s) {p : Nat} {job : Job} {l : List Job}
    (he : enqueued (logOf p s.sys.pl.log) = job :: l) : p < 2 ∧ job = exSysNetJob (exSysNetMeta p) := by
  obtain ⟨conn, mem, pool, hr⟩ := net_sys h
  obtain ⟨O, hO, hc⟩ := sys_crawler hr
  have hlog : logOf p s.sys.pl.log = _ := (pl_inv (C92_refines hc).1).log p
  have hm : job ∈ enqueued (crawlTraces exSysNetOne.K O exSysNetOne.pkts p) := by
    have : job ∈ enqueued (logOf p s.sys.pl.log) := by rw [he]; simp
    rw [hlog] at this
    obtain ⟨e, h1, h2⟩ := List.mem_filterMap.1 this
    exact List.mem_filterMap.2 ⟨e, (List.take_subset _ _ h1), h2⟩
  rcases crawlTraces_spec exSysNetOne.K hO exSysNetOne.pkts p with ⟨job', b, f, hj, e⟩ | ⟨-, e⟩
  · rw [e] at hm
    have : job = job' := by simpa [enqueued] using hm
    subst this
    by_cases hp : p < 2
    · exact ⟨hp, hj.unique (exSysNet_announce hp)⟩
    · exact absurd hj (exSysNet_garbage hp _)
  · rw [e] at hm; cases hm

theorem exSysNetOne_ends (port : Int) (fs0 : Bytes → Option Bytes) : exSysNetOne.NetEnds port fs0 := by
  intro s h p out ho
  cases he : enqueued (logOf p s.sys.pl.log) with
  | nil => unfold SysNetSt.outcome at ho; rw [he] at ho; cases ho
  | cons job l =>
    obtain ⟨hp, rfl⟩ := exSysNetOne_job h he
    have htask : s.sys.task exSysNetOne p = some (exSysNetTask p) := by unfold SysSt.task; rw [he]; simp only [exSysNetOne_args hp]; rfl
    have ho' := ho
    unfold SysNetSt.outcome at ho
    rw [he] at ho
    simp only [exSysNetOne_args hp] at ho
    rw [if_neg (show ¬ (exSysNetOne.conn p b!"10.0.0.1:6881").dialFails = true by rw [show (exSysNetOne.conn p b!"10.0.0.1:6881").dialFails = false from rfl]; simp)] at ho
    split at ho
    · rename_i o hd
      obtain ⟨data, -, h2⟩ := C113_complete h htask hd (exSysNet_fed hp) 2 2 _ (exSysNet_verdict hp) (by show 24 ≤ 2 ^ 48; decide)
      rw [ho'] at h2
      cases h2
      split <;> trivial
    · cases ho

theorem exSysNetOne_flush {s : SysNetSt} {port : Int} {fs0 : Bytes → Option Bytes} (h : SysNetReach exSysNetOne port fs0 s) {p : Nat} {hash d : Bytes}
    (ho : s.outcome exSysNetOne p = some (.flush hash d)) : p < 2 ∧ hash = hexEncode (sha1Sum (exSysNetMeta p)) := by
  obtain ⟨job, l, he⟩ := outcome_job ho
  obtain ⟨hp, rfl⟩ := exSysNetOne_job h he
  refine ⟨hp, ?_⟩
  have htask : s.sys.task exSysNetOne p = some (exSysNetTask p) := by unfold SysSt.task; rw [he]; simp only [exSysNetOne_args hp]; rfl
  have ho' := ho
  unfold SysNetSt.outcome at ho
  rw [he] at ho
  simp only [exSysNetOne_args hp] at ho
  rw [if_neg (show ¬ (exSysNetOne.conn p b!"10.0.0.1:6881").dialFails = true by rw [show (exSysNetOne.conn p b!"10.0.0.1:6881").dialFails = false from rfl]; simp)] at ho
  split at ho
  · rename_i o hd
    obtain ⟨data, -, h2⟩ := C113_complete h htask hd (exSysNet_fed hp) 2 2 _ (exSysNet_verdict hp) (by show 24 ≤ 2 ^ 48; decide)
    rw [ho'] at h2
    have h2 := Option.some.inj h2
    split at h2
    · injection h2
    · cases h2
  · cases ho

/-- Non-vacuity of `C115_one_worker_to_disk`: a fair execution of the whole program in which five datagrams are read, the first two of them announces of different torrents; the files
hold both torrents in the end, for ever. -/
theorem C115_example : ∃ e : Nat → SysNetSt, FairNet exSysNetOne 21000 (fun _ => none) e ∧ (∃ i, (e i).sys.pg.got.length = 5) ∧
    ∀ p, p < 2 → ∃ j, ∀ m, j ≤ m → (e m).sys.fs.fs (b!"torrent/" ++ hexEncode (sha1Sum (exSysNetMeta p)) ++ b!".torrent") = some (exSysNetMeta p) := by
  obtain ⟨e, N, F, hN, hno⟩ := C114_fair_runs (S := exSysNetOne) (port := 21000) (fs0 := fun _ => none) (by decide) (by decide) realH_history.1 (by simp [exSysNetOne, exSysNet]) rfl
    (exSysNetOne_ends _ _) 5
  have hone : ∀ i, (e i).OneDataPerHash exSysNetOne := by
    intro i p q hash d d' a b
    obtain ⟨hp, h1⟩ := exSysNetOne_flush (F.reach i) a
    obtain ⟨hq, h2⟩ := exSysNetOne_flush (F.reach i) b
    have hpq : p = q := by
      have hne : hexEncode (sha1Sum exMeta) ≠ hexEncode (sha1Sum exMeta2) := by decide +kernel
      have hp' : p = 0 ∨ p = 1 := by omega
      have hq' : q = 0 ∨ q = 1 := by omega
      rcases hp' with rfl | rfl <;> rcases hq' with rfl | rfl
      · rfl
      · exact absurd (h1.symm.trans h2) hne
      · exact absurd (h2.symm.trans h1) hne
      · rfl
    subst hpq
    rw [a] at b; cases b; rfl
  refine ⟨e, F, ⟨N, hN⟩, fun p hp => ?_⟩
  have hlast : (asMap (exSysNetJob (exSysNetMeta p)).req.body).lookup b!"info_hash" = some (.str (sha1Sum (exSysNetMeta p))) := rfl
  have haddr : parseFetchAddr exSysNetOne.K.env (exSysNetJob (exSysNetMeta p)) = .ok b!"10.0.0.1:6881" := by
    have hp' : p = 0 ∨ p = 1 := by omega
    rcases hp' with rfl | rfl <;> decide +kernel
  obtain ⟨j, -, h⟩ := C115_one_worker_to_disk (by decide) rfl F hone (i := N) (p := p) (by omega) (exSysNet_announce hp) hlast haddr (exSysNet_fed hp) 2 2 1 24 _
    (exSysNet_verdict hp) (by decide) rfl hno ⟨2, fun k hk job' hj' => absurd hj' (exSysNet_garbage (by omega) job')⟩
  exact ⟨j, h⟩

end P2P

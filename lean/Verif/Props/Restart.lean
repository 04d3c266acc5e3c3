import Verif.Props.Whole
/-! # C93: crash and restart

The crawler may be killed at any moment and started again, any number of times. -/
namespace P2P

theorem fs_untouched {jobs : Nat → Option (Bytes × Bytes)} {fs0 : Bytes → Option Bytes} {s : FsSt} (h : Reach (FsInit fs0) (FsStep jobs) s)
    {path : Bytes} (hn : ∀ j hash data, jobs j = some (hash, data) → path ≠ torrentPath hash) : s.fs path = fs0 path := by
  refine h.inv (fun s => s.fs path = fs0 path) (fun s h => by rw [h.1]) ?_
  intro s t a st
  cases st with
  | create j hash data x y => rw [← a]; exact upd_ne _ _ (hn j hash data x)
  | write j hash data c off n x y _ _ _ => rw [← a]; exact upd_ne _ _ (hn j hash data x)
  | createFails => exact a
  | finish => exact a
  | writeFails => exact a

/-- **C93** A file stays as a life of the crawler found it – truncated if it was truncated – unless a download of this very torrent delivers its
data in this life. In particular nothing is repaired at the start. -/
theorem C93_stays {fs0 : Bytes → Option Bytes} {l : List Session} {fs : Bytes → Option Bytes} (h : AfterSessions fs0 l fs) (path : Bytes)
    (hn : ∀ S ∈ l, ∀ p hash data, flushes S.out p = some (hash, data) → path ≠ torrentPath hash) : fs path = fs0 path := by
  induction h with
  | none => rfl
  | @more l fs S s h r ih =>
    rw [fs_untouched (C92_refines r).2 (hn S (by simp))]
    exact ih fun S hS => hn S (by simp [hS])

/-- The sessions of a crawler: each with its own packets, peers and buffers. -/
structure CrawlSession where
  K : KEnv
  O : Nat → Oracle
  fair : ∀ p, (O p).Fair
  pkts : Nat → RecvPacket
  conn : Nat → Bytes → PEnv
  fuel : Nat
  mem : Nat → Nat → Bytes
  pool : Nat → BPool
  dir : Bool
  W1 : Nat
  Q : Nat
  W2 : Nat

/-- the session with hash function `sha1` and peer id `peerId` -/
def CrawlSession.session (sha1 : Bytes → Bytes) (peerId : Bytes) (C : CrawlSession) : Session where
  tr := crawlTraces C.K C.O C.pkts
  out := crawlOut C.K C.O C.pkts C.conn sha1 C.fuel peerId C.mem C.pool
  dir := C.dir
  W1 := C.W1
  Q := C.Q
  W2 := C.W2

/-- **C93** After any number of crashes, at any moments, every file of the directory is as it was before the first start, or it is named after the
SHA-1 hash of data which, in one of the lives of the crawler, a download for an announce of this info hash has delivered, and it holds nothing but bytes of this
data at their places (or zeros). -/
theorem C93_files (sha1 : Bytes → Bytes) (peerId : Bytes) {fs0 : Bytes → Option Bytes} {cs : List CrawlSession} {fs : Bytes → Option Bytes}
    (h : AfterSessions fs0 (cs.map (CrawlSession.session sha1 peerId)) fs)
    (hsame : ∀ C ∈ cs, SameData (flushes (C.session sha1 peerId).out)) (path : Bytes) :
    fs path = fs0 path ∨
    ∃ C ∈ cs, ∃ p job infoHash name data c, IsAnnounce (C.pkts p) job ∧
      (asMap job.req.body).lookup b!"info_hash" = some (.str infoHash) ∧ infoHash.length = 20 ∧ IsHexOf name infoHash ∧
      path = b!"torrent/" ++ name ++ b!".torrent" ∧ sha1 data = infoHash ∧
      fs path = some c ∧ c.length ≤ data.length ∧ ∀ i : Nat, c[i]? = none ∨ c[i]? = some 0 ∨ c[i]? = data[i]? := by
  generalize hl : cs.map (CrawlSession.session sha1 peerId) = l at h
  induction h generalizing cs with
  | none => exact .inl rfl
  | @more l fs S s h r ih =>
    obtain ⟨cs', C, rfl⟩ : ∃ cs' C, cs = cs' ++ [C] := by
      rcases List.eq_nil_or_concat cs with rfl | ⟨a, b, rfl⟩
      · simp at hl
      · exact ⟨a, b, List.concat_eq_append⟩
    rw [List.map_append] at hl
    obtain ⟨h1, h2⟩ := List.append_inj' hl rfl
    simp only [List.map_cons, List.map_nil, List.cons.injEq, and_true] at h2
    subst h2
    rcases C92_files C.K C.fair C.pkts C.conn sha1 C.fuel peerId C.mem C.pool r (hsame C (by simp)) path with e |
      ⟨p, job, ih', rr, data, c, a1, a2, a3, a4, a5, a6, a7, a8, a9, a10, a11, a12, a13, a14⟩
    · rcases ih (cs := cs') (fun D hD => hsame D (by simp [hD])) h1 with e' | ⟨D, hD, p, job, ih', name, data, c, b1, b2, b3, b4, b5, b6, b7, b8⟩
      · exact .inl (e.trans e')
      · exact .inr ⟨D, by simp [hD], p, job, ih', name, data, c, b1, b2, b3, b4, b5, b6, by rw [e]; exact b7, b8⟩
    · exact .inr ⟨C, by simp, p, job, ih', rr.infoHash, data, c, a2, a3, a4, a9, a10, a11, a12, a13, a14⟩

/-- **C93** A life in which a download of the torrent has been written to the end, and in which none is being written or has failed, leaves the complete
file, whatever earlier lives have left. -/
theorem C93_repaired {fs0 : Bytes → Option Bytes} {tr : Nat → List Event} {out : Nat → HandlerOut} {dir : Bool} {W1 Q W2 : Nat} {s : CrSt}
    (h : CrReach tr out dir fs0 W1 Q W2 s) (hsame : SameData (flushes out)) {p : Nat} {hash data : Bytes}
    (hf : flushes out p = some (hash, data)) (hfin : p ∈ s.pl.p2.finished)
    (hq : ∀ k d, flushes out k = some (hash, d) → s.fs.pc k ≠ .failed ∧ (s.fs.pc k ≠ .start → k ∈ s.pl.p2.finished)) :
    s.fs.fs (torrentPath hash) = some data := by
  have I := cr_inv h
  have fin : ∀ k d, flushes out k = some (hash, d) → k ∈ s.pl.p2.finished → s.fs.pc k = .done := by
    intro k d hk hkf
    have hr := I.finished k hkf
    unfold HandlerReturns at hr
    have hk' := hk
    unfold flushes at hk'
    cases ho : out k <;> rw [ho] at hr hk' <;> first | exact hr.resolve_right (hq k d hk).1 | cases hk'
  refine C46_complete hsame (C92_refines h).2 p hash data hf (fin p data hf hfin) fun k d hk => ?_
  by_cases hs : s.fs.pc k = .start
  · exact .inl hs
  · exact .inr (fin k d hk ((hq k d hk).2 hs))

/-- a finished download was running before -/
theorem running_before {tr : Nat → List Event} {W1 Q W2 : Nat} {s : PlSt} (h : PlReach tr W1 Q W2 s) {p : Nat} (hp : p ∈ s.p2.finished) :
    ∃ (s' : PlSt) (i : Nat), PlReach tr W1 Q W2 s' ∧ s'.p2.workers[i]? = some (WPc.running p) ∧ s'.arrived ≤ s.arrived := by
  induction h with
  | @init s h => rw [h.2.2.2.2.2.2.2.1.2.2.2.2.2.2.2.2.2.2.2] at hp; cases hp
  | @step s t h st ih =>
    have mono : s.arrived ≤ t.arrived := by
      cases st with
      | arrive => exact Nat.le_succ _
      | _ => exact Nat.le_refl _
    have old : p ∈ s.p2.finished → ∃ (s' : PlSt) (i : Nat), PlReach tr W1 Q W2 s' ∧ s'.p2.workers[i]? = some (WPc.running p) ∧ s'.arrived ≤ t.arrived := by
      intro hp
      obtain ⟨s', i, a, b, c⟩ := ih hp
      exact ⟨s', i, a, b, Nat.le_trans c mono⟩
    cases st with
    | done2 i q hw =>
      rcases List.mem_append.1 hp with hp | hp
      · exact old hp
      · rw [List.mem_singleton.1 hp]; exact ⟨s, i, h, hw, Nat.le_refl _⟩
    | _ => exact old hp

/-- **C93** A crash can destroy a complete file: an announce of a torrent that is already on the disk is downloaded again, `os.Create` empties
the file, and a process killed at this moment leaves it empty. -/
theorem C93_crash_loses (K : KEnv) {O : Nat → Oracle} (hO : ∀ p, (O p).Fair) (pkts : Nat → RecvPacket) (conn : Nat → Bytes → PEnv)
    (sha1 : Bytes → Bytes) (fuel : Nat) (peerId : Bytes) (mem : Nat → Nat → Bytes) (pool : Nat → BPool) {W1 Q W2 : Nat} (hW1 : 1 ≤ W1) (hW2 : 1 ≤ W2)
    (hends : ∀ p, (crawlOut K O pkts conn sha1 fuel peerId mem pool p).Ends) {p : Nat} {hash data : Bytes}
    (hf : flushes (crawlOut K O pkts conn sha1 fuel peerId mem pool) p = some (hash, data)) (fs0 : Bytes → Option Bytes) :
    ∃ s, CrReach (crawlTraces K O pkts) (crawlOut K O pkts conn sha1 fuel peerId mem pool) true fs0 W1 Q W2 s ∧
      s.pl.arrived ≤ p + 1 ∧ s.fs.fs (torrentPath hash) = some [] := by
  obtain ⟨s, a, b, c⟩ := C62_all_done_reachable (Q := Q) hW1 hW2 (crawl_single K hO pkts) (p + 1)
  obtain ⟨job, hj, -⟩ := crawlOut_flush K hO pkts conn sha1 fuel peerId mem pool hf
  have hfin := ((C62_crawler_all_done K hO pkts hW1 hW2 a c).2 p (by omega)).2 ⟨job, hj⟩
  obtain ⟨s', i, h', hw, hle⟩ := running_before a hfin
  obtain ⟨fs, hr, -, hstart⟩ := whole_of_pipeline fs0 hends h'
  have hfl : (fun j => if j = p then flushes (crawlOut K O pkts conn sha1 fuel peerId mem pool) j else none) p = some (hash, data) := by
    simp [hf]
  have r1 := Reach.step hr (CrStep.file i p hw (.create p hash data hfl (hstart p (not_finished_of_running (pl_inv h').reach2 hw))) (fun h => nomatch h))
  exact ⟨_, r1, (by rw [← b]; exact hle), upd_same _ _ _⟩

/-! ## A concrete case -/

theorem exWholeOut_ends (p : Nat) : (exWholeOut p).Ends := by
  by_cases hp : p = 0
  · subst hp; rw [exWholeOut_zero]; trivial
  · rcases crawlTraces_spec exK (fun _ => exO_fair) exWholePkts p with ⟨job, b, f, hj, -⟩ | ⟨-, he⟩
    · exact absurd hj (exGarbage_noAnnounce hp job)
    · unfold exWholeOut crawlOut
      rw [he]; trivial

theorem exWhole_same : SameData (flushes exWholeOut) := by
  intro i j hash d d' hi hj
  have := exWholeOut_flush hi; subst this
  have := exWholeOut_flush hj; subst this
  exact (Prod.mk.inj (Option.some.inj (hi.symm.trans hj))).2

def exCrawlSession : CrawlSession where
  K := exK
  O := fun _ => exO
  fair := fun _ => exO_fair
  pkts := exWholePkts
  conn := fun _ _ => chunkEnv exChunks
  fuel := 10
  mem := fun _ _ => []
  pool := fun _ => exPool
  dir := true
  W1 := 1
  Q := 1
  W2 := 1

/-- Three lives: the first finds an empty directory and saves the torrent; the second, announced the same torrent, is killed when it has emptied the
file; the third saves it again. -/
theorem C93_example : ∃ fs1 fs2 fs3 : Bytes → Option Bytes,
    let S := exCrawlSession.session toyHash b!"cccccccccccccccccccc"
    let path := b!"torrent/6868686868686868686868686868686868686868.torrent"
    AfterSessions (fun _ => none) [S] fs1 ∧ fs1 path = some exMeta ∧
    AfterSessions (fun _ => none) [S, S] fs2 ∧ fs2 path = some [] ∧
    AfterSessions (fun _ => none) [S, S, S] fs3 ∧ fs3 path = some exMeta := by
  have hf : flushes exWholeOut 0 = some (b!"6868686868686868686868686868686868686868", exMeta) := by unfold flushes; rw [exWholeOut_zero]
  have save : ∀ fs : Bytes → Option Bytes, ∃ s, CrReach (crawlTraces exK (fun _ => exO) exWholePkts) exWholeOut true fs 1 1 1 s ∧
      s.fs.fs b!"torrent/6868686868686868686868686868686868686868.torrent" = some exMeta := by
    intro fs
    obtain ⟨s, a, b, c⟩ := C62_all_done_reachable (W1 := 1) (Q := 1) (W2 := 1) (by omega) (by omega)
      (crawl_single exK (fun _ => exO_fair) exWholePkts) 1
    have hfin := ((C62_crawler_all_done exK (fun _ => exO_fair) exWholePkts (by omega) (by omega) a c).2 0 (by omega)).2 ⟨_, exAnnounce_isAnnounce⟩
    obtain ⟨f, hr, hpc, -⟩ := whole_of_pipeline fs exWholeOut_ends a
    refine ⟨_, hr, C93_repaired hr exWhole_same hf hfin fun k d hk => ?_⟩
    have := exWholeOut_flush hk; subst this
    refine ⟨fun h => ?_, fun _ => hfin⟩
    rcases hpc 0 with h' | h' <;> simp only at h <;> rw [h'] at h <;> cases h
  obtain ⟨s1, r1, e1⟩ := save fun _ => none
  obtain ⟨s2, r2, -, e2⟩ := C93_crash_loses exK (fun _ => exO_fair) exWholePkts (fun _ _ => chunkEnv exChunks) toyHash 10 b!"cccccccccccccccccccc"
    (fun _ _ => []) (fun _ => exPool) (W1 := 1) (Q := 1) (W2 := 1) (by omega) (by omega) exWholeOut_ends hf s1.fs.fs
  obtain ⟨s3, r3, e3⟩ := save s2.fs.fs
  have a1 := AfterSessions.more (S := exCrawlSession.session toyHash b!"cccccccccccccccccccc") (.none (fs0 := fun _ => none)) r1
  have a2 := a1.more (S := exCrawlSession.session toyHash b!"cccccccccccccccccccc") r2
  have a3 := a2.more (S := exCrawlSession.session toyHash b!"cccccccccccccccccccc") r3
  exact ⟨_, _, _, a1, e1, a2, e2, a3, e3⟩

end P2P

import Verif.Spec.Lives
import Verif.Props.SystemLive
import Verif.Props.Restart
/-! # C103: the end of the program, and its next life -/
namespace P2P

section
variable {S : SysEnv} {port : Int} {fs0 : Bytes → Option Bytes} {s t : SysSt} {e : Nat → SysSt}

/-- what a step does to the process: nothing, or a step of `Model/Program` -/
theorem sys_pg_step (st : SysStep S s t) : t.pg = s.pg ∨ PgStep S.K s.pg t.pg := by
  cases st with
  | life _ a _ _ _ => exact .inr a
  | boot tr _ a _ _ => exact .inr a
  | read _ a _ => exact .inr a
  | deliver x _ a _ => exact .inr a
  | take x p q _ a _ _ _ => exact .inr a
  | _ => exact .inl rfl

/-- a step of the main goroutine is a step of the system -/
theorem sys_main (up : s.up) {pg : PgSt} (m : PgMain s.pg pg) : SysStep S s { s with pg := pg } := by
  cases m <;> exact .life up (.main up.1 (by first | exact .wake ‹_› ‹_› ‹_› | exact .store ‹_› | exact .runCleans ‹_› | exact .finished ‹_› ‹_› | exact .timeout ‹_› | exact .exit ‹_›)) rfl rfl rfl

/-- the process takes no step before it has ended, so it was alive all the time before -/
theorem run_up (r : Run (SysInit S port fs0) (SysStep S) e) {j : Nat} (hd : ¬ (e j).up) : ∀ m, j ≤ m → e m = e j := by
  intro m hm
  refine r.stays (fun s => s = e j) (fun k hk st => ?_) hm rfl
  rw [hk] at st
  exact absurd st (C101_ended hd _)

/-- **C103** A signal ends the program, whatever the network, the handlers, the downloads and the clean-up do and however many datagrams arrive: in every execution that does not forget the goroutine
that starts the program up and the main goroutine, once SIGINT or SIGTERM has arrived – at whatever moment – the process ends, and nothing happens afterwards. -/
theorem C103_signal_ends (r : Run (SysInit S port fs0) (SysStep S) e) (startup : WeaklyFair e (SysMoves S fun s => s.pg.st.pc))
    (main : WeaklyFair e (SysMoves S fun s => s.pg.main)) {k : Nat} (hs : 1 ≤ (e k).pg.signals) :
    ∃ j, k ≤ j ∧ ¬ (e j).up ∧ ∀ m, j ≤ m → e m = e j := by
  suffices H : ∃ j, k ≤ j ∧ ¬ (e j).up by
    obtain ⟨j, hj, hd⟩ := H
    exact ⟨j, hj, hd, run_up r hd⟩
  refine Classical.byContradiction fun hno => ?_
  have lives : ∀ j, k ≤ j → (e j).up := fun j hj => Classical.byContradiction fun h => hno ⟨j, hj, h⟩
  -- start-up comes to its end
  obtain ⟨L, hkL, hL⟩ : ∃ j, k ≤ j ∧ (e j).pg.st.pc = .listen := by
    refine eventually (fun i => (e i).pg.st.pc) (fun i => (e i).pg.st.pc.left) (fun i => (e i).pg.st.pc = .listen) k ?_ ?_
    · intro i _ hn
      right
      rcases r.next i with h | h
      · simp only [h]; exact ⟨Nat.le_refl _, fun h => absurd rfl h⟩
      · rcases (sys_pc (r.reach i) h).2 hn with h1 | h1
        · simp only [h1]; exact ⟨Nat.le_refl _, fun h => absurd rfl h⟩
        · exact ⟨Nat.le_of_lt h1, fun _ => h1⟩
    · intro i hi hn
      refine startup.moves (fun s => s.pg.st.pc) (fun s t h => h.2) i (fun i => (e i).pg.st.pc = .listen) ?_
      intro j hj hg _
      obtain ⟨t, ht, hlt, -⟩ := sys_boot (r.reach j) (lives j (by omega)) hg
      exact ⟨t, ht, fun heq => by
        have heq : t.pg.st.pc = (e j).pg.st.pc := heq
        rw [heq] at hlt; exact Nat.lt_irrefl _ hlt⟩
  have reg : ∀ i, L ≤ i → 1 ≤ (e i).pg.signals ∧ (e i).pg.st.pc.booted = true := by
    have hsig : 1 ≤ (e L).pg.signals := by
      refine r.stays (fun s => 1 ≤ s.pg.signals) ?_ hkL hs
      intro j hj st
      rcases sys_pg_step st with h | h
      · rw [h]; exact hj
      · generalize (e (j + 1)).pg = u at h
        cases h with
        | main _ m => cases m <;> exact hj
        | other _ m => cases m <;> first | exact hj | exact Nat.succ_le_succ (Nat.zero_le _)
    intro i hi
    refine r.stays (fun s => 1 ≤ s.pg.signals ∧ s.pg.st.pc.booted = true) ?_ hi ⟨hsig, by rw [hL]; rfl⟩
    intro j hj st
    rcases sys_pg_step st with h | h
    · rw [h]; exact hj
    · exact ((C83_one_signal_suffices (sys_program (r.reach j)) hj.1 hj.2).2.2.2.2 _ h).2
  obtain ⟨j, hj, b, hb⟩ : ∃ j, L ≤ j ∧ ∃ b, (e j).pg.main = .exited b := by
    refine eventually (fun i => (e i).pg.main) (fun i => (e i).pg.main.left) (fun i => ∃ b, (e i).pg.main = .exited b) L ?_ ?_
    · intro i hi _
      right
      obtain ⟨-, -, -, hdec, hle⟩ := C83_one_signal_suffices (sys_program (r.reach i)) (reg i hi).1 (reg i hi).2
      have same : (e (i + 1)).pg = (e i).pg → (e (i + 1)).pg.main.left ≤ (e i).pg.main.left ∧
          ((e (i + 1)).pg.main ≠ (e i).pg.main → (e (i + 1)).pg.main.left < (e i).pg.main.left) := by
        intro h; rw [h]; exact ⟨Nat.le_refl _, fun h => absurd rfl h⟩
      rcases r.next i with h | h
      · exact same (by rw [h])
      · rcases sys_pg_step h with h | h
        · exact same h
        · refine ⟨(hle _ h).1, fun hne => ?_⟩
          generalize (e (i + 1)).pg = t at h hne
          cases h with
          | main ha m => exact hdec _ m
          | other ha o => exfalso; cases o <;> exact hne rfl
    · intro i hi _
      refine main.moves (fun s => s.pg.main) (fun s t h => h.2) i _ ?_
      intro j hj _ _
      obtain ⟨-, -, hen, hdec, -⟩ := C83_one_signal_suffices (sys_program (r.reach j)) (reg j (by omega)).1 (reg j (by omega)).2
      obtain ⟨t, ht⟩ := hen (lives j (by omega)).1
      refine ⟨_, sys_main (lives j (by omega)) ht, fun h => ?_⟩
      have h : t.main = (e j).pg.main := h
      have := hdec t ht
      rw [h] at this; omega
  exact (lives j (by omega)).1.2.2 b hb

/-- **C103** The program can be ended at any moment after the bootstrap, by one signal and in at most six steps, none of which does anything for the packets, the downloads or the files: nothing that goes on is waited for. -/
theorem C103_ends_anytime (h : SysReach S port fs0 s) (up : s.up) (hb : s.pg.st.pc.booted = true) :
    ∃ t, Reach (· = s) (SysStep S) t ∧ (∃ b, t.pg.main = .exited b) ∧ ¬ t.up ∧ t.pl = s.pl ∧ t.fs = s.fs ∧ t.w = s.w ∧ t.pg.got = s.pg.got := by
  have key : ∀ n (u : SysSt), u.pg.main.left ≤ n → SysReach S port fs0 u → Reach (· = s) (SysStep S) u → u.up → u.pg.st.pc.booted = true → 1 ≤ u.pg.signals →
      u.pl = s.pl → u.fs = s.fs → u.w = s.w → u.pg.got = s.pg.got →
      ∃ t, Reach (· = s) (SysStep S) t ∧ (∃ b, t.pg.main = .exited b) ∧ ¬ t.up ∧ t.pl = s.pl ∧ t.fs = s.fs ∧ t.w = s.w ∧ t.pg.got = s.pg.got := by
    intro n
    induction n with
    | zero =>
      intro u hn hr _ hu hb hs _ _ _ _
      obtain ⟨b, hb⟩ := (C83_one_signal_suffices (sys_program hr) hs hb).2.1.1 (Nat.le_zero.1 hn)
      exact absurd hb (hu.1.2.2 b)
    | succ n ih =>
      intro u hn hr hrs hu hb hs e1 e2 e3 e4
      obtain ⟨-, -, hen, hdec, hle⟩ := C83_one_signal_suffices (sys_program hr) hs hb
      obtain ⟨pg, m⟩ := hen hu.1
      have st := sys_main (S := S) hu m
      obtain ⟨-, hs', hb'⟩ := hle pg (.main hu.1 m)
      have hgot : pg.got = u.pg.got := by cases m <;> rfl
      by_cases hx : ∃ b, pg.main = .exited b
      · obtain ⟨b, hx⟩ := hx
        exact ⟨_, .step hrs st, ⟨b, hx⟩, fun h => h.1.2.2 b hx, e1, e2, e3, hgot.trans e4⟩
      · have hlt := hdec pg m
        refine ih _ (show pg.main.left ≤ n by omega) (.step hr st) (.step hrs st) ⟨⟨?_, ?_, fun b h => hx ⟨b, h⟩⟩, hu.2⟩ hb' hs' e1 e2 e3 (hgot.trans e4)
        · show pg.killed = false
          have : pg.killed = u.pg.killed := by cases m <;> rfl
          rw [this]; exact hu.1.1
        · show pg.st.pc ≠ .dead
          intro hd; rw [hd] at hb'; cases hb'
  have st : SysStep S s { s with pg := { s.pg with sig := true, signals := s.pg.signals + 1 } } := .life up (.other up.1 .signal) rfl rfl rfl
  exact key _ _ (Nat.le_refl _) (.step h st) (.step (.init rfl) st) ⟨⟨up.1.1, up.1.2.1, up.1.2.2⟩, up.2⟩ hb (Nat.succ_le_succ (Nat.zero_le _)) rfl rfl rfl rfl

/-! ## The files over many lives -/

/-- **C103** After any number of lives of the program, each ended at any moment and in any way, every file is as it was before the first start, or comes from a datagram read from the socket in one of the lives: an announce_peer query; the file is
named after the announced info hash, and holds nothing but bytes, at their places, of data with this SHA-1 hash that the announcing peer has delivered, or zeros. -/
theorem C103_files {l : List Life} {fs : Bytes → Option Bytes} (h : Lives fs0 l fs) (hone : ∀ L ∈ l, L.S.OneDataPerHash) (path : Bytes) :
    fs path = fs0 path ∨
    ∃ L ∈ l, ∃ p job infoHash name data c, L.s.pg.got[p]? = some (L.S.pkts p) ∧ IsAnnounce (L.S.pkts p) job ∧
      (asMap job.req.body).lookup b!"info_hash" = some (.str infoHash) ∧ infoHash.length = 20 ∧ IsHexOf name infoHash ∧
      path = b!"torrent/" ++ name ++ b!".torrent" ∧ sha1Sum data = infoHash ∧
      fs path = some c ∧ c.length ≤ data.length ∧ ∀ i : Nat, c[i]? = none ∨ c[i]? = some 0 ∨ c[i]? = data[i]? := by
  induction h with
  | none => exact .inl rfl
  | @more l fs L h r ih =>
    rcases C101_files r (hone L (by simp)) path with e | ⟨p, job, ih', rr, data, c, a1, a2, a3, a4, a5, a6, a7, a8, a9, a10, a11, a12, a13, a14⟩
    · rcases ih fun L hL => hone L (by simp [hL]) with e' | ⟨L', hL', p, job, ih', name, data, c, b1, b2, b3, b4, b5, b6, b7, b8, b9⟩
      · exact .inl (e.trans e')
      · exact .inr ⟨L', by simp [hL'], p, job, ih', name, data, c, b1, b2, b3, b4, b5, b6, b7, by rw [e]; exact b8, b9⟩
    · exact .inr ⟨L, by simp, p, job, ih', rr.infoHash, data, c, a1, a3, a4, a5, a10, a11, a12, a13, a14⟩

/-- **C103** A file stays as a life found it – truncated if it was truncated: nothing is repaired at the start – unless in this life an announce of this very info hash has been read. -/
theorem C103_stays {l : List Life} {fs : Bytes → Option Bytes} (h : Lives fs0 l fs) (hone : ∀ L ∈ l, L.S.OneDataPerHash) {name infoHash : Bytes} (hhex : IsHexOf name infoHash)
    (hn : ∀ L ∈ l, ∀ (p : Nat) job, L.s.pg.got[p]? = some (L.S.pkts p) → IsAnnounce (L.S.pkts p) job → (asMap job.req.body).lookup b!"info_hash" ≠ some (.str infoHash)) :
    fs (b!"torrent/" ++ name ++ b!".torrent") = fs0 (b!"torrent/" ++ name ++ b!".torrent") := by
  rcases C103_files h hone (b!"torrent/" ++ name ++ b!".torrent") with e | ⟨L, hL, p, job, ih', name', data, c, b1, b2, b3, b4, b5, b6, -⟩
  · exact e
  · exfalso
    have : name = name' := List.append_cancel_left (List.append_cancel_right b6)
    subst this
    have := hhex.unique b5
    subst this
    exact hn L hL p job b1 b2 b3

/-- **C103** Whatever earlier lives have left: once in this life the download for an announce has ended, no call of the file system has failed, and no other download of this torrent is under way, the file is complete. -/
theorem C103_repaired (h : SysReach S port fs0 s) (hone : S.OneDataPerHash) {p : Nat} {job : Job} (hj : IsAnnounce (S.pkts p) job) {infoHash laddr md : Bytes} {st : PSt}
    (hih : (asMap job.req.body).lookup b!"info_hash" = some (.str infoHash)) (haddr : parseFetchAddr S.K.env job = .ok laddr)
    (hfetch : FetchMetaData (S.conn p laddr) sha1Sum S.K.env.fold S.fuel LocalPeerId infoHash (S.mem p) (S.pool p) = .returned (some md) none st)
    (hfin : p ∈ s.pl.p2.finished) (nofail : ∀ k, s.fs.pc k ≠ .failed)
    (quiet : ∀ (i q : Nat) job', s.pl.p2.workers[i]? = some (.running q) → IsAnnounce (S.pkts q) job' → (asMap job'.req.body).lookup b!"info_hash" ≠ some (.str infoHash))
    {hex : Bytes} (hhex : IsHexOf hex infoHash) : s.fs.fs (b!"torrent/" ++ hex ++ b!".torrent") = some md := by
  have hx : hex = hexEncode infoHash := hhex.unique_hex (hexEncode_isHexOf infoHash)
  subst hx
  obtain ⟨O, hO, hc⟩ := sys_crawler h
  have hout : fetchHandler S.K.env (S.conn p) sha1Sum S.fuel LocalPeerId (S.mem p) (S.pool p) job = .flush (hexEncode infoHash) md := by
    unfold fetchHandler
    simp only [Dict.GetString, Dict.GetVal, dictGet, hih, Res.bind_ok, GoVal.asStr, haddr, Res.pure_eq, hfetch]
    simp
  have hf : flushes (S.out O) p = some (hexEncode infoHash, md) := by
    unfold flushes SysEnv.out
    rw [crawlOut_announce S.K hO S.pkts S.conn sha1Sum S.fuel LocalPeerId S.mem S.pool hj, hout]
  refine C93_repaired hc (hone.same hO) hf hfin fun k d hk => ⟨nofail k, fun hne => ?_⟩
  refine Classical.byContradiction fun hnf => ?_
  have hst : k ∈ s.pl.p2.started := (cr_inv hc).started k hne
  have hpl := (C92_refines hc).1
  have hperm := (C48_fifo_once (pl_inv hpl).reach2).2.2.2.1
  rcases List.mem_append.1 (hperm.mem_iff.1 hst) with hm | hm
  · exact hnf hm
  · obtain ⟨job', hj', hfl⟩ := crawlOut_flush S.K hO S.pkts S.conn sha1Sum S.fuel LocalPeerId S.mem S.pool hk
    obtain ⟨ih', b1, b2, b3, b4⟩ := C46_flush _ _ _ _ _ _ _ _ _ _ hfl
    have := b3.unique (hexEncode_isHexOf infoHash)
    subst this
    obtain ⟨w, hw, he⟩ := List.mem_filterMap.1 hm
    obtain ⟨i, hi⟩ := List.getElem?_of_mem hw
    refine quiet i k job' ?_ hj' b1
    show s.pl.p2.workers[i]? = _
    rw [show s.pl.p2.workers[i]? = some w from hi]
    cases w <;> first | rfl | (cases he; done) | (injection he with he; rw [he])

/-- before the file of packet `p` was written it was emptied -/
theorem sys_emptied {O : Nat → Oracle} (hO : ∀ p, (O p).Fair) (h : SysReach S port fs0 s) {p : Nat} {hash data : Bytes} (hf : flushes (S.out O) p = some (hash, data))
    (hp : (∃ off, s.fs.pc p = .writing off) ∨ s.fs.pc p = .done) :
    ∃ t, SysReach S port fs0 t ∧ t.up ∧ t.pg.st.pc = .listen ∧ t.pg.got.length ≤ s.pg.got.length ∧ t.fs.fs (torrentPath hash) = some [] := by
  induction h with
  | init h => rw [h.2.2.1.2.1 p] at hp; rcases hp with ⟨off, hp⟩ | hp <;> cases hp
  | @step s t h st ih =>
    have mono : s.pg.got.length ≤ t.pg.got.length := by
      rcases sys_pg_step st with e | e
      · rw [e]; exact Nat.le_refl _
      · cases pgKind e with
        | read p a _ _ _ _ _ => rw [a]; simp
        | quiet a _ _ _ _ => rw [a]; exact Nat.le_refl _
        | boot tr a _ _ _ _ _ => rw [a]; exact Nat.le_refl _
        | deliver p _ a _ _ _ _ _ => rw [a]; exact Nat.le_refl _
        | take p r a _ _ _ _ _ => rw [a]; exact Nat.le_refl _
    have old : (∃ off, s.fs.pc p = .writing off) ∨ s.fs.pc p = .done →
        ∃ u, SysReach S port fs0 u ∧ u.up ∧ u.pg.st.pc = .listen ∧ u.pg.got.length ≤ t.pg.got.length ∧ u.fs.fs (torrentPath hash) = some [] := by
      intro hp
      obtain ⟨u, a, b, c, d, e⟩ := ih hp
      exact ⟨u, a, b, c, Nat.le_trans d mono, e⟩
    have st0 := st
    cases st with
    | file i q up hw fst hdir =>
      obtain ⟨O', hO', hc⟩ := sys_crawler h
      have ho : s.outs S q = S.out O q := by rw [outs_eq S hO' (C92_refines hc).1 hw]; exact congrFun (S.out_same hO' hO) q
      have hl : s.pg.st.pc = .listen := by
        refine Classical.byContradiction fun hn => ?_
        have h1 := (C101_bootstrap_first h hn).2.2.1
        have h2 := started_of_running (pl_inv (C92_refines hc).1).reach2 hw
        rw [show (CrSt.mk s.pl s.fs).pl.p2.started = [] from h1] at h2
        cases h2
      have other : ∀ {j : Nat} {x : JobPc}, ((∃ off, upd s.fs.pc j x p = .writing off) ∨ upd s.fs.pc j x p = .done) → j ≠ p →
          (∃ off, s.fs.pc p = .writing off) ∨ s.fs.pc p = .done := by
        intro j x hx hj
        rw [upd_ne _ _ (Ne.symm hj)] at hx
        exact hx
      cases fst with
      | create j hash' data' hj hs =>
        by_cases hjp : j = p
        · subst hjp
          have hjq : j = q := by
            refine Classical.byContradiction fun hne => ?_
            rw [if_neg hne] at hj; cases hj
          subst hjq
          rw [if_pos rfl] at hj
          have : some (hash', data') = some (hash, data) := by
            rw [← hj, ← hf]; unfold flushes; rw [ho]
          cases this
          exact ⟨_, .step h st0, up, hl, Nat.le_refl _, upd_same _ _ _⟩
        · exact old (other hp hjp)
      | createFails j hash' data' hj hs =>
        by_cases hjp : j = p
        · subst hjp; simp only [upd_same] at hp; rcases hp with ⟨off, hp⟩ | hp <;> cases hp
        · exact old (other hp hjp)
      | write j hash' data' c off n hj hs _ _ _ =>
        by_cases hjp : j = p
        · subst hjp; exact old (.inl ⟨_, hs⟩)
        · exact old (other hp hjp)
      | finish j hash' data' off hj hs _ =>
        by_cases hjp : j = p
        · subst hjp; exact old (.inl ⟨_, hs⟩)
        · exact old (other hp hjp)
      | writeFails j hash' data' off hj hs =>
        by_cases hjp : j = p
        · subst hjp; exact old (.inl ⟨_, hs⟩)
        · exact old (other hp hjp)
    | _ => exact old hp

/-- **C103** Ending the program can destroy a complete file: whatever is on the disk, an announce of a torrent leads to a moment at which the file is empty although the peer delivers; and **even an orderly end by a signal** at this moment
leaves it empty – `Wait4Shutdown` does not wait for downloads. -/
theorem C103_end_loses (hW1 : 1 ≤ S.W1) (hW2 : 1 ≤ S.W2) {t0 : RouteTable} (h0 : initialTable port = .ok t0) (hh : ∀ a ∈ S.hosts, a ≠ none) (hd : S.dir = true)
    (hends : S.Ends) {p : Nat} {job : Job} (hj : IsAnnounce (S.pkts p) job) {infoHash laddr md : Bytes} {st : PSt}
    (hih : (asMap job.req.body).lookup b!"info_hash" = some (.str infoHash)) (haddr : parseFetchAddr S.K.env job = .ok laddr)
    (hfetch : FetchMetaData (S.conn p laddr) sha1Sum S.K.env.fold S.fuel LocalPeerId infoHash (S.mem p) (S.pool p) = .returned (some md) none st)
    {hex : Bytes} (hhex : IsHexOf hex infoHash) (fs0 : Bytes → Option Bytes) :
    ∃ s, SysReach S port fs0 s ∧ s.pg.got.length ≤ p + 1 ∧ (∃ b, s.pg.main = .exited b) ∧ s.fs.fs (b!"torrent/" ++ hex ++ b!".torrent") = some [] := by
  have hx : hex = hexEncode infoHash := hhex.unique_hex (hexEncode_isHexOf infoHash)
  subst hx
  have hout : fetchHandler S.K.env (S.conn p) sha1Sum S.fuel LocalPeerId (S.mem p) (S.pool p) job = .flush (hexEncode infoHash) md := by
    unfold fetchHandler
    simp only [Dict.GetString, Dict.GetVal, dictGet, hih, Res.bind_ok, GoVal.asStr, haddr, Res.pure_eq, hfetch]
    simp
  obtain ⟨s, O, hs, h1, h2, hO, hc, hq⟩ := calm_runs (fs0 := fs0) hW1 hW2 h0 hh hd hends (p + 1)
  have hf : flushes (S.out O) p = some (hexEncode infoHash, md) := by
    unfold flushes SysEnv.out
    rw [crawlOut_announce S.K hO S.pkts S.conn sha1Sum S.fuel LocalPeerId S.mem S.pool hj, hout]
  have hfin : p ∈ s.pl.p2.finished :=
    ((C62_crawler_all_done S.K hO S.pkts hW1 hW2 (C92_refines hc).1 hq).2 p (by rw [show (CrSt.mk s.pl s.fs).pl.arrived = p + 1 from h2]; omega)).2 ⟨job, hj⟩
  have hdone : s.fs.pc p = .done := by
    have hr := (cr_inv hc).finished p hfin
    unfold HandlerReturns at hr
    have ho : S.out O p = .flush (hexEncode infoHash) md := by
      unfold SysEnv.out
      rw [crawlOut_announce S.K hO S.pkts S.conn sha1Sum S.fuel LocalPeerId S.mem S.pool hj, hout]
    rw [ho] at hr
    rcases hs.pc p with h | h
    · rcases hr with hr | hr <;> rw [show s.fs.pc p = _ from hr] at h <;> cases h
    · exact h
  obtain ⟨t, a1, a2, a3, a4, a5⟩ := sys_emptied hO hs.reach hf (.inr hdone)
  obtain ⟨u, b1, b2, b3, b4, b5, b6, b7⟩ := C103_ends_anytime a1 a2 (by rw [a3]; rfl)
  exact ⟨u, reach_trans a1 b1, by rw [b7, ← h1]; exact a4, b2, by rw [b5]; exact a5⟩

/-! ## What two lives have in common -/

theorem boot_first (h : SysReach S port fs0 s) {k : Nat} {tr : List Event} (hk : s.pg.st.boots[k]? = some tr) :
    ∃ a ret, S.hosts[k]? = some a ∧ BootRun S.K.nodeId a tr ret := by
  obtain ⟨a, O, ha, hO, ht⟩ := (pg_boots (sys_program h)).1 k tr hk
  obtain ⟨tr', ret, h1, h2, h3⟩ := C63_bootstrap S.K hO a
  have : tr' = tr := by
    unfold Activity.trace at ht
    cases ret with
    | true => simp only [h2 rfl] at ht; injection ht
    | false => obtain ⟨p, hp⟩ := h3 rfl; simp only [hp] at ht; injection ht
  subst this
  exact ⟨a, ret, ha, h1⟩

theorem sys_ids (h : SysReach S port fs0 s) :
    (∀ (k : Nat) tr, s.pg.st.boots[k]? = some tr → ∃ rest, tr = .nextTx (.ofNat (1001 + k)) :: rest) ∧
    ((∃ l, s.pg.st.pc = .boot l) → s.w.txId = .ofNat (1000 + s.pg.st.boots.length)) := by
  induction h with
  | @init s h =>
    have hb : s.pg.st.boots = [] := by rw [show s.pg.st = _ from h.1.1]
    refine ⟨fun k tr hk => by (rw [hb] at hk; cases hk), fun _ => ?_⟩
    rw [hb, h.2.2.2.2.2.1]; rfl
  | @step s t h st ih =>
    obtain ⟨i1, i2⟩ := ih
    have back : ∀ {pg : PgSt}, PgStep S.K s.pg pg → (∃ l, pg.st.pc = .boot l) → ∃ l, s.pg.st.pc = .boot l := by
      intro pg a ⟨l, hl⟩
      cases a with
      | main _ m => cases m <;> exact ⟨l, hl⟩
      | other _ m =>
        cases m with
        | startup sm =>
          cases sm with
          | bootOk a _ _ => exact ⟨_, a⟩
          | bootPanic a _ _ => exact ⟨_, a⟩
          | run a => exact ⟨_, a⟩
          | take _ _ => exact ⟨l, hl⟩
          | _ => cases hl
        | _ => exact ⟨l, hl⟩
    have same : ∀ {pg : PgSt}, PgStep S.K s.pg pg → pg.st.boots = s.pg.st.boots →
        (∀ (k : Nat) tr, pg.st.boots[k]? = some tr → ∃ rest, tr = .nextTx (.ofNat (1001 + k)) :: rest) ∧ ((∃ l, pg.st.pc = .boot l) → s.w.txId = .ofNat (1000 + pg.st.boots.length)) := by
      intro pg a hb
      rw [hb]; exact ⟨i1, fun hl => i2 (back a hl)⟩
    have other : ∀ {pg : PgSt}, PgStep S.K s.pg pg → (pg.got ≠ s.pg.got ∨ pg.st.arrived ≠ s.pg.st.arrived ∨ pg.st.taken ≠ s.pg.st.taken) → pg.st.boots = s.pg.st.boots := by
      intro pg a hne
      cases pgKind a with
      | boot tr a _ _ b c _ => rcases hne with h | h | h <;> contradiction
      | quiet _ a _ _ _ => exact a
      | read _ _ a _ _ _ _ => exact a
      | deliver _ _ _ a _ _ _ _ => exact a
      | take _ _ _ a _ _ _ _ => exact a
    have st0 := st
    cases st with
    | life _ a _ hb _ => exact same a hb
    | read _ a c => exact same a (other a (.inl (by rw [c]; exact fun h => snoc_ne h.symm)))
    | deliver x _ a c => exact same a (other a (.inr (.inl (by rw [c]; exact fun h => snoc_ne h.symm))))
    | take x p q _ a c _ _ => exact same a (other a (.inr (.inr (by rw [c]; exact fun h => snoc_ne h.symm))))
    | @boot pg w tr _ a hb hw =>
      have hbt : ∃ l, s.pg.st.pc = .boot l := by
        cases pgKind a with
        | boot _ _ _ _ _ _ c => exact c
        | quiet _ a _ _ _ => rw [hb] at a; exact (snoc_ne a.symm).elim
        | read _ _ a _ _ _ _ => rw [hb] at a; exact (snoc_ne a.symm).elim
        | deliver _ _ _ a _ _ _ _ => rw [hb] at a; exact (snoc_ne a.symm).elim
        | take _ _ _ a _ _ _ _ => rw [hb] at a; exact (snoc_ne a.symm).elim
      have htx := i2 hbt
      obtain ⟨x, ret, -, hrun⟩ := boot_first (.step h st0) (k := s.pg.st.boots.length) (tr := tr) (by simp [hb])
      have next : (UInt16.ofNat (1000 + s.pg.st.boots.length)) + 1 = .ofNat (1001 + s.pg.st.boots.length) := by
        rw [show 1001 + s.pg.st.boots.length = (1000 + s.pg.st.boots.length) + 1 by omega]
        exact (UInt16.ofNat_add (1000 + s.pg.st.boots.length) 1).symm
      obtain ⟨hv, hw2⟩ : (∃ rest, tr = .nextTx (.ofNat (1001 + s.pg.st.boots.length)) :: rest) ∧ w.txId = .ofNat (1001 + s.pg.st.boots.length) := by
        cases hrun with
        | unresolved v =>
          simp only [World.replay, World.apply] at hw
          by_cases hv : v = s.w.txId + 1
          · rw [if_pos hv] at hw
            cases hw
            rw [htx, next] at hv
            subst hv
            exact ⟨⟨_, rfl⟩, rfl⟩
          · rw [if_neg hv] at hw; cases hw
        | contacted to v b failed _ =>
          simp only [World.replay, World.apply] at hw
          by_cases hv : v = s.w.txId + 1
          · rw [if_pos hv] at hw
            cases hw
            rw [htx, next] at hv
            subst hv
            exact ⟨⟨_, rfl⟩, rfl⟩
          · rw [if_neg hv] at hw; cases hw
      refine ⟨fun k tr' hk => ?_, fun _ => ?_⟩
      · have hk : pg.st.boots[k]? = some tr' := hk
        rw [hb] at hk
        by_cases hlt : k < s.pg.st.boots.length
        · rw [List.getElem?_append_left hlt] at hk; exact i1 k tr' hk
        · have hke : k = s.pg.st.boots.length := by
            have := (List.getElem?_eq_some_iff.1 hk).1
            simp only [List.length_append, List.length_cons, List.length_nil] at this
            omega
          subst hke
          simp only [List.getElem?_concat_length, Option.some.injEq] at hk
          rw [← hk]; exact hv
      · show w.txId = .ofNat (1000 + pg.st.boots.length)
        rw [hw2, hb, List.length_append]
        congr 1
        show 1001 + s.pg.st.boots.length = 1000 + (s.pg.st.boots.length + 1)
        omega
    | @pipe pl w tr new _ _ _ _ _ _ hlog hrep _ _ =>
      refine ⟨i1, fun ⟨l, hl⟩ => ?_⟩
      have hnl : s.pg.st.pc ≠ .listen := by intro h; have hl : s.pg.st.pc = .boot l := hl; rw [h] at hl; cases hl
      have e1 := (C101_bootstrap_first h hnl).1
      have e2 : pl.log = [] := (C101_bootstrap_first (.step h st0) hnl).1
      rw [e1, e2] at hlog
      have : new = [] := by simpa using hlog.symm
      subst this
      simp only [List.map_nil, World.replay, Option.some.injEq] at hrep
      show w.txId = _
      rw [← hrep]; exact i2 ⟨l, hl⟩
    | file i p _ _ _ _ => exact ⟨i1, i2⟩
    | back i p _ _ _ => exact ⟨i1, i2⟩
    | fatal i p _ _ _ => exact ⟨i1, i2⟩

/-- **C103** Transaction ids are the same in every life: the query to the `k`-th bootstrap host always has the id that stands for `1001 + k` (modulo 65536). So a response to a query of an earlier life is taken for a response to the query of this one (the
sender is not compared, C31). -/
theorem C103_same_ids (h : SysReach S port fs0 s) {k : Nat} {tr : List Event} (hk : s.pg.st.boots[k]? = some tr) {to : UDPAddr} {b : Bytes} {f : Bool} (hs : Event.send to b f ∈ tr) :
    EncodingOf (.dict (queryDict (txIdText (.ofNat (1001 + k))) b!"find_node" [(b!"id", .str S.K.nodeId), (b!"target", .str S.K.nodeId)])) b := by
  obtain ⟨rest, hr⟩ := (sys_ids h).1 k tr hk
  obtain ⟨a, ret, -, hrun⟩ := boot_first h hk
  cases hrun with
  | unresolved v => simp at hs
  | contacted a v b' failed he =>
    simp only [List.cons.injEq, Event.nextTx.injEq] at hr
    simp at hs
    rw [hs.2.1, ← hr.1]
    exact he

end

/-! ## A concrete case -/

theorem exSys_ends : exSys.Ends := by
  intro p job hj
  obtain ⟨rfl, rfl⟩ := exSys_zero hj
  show (fetchHandler exK.env (fun _ => chunkEnv exChunks) sha1Sum 10 LocalPeerId (fun _ => []) exPool exSysJob).Ends
  rw [exSys_out]; trivial

theorem exSys_one : exSys.OneDataPerHash := by
  intro p q job job' hash d d' h1 h2 h3 h4
  obtain ⟨rfl, rfl⟩ := exSys_zero h1
  obtain ⟨rfl, rfl⟩ := exSys_zero h2
  rw [h3] at h4; cases h4; rfl

/-- a life of the example that saves the torrent -/
theorem exSys_saves (fs : Bytes → Option Bytes) : ∃ s, SysReach exSys 21000 fs s ∧ s.fs.fs (b!"torrent/" ++ hexEncode (sha1Sum exMeta) ++ b!".torrent") = some exMeta := by
  obtain ⟨e, N, F, hN, hno⟩ := C102_fair_runs (S := exSys) (port := 21000) (fs0 := fs) (by decide) (by decide) realH_history.1 (by simp [exSys]) rfl exSys_ends 1
  obtain ⟨st, hst⟩ := exSys_fetch
  obtain ⟨j, -, hj⟩ := C102_announced (by decide) F exSys_one (i := N) (p := 0) (by omega) exSys_announce (infoHash := sha1Sum exMeta) (laddr := b!"10.0.0.1:6881")
    (md := exMeta) (st := st) rfl (by decide +kernel) hst hno ⟨1, fun k hk job' hj' => absurd hj' (exSys_garbage (by omega) job')⟩ (hexEncode_isHexOf _)
  exact ⟨e j, F.reach j, hj j (Nat.le_refl j)⟩

/-- Non-vacuity: three lives of the whole program. The first finds an empty directory and saves the torrent; the second, announced the same torrent, is ended by a signal, in good order, when it has emptied the file; the third saves it again. -/
theorem C103_example : ∃ s1 s2 s3 : SysSt, let path := b!"torrent/" ++ hexEncode (sha1Sum exMeta) ++ b!".torrent"
    Lives (fun _ => none) [⟨exSys, 21000, s1⟩, ⟨exSys, 21000, s2⟩, ⟨exSys, 21000, s3⟩] s3.fs.fs ∧
    s1.fs.fs path = some exMeta ∧ s2.fs.fs path = some [] ∧ (∃ b, s2.pg.main = .exited b) ∧ s3.fs.fs path = some exMeta := by
  obtain ⟨st, hst⟩ := exSys_fetch
  obtain ⟨s1, r1, e1⟩ := exSys_saves fun _ => none
  obtain ⟨s2, r2, -, x2, e2⟩ := C103_end_loses (S := exSys) (port := 21000) (by decide) (by decide) realH_history.1 (by simp [exSys]) rfl exSys_ends exSys_announce (infoHash := sha1Sum exMeta)
    (laddr := b!"10.0.0.1:6881") (md := exMeta) (st := st) rfl (by decide +kernel) hst (hexEncode_isHexOf _) s1.fs.fs
  obtain ⟨s3, r3, e3⟩ := exSys_saves s2.fs.fs
  exact ⟨s1, s2, s3, .more (L := ⟨exSys, 21000, s3⟩) (.more (L := ⟨exSys, 21000, s2⟩) (.more (L := ⟨exSys, 21000, s1⟩) .none r1) r2) r3, e1, e2, x2, e3⟩

/-- Non-vacuity of `C103_signal_ends`: an execution in which a signal arrives (while a file is being written). -/
example : ∃ e N, Run (SysInit exSys 21000 fun _ => none) (SysStep exSys) e ∧ WeaklyFair e (SysMoves exSys fun s => s.pg.st.pc) ∧ WeaklyFair e (SysMoves exSys fun s => s.pg.main) ∧
    1 ≤ (e N).pg.signals ∧ (e N).fs.fs (b!"torrent/" ++ hexEncode (sha1Sum exMeta) ++ b!".torrent") = some [] := by
  obtain ⟨st, hst⟩ := exSys_fetch
  obtain ⟨s, r, -, ⟨b, x⟩, e2⟩ := C103_end_loses (S := exSys) (port := 21000) (by decide) (by decide) realH_history.1 (by simp [exSys]) rfl exSys_ends exSys_announce (infoHash := sha1Sum exMeta)
    (laddr := b!"10.0.0.1:6881") (md := exMeta) (st := st) rfl (by decide +kernel) hst (hexEncode_isHexOf _) fun _ => none
  obtain ⟨e, N, hr, hN⟩ := run_of_reach r
  have dead : ¬ s.up := fun h => h.1.2.2 b x
  have weak : ∀ A : SysSt → SysSt → Prop, (∀ t, ¬ A s t) → WeaklyFair e A := by
    intro A hA i hi
    obtain ⟨t, ht⟩ := hi (N + i) (by omega)
    rw [hN _ (by omega)] at ht
    exact absurd ht (hA t)
  refine ⟨e, N, hr, weak _ fun t h => C101_ended dead t h.1, weak _ fun t h => C101_ended dead t h.1, ?_, ?_⟩
  · rw [hN N (Nat.le_refl N)]; exact (C83_needs_signal (sys_program r) x).1
  · rw [hN N (Nat.le_refl N)]; exact e2

/-- Non-vacuity of `C103_same_ids`: a query to the bootstrap host -/
example : ∃ s tr to b f, SysReach exSys 21000 (fun _ => none) s ∧ s.pg.st.boots[0]? = some tr ∧ Event.send to b f ∈ tr := by
  obtain ⟨s, hs, -⟩ := sys_listens (S := exSys) (port := 21000) (fs0 := fun _ => none) realH_history.1 (by simp [exSys])
  have hb : BootSeq exK.nodeId [some peerAddr] s.pg.st.boots := by
    have := (stReach_inv (C83_startup (sys_program hs.reach))).2.2.2
    rw [hs.listen] at this
    exact this.1
  generalize hh : [some peerAddr] = hosts at hb
  generalize he : s.pg.st.boots = boots at hb
  cases hb with
  | nil => cases hh
  | @snoc hs' trs h tr h1 h2 =>
    obtain ⟨e1, e2⟩ := List.append_inj' (s₁ := []) (t₁ := [some peerAddr]) hh rfl
    subst e1
    have ht : trs = [] := by
      generalize hn : ([] : List (Option UDPAddr)) = l at h1
      cases h1 with
      | nil => rfl
      | snoc _ _ => simp at hn
    subst ht
    generalize hr : true = ret at h2
    cases h2 with
    | unresolved v => cases hr
    | contacted a v b failed _ => exact ⟨s, _, a, b, failed, hs.reach, by rw [he]; rfl, by simp⟩

end P2P

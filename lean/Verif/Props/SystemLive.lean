import Verif.Lemmas.SystemFair
import Verif.Props.System
import Verif.Props.Crawl
/-! # C102: under a fair scheduler the program as a whole does its work

C86 and C92 speak of the pipeline from the moment a packet is in the queue, with the answers of the shared objects fixed in advance. Here the executions are those of
the whole program (`Model/System`): from the start of the process; datagrams may go on arriving for ever. -/
namespace P2P

section
variable {S : SysEnv} {port : Int} {fs0 : Bytes → Option Bytes} {e : Nat → SysSt}

/-- **C102** The server listens in the end, for ever. -/
theorem C102_listens (F : FairSys S port fs0 e) : ∃ L, ∀ i, L ≤ i → (e i).pg.st.pc = .listen := F.listens

/-- what a step does to the receive goroutine and its queue -/
theorem sys_room {s t : SysSt} (h : SysReach S port fs0 s) (st : SysStep S s t) (hr : t.pg.rcv = s.pg.rcv) {x : RecvPacket} (hx : s.pg.rcv = .sending x) :
    t.pl.recvq.length ≤ s.pl.recvq.length := by
  cases st with
  | life _ a _ _ _ => exact Nat.le_refl _
  | boot tr _ a _ _ => exact Nat.le_refl _
  | read _ a c => exact Nat.le_refl _
  | deliver y _ a c =>
    exfalso
    cases a with
    | main _ m => cases m <;> exact snoc_ne c
    | other _ m =>
      cases m with
      | startup sm => cases sm <;> exact snoc_ne c
      | deliver _ _ => simp only at hr; rw [hx] at hr; cases hr
      | _ => exact snoc_ne c
  | take y p q _ a _ _ hq => simp only [hq, List.length_cons]; omega
  | pipe new _ _ _ _ hq _ _ _ _ _ => simp only [hq]; exact Nat.le_refl _
  | file i p _ _ _ _ => exact Nat.le_refl _
  | back i p _ _ _ => exact Nat.le_refl _
  | fatal i p _ _ _ => exact Nat.le_refl _

/-- **C102** The receive goroutine is never blocked for ever: whatever it holds it hands on, and reads again. -/
theorem C102_reads_on (hW1 : 1 ≤ S.W1) (F : FairSys S port fs0 e) (i : Nat) : ∃ j, i ≤ j ∧ ∀ x, (e j).pg.rcv ≠ .sending x := by
  obtain ⟨O, hO, W⟩ := F.whole
  refine Classical.byContradiction fun hno => ?_
  have hs : ∀ j, i ≤ j → ∃ x, (e j).pg.rcv = .sending x := fun j hj => Classical.byContradiction fun h => hno ⟨j, hj, fun x hx => h ⟨x, hx⟩⟩
  -- a step from `sending` to `sending` does not move the goroutine
  have same : ∀ j, i ≤ j → (e (j + 1)).pg.rcv = (e j).pg.rcv := by
    intro j hj
    obtain ⟨x, hx⟩ := hs j hj
    obtain ⟨y, hy⟩ := hs (j + 1) (by omega)
    rcases F.run.next j with h | h
    · rw [h]
    · generalize e (j + 1) = t at h hy ⊢
      generalize e j = s at h hx ⊢
      have pg : ∀ {pg : PgSt}, PgStep S.K s.pg pg → pg.rcv = .sending y → pg.rcv = s.pg.rcv := by
        intro pg a hp
        cases a with
        | main _ m => cases m <;> rfl
        | other _ m =>
          cases m with
          | test a => rw [hx] at a; cases a
          | read p a _ => rw [hx] at a; cases a
          | readErr a => rw [hx] at a; cases a
          | deliver a _ => cases hp
          | _ => rfl
      cases h with
      | life _ a _ _ _ => exact pg a hy
      | boot tr _ a _ _ => exact pg a hy
      | read _ a c => exact pg a hy
      | deliver y _ a c => exact pg a hy
      | take y p q _ a _ _ hq => exact pg a hy
      | _ => rfl
  obtain ⟨j, hj, hne⟩ := F.receive.moves_room (fun s => s.pg.rcv) (fun s t h => h.1.2) i (fun j => i ≤ j ∧ (e j).pl.recvq.length < 100)
    (fun j hr hsame => by
      obtain ⟨x, hx⟩ := hs j hr.1
      refine ⟨by omega, ?_⟩
      rcases F.run.next j with h | h
      · rw [h]; exact hr.2
      · exact Nat.lt_of_le_of_lt (sys_room (F.reach j) h hsame hx) hr.2)
    (fun k => by
      obtain ⟨j, hj, hr⟩ := C86_takes_in W.crawl (crawl_single S.K hO S.pkts) hW1 (max i k)
      exact ⟨j, by omega, by omega, hr⟩)
    (fun j hj _ hr => by
      obtain ⟨x, hx⟩ := hs j hj
      have hq : (e j).pg.st.queue.length < recvqCap := by rw [(sys_link (F.reach j)).queue, List.length_map]; exact hr.2
      refine ⟨_, ⟨.deliver x (F.lives j) (.other (F.lives j).1 (.deliver hx hq)) rfl, ?_⟩, by rw [hx]; simp⟩
      simp [hx])
  have : ∀ d, (e (i + d)).pg.rcv = (e i).pg.rcv := by
    intro d
    induction d with
    | zero => rfl
    | succ d ih => exact (same (i + d) (by omega)).trans ih
  obtain ⟨d, rfl⟩ := Nat.exists_eq_add_of_le hj
  exact hne (this d)

theorem FairSys.got_mono (F : FairSys S port fs0 e) {i j : Nat} (hij : i ≤ j) : (e i).pg.got.length ≤ (e j).pg.got.length := by
  refine F.run.stays (fun s => (e i).pg.got.length ≤ s.pg.got.length) (fun k h st => Nat.le_trans h ?_) hij (Nat.le_refl _)
  generalize e (k + 1) = t at st
  have pg : ∀ {pg : PgSt}, PgStep S.K (e k).pg pg → (e k).pg.got.length ≤ pg.got.length := by
    intro pg a
    cases pgKind a with
    | read p a _ _ _ _ _ => rw [a]; simp
    | quiet a _ _ _ _ => rw [a]; exact Nat.le_refl _
    | boot tr a _ _ _ _ _ => rw [a]; exact Nat.le_refl _
    | deliver p _ a _ _ _ _ _ => rw [a]; exact Nat.le_refl _
    | take p r a _ _ _ _ _ => rw [a]; exact Nat.le_refl _
  cases st with
  | life _ a _ _ _ => exact pg a
  | boot tr _ a _ _ => exact pg a
  | read _ a c => exact pg a
  | deliver y _ a c => exact pg a
  | take y p q _ a _ _ hq => exact pg a
  | _ => exact Nat.le_refl _

/-- **C102** Every datagram read from the socket enters the queue of the server. -/
theorem C102_delivered (hW1 : 1 ≤ S.W1) (F : FairSys S port fs0 e) {i p : Nat} (hp : p < (e i).pg.got.length) : ∃ j, i ≤ j ∧ p < (e j).pl.arrived := by
  obtain ⟨j, hj, hs⟩ := C102_reads_on hW1 F i
  refine ⟨j, hj, ?_⟩
  obtain ⟨-, -, h3, h4, -⟩ := C101_datagrams (F.reach j)
  have := F.got_mono hj
  have hne : (e j).pg.got.length ≠ (e j).pl.arrived + 1 := fun h => by
    obtain ⟨x, hx⟩ := h4.1 h
    exact hs x hx
  omega

/-- **C102** Every datagram read from the socket is handled to the end: its handler does all its code says. -/
theorem C102_handled (hW1 : 1 ≤ S.W1) (F : FairSys S port fs0 e) {i p : Nat} (hp : p < (e i).pg.got.length) :
    ∃ j, i ≤ j ∧ p ∈ (e j).pl.p1.finished ∧ ∃ O run, O.Fair ∧ dhtPacket S.K O (S.pkts p) = some run ∧ logOf p (e j).pl.log = run.trace := by
  obtain ⟨k, hk, hp'⟩ := C102_delivered hW1 F hp
  obtain ⟨O, hO, W⟩ := F.whole
  obtain ⟨j, hj, hf, hlog⟩ := C86_packet_handled W.crawl (crawl_single S.K hO S.pkts) hW1 hp'
  obtain ⟨run, hr, -⟩ := C29_crawler S.K (O p) (S.pkts p)
  exact ⟨j, by omega, hf, O p, run, hO p, hr, hlog.trans (by simp [crawlTraces, hr])⟩

/-- **C102** Every query read from the socket is answered by exactly one datagram, to its source, with its transaction id: a response if it is answerable, an error message otherwise. -/
theorem C102_query_answered (hW1 : 1 ≤ S.W1) (F : FairSys S port fs0 e) {i p : Nat} (hp : p < (e i).pg.got.length) {d : Entries} {t q : Bytes}
    (hq : IsQuery (S.pkts p).bytes d t q) :
    ∃ j b, i ≤ j ∧ p ∈ (e j).pl.p1.finished ∧ sends (logOf p (e j).pl.log) = [((S.pkts p).addr, b)] ∧
      (GoString b → ∃ r, DecodeDictNoLimit b = .ok (r, b.length) ∧ r.lookup b!"t" = some (.str t) ∧
        ((Answerable d q ∧ r.lookup b!"y" = some (.str b!"r")) ∨ (¬ Answerable d q ∧ r.lookup b!"y" = some (.str b!"e")))) := by
  obtain ⟨j, hj, hf, O, run, hO, hr, hlog⟩ := C102_handled hW1 F hp
  obtain ⟨run', b, hr', hs, hd⟩ := C27_query_answered S.K hO hq
  rw [hr] at hr'
  cases hr'
  refine ⟨j, b, hj, hf, by rw [hlog]; exact hs, fun hb => ?_⟩
  obtain ⟨r, h1, h2, ⟨h3, h4, -⟩ | ⟨h3, h4, -⟩⟩ := hd hb
  · exact ⟨r, h1, h2, .inl ⟨h3, h4⟩⟩
  · exact ⟨r, h1, h2, .inr ⟨h3, h4⟩⟩

/-- **C102** From the socket to the disk: an announce read from the socket whose peer delivers the torrent `md` leads to the file, which then stays as it is (if the file system does not
fail and the same torrent is not announced again and again). -/
theorem C102_announced (hW1 : 1 ≤ S.W1) (F : FairSys S port fs0 e) (hone : S.OneDataPerHash)
    {i p : Nat} (hp : p < (e i).pg.got.length) {job : Job} (hj : IsAnnounce (S.pkts p) job)
    {infoHash laddr md : Bytes} {st : PSt} (hih : (asMap job.req.body).lookup b!"info_hash" = some (.str infoHash))
    (haddr : parseFetchAddr S.K.env job = .ok laddr)
    (hfetch : FetchMetaData (S.conn p laddr) sha1Sum S.K.env.fold S.fuel LocalPeerId infoHash (S.mem p) (S.pool p) = .returned (some md) none st)
    (nofail : ∀ m k, (e m).fs.pc k ≠ .failed)
    (finite : ∃ N, ∀ k, N ≤ k → ∀ job', IsAnnounce (S.pkts k) job' → (asMap job'.req.body).lookup b!"info_hash" ≠ some (.str infoHash))
    {hex : Bytes} (hhex : IsHexOf hex infoHash) :
    ∃ j, i ≤ j ∧ ∀ m, j ≤ m → (e m).fs.fs (b!"torrent/" ++ hex ++ b!".torrent") = some md := by
  obtain ⟨k, hk, hp'⟩ := C102_delivered hW1 F hp
  obtain ⟨O, hO, W⟩ := F.whole
  obtain ⟨j, hj', h⟩ := C92_announced S.K hO S.pkts S.conn sha1Sum S.fuel LocalPeerId S.mem S.pool hW1 W (hone.same hO) hp' hj hih haddr hfetch nofail finite hhex
  exact ⟨j, by omega, h⟩

/-- **C102** The same for a peer that follows the protocol (C43, C81): it serves the torrent `md`, whose SHA-1 hash has been announced. -/
theorem C102_honest_peer (hW1 : 1 ≤ S.W1) (F : FairSys S port fs0 e) (hone : S.OneDataPerHash)
    {i p : Nat} (hp : p < (e i).pg.got.length) {job : Job} (hj : IsAnnounce (S.pkts p) job) (md : Bytes) {laddr : Bytes}
    (hih : (asMap job.req.body).lookup b!"info_hash" = some (.str (sha1Sum md))) (haddr : parseFetchAddr S.K.env job = .ok laddr)
    (hE : Calm (S.conn p laddr)) (q32 : List Slice) (hpool : Ready (NewPeerConn (S.mem p) (S.pool p)) q32) (h1 : 1 ≤ md.length)
    (h2 : md.length < 2 ^ 40) (hspare : (md.length + 16383) / 16384 ≤ max 1 q32.length) (hfuel : (md.length + 16383) / 16384 + 2 ≤ S.fuel)
    {hs ext : Bytes} {bodies : List Bytes} (hhs : IsPeerHandshake hs)
    (orderA : Entries → Entries) (hoA : OrderOK orderA) (m x : Entries)
    (hm : GoVal.WF (.dict m)) (hme : Encodable (.dict m)) (hx : GoVal.WF (.dict x)) (hxe : Encodable (.dict x))
    (hsize : x.lookup b!"metadata_size" = some (.int md.length))
    (hext : withExtendedhandShake orderA (some m) (some x) = .ok (be32 ext.length ++ ext)) (hextl : ext.length ≤ 32768)
    (orderB : Nat → Entries → Entries) (hoB : ∀ j, OrderOK (orderB j)) (hbl : bodies.length = (cut md).length)
    (hbodies : ∀ j p body, (cut md)[j]? = some p → bodies[j]? = some body →
      withExtendedFetchMetaMsg (orderB j) 1 ExData j md.length p = .ok (be32 body.length ++ body))
    (hD : Delivers (S.conn p laddr) (hs :: framed ext ++ bodies.flatMap framed))
    (nofail : ∀ m k, (e m).fs.pc k ≠ .failed)
    (finite : ∃ N, ∀ k, N ≤ k → ∀ job', IsAnnounce (S.pkts k) job' → (asMap job'.req.body).lookup b!"info_hash" ≠ some (.str (sha1Sum md)))
    {hex : Bytes} (hhex : IsHexOf hex (sha1Sum md)) :
    ∃ j, i ≤ j ∧ ∀ m, j ≤ m → (e m).fs.fs (b!"torrent/" ++ hex ++ b!".torrent") = some md := by
  obtain ⟨k, hk, hp'⟩ := C102_delivered hW1 F hp
  obtain ⟨O, hO, W⟩ := F.whole
  obtain ⟨j, hj', h⟩ := C92_honest_peer S.K hO S.pkts S.conn S.fuel S.mem S.pool hW1 W (hone.same hO) hp' hj md hih haddr hE q32 hpool h1 h2 hspare hfuel hhs
    orderA hoA m x hm hme hx hxe hsize hext hextl orderB hoB hbl hbodies hD nofail finite hhex
  exact ⟨j, by omega, h⟩

/-! ## Fair executions exist -/

theorem sys_up_before {s t : SysSt} (st : SysStep S s t) : s.up := by
  refine Classical.byContradiction fun h => C101_ended h t st

/-- at rest nothing happens to packets, jobs and files, except that a datagram arrives -/
theorem sys_rest {s t : SysSt} (hW1 : 1 ≤ S.W1) (hW2 : 1 ≤ S.W2) (h : SysReach S port fs0 s) {O : Nat → Oracle} (hO : ∀ p, (O p).Fair)
    (hpl : CrawlReach S.K O S.pkts S.W1 S.Q S.W2 s.pl)
    (hq : ∀ u, ¬ PlQuiet (crawlTraces S.K O S.pkts) S.W1 S.Q S.W2 s.pl u) (st : SysStep S s t) :
    t.pl.l = s.pl.l ∧ t.pl.p1 = s.pl.p1 ∧ t.pl.hdl = s.pl.hdl ∧ t.pl.f = s.pl.f ∧ t.pl.p2 = s.pl.p2 ∧ t.fs = s.fs := by
  have I := pl_inv hpl
  have no1 : ∀ (i p : Nat), s.pl.p1.workers[i]? ≠ some (.running p) := by
    intro i p hp
    obtain ⟨hfin, -⟩ := C62_all_done hW1 hW2 (crawl_single S.K hO S.pkts) hpl hq
    have hm := started_of_running I.reach1 hp
    have hlt : p ∈ List.range s.pl.arrived := by rw [← (show _ = List.range s.pl.arrived from (C62_fifo hpl).1)]; simp [hm]
    exact not_finished_of_running I.reach1 hp ((hfin.mem_iff).2 hlt)
  have no2 : ∀ (i p : Nat), s.pl.p2.workers[i]? ≠ some (.running p) := fun i p hp => hq _ ⟨.done2 i p hp, rfl⟩
  rcases sys_step_cr h st with he | ⟨O', hO', hc', st'⟩
  · injection he with e1 e2
    rw [e1, e2]; exact ⟨rfl, rfl, rfl, rfl, rfl, rfl⟩
  · have pl : ∀ {u : PlSt}, PlStep (crawlTraces S.K O' S.pkts) S.W1 S.Q S.W2 s.pl u →
        u.l = s.pl.l ∧ u.p1 = s.pl.p1 ∧ u.hdl = s.pl.hdl ∧ u.f = s.pl.f ∧ u.p2 = s.pl.p2 := by
      intro u st
      cases st with
      | arrive a => exact ⟨rfl, rfl, rfl, rfl, rfl⟩
      | listenTake p q a b => exact (hq _ ⟨.listenTake p q a b, rfl⟩).elim
      | listenCheck p a b c => exact (hq _ ⟨.listenCheck p a b c, rfl⟩).elim
      | listenSend p a b c => exact (hq _ ⟨.listenSend p a b c, rfl⟩).elim
      | select1 i a => exact (hq _ ⟨.select1 i a, rfl⟩).elim
      | recv1 i p q a b => exact (hq _ ⟨.recv1 i p q a b, rfl⟩).elim
      | handle i p e a b c => exact (no1 i p a).elim
      | enqueue i p j a b c => exact (no1 i p a).elim
      | handoff i p j a b c d => exact (no1 i p a).elim
      | done1 i p a b => exact (no1 i p a).elim
      | fetchTake p q a b => exact (hq _ ⟨.fetchTake p q a b, rfl⟩).elim
      | fetchCheck p a b c => exact (hq _ ⟨.fetchCheck p a b c, rfl⟩).elim
      | fetchSend p a b c => exact (hq _ ⟨.fetchSend p a b c, rfl⟩).elim
      | select2 i a => exact (hq _ ⟨.select2 i a, rfl⟩).elim
      | recv2 i p q a b => exact (hq _ ⟨.recv2 i p q a b, rfl⟩).elim
      | done2 i p a => exact (no2 i p a).elim
    obtain ⟨tpg, tpl, tfs, tw, toom⟩ := t
    simp only at st' ⊢
    cases st' with
    | pipe hp hf => obtain ⟨a, b, c, d, f⟩ := pl hp; exact ⟨a, b, c, d, f, rfl⟩
    | file i p a b c => exact (no2 i p a).elim
    | back p hp hf hr => obtain ⟨a, b, c, d, f⟩ := pl hp; exact ⟨a, b, c, d, f, rfl⟩

/-- **C102** Non-vacuity: for any datagrams and every number `n` there is a fair execution of the whole program in which `n` datagrams are read and no call of the file system fails, if the
bootstrap hosts resolve, the directory exists and the downloads end. -/
theorem C102_fair_runs (hW1 : 1 ≤ S.W1) (hW2 : 1 ≤ S.W2) {t0 : RouteTable} (h0 : initialTable port = .ok t0) (hh : ∀ a ∈ S.hosts, a ≠ none) (hd : S.dir = true)
    (hends : S.Ends) (n : Nat) :
    ∃ e N, FairSys S port fs0 e ∧ (e N).pg.got.length = n ∧ ∀ m k, (e m).fs.pc k ≠ .failed := by
  obtain ⟨s, O, hs, h1, h2, hO, hc, hq⟩ := calm_runs (fs0 := fs0) hW1 hW2 h0 hh hd hends n
  -- the receive goroutine waits for the next datagram
  obtain ⟨s', hr', epl, efs, erc, epc, egot, hup'⟩ : ∃ s', SysReach S port fs0 s' ∧ s'.pl = s.pl ∧ s'.fs = s.fs ∧ s'.pg.rcv = .reading ∧ s'.pg.st.pc = .listen ∧
      s'.pg.got = s.pg.got ∧ s'.up := by
    have hup := hs.up
    obtain ⟨st, got, hg⟩ := hs.pg
    have hp : PgStep S.K s.pg { s.pg with rcv := .reading } := by
      have := PgStep.other (K := S.K) hup.1 (.test (by rw [hg]; rfl))
      have hcl : s.pg.closed = false := by rw [hg]; rfl
      simpa [hcl] using this
    exact ⟨_, .step hs.reach (.life hup hp rfl rfl rfl), rfl, rfl, rfl, hs.listen, rfl, ⟨hup.1.1, hup.1.2.1, hup.1.2.2⟩, hup.2⟩
  rw [← epl, ← efs] at hc
  rw [← epl] at hq
  obtain ⟨e, N, r, hN⟩ := run_of_reach hr'
  have rest : ∀ t, SysStep S s' t → t.pl.l = s'.pl.l ∧ t.pl.p1 = s'.pl.p1 ∧ t.pl.hdl = s'.pl.hdl ∧ t.pl.f = s'.pl.f ∧ t.pl.p2 = s'.pl.p2 ∧ t.fs = s'.fs :=
    fun t st => sys_rest hW1 hW2 hr' hO (C92_refines hc).1 hq st
  have lives : ∀ i, (e i).up := by
    intro i
    refine Classical.byContradiction fun hn => ?_
    have : (e (i + N)) = e i := by
      refine r.stays (fun s => s = e i) (fun k hk st => ?_) (by omega : i ≤ i + N) rfl
      rw [hk] at st
      exact absurd st (C101_ended hn _)
    rw [hN _ (by omega)] at this
    exact hn (this ▸ hup')
  have weak : ∀ A : SysSt → SysSt → Prop, (∀ t, ¬ A s' t) → WeaklyFair e A := by
    intro A hA i hi
    obtain ⟨t, ht⟩ := hi (N + i) (by omega)
    rw [hN _ (by omega)] at ht
    exact absurd ht (hA t)
  have strong : ∀ A : SysSt → SysSt → Prop, (∀ t, ¬ A s' t) → StronglyFair e A := by
    intro A hA i hi
    obtain ⟨j, hj, t, ht⟩ := hi (N + i) (by omega)
    rw [hN _ (by omega)] at ht
    exact absurd ht (hA t)
  have F : FairSys S port fs0 e := by
    refine ⟨r, lives, ?_, ?_, ?_, fun w _ => ?_, fun w _ => ?_, ?_, fun w _ => ?_, fun w p _ => ?_, 0, hW2, fun i p hp => ?_⟩
    · refine weak _ fun t h => h.2 ?_
      show t.pg.st.pc = s'.pg.st.pc
      rw [(sys_pc hr' h.1).1 epc, epc]
    · exact weak _ fun t h => h.2 erc
    · refine weak _ fun t h => h.2 ?_
      obtain ⟨a1, a2, a3, a4, a5, a6⟩ := rest t h.1
      simp only [a1, a2]
    · refine weak _ fun t h => h.1.2 ?_
      obtain ⟨a1, a2, a3, a4, a5, a6⟩ := rest t h.1.1
      simp only [a2]
    · refine strong _ fun t ⟨p, _, h⟩ => h.2 ?_
      obtain ⟨a1, a2, a3, a4, a5, a6⟩ := rest t h.1
      simp only [a2, a3]
    · refine weak _ fun t h => h.2 ?_
      obtain ⟨a1, a2, a3, a4, a5, a6⟩ := rest t h.1
      simp only [a4, a5]
    · refine weak _ fun t h => h.1.2 ?_
      obtain ⟨a1, a2, a3, a4, a5, a6⟩ := rest t h.1.1
      simp only [a5]
    · refine weak _ fun t h => h.2 ?_
      obtain ⟨a1, a2, a3, a4, a5, a6⟩ := rest t h.1
      simp only [a5, a6]
    · obtain ⟨O', hO', hc'⟩ := sys_crawler (r.reach i)
      rw [outs_eq S hO' (C92_refines hc').1 hp]
      exact hends.out hO' p
  obtain ⟨O', hO', W⟩ := F.whole
  refine ⟨e, N, F, by rw [hN N (Nat.le_refl N), egot, h1], fun m k hf => ?_⟩
  have := W.settled (by omega : m ≤ N + m) (.inr hf)
  simp only [hN (N + m) (by omega), efs] at this
  rcases hs.pc k with h | h <;> rw [h, hf] at this <;> cases this

end

/-! ## A concrete case -/

/-- an announce of the torrent `exMeta` -/
def exSysAnnounce : Bytes :=
  b!"d1:ad2:id20:bbbbbbbbbbbbbbbbbbbb9:info_hash20:" ++ sha1Sum exMeta ++ b!"4:porti6881e5:token2:xye1:q13:announce_peer1:t2:zz1:y1:qe"
def exSysArgs : Entries :=
  [(b!"id", .str b!"bbbbbbbbbbbbbbbbbbbb"), (b!"info_hash", .str (sha1Sum exMeta)), (b!"port", .int 6881), (b!"token", .str b!"xy")]
def exSysDict : Entries := [(b!"a", .dict exSysArgs), (b!"q", .str b!"announce_peer"), (b!"t", .str b!"zz"), (b!"y", .str b!"q")]
def exSysPkts (p : Nat) : RecvPacket := { addr := peerAddr, bytes := if p = 0 then exSysAnnounce else b!"garbage" }
def exSysJob : Job := { req := { txId := b!"zz", qType := b!"announce_peer", body := some exSysArgs, handler := none }, addr := peerAddr }

/-- one bootstrap host; the first datagram is the announce, everything after it is garbage; the peer delivers the torrent; pools of two workers -/
def exSys : SysEnv where
  K := exK
  hosts := [some peerAddr]
  pkts := exSysPkts
  W1 := 2
  Q := 1
  W2 := 2
  dir := true
  conn := fun _ _ => chunkEnv exChunks
  fuel := 10
  mem := fun _ _ => []
  pool := fun _ => exPool

theorem exSys_announce : IsAnnounce (exSysPkts 0) exSysJob := by
  refine ⟨exSysDict, b!"zz", exSysArgs, ⟨⟨exSysAnnounce.length, ?_⟩, by decide +kernel, by decide +kernel, by decide +kernel⟩,
   ⟨by simp [methods], exSysArgs, rfl, ⟨_, rfl, rfl⟩, fun _ => ⟨_, rfl⟩, fun _ => ⟨_, rfl⟩⟩, rfl, rfl⟩
  decide +kernel

theorem exSys_garbage {p : Nat} (hp : p ≠ 0) (job : Job) : ¬ IsAnnounce (exSys.pkts p) job := by
  rintro ⟨d, t, a, ⟨⟨n, hn⟩, -⟩, -⟩
  have : (match DecodeDictNoLimit b!"garbage" with | .ok _ => true | _ => false) = false := by decide +kernel
  simp only [exSys, exSysPkts, if_neg hp] at hn
  rw [hn] at this
  cases this

theorem exSys_fetch : ∃ st, FetchMetaData (chunkEnv exChunks) sha1Sum exK.env.fold 10 LocalPeerId (sha1Sum exMeta) (fun _ => []) exPool = .returned (some exMeta) none st := by
  have : (match FetchMetaData (chunkEnv exChunks) sha1Sum exK.env.fold 10 LocalPeerId (sha1Sum exMeta) (fun _ => []) exPool with
    | .returned (some d) none _ => decide (d = exMeta) | _ => false) = true := by decide +kernel
  split at this
  · rename_i d s heq
    exact ⟨s, by rw [heq, of_decide_eq_true this]⟩
  · cases this

theorem exSys_out : fetchHandler exK.env (fun _ => chunkEnv exChunks) sha1Sum 10 LocalPeerId (fun _ => []) exPool exSysJob =
    .flush (hexEncode (sha1Sum exMeta)) exMeta := by decide +kernel

theorem exSys_zero {p : Nat} {job : Job} (h : IsAnnounce (exSys.pkts p) job) : p = 0 ∧ job = exSysJob := by
  by_cases hp : p = 0
  · subst hp; exact ⟨rfl, h.unique exSys_announce⟩
  · exact absurd h (exSys_garbage hp job)

/-- Non-vacuity of `C102_announced`: a fair execution of the whole program, from its start, with one bootstrap host: five datagrams are read, the first of them an announce, and in the end the file,
named after the SHA-1 hash of the torrent, holds the torrent. -/
theorem C102_example : ∃ e : Nat → SysSt, FairSys exSys 21000 (fun _ => none) e ∧ (∃ i, (e i).pg.got.length = 5) ∧
    ∃ j, ∀ m, j ≤ m → (e m).fs.fs (b!"torrent/" ++ hexEncode (sha1Sum exMeta) ++ b!".torrent") = some exMeta := by
  have hends : exSys.Ends := by
    intro p job hj
    obtain ⟨rfl, rfl⟩ := exSys_zero hj
    show (fetchHandler exK.env (fun _ => chunkEnv exChunks) sha1Sum 10 LocalPeerId (fun _ => []) exPool exSysJob).Ends
    rw [exSys_out]; trivial
  have hone : exSys.OneDataPerHash := by
    intro p q job job' hash d d' h1 h2 h3 h4
    obtain ⟨rfl, rfl⟩ := exSys_zero h1
    obtain ⟨rfl, rfl⟩ := exSys_zero h2
    rw [h3] at h4; cases h4; rfl
  obtain ⟨e, N, F, hN, hno⟩ := C102_fair_runs (S := exSys) (port := 21000) (fs0 := fun _ => none) (by decide) (by decide) realH_history.1 (by simp [exSys]) rfl hends 5
  obtain ⟨st, hst⟩ := exSys_fetch
  obtain ⟨j, -, hj⟩ := C102_announced (by decide) F hone (i := N) (p := 0) (by omega) exSys_announce (infoHash := sha1Sum exMeta) (laddr := b!"10.0.0.1:6881")
    (md := exMeta) (st := st) rfl (by decide +kernel) hst hno ⟨1, fun k hk job' hj' => absurd hj' (exSys_garbage (by omega) job')⟩ (hexEncode_isHexOf _)
  exact ⟨e, F, ⟨N, hN⟩, j, hj⟩

end P2P

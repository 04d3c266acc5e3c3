import Verif.Lemmas.SystemNetFair
import Verif.Props.SystemLive
import Verif.Props.SystemNetEx
import Verif.Props.DeadStops
/-! # C114: under a fair scheduler the crawler, its downloads taking turns, does its work

C102 for `Model/SystemNet`: in a fair execution of the whole program, in which the downloads run step by step on one memory and one pool, every datagram read is handled, every
announce is downloaded to the end, and what a download delivers gets into its file. -/
namespace P2P

section
variable {S : SysEnv} {port : Int} {fs0 : Bytes → Option Bytes} {e : Nat → SysNetSt}

/-- **C114** A fair execution in which the downloads take turns is a fair execution of `Model/System`: with the same peers, where to each download that comes out the others
do something (`f`) that proper users of the pool may do, and nothing else. So C102 holds of it. -/
theorem C114_fair_refines (F : FairNet S port fs0 e) : ∃ (conn : Nat → Bytes → PEnv) (mem : Nat → Nat → Bytes) (pool : Nat → BPool),
    FairSys (S.instead conn mem pool) port fs0 (fun i => (e i).sys) ∧
    (∀ i p out, (e i).outcome S p = some out → (e i).sys.outs (S.instead conn mem pool) p = out ∧
      ∃ f : List PEvent → Shared → Shared, (∀ tr y, Own (heldP tr) y → OthersDo (heldP tr) y (f tr y)) ∧
        Own [] (mem p, pool p) ∧ conn p = fun laddr => (S.conn p laddr).among f) := by
  obtain ⟨conn, mem, pool, h1, -, h3⟩ := F.answers
  exact ⟨conn, mem, pool, F.sys h1, fun i p out ho => ⟨h1 i p out ho, h3 i p out ho⟩⟩

/-- **C114** The server listens in the end, for ever. -/
theorem C114_listens (F : FairNet S port fs0 e) : ∃ L, ∀ i, L ≤ i → (e i).sys.pg.st.pc = .listen := by
  obtain ⟨conn, mem, pool, F', -⟩ := C114_fair_refines F
  exact C102_listens F'

/-- **C114** Every datagram read from the socket is handled to the end: its handler does all its code says. -/
theorem C114_handled (hW1 : 1 ≤ S.W1) (F : FairNet S port fs0 e) {i p : Nat} (hp : p < (e i).sys.pg.got.length) :
    ∃ j, i ≤ j ∧ p ∈ (e j).sys.pl.p1.finished ∧ ∃ O run, O.Fair ∧ dhtPacket S.K O (S.pkts p) = some run ∧ logOf p (e j).sys.pl.log = run.trace := by
  obtain ⟨conn, mem, pool, F', -⟩ := C114_fair_refines F
  exact C102_handled (S := S.instead conn mem pool) hW1 F' hp

/-- **C114** Every query read from the socket is answered by exactly one datagram, to its source, with its transaction id: a response if it is answerable, an error message
otherwise – whatever the downloads do meanwhile. -/
theorem C114_query_answered (hW1 : 1 ≤ S.W1) (F : FairNet S port fs0 e) {i p : Nat} (hp : p < (e i).sys.pg.got.length) {d : Entries} {t q : Bytes}
    (hq : IsQuery (S.pkts p).bytes d t q) :
    ∃ j b, i ≤ j ∧ p ∈ (e j).sys.pl.p1.finished ∧ sends (logOf p (e j).sys.pl.log) = [((S.pkts p).addr, b)] ∧
      (GoString b → ∃ r, DecodeDictNoLimit b = .ok (r, b.length) ∧ r.lookup b!"t" = some (.str t) ∧
        ((Answerable d q ∧ r.lookup b!"y" = some (.str b!"r")) ∨ (¬ Answerable d q ∧ r.lookup b!"y" = some (.str b!"e")))) := by
  obtain ⟨conn, mem, pool, F', -⟩ := C114_fair_refines F
  exact C102_query_answered (S := S.instead conn mem pool) hW1 F' hp hq

/-- **C114** A download that runs comes out in the end, whatever its peer sends and the other downloads do. -/
theorem C114_comes_out (F : FairNet S port fs0 e) {i w p : Nat} (hw : (e i).sys.pl.p2.workers[w]? = some (.running p)) :
    ∃ j out, i ≤ j ∧ ∀ m, j ≤ m → (e m).outcome S p = some out := by
  obtain ⟨j, out, hj, ho⟩ := F.comes_out hw
  exact ⟨j, out, hj, fun m hm => F.outcome_for_ever hm ho⟩

/-- what comes out of a job, computed in `Model/System` -/
theorem net_out {conn : Nat → Bytes → PEnv} {mem : Nat → Nat → Bytes} {pool : Nat → BPool} (F : FairNet S port fs0 e)
    (hx : ∀ i p out, (e i).outcome S p = some out → (e i).sys.outs (S.instead conn mem pool) p = out) {i p : Nat} {out : HandlerOut} (ho : (e i).outcome S p = some out)
    {job : Job} (hj : IsAnnounce (S.pkts p) job) : fetchHandler S.K.env (conn p) sha1Sum S.fuel LocalPeerId (mem p) (pool p) job = out := by
  obtain ⟨job', l, he, hj'⟩ := outcome_announce (F.reach i) ho
  have := hj.unique hj'
  subst this
  have h := hx i p out ho
  unfold SysSt.outs at h
  rw [he] at h
  exact h

/-- **C114** Every announce read from the socket is downloaded to the end, even if all other downloads run at the same time; if the download neither takes all memory nor goes round
for ever, its worker returns to the pool. -/
theorem C114_downloaded (hW1 : 1 ≤ S.W1) (F : FairNet S port fs0 e) {i p : Nat} (hp : p < (e i).sys.pg.got.length) {job : Job} (hj : IsAnnounce (S.pkts p) job) :
    ∃ j out, i ≤ j ∧ (∀ m, j ≤ m → (e m).outcome S p = some out) ∧ (out.Ends → ∃ m, i ≤ m ∧ p ∈ (e m).sys.pl.p2.finished) := by
  obtain ⟨conn, mem, pool, h1, -, -⟩ := F.answers
  have F' := F.sys h1
  obtain ⟨k, hk, hp'⟩ := C102_delivered (S := S.instead conn mem pool) hW1 F' hp
  obtain ⟨O, hO, W⟩ := F'.whole
  obtain ⟨j, hj1, -, -, hst⟩ := C86_announce S.K hO S.pkts hW1 W.crawl hp' hj
  have hst : p ∈ (e j).sys.pl.p2.started := hst
  have I := pl_inv (C92_refines (W.run.reach j)).1
  have come : ∃ m out, j ≤ m ∧ (e m).outcome S p = some out := by
    rcases List.mem_append.1 ((wp_inv I.reach2).exec.mem_iff.1 hst) with h | h
    · have := finished_outcome (F.reach j) p h
      cases ho : (e j).outcome S p with
      | none => exact absurd ho this
      | some out => exact ⟨j, out, Nat.le_refl j, ho⟩
    · obtain ⟨w, hw, ew⟩ := List.mem_filterMap.1 h
      cases w <;> simp at ew
      subst ew
      obtain ⟨w, hw⟩ := List.getElem?_of_mem hw
      exact F.comes_out hw
  obtain ⟨m, out, hm, ho⟩ := come
  refine ⟨m, out, by omega, fun m' hm' => F.outcome_for_ever hm' ho, fun hend => ?_⟩
  have hout : (S.instead conn mem pool).out O p = out :=
    (crawlOut_announce S.K hO S.pkts conn sha1Sum S.fuel LocalPeerId mem pool hj).trans (net_out F h1 ho hj)
  obtain ⟨n, hn, hfin⟩ := W.finishes (by rw [hout]; exact hend) hst
  exact ⟨n, by omega, hfin⟩

/-- **C114** What a download has delivered gets into its file, which then stays as it is (if the file system does not fail, the same torrent is not announced again and again, and the
peers deliver the same data for it). -/
theorem C114_on_disk (F : FairNet S port fs0 e) (hone : ∀ i, (e i).OneDataPerHash S) {i p : Nat} {infoHash data : Bytes}
    (ho : (e i).outcome S p = some (.flush (hexEncode infoHash) data)) (nofail : ∀ m k, (e m).sys.fs.pc k ≠ .failed)
    (finite : ∃ N, ∀ k, N ≤ k → ∀ job', IsAnnounce (S.pkts k) job' → (asMap job'.req.body).lookup b!"info_hash" ≠ some (.str infoHash)) :
    ∃ j, i ≤ j ∧ ∀ m, j ≤ m → (e m).sys.fs.fs (b!"torrent/" ++ hexEncode infoHash ++ b!".torrent") = some data := by
  obtain ⟨conn, mem, pool, h1, h2, -⟩ := F.answers
  have F' := F.sys h1
  obtain ⟨O, hO, W⟩ := F'.whole
  -- what is written in `Model/System` has come out here
  have real : ∀ {q : Nat} {hash d : Bytes}, flushes ((S.instead conn mem pool).out O) q = some (hash, d) → ∃ k, (e k).outcome S q = some (.flush hash d) := by
    intro q hash d hf
    obtain ⟨job, hj, hfl⟩ := crawlOut_flush S.K hO S.pkts conn sha1Sum S.fuel LocalPeerId mem pool hf
    by_cases hex : ∃ k out, (e k).outcome S q = some out
    · obtain ⟨k, out, hk⟩ := hex
      refine ⟨k, ?_⟩
      rw [hk, ← net_out F h1 hk hj, hfl]
    · exfalso
      have hn : ∀ k, (e k).outcome S q = none := by
        intro k
        cases h : (e k).outcome S q with
        | none => rfl
        | some out => exact absurd ⟨k, out, h⟩ hex
      rw [fetchHandler_eq] at hfl
      cases ha : fetchArgs S.K.env job with
      | ok a =>
        rw [ha] at hfl
        simp only at hfl
        have : FetchMetaData (conn q a.2) sha1Sum S.K.env.fold S.fuel LocalPeerId a.1 (mem q) (pool q) = .dialErr := by
          unfold FetchMetaData
          rw [if_pos (h2 q hn a.2)]
        rw [this] at hfl
        cases hfl
      | _ => rw [ha] at hfl; cases hfl
  have hsame : SameData (flushes ((S.instead conn mem pool).out O)) := by
    intro q r hash d d' a b
    obtain ⟨k, hk⟩ := real a
    obtain ⟨k', hk'⟩ := real b
    exact hone (max k k') q r hash d d' (F.outcome_for_ever (by omega) hk) (F.outcome_for_ever (by omega) hk')
  obtain ⟨job, l, he, hj⟩ := outcome_announce (F.reach i) ho
  have hf : flushes ((S.instead conn mem pool).out O) p = some (hexEncode infoHash, data) := by
    have hout : (S.instead conn mem pool).out O p = .flush (hexEncode infoHash) data :=
      (crawlOut_announce S.K hO S.pkts conn sha1Sum S.fuel LocalPeerId mem pool hj).trans (net_out F h1 ho hj)
    unfold flushes
    rw [hout]
  have I := pl_inv (C92_refines (W.run.reach i)).1
  have hacc : p ∈ (e i).sys.pl.accepted := by
    have hlog : Event.enqueue job ∈ logOf p (e i).sys.pl.log := by
      have : job ∈ enqueued (logOf p (e i).sys.pl.log) := by rw [he]; exact List.mem_cons_self ..
      obtain ⟨ev, hel, hee⟩ := List.mem_filterMap.1 this
      cases ev <;> simp at hee
      subst hee; exact hel
    obtain ⟨⟨q, ev⟩, hq, hee⟩ := List.mem_filterMap.1 hlog
    by_cases hqp : q = p
    · subst hqp
      simp at hee
      subst hee
      rw [show (e i).sys.pl.accepted = _ from I.acc]
      exact List.mem_map.2 ⟨_, List.mem_filter.2 ⟨hq, rfl⟩, rfl⟩
    · simp [hqp] at hee
  obtain ⟨N, hN⟩ := finite
  exact C92_on_disk W (crawl_single S.K hO S.pkts) hsame hacc hf (fun m k _ _ => nofail m k) ⟨N, fun q d hq => by
    refine Classical.byContradiction fun hlt => ?_
    obtain ⟨job', hj', hfl⟩ := crawlOut_flush S.K hO S.pkts conn sha1Sum S.fuel LocalPeerId mem pool hq
    obtain ⟨ih', b1, b2, b3, b4⟩ := C46_flush _ _ _ _ _ _ _ _ _ _ hfl
    have := b3.unique (hexEncode_isHexOf infoHash)
    subst this
    exact hN q (by omega) job' hj' b1⟩

/-- the task of a job, from what it says -/
theorem task_of_job {s : SysSt} {p : Nat} {job : Job} {l : List Job} (he : enqueued (logOf p s.pl.log) = job :: l) {infoHash laddr : Bytes}
    (hih : (asMap job.req.body).lookup b!"info_hash" = some (.str infoHash)) (haddr : parseFetchAddr S.K.env job = .ok laddr) :
    fetchArgs S.K.env job = .ok (infoHash, laddr) ∧ s.task S p = some (S.task p infoHash laddr) := by
  have ha : fetchArgs S.K.env job = .ok (infoHash, laddr) := by
    unfold fetchArgs
    simp only [Dict.GetString, Dict.GetVal, dictGet, hih, Res.bind_ok, GoVal.asStr, haddr, Res.pure_eq]
  exact ⟨ha, by unfold SysSt.task; rw [he]; simp only [ha]⟩

/-- **C114** From the socket to the disk, with all downloads taking turns on the buffers they share: an announce is read from the socket, and its peer can be reached and sends all
announced pieces. Then its download delivers data of the announced length, and if this has the announced SHA-1 hash, the file named after the hash holds it in the end, for
ever. -/
theorem C114_socket_to_disk (hW1 : 1 ≤ S.W1) (F : FairNet S port fs0 e) (hone : ∀ i, (e i).OneDataPerHash S) {i p : Nat} (hp : p < (e i).sys.pg.got.length)
    {job : Job} (hj : IsAnnounce (S.pkts p) job) {infoHash laddr : Bytes} (hih : (asMap job.req.body).lookup b!"info_hash" = some (.str infoHash))
    (haddr : parseFetchAddr S.K.env job = .ok laddr) {hs : Bytes} {bodies : List Bytes} (hf : Fed (S.task p infoHash laddr) hs bodies) (n k : Nat) (g : Received)
    (hv : verdict 0 0 .start bodies = .complete n k g) (hsz : g.size ≤ 2 ^ 48) (nofail : ∀ m k, (e m).sys.fs.pc k ≠ .failed)
    (finite : ∃ N, ∀ k, N ≤ k → ∀ job', IsAnnounce (S.pkts k) job' → (asMap job'.req.body).lookup b!"info_hash" ≠ some (.str infoHash)) :
    ∃ j data, i ≤ j ∧ data.length = g.content.length ∧
      (sha1Sum data = infoHash → ∀ m, j ≤ m → (e m).sys.fs.fs (b!"torrent/" ++ hexEncode infoHash ++ b!".torrent") = some data) ∧
      (sha1Sum data ≠ infoHash → ∀ m, j ≤ m → (e m).outcome S p = some .nothing) := by
  obtain ⟨j, out, hij, hout, -⟩ := C114_downloaded hW1 F hp hj
  have ho := hout j (Nat.le_refl j)
  obtain ⟨job', l, he, hj'⟩ := outcome_announce (F.reach j) ho
  have := hj.unique hj'
  subst this
  obtain ⟨ha, ht⟩ := task_of_job he hih haddr
  have hdone : ∃ o, (e j).dl p = .running (.done o) := by
    have ho' := ho
    unfold SysNetSt.outcome at ho'
    rw [he] at ho'
    simp only [ha] at ho'
    rw [if_neg (show ¬ (S.conn p laddr).dialFails = true by rw [show (S.conn p laddr).dialFails = false from hf.dial]; simp)] at ho'
    split at ho'
    · rename_i o hd; exact ⟨o, hd⟩
    · cases ho'
  obtain ⟨o, hd⟩ := hdone
  obtain ⟨data, hlen, hres⟩ := C113_complete (F.reach j) ht hd hf n k g hv hsz
  have hres : (e j).outcome S p = some (if sha1Sum data = infoHash then .flush (hexEncode infoHash) data else .nothing) := hres
  by_cases hsum : sha1Sum data = infoHash
  · rw [if_pos hsum] at hres
    obtain ⟨m, hm, hfile⟩ := C114_on_disk F hone hres nofail finite
    exact ⟨m, data, by omega, hlen, fun _ => hfile, fun h => absurd hsum h⟩
  · rw [if_neg hsum] at hres
    exact ⟨j, data, hij, hlen, fun h => absurd h hsum, fun _ m hm => F.outcome_for_ever hm hres⟩

/-! ## Fair executions exist -/

/-- **C114** Non-vacuity: whatever the network sends, if the bootstrap hosts resolve, the directory exists and the downloads end, there is, for every `n`, a fair execution in which `n`
datagrams are read and no call of the file system fails. -/
theorem C114_fair_runs (hW1 : 1 ≤ S.W1) (hW2 : 1 ≤ S.W2) {t0 : RouteTable} (h0 : initialTable port = .ok t0) (hh : ∀ a ∈ S.hosts, a ≠ none) (hd : S.dir = true)
    (hends : S.NetEnds port fs0) (n : Nat) :
    ∃ e N, FairNet S port fs0 e ∧ (e N).sys.pg.got.length = n ∧ ∀ m k, (e m).sys.fs.pc k ≠ .failed := by
  obtain ⟨s, conn, mem, pool, O, hs, h1, h2, hO, hc, hq⟩ := net_runs (fs0 := fs0) hW1 hW2 h0 hh hd hends n
  -- the receive goroutine waits for the next datagram
  obtain ⟨s', hr', epl, efs, edl, erc, epc, egot, hup'⟩ : ∃ s', SysNetReach S port fs0 s' ∧ s'.sys.pl = s.sys.pl ∧ s'.sys.fs = s.sys.fs ∧ s'.dl = s.dl ∧
      s'.sys.pg.rcv = .reading ∧ s'.sys.pg.st.pc = .listen ∧ s'.sys.pg.got = s.sys.pg.got ∧ s'.sys.up := by
    have hup := hs.up
    obtain ⟨st, got, hg⟩ := hs.pg
    have hp : PgStep S.K s.sys.pg { s.sys.pg with rcv := .reading } := by
      have := PgStep.other (K := S.K) hup.1 (.test (by rw [hg]; rfl))
      have hcl : s.sys.pg.closed = false := by rw [hg]; rfl
      simpa [hcl] using this
    exact ⟨_, .step hs.reach (.rest (.life hup hp rfl rfl rfl) rfl rfl rfl), rfl, rfl, rfl, rfl, hs.listen, rfl, ⟨hup.1.1, hup.1.2.1, hup.1.2.2⟩, hup.2⟩
  have hpc : ∀ p, s'.sys.fs.pc p = .start ∨ s'.sys.fs.pc p = .done := by rw [efs]; exact hs.pc
  rw [← epl] at hq h2
  obtain ⟨e, N, r, hN⟩ := run_of_reach hr'
  -- nothing happens any more to packets, jobs, downloads and files
  have rest : ∀ t, SysNetStep S s' t → t.sys.pl.l = s'.sys.pl.l ∧ t.sys.pl.p1 = s'.sys.pl.p1 ∧ t.sys.pl.hdl = s'.sys.pl.hdl ∧ t.sys.pl.f = s'.sys.pl.f ∧
      t.sys.pl.p2 = s'.sys.pl.p2 ∧ t.sys.fs = s'.sys.fs ∧ t.dl = s'.dl := by
    intro t st
    have no2 : ∀ (i p : Nat), s'.sys.pl.p2.workers[i]? ≠ some (.running p) := fun i p hp => hq _ ⟨.done2 i p hp, rfl⟩
    obtain ⟨f, mem', pool', -, -, hr, ho, -⟩ := C113_refines hr'
    have hrest : t.sys = s'.sys ∨ SysStep _ s'.sys t.sys := net_down st ho
    have hdl : t.dl = s'.dl := by
      cases st with
      | start i p t _ hw _ _ _ => exact absurd hw (no2 i p)
      | turn i p st k _ hw _ => exact absurd hw (no2 i p)
      | _ => rfl
    rcases hrest with h | h
    · rw [h]; exact ⟨rfl, rfl, rfl, rfl, rfl, rfl, hdl⟩
    · obtain ⟨a1, a2, a3, a4, a5, a6⟩ := sys_rest (S := S.instead _ mem' pool') hW1 hW2 hr hO (by rw [← epl] at hc; exact (C92_refines hc).1) hq h
      exact ⟨a1, a2, a3, a4, a5, a6, hdl⟩
  have lives : ∀ i, (e i).sys.up := by
    intro i
    refine Classical.byContradiction fun hn => ?_
    have : (e (i + N)).sys = (e i).sys := by
      refine r.stays (fun s => s.sys = (e i).sys) (fun k hk st => ?_) (by omega : i ≤ i + N) rfl
      rw [← hk] at hn
      rw [C113_end_is_final hn (.step (.init rfl) st)]
      exact hk
    rw [hN _ (by omega)] at this
    exact hn (this ▸ hup')
  have weak : ∀ A : SysNetSt → SysNetSt → Prop, (∀ t, ¬ A s' t) → WeaklyFair e A := by
    intro A hA i hi
    obtain ⟨t, ht⟩ := hi (N + i) (by omega)
    rw [hN _ (by omega)] at ht
    exact absurd ht (hA t)
  have strong : ∀ A : SysNetSt → SysNetSt → Prop, (∀ t, ¬ A s' t) → StronglyFair e A := by
    intro A hA i hi
    obtain ⟨j, hj, t, ht⟩ := hi (N + i) (by omega)
    rw [hN _ (by omega)] at ht
    exact absurd ht (hA t)
  have F : FairNet S port fs0 e := by
    refine ⟨r, lives, ?_, ?_, ?_, fun w _ => ?_, fun w _ => ?_, ?_, fun w _ => ?_, fun w p _ => ?_, fun p => ?_, 0, hW2, fun i p _ j out _ ho => hends _ (r.reach j) p out ho⟩
    · refine weak _ fun t h => h.2 ?_
      obtain ⟨f, mem', pool', -, -, hr, ho, -⟩ := C113_refines hr'
      show t.sys.pg.st.pc = s'.sys.pg.st.pc
      rcases net_down h.1 ho with h' | h'
      · rw [h']
      · rw [(sys_pc hr h').1 epc, epc]
    · exact weak _ fun t h => h.2 erc
    · refine weak _ fun t h => h.2 ?_
      obtain ⟨a1, a2, a3, a4, a5, a6, a7⟩ := rest t h.1
      simp only [a1, a2]
    · refine weak _ fun t h => h.1.2 ?_
      obtain ⟨a1, a2, a3, a4, a5, a6, a7⟩ := rest t h.1.1
      simp only [a2]
    · refine strong _ fun t ⟨p, _, h⟩ => h.2 ?_
      obtain ⟨a1, a2, a3, a4, a5, a6, a7⟩ := rest t h.1
      simp only [a2, a3]
    · refine weak _ fun t h => h.2 ?_
      obtain ⟨a1, a2, a3, a4, a5, a6, a7⟩ := rest t h.1
      simp only [a4, a5]
    · refine weak _ fun t h => h.1.2 ?_
      obtain ⟨a1, a2, a3, a4, a5, a6, a7⟩ := rest t h.1.1
      simp only [a5]
    · refine weak _ fun t h => h.2 ?_
      obtain ⟨a1, a2, a3, a4, a5, a6, a7⟩ := rest t h.1
      simp only [a5, a6]
    · refine weak _ fun t h => h.2 ?_
      obtain ⟨a1, a2, a3, a4, a5, a6, a7⟩ := rest t h.1
      simp only [a7]
  obtain ⟨conn', mem', pool', F', -⟩ := C114_fair_refines F
  obtain ⟨O', hO', W⟩ := F'.whole
  refine ⟨e, N, F, by rw [hN N (Nat.le_refl N), egot, h1], fun m k hf => ?_⟩
  have := W.settled (by omega : m ≤ N + m) (.inr hf)
  simp only [hN (N + m) (by omega)] at this
  rcases hpc k with h | h <;> rw [h, hf] at this <;> cases this

end

/-! ## A concrete case -/

theorem exSysNet_flush {s : SysNetSt} {port : Int} {fs0 : Bytes → Option Bytes} (h : SysNetReach exSysNet port fs0 s) {p : Nat} {hash d : Bytes}
    (ho : s.outcome exSysNet p = some (.flush hash d)) : p < 2 ∧ hash = hexEncode (sha1Sum (exSysNetMeta p)) := by
  obtain ⟨job, l, he⟩ := outcome_job ho
  obtain ⟨hp, rfl⟩ := exSysNet_job h he
  refine ⟨hp, ?_⟩
  have htask : s.sys.task exSysNet p = some (exSysNetTask p) := by unfold SysSt.task; rw [he]; simp only [exSysNet_args hp]; rfl
  have ho' := ho
  unfold SysNetSt.outcome at ho
  rw [he] at ho
  simp only [exSysNet_args hp] at ho
  rw [if_neg (show ¬ (exSysNet.conn p b!"10.0.0.1:6881").dialFails = true by rw [show (exSysNet.conn p b!"10.0.0.1:6881").dialFails = false from rfl]; simp)] at ho
  split at ho
  · rename_i o hd
    obtain ⟨data, -, h2⟩ := C113_complete h htask hd (exSysNet_fed hp) 2 2 _ (exSysNet_verdict hp) (by show 24 ≤ 2 ^ 48; decide)
    rw [ho'] at h2
    have h2 := Option.some.inj h2
    split at h2
    · injection h2
    · cases h2
  · cases ho

/-- Non-vacuity of `C114_socket_to_disk`: a fair execution of the whole program in which five datagrams are read, the first two of them announces of different torrents; both downloads come
out, in whichever way they take turns, and what they have got with the announced hash is in the files for ever. -/
theorem C114_example : ∃ e : Nat → SysNetSt, FairNet exSysNet 21000 (fun _ => none) e ∧ (∃ i, (e i).sys.pg.got.length = 5) ∧
    ∀ p, p < 2 → ∃ j data, data.length = 24 ∧
      (sha1Sum data = sha1Sum (exSysNetMeta p) → ∀ m, j ≤ m →
        (e m).sys.fs.fs (b!"torrent/" ++ hexEncode (sha1Sum (exSysNetMeta p)) ++ b!".torrent") = some data) ∧
      (sha1Sum data ≠ sha1Sum (exSysNetMeta p) → ∀ m, j ≤ m → (e m).outcome exSysNet p = some .nothing) := by
  obtain ⟨e, N, F, hN, hno⟩ := C114_fair_runs (S := exSysNet) (port := 21000) (fs0 := fun _ => none) (by decide) (by decide) realH_history.1 (by simp [exSysNet]) rfl
    (exSysNet_ends _ _) 5
  have hone : ∀ i, (e i).OneDataPerHash exSysNet := by
    intro i p q hash d d' a b
    obtain ⟨hp, h1⟩ := exSysNet_flush (F.reach i) a
    obtain ⟨hq, h2⟩ := exSysNet_flush (F.reach i) b
    have hpq : p = q := by
      have hne : hexEncode (sha1Sum exMeta) ≠ hexEncode (sha1Sum exMeta2) := by decide +kernel
      have hp' : p = 0 ∨ p = 1 := by omega
      have hq' : q = 0 ∨ q = 1 := by omega
      rcases hp' with rfl | rfl <;> rcases hq' with rfl | rfl
      · rfl
      · exact absurd (h1.symm.trans h2) hne
      · exact absurd (h2.symm.trans h1) hne
      · rfl
    subst hpq
    rw [a] at b; cases b; rfl
  refine ⟨e, F, ⟨N, hN⟩, fun p hp => ?_⟩
  have hlast : (asMap (exSysNetJob (exSysNetMeta p)).req.body).lookup b!"info_hash" = some (.str (sha1Sum (exSysNetMeta p))) := rfl
  have haddr : parseFetchAddr exSysNet.K.env (exSysNetJob (exSysNetMeta p)) = .ok b!"10.0.0.1:6881" := by
    have hp' : p = 0 ∨ p = 1 := by omega
    rcases hp' with rfl | rfl <;> decide +kernel
  obtain ⟨j, data, -, h1, h2, h3⟩ := C114_socket_to_disk (by decide) F hone (i := N) (p := p) (by omega) (exSysNet_announce hp) hlast haddr (exSysNet_fed hp) 2 2 _
    (exSysNet_verdict hp) (by show 24 ≤ 2 ^ 48; decide) hno ⟨2, fun k hk job' hj' => absurd hj' (exSysNet_garbage (by omega) job')⟩
  refine ⟨j, data, ?_, h2, h3⟩
  rw [h1]
  have hp' : p = 0 ∨ p = 1 := by omega
  rcases hp' with rfl | rfl <;> decide +kernel

end P2P

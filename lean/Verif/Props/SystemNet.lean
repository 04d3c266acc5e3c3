import Verif.Lemmas.SystemNetInv
import Verif.Props.System
/-! # C113: the whole crawler, its downloads running step by step

`Model/SystemNet` is the whole program with its downloads taking turns on the buffers they share. It does what `Model/System` does with some interference of other,
proper users of the pool (`OthersDo`), so that what was proved there holds here; and what C111 and C112 say of downloads taking turns is true of these. -/
namespace P2P

theorem own_fresh {x : Shared} (h : NewBytesPool 10000 4 0 = .ok x.2) : Own [] x := by
  have e : x.2 = { chans := [(4, [])], defaultWidth := 4, maxSize := 10000, fresh := 0 } := by
    have : NewBytesPool 10000 4 0 = .ok { chans := [(4, [])], defaultWidth := 4, maxSize := 10000, fresh := 0 } := by decide
    rw [this] at h
    exact (Res.ok.inj h).symm
  obtain ⟨mem, pool⟩ := x
  simp only at e
  subst e
  refine ⟨fun i c hc b hb => ?_, List.nodup_nil, fun a ha => nomatch ha⟩
  unfold BPool.chan at hc
  simp only [List.lookup] at hc
  split at hc
  · cases hc; cases hb
  · cases hc

section
variable {S : SysEnv} {port : Int} {fs0 : Bytes → Option Bytes} {s : SysNetSt}

/-- every execution's downloads, by themselves -/
theorem net_alone (h : SysNetReach S port fs0 s) :
    ∃ (N : Nat) (τ : Nat → Task) (x : Shared), (∀ p, N ≤ p → s.dl p = .idle) ∧ (∀ p t, s.sys.task S p = some t → τ p = t) ∧ Own [] x ∧
      NewBytesPool 10000 4 0 = .ok x.2 ∧ Reach (· = Net.fresh x ((List.range N).map τ)) (fun n m => TurnStepAny ((List.range N).map τ) n m ∧ m.busy ≤ S.W2) (s.net N) := by
  obtain ⟨-, -, -, N, hN⟩ := dlInv h
  have hτ : ∀ p t, s.sys.task S p = some t → (fun p => (s.sys.task S p).getD (S.task p [] [])) p = t := by
    intro p t ht
    simp only [ht, Option.getD_some]
  obtain ⟨x, hx, hr⟩ := net_turns h N hN _ hτ
  exact ⟨N, _, x, hN, hτ, own_fresh hx, hx, hr⟩

theorem forget_busy {P : Nat} {tasks : List Task} {init : Net → Prop} {n : Net} (h : Reach init (fun n m => TurnStepAny tasks n m ∧ m.busy ≤ P) n) :
    Reach init (TurnStepAny tasks) n := by
  induction h with
  | init h => exact .init h
  | step _ hs ih => exact .step ih hs.1

/-- **C113** The download for packet `p` is what its task makes of it, among downloads taking turns: what C111 says of such holds of it. -/
theorem C113_ended (h : SysNetReach S port fs0 s) {p : Nat} {o : POut (Option Bytes × Option Bytes)} (hp : s.dl p = .running (.done o)) :
    ∃ t tasks, s.sys.task S p = some t ∧ Ended tasks p t o := by
  obtain ⟨N, τ, x, hN, hτ, hx, -, hr⟩ := net_alone h
  obtain ⟨t, ht, -⟩ := (dlInv h).task p _ hp
  have hlt : p < N := Classical.byContradiction fun hlt => by
    have := hN p (by omega)
    rw [hp] at this; cases this
  refine ⟨t, _, ht, ?_, x, _, hx, forget_busy hr, ?_⟩
  · rw [List.getElem?_map, List.getElem?_range hlt]; exact congrArg some (hτ p t ht)
  · show ((List.range N).map s.dl)[p]? = _
    rw [List.getElem?_map, List.getElem?_range hlt]; exact congrArg some hp

/-- what each download has done so far is the beginning of what a whole call does among proper users of the pool; if it has ended, it is what that call does -/
theorem net_each (h : SysNetReach S port fs0 s) (p : Nat) :
    ∃ (f : List PEvent → Shared → Shared) (mem : Nat → Bytes) (pool : BPool), (∀ tr y, Own (heldP tr) y → OthersDo (heldP tr) y (f tr y)) ∧ Own [] (mem, pool) ∧
      ∀ t st, s.sys.task S p = some t → s.dl p = .running st →
        ∃ o, FetchMetaData (t.E.among f) t.sha1 t.fold t.fuel t.peerId t.infoHash mem pool = .of o ∧ st.state.trace <+: o.state.trace ∧ ∀ o', st = .done o' → o = o' := by
  obtain ⟨N, τ, x, hN, hτ, hx, -, hr⟩ := net_alone h
  cases hp : s.dl p with
  | idle => exact ⟨fun _ y => y, x.1, x.2, fun _ y _ => .nothing y, hx, fun t st _ h => nomatch h⟩
  | running st =>
    obtain ⟨t, ht, hd⟩ := (dlInv h).task p _ hp
    have hlt : p < N := Classical.byContradiction fun hlt => by
      have := hN p (by omega)
      rw [hp] at this; cases this
    have htask : ((List.range N).map τ)[p]? = some t := by rw [List.getElem?_map, List.getElem?_range hlt]; exact congrArg some (hτ p t ht)
    have hth : (s.net N).threads[p]? = some (.running st) := by
      show ((List.range N).map s.dl)[p]? = _
      rw [List.getElem?_map, List.getElem?_range hlt]; exact congrArg some hp
    cases st with
    | done o =>
      obtain ⟨f, mem, pool, h1, h2, -, h3⟩ := C111_any_interleaving _ _ x hx _ (reach_true (forget_busy hr)) p t htask o hth
      refine ⟨f, mem, pool, h1, h2, fun t' st' ht' hst' => ?_⟩
      rw [ht] at ht'; cases ht'
      simp only [Thread.running.injEq] at hst'
      subst hst'
      exact ⟨o, h3, by cases o <;> exact List.prefix_refl _, fun o' e => by injection e⟩
    | wait s' k =>
      obtain ⟨f, mem, pool, o, h1, h2, h3, -, h4⟩ := C112_so_far _ x hx _ (forget_busy hr) p t htask _ hth
      refine ⟨f, mem, pool, h1, h2, fun t' st' ht' hst' => ?_⟩
      rw [ht] at ht'; cases ht'
      simp only [Thread.running.injEq] at hst'
      subst hst'
      exact ⟨o, h3, h4, fun o' e => nomatch e⟩

/-- the job that led to something, and to what -/
theorem outcome_eq {conn : Nat → Bytes → PEnv} {mem : Nat → Nat → Bytes} {pool : Nat → BPool} {p : Nat} {out : HandlerOut}
    {f : List PEvent → Shared → Shared} (hconn : conn p = fun laddr => (S.conn p laddr).among f)
    (hx : ∀ t st, s.sys.task S p = some t → s.dl p = .running st →
        ∃ o, FetchMetaData (t.E.among f) t.sha1 t.fold t.fuel t.peerId t.infoHash (mem p) (pool p) = .of o ∧ st.state.trace <+: o.state.trace ∧ ∀ o', st = .done o' → o = o')
    (ho : s.outcome S p = some out) : s.sys.outs (S.instead conn mem pool) p = out := by
  unfold SysNetSt.outcome at ho
  unfold SysSt.outs
  unfold SysSt.task at hx
  cases he : enqueued (logOf p s.sys.pl.log) with
  | nil => rw [he] at ho; cases ho
  | cons job l =>
    rw [he] at ho hx
    simp only at ho hx ⊢
    rw [fetchHandler_eq]
    show (match fetchArgs S.K.env job with
      | .ok a => afterFetch a.1 (FetchMetaData (conn p a.2) sha1Sum S.K.env.fold S.fuel LocalPeerId a.1 (mem p) (pool p))
      | .err _ => .nothing
      | .panic _ => .nothing
      | .diverge => .diverge) = out
    cases ha : fetchArgs S.K.env job with
    | ok a =>
      rw [ha] at ho hx
      simp only at ho hx ⊢
      rw [hconn]
      by_cases hd : (S.conn p a.2).dialFails = true
      · rw [if_pos hd] at ho
        have : FetchMetaData ((S.conn p a.2).among f) sha1Sum S.K.env.fold S.fuel LocalPeerId a.1 (mem p) (pool p) = .dialErr := by
          unfold FetchMetaData
          rw [if_pos (show ((S.conn p a.2).among f).dialFails = true from hd)]
        rw [this]
        exact Option.some.inj ho
      · rw [if_neg hd] at ho
        cases hdl : s.dl p with
        | idle => rw [hdl] at ho; cases ho
        | running st =>
          cases st with
          | wait _ _ => rw [hdl] at ho; cases ho
          | done o =>
            rw [hdl] at ho
            obtain ⟨o', h1, -, h3⟩ := hx _ _ rfl hdl
            have := h3 o rfl
            subst this
            have h1 : FetchMetaData ((S.conn p a.2).among f) sha1Sum S.K.env.fold S.fuel LocalPeerId a.1 (mem p) (pool p) = .of o' := h1
            rw [h1]
            exact Option.some.inj ho
    | err _ => rw [ha] at ho; exact Option.some.inj ho
    | panic _ => rw [ha] at ho; exact Option.some.inj ho
    | diverge => rw [ha] at ho; exact Option.some.inj ho

/-- **C113** An execution in which the downloads take turns is one of `Model/System`: with the same peers, where to each download the others do something (`f p`) that proper
users of the pool may do, and nothing else. Each download that has ended has led to what it leads to there, each other one is somewhere on the way. So C101 holds of
this execution too. -/
theorem C113_refines (h : SysNetReach S port fs0 s) :
    ∃ (f : Nat → List PEvent → Shared → Shared) (mem : Nat → Nat → Bytes) (pool : Nat → BPool),
      (∀ p tr y, Own (heldP tr) y → OthersDo (heldP tr) y (f p tr y)) ∧ (∀ p, Own [] (mem p, pool p)) ∧
      SysReach (S.instead (fun p laddr => (S.conn p laddr).among (f p)) mem pool) port fs0 s.sys ∧
      (∀ p out, s.outcome S p = some out → s.sys.outs (S.instead (fun p laddr => (S.conn p laddr).among (f p)) mem pool) p = out) ∧
      (∀ p t st, s.sys.task S p = some t → s.dl p = .running st →
        ∃ o, FetchMetaData (t.E.among (f p)) t.sha1 t.fold t.fuel t.peerId t.infoHash (mem p) (pool p) = .of o ∧ st.state.trace <+: o.state.trace) := by
  obtain ⟨f, hf⟩ := Classical.axiomOfChoice (net_each h)
  obtain ⟨mem, hm⟩ := Classical.axiomOfChoice hf
  obtain ⟨pool, hp⟩ := Classical.axiomOfChoice hm
  have ho : ∀ p out, s.outcome S p = some out → s.sys.outs (S.instead (fun p laddr => (S.conn p laddr).among (f p)) mem pool) p = out :=
    fun p out ho => outcome_eq (f := f p) rfl (hp p).2.2 ho
  refine ⟨f, mem, pool, fun p => (hp p).1, fun p => (hp p).2.1, net_refines _ _ _ h ho, ho, fun p t st ht hst => ?_⟩
  obtain ⟨o, h1, h2, -⟩ := (hp p).2.2 t st ht hst
  exact ⟨o, h1, h2⟩

/-- no two downloads of this execution have delivered different data with the same SHA-1 hash -/
def SysNetSt.OneDataPerHash (S : SysEnv) (s : SysNetSt) : Prop :=
  ∀ p q hash d d', s.outcome S p = some (.flush hash d) → s.outcome S q = some (.flush hash d') → d = d'

/-- `S`, where to each download is done what was done in this execution, and nobody else is there -/
theorem net_closed (h : SysNetReach S port fs0 s) :
    ∃ (conn : Nat → Bytes → PEnv) (mem : Nat → Nat → Bytes) (pool : Nat → BPool), SysReach (S.instead conn mem pool) port fs0 s.sys ∧
      (∀ p job hash d, IsAnnounce (S.pkts p) job →
        fetchHandler S.K.env (conn p) sha1Sum S.fuel LocalPeerId (mem p) (pool p) job = .flush hash d → s.outcome S p = some (.flush hash d)) := by
  obtain ⟨f, hf⟩ := Classical.axiomOfChoice (net_each h)
  obtain ⟨mem, hm⟩ := Classical.axiomOfChoice hf
  obtain ⟨pool, hp⟩ := Classical.axiomOfChoice hm
  have hconn : ∃ conn : Nat → Bytes → PEnv, ∀ p, (s.outcome S p ≠ none → conn p = fun laddr => (S.conn p laddr).among (f p)) ∧
      (s.outcome S p = none → ∀ laddr, (conn p laddr).dialFails = true) := by
    refine ⟨fun p laddr => match s.outcome S p with | some _ => (S.conn p laddr).among (f p) | none => { S.conn p laddr with dialFails := true }, fun p => ⟨fun hne => ?_, fun hn laddr => ?_⟩⟩
    · cases e : s.outcome S p with
      | none => exact absurd e hne
      | some _ => funext laddr; simp only [e]
    · simp only [hn]
  obtain ⟨conn, hconn⟩ := hconn
  have ho : ∀ p out, s.outcome S p = some out → s.sys.outs (S.instead conn mem pool) p = out := by
    intro p out ho
    exact outcome_eq (f := f p) ((hconn p).1 (by rw [ho]; simp)) (hp p).2.2 ho
  have hr := net_refines conn mem pool h ho
  refine ⟨conn, mem, pool, hr, fun p job hash d hj hfl => ?_⟩
  cases hout : s.outcome S p with
  | none =>
    exfalso
    rw [fetchHandler_eq] at hfl
    cases ha : fetchArgs S.K.env job with
    | ok a =>
      rw [ha] at hfl
      simp only at hfl
      have : FetchMetaData (conn p a.2) sha1Sum S.K.env.fold S.fuel LocalPeerId a.1 (mem p) (pool p) = .dialErr := by
        unfold FetchMetaData
        rw [if_pos ((hconn p).2 hout a.2)]
      rw [this] at hfl
      cases hfl
    | _ => rw [ha] at hfl; cases hfl
  | some out =>
    obtain ⟨job', l, he⟩ := outcome_job hout
    obtain ⟨O, hO, hc⟩ := sys_crawler hr
    have I := pl_inv (C92_refines hc).1
    have hj' : IsAnnounce (S.pkts p) job' := by
      rcases crawlTraces_spec S.K hO S.pkts p with ⟨job'', bb, f', hj'', e'⟩ | ⟨hn, -⟩
      · have hm : Event.enqueue job' ∈ logOf p s.sys.pl.log := by
          have : job' ∈ enqueued (logOf p s.sys.pl.log) := by rw [he]; exact List.mem_cons_self ..
          obtain ⟨e, hel, hee⟩ := List.mem_filterMap.1 this
          cases e <;> simp at hee
          subst hee; exact hel
        have hlog : logOf p s.sys.pl.log = (crawlTraces S.K O S.pkts p).take (s.sys.pl.hdl p) := I.log p
        rw [hlog] at hm
        have hm := List.mem_of_mem_take hm
        rw [e'] at hm
        simp at hm
        rw [hm]; exact hj''
      · exact absurd hj (hn job)
    have := hj.unique hj'
    subst this
    have e := ho p out hout
    unfold SysSt.outs at e
    rw [he] at e
    have e : fetchHandler S.K.env (conn p) sha1Sum S.fuel LocalPeerId (mem p) (pool p) job = out := e
    rw [e] at hfl
    rw [hfl]

/-- **C113** From the socket to the disk, where the downloads take turns: a file is as it was at the start of the process, or it comes from one of the datagrams read from the
socket, an announce_peer query, **whose download in this execution delivered** data with the announced hash; the file is named after the hash and holds nothing but
bytes, at their places, of this data, or zeros. -/
theorem C113_files (h : SysNetReach S port fs0 s) (hone : s.OneDataPerHash S) (path : Bytes) :
    s.sys.fs.fs path = fs0 path ∨
    ∃ p job infoHash r data c, s.sys.pg.got[p]? = some (S.pkts p) ∧ s.sys.pg.st.pc = .listen ∧ IsAnnounce (S.pkts p) job ∧
      (asMap job.req.body).lookup b!"info_hash" = some (.str infoHash) ∧ infoHash.length = 20 ∧
      Recorded S.K.env (S.pkts p) r ∧ r.kind = b!"announce_peer" ∧ (p, Event.record r) ∈ s.sys.pl.log ∧ p ∈ s.sys.pl.p2.started ∧
      IsHexOf r.infoHash infoHash ∧ path = b!"torrent/" ++ r.infoHash ++ b!".torrent" ∧ s.outcome S p = some (.flush r.infoHash data) ∧ sha1Sum data = infoHash ∧
      s.sys.fs.fs path = some c ∧ c.length ≤ data.length ∧ ∀ i : Nat, c[i]? = none ∨ c[i]? = some 0 ∨ c[i]? = data[i]? := by
  obtain ⟨conn, mem, pool, hr, hfl⟩ := net_closed h
  have hsame : (S.instead conn mem pool).OneDataPerHash := fun p q job job' hash d d' a b c e => hone p q hash d d' (hfl p job hash d a c) (hfl q job' hash d' b e)
  obtain ⟨O, hO, hc⟩ := sys_crawler hr
  obtain ⟨hpl, hfs⟩ := C92_refines hc
  have I := fs_inv (hsame.same hO) hfs
  cases ho : s.sys.fs.owner path with
  | none => exact .inl (I.untouched path ho)
  | some p =>
    obtain ⟨hash, data, c, a1, a2, a3, a4, a5, -, a7⟩ := I.owned path p ho
    obtain ⟨job, hj, hfl'⟩ := crawlOut_flush S.K hO S.pkts conn sha1Sum S.fuel LocalPeerId mem pool a1
    obtain ⟨ih, b1, b2, b3, b4⟩ := C46_flush _ _ _ _ _ _ _ _ _ _ hfl'
    have hst := (cr_inv hc).started p a7
    obtain ⟨job', r, c1, c2, c3, c4, c5⟩ := C69_file_recorded S.K hO S.pkts hpl p hst
    have := c1.unique hj; subst this
    have hr' := c5 _ _ _ _ _ _ _ _ hfl'
    obtain ⟨hpre, -, hacc⟩ := C62_downloads S.K hO S.pkts hpl
    have hlt : p < s.sys.pl.arrived := (hacc p (hpre.subset hst)).1
    refine .inr ⟨p, job', ih, r, data, c, ?_, ?_, hj, b1, b2, c2, c3, c4, hst, by rw [hr']; exact b3, by rw [hr']; exact a2, by rw [hr']; exact hfl p job' hash data hj hfl', b4, a3, a4, a5⟩
    · obtain ⟨d1, d2, -⟩ := C101_datagrams hr
      rw [d1, List.getElem?_map, List.getElem?_range (by omega)]
      rfl
    · refine Classical.byContradiction fun hn => ?_
      have e : s.sys.pl.log = [] := (C101_bootstrap_first hr hn).1
      have c4 : (p, Event.record r) ∈ s.sys.pl.log := c4
      rw [e] at c4
      cases c4

/-- **C113** However many announces there are, over the whole life of the process: never more big receive buffers than download workers, those in the pool and those that
running downloads have taken together. -/
theorem C113_memory (h : SysNetReach S port fs0 s) (N : Nat) : inPool maxReadLength s.shared.2 + (((List.range N).map s.dl).map Thread.inUse).sum ≤ S.W2 := by
  obtain ⟨M, τ, x, hM, -, hx, hfresh, hr⟩ := net_alone h
  have h0 : inPool maxReadLength x.2 = 0 := by
    unfold inPool
    cases hc : x.2.chan maxReadLength with
    | none => rfl
    | some c => rw [(new_ok hfresh).2.2 _ c hc]; rfl
  have key := C112_memory _ x hx S.W2 (by omega) _ hr
  have hle : (((List.range N).map s.dl).map Thread.inUse).sum ≤ (((List.range M).map s.dl).map Thread.inUse).sum := by
    have grow : ∀ a b, (((List.range a).map s.dl).map Thread.inUse).sum ≤ (((List.range (a + b)).map s.dl).map Thread.inUse).sum := by
      intro a b
      induction b with
      | zero => exact Nat.le_refl _
      | succ b ih =>
        rw [← Nat.add_assoc, List.range_succ]
        simp only [List.map_append, List.sum_append]
        omega
    have zero : ∀ b, (((List.range (M + b)).map s.dl).map Thread.inUse).sum = (((List.range M).map s.dl).map Thread.inUse).sum := by
      intro b
      induction b with
      | zero => rfl
      | succ b ih =>
        rw [← Nat.add_assoc, List.range_succ]
        simp only [List.map_append, List.sum_append, ih, List.map_cons, List.map_nil, hM (M + b) (by omega)]
        rfl
    rw [← zero N, Nat.add_comm M N]
    exact grow N M
  have key : inPool maxReadLength s.shared.2 + (((List.range M).map s.dl).map Thread.inUse).sum ≤ S.W2 := key
  omega

/-- **C113** No buffer is in two hands: what a running download holds, no other one holds, and it is not in the pool. -/
theorem C113_exclusive (h : SysNetReach S port fs0 s) {p a : Nat} (ha : a ∈ (s.dl p).held) :
    a ∉ pooled s.shared.2 ∧ (s.dl p).held.Nodup ∧ ∀ q, q ≠ p → a ∉ (s.dl q).held := by
  obtain ⟨N, τ, x, hN, -, hx, -, hr⟩ := net_alone h
  have key := C111_exclusive _ x hx _ (forget_busy hr)
  have key : (((List.range N).map s.dl).flatMap Thread.held ++ pooled s.shared.2).Nodup := key
  have hlt : ∀ {q b}, b ∈ (s.dl q).held → q < N := by
    intro q b hb
    refine Classical.byContradiction fun hq => ?_
    rw [hN q (by omega)] at hb
    cases hb
  have hget : ∀ {q}, q < N → ((List.range N).map s.dl)[q]? = some (s.dl q) := fun hq => by rw [List.getElem?_map, List.getElem?_range hq]; rfl
  obtain ⟨k1, k2, k3⟩ := List.nodup_append.1 key
  have hp := perm_eraseIdx Thread.held _ p _ (hget (hlt ha))
  have k1 := (hp.nodup_iff).1 k1
  obtain ⟨m1, m2, m3⟩ := List.nodup_append.1 k1
  refine ⟨fun hpool => k3 a ?_ a hpool rfl, m1, fun q hq hqa => ?_⟩
  · exact hp.mem_iff.2 (List.mem_append_left _ ha)
  · have hm := mem_heldElse (n := s.net N) (hget (hlt hqa)) hq hqa
    exact m3 a ha a hm rfl

/-- **C113** A peer that sends all announced pieces: once its download has ended, the program writes `data`, of the right length, if this has the announced hash, and nothing
otherwise – whatever all other downloads did meanwhile. -/
theorem C113_complete (h : SysNetReach S port fs0 s) {p : Nat} {t : Task} (ht : s.sys.task S p = some t) {o : POut (Option Bytes × Option Bytes)}
    (hp : s.dl p = .running (.done o)) {hs : Bytes} {bodies : List Bytes} (hf : Fed t hs bodies) (n k : Nat) (g : Received)
    (hv : verdict 0 0 .start bodies = .complete n k g) (hsz : g.size ≤ 2 ^ 48) :
    ∃ data, data.length = g.content.length ∧ s.outcome S p = some (if sha1Sum data = t.infoHash then .flush (hexEncode t.infoHash) data else .nothing) := by
  obtain ⟨t', tasks, ht', he⟩ := C113_ended h hp
  rw [ht] at ht'; cases ht'
  obtain ⟨data, st, h1, h2, -⟩ := C111_complete he hf n k g hv hsz
  refine ⟨data, h1, ?_⟩
  have hd := hf.dial
  unfold SysSt.task at ht
  unfold SysNetSt.outcome
  cases hj : enqueued (logOf p s.sys.pl.log) with
  | nil => rw [hj] at ht; cases ht
  | cons job l =>
    rw [hj] at ht
    simp only at ht ⊢
    cases ha : fetchArgs S.K.env job with
    | ok a =>
      rw [ha] at ht
      simp only [Option.some.injEq] at ht ⊢
      subst ht
      have hd : (S.conn p a.2).dialFails = false := hd
      rw [hd, hp]
      have h2 : FetchOut.of o = if sha1Sum data = a.1 then .returned (some data) none st else .returned none (some b!"check sum err") st := h2
      simp only [h2]
      show some _ = some (if sha1Sum data = a.1 then HandlerOut.flush (hexEncode a.1) data else .nothing)
      by_cases hsum : sha1Sum data = a.1
      · rw [if_pos hsum, if_pos hsum]; rfl
      · rw [if_neg hsum, if_neg hsum]; rfl
    | _ => rw [ha] at ht; cases ht

end

end P2P

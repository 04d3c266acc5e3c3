import Verif.Lemmas.SystemSettle
import Verif.Lemmas.SystemHistory
import Verif.Props.Origin
/-! # C101: the whole crawler is one system

The parts of the model (`Model/Program`, `Model/Pipeline`, `Model/Whole`, the shared objects) run together as the program runs them. So what has been
proved of each part for itself holds of the whole, at the same time; and what none of them can say alone can be said here. -/
namespace P2P

section
variable {S : SysEnv} {port : Int} {fs0 : Bytes → Option Bytes} {s : SysSt}

/-! ## The whole refines its parts -/

/-- **C101** The life of the process is that of `Model/Program` (C63, C83, C87, C100 speak of it). -/
theorem C101_program (h : SysReach S port fs0 s) : PgReach S.K S.hosts s.pg := sys_program h

/-- **C101** Packets, handlers, downloads and files are those of `Model/Pipeline` and `Model/Whole` (C62, C92 speak of them), with some answers of the shared
objects. -/
theorem C101_crawler (h : SysReach S port fs0 s) :
    ∃ O : Nat → Oracle, (∀ p, (O p).Fair) ∧
      CrReach (crawlTraces S.K O S.pkts) (crawlOut S.K O S.pkts S.conn sha1Sum S.fuel LocalPeerId S.mem S.pool) S.dir fs0 S.W1 S.Q S.W2 ⟨s.pl, s.fs⟩ :=
  sys_crawler h

/-- **C101** What the bootstrap calls and the handlers have done to the pending requests, the transaction counter and the route table is a history in the sense of
C30, C31, C82 and C89, from the objects as package initialisation leaves them. Who did what: the handler of packet `p` is goroutine `2 p + 1` of it, the
bootstrap call for host `k` is goroutine `2 k`. -/
theorem C101_history (h : SysReach S port fs0 s) :
    (∃ w0 : World, initialTable port = .ok w0.table ∧ w0.reqs = [] ∧ w0.txId = 1000 ∧ History S.K w0 s.w s.history) ∧
    s.history = s.pg.st.boots.zipIdx.flatMap (fun x => x.1.map fun e => (2 * x.2, e)) ++ s.pl.log.map (fun x => (2 * x.1 + 1, x.2)) ∧
    (∀ p, Doing S.K s.history (2 * p + 1) (.packet (S.pkts p))) ∧
    (∀ k a, S.hosts[k]? = some a → Doing S.K s.history (2 * k) (.bootstrap a)) :=
  ⟨sys_history h, rfl, (sys_doing h).1, (sys_doing h).2.1⟩

/-! ## Every datagram, from the socket to its handler -/

/-- **C101** Where the datagrams are. Those read are the first `n` the network has sent; all of them but possibly the last, which the receive goroutine still holds, have
entered the pipeline, in the order in which they were read; those whose handler has returned are `finished`, each once; at most `2 W1 + 102` have been
read and are not finished. -/
theorem C101_datagrams (h : SysReach S port fs0 s) :
    s.pg.got = (List.range s.pg.got.length).map S.pkts ∧
    s.pl.arrived ≤ s.pg.got.length ∧ s.pg.got.length ≤ s.pl.arrived + 1 ∧
    (s.pg.got.length = s.pl.arrived + 1 ↔ ∃ x, s.pg.rcv = .sending x) ∧
    s.pl.p1.started ++ s.pl.p1.queue ++ s.pl.l.item ++ s.pl.recvq = List.range s.pl.arrived ∧
    s.pl.p1.finished.Nodup ∧ (∀ p ∈ s.pl.p1.finished, p ∈ s.pl.p1.started) ∧
    s.pg.got.length ≤ s.pl.p1.finished.length + (2 * S.W1 + 102) := by
  obtain ⟨O, hO, hc⟩ := sys_crawler h
  have hpl := (C92_refines hc).1
  have link := sys_link h
  have lost := congrArg List.length (C83_none_lost (sys_program h))
  have hlen : s.pg.st.taken.length + s.pg.st.queue.length = s.pl.arrived := by
    rw [link.queue, List.length_map]; exact link.taken
  obtain ⟨f1, f2, f3, f4, -⟩ := C48_fifo_once (pl_inv hpl).reach1
  have bound : s.pl.arrived ≤ s.pl.p1.finished.length + (2 * S.W1 + 1 + 100) := (C62_bounded hpl).1
  have sub : ∀ p ∈ s.pl.p1.finished, p ∈ s.pl.p1.started := fun p hp => f4.mem_iff.2 (List.mem_append_left _ hp)
  have nd : s.pl.p1.finished.Nodup := by
    have hst : s.pl.p1.started.Nodup := by
      have := List.nodup_range (n := s.pl.arrived)
      rw [← (C62_fifo hpl).1] at this
      exact ((List.nodup_append.1 (List.nodup_append.1 (List.nodup_append.1 this).1).1).1)
    exact (List.nodup_append.1 (f4.nodup_iff.1 hst)).1
  refine ⟨link.got, ?_, ?_, ?_, (C62_fifo hpl).1, nd, sub, ?_⟩
  all_goals
    revert lost
    cases s.pg.rcv <;> simp only [List.length_append, List.length_map, List.length_cons, List.length_nil] <;> intro lost
  all_goals first | omega | skip
  all_goals first
    | exact ⟨fun h => by omega, fun ⟨x, hx⟩ => nomatch hx⟩
    | exact ⟨fun _ => ⟨_, rfl⟩, fun _ => by omega⟩

/-- **C101** Before the server listens – while the program bootstraps and registers its handlers – no packet is handled, nothing is downloaded and no file is touched; what
has arrived waits. -/
theorem C101_bootstrap_first (h : SysReach S port fs0 s) (hl : s.pg.st.pc ≠ .listen) :
    s.pl.log = [] ∧ s.pl.p1.started = [] ∧ s.pl.p2.started = [] ∧ s.fs.fs = fs0 ∧ s.pl.recvq = List.range s.pl.arrived := by
  obtain ⟨-, a1, a2, a3, a4, a5, a6⟩ := sys_quiet h hl
  obtain ⟨O, hO, hc⟩ := sys_crawler h
  have hpl := (C92_refines hc).1
  refine ⟨a4, a3, a6, ?_, ?_⟩
  · have hst : ∀ p, s.fs.pc p = .start := by
      intro p
      refine Classical.byContradiction fun hne => ?_
      have := (cr_inv hc).started p hne
      rw [show (CrSt.mk s.pl s.fs).pl.p2.started = [] from a6] at this
      cases this
    have key : (∀ p, s.fs.pc p = .start) → s.fs.fs = fs0 := by
      refine (C92_refines hc).2.inv (fun f : FsSt => (∀ p, f.pc p = .start) → f.fs = fs0) (fun f hf _ => hf.1) ?_
      intro f g ih st hg
      cases st with
      | create j hash data _ _ => have := hg j; simp at this
      | createFails j hash data _ _ => have := hg j; simp at this
      | write j hash data c off n _ _ _ _ _ => have := hg j; simp at this
      | finish j hash data off _ _ _ => have := hg j; simp at this
      | writeFails j hash data off _ _ => have := hg j; simp at this
    exact key hst
  · have := (C62_fifo hpl).1
    simp only at this
    have hq : s.pl.p1.queue = [] := by
      have := (wp_inv (pl_inv hpl).reach1).fifo
      simp only at this
      rw [a1] at this
      exact (List.append_eq_nil_iff.1 this.symm).2
    rw [a3, hq, a2] at this
    simpa [FwdPc.item] using this

/-! ## The end -/

/-- **C101** Nothing happens after the end of the process. -/
theorem C101_ended (h : ¬ s.up) (t : SysSt) : ¬ SysStep S s t := by
  intro st
  cases st <;> exact h ‹s.up›

/-- **C101** What ends the process: a bootstrap host that does not resolve or cannot be written to; `main` returning after a signal; a clean-up function
registered while the clean-ups are run (C60, C83); no memory for a download. **No datagram, no handler, no file and no other download does**; and the end leaves the files and
the work as they are. -/
theorem C101_what_ends_it (h : SysReach S port fs0 s) {t : SysSt} (st : SysStep S s t) (hd : ¬ t.up) :
    t.pl = s.pl ∧ t.fs = s.fs ∧ t.pg.got = s.pg.got ∧
    ((∃ a tr, (∃ rest, s.pg.st.pc = .boot (a :: rest)) ∧ t.pg.st.boots = s.pg.st.boots ++ [tr] ∧ t.pg.st.pc = .dead ∧
        (a = none ∨ ∃ to b, a = some to ∧ Event.send to b true ∈ tr)) ∨
     (∃ b, t.pg.main = .exited b ∧ 1 ≤ s.pg.signals) ∨
     (t.pg.killed = true ∧ 1 ≤ s.pg.signals) ∨
     (t.oom = true ∧ ∃ (i p : Nat), s.pl.p2.workers[i]? = some (.running p) ∧ s.outs S p = .fatal)) := by
  have hp := sys_program h
  have hi := pgReach_inv hp
  have up : s.up := by
    refine Classical.byContradiction fun hu => C101_ended hu t st
  have pg : ∀ {pg : PgSt}, PgStep S.K s.pg pg → ¬ pg.alive →
      pg.got = s.pg.got ∧ ((∃ a tr, (∃ rest, s.pg.st.pc = .boot (a :: rest)) ∧ pg.st.boots = s.pg.st.boots ++ [tr] ∧ pg.st.pc = .dead ∧
        (a = none ∨ ∃ to b, a = some to ∧ Event.send to b true ∈ tr)) ∨ (∃ b, pg.main = .exited b ∧ 1 ≤ s.pg.signals) ∨ (pg.killed = true ∧ 1 ≤ s.pg.signals)) := by
    intro pg st hna
    obtain ⟨u1, u2, u3⟩ := up.1
    have contra : ∀ {p : PgSt}, p.killed = s.pg.killed → p.st.pc = s.pg.st.pc → p.main = s.pg.main → ¬ p.alive → False := by
      intro p a b c d
      exact d ⟨a.trans u1, by rw [b]; exact u2, fun x => by rw [c]; exact u3 x⟩
    cases st with
    | main _ m =>
      cases m with
      | exit hb => exact ⟨rfl, .inr (.inl ⟨_, rfl, (hi.left (by rw [hb]; simp)).2⟩)⟩
      | _ => exact absurd ⟨u1, u2, by simp⟩ hna
    | other _ m =>
      cases m with
      | startup sm =>
        cases sm with
        | @bootPanic x r O p c a b d =>
          refine ⟨rfl, .inl ⟨x, c.trace, ⟨r, a⟩, rfl, rfl, ?_⟩⟩
          have hb := bootStrap_panic b d
          generalize hx : false = ret at hb
          generalize c.trace = tr at hb ⊢
          cases hb with
          | unresolved v => exact .inl rfl
          | contacted to v bb failed _ =>
            have : failed = true := by simpa using hx
            subst this
            exact .inr ⟨to, bb, rfl, by simp⟩
        | _ => exact absurd ⟨u1, by simp_all, u3⟩ hna
      | closeDone a =>
        refine ⟨rfl, .inr (.inr ⟨?_, ?_⟩)⟩
        · refine Classical.byContradiction fun hk => hna ⟨?_, u2, u3⟩
          simpa using hk
        · have hcl : s.pg.cleaner ≠ .notYet := by
            intro e
            have := hi.range (.inl e)
            rw [a] at this; cases this
          refine (hi.left fun e => hcl (hi.notYet.2 (.inl e))).2
      | _ => exact (contra rfl rfl rfl hna).elim
  have oom : ∀ {p : PgSt}, ¬ (p.alive ∧ s.oom = false) → ¬ p.alive := fun hn ha => hn ⟨ha, up.2⟩
  cases st with
  | life _ a _ _ _ =>
    obtain ⟨b, c | c | c⟩ := pg a (oom hd)
    · exact ⟨rfl, rfl, b, .inl c⟩
    · exact ⟨rfl, rfl, b, .inr (.inl c)⟩
    · exact ⟨rfl, rfl, b, .inr (.inr (.inl c))⟩
  | boot tr _ a _ _ =>
    obtain ⟨b, c | c | c⟩ := pg a (oom hd)
    · exact ⟨rfl, rfl, b, .inl c⟩
    · exact ⟨rfl, rfl, b, .inr (.inl c)⟩
    · exact ⟨rfl, rfl, b, .inr (.inr (.inl c))⟩
  | read _ a c => have := (pg a (oom hd)).1; rw [c] at this; exact (snoc_ne this.symm).elim
  | deliver x _ a c =>
    exfalso
    obtain ⟨u1, u2, u3⟩ := up.1
    cases a with
    | main _ m => cases m <;> exact snoc_ne c
    | other _ m =>
      cases m with
      | startup sm => cases sm <;> exact snoc_ne c
      | deliver _ _ => exact hd ⟨⟨u1, u2, u3⟩, up.2⟩
      | _ => exact snoc_ne c
  | take x p q _ a c _ _ =>
    exfalso
    obtain ⟨u1, u2, u3⟩ := up.1
    cases a with
    | main _ m => cases m <;> exact snoc_ne c
    | other _ m =>
      cases m with
      | startup sm =>
        cases sm with
        | take _ _ => exact hd ⟨⟨u1, u2, u3⟩, up.2⟩
        | _ => exact snoc_ne c
      | _ => exact snoc_ne c
  | pipe new _ _ _ _ _ _ _ _ _ _ => exact absurd up hd
  | file i p _ _ _ _ => exact absurd up hd
  | back i p _ _ _ => exact absurd up hd
  | fatal i p _ hw ho => exact ⟨rfl, rfl, rfl, .inr (.inr (.inr ⟨rfl, i, p, hw, ho⟩))⟩

/-- **C101** Once the socket is closed (at the shutdown) no datagram is read any more, no bootstrap host is contacted, and every message the handlers still try to send fails. -/
theorem C101_closed (h : SysReach S port fs0 s) (hc : s.pg.connOpen = false) {t : SysSt} (ht : Reach (· = s) (SysStep S) t) :
    t.pg.got = s.pg.got ∧ t.pg.connOpen = false ∧ t.pg.st.boots = s.pg.st.boots ∧
    ∃ new, t.pl.log = s.pl.log ++ new ∧ ∀ p to b f, (p, Event.send to b f) ∈ new → f = true := by
  suffices H : SysReach S port fs0 t ∧ t.pg.got = s.pg.got ∧ t.pg.connOpen = false ∧ t.pg.st.boots = s.pg.st.boots ∧
      ∃ new, t.pl.log = s.pl.log ++ new ∧ ∀ p to b f, (p, Event.send to b f) ∈ new → f = true from H.2
  refine ht.inv (fun t => SysReach S port fs0 t ∧ t.pg.got = s.pg.got ∧ t.pg.connOpen = false ∧ t.pg.st.boots = s.pg.st.boots ∧
      ∃ new, t.pl.log = s.pl.log ++ new ∧ ∀ p to b f, (p, Event.send to b f) ∈ new → f = true) ?_ ?_
  · rintro u rfl; exact ⟨h, rfl, hc, rfl, [], by simp, by simp⟩
  · rintro u v ⟨a1, a2, a3, a4, new, a5, a6⟩ st
    have hb : ∀ l, u.pg.st.pc ≠ .boot l := by
      intro l e
      have hi := pgReach_inv (sys_program a1)
      have hcl : u.pg.closer ≠ .notYet := by
        rcases hi.conn.1 a3 with h | h <;> rw [h] <;> simp
      have hcn : u.pg.cleaner ≠ .notYet := fun e => hcl (hi.range (.inl e))
      have := (hi.left fun e => hcn (hi.notYet.2 (.inl e))).1
      rw [e] at this; cases this
    have pg : ∀ {pg : PgSt}, PgStep S.K u.pg pg → pg.got = s.pg.got ∧ pg.connOpen = false ∧ pg.st.boots = s.pg.st.boots := by
      intro pg st'
      obtain ⟨b1, b2⟩ := C83_deaf_after_close a3 (.step (.init rfl) st')
      refine ⟨b1.trans a2, b2, ?_⟩
      cases pgKind st' with
      | quiet _ c _ _ _ => exact c.trans a4
      | boot tr _ _ _ _ _ c => obtain ⟨l, hl⟩ := c; exact absurd hl (hb l)
      | read p _ c _ _ _ _ => exact c.trans a4
      | deliver p _ _ c _ _ _ _ => exact c.trans a4
      | take p r _ c _ _ _ _ => exact c.trans a4
    refine ⟨.step a1 st, ?_⟩
    cases st with
    | life _ x _ _ _ => obtain ⟨b1, b2, b3⟩ := pg x; exact ⟨b1, b2, b3, new, a5, a6⟩
    | boot tr _ x _ _ => obtain ⟨b1, b2, b3⟩ := pg x; exact ⟨b1, b2, b3, new, a5, a6⟩
    | read _ x _ => obtain ⟨b1, b2, b3⟩ := pg x; exact ⟨b1, b2, b3, new, a5, a6⟩
    | deliver y _ x _ => obtain ⟨b1, b2, b3⟩ := pg x; exact ⟨b1, b2, b3, new, a5, a6⟩
    | take y p q _ x _ _ _ => obtain ⟨b1, b2, b3⟩ := pg x; exact ⟨b1, b2, b3, new, a5, a6⟩
    | pipe new' _ _ _ _ _ _ hlog _ hsend _ =>
      refine ⟨a2, a3, a4, new ++ new', by rw [hlog, a5, List.append_assoc], fun p to b f hm => ?_⟩
      rcases List.mem_append.1 hm with hm | hm
      · exact a6 p to b f hm
      · exact hsend p to b f hm a3
    | file i p _ _ _ _ => exact ⟨a2, a3, a4, new, a5, a6⟩
    | back i p _ _ _ => exact ⟨a2, a3, a4, new, a5, a6⟩
    | fatal i p _ _ _ => exact ⟨a2, a3, a4, new, a5, a6⟩

/-! ## Whom the crawler contacts, what it remembers -/

/-- **C101** In its whole life the program sends to at most 1288 addresses besides the bootstrap hosts and those who query it. -/
theorem C101_contacts (h : SysReach S port fs0 s) :
    ∃ A : List UDPAddr, A.length ≤ 1288 ∧
      (∀ p to b f, (p, Event.send to b f) ∈ s.pl.log → to ∈ A ∨ ∃ d t q, IsQuery (S.pkts p).bytes d t q ∧ to = (S.pkts p).addr) ∧
      (∀ (k : Nat) tr to b f, s.pg.st.boots[k]? = some tr → Event.send to b f ∈ tr → S.hosts[k]? = some (some to)) := by
  obtain ⟨w0, h0, -, -, hh⟩ := sys_history h
  obtain ⟨d1, d2, -⟩ := sys_doing h
  obtain ⟨A, hA, hs⟩ := contacts_of hh h0
  refine ⟨A, hA, fun p to b f hm => ?_, fun k tr to b f hk hm => ?_⟩
  · have hm' : (2 * p + 1, Event.send to b f) ∈ s.history :=
      List.mem_append_right _ (List.mem_map.2 ⟨_, hm, rfl⟩)
    rcases hs _ to b f hm' _ (d1 p) with hx | ⟨pkt, d, t, q, e, h1, h2⟩ | e
    · exact .inl hx
    · injection e with e; subst e; exact .inr ⟨d, t, q, h1, h2⟩
    · cases e
  · obtain ⟨a, O, ha, hO, ht⟩ := (pg_boots (sys_program h)).1 k tr hk
    obtain ⟨tr', ret, h1, h2, h3⟩ := C63_bootstrap S.K hO a
    have : tr' = tr := by
      unfold Activity.trace at ht
      cases ret with
      | true => simp only [h2 rfl] at ht; injection ht
      | false => obtain ⟨p, hp⟩ := h3 rfl; simp only [hp] at ht; injection ht
    subst this
    cases h1 with
    | unresolved v => simp at hm
    | contacted x v bb ff _ =>
      simp at hm
      rw [hm.1]; exact ha

/-- **C101** At most 65536 requests are pending at any moment, at most one under each transaction id. -/
theorem C101_pending (h : SysReach S port fs0 s) : s.w.reqs.length ≤ 65536 ∧ (s.w.reqs.map Prod.fst).Nodup := by
  obtain ⟨w0, -, h1, -, hh⟩ := sys_history h
  exact C31_bounded hh h1

/-- **C101** The route table holds the program itself, and nodes that a chain of answered queries leads to, beginning at a bootstrap host (C89). -/
theorem C101_table (h : SysReach S port fs0 s) {n : NodeInfo} (hn : n ∈ s.w.table.nodes) :
    n = { id := localNodeId, addr := { ip := [], port } } ∨ ∃ q, Crawled S.K s.history n q := by
  obtain ⟨w0, h0, h1, -, hh⟩ := sys_history h
  exact C89_origin hh h0 h1 hn

/-! ## The files -/

/-- no two downloads deliver different data with the same SHA-1 hash -/
def SysEnv.OneDataPerHash (S : SysEnv) : Prop := ∀ p q job job' hash d d', IsAnnounce (S.pkts p) job → IsAnnounce (S.pkts q) job' →
  fetchHandler S.K.env (S.conn p) sha1Sum S.fuel LocalPeerId (S.mem p) (S.pool p) job = .flush hash d →
  fetchHandler S.K.env (S.conn q) sha1Sum S.fuel LocalPeerId (S.mem q) (S.pool q) job' = .flush hash d' → d = d'

theorem SysEnv.OneDataPerHash.same (h : S.OneDataPerHash) {O : Nat → Oracle} (hO : ∀ p, (O p).Fair) : SameData (flushes (S.out O)) := by
  intro i j hash d d' hi hj
  obtain ⟨job, a1, a2⟩ := crawlOut_flush S.K hO S.pkts S.conn sha1Sum S.fuel LocalPeerId S.mem S.pool hi
  obtain ⟨job', b1, b2⟩ := crawlOut_flush S.K hO S.pkts S.conn sha1Sum S.fuel LocalPeerId S.mem S.pool hj
  exact h i j job job' hash d d' a1 b1 a2 b2

/-- **C101** From the socket to the disk: at every moment of the life of the process (and so whenever and however it ends) a file is as it was at its start, or it comes from
one of the datagrams **read from the socket**: an announce_peer query; the server listened; the file is named after the announced info hash, and holds nothing but
bytes, at their places, of data with this SHA-1 hash that the announcing peer has delivered, or zeros. -/
theorem C101_files (h : SysReach S port fs0 s) (hone : S.OneDataPerHash) (path : Bytes) :
    s.fs.fs path = fs0 path ∨
    ∃ p job infoHash r data c, s.pg.got[p]? = some (S.pkts p) ∧ s.pg.st.pc = .listen ∧ IsAnnounce (S.pkts p) job ∧
      (asMap job.req.body).lookup b!"info_hash" = some (.str infoHash) ∧ infoHash.length = 20 ∧
      Recorded S.K.env (S.pkts p) r ∧ r.kind = b!"announce_peer" ∧ (p, Event.record r) ∈ s.pl.log ∧ p ∈ s.pl.p2.started ∧
      IsHexOf r.infoHash infoHash ∧ path = b!"torrent/" ++ r.infoHash ++ b!".torrent" ∧ sha1Sum data = infoHash ∧
      s.fs.fs path = some c ∧ c.length ≤ data.length ∧ ∀ i : Nat, c[i]? = none ∨ c[i]? = some 0 ∨ c[i]? = data[i]? := by
  obtain ⟨O, hO, hc⟩ := sys_crawler h
  rcases C92_files S.K hO S.pkts S.conn sha1Sum S.fuel LocalPeerId S.mem S.pool hc (hone.same hO) path with h1 | ⟨p, job, ih, r, data, c, h1, h2, h3, h4, h5, h6, h7, h8, h9⟩
  · exact .inl h1
  · refine .inr ⟨p, job, ih, r, data, c, ?_, ?_, h2, h3, h4, h5, h6, h7, h8, h9⟩
    · obtain ⟨d1, d2, -⟩ := C101_datagrams h
      have h1 : p < s.pl.arrived := h1
      rw [d1, List.getElem?_map, List.getElem?_range (by omega)]
      rfl
    · refine Classical.byContradiction fun hn => ?_
      have := (C101_bootstrap_first h hn).1
      rw [show (CrSt.mk s.pl s.fs).pl.log = s.pl.log from rfl, this] at h7
      cases h7

/-- **C101** The directory `torrent` does not exist, and the program does not create it: whatever it is sent, it never writes a file. -/
theorem C101_no_directory (h : SysReach S port fs0 s) (hd : S.dir = false) : s.fs.fs = fs0 := by
  obtain ⟨O, hO, hc⟩ := sys_crawler h
  rw [hd] at hc
  exact (C92_no_directory hc).1

/-! ## Progress -/

/-- **C101** Start-up is never stuck. -/
theorem C101_starts (h : SysReach S port fs0 s) (up : s.up) (hl : s.pg.st.pc ≠ .listen) :
    ∃ t, SysStep S s t ∧ t.pg.st.pc.left < s.pg.st.pc.left :=
  let ⟨t, h1, h2, _⟩ := sys_boot h up hl; ⟨t, h1, h2⟩

/-- **C101** A running handler is never stuck: whatever the shared objects are like and whatever has happened to the socket, it takes its next step (its next interaction, or
it returns); unless it is the handler of an announce that finds the channel of the jobs full. -/
theorem C101_handler_runs (h : SysReach S port fs0 s) (up : s.up) {i p : Nat} (hw : s.pl.p1.workers[i]? = some (.running p)) :
    (∃ t, SysStep S s t ∧ ((∃ e, t.pl.log = s.pl.log ++ [(p, e)]) ∨ t.pl.p1.finished = s.pl.p1.finished ++ [p])) ∨
    (∃ job, IsAnnounce (S.pkts p) job) ∧ S.Q ≤ s.pl.jobs.length ∧ (s.pl.jobs = [] → s.pl.f ≠ .recv) := by
  rcases sys_handler h up hw with ⟨t, ht, ⟨e, he, -⟩ | ⟨he, -⟩⟩ | ⟨⟨job, hj⟩, h2⟩
  · exact .inl ⟨t, ht, .inl ⟨e, he⟩⟩
  · exact .inl ⟨t, ht, .inr he⟩
  · exact .inr ⟨⟨job, hj.announce⟩, h2⟩

/-- **C101** When nothing more can happen to packets, jobs and files although the process lives and listens, and the downloads end, everything has been done: every packet handed on has been
handled, and every announce among them has been downloaded to the end. -/
theorem C101_all_done (hW1 : 1 ≤ S.W1) (hW2 : 1 ≤ S.W2) (h : SysReach S port fs0 s) (up : s.up) (hl : s.pg.st.pc = .listen)
    (hend : ∀ (i p : Nat), s.pl.p2.workers[i]? = some (.running p) → (s.outs S p).Ends)
    (stuck : ∀ t, SysStep S s t → t.pl.arrived = s.pl.arrived → t.pl = s.pl ∧ t.fs = s.fs) :
    s.pl.p1.finished.Perm (List.range s.pl.arrived) ∧ s.pl.p2.finished.Perm s.pl.accepted ∧
    ∀ p job, p < s.pl.arrived → IsAnnounce (S.pkts p) job → p ∈ s.pl.p2.finished ∧ (p, Event.enqueue job) ∈ s.pl.log := by
  obtain ⟨O, hO, hc, hcont, hnext⟩ := sys_answers h
  have hpl := (C92_refines hc).1
  have I := pl_inv hpl
  obtain ⟨B, hB⟩ := traces_bound S.K S.pkts
  have quiet : ∀ u, ¬ PlQuiet (crawlTraces S.K O S.pkts) S.W1 S.Q S.W2 s.pl u := by
    intro u hu
    have hne : u ≠ s.pl := by
      rintro rfl
      have := backlog_decreases hpl (hB O hO) hu
      exact Nat.lt_irrefl _ this
    have go : u.p2.finished = s.pl.p2.finished → False := by
      intro hf
      rcases sys_lift h up hl hO hc hcont (.pipe hu.1 hf) with h1 | ⟨i, p, e, hw, he, hnq, hx⟩ | ⟨t, ht, a1, -⟩
      · exact h1 hu.2
      · obtain ⟨⟨w, hw'⟩, hsend⟩ := hnext p e (not_finished_of_running I.reach1 hw) he
        have hx : u = { s.pl with hdl := upd s.pl.hdl p (s.pl.hdl p + 1), log := s.pl.log ++ [(p, e)] } := congrArg CrSt.pl hx
        have st : SysStep S s { s with pl := u, w := w } := by
          refine .pipe (w := w) [(p, e)] up hcont hu.1 hu.2 (by rw [hx]) (by rw [hx]) (by rw [hx]) hw' ?_ (.inr ⟨by rw [hx], by rw [hx]⟩)
          intro q to b f hm hcl
          simp only [List.mem_singleton, Prod.mk.injEq] at hm
          exact hsend to b f hm.2.symm hcl
        exact hne (stuck _ st hu.2).1
      · have a1 : t.pl = u := a1
        exact hne (a1.symm.trans (stuck _ ht (by rw [a1]; exact hu.2)).1)
    obtain ⟨st, harr⟩ := hu
    cases st with
    | done2 i p hw =>
      have he := hend i p hw
      have back : HandlerReturns (s.outs S) s.fs p → False := fun hr => hne (stuck _ (.back i p up hw hr) rfl).1
      cases ho : s.outs S p with
      | fatal => rw [ho] at he; cases he
      | diverge => rw [ho] at he; cases he
      | nothing => exact back (by unfold HandlerReturns; rw [ho]; trivial)
      | flush hash data =>
        have hfl : (fun j => if j = p then flushes (s.outs S) j else none) p = some (hash, data) := by simp [flushes, ho]
        cases hpc : s.fs.pc p with
        | start =>
          have := (stuck _ (.file i p up hw (.createFails p hash data hfl hpc) fun _ => upd_same _ _ _) rfl).2
          have := congrArg (fun f : FsSt => f.pc p) this
          simp [hpc] at this
        | writing off =>
          have := (stuck _ (.file i p up hw (.writeFails p hash data off hfl hpc) fun _ => upd_same _ _ _) rfl).2
          have := congrArg (fun f : FsSt => f.pc p) this
          simp [hpc] at this
        | done => exact back (by unfold HandlerReturns; rw [ho]; exact .inl hpc)
        | failed => exact back (by unfold HandlerReturns; rw [ho]; exact .inr hpc)
    | _ => exact go rfl
  obtain ⟨h1, h2, h3⟩ := C62_all_done hW1 hW2 (crawl_single S.K hO S.pkts) hpl quiet
  refine ⟨h1, h3, fun p job hp hj => ?_⟩
  have hlog : logOf p s.pl.log = crawlTraces S.K O S.pkts p := h2 p hp
  rcases crawlTraces_spec S.K hO S.pkts p with ⟨job', b, f, hj', e⟩ | ⟨hn, -⟩
  · have := hj'.unique hj; subst this
    have hm : (p, Event.enqueue job') ∈ s.pl.log := by
      have : Event.enqueue job' ∈ logOf p s.pl.log := by rw [hlog, e]; simp
      obtain ⟨⟨q, ev⟩, hq, he⟩ := List.mem_filterMap.1 this
      by_cases hqp : q = p
      · subst hqp; simp at he; subst he; exact hq
      · simp [hqp] at he
    refine ⟨h3.mem_iff.2 ?_, hm⟩
    show p ∈ s.pl.accepted
    rw [show s.pl.accepted = _ from I.acc]
    exact List.mem_map.2 ⟨_, List.mem_filter.2 ⟨hm, rfl⟩, rfl⟩
  · exact absurd hj (hn job)

/-! ## Runs -/

/-- **C101** Non-vacuity: whatever the network sends, if the bootstrap hosts resolve, the directory exists and the downloads end, there is, for every `n`, an execution in which `n` datagrams are
read and all of them are handled completely, while no call of the file system fails; and the process can be ended from there in good order. -/
theorem C101_runs (hW1 : 1 ≤ S.W1) (hW2 : 1 ≤ S.W2) {t0 : RouteTable} (h0 : initialTable port = .ok t0) (hh : ∀ a ∈ S.hosts, a ≠ none) (hd : S.dir = true)
    (hends : S.Ends) (n : Nat) :
    ∃ s, SysReach S port fs0 s ∧ s.up ∧ s.pg.st.pc = .listen ∧ s.pg.got.length = n ∧ s.pl.p1.finished.Perm (List.range n) ∧
      (∀ p job, p < n → IsAnnounce (S.pkts p) job → p ∈ s.pl.p2.finished) ∧ (∀ p, s.fs.pc p = .start ∨ s.fs.pc p = .done) ∧
      ∃ t, Reach (· = s) (SysStep S) t ∧ t.pg.main = .exited false ∧ t.pg.connOpen = false ∧ t.fs = s.fs := by
  obtain ⟨s, O, hs, h1, h2, hO, hc, hq⟩ := calm_runs (fs0 := fs0) hW1 hW2 h0 hh hd hends n
  have hpl := (C92_refines hc).1
  obtain ⟨a1, a2, a3⟩ := C62_all_done hW1 hW2 (crawl_single S.K hO S.pkts) hpl hq
  have I := pl_inv hpl
  refine ⟨s, hs.reach, hs.up, hs.listen, h1, by rw [← h2]; exact a1, fun p job hp hj => ?_, hs.pc, ?_⟩
  · rcases crawlTraces_spec S.K hO S.pkts p with ⟨job', b, f, hj', e⟩ | ⟨hn, -⟩
    · have hlog : logOf p s.pl.log = crawlTraces S.K O S.pkts p := a2 p (by rw [show (CrSt.mk s.pl s.fs).pl.arrived = n from h2]; exact hp)
      refine a3.mem_iff.2 ?_
      show p ∈ s.pl.accepted
      rw [show s.pl.accepted = _ from I.acc]
      have : Event.enqueue job' ∈ logOf p s.pl.log := by rw [hlog, e]; simp
      obtain ⟨⟨q, ev⟩, hq, he⟩ := List.mem_filterMap.1 this
      by_cases hqp : q = p
      · subst hqp; simp at he; subst he; exact List.mem_map.2 ⟨_, List.mem_filter.2 ⟨hq, rfl⟩, rfl⟩
      · simp [hqp] at he
    · exact absurd hj (hn job)
  · -- a signal, and the clean-up
    obtain ⟨st, got, hg⟩ := hs.pg
    have hl := hs.listen
    have hcl : s.pg.st.cleanup = true := by
      have hr := C83_startup (sys_program hs.reach)
      obtain ⟨-, -, -, h4⟩ := stReach_inv hr
      rw [hl] at h4
      exact h4.2.2.2
    have hm := hs.mem
    obtain ⟨pg, pl, fs, w, oom⟩ := s
    simp only at hg hl hcl hm
    subst hm
    have life : ∀ {a b : PgSt}, Reach (· = SysSt.mk pg pl fs w false) (SysStep S) (SysSt.mk a pl fs w false) → a.alive → PgStep S.K a b → b.got = a.got →
        b.st.boots = a.st.boots → b.st.queue = a.st.queue → Reach (· = SysSt.mk pg pl fs w false) (SysStep S) (SysSt.mk b pl fs w false) :=
      fun h ha st h1 h2 h3 => h.step (.life (s := ⟨_, _, _, _, _⟩) ⟨ha, rfl⟩ st h1 h2 h3)
    have hst : st = pg.st := by rw [hg]
    subst hst
    obtain ⟨x, hx⟩ : ∃ x, x = pg.st := ⟨_, rfl⟩
    rw [← hx] at hg hl hcl
    subst hg
    have hbt : x.pc.booted = true := by rw [hl]; rfl
    have hnd : x.pc ≠ .dead := by rw [hl]; simp
    have k1 := life (.init rfl) ⟨rfl, hnd, by simp [pgStart]⟩ (.other ⟨rfl, hnd, by simp [pgStart]⟩ .signal) rfl rfl rfl
    have k2 := life k1 ⟨rfl, hnd, by simp [pgStart]⟩ (.main ⟨rfl, hnd, by simp [pgStart]⟩ (.wake hbt rfl rfl)) rfl rfl rfl
    have k3 := life k2 ⟨rfl, hnd, by simp⟩ (.main ⟨rfl, hnd, by simp⟩ (.store rfl)) rfl rfl rfl
    have k4 := life k3 ⟨rfl, hnd, by simp⟩ (.main ⟨rfl, hnd, by simp⟩ (.runCleans rfl)) rfl rfl rfl
    have k5 := life k4 ⟨rfl, hnd, by simp⟩ (.other ⟨rfl, hnd, by simp⟩ (.add rfl)) rfl rfl rfl
    have k6 := life k5 ⟨rfl, hnd, by simp⟩ (.other ⟨rfl, hnd, by simp⟩ (.rangeOne rfl (by simp [PgSt.cleans, hcl]))) rfl rfl rfl
    have k7 := life k6 ⟨rfl, hnd, by simp⟩ (.other ⟨rfl, hnd, by simp⟩ (.closeStore rfl)) rfl rfl rfl
    have k8 := life k7 ⟨rfl, hnd, by simp⟩ (.other ⟨rfl, hnd, by simp⟩ (.closeConn rfl)) rfl rfl rfl
    have k9 := life k8 ⟨rfl, hnd, by simp⟩ (.other ⟨rfl, hnd, by simp⟩ (.closeDone rfl)) rfl rfl rfl
    have k10 := life k9 ⟨by simp [PgSt.cleans, hcl], hnd, by simp⟩ (.other ⟨by simp [PgSt.cleans, hcl], hnd, by simp⟩ (.wait rfl (by simp [PgSt.cleans, hcl]))) rfl rfl rfl
    have k11 := life k10 ⟨by simp [PgSt.cleans, hcl], hnd, by simp⟩ (.main ⟨by simp [PgSt.cleans, hcl], hnd, by simp⟩ (.finished rfl rfl)) rfl rfl rfl
    have k12 := life k11 ⟨by simp [PgSt.cleans, hcl], hnd, by simp⟩ (.main ⟨by simp [PgSt.cleans, hcl], hnd, by simp⟩ (.exit rfl)) rfl rfl rfl
    exact ⟨_, k12, rfl, rfl, rfl⟩

end

end P2P

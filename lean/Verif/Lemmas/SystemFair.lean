import Verif.Lemmas.SystemRun
import Verif.Lemmas.SystemSettle
/-! # Fair executions of the whole system -/
namespace P2P

/-- a goroutine, of which `obs` shows how far it is, takes a step -/
def SysMoves {X : Type} (S : SysEnv) (obs : SysSt → X) (s t : SysSt) : Prop := SysStep S s t ∧ obs t ≠ obs s

/-- A fair execution of the program. The process lives on (nobody sends it a signal that ends it, the bootstrap hosts can be reached, no download takes all memory). No goroutine that
can go on at every moment is forgotten: the main goroutine and `Run` (start-up), the receive goroutine (unless it waits for a datagram), `Listen`, the goroutine of `fetchTorrent`, the workers of both pools, the
downloads. A handler that waits for a place in the channel of the jobs is not overtaken for ever. One worker of the downloads never gets a download that does not end (C76). -/
structure FairSys (S : SysEnv) (port : Int) (fs0 : Bytes → Option Bytes) (e : Nat → SysSt) : Prop where
  run : Run (SysInit S port fs0) (SysStep S) e
  lives : ∀ i, (e i).up
  startup : WeaklyFair e (SysMoves S fun s => s.pg.st.pc)
  receive : WeaklyFair e fun s t => SysMoves S (fun s => s.pg.rcv) s t ∧ s.pg.rcv ≠ .reading
  listen : WeaklyFair e (SysMoves S fun s => (s.pl.l, s.pl.p1.subs))
  worker1 : ∀ w, w < S.W1 → WeaklyFair e fun s t => SysMoves S (fun s => s.pl.p1.workers[w]?) s t ∧ ¬ s.pl.p1.inTask w
  handler : ∀ w, w < S.W1 → StronglyFair e fun s t => ∃ p, s.pl.p1.workers[w]? = some (.running p) ∧ SysMoves S (fun s => (s.pl.p1.workers[w]?, s.pl.hdl p)) s t
  fetch : WeaklyFair e (SysMoves S fun s => (s.pl.f, s.pl.p2.subs))
  worker2 : ∀ w, w < S.W2 → WeaklyFair e fun s t => SysMoves S (fun s => s.pl.p2.workers[w]?) s t ∧ ¬ s.pl.p2.inTask w
  download : ∀ w p, w < S.W2 → WeaklyFair e (SysMoves S fun s => (s.pl.p2.workers[w]?, s.fs.pc p))
  free : ∃ w, w < S.W2 ∧ ∀ i p, (e i).pl.p2.workers[w]? = some (.running p) → ((e i).outs S p).Ends

section
variable {S : SysEnv} {port : Int} {fs0 : Bytes → Option Bytes} {s t : SysSt} {e : Nat → SysSt}

theorem FairSys.reach (F : FairSys S port fs0 e) (i : Nat) : SysReach S port fs0 (e i) := F.run.reach i

/-! ## The server listens in the end -/

theorem sys_pc (h : SysReach S port fs0 s) (st : SysStep S s t) :
    (s.pg.st.pc = .listen → t.pg.st.pc = .listen) ∧ (s.pg.st.pc ≠ .listen → t.pg.st.pc = s.pg.st.pc ∨ t.pg.st.pc.left < s.pg.st.pc.left) := by
  have hst := C83_startup (sys_program h)
  have pg : ∀ {pg : PgSt}, PgStep S.K s.pg pg → (s.pg.st.pc = .listen → pg.st.pc = .listen) ∧
      (s.pg.st.pc ≠ .listen → pg.st.pc = s.pg.st.pc ∨ pg.st.pc.left < s.pg.st.pc.left) := by
    intro pg st
    cases st with
    | main _ m => cases m <;> exact ⟨id, fun _ => .inl rfl⟩
    | other _ m =>
      cases m with
      | startup sm =>
        refine ⟨fun hl => ?_, fun hl => .inr ((C63_progress hst exO_fair).2.1 _ sm hl)⟩
        cases sm with
        | take _ _ => exact hl
        | bootOk a _ _ => rw [hl] at a; cases a
        | bootPanic a _ _ => rw [hl] at a; cases a
        | run a => rw [hl] at a; cases a
        | register a _ => rw [hl] at a; cases a
        | registered a => rw [hl] at a; cases a
        | fetch a => rw [hl] at a; cases a
        | clean a => rfl
      | _ => exact ⟨id, fun _ => .inl rfl⟩
  cases st with
  | life _ a _ _ _ => exact pg a
  | boot tr _ a _ _ => exact pg a
  | read _ a _ => exact pg a
  | deliver x _ a _ => exact pg a
  | take x p q _ a _ _ _ => exact pg a
  | _ => exact ⟨id, fun _ => .inl rfl⟩

theorem FairSys.listens (F : FairSys S port fs0 e) : ∃ L, ∀ i, L ≤ i → (e i).pg.st.pc = .listen := by
  obtain ⟨L, -, hL⟩ : ∃ j, 0 ≤ j ∧ (e j).pg.st.pc = .listen := by
    refine eventually (fun i => (e i).pg.st.pc) (fun i => (e i).pg.st.pc.left) (fun i => (e i).pg.st.pc = .listen) 0 ?_ ?_
    · intro i _ hn
      right
      rcases F.run.next i with h | h
      · simp only [h]; exact ⟨Nat.le_refl _, fun h => absurd rfl h⟩
      · rcases (sys_pc (F.reach i) h).2 hn with h1 | h1
        · simp only [h1]; exact ⟨Nat.le_refl _, fun h => absurd rfl h⟩
        · exact ⟨Nat.le_of_lt h1, fun _ => h1⟩
    · intro i _ hn
      refine F.startup.moves (fun s => s.pg.st.pc) (fun s t h => h.2) i (fun i => (e i).pg.st.pc = .listen) ?_
      intro j _ hg _
      obtain ⟨t, ht, hlt, -⟩ := sys_boot (F.reach j) (F.lives j) hg
      exact ⟨t, ht, fun heq => by
        have heq : t.pg.st.pc = (e j).pg.st.pc := heq
        rw [heq] at hlt; exact Nat.lt_irrefl _ hlt⟩
  refine ⟨L, fun i hi => ?_⟩
  exact F.run.stays (fun s => s.pg.st.pc = .listen) (fun i h st => (sys_pc (F.reach i) st).1 h) hi hL

/-! ## Packets, jobs and files -/

theorem pl_listen {tr : Nat → List Event} {W1 Q W2 : Nat} {s t : PlSt} (st : PlStep tr W1 Q W2 s t) (hne : (t.l, t.p1.subs) ≠ (s.l, s.p1.subs)) :
    t.p2.finished = s.p2.finished ∧ t.arrived = s.arrived ∧ t.log = s.log := by
  cases st with
  | listenTake p q _ _ => exact ⟨rfl, rfl, rfl⟩
  | listenCheck p _ _ _ => exact ⟨rfl, rfl, rfl⟩
  | listenSend p _ _ _ => exact ⟨rfl, rfl, rfl⟩
  | _ => exact absurd rfl hne

theorem pl_fetch {tr : Nat → List Event} {W1 Q W2 : Nat} {s t : PlSt} (st : PlStep tr W1 Q W2 s t) (hne : (t.f, t.p2.subs) ≠ (s.f, s.p2.subs)) :
    t.p2.finished = s.p2.finished ∧ t.arrived = s.arrived := by
  cases st with
  | handoff i p j _ _ _ _ => exact ⟨rfl, rfl⟩
  | fetchTake p q _ _ => exact ⟨rfl, rfl⟩
  | fetchCheck p _ _ _ => exact ⟨rfl, rfl⟩
  | fetchSend p _ _ _ => exact ⟨rfl, rfl⟩
  | _ => exact absurd rfl hne

/-- what a worker does in the pool's own code is a step of the pipeline -/
theorem wp_worker {W w : Nat} {p u : WpSt} (J : WpInv W p) (h : WpWorkerMoves W w p u) (hn : ¬ p.inTask w) :
    (p.workers[w]? = some .select) ∨ (p.workers[w]? = some .recv ∧ ∃ t q, p.queue = t :: q) := by
  obtain ⟨st, hne⟩ := h
  have self : ∀ {i : Nat} {x : WPc}, (p.workers.set i x)[w]? ≠ p.workers[w]? → i = w := by
    intro i x hx
    refine Classical.byContradiction fun hi => hx ?_
    rw [List.getElem?_set_ne hi]
  cases st with
  | select i hd hw => have := self hne; subst this; exact .inl hw
  | recv i t q hd hw h' => have := self hne; subst this; exact .inr ⟨hw, t, q, h'⟩
  | taskDone i t hd hw => have := self hne; subst this; exact absurd ⟨t, hw⟩ hn
  | wgDone i hd hw => exact absurd rfl (J.alive _ (List.mem_of_getElem? hw)).1
  | _ => exact absurd rfl hne

theorem set_ne_self {ws : List WPc} {w : Nat} {x y : WPc} (h : ws[w]? = some x) (hxy : y ≠ x) : (ws.set w y)[w]? ≠ ws[w]? := by
  have lt : w < ws.length := (List.getElem?_eq_some_iff.1 h).1
  rw [List.getElem?_set_self lt, h]
  simpa using hxy

theorem cr_arrive {tr : Nat → List Event} {out : Nat → HandlerOut} {dir : Bool} {W1 Q W2 : Nat} {s c : CrSt} (st : CrStep tr out dir W1 Q W2 s c)
    (h : c.pl.arrived ≠ s.pl.arrived) : c.pl.p2 = s.pl.p2 ∧ c.fs = s.fs := by
  cases st with
  | pipe st _ =>
    cases st with
    | arrive _ => exact ⟨rfl, rfl⟩
    | _ => exact absurd rfl h
  | file i p _ _ _ => exact absurd rfl h
  | back p st _ _ =>
    cases st with
    | arrive _ => exact ⟨rfl, rfl⟩
    | _ => exact absurd rfl h

/-- **A fair execution of the program is a fair execution of the crawler** (`Model/Whole`, C92), with answers of the shared objects fixed in advance. -/
theorem FairSys.whole (F : FairSys S port fs0 e) : ∃ O : Nat → Oracle, (∀ p, (O p).Fair) ∧
    FairWhole (crawlTraces S.K O S.pkts) (S.out O) S.dir fs0 S.W1 S.Q S.W2 (fun i => ⟨(e i).pl, (e i).fs⟩) := by
  obtain ⟨O, hO, hc, r⟩ := sys_oracle F.run
  obtain ⟨L, hL⟩ := F.listens
  have hpl : ∀ i, CrawlReach S.K O S.pkts S.W1 S.Q S.W2 (e i).pl := fun i => (C92_refines (hc i)).1
  have I := fun i => pl_inv (hpl i)
  have cont : ∀ i, Continues S (e i) (crawlTraces S.K O S.pkts) := fun i => continues_of_reach hO (hpl i)
  -- what happens in the system happens in the crawler
  have down : ∀ i, (e (i + 1)).pl ≠ (e i).pl → PlStep (crawlTraces S.K O S.pkts) S.W1 S.Q S.W2 (e i).pl (e (i + 1)).pl := by
    intro i hne
    rcases r.next i with h | h
    · exact absurd (congrArg CrSt.pl h) hne
    · rcases cr_pl h with h1 | h1
      · exact absurd h1 hne
      · exact h1
  have downc : ∀ i, CrSt.mk (e (i + 1)).pl (e (i + 1)).fs ≠ CrSt.mk (e i).pl (e i).fs →
      CrStep (crawlTraces S.K O S.pkts) (S.out O) S.dir S.W1 S.Q S.W2 ⟨(e i).pl, (e i).fs⟩ ⟨(e (i + 1)).pl, (e (i + 1)).fs⟩ := by
    intro i hne
    rcases r.next i with h | h
    · exact absurd h hne
    · exact h
  -- what can happen in the crawler can happen in the system
  have lift : ∀ i, L ≤ i → ∀ {u : PlSt}, PlStep (crawlTraces S.K O S.pkts) S.W1 S.Q S.W2 (e i).pl u → u.p2.finished = (e i).pl.p2.finished → u.arrived = (e i).pl.arrived →
      (∀ (w p : Nat) (ev : Event), (e i).pl.p1.workers[w]? = some (.running p) → u ≠ { (e i).pl with hdl := upd (e i).pl.hdl p ((e i).pl.hdl p + 1), log := (e i).pl.log ++ [(p, ev)] }) →
      ∃ t, SysStep S (e i) t ∧ t.pl = u := by
    intro i hi u st h1 h2 h3
    rcases sys_lift (F.reach i) (F.lives i) (hL i hi) hO (hc i) (cont i) (.pipe st h1) with h | ⟨w, p, ev, hw, -, -, hx⟩ | ⟨t, ht, a, -⟩
    · exact absurd h2 h
    · exact absurd (congrArg CrSt.pl hx) (h3 w p ev hw)
    · exact ⟨t, ht, a⟩
  refine ⟨O, hO, r, ?_, ?_, ?_, ?_, ?_, ?_, ?_⟩
  · -- Listen
    intro i hi
    obtain ⟨j, hj, st, hne⟩ := F.listen (max i L) fun j hj => by
      obtain ⟨u, st, hne⟩ := hi j (by omega)
      obtain ⟨a1, a2, a3⟩ := pl_listen st hne
      obtain ⟨t, ht, e1⟩ := lift j (by omega) st a1 a2 fun w p ev _ hx => by
        rw [hx] at a3
        exact snoc_ne a3.symm
      exact ⟨t, ht, by simp only [e1]; exact hne⟩
    refine ⟨j, by omega, down j fun h => hne (by simp only [h]), hne⟩
  · -- fetchTorrent
    intro i hi
    obtain ⟨j, hj, st, hne⟩ := F.fetch (max i L) fun j hj => by
      obtain ⟨u, st, hne⟩ := hi j (by omega)
      obtain ⟨a1, a2⟩ := pl_fetch st hne
      obtain ⟨t, ht, e1⟩ := lift j (by omega) st a1 a2 fun w p ev _ hx => hne (by rw [hx])
      exact ⟨t, ht, by simp only [e1]; exact hne⟩
    refine ⟨j, by omega, down j fun h => hne (by simp only [h]), hne⟩
  · -- workers of the RPC pool
    intro w hw i hi
    obtain ⟨j, hj, ⟨st, hne⟩, hn⟩ := F.worker1 w hw (max i L) fun j hj => by
      obtain ⟨u, h1, h2⟩ := hi j (by omega)
      suffices hs : ∃ u, PlStep (crawlTraces S.K O S.pkts) S.W1 S.Q S.W2 (e j).pl u ∧ u.p2.finished = (e j).pl.p2.finished ∧ u.arrived = (e j).pl.arrived ∧
          u.log = (e j).pl.log ∧ u.p1.workers[w]? ≠ (e j).pl.p1.workers[w]? by
        obtain ⟨u, st, a1, a2, a3, a4⟩ := hs
        obtain ⟨t, ht, e1⟩ := lift j (by omega) st a1 a2 fun w p ev _ hx => by
          rw [hx] at a3
          exact snoc_ne a3.symm
        exact ⟨t, ⟨ht, by simp only [e1]; exact a4⟩, h2⟩
      rcases wp_worker (wp_inv (I j).reach1) h1 h2 with h | ⟨h, x, q, hq⟩
      · exact ⟨_, .select1 w h, rfl, rfl, rfl, set_ne_self h (by simp)⟩
      · exact ⟨_, .recv1 w x q h hq, rfl, rfl, rfl, set_ne_self h (by simp)⟩
    refine ⟨j, by omega, ⟨?_, hne⟩, hn⟩
    rcases pl_pool1 (I j) (down j fun h => hne (by simp only [h])) with h | h
    · exact absurd (by simp only [h]) hne
    · exact h
  · -- handlers
    intro w hw i hi
    obtain ⟨j, hj, p, hp, st, hne⟩ := F.handler w hw (max i L) fun k hk => by
      obtain ⟨j, hj, u, st, p, hp, hne⟩ := hi k (by omega)
      refine ⟨j, hj, ?_⟩
      have lt : w < (e j).pl.p1.workers.length := (List.getElem?_eq_some_iff.1 hp).1
      rcases sys_handler (F.reach j) (F.lives j) hp with ⟨t, ht, ⟨ev, -, h2⟩ | ⟨-, h2⟩⟩ | ⟨⟨job, hj'⟩, h2, h3⟩
      · refine ⟨t, p, hp, ht, fun h => ?_⟩
        have h : t.pl.hdl p = (e j).pl.hdl p := (Prod.mk.inj h).2
        rw [h2, upd_same] at h
        omega
      · refine ⟨t, p, hp, ht, fun h => ?_⟩
        have h : t.pl.p1.workers[w]? = (e j).pl.p1.workers[w]? := (Prod.mk.inj h).1
        rw [h2] at h
        exact set_ne_self hp (by simp) h
      · exfalso
        have hlog := (I j).log p
        rcases crawlTraces_spec S.K hO S.pkts p with ⟨job', b, f, hjj, et⟩ | ⟨hn, -⟩
        · have hlen : (e j).pl.hdl p = 2 := by
            have := congrArg List.length hlog
            rw [hj'.log, List.length_take, Nat.min_eq_left ((I j).hdl p)] at this
            exact this.symm
          have hev : (crawlTraces S.K O S.pkts p)[(e j).pl.hdl p]? = some (.enqueue job') := by rw [hlen, et]; rfl
          have hun : ∀ {x q : Nat}, (e j).pl.p1.workers[x]? = some (.running q) →
              (((e j).pl.p1.workers.set x WPc.select)[w]?, (e j).pl.hdl p) ≠ ((e j).pl.p1.workers[w]?, (e j).pl.hdl p) → x = w := by
            intro x q _ hne
            refine Classical.byContradiction fun hx => hne ?_
            rw [List.getElem?_set_ne hx]
          cases st with
          | select1 x hx =>
            by_cases hxw : x = w
            · subst hxw; rw [hp] at hx; cases hx
            · exact hne (by simp only [List.getElem?_set_ne hxw])
          | recv1 x q' qq hx hq =>
            by_cases hxw : x = w
            · subst hxw; rw [hp] at hx; cases hx
            · exact hne (by simp only [List.getElem?_set_ne hxw])
          | handle x q ev hx hy hz =>
            by_cases hq : q = p
            · subst hq; rw [hev] at hy; cases hy; cases hz
            · exact hne (by simp only [upd_ne _ _ (Ne.symm hq)])
          | enqueue x q jj hx hy hz => exact absurd (show (e j).pl.jobs.length < S.Q from hz) (by omega)
          | handoff x q jj hx hy hz hf => exact h3 hz hf
          | done1 x q hx hy =>
            have hxw := hun hx hne
            subst hxw
            rw [hp] at hx
            cases hx
            rw [hy, List.getElem?_eq_none (Nat.le_refl _)] at hev
            cases hev
          | _ => exact hne rfl
        · exact hn job hj'.announce
    exact ⟨j, by omega, down j fun h => hne (by simp only [h]), p, hp, hne⟩
  · -- workers of the pool of the downloads
    intro w hw i hi
    obtain ⟨j, hj, ⟨st, hne⟩, hn⟩ := F.worker2 w hw (max i L) fun j hj => by
      obtain ⟨u, h1, h2⟩ := hi j (by omega)
      suffices hs : ∃ u, PlStep (crawlTraces S.K O S.pkts) S.W1 S.Q S.W2 (e j).pl u ∧ u.p2.finished = (e j).pl.p2.finished ∧ u.arrived = (e j).pl.arrived ∧
          u.log = (e j).pl.log ∧ u.p2.workers[w]? ≠ (e j).pl.p2.workers[w]? by
        obtain ⟨u, st, a1, a2, a3, a4⟩ := hs
        obtain ⟨t, ht, e1⟩ := lift j (by omega) st a1 a2 fun w p ev _ hx => by
          rw [hx] at a3
          exact snoc_ne a3.symm
        exact ⟨t, ⟨ht, by simp only [e1]; exact a4⟩, h2⟩
      rcases wp_worker (wp_inv (I j).reach2) h1 h2 with h | ⟨h, x, q, hq⟩
      · exact ⟨_, .select2 w h, rfl, rfl, rfl, set_ne_self h (by simp)⟩
      · exact ⟨_, .recv2 w x q h hq, rfl, rfl, rfl, set_ne_self h (by simp)⟩
    refine ⟨j, by omega, ⟨?_, hne⟩, hn⟩
    rcases pl_pool2 (I j) (down j fun h => hne (by simp only [h])) with h | h
    · exact absurd (by simp only [h]) hne
    · exact h
  · -- downloads
    intro w p hw i hi
    obtain ⟨j, hj, st, hne⟩ := F.download w p hw (max i L) fun j hj => by
      obtain ⟨u, st, hne⟩ := hi j (by omega)
      rcases sys_lift (F.reach j) (F.lives j) (hL j (by omega)) hO (hc j) (cont j) st with h | ⟨w, p, ev, -, -, -, hx⟩ | ⟨t, ht, e1, e2, -⟩
      · exfalso
        obtain ⟨h1, h2⟩ := cr_arrive st h
        exact hne (by rw [h1, h2])
      · exact absurd (by rw [hx]) hne
      · exact ⟨t, ht, by simp only [e1, e2]; exact hne⟩
    refine ⟨j, by omega, downc j fun h => hne ?_, hne⟩
    injection h with h1 h2
    simp only [h1, h2]
  · obtain ⟨w, hw, h⟩ := F.free
    refine ⟨w, hw, fun i p hp => ?_⟩
    rw [← outs_eq S hO (hpl i) hp]
    exact h i p hp

end

end P2P

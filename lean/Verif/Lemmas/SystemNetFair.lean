import Verif.Lemmas.SystemFair
import Verif.Lemmas.SystemNetSettle
/-! # Fair executions of the whole program, its downloads running step by step -/
namespace P2P

/-- a goroutine, of which `obs` shows how far it is, takes a step -/
def NetMoves {X : Type} (S : SysEnv) (obs : SysNetSt → X) (s t : SysNetSt) : Prop := SysNetStep S s t ∧ obs t ≠ obs s

/-- A fair execution of `Model/SystemNet`: as `FairSys`, and a download that can take its next turn at every moment takes it. (Each of these is about one goroutine; which of
several goroutines is next, and in which order the downloads take their turns, is open.) One worker of the downloads gets no download that comes out without an end. -/
structure FairNet (S : SysEnv) (port : Int) (fs0 : Bytes → Option Bytes) (e : Nat → SysNetSt) : Prop where
  run : Run (SysNetInit S port fs0) (SysNetStep S) e
  lives : ∀ i, (e i).sys.up
  startup : WeaklyFair e (NetMoves S fun s => s.sys.pg.st.pc)
  receive : WeaklyFair e fun s t => NetMoves S (fun s => s.sys.pg.rcv) s t ∧ s.sys.pg.rcv ≠ .reading
  listen : WeaklyFair e (NetMoves S fun s => (s.sys.pl.l, s.sys.pl.p1.subs))
  worker1 : ∀ w, w < S.W1 → WeaklyFair e fun s t => NetMoves S (fun s => s.sys.pl.p1.workers[w]?) s t ∧ ¬ s.sys.pl.p1.inTask w
  handler : ∀ w, w < S.W1 → StronglyFair e fun s t =>
    ∃ p, s.sys.pl.p1.workers[w]? = some (.running p) ∧ NetMoves S (fun s => (s.sys.pl.p1.workers[w]?, s.sys.pl.hdl p)) s t
  fetch : WeaklyFair e (NetMoves S fun s => (s.sys.pl.f, s.sys.pl.p2.subs))
  worker2 : ∀ w, w < S.W2 → WeaklyFair e fun s t => NetMoves S (fun s => s.sys.pl.p2.workers[w]?) s t ∧ ¬ s.sys.pl.p2.inTask w
  download : ∀ w p, w < S.W2 → WeaklyFair e (NetMoves S fun s => (s.sys.pl.p2.workers[w]?, s.sys.fs.pc p))
  turns : ∀ p, WeaklyFair e (NetMoves S fun s => s.dl p)
  free : ∃ w, w < S.W2 ∧ ∀ i p, (e i).sys.pl.p2.workers[w]? = some (.running p) → ∀ j out, i ≤ j → (e j).outcome S p = some out → out.Ends

/-! ## What `Model/System` can do here -/

section
variable {S : SysEnv} {port : Int} {fs0 : Bytes → Option Bytes} {s : SysNetSt}

theorem flushes_at {S' : SysEnv} {s : SysSt} {p : Nat} {out : HandlerOut} (e : s.outs S' p = out) :
    (fun j => if j = p then flushes (s.outs S') j else none) = fun j => if j = p then flushes (fun _ => out) j else none := by
  funext j
  split
  · rename_i hj; subst hj; unfold flushes; rw [e]
  · rfl

/-- a step here is one there, or none -/
theorem net_down {conn : Nat → Bytes → PEnv} {mem : Nat → Nat → Bytes} {pool : Nat → BPool} {t : SysNetSt} (st : SysNetStep S s t)
    (hx : ∀ p out, s.outcome S p = some out → s.sys.outs (S.instead conn mem pool) p = out) : t.sys = s.sys ∨ SysStep (S.instead conn mem pool) s.sys t.sys := by
  cases st with
  | rest a b c d =>
    rcases sysStep_instead a b c d conn mem pool with h | h
    · exact .inr h
    · exact .inl h
  | start i p t _ _ _ _ _ => exact .inl rfl
  | turn i p st k _ _ _ => exact .inl rfl
  | file i p out up hw ho hs hd =>
    refine .inr (.file i p up hw ?_ hd)
    rw [flushes_at (hx p out ho)]
    exact hs
  | back i p out up hw ho hr' =>
    refine .inr (.back i p up hw ?_)
    unfold HandlerReturns at hr' ⊢
    rw [hx p out ho]
    exact hr'
  | fatal i p up hw ho => exact .inr (.fatal i p up hw (hx p _ ho))

/-- what a download would do that has not come out yet -/
structure TooEarly (S : SysEnv) (s : SysNetSt) (t : SysSt) (i p : Nat) : Prop where
  runs : s.sys.pl.p2.workers[i]? = some (.running p)
  early : s.outcome S p = none
  pg : t.pg = s.sys.pg
  l : t.pl.l = s.sys.pl.l
  p1 : t.pl.p1 = s.sys.pl.p1
  hdl : t.pl.hdl = s.sys.pl.hdl
  f : t.pl.f = s.sys.pl.f
  subs : t.pl.p2.subs = s.sys.pl.p2.subs
  workers : ∀ w : Nat, w ≠ i → t.pl.p2.workers[w]? = s.sys.pl.p2.workers[w]?
  pc : ∀ q, q ≠ p → t.fs.pc q = s.sys.fs.pc q

theorem fs_only {p : Nat} {x : Nat → Option (Bytes × Bytes)} {s t : FsSt} (st : FsStep (fun j => if j = p then x j else none) s t) (q : Nat) (hq : q ≠ p) : t.pc q = s.pc q := by
  have no : ∀ {k : Nat} {y : Bytes × Bytes} {v : JobPc}, (if k = p then x k else none) = some y → upd s.pc k v q = s.pc q := by
    intro k y v hk
    by_cases e : k = p
    · rw [e]; exact if_neg hq
    · rw [if_neg e] at hk; cases hk
  cases st with
  | create j hash data a b => exact no a
  | createFails j hash data a b => exact no a
  | write j hash data c off n a _ _ _ _ => exact no a
  | finish j hash data off a _ _ => exact no a
  | writeFails j hash data off a _ => exact no a

/-- a step there is one here, or one of a download that has not come out yet -/
theorem net_up {conn : Nat → Bytes → PEnv} {mem : Nat → Nat → Bytes} {pool : Nat → BPool}
    (hx : ∀ p out, s.outcome S p = some out → s.sys.outs (S.instead conn mem pool) p = out) {t : SysSt} (st : SysStep (S.instead conn mem pool) s.sys t) :
    (∃ T, SysNetStep S s T ∧ T.sys = t) ∨ t = s.sys ∨ ∃ i p, TooEarly S s t i p := by
  have rest : ∀ {t : SysSt}, SysStep (S.instead conn mem pool) s.sys t → t.fs = s.sys.fs → t.pl.p2.finished = s.sys.pl.p2.finished → t.oom = s.sys.oom →
      (∃ T, SysNetStep S s T ∧ T.sys = t) ∨ t = s.sys ∨ ∃ i p, TooEarly S s t i p := by
    intro t a b c d
    rcases sysStep_instead a b c d S.conn S.mem S.pool with h | h
    · exact .inl ⟨_, .rest (show SysStep S s.sys t from h) b c d, rfl⟩
    · exact .inr (.inl h)
  cases st with
  | life a b c d e => exact rest (.life a b c d e) rfl rfl rfl
  | boot tr a b c d => exact rest (.boot tr a b c d) rfl rfl rfl
  | read a b c => exact rest (.read a b c) rfl rfl rfl
  | deliver x a b c => exact rest (.deliver x a b c) rfl rfl rfl
  | take x p q a b c d e => exact rest (.take x p q a b c d e) rfl rfl rfl
  | pipe new a b c d e f g hh i j => exact rest (.pipe new a b c d e f g hh i j) rfl f rfl
  | @file fs i p up hw hs hd =>
    cases ho : s.outcome S p with
    | none => exact .inr (.inr ⟨i, p, hw, ho, rfl, rfl, rfl, rfl, rfl, rfl, fun _ _ => rfl, fun q hq => fs_only hs q hq⟩)
    | some out =>
      refine .inl ⟨_, .file i p out up hw ho ?_ hd, rfl⟩
      rw [← flushes_at (hx p out ho)]
      exact hs
  | back i p up hw hr =>
    cases ho : s.outcome S p with
    | none => exact .inr (.inr ⟨i, p, hw, ho, rfl, rfl, rfl, rfl, rfl, rfl, fun w hwi => List.getElem?_set_ne (Ne.symm hwi), fun _ _ => rfl⟩)
    | some out =>
      refine .inl ⟨_, .back i p out up hw ho ?_, rfl⟩
      unfold HandlerReturns at hr ⊢
      rw [hx p out ho] at hr
      exact hr
  | fatal i p up hw hf =>
    cases ho : s.outcome S p with
    | none => exact .inr (.inr ⟨i, p, hw, ho, rfl, rfl, rfl, rfl, rfl, rfl, fun _ _ => rfl, fun _ _ => rfl⟩)
    | some out =>
      have : out = .fatal := (hx p out ho).symm.trans hf
      subst this
      exact .inl ⟨_, .fatal i p up hw ho, rfl⟩

/-- a worker keeps its download until this has come out -/
theorem net_keeps {t : SysNetSt} (st : SysNetStep S s t) {w p : Nat} (hw : s.sys.pl.p2.workers[w]? = some (.running p))
    (ho : s.outcome S p = none) : t.sys.pl.p2.workers[w]? = some (.running p) := by
  have set : ∀ {i : Nat} {x y : WPc}, s.sys.pl.p2.workers[i]? = some y → y ≠ .running p → (s.sys.pl.p2.workers.set i x)[w]? = some (.running p) := by
    intro i x y hi hne
    by_cases e : i = w
    · subst e; rw [hw] at hi; exact absurd (Option.some.inj hi).symm hne
    · rw [List.getElem?_set_ne e]; exact hw
  cases st with
  | rest a b c d =>
    cases a with
    | pipe new _ _ pst _ _ hfin _ _ _ _ =>
      cases pst with
      | select2 i hi => exact set hi (by simp)
      | recv2 i q x hi hq => exact set hi (by simp)
      | done2 i q hi => exact (snoc_ne hfin.symm).elim
      | _ => exact hw
    | back i q _ _ _ => exact (snoc_ne c.symm).elim
    | _ => exact hw
  | back i q out up hi hoq hr =>
    refine set hi fun hne => ?_
    cases hne
    rw [ho] at hoq; cases hoq
  | _ => exact hw

/-- the job that has led to something has been announced -/
theorem outcome_announce (h : SysNetReach S port fs0 s) {p : Nat} {out : HandlerOut} (hout : s.outcome S p = some out) :
    ∃ job l, enqueued (logOf p s.sys.pl.log) = job :: l ∧ IsAnnounce (S.pkts p) job := by
  obtain ⟨job, l, he⟩ := outcome_job hout
  obtain ⟨conn, mem, pool, hr⟩ := net_sys h
  obtain ⟨O, hO, hc⟩ := sys_crawler hr
  have I := pl_inv (C92_refines hc).1
  refine ⟨job, l, he, ?_⟩
  have hm : Event.enqueue job ∈ logOf p s.sys.pl.log := by
    have : job ∈ enqueued (logOf p s.sys.pl.log) := by rw [he]; exact List.mem_cons_self ..
    obtain ⟨e, hel, hee⟩ := List.mem_filterMap.1 this
    cases e <;> simp at hee
    subst hee; exact hel
  have hlog : logOf p s.sys.pl.log = (crawlTraces S.K O S.pkts p).take (s.sys.pl.hdl p) := I.log p
  rw [hlog] at hm
  have hm := List.mem_of_mem_take hm
  rcases crawlTraces_spec S.K hO S.pkts p with ⟨job'', bb, f', hj'', e'⟩ | ⟨-, e'⟩
  · rw [e'] at hm
    simp at hm
    rw [hm]; exact hj''
  · have : job ∈ enqueued (crawlTraces S.K O S.pkts p) := List.mem_filterMap.2 ⟨_, hm, rfl⟩
    rw [e'] at this; cases this

/-- only downloads that have come out are finished -/
theorem finished_outcome (h : SysNetReach S port fs0 s) : ∀ p ∈ s.sys.pl.p2.finished, s.outcome S p ≠ none := by
  induction h with
  | init h => intro p hp; rw [h.1.2.1.2.2.2.2.2.2.2.1.2.2.2.2.2.2.2.2.2.2.2] at hp; cases hp
  | @step s t hr st ih =>
    have keep : ∀ p, s.outcome S p ≠ none → t.outcome S p ≠ none := by
      intro p hp
      cases ho : s.outcome S p with
      | none => exact absurd ho hp
      | some out => rw [outcome_stays st ho]; simp
    intro p hp
    refine keep p ?_
    cases st with
    | rest a b c d => exact ih p (by rw [← c]; exact hp)
    | back i q out up hi ho hr' =>
      rcases List.mem_append.1 hp with h | h
      · exact ih p h
      · rw [List.mem_singleton.1 h, ho]; simp
    | _ => exact ih p hp

end

/-! ## Along an execution -/

section
variable {S : SysEnv} {port : Int} {fs0 : Bytes → Option Bytes} {e : Nat → SysNetSt}

theorem FairNet.reach (F : FairNet S port fs0 e) (i : Nat) : SysNetReach S port fs0 (e i) := F.run.reach i

theorem FairNet.log (F : FairNet S port fs0 e) {i j : Nat} (hij : i ≤ j) : ∃ new, (e j).sys.pl.log = (e i).sys.pl.log ++ new :=
  F.run.stays (fun s => ∃ new, s.sys.pl.log = (e i).sys.pl.log ++ new) (fun k ⟨a, ha⟩ st => by
    obtain ⟨b, hb⟩ := netStep_log st
    exact ⟨a ++ b, by rw [hb, ha, List.append_assoc]⟩) hij ⟨[], (List.append_nil _).symm⟩

theorem FairNet.outcome_for_ever (F : FairNet S port fs0 e) {i j p : Nat} {out : HandlerOut} (hij : i ≤ j) (h : (e i).outcome S p = some out) : (e j).outcome S p = some out :=
  F.run.stays (fun s => s.outcome S p = some out) (fun _ h st => outcome_stays st h) hij h

/-- Every download comes out. -/
theorem FairNet.comes_out (F : FairNet S port fs0 e) {i w p : Nat} (hw : (e i).sys.pl.p2.workers[w]? = some (.running p)) :
    ∃ j out, i ≤ j ∧ (e j).outcome S p = some out := by
  refine Classical.byContradiction fun hno => ?_
  have hnone : ∀ j, i ≤ j → (e j).outcome S p = none := by
    intro j hj
    cases h : (e j).outcome S p with
    | none => rfl
    | some out => exact absurd ⟨j, out, hj, h⟩ hno
  have hrun : ∀ j, i ≤ j → (e j).sys.pl.p2.workers[w]? = some (.running p) := by
    intro j hj
    obtain ⟨d, rfl⟩ := Nat.exists_eq_add_of_le hj
    clear hj
    induction d with
    | zero => exact hw
    | succ d ih =>
      rcases F.run.next (i + d) with h | h
      · rw [← Nat.add_assoc, h]; exact ih
      · rw [← Nat.add_assoc]; exact net_keeps h ih (hnone _ (by omega))
  obtain ⟨k, hk⟩ := C113_turns_end (S := S) (e := e) (fun k => (F.run.next k).symm) p
  obtain ⟨j, hj, -, hne⟩ := F.turns p (max i k) fun j hj => by
    obtain ⟨t, ht, hg, -⟩ := C113_never_stuck (F.reach j) (F.lives j) (hrun j (by omega)) (hnone j (by omega))
    exact ⟨t, ht, goes_ne hg⟩
  refine hne ?_
  show (e (j + 1)).dl p = (e j).dl p
  rw [hk (j + 1) (by omega), hk j (by omega)]

/-- From some moment on, a worker that runs the download for `p` has only to write the file or to return. -/
theorem FairNet.settled (F : FairNet S port fs0 e) (p : Nat) : ∃ i, ∀ (j w : Nat), i ≤ j → (e j).sys.pl.p2.workers[w]? = some (.running p) → (e j).outcome S p ≠ none := by
  by_cases h : ∃ (j w : Nat), (e j).sys.pl.p2.workers[w]? = some (.running p)
  · obtain ⟨j, w, hw⟩ := h
    obtain ⟨k, out, -, ho⟩ := F.comes_out hw
    exact ⟨k, fun j _ hj _ => by rw [F.outcome_for_ever hj ho]; simp⟩
  · exact ⟨0, fun j w _ hw => absurd ⟨j, w, hw⟩ h⟩

/-- what the downloads lead to in this execution, from which peers, among others, that would be too; one that never comes out has no peer -/
theorem FairNet.answers (F : FairNet S port fs0 e) : ∃ (conn : Nat → Bytes → PEnv) (mem : Nat → Nat → Bytes) (pool : Nat → BPool),
    (∀ i p out, (e i).outcome S p = some out → (e i).sys.outs (S.instead conn mem pool) p = out) ∧
    (∀ p, (∀ i, (e i).outcome S p = none) → ∀ laddr, (conn p laddr).dialFails = true) ∧
    ∀ i p out, (e i).outcome S p = some out → ∃ f : List PEvent → Shared → Shared, (∀ tr y, Own (heldP tr) y → OthersDo (heldP tr) y (f tr y)) ∧
      Own [] (mem p, pool p) ∧ conn p = fun laddr => (S.conn p laddr).among f := by
  have each : ∀ p, ∃ (c : Bytes → PEnv) (m : Nat → Bytes) (q : BPool),
      (∀ conn mem pool, conn p = c → mem p = m → pool p = q → ∀ i out, (e i).outcome S p = some out → (e i).sys.outs (S.instead conn mem pool) p = out) ∧
      ((∀ i, (e i).outcome S p = none) → ∀ laddr, (c laddr).dialFails = true) ∧
      ∀ i out, (e i).outcome S p = some out → ∃ f : List PEvent → Shared → Shared, (∀ tr y, Own (heldP tr) y → OthersDo (heldP tr) y (f tr y)) ∧
        Own [] (m, q) ∧ c = fun laddr => (S.conn p laddr).among f := by
    intro p
    by_cases h : ∃ i out, (e i).outcome S p = some out
    · obtain ⟨i0, out0, h0⟩ := h
      obtain ⟨f, m, q, o1, o2, hx⟩ := net_each (F.reach i0) p
      refine ⟨fun laddr => (S.conn p laddr).among f, m, q, fun conn mem pool e1 e2 e3 i out ho => ?_, fun hn => (by rw [hn i0] at h0; cases h0), fun _ _ _ => ⟨f, o1, o2, rfl⟩⟩
      have key : (e i0).sys.outs (S.instead conn mem pool) p = out0 := outcome_eq (f := f) e1 (by rw [e2, e3]; exact hx) h0
      rcases Nat.le_total i i0 with hi | hi
      · have := F.outcome_for_ever hi ho
        rw [h0] at this; cases this
        obtain ⟨job, l, he⟩ := outcome_job ho
        rw [← outs_stays (F.log hi) he]; exact key
      · have := F.outcome_for_ever hi h0
        rw [ho] at this; cases this
        obtain ⟨job, l, he⟩ := outcome_job h0
        rw [outs_stays (F.log hi) he]; exact key
    · refine ⟨fun laddr => { S.conn p laddr with dialFails := true }, S.mem p, S.pool p, fun conn mem pool _ _ _ i out ho => absurd ⟨i, out, ho⟩ h, fun _ _ => rfl, fun i out ho => absurd ⟨i, out, ho⟩ h⟩
  obtain ⟨conn, h1⟩ := Classical.axiomOfChoice each
  obtain ⟨mem, h2⟩ := Classical.axiomOfChoice h1
  obtain ⟨pool, h3⟩ := Classical.axiomOfChoice h2
  exact ⟨conn, mem, pool, fun i p => (h3 p).1 conn mem pool rfl rfl rfl i, fun p => (h3 p).2.1, fun i p => (h3 p).2.2 i⟩

/-- **A fair execution with downloads that take turns is a fair execution of `Model/System`.** -/
theorem FairNet.sys (F : FairNet S port fs0 e) {conn : Nat → Bytes → PEnv} {mem : Nat → Nat → Bytes} {pool : Nat → BPool}
    (hx : ∀ i p out, (e i).outcome S p = some out → (e i).sys.outs (S.instead conn mem pool) p = out) :
    FairSys (S.instead conn mem pool) port fs0 (fun i => (e i).sys) := by
  have down : ∀ i, (e (i + 1)).sys = (e i).sys ∨ SysStep (S.instead conn mem pool) (e i).sys (e (i + 1)).sys := by
    intro i
    rcases F.run.next i with h | h
    · exact .inl (by rw [h])
    · exact net_down h (hx i)
  have up : ∀ i {t : SysSt}, SysStep (S.instead conn mem pool) (e i).sys t →
      (∃ T, SysNetStep S (e i) T ∧ T.sys = t) ∨ t = (e i).sys ∨ ∃ w p, TooEarly S (e i) t w p := fun i _ st => net_up (hx i) st
  have weak : ∀ {A : SysSt → SysSt → Prop} {B : SysNetSt → SysNetSt → Prop}, WeaklyFair e B →
      (∀ i t, A (e i).sys t → ∃ T, B (e i) T) → (∀ i, B (e i) (e (i + 1)) → A (e i).sys (e (i + 1)).sys) → WeaklyFair (fun i => (e i).sys) A := by
    intro A B hB h1 h2 i hi
    obtain ⟨j, hj, hb⟩ := hB i fun j hj => let ⟨t, ht⟩ := hi j hj; h1 j t ht
    exact ⟨j, hj, h2 j hb⟩
  -- a goroutine other than a worker of the downloads
  have lift : ∀ {X : Type} (obs : SysSt → X), (∀ i t w p, TooEarly S (e i) t w p → obs t = obs (e i).sys) → ∀ i t,
      SysMoves (S.instead conn mem pool) obs (e i).sys t → ∃ T, NetMoves S (fun s => obs s.sys) (e i) T := by
    intro X obs ho i t ⟨st, hne⟩
    rcases up i st with ⟨T, hT, e1⟩ | h | ⟨w, p, h⟩
    · exact ⟨T, hT, by simp only [e1]; exact hne⟩
    · exact absurd (by rw [h]) hne
    · exact absurd (ho i t w p h) hne
  have drop : ∀ {X : Type} (obs : SysSt → X) (i : Nat), NetMoves S (fun s => obs s.sys) (e i) (e (i + 1)) → SysMoves (S.instead conn mem pool) obs (e i).sys (e (i + 1)).sys := by
    intro X obs i ⟨_, hne⟩
    rcases down i with h | h
    · exact absurd (by simp only [h]) hne
    · exact ⟨h, hne⟩
  refine ⟨⟨F.run.start.1, down⟩, F.lives, ?_, ?_, ?_, fun w hw => ?_, fun w hw => ?_, ?_, fun w hw => ?_, fun w p hw => ?_, ?_⟩
  · exact weak F.startup (lift (fun s => s.pg.st.pc) fun i t w p h => by rw [h.pg]) (drop fun s => s.pg.st.pc)
  · refine weak F.receive (fun i t ⟨h1, h2⟩ => ?_) fun i ⟨h1, h2⟩ => ⟨drop (fun s => s.pg.rcv) i h1, h2⟩
    obtain ⟨T, hT⟩ := lift (fun s => s.pg.rcv) (fun i t w p h => by rw [h.pg]) i t h1
    exact ⟨T, hT, h2⟩
  · exact weak F.listen (lift (fun s => (s.pl.l, s.pl.p1.subs)) fun i t w p h => by rw [h.l, h.p1]) (drop fun s => (s.pl.l, s.pl.p1.subs))
  · refine weak (F.worker1 w hw) (fun i t ⟨h1, h2⟩ => ?_) fun i ⟨h1, h2⟩ => ⟨drop (fun s => s.pl.p1.workers[w]?) i h1, h2⟩
    obtain ⟨T, hT⟩ := lift (fun s => s.pl.p1.workers[w]?) (fun i t w p h => by rw [h.p1]) i t h1
    exact ⟨T, hT, h2⟩
  · intro i hi
    obtain ⟨j, hj, p, hp, hm⟩ := F.handler w hw i fun k hk => by
      obtain ⟨j, hj, t, p, hp, hm⟩ := hi k hk
      obtain ⟨T, hT⟩ := lift (fun s => (s.pl.p1.workers[w]?, s.pl.hdl p)) (fun i t w p h => by rw [h.p1, h.hdl]) j t hm
      exact ⟨j, hj, T, p, hp, hT⟩
    exact ⟨j, hj, p, hp, drop (fun s => (s.pl.p1.workers[w]?, s.pl.hdl p)) j hm⟩
  · exact weak F.fetch (lift (fun s => (s.pl.f, s.pl.p2.subs)) fun i t w p h => by rw [h.f, h.subs]) (drop fun s => (s.pl.f, s.pl.p2.subs))
  · refine weak (F.worker2 w hw) (fun i t ⟨⟨st, hne⟩, h2⟩ => ?_) fun i ⟨h1, h2⟩ => ⟨drop (fun s => s.pl.p2.workers[w]?) i h1, h2⟩
    rcases up i st with ⟨T, hT, e1⟩ | h | ⟨v, p, h⟩
    · exact ⟨T, ⟨hT, by simp only [e1]; exact hne⟩, h2⟩
    · exact absurd (by rw [h]) hne
    · by_cases hv : w = v
      · subst hv; exact absurd ⟨p, h.runs⟩ h2
      · exact absurd (h.workers w hv) hne
  · -- a download: from some moment on it is past its turns, as long as nothing happens to it
    intro i hi
    refine Classical.byContradiction fun hno => ?_
    have same : ∀ j, i ≤ j → ((e (j + 1)).sys.pl.p2.workers[w]?, (e (j + 1)).sys.fs.pc p) = ((e j).sys.pl.p2.workers[w]?, (e j).sys.fs.pc p) := by
      intro j hj
      refine Classical.byContradiction fun hne => hno ⟨j, hj, ?_, hne⟩
      rcases down j with h | h
      · exact absurd (by simp only [h]) hne
      · exact h
    have const : ∀ j, i ≤ j → (e j).sys.pl.p2.workers[w]? = (e i).sys.pl.p2.workers[w]? := by
      intro j hj
      obtain ⟨d, rfl⟩ := Nat.exists_eq_add_of_le hj
      clear hj
      induction d with
      | zero => rfl
      | succ d ih => rw [← Nat.add_assoc]; exact (congrArg Prod.fst (same (i + d) (by omega))).trans ih
    obtain ⟨m1, h1⟩ := F.settled p
    obtain ⟨m2, h2⟩ : ∃ m, ∀ (j q : Nat), m ≤ j → i ≤ j → (e j).sys.pl.p2.workers[w]? = some (.running q) → (e j).outcome S q ≠ none := by
      by_cases hq : ∃ q, (e i).sys.pl.p2.workers[w]? = some (WPc.running q)
      · obtain ⟨q, hq⟩ := hq
        obtain ⟨m, hm⟩ := F.settled q
        refine ⟨m, fun j q' hj hij hw' => ?_⟩
        have := (const j hij).symm.trans hw'
        rw [hq] at this; cases this
        exact hm j w hj hw'
      · exact ⟨0, fun j q' _ hij hw' => absurd ⟨q', (const j hij).symm.trans hw'⟩ hq⟩
    obtain ⟨j, hj, hb⟩ := F.download w p hw (max i (max m1 m2)) fun j hj => by
      obtain ⟨t, st, hne⟩ := hi j (by omega)
      rcases up j st with ⟨T, hT, e1⟩ | h | ⟨v, q, h⟩
      · exact ⟨T, hT, by simp only [e1]; exact hne⟩
      · exact absurd (by rw [h]) hne
      · exfalso
        by_cases hv : w = v
        · subst hv; exact h2 j q (by omega) (by omega) h.runs h.early
        · by_cases hq : p = q
          · subst hq; exact h1 j v (by omega) h.runs h.early
          · exact hne (by simp only [h.workers w hv, h.pc p hq])
    exact hno ⟨j, by omega, drop (fun s => (s.pl.p2.workers[w]?, s.fs.pc p)) j hb⟩
  · obtain ⟨w, hw, h⟩ := F.free
    refine ⟨w, hw, fun i p hp => ?_⟩
    obtain ⟨j, out, hj, ho⟩ := F.comes_out hp
    obtain ⟨job, l, he⟩ := running_job (F.reach i) hp
    have hout := hx j p out ho
    rw [outs_stays (F.log hj) he] at hout
    show ((e i).sys.outs (S.instead conn mem pool) p).Ends
    rw [hout]
    exact h i p hp j out hj ho

end

end P2P

import Verif.Model.Program
import Verif.Props.Startup
import Verif.Props.StartupSend
/-! # C83: ending the program -/
namespace P2P

/-- the states of the program started with these bootstrap hosts -/
abbrev PgReach (K : KEnv) (hosts : List (Option UDPAddr)) : PgSt → Prop := Reach (PgInit hosts) (PgStep K)

structure PgInv (K : KEnv) (hosts : List (Option UDPAddr)) (s : PgSt) : Prop where
  st : StReach K hosts s.st
  left : s.main ≠ .select → s.st.pc.booted = true ∧ 1 ≤ s.signals
  pend : 1 ≤ s.signals → s.main = .select → s.sig = true
  sig : s.sig = true → 1 ≤ s.signals
  notYet : s.cleaner = .notYet ↔ s.main = .select ∨ s.main = .store ∨ s.main = .start
  done : s.cleaner = .done ↔ s.main = .final false ∨ s.main = .exited false
  status : s.status = match s.main with
    | .select => .running
    | .store => .running
    | .exited _ => .shutdowned
    | _ => .shutdowning
  early : s.cleaner = .notYet ∨ s.cleaner = .add → s.added = 0
  range : s.cleaner = .notYet ∨ s.cleaner = .add ∨ s.cleaner = .range → s.closer = .notYet
  one : s.added = 0 ∨ (s.added = 1 ∧ s.st.cleanup = true ∧ (s.cleaner = .range ∨ s.closer ≠ .notYet))
  clean : s.closer ≠ .notYet → s.st.cleanup = true
  wg : s.wg = s.added - (if s.closer = .done then 1 else 0)
  closed : s.closed = true ↔ s.closer = .stored ∨ s.closer = .returned ∨ s.closer = .done
  conn : s.connOpen = false ↔ s.closer = .returned ∨ s.closer = .done
  killed : s.killed = true ↔ s.closer = .done ∧ s.added = 0
  sent : s.cleaner = .sending ∨ s.cleaner = .done → s.added = 1 → s.closer = .done

theorem booted_step {K : KEnv} {s t : StSt} (h : StMain K s t) (hb : s.pc.booted = true) : t.pc.booted = true := by
  cases h <;> simp_all [StPc.booted]

theorem cleanup_step {K : KEnv} {s t : StSt} (h : StMain K s t) (hb : s.cleanup = true) : t.cleanup = true := by
  cases h <;> simp_all

theorem pgInv_main {K : KEnv} {hosts : List (Option UDPAddr)} {s t : PgSt} (h : PgInv K hosts s) (m : PgMain s t) : PgInv K hosts t := by
  obtain ⟨h1, h2, h3, h4, h5, h6, h7, h8, h9, h10, h11, h12, h13, h14, h15, h16⟩ := h
  cases m <;> constructor <;> simp_all <;> (try omega)

theorem pgInv_other {K : KEnv} {hosts : List (Option UDPAddr)} {s t : PgSt} (h : PgInv K hosts s) (hk : s.alive) (m : PgOther K s t) :
    PgInv K hosts t := by
  obtain ⟨k1, k2, k3⟩ := hk
  obtain ⟨h1, h2, h3, h4, h5, h6, h7, h8, h9, h10, h11, h12, h13, h14, h15, h16⟩ := h
  cases m with
  | signal => constructor <;> simp_all <;> (try omega)
  | startup sm =>
    have hb := booted_step sm
    have hc := cleanup_step sm
    have hr : StReach K hosts _ := Reach.step h1 (.main sm)
    constructor <;> simp_all <;> (try omega)
    · rcases h10 with h | ⟨h, h', h''⟩
      · exact .inl h
      · exact .inr ⟨h, hc h', h''⟩
  | add e =>
    unfold PgSt.cleans at *
    constructor <;> simp_all <;> (try omega)
  | rangeNone e e2 =>
    have hc : s.st.cleanup = false := by unfold PgSt.cleans at e2; simpa using e2
    clear e2
    constructor <;> simp_all <;> (try omega)
  | rangeOne e e2 =>
    have hc : s.st.cleanup = true := by unfold PgSt.cleans at e2; simpa using e2
    have e1 : s.closer = .notYet := h9 (by simp [e])
    clear e2
    refine ⟨h1, h2, h3, h4, ?_, ?_, h7, by simp, by simp, ?_, fun _ => hc, ?_, ?_, ?_, ?_, by simp⟩
    · simpa [e] using h5
    · simpa [e] using h6
    · rcases h10 with h | h
      · exact .inl h
      · exact .inr ⟨h.1, hc, .inr (by simp)⟩
    · simpa [e1] using h12
    · simpa [e1] using h13
    · simpa [e1] using h14
    · simpa [e1] using h15
  | wait e e2 =>
    refine ⟨h1, h2, h3, h4, ?_, ?_, h7, by simp, by simp, ?_, h11, h12, h13, h14, h15, ?_⟩
    · simpa [e] using h5
    · simpa [e] using h6
    · rcases h10 with h | h
      · exact .inl h
      · exact .inr ⟨h.1, h.2.1, .inr (by simpa [e] using h.2.2)⟩
    · intro _ ha
      rw [e2, ha] at h12
      by_cases hd : s.closer = .done
      · exact hd
      · simp [hd] at h12
  | closeStore e => constructor <;> simp_all <;> (try omega)
  | closeConn e => constructor <;> simp_all <;> (try omega)
  | closeDone e =>
    have e1 : s.wg = s.added := by simpa [e] using h12
    have e2 : s.cleaner ≠ .notYet ∧ s.cleaner ≠ .add ∧ s.cleaner ≠ .range := by
      refine ⟨fun h => ?_, fun h => ?_, fun h => ?_⟩ <;> simp [h, e] at h9
    have e3 : s.st.cleanup = true := h11 (by simp [e])
    refine ⟨h1, h2, h3, h4, h5, h6, h7, h8, fun h => by simp_all, ?_, fun _ => e3, by simp [e1], by simp [h13, e], by simp [h14, e], ?_, fun _ _ => rfl⟩
    · rcases h10 with h | h
      · exact .inl h
      · exact .inr ⟨h.1, h.2.1, .inr (by simp)⟩
    · simp only [e1, decide_eq_true_eq, true_and]
      omega
  | test e => exact ⟨h1, h2, h3, h4, h5, h6, h7, h8, h9, h10, h11, h12, h13, h14, h15, h16⟩
  | read p e e2 => exact ⟨h1, h2, h3, h4, h5, h6, h7, h8, h9, h10, h11, h12, h13, h14, h15, h16⟩
  | readErr e => exact ⟨h1, h2, h3, h4, h5, h6, h7, h8, h9, h10, h11, h12, h13, h14, h15, h16⟩
  | deliver e e2 =>
    exact ⟨Reach.step h1 (.arrive _ k2 e2), h2, h3, h4, h5, h6, h7, h8, h9, h10, h11, h12, h13, h14, h15, h16⟩

theorem pgReach_inv {K : KEnv} {hosts : List (Option UDPAddr)} {s : PgSt} (h : PgReach K hosts s) : PgInv K hosts s := by
  refine Reach.inv (PgInv K hosts) ?_ ?_ h
  · rintro s ⟨h1, h2, h3, h4, h5, h6, h7, h8, h9, h10, h11, h12, h13, h14⟩
    refine ⟨.init h1, ?_, ?_, ?_, ?_, ?_, ?_, ?_, ?_, ?_, ?_, ?_, ?_, ?_, ?_, ?_⟩ <;>
      simp [h2, h3, h4, h5, h6, h7, h8, h9, h10, h12, h13]
  · intro s t hi st
    cases st with
    | main _ m => exact pgInv_main hi m
    | other a m => exact pgInv_other hi a m

/-- C83: the start-up part of the program is that of C63 at all times. -/
theorem C83_startup {K : KEnv} {hosts : List (Option UDPAddr)} {s : PgSt} (h : PgReach K hosts s) : StReach K hosts s.st := (pgReach_inv h).st

/-- C83: without a signal the program does not end by itself: it returns from `main` only after a signal, and after every bootstrap host
has been contacted successfully. -/
theorem C83_needs_signal {K : KEnv} {hosts : List (Option UDPAddr)} {s : PgSt} (h : PgReach K hosts s) {b : Bool} (he : s.main = .exited b) :
    1 ≤ s.signals ∧ BootSeq K.nodeId hosts s.st.boots := by
  have hi := pgReach_inv h
  obtain ⟨hb, hs⟩ := hi.left (by simp [he])
  refine ⟨hs, ?_⟩
  have := (stReach_inv hi.st).2.2.2
  revert this hb
  cases s.st.pc <;> simp [StPc.booted] <;> intro a <;> simp_all

/-- C83: while the program is bootstrapping a signal has no effect, however many arrive: the main goroutine does not look at them, nothing
is closed and nothing is cleaned up. -/
theorem C83_deaf_while_bootstrapping {K : KEnv} {hosts : List (Option UDPAddr)} {s : PgSt} (h : PgReach K hosts s)
    (hb : s.st.pc.booted = false) :
    s.main = .select ∧ s.status = .running ∧ s.closed = false ∧ s.connOpen = true ∧ s.killed = false ∧ ∀ t, ¬ PgMain s t := by
  have hi := pgReach_inv h
  have hm : s.main = .select := by
    by_cases hm : s.main = .select
    · exact hm
    · rw [(hi.left hm).1] at hb; cases hb
  have hn : s.cleaner = .notYet := hi.notYet.2 (.inl hm)
  have hc : s.closer = .notYet := hi.range (.inl hn)
  refine ⟨hm, by rw [hi.status, hm], ?_, ?_, ?_, ?_⟩
  · have := hi.closed; cases hx : s.closed <;> simp_all
  · have := hi.conn; cases hx : s.connOpen <;> simp_all
  · have := hi.killed; cases hx : s.killed <;> simp_all
  · intro t m
    cases m <;> simp_all

/-- how many steps the main goroutine is away from its end, once it has been woken -/
def WaitPc.left : WaitPc → Nat
  | .select => 5
  | .store => 4
  | .start => 3
  | .cleaning => 2
  | .final _ => 1
  | .exited _ => 0

/-- C83: **one signal ends the program**, at whatever moment after (or before) the end of the bootstrap it arrives and whatever else goes on:
once a signal has arrived and bootstrapping is over, the main goroutine always has a step to take until the process has ended, every step it
takes brings it nearer, nothing anybody else does takes it away, and it needs at most five. -/
theorem C83_one_signal_suffices {K : KEnv} {hosts : List (Option UDPAddr)} {s : PgSt} (h : PgReach K hosts s) (hs : 1 ≤ s.signals)
    (hb : s.st.pc.booted = true) :
    s.main.left ≤ 5 ∧ (s.main.left = 0 ↔ ∃ b, s.main = .exited b) ∧ (s.alive → ∃ t, PgMain s t) ∧
    (∀ t, PgMain s t → t.main.left < s.main.left) ∧
    (∀ t, PgStep K s t → t.main.left ≤ s.main.left ∧ 1 ≤ t.signals ∧ t.st.pc.booted = true) := by
  have hi := pgReach_inv h
  have hd : ∀ t, PgMain s t → t.main.left < s.main.left := by
    intro t m
    cases m <;> simp_all [WaitPc.left]
  refine ⟨by cases s.main <;> simp [WaitPc.left], by cases s.main <;> simp [WaitPc.left], ?_, hd, ?_⟩
  · rintro ⟨-, -, ha⟩
    cases hm : s.main with
    | select => exact ⟨_, .wake hb hm (hi.pend hs hm)⟩
    | store => exact ⟨_, .store hm⟩
    | start => exact ⟨_, .runCleans hm⟩
    | cleaning => exact ⟨_, .timeout hm⟩
    | final b => exact ⟨_, .exit hm⟩
    | exited b => exact absurd hm (ha b)
  · intro t st
    cases st with
    | main _ m =>
      refine ⟨Nat.le_of_lt (hd t m), ?_⟩
      cases m <;> exact ⟨hs, hb⟩
    | other _ m =>
      cases m with
      | startup sm => exact ⟨Nat.le_refl _, hs, booted_step sm hb⟩
      | signal => exact ⟨Nat.le_refl _, by simp, hb⟩
      | deliver => exact ⟨Nat.le_refl _, hs, hb⟩
      | _ => exact ⟨Nat.le_refl _, hs, hb⟩

/-- C83: if the program ends without running into its five second limit, then the UDP socket has been closed, unless the clean-up had not
been registered yet when the shutdown began. -/
theorem C83_socket_closed {K : KEnv} {hosts : List (Option UDPAddr)} {s : PgSt} (h : PgReach K hosts s) (he : s.main = .exited false) :
    s.added = 0 ∨ (s.closed = true ∧ s.connOpen = false) := by
  have hi := pgReach_inv h
  rcases hi.one with h1 | ⟨h1, -, -⟩
  · exact .inl h1
  · have := hi.sent (.inr (hi.done.2 (.inr he))) h1
    exact .inr ⟨hi.closed.2 (.inr (.inr this)), hi.conn.2 (.inr this)⟩

/-- C83: the socket stays open until a signal has arrived and the main goroutine has seen it. -/
theorem C83_open_until_signal {K : KEnv} {hosts : List (Option UDPAddr)} {s : PgSt} (h : PgReach K hosts s)
    (hc : s.connOpen = false ∨ s.closed = true) : 1 ≤ s.signals ∧ s.st.cleanup = true ∧ s.status ≠ .running := by
  have hi := pgReach_inv h
  have hn : s.closer ≠ .notYet := by
    intro e
    rcases hc with hc | hc
    · have := hi.conn.1 hc; simp [e] at this
    · have := hi.closed.1 hc; simp [e] at this
  have hy : s.cleaner ≠ .notYet := fun e => hn (hi.range (.inl e))
  have hm : s.main ≠ .select := fun e => hy (hi.notYet.2 (.inl e))
  have hm2 : s.main ≠ .store := fun e => hy (hi.notYet.2 (.inr (.inl e)))
  refine ⟨(hi.left hm).2, hi.clean hn, ?_⟩
  rw [hi.status]
  cases hx : s.main <;> simp_all

/-- C83: the process is killed during the shutdown only if the clean-up was registered after `runCleans` had counted the clean-ups. -/
theorem C83_killed {K : KEnv} {hosts : List (Option UDPAddr)} {s : PgSt} (h : PgReach K hosts s) (hk : s.killed = true) :
    s.added = 0 ∧ s.st.cleanup = true ∧ 1 ≤ s.signals ∧ s.connOpen = false := by
  have hi := pgReach_inv h
  obtain ⟨h1, h2⟩ := hi.killed.1 hk
  have hc := hi.conn.2 (.inr h1)
  exact ⟨h2, hi.clean (by simp [h1]), (C83_open_until_signal h (.inl hc)).1, hc⟩

/-- C83: once the clean-up is registered and no signal has arrived, nothing can kill the process any more, and if it ends without running into
the limit its socket has been closed. -/
theorem C83_safe_once_registered {K : KEnv} {hosts : List (Option UDPAddr)} {s t : PgSt} (h : PgReach K hosts s) (hc : s.st.cleanup = true)
    (h0 : s.signals = 0) (hst : Reach (· = s) (PgStep K) t) :
    t.killed = false ∧ (t.main = .exited false → t.closed = true ∧ t.connOpen = false) := by
  have hi := pgReach_inv h
  have hrt : PgReach K hosts t := by
    induction hst with
    | init e => rw [e]; exact h
    | step _ st ih => exact .step ih st
  have hJ : t.st.cleanup = true ∧ (t.cleaner = .notYet ∨ t.cleaner = .add ∨ t.added = 1) := by
    refine Reach.inv (fun t => t.st.cleanup = true ∧ (t.cleaner = .notYet ∨ t.cleaner = .add ∨ t.added = 1)) ?_ ?_ hst
    · rintro u rfl
      refine ⟨hc, .inl (hi.notYet.2 (.inl ?_))⟩
      by_cases hm : u.main = .select
      · exact hm
      · have := (hi.left hm).2; omega
    · rintro u v ⟨a, b⟩ st
      cases st with
      | main _ m => cases m <;> simp_all
      | other _ m =>
        cases m with
        | startup sm => exact ⟨cleanup_step sm a, b⟩
        | add e => simp_all [PgSt.cleans]
        | deliver e e2 => exact ⟨a, b⟩
        | _ => simp_all
  have hit := pgReach_inv hrt
  have ha : t.cleaner = .notYet ∨ t.cleaner = .add ∨ t.added = 1 := hJ.2
  constructor
  · cases hk : t.killed with
    | false => rfl
    | true =>
      obtain ⟨h1, h2⟩ := hit.killed.1 hk
      rcases ha with e | e | e
      · have := hit.range (.inl e); simp [h1] at this
      · have := hit.range (.inr (.inl e)); simp [h1] at this
      · omega
  · intro he
    rcases C83_socket_closed hrt he with h1 | h1
    · have hd := hit.done.2 (.inr he)
      rcases ha with e | e | e
      · simp [hd] at e
      · simp [hd] at e
      · omega
    · exact h1

/-- C83: after the socket has been closed no datagram is read any more; the receive goroutine hands on at most the one it had read before. -/
theorem C83_deaf_after_close {K : KEnv} {s t : PgSt} (hc : s.connOpen = false) (h : Reach (· = s) (PgStep K) t) :
    t.got = s.got ∧ t.connOpen = false := by
  refine Reach.inv (fun t => t.got = s.got ∧ t.connOpen = false) ?_ ?_ h
  · rintro u rfl; exact ⟨rfl, hc⟩
  · rintro u v ⟨a, b⟩ st
    cases st with
    | main _ m => cases m <;> exact ⟨a, b⟩
    | other _ m => cases m <;> simp_all

/-- C83: every datagram read is in the queue, taken by the server, or in the hands of the receive goroutine: none is lost before the process ends. -/
theorem C83_none_lost {K : KEnv} {hosts : List (Option UDPAddr)} {s : PgSt} (h : PgReach K hosts s) :
    s.got = s.st.taken.map Prod.fst ++ s.st.queue ++ (match s.rcv with | .sending p => [p] | _ => []) := by
  have key : s.got = s.st.arrived ++ (match s.rcv with | .sending p => [p] | _ => []) := by
    refine Reach.inv (fun s : PgSt => s.got = s.st.arrived ++ (match s.rcv with | .sending p => [p] | _ => [])) ?_ ?_ h
    · rintro s ⟨h1, h2, h3, h4, h5, h6, h7, h8, h9, h10, h11, h12, h13, h14⟩
      rw [StSt.start] at h1
      simp [h14, h11, h1]
    · intro u v hu st
      cases st with
      | main _ m => cases m <;> exact hu
      | other _ m =>
        cases m with
        | startup sm =>
          have : ∀ {a b : StSt}, StMain K a b → b.arrived = a.arrived := by
            intro a b m; cases m <;> rfl
          rw [hu, this sm]
        | test e => simp only [hu, e]; by_cases hcl : u.closed = true <;> simp [hcl]
        | read p e e2 => simp_all
        | readErr e => simp_all
        | deliver e e2 => simp_all
        | _ => exact hu
  rw [key, (C63_none_lost (C83_startup h)).1]


/-! ### The hypotheses are met -/

/-- several steps of bootstrapping and `Run` -/
theorem pg_lift {K : KEnv} {hosts : List (Option UDPAddr)} {s : PgSt} (h : PgReach K hosts s) (hk : s.killed = false)
    (hm : ∀ b, s.main ≠ .exited b) {st' : StSt} (hr : Reach (· = s.st) (StMain K) st') : PgReach K hosts { s with st := st' } := by
  induction hr with
  | init e => subst e; exact h
  | @step a b _ st ih =>
    refine ih.step (.other ⟨hk, ?_, hm⟩ (.startup st))
    cases st <;> simp_all

/-- from the start, with hosts that resolve, `Run` gets to where it is about to register the clean-up -/
theorem reach_before_clean (rest : List UDPAddr) {s0 s : StSt} (h : Reach (· = s0) (StMain exK) s) (hp : s.pc = .boot (rest.map some))
    (hr : s.router = []) (hc : s.cleanup = false) :
    ∃ t, Reach (· = s0) (StMain exK) t ∧ t.pc = .registerClean ∧ t.queue = s.queue ∧ t.cleanup = false := by
  induction rest generalizing s with
  | cons a r ih =>
    obtain ⟨c, hb⟩ := exBoot a
    exact ih (s := { s with pc := .boot (r.map some), boots := s.boots ++ [c.trace] }) (h.step (.bootOk (by simpa using hp) exO_fair hb)) rfl hr hc
  | nil =>
    have h1 := h.step (.run (by simpa using hp))
    have hrt : ∀ {s : StSt} {todo : List (Bytes × Handler)}, Reach (· = s0) (StMain exK) s → s.pc = .register todo →
        s.router ++ todo = registrations exK → s.cleanup = false →
        ∃ t, Reach (· = s0) (StMain exK) t ∧ t.pc = .register [] ∧ t.queue = s.queue ∧ t.cleanup = false := by
      intro s todo
      induction todo generalizing s with
      | nil => intro h hp _ hc; exact ⟨s, h, hp, rfl, hc⟩
      | cons x todo ih =>
        intro h hp hi hc
        obtain ⟨q, g⟩ := x
        obtain ⟨hq, hn⟩ := registrations_split exK hi
        have h2 := h.step (.register (O := exO) hp (registeHandler_method exK exO _ g hq hn))
        obtain ⟨t, h3, h4, h5, h6⟩ := ih h2 rfl (by simpa [withRouter] using hi) hc
        exact ⟨t, h3, h4, h5, h6⟩
    obtain ⟨t, ht, hp2, hq2, hc2⟩ := hrt h1 rfl (by simp [hr]) hc
    exact ⟨_, (ht.step (.registered hp2)).step (.fetch rfl), rfl, hq2, hc2⟩

/-- the program after package initialisation -/
def pgStart (hosts : List (Option UDPAddr)) : PgSt where
  st := { pc := .boot hosts, router := [], queue := [], fetching := false, cleanup := false, boots := [], arrived := [], taken := [] }
  sig := false
  main := .select
  status := .running
  cleaner := .notYet
  added := 0
  wg := 0
  closer := .notYet
  closed := false
  connOpen := true
  rcv := .top
  killed := false
  signals := 0
  got := []

theorem pgStart_init (hosts : List (Option UDPAddr)) : PgInit hosts (pgStart hosts) :=
  ⟨rfl, rfl, rfl, rfl, rfl, rfl, rfl, rfl, rfl, rfl, rfl, rfl, rfl, rfl⟩

/-- hypotheses of `C83_deaf_while_bootstrapping`: a signal has arrived during the bootstrap -/
example (hosts : List (Option UDPAddr)) : ∃ s, PgReach exK hosts s ∧ s.st.pc.booted = false ∧ s.signals = 1 :=
  ⟨_, (Reach.init (pgStart_init hosts)).step (.other ⟨rfl, by simp [pgStart], by simp [pgStart]⟩ .signal), rfl, rfl⟩

theorem reach_trans {S : Type} {init : S → Prop} {step : S → S → Prop} {a b : S} (h : Reach init step a) (h2 : Reach (· = a) step b) :
    Reach init step b := by
  induction h2 with
  | init e => subst e; exact h
  | step _ st ih => exact ih.step st

theorem reach_main {K : KEnv} {init : PgSt → Prop} {s t : PgSt} (h : Reach init (PgStep K) s) (ha : s.alive) (m : PgMain s t) :
    Reach init (PgStep K) t := h.step (.main ha m)

theorem reach_other {K : KEnv} {init : PgSt → Prop} {s t : PgSt} (h : Reach init (PgStep K) s) (ha : s.alive) (m : PgOther K s t) :
    Reach init (PgStep K) t := h.step (.other ha m)

/-- hypotheses of `C83_socket_closed`, `C83_needs_signal`, `C83_safe_once_registered`: an orderly end, for all hosts that resolve, in which the
socket is closed although **a datagram was read and never handled**: the program does not wait for its packets. -/
theorem C83_orderly_end (hosts : List UDPAddr) (p : RecvPacket) :
    ∃ s t, PgReach exK (hosts.map some) s ∧ s.st.cleanup = true ∧ s.signals = 0 ∧ Reach (· = s) (PgStep exK) t ∧
      t.main = .exited false ∧ t.added = 1 ∧ t.connOpen = false ∧ p ∈ t.got ∧ t.st.taken = [] := by
  have h0 : PgReach exK (hosts.map some) (pgStart (hosts.map some)) := .init (pgStart_init _)
  obtain ⟨u, hu, hp, hq, hc⟩ := reach_before_clean hosts (s0 := (pgStart (hosts.map some)).st) (.init rfl) rfl rfl rfl
  have h1 := pg_lift h0 rfl (by simp [pgStart]) (hu.step (.clean hp))
  have hq0 : u.queue = [] := hq
  have ht : u.taken = [] := by
    have hi := C83_startup (pg_lift h0 rfl (by simp [pgStart]) hu)
    by_cases h : u.taken = []
    · exact h
    · have := (C63_packets_wait hi h).2.2.1
      simp [hc] at this
  have kk := Reach.init (init := fun x => x = _) (step := PgStep exK) (show { pgStart (hosts.map some) with st := { u with pc := .listen, cleanup := true } } = _ from rfl)
  have k0 := reach_other kk ⟨rfl, by simp [hp], by simp [pgStart]⟩ (.test rfl)
  have k1 := reach_other k0 ⟨rfl, by simp [hp], by simp [pgStart]⟩ (.read p rfl rfl)
  have k2 := reach_other k1 ⟨rfl, by simp [hp], by simp [pgStart]⟩ (.deliver rfl (by simp [pgStart, hq0, recvqCap]))
  have k3 := reach_other k2 ⟨rfl, by simp [hp], by simp [pgStart]⟩ .signal
  have k4 := reach_main k3 ⟨rfl, by simp [hp], by simp [pgStart]⟩ (.wake rfl rfl rfl)
  have k5 := reach_main k4 ⟨rfl, by simp [hp], by simp [pgStart]⟩ (.store rfl)
  have k6 := reach_main k5 ⟨rfl, by simp [hp], by simp [pgStart]⟩ (.runCleans rfl)
  have k7 := reach_other k6 ⟨rfl, by simp [hp], by simp [pgStart]⟩ (.add rfl)
  have k8 := reach_other k7 ⟨rfl, by simp [hp], by simp [pgStart]⟩ (.rangeOne rfl rfl)
  have k9 := reach_other k8 ⟨rfl, by simp [hp], by simp [pgStart]⟩ (.closeStore rfl)
  have k10 := reach_other k9 ⟨rfl, by simp [hp], by simp [pgStart]⟩ (.closeConn rfl)
  have k11 := reach_other k10 ⟨rfl, by simp [hp], by simp [pgStart]⟩ (.closeDone rfl)
  have k12 := reach_other k11 ⟨rfl, by simp [hp], by simp [pgStart]⟩ (.wait rfl rfl)
  have k13 := reach_main k12 ⟨rfl, by simp [hp], by simp [pgStart]⟩ (.finished rfl rfl)
  have k14 := reach_main k13 ⟨rfl, by simp [hp], by simp [pgStart]⟩ (.exit rfl)
  exact ⟨_, _, h1, rfl, rfl, k14, rfl, rfl, rfl, by simp, ht⟩

/-- hypotheses of `C83_killed`: the signal arrives while `Run` is still registering; `runCleans` counts no clean-up and then starts one, whose
`wg.Done()` kills the process. -/
theorem C83_killed_run (hosts : List UDPAddr) : ∃ s, PgReach exK (hosts.map some) s ∧ s.killed = true := by
  have h0 : PgReach exK (hosts.map some) (pgStart (hosts.map some)) := .init (pgStart_init _)
  obtain ⟨u, hu, hp, hq, hc⟩ := reach_before_clean hosts (s0 := (pgStart (hosts.map some)).st) (.init rfl) rfl rfl rfl
  have h1 := pg_lift h0 rfl (by simp [pgStart]) hu
  have hd : u.pc ≠ .dead := by simp [hp]
  have k0 := reach_other h1 ⟨rfl, by simp [hp], by simp [pgStart]⟩ .signal
  have k1 := reach_main k0 ⟨rfl, by simp [hp], by simp [pgStart]⟩ (.wake (by simp [StPc.booted, hp]) rfl rfl)
  have k2 := reach_main k1 ⟨rfl, by simp [hp], by simp [pgStart]⟩ (.store rfl)
  have k3 := reach_main k2 ⟨rfl, by simp [hp], by simp [pgStart]⟩ (.runCleans rfl)
  have k4 := reach_other k3 ⟨rfl, by simp [hp], by simp [pgStart]⟩ (.add rfl)
  have k5 := reach_other k4 ⟨rfl, by simp [hp], by simp [pgStart]⟩ (.startup (.clean hp))
  have k6 := reach_other k5 ⟨rfl, by simp [hp], by simp [pgStart]⟩ (.rangeOne rfl rfl)
  have k7 := reach_other k6 ⟨rfl, by simp [hp], by simp [pgStart]⟩ (.closeStore rfl)
  have k8 := reach_other k7 ⟨rfl, by simp [hp], by simp [pgStart]⟩ (.closeConn rfl)
  have k9 := reach_other k8 ⟨rfl, by simp [hp], by simp [pgStart]⟩ (.closeDone rfl)
  exact ⟨_, k9, by simp [PgSt.cleans, hc]⟩

/-- hypotheses of `C83_open_until_signal`, `C83_deaf_after_close`: a state with the socket closed -/
example (hosts : List UDPAddr) (p : RecvPacket) : ∃ s, PgReach exK (hosts.map some) s ∧ s.connOpen = false ∧ p ∈ s.got := by
  obtain ⟨s, t, h, -, -, hr, -, -, hc, hg, -⟩ := C83_orderly_end hosts p
  exact ⟨t, reach_trans h hr, hc, hg⟩

/-- hypotheses of `C83_one_signal_suffices` -/
example (hosts : List UDPAddr) : ∃ s, PgReach exK (hosts.map some) s ∧ 1 ≤ s.signals ∧ s.st.pc.booted = true ∧ s.alive := by
  have h0 : PgReach exK (hosts.map some) (pgStart (hosts.map some)) := .init (pgStart_init _)
  obtain ⟨u, hu, hp, hq, hc⟩ := reach_before_clean hosts (s0 := (pgStart (hosts.map some)).st) (.init rfl) rfl rfl rfl
  have h1 := pg_lift h0 rfl (by simp [pgStart]) hu
  refine ⟨_, h1.step (.other ⟨rfl, by simp [hp], by simp [pgStart]⟩ .signal), by simp, by simp [StPc.booted, hp], rfl, by simp [hp], by simp [pgStart]⟩

end P2P

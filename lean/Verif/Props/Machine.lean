import Verif.Model.Machine
/-! # C105: every command opens the crawler's socket -/
namespace P2P

variable {S V : Type}

/-- the port a process has opened -/
def Proc.port : Proc S → Option Nat
  | .bound _ _ q => some q
  | .ready _ _ q => some q
  | .running _ _ q => some q
  | _ => Option.none

/-- the settings a process works with -/
def Proc.settings : Proc S → Option S
  | .configured _ s => some s
  | .bound _ s _ => some s
  | .ready _ s _ => some s
  | .running _ s _ => some s
  | _ => Option.none

/-- the command of a process -/
def Proc.cmd : Proc S → Option Cmd
  | .start c => some c
  | .missing c => some c
  | .configured c _ => some c
  | .bound c _ _ => some c
  | .ready c _ _ => some c
  | .running c _ _ => some c
  | _ => Option.none

abbrev MachReach (E : InitEnv S V) : MachSt S → Prop := Reach MachInit (MachStep E)

/-- the port that the settings ask for; 0 asks for any -/
def AsksFor (E : InitEnv S V) (s : S) (q : Nat) : Prop := ∃ v, E.view s .dht = some v ∧ E.portOf v = q ∧ q < 65536

structure MachInv (E : InitEnv S V) (m : MachSt S) : Prop where
  held : ∀ p q, m.holder q = some (.proc p) ↔ (m.procs p).port = some q
  asked : ∀ p q, (m.procs p).port = some q → q ≠ 0 ∧ q < 65536 ∧ ∃ s, (m.procs p).settings = some s ∧ (AsksFor E s q ∨ AsksFor E s 0)
  queued : ∀ p c s q, m.procs p = .ready c s q ∨ m.procs p = .running c s q →
    ∃ v, E.view s .fetchTorrent = some v ∧ 0 ≤ E.queueOf v ∧ E.queueOf v ≤ E.maxChan
  logger : ∀ p c s q, m.procs p = .running c s q → ∃ v, E.view s .logger = some v
  silent : ∀ p, (∀ how, m.procs p ≠ .ended how) → m.out p = []

theorem stop_procs (m : MachSt S) (p : Nat) (how : HowEnded) : (m.stop p how).procs = upd m.procs p (.ended how) := rfl
theorem stop_out (m : MachSt S) (p : Nat) (how : HowEnded) : (m.stop p how).out = m.out := rfl
theorem stop_conf (m : MachSt S) (p : Nat) (how : HowEnded) : (m.stop p how).conf = m.conf := rfl

theorem MachInv.stop {E : InitEnv S V} {m : MachSt S} (h : MachInv E m) (p : Nat) (how : HowEnded) : MachInv E (m.stop p how) where
  held := by
    intro p' q
    simp only [MachSt.stop]
    by_cases hp : p' = p
    · subst hp
      simp only [upd_same, Proc.port]
      split
      · simp
      · rename_i hn; simp [hn]
    · rw [upd_ne _ _ hp, ← h.held p' q]
      split
      · rename_i hh
        rw [hh]
        simp only [Option.some.injEq, Holder.proc.injEq, reduceCtorEq, false_iff]
        exact fun e => hp e.symm
      · exact Iff.rfl
  asked := by
    intro p' q hq
    rw [stop_procs] at hq ⊢
    by_cases hp : p' = p
    · subst hp; rw [upd_same] at hq; cases hq
    · rw [upd_ne _ _ hp] at hq ⊢; exact h.asked p' q hq
  queued := by
    intro p' c s q hq
    rw [stop_procs] at hq
    by_cases hp : p' = p
    · subst hp; rw [upd_same] at hq; rcases hq with hq | hq <;> cases hq
    · rw [upd_ne _ _ hp] at hq; exact h.queued p' c s q hq
  logger := by
    intro p' c s q hq
    rw [stop_procs] at hq
    by_cases hp : p' = p
    · subst hp; rw [upd_same] at hq; cases hq
    · rw [upd_ne _ _ hp] at hq; exact h.logger p' c s q hq
  silent := by
    intro p' hn
    rw [stop_procs] at hn
    rw [stop_out]
    by_cases hp : p' = p
    · subst hp; exact absurd (upd_same ..) (hn how)
    · rw [upd_ne _ _ hp] at hn; exact h.silent p' hn

/-- a process goes on without touching a port -/
theorem MachInv.go {E : InitEnv S V} {m : MachSt S} (h : MachInv E m) {p : Nat} {x : Proc S} (hx : x.port = (m.procs p).port)
    (hs : ∀ q, x.port = some q → x.settings = (m.procs p).settings) (hne : ∀ how, m.procs p ≠ .ended how)
    (hq : ∀ c s q, x = .ready c s q ∨ x = .running c s q → ∃ v, E.view s .fetchTorrent = some v ∧ 0 ≤ E.queueOf v ∧ E.queueOf v ≤ E.maxChan)
    (hl : ∀ c s q, x = .running c s q → ∃ v, E.view s .logger = some v) (f : ConfFile S) :
    MachInv E { m with conf := f, procs := upd m.procs p x } where
  held := by
    intro p' q
    by_cases hp : p' = p
    · subst hp
      show _ ↔ (upd m.procs p' x p').port = some q
      rw [upd_same, hx]; exact h.held p' q
    · show _ ↔ (upd m.procs p x p').port = some q
      rw [upd_ne _ _ hp]; exact h.held p' q
  asked := by
    intro p' q hq'
    show _ ∧ _ ∧ ∃ s, (upd m.procs p x p').settings = some s ∧ _
    change (upd m.procs p x p').port = some q at hq'
    by_cases hp : p' = p
    · subst hp
      rw [upd_same] at hq' ⊢
      rw [hs q hq']
      rw [hx] at hq'
      exact h.asked p' q hq'
    · rw [upd_ne _ _ hp] at hq' ⊢; exact h.asked p' q hq'
  queued := by
    intro p' c s q hq'
    change upd m.procs p x p' = _ ∨ upd m.procs p x p' = _ at hq'
    by_cases hp : p' = p
    · subst hp; rw [upd_same] at hq'; exact hq c s q hq'
    · rw [upd_ne _ _ hp] at hq'; exact h.queued p' c s q hq'
  logger := by
    intro p' c s q hq'
    change upd m.procs p x p' = _ at hq'
    by_cases hp : p' = p
    · subst hp; rw [upd_same] at hq'; exact hl c s q hq'
    · rw [upd_ne _ _ hp] at hq'; exact h.logger p' c s q hq'
  silent := by
    intro p' hn
    change ∀ how, upd m.procs p x p' ≠ .ended how at hn
    by_cases hp : p' = p
    · subst hp; exact h.silent p' hne
    · rw [upd_ne _ _ hp] at hn; exact h.silent p' hn

theorem MachInv.bind {E : InitEnv S V} {m : MachSt S} (h : MachInv E m) {p : Nat} {c : Cmd} {s : S} {port : Nat}
    (hp : m.procs p = .configured c s) (h0 : port ≠ 0) (h1 : port < 65536) (ha : AsksFor E s port ∨ AsksFor E s 0)
    (hf : m.holder port = none) :
    MachInv E { m with procs := upd m.procs p (.bound c s port), holder := upd m.holder port (some (.proc p)) } where
  held := by
    intro p' q
    show upd m.holder port (some (.proc p)) q = _ ↔ (upd m.procs p (.bound c s port) p').port = some q
    by_cases hq : q = port
    · subst hq
      rw [upd_same]
      by_cases hpp : p' = p
      · subst hpp; simp [Proc.port]
      · rw [upd_ne _ _ hpp]
        constructor
        · intro e; cases e; exact absurd rfl hpp
        · intro e
          have := (h.held p' q).2 e
          rw [hf] at this; cases this
    · rw [upd_ne _ _ hq]
      by_cases hpp : p' = p
      · subst hpp
        rw [upd_same]
        constructor
        · intro e
          have := (h.held p' q).1 e
          rw [hp] at this; cases this
        · intro e; cases e; exact absurd rfl hq
      · rw [upd_ne _ _ hpp]; exact h.held p' q
  asked := by
    intro p' q hq
    show _ ∧ _ ∧ ∃ s', (upd m.procs p (.bound c s port) p').settings = some s' ∧ _
    change (upd m.procs p (.bound c s port) p').port = some q at hq
    by_cases hpp : p' = p
    · subst hpp
      rw [upd_same] at hq ⊢
      cases hq
      exact ⟨h0, h1, s, rfl, ha⟩
    · rw [upd_ne _ _ hpp] at hq ⊢; exact h.asked p' q hq
  queued := by
    intro p' c' s' q hq
    change upd m.procs p _ p' = _ ∨ upd m.procs p _ p' = _ at hq
    by_cases hpp : p' = p
    · subst hpp; rw [upd_same] at hq; rcases hq with hq | hq <;> cases hq
    · rw [upd_ne _ _ hpp] at hq; exact h.queued p' c' s' q hq
  logger := by
    intro p' c' s' q hq
    change upd m.procs p _ p' = _ at hq
    by_cases hpp : p' = p
    · subst hpp; rw [upd_same] at hq; cases hq
    · rw [upd_ne _ _ hpp] at hq; exact h.logger p' c' s' q hq
  silent := by
    intro p' hn
    change ∀ how, upd m.procs p _ p' ≠ .ended how at hn
    by_cases hpp : p' = p
    · subst hpp; exact h.silent p' (by rw [hp]; intro how e; cases e)
    · rw [upd_ne _ _ hpp] at hn; exact h.silent p' hn

theorem MachInv.print {E : InitEnv S V} {m : MachSt S} (h : MachInv E m) (p : Nat) (how : HowEnded) (ls : List Bytes) :
    MachInv E { m.stop p how with out := upd m.out p ls } where
  held := (h.stop p how).held
  asked := (h.stop p how).asked
  queued := (h.stop p how).queued
  logger := (h.stop p how).logger
  silent := by
    intro p' hn
    change ∀ h', upd m.procs p (.ended how) p' ≠ .ended h' at hn
    show upd m.out p ls p' = []
    by_cases hp : p' = p
    · subst hp; exact absurd (upd_same ..) (hn how)
    · rw [upd_ne _ _ hp] at hn ⊢; exact h.silent p' hn

theorem mach_inv {E : InitEnv S V} {m : MachSt S} (h : MachReach E m) : MachInv E m := by
  refine Reach.inv (MachInv E) ?_ ?_ h
  · intro m ⟨h1, h2, h3⟩
    refine ⟨?_, ?_, ?_, ?_, fun p _ => h3 p⟩
    · intro p q
      rw [h1 p]
      constructor
      · intro e
        have := h2 q (by rw [e]; simp)
        rw [this] at e; cases e
      · intro e; cases e
    · intro p q e; rw [h1 p] at e; cases e
    · intro p c s q e; rw [h1 p] at e; rcases e with e | e <;> cases e
    · intro p c s q e; rw [h1 p] at e; cases e
  · intro m t h st
    cases st with
    | exec p c hp => exact h.go (by rw [hp]; rfl) (by intro q e; cases e) (by rw [hp]; intro _ e; cases e) (by rintro _ _ _ (e | e) <;> cases e) (by rintro _ _ _ e; cases e) m.conf
    | read p c s hp hc => exact h.go (by rw [hp]; rfl) (by intro q e; cases e) (by rw [hp]; intro _ e; cases e) (by rintro _ _ _ (e | e) <;> cases e) (by rintro _ _ _ e; cases e) m.conf
    | readMissing p c hp hc => exact h.go (by rw [hp]; rfl) (by intro q e; cases e) (by rw [hp]; intro _ e; cases e) (by rintro _ _ _ (e | e) <;> cases e) (by rintro _ _ _ e; cases e) m.conf
    | readBad p c hp hc => exact h.stop p _
    | create p c hp hc => exact h.go (by rw [hp]; rfl) (by intro q e; cases e) (by rw [hp]; intro _ e; cases e) (by rintro _ _ _ (e | e) <;> cases e) (by rintro _ _ _ e; cases e) _
    | createFails p c hp => exact h.stop p _
    | noSection p c s hp hv => exact h.stop p _
    | badPort p c s v hp hv hr => exact h.stop p _
    | listen p c s v port hp hv he h0 h1 hf => exact h.bind hp h0 h1 (.inl ⟨v, hv, he, h1⟩) hf
    | listenAny p c s v port hp hv he h0 h1 hf => exact h.bind hp h0 h1 (.inr ⟨v, hv, he, by omega⟩) hf
    | listenFails p c s v hp hv => exact h.stop p _
    | queue p c s port v hp hv h0 h1 =>
      exact h.go (by rw [hp]; rfl) (by intro q e; rw [hp]; rfl) (by rw [hp]; intro _ e; cases e)
        (by rintro _ _ _ (e | e) <;> cases e; exact ⟨v, hv, h0, h1⟩) (by rintro _ _ _ e; cases e) m.conf
    | badQueue p c s port hp hv => exact h.stop p _
    | main p c s port v hp hv =>
      exact h.go (by rw [hp]; rfl) (by intro q e; rw [hp]; rfl) (by rw [hp]; intro _ e; cases e)
        (by rintro _ _ _ (e | e) <;> cases e; exact h.queued p c s port (.inl hp)) (by rintro _ _ _ e; cases e; exact ⟨v, hv⟩) m.conf
    | noLogger p c s port hp hv => exact h.stop p _
    | version p s port hp => exact h.print p _ _
    | torrent p args s port fs hp => exact h.print p _ _
    | crawled p s port how hp => exact h.stop p _
    | kill p h1 h2 => exact h.stop p _
    | otherBinds q hq =>
      refine ⟨?_, h.asked, h.queued, h.logger, h.silent⟩
      intro p q'
      show upd m.holder q (some .other) q' = _ ↔ _
      by_cases e : q' = q
      · subst e
        rw [upd_same, ← h.held p q', hq]; simp
      · rw [upd_ne _ _ e]; exact h.held p q'
    | otherCloses q hq =>
      refine ⟨?_, h.asked, h.queued, h.logger, h.silent⟩
      intro p q'
      show upd m.holder q none q' = _ ↔ _
      by_cases e : q' = q
      · subst e
        rw [upd_same, ← h.held p q', hq]; simp
      · rw [upd_ne _ _ e]; exact h.held p q'
    | edit f => exact ⟨h.held, h.asked, h.queued, h.logger, h.silent⟩

/-- C105: **one process per port**: of the processes of the program, whatever their commands are, at most one has a given port open. -/
theorem C105_one_per_port {E : InitEnv S V} {m : MachSt S} (h : MachReach E m) {p p' q : Nat}
    (h1 : (m.procs p).port = some q) (h2 : (m.procs p').port = some q) : p = p' := by
  have := (mach_inv h).held
  have e1 := (this p q).2 h1
  rw [(this p' q).2 h2] at e1
  cases e1; rfl

/-- C105: **no command runs before the crawler's socket is open**: when a process has reached its command, be it only `version`, the configuration has
been read or created, its sections could be decoded, the configured port has been opened and is held by this process, and the channel for info
hashes has been made. -/
theorem C105_needs {E : InitEnv S V} {m : MachSt S} (h : MachReach E m) {p : Nat} {c : Cmd} {s : S} {q : Nat} (hp : m.procs p = .running c s q) :
    m.holder q = some (.proc p) ∧ q ≠ 0 ∧ q < 65536 ∧
    (∃ v, E.view s .dht = some v ∧ (E.portOf v = q ∨ E.portOf v = 0)) ∧
    (∃ v, E.view s .fetchTorrent = some v ∧ 0 ≤ E.queueOf v ∧ E.queueOf v ≤ E.maxChan) ∧ (∃ v, E.view s .logger = some v) := by
  have hi := mach_inv h
  have hq : (m.procs p).port = some q := by rw [hp]; rfl
  obtain ⟨h0, h1, s', hs, ha⟩ := hi.asked p q hq
  rw [hp] at hs
  cases hs
  refine ⟨(hi.held p q).2 hq, h0, h1, ?_, hi.queued p c s q (.inr hp), hi.logger p c s q hp⟩
  rcases ha with ⟨v, hv, e, -⟩ | ⟨v, hv, e, -⟩
  · exact ⟨v, hv, .inl e⟩
  · exact ⟨v, hv, .inr e⟩

/-- C105: **two crawlers with the same port never run at the same time**, nor do a crawler and any other command. -/
theorem C105_one_at_a_time {E : InitEnv S V} {m : MachSt S} (h : MachReach E m) {p p' : Nat} {c c' : Cmd} {s s' : S} {q q' : Nat}
    (h1 : m.procs p = .running c s q) (h2 : m.procs p' = .running c' s' q') {port : Nat} (h0 : port ≠ 0) (ha : AsksFor E s port) (ha' : AsksFor E s' port) :
    p = p' := by
  have key : ∀ {p c s q}, m.procs p = .running c s q → AsksFor E s port → q = port := by
    intro p c s q hp ⟨v, hv, e, _⟩
    obtain ⟨-, hq, -, ⟨w, hw, hr⟩, -⟩ := C105_needs h hp
    rw [hv] at hw; cases hw
    omega
  have e1 := key h1 ha
  have e2 := key h2 ha'
  subst e1
  subst e2
  exact C105_one_per_port h (by rw [h1]; rfl) (by rw [h2]; rfl)


/-- what one step can do to the process `p`: its state and its output afterwards -/
inductive PMove (E : InitEnv S V) (m : MachSt S) (p : Nat) : Proc S → List Bytes → Prop where
  | exec (c : Cmd) : m.procs p = .none → PMove E m p (.start c) (m.out p)
  | read (c : Cmd) (s : S) : m.procs p = .start c → m.conf = .good s → PMove E m p (.configured c s) (m.out p)
  | readMissing (c : Cmd) : m.procs p = .start c → m.conf = .missing → PMove E m p (.missing c) (m.out p)
  | create (c : Cmd) : m.procs p = .missing c → m.conf = .missing → PMove E m p (.configured c E.defaults) (m.out p)
  | listen (c : Cmd) (s : S) (q : Nat) : m.procs p = .configured c s → q ≠ 0 → (AsksFor E s q ∨ AsksFor E s 0) → m.holder q = none →
      PMove E m p (.bound c s q) (m.out p)
  | queue (c : Cmd) (s : S) (q : Nat) : m.procs p = .bound c s q → PMove E m p (.ready c s q) (m.out p)
  | main (c : Cmd) (s : S) (q : Nat) : m.procs p = .ready c s q → PMove E m p (.running c s q) (m.out p)
  | version (s : S) (q : Nat) : m.procs p = .running .version s q → PMove E m p (.ended .returned) (m.out p ++ [versionLine])
  | torrent (s : S) (q : Nat) (args : List Bytes) (fs : TorrentFs) (how : HowEnded) : m.procs p = .running (.torrent args) s q → how ≠ .killed →
      PMove E m p (.ended how) (m.out p ++ (torrentCmd fs args).lines)
  | crawled (s : S) (q : Nat) (how : HowEnded) : m.procs p = .running .root s q → PMove E m p (.ended how) (m.out p)
  | dies (how : HowEnded) : how ≠ .returned → m.procs p ≠ .none → (∀ h, m.procs p ≠ .ended h) → PMove E m p (.ended how) (m.out p)

/-- every step leaves a process and its output alone or is one of these moves -/
theorem mach_local {E : InitEnv S V} {m t : MachSt S} (st : MachStep E m t) (p : Nat) :
    (t.procs p = m.procs p ∧ t.out p = m.out p) ∨ PMove E m p (t.procs p) (t.out p) := by
  have go : ∀ (a : Nat) (x : Proc S), (a = p → PMove E m p x (m.out p)) →
      ((upd m.procs a x p = m.procs p ∧ m.out p = m.out p) ∨ PMove E m p (upd m.procs a x p) (m.out p)) := by
    intro a x hx
    by_cases e : a = p
    · subst e; rw [upd_same]; exact .inr (hx rfl)
    · exact .inl ⟨upd_ne _ _ (Ne.symm e), rfl⟩
  have die : ∀ (a : Nat) (how : HowEnded), how ≠ .returned → m.procs a ≠ .none → (∀ h, m.procs a ≠ .ended h) →
      ((upd m.procs a (.ended how) p = m.procs p ∧ m.out p = m.out p) ∨ PMove E m p (upd m.procs a (.ended how) p) (m.out p)) := by
    intro a how h1 h2 h3
    exact go a _ (by rintro rfl; exact .dies how h1 h2 h3)
  have prt : ∀ (a : Nat) (x : Proc S) (ls : List Bytes), (a = p → PMove E m p x ls) →
      ((upd m.procs a x p = m.procs p ∧ upd m.out a ls p = m.out p) ∨ PMove E m p (upd m.procs a x p) (upd m.out a ls p)) := by
    intro a x ls hx
    by_cases e : a = p
    · subst e; rw [upd_same, upd_same]; exact .inr (hx rfl)
    · exact .inl ⟨upd_ne _ _ (Ne.symm e), upd_ne _ _ (Ne.symm e)⟩
  have alive : ∀ {a : Nat} {c : Cmd}, (m.procs a).cmd = some c → m.procs a ≠ .none ∧ ∀ h, m.procs a ≠ .ended h := by
    intro a c hc
    constructor
    · intro e; rw [e] at hc; cases hc
    · intro h e; rw [e] at hc; cases hc
  cases st with
  | exec a c ha => exact go a _ (by rintro rfl; exact .exec c ha)
  | read a c s ha hc => exact go a _ (by rintro rfl; exact .read c s ha hc)
  | readMissing a c ha hc => exact go a _ (by rintro rfl; exact .readMissing c ha hc)
  | readBad a c ha hc => exact die a _ (by decide) (alive (c := c) (by rw [ha]; rfl)).1 (alive (c := c) (by rw [ha]; rfl)).2
  | create a c ha hc => exact go a _ (by rintro rfl; exact .create c ha hc)
  | createFails a c ha => exact die a _ (by decide) (alive (c := c) (by rw [ha]; rfl)).1 (alive (c := c) (by rw [ha]; rfl)).2
  | noSection a c s ha hv => exact die a _ (by decide) (alive (c := c) (by rw [ha]; rfl)).1 (alive (c := c) (by rw [ha]; rfl)).2
  | badPort a c s v ha hv hr => exact die a _ (by decide) (alive (c := c) (by rw [ha]; rfl)).1 (alive (c := c) (by rw [ha]; rfl)).2
  | listen a c s v q ha hv he h0 h1 hf => exact go a _ (by rintro rfl; exact .listen c s q ha h0 (.inl ⟨v, hv, he, h1⟩) hf)
  | listenAny a c s v q ha hv he h0 h1 hf => exact go a _ (by rintro rfl; exact .listen c s q ha h0 (.inr ⟨v, hv, he, by omega⟩) hf)
  | listenFails a c s v ha hv => exact die a _ (by decide) (alive (c := c) (by rw [ha]; rfl)).1 (alive (c := c) (by rw [ha]; rfl)).2
  | queue a c s q v ha hv h0 h1 => exact go a _ (by rintro rfl; exact .queue c s q ha)
  | badQueue a c s q ha hv => exact die a _ (by decide) (alive (c := c) (by rw [ha]; rfl)).1 (alive (c := c) (by rw [ha]; rfl)).2
  | main a c s q v ha hv => exact go a _ (by rintro rfl; exact .main c s q ha)
  | noLogger a c s q ha hv => exact die a _ (by decide) (alive (c := c) (by rw [ha]; rfl)).1 (alive (c := c) (by rw [ha]; rfl)).2
  | version a s q ha => exact prt a _ _ (by rintro rfl; exact .version s q ha)
  | torrent a args s q fs ha => exact prt a _ _ (by rintro rfl; exact .torrent s q args fs _ ha (by split <;> decide))
  | crawled a s q how ha => exact go a _ (by rintro rfl; exact .crawled s q how ha)
  | kill a h1 h2 => exact die a _ (by decide) h1 h2
  | otherBinds q hq => exact .inl ⟨rfl, rfl⟩
  | otherCloses q hq => exact .inl ⟨rfl, rfl⟩
  | edit f => exact .inl ⟨rfl, rfl⟩

/-- C105: **while one process of the program runs, another one started with the same port dies** without having printed anything: as long as `p'` (say, a
crawler) has the port open, or any other program has, the next thing that happens to `p` (say, `p2pcrawler torrent`) is its end. -/
theorem C105_loser_dies {E : InitEnv S V} {m t : MachSt S} (h : MachReach E m) {p : Nat} {c : Cmd} {s : S} {port : Nat}
    (hp : m.procs p = .configured c s) (ha : AsksFor E s port) (h0 : port ≠ 0) (hh : m.holder port ≠ none) (st : MachStep E m t) :
    (t.procs p = m.procs p ∧ t.out p = []) ∨ ∃ how, how ≠ .returned ∧ t.procs p = .ended how ∧ t.out p = [] := by
  have hout : m.out p = [] := (mach_inv h).silent p (by rw [hp]; intro _ e; cases e)
  rcases mach_local st p with ⟨e1, e2⟩ | hm
  · exact .inl ⟨e1, e2.trans hout⟩
  · right
    generalize t.procs p = x at hm ⊢
    generalize t.out p = o at hm ⊢
    cases hm with
    | listen c' s' q hp' hq hA hf =>
      rw [hp] at hp'; cases hp'
      obtain ⟨v, hv, e, -⟩ := ha
      rcases hA with ⟨w, hw, e', -⟩ | ⟨w, hw, e', -⟩
      · rw [hv] at hw; cases hw
        have : q = port := by omega
        subst this; exact absurd hf hh
      · rw [hv] at hw; cases hw
        omega
    | dies how h1 h2 h3 => exact ⟨how, h1, rfl, hout⟩
    | exec c' e => rw [hp] at e; cases e
    | read c' s' e _ => rw [hp] at e; cases e
    | readMissing c' e _ => rw [hp] at e; cases e
    | create c' e _ => rw [hp] at e; cases e
    | queue c' s' q e => rw [hp] at e; cases e
    | main c' s' q e => rw [hp] at e; cases e
    | version s' q e => rw [hp] at e; cases e
    | torrent s' q args fs how e _ => rw [hp] at e; cases e
    | crawled s' q how e => rw [hp] at e; cases e

/-- C105: **two processes that both find no configuration file cannot both create it**: once there is one, a process that has seen none dies. -/
theorem C105_race {E : InitEnv S V} {m t : MachSt S} (h : MachReach E m) {p : Nat} {c : Cmd} (hp : m.procs p = .missing c) (hc : m.conf ≠ .missing)
    (st : MachStep E m t) :
    (t.procs p = m.procs p ∧ t.out p = []) ∨ ∃ how, how ≠ .returned ∧ t.procs p = .ended how ∧ t.out p = [] := by
  have hout : m.out p = [] := (mach_inv h).silent p (by rw [hp]; intro _ e; cases e)
  rcases mach_local st p with ⟨e1, e2⟩ | hm
  · exact .inl ⟨e1, e2.trans hout⟩
  · right
    generalize t.procs p = x at hm ⊢
    generalize t.out p = o at hm ⊢
    cases hm with
    | create c' e h' => exact absurd h' hc
    | dies how h1 h2 h3 => exact ⟨how, h1, rfl, hout⟩
    | exec c' e => rw [hp] at e; cases e
    | read c' s' e _ => rw [hp] at e; cases e
    | readMissing c' e _ => rw [hp] at e; cases e
    | listen c' s' q e => rw [hp] at e; cases e
    | queue c' s' q e => rw [hp] at e; cases e
    | main c' s' q e => rw [hp] at e; cases e
    | version s' q e => rw [hp] at e; cases e
    | torrent s' q args fs how e _ => rw [hp] at e; cases e
    | crawled s' q how e => rw [hp] at e; cases e

/-- C105: **whoever prints holds the port**: output of a process appears in one step, which is its last; then it was running `version` or `torrent`,
had the socket open, and all the text it has ever printed is that of its command. -/
theorem C105_prints_alone {E : InitEnv S V} {m t : MachSt S} (h : MachReach E m) {p : Nat} (st : MachStep E m t) (hout : t.out p ≠ m.out p) :
    ∃ s q, m.holder q = some (.proc p) ∧ (∃ how, how ≠ .killed ∧ t.procs p = .ended how) ∧
      ((m.procs p = .running .version s q ∧ t.out p = [b!"p2pcrlawer version 0.1.0\r\n"]) ∨
       ∃ args fs, m.procs p = .running (.torrent args) s q ∧ t.out p = (torrentCmd fs args).lines) := by
  have hi := mach_inv h
  rcases mach_local st p with ⟨e1, e2⟩ | hm
  · exact absurd e2 hout
  · generalize t.procs p = x at hm ⊢
    generalize t.out p = o at hm hout ⊢
    cases hm with
    | version s q e =>
      have h0 := hi.silent p (by rw [e]; intro _ e; cases e)
      refine ⟨s, q, (hi.held p q).2 (by rw [e]; rfl), ⟨_, by decide, rfl⟩, .inl ⟨e, ?_⟩⟩
      rw [h0]; rfl
    | torrent s q args fs how e hk =>
      have h0 := hi.silent p (by rw [e]; intro _ e; cases e)
      refine ⟨s, q, (hi.held p q).2 (by rw [e]; rfl), ⟨how, hk, rfl⟩, .inr ⟨args, fs, e, ?_⟩⟩
      rw [h0]; rfl
    | _ => exact absurd rfl hout

/-- C105: an ended process stays ended and prints nothing more. -/
theorem C105_ended_final {E : InitEnv S V} {m t : MachSt S} {p : Nat} {how : HowEnded} (hp : m.procs p = .ended how) (st : MachStep E m t) :
    t.procs p = .ended how ∧ t.out p = m.out p := by
  rcases mach_local st p with ⟨e1, e2⟩ | hm
  · exact ⟨e1.trans hp, e2⟩
  · generalize t.procs p = x at hm ⊢
    generalize t.out p = o at hm ⊢
    cases hm with
    | dies h' h1 h2 h3 => exact absurd hp (h3 how)
    | exec c' e => rw [hp] at e; cases e
    | read c' s' e _ => rw [hp] at e; cases e
    | readMissing c' e _ => rw [hp] at e; cases e
    | create c' e _ => rw [hp] at e; cases e
    | listen c' s' q e => rw [hp] at e; cases e
    | queue c' s' q e => rw [hp] at e; cases e
    | main c' s' q e => rw [hp] at e; cases e
    | version s' q e => rw [hp] at e; cases e
    | torrent s' q args fs how e _ => rw [hp] at e; cases e
    | crawled s' q how e => rw [hp] at e; cases e

/-- C105: **why a process dies by itself**: the file is unreadable, or it was missing and could not be created; the port could not be opened (or the
section `dht` not be decoded); the size of the channel is negative, too great, or not to be decoded; the section `logger` cannot be decoded; or the
command itself failed, which `version` never does. -/
theorem C105_why_it_dies {E : InitEnv S V} {m t : MachSt S} (st : MachStep E m t) {p : Nat} (hp : t.procs p = .ended .panicked)
    (hne : m.procs p ≠ .ended .panicked) :
    (∃ c, m.procs p = .start c ∧ m.conf = .bad) ∨ (∃ c, m.procs p = .missing c) ∨ (∃ c s, m.procs p = .configured c s) ∨
    (∃ c s q, m.procs p = .bound c s q ∧ ∀ v, E.view s .fetchTorrent = some v → E.queueOf v < 0 ∨ E.maxChan < E.queueOf v) ∨
    (∃ c s q, m.procs p = .ready c s q ∧ E.view s .logger = none) ∨
    (∃ s q args fs, m.procs p = .running (.torrent args) s q ∧ (torrentCmd fs args).ended ≠ .ok ()) ∨ (∃ s q, m.procs p = .running .root s q) := by
  have at' : ∀ {a : Nat} {x : Proc S}, upd m.procs a x p = .ended .panicked → a = p ∧ x = .ended .panicked := by
    intro a x e
    by_cases h : p = a
    · subst h; rw [upd_same] at e; exact ⟨rfl, e⟩
    · rw [upd_ne _ _ h] at e; exact absurd e hne
  cases st with
  | exec a c ha => cases (at' hp).2
  | read a c s ha hc => cases (at' hp).2
  | readMissing a c ha hc => cases (at' hp).2
  | readBad a c ha hc => obtain ⟨rfl, -⟩ := at' hp; exact .inl ⟨c, ha, hc⟩
  | create a c ha hc => cases (at' hp).2
  | createFails a c ha => obtain ⟨rfl, -⟩ := at' hp; exact .inr (.inl ⟨c, ha⟩)
  | noSection a c s ha hv => obtain ⟨rfl, -⟩ := at' hp; exact .inr (.inr (.inl ⟨c, s, ha⟩))
  | badPort a c s v ha hv hr => obtain ⟨rfl, -⟩ := at' hp; exact .inr (.inr (.inl ⟨c, s, ha⟩))
  | listen a c s v q ha hv he h0 h1 hf => cases (at' hp).2
  | listenAny a c s v q ha hv he h0 h1 hf => cases (at' hp).2
  | listenFails a c s v ha hv => obtain ⟨rfl, -⟩ := at' hp; exact .inr (.inr (.inl ⟨c, s, ha⟩))
  | queue a c s q v ha hv h0 h1 => cases (at' hp).2
  | badQueue a c s q ha hv => obtain ⟨rfl, -⟩ := at' hp; exact .inr (.inr (.inr (.inl ⟨c, s, q, ha, hv⟩)))
  | main a c s q v ha hv => cases (at' hp).2
  | noLogger a c s q ha hv => obtain ⟨rfl, -⟩ := at' hp; exact .inr (.inr (.inr (.inr (.inl ⟨c, s, q, ha, hv⟩))))
  | version a s q ha => cases (at' hp).2
  | torrent a args s q fs ha =>
    obtain ⟨rfl, e⟩ := at' hp
    refine .inr (.inr (.inr (.inr (.inr (.inl ⟨s, q, args, fs, ha, ?_⟩)))))
    intro h
    rw [if_pos h] at e; cases e
  | crawled a s q how ha => obtain ⟨rfl, -⟩ := at' hp; exact .inr (.inr (.inr (.inr (.inr (.inr ⟨s, q, ha⟩)))))
  | kill a h1 h2 => cases (at' hp).2
  | otherBinds q hq => exact absurd hp hne
  | otherCloses q hq => exact absurd hp hne
  | edit f => exact absurd hp hne

/-- C105: an ended process holds no port. -/
theorem C105_released {E : InitEnv S V} {m : MachSt S} (h : MachReach E m) {p : Nat} {how : HowEnded} (hp : m.procs p = .ended how) (q : Nat) :
    m.holder q ≠ some (.proc p) := by
  intro e
  have := ((mach_inv h).held p q).1 e
  rw [hp] at this; cases this

/-- C105: **the program never changes a configuration file**: a step that changes it is somebody's edit or creates the file with the defaults where there
was none, for a process that had found none. -/
theorem C105_file {E : InitEnv S V} {m t : MachSt S} (st : MachStep E m t) (hn : t.conf ≠ m.conf) :
    (m.conf = .missing ∧ t.conf = .good E.defaults ∧ ∃ p c, m.procs p = .missing c ∧ t.procs p = .configured c E.defaults) ∨
    ∃ f, t = { m with conf := f } := by
  cases st with
  | create p c hp hc => exact .inl ⟨hc, rfl, p, c, hp, upd_same ..⟩
  | edit f => exact .inr ⟨f, rfl⟩
  | _ => exact absurd rfl hn

theorem reach_from {A : Type} {init : A → Prop} {step : A → A → Prop} {a b : A} (h : Reach init step a) (h' : Reach (fun x => x = a) step b) :
    Reach init step b := by
  induction h' with
  | init e => exact e ▸ h
  | step _ st ih => exact .step ih st

/-- C105: **saved torrents cannot be listed while the crawler runs**: if some process prints in a step while a crawler runs, then it was not configured
with the crawler's port. -/
theorem C105_no_listing {E : InitEnv S V} {m t : MachSt S} (h : MachReach E m) {p p' : Nat} {s' : S} {q' : Nat}
    (hr : m.procs p' = .running .root s' q') (st : MachStep E m t) (hout : t.out p ≠ m.out p) :
    ∃ s, (m.procs p).settings = some s ∧ ∀ port, port ≠ 0 → AsksFor E s' port → ¬ AsksFor E s port := by
  obtain ⟨s, q, -, -, hc⟩ := C105_prints_alone h st hout
  have : ∃ c, c ≠ Cmd.root ∧ m.procs p = .running c s q := by
    rcases hc with ⟨e, -⟩ | ⟨args, fs, e, -⟩
    · exact ⟨_, fun e => (by cases e), e⟩
    · exact ⟨_, fun e => (by cases e), e⟩
  obtain ⟨c, hne, e⟩ := this
  refine ⟨s, by rw [e]; rfl, fun port h0 ha' ha => ?_⟩
  have := C105_one_at_a_time h e hr h0 ha ha'
  subst this
  rw [hr] at e; cases e
  exact hne rfl

/-- settings that no initialisation stumbles over, with the port `q` -/
structure SoundSettings (E : InitEnv S V) (s : S) (q : Nat) : Prop where
  port : AsksFor E s q
  queue : ∃ v, E.view s .fetchTorrent = some v ∧ 0 ≤ E.queueOf v ∧ E.queueOf v ≤ E.maxChan
  logger : ∃ v, E.view s .logger = some v

/-- C105: **any command can start** where the port is free and the configuration is sound, or missing with sound defaults; afterwards it holds the
port. -/
theorem C105_can_run {E : InitEnv S V} {m : MachSt S} {p q : Nat} {s : S} (c : Cmd) (hp : m.procs p = .none) (hq : q ≠ 0) (hf : m.holder q = none)
    (hc : m.conf = .good s ∨ (m.conf = .missing ∧ s = E.defaults)) (hs : SoundSettings E s q) :
    ∃ t, Reach (fun x => x = m) (MachStep E) t ∧ t.procs p = .running c s q ∧ t.holder q = some (.proc p) ∧ t.conf = .good s ∧ t.out = m.out ∧
      ∀ p', p' ≠ p → t.procs p' = m.procs p' := by
  obtain ⟨⟨v, hv, e, h1⟩, ⟨w, hw, hw0, hw1⟩, u, hu⟩ := hs
  have key : ∀ m' : MachSt S, m'.procs p = .configured c s → m'.holder q = none → m'.conf = .good s → m'.out = m.out → (∀ p', p' ≠ p → m'.procs p' = m.procs p') →
      ∃ t, Reach (fun x => x = m') (MachStep E) t ∧ t.procs p = .running c s q ∧ t.holder q = some (.proc p) ∧ t.conf = .good s ∧ t.out = m.out ∧
      ∀ p', p' ≠ p → t.procs p' = m.procs p' := by
    intro m' h1' h2' h3' h4' h5'
    have s1 := MachStep.listen p c s v q h1' hv e hq h1 h2'
    have s2 := MachStep.queue (E := E) (m := { m' with procs := upd m'.procs p (.bound c s q), holder := upd m'.holder q (some (.proc p)) })
      p c s q w (upd_same ..) hw hw0 hw1
    have s3 := MachStep.main (E := E) (m := { m' with procs := upd (upd m'.procs p (.bound c s q)) p (.ready c s q), holder := upd m'.holder q (some (.proc p)) })
      p c s q u (upd_same ..) hu
    refine ⟨_, .step (.step (.step (.init rfl) s1) s2) s3, upd_same .., upd_same .., h3', h4', ?_⟩
    intro p' hne
    show upd (upd (upd m'.procs p _) p _) p _ p' = _
    rw [upd_ne _ _ hne, upd_ne _ _ hne, upd_ne _ _ hne, h5' p' hne]
  have s0 := MachStep.exec (E := E) p c hp
  rcases hc with hc | ⟨hc, rfl⟩
  · have s1 := MachStep.read (E := E) (m := { m with procs := upd m.procs p (.start c) }) p c s (upd_same ..) hc
    obtain ⟨t, ht, rest⟩ := key { m with procs := upd (upd m.procs p (.start c)) p (.configured c s) } (upd_same ..) hf hc rfl
      (fun p' hne => by show upd (upd m.procs p _) p _ p' = _; rw [upd_ne _ _ hne, upd_ne _ _ hne])
    exact ⟨t, reach_from (.step (.step (.init rfl) s0) s1) ht, rest⟩
  · have s1 := MachStep.readMissing (E := E) (m := { m with procs := upd m.procs p (.start c) }) p c (upd_same ..) hc
    have s2 := MachStep.create (E := E) (m := { m with procs := upd (upd m.procs p (.start c)) p (.missing c) }) p c (upd_same ..) hc
    obtain ⟨t, ht, rest⟩ := key { m with conf := .good E.defaults, procs := upd (upd (upd m.procs p (.start c)) p (.missing c)) p (.configured c E.defaults) } (upd_same ..) hf rfl rfl
      (fun p' hne => by show upd (upd (upd m.procs p _) p _) p _ p' = _; rw [upd_ne _ _ hne, upd_ne _ _ hne, upd_ne _ _ hne])
    exact ⟨t, reach_from (.step (.step (.step (.init rfl) s0) s1) s2) ht, rest⟩

/-! ## Examples -/

/-- the defaults as they are: all sections can be decoded, port 21000, 300000 info hashes -/
def exInit : InitEnv Unit CfgKey where
  view _ k := some k
  defaults := ()
  portOf _ := 21000
  queueOf _ := 300000
  maxChan := 2 ^ 40

/-- nothing has been started; there is no configuration file -/
def exMach : MachSt Unit where
  conf := .missing
  procs _ := .none
  holder _ := none
  out _ := []

theorem exMach_init : MachInit exMach := ⟨fun _ => rfl, fun _ h => absurd rfl h, fun _ => rfl⟩

theorem exInit_sound : SoundSettings exInit () 21000 :=
  ⟨⟨.dht, rfl, rfl, by decide⟩, ⟨.fetchTorrent, rfl, by decide, by decide⟩, ⟨.logger, rfl⟩⟩

/-- C105 (example): `p2pcrawler version` in an empty directory creates the configuration file, opens port 21000 and prints its line. -/
theorem C105_version_example : ∃ m t, MachReach exInit m ∧ m.procs 0 = .running .version () 21000 ∧ m.holder 21000 = some (.proc 0) ∧
    m.conf = .good () ∧ MachStep exInit m t ∧ t.out 0 = [b!"p2pcrlawer version 0.1.0\r\n"] ∧ t.holder 21000 = none := by
  obtain ⟨m, hm, h1, h2, h3, h4, h5⟩ := C105_can_run (E := exInit) (m := exMach) (p := 0) (q := 21000) (s := ()) .version rfl (by decide) rfl
    (.inr ⟨rfl, rfl⟩) exInit_sound
  refine ⟨m, _, reach_from (.init exMach_init) hm, h1, h2, h3, .version 0 () 21000 h1, ?_, ?_⟩
  · show upd m.out 0 _ 0 = _
    rw [upd_same, h4]; rfl
  · show (if m.holder 21000 = some (.proc 0) then none else m.holder 21000) = none
    rw [h2]; rfl

def exListing : Cmd := .torrent [b!"x.torrent"]

/-- C105 (example): a crawler runs, `torrent` is started: it can only die. -/
theorem C105_torrent_example : ∃ m, MachReach exInit m ∧ m.procs 0 = .running .root () 21000 ∧ m.procs 1 = .configured exListing () ∧
    AsksFor exInit () 21000 ∧ m.holder 21000 ≠ none ∧
    ∃ t, MachStep exInit m t ∧ t.procs 1 = .ended .panicked ∧ t.procs 0 = .running .root () 21000 := by
  obtain ⟨m, hm, h1, h2, h3, h4, h5⟩ := C105_can_run (E := exInit) (m := exMach) (p := 0) (q := 21000) (s := ()) .root rfl (by decide) rfl
    (.inr ⟨rfl, rfl⟩) exInit_sound
  have hr : MachReach exInit m := reach_from (.init exMach_init) hm
  have hn : m.procs 1 = .none := h5 1 (by decide)
  have s1 := MachStep.exec (E := exInit) 1 exListing hn
  have s2 := MachStep.read (E := exInit) (m := { m with procs := upd m.procs 1 (.start exListing) }) 1 exListing ()
    (by simp only [upd_same]) h3
  refine ⟨_, .step (.step hr s1) s2, ?_, ?_, exInit_sound.port, ?_, _, .listenFails 1 exListing () .dht ?_ rfl, ?_, ?_⟩
  · simp [upd, h1]
  · simp [upd]
  · simp [h2]
  · simp [upd]
  · simp [MachSt.stop, upd]
  · simp [MachSt.stop, upd, h1]

end P2P

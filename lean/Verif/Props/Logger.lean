import Verif.Model.Logger
/-! # C54: loggers -/
namespace P2P

/-- The level of a method: DEBUG < INFO < WARN < ERROR < PANIC < TRACE. -/
def LogMethod.rank : LogMethod → Nat
  | .Debug => 0
  | .Info => 1
  | .Warn => 2
  | .Error => 3
  | .Panic => 4
  | .Trace => 5

/-- the level as it is printed -/
def LogMethod.name : LogMethod → Bytes
  | .Debug => b!"Debug"
  | .Info => b!"Info"
  | .Warn => b!"Warn"
  | .Error => b!"Error"
  | .Panic => b!"Panic"
  | .Trace => b!"Trace"

/-- **A message is printed — once, with its prefix and unchanged — iff the logger's level is not above the message's.** -/
theorem C54_prints (c : ConsoleLogger) (m : LogMethod) (msg : Bytes) :
    (c.level.num ≤ m.rank → ∃ l, (c.call m msg).1 = [l] ∧ l.level = m.name ∧ l.msg = msg ∧ l.pfx = (if c.pfx = [] then [] else b!"[" ++ c.pfx ++ b!"]")) ∧
    (m.rank < c.level.num → c.call m msg = ([], none)) := by
  have hp : ∀ l, (c.print l msg).level = l ∧ (c.print l msg).msg = msg ∧ (c.print l msg).pfx = (if c.pfx = [] then [] else b!"[" ++ c.pfx ++ b!"]") := by
    intro l
    simp only [ConsoleLogger.print]
    cases hx : c.pfx <;> simp
  obtain ⟨pfx, level⟩ := c
  constructor
  · intro h
    cases m <;> cases level <;> first
      | exact ⟨_, rfl, hp _⟩
      | exact absurd h (by simp [LogLevel.num, LogMethod.rank])
  · intro h
    cases m <;> cases level <;> first
      | rfl
      | exact absurd h (by simp [LogLevel.num, LogMethod.rank])

/-- **Trace messages are always printed**, at every level. -/
theorem C54_trace_always (c : ConsoleLogger) (msg : Bytes) : (c.call .Trace msg).1 ≠ [] := by
  obtain ⟨l, h, -⟩ := (C54_prints c .Trace msg).1 (by cases c.level <;> simp [LogLevel.num, LogMethod.rank])
  rw [h]; simp

/-- **Only `Panic` panics, with its message, and not on a logger of level `TRACE`**, where it returns without printing. -/
theorem C54_panic (c : ConsoleLogger) (m : LogMethod) (msg : Bytes) :
    (c.call m msg).2 = (if m = .Panic ∧ c.level ≠ .trace then some msg else none) := by
  cases m <;> simp only [ConsoleLogger.call] <;> cases c.level <;> simp [LogLevel.num]

/-- **The same name gives the same logger for ever**, whatever levels are set in between. -/
theorem C54_same (b : LoggerReg) (names : List Bytes) (later : List LogOp) :
    ((((b.GetLogger names).2).run later).GetLogger names).1 = (b.GetLogger names).1 := by
  have put : ∀ (b : LoggerReg) (n : Bytes), (b.mapLogger n).2.bufferedLoggers n = some (b.mapLogger n).1 := by
    intro b n
    simp only [LoggerReg.mapLogger]
    cases h : b.bufferedLoggers n
    · simp
    · simpa using h
  have keep1 : ∀ (b : LoggerReg) (n : Bytes) (l : ConsoleLogger) (op : LogOp), b.bufferedLoggers n = some l →
      (b.after op).bufferedLoggers n = some l := by
    intro b n l op h
    cases op with
    | setLevel _ => exact h
    | initLogger _ => exact h
    | get ns =>
      simp only [LoggerReg.after, LoggerReg.GetLogger, LoggerReg.mapLogger]
      split
      · exact h
      · next hn =>
        simp only
        rw [if_neg (by intro e; rw [← e] at hn; rw [hn] at h; cases h)]; exact h
  have keep : ∀ (ops : List LogOp) (b : LoggerReg) (n : Bytes) (l : ConsoleLogger), b.bufferedLoggers n = some l →
      (b.run ops).bufferedLoggers n = some l := by
    intro ops
    induction ops with
    | nil => intro b n l h; exact h
    | cons op ops ih => intro b n l h; exact ih _ n l (keep1 b n l op h)
  have := keep later _ _ _ (put b (loggerName names))
  simp only [LoggerReg.GetLogger] at this ⊢
  rw [LoggerReg.mapLogger, this]

/-- the level in force after a history -/
def lastLevel (l : LogLevel) : List LogOp → LogLevel
  | [] => l
  | .setLevel l' :: h => lastLevel l' h
  | .initLogger l' :: h => lastLevel l' h
  | .get _ :: h => lastLevel l h

/-- the name a `GetLogger` call asks for -/
def askedName : List Bytes → Bytes
  | [] => []
  | n :: _ => n

/-- **A logger asked for the first time has the level set last** (INFO if none was) and no prefix. -/
theorem C54_first (names : List Bytes) (h : List LogOp) (hn : ∀ ns, LogOp.get ns ∈ h → askedName ns ≠ askedName names) :
    ((LoggerReg.init.run h).GetLogger names).1 = { pfx := [], level := lastLevel .info h } := by
  have key : ∀ (h : List LogOp) (b : LoggerReg), b.bufferedLoggers (askedName names) = none →
      (∀ ns, LogOp.get ns ∈ h → askedName ns ≠ askedName names) →
      (b.run h).bufferedLoggers (askedName names) = none ∧ (b.run h).level = lastLevel b.level h := by
    intro h
    induction h with
    | nil => intro b h0 _; exact ⟨h0, rfl⟩
    | cons op h ih =>
      intro b h0 hn
      have hn' : ∀ ns, LogOp.get ns ∈ h → askedName ns ≠ askedName names := fun ns hm => hn ns (List.mem_cons_of_mem _ hm)
      cases op with
      | setLevel l => exact ih (b.SetLevel l) h0 hn'
      | initLogger l => exact ih (b.InitLogger l) h0 hn'
      | get ns =>
        have hne := hn ns List.mem_cons_self
        have hname : loggerName ns = askedName ns := by cases ns <;> rfl
        have : ((b.GetLogger ns).2).bufferedLoggers (askedName names) = none ∧ ((b.GetLogger ns).2).level = b.level := by
          simp only [LoggerReg.GetLogger, hname, LoggerReg.mapLogger]
          split
          · exact ⟨h0, rfl⟩
          · refine ⟨?_, rfl⟩
            simp only
            rw [if_neg (Ne.symm hne)]; exact h0
        have r := ih ((b.GetLogger ns).2) this.1 hn'
        rw [this.2] at r
        exact r
  obtain ⟨h1, h2⟩ := key h .init rfl hn
  have hname : loggerName names = askedName names := by cases names <;> rfl
  simp only [LoggerReg.GetLogger, hname, LoggerReg.mapLogger, h1, h2]; rfl

/-- **A prefix does not change the level, and replaces an earlier prefix.** -/
theorem C54_prefix (c : ConsoleLogger) (p q : Bytes) (m : LogMethod) (msg : Bytes) :
    ((c.SetPrefix p).call m msg).2 = (c.call m msg).2 ∧ (((c.SetPrefix p).call m msg).1 = [] ↔ (c.call m msg).1 = []) ∧
    (c.SetPrefix p).SetPrefix q = c.SetPrefix q := by
  refine ⟨by rw [C54_panic, C54_panic]; rfl, ?_, rfl⟩
  obtain ⟨pfx, level⟩ := c
  cases m <;> cases level <;> simp [ConsoleLogger.call, ConsoleLogger.SetPrefix, LogLevel.num]

/-- **The configured log level has no effect on any logger of the program**: they are all made from the default logger while the
packages are initialised, before `main` sets the level; whatever happens later they print from INFO on (and TRACE, but never
DEBUG), and `Panic` panics. -/
theorem C54_level_ineffective (prefixes : List Bytes) (l : ConsoleLogger) (hl : l ∈ (packageLoggers .init prefixes).1) (msg : Bytes) :
    l.level = .info ∧ l.call .Debug msg = ([], none) ∧ (l.call .Panic msg).2 = some msg ∧ (l.call .Trace msg).1 ≠ [] ∧
    ∀ later, (((packageLoggers .init prefixes).2.run later).GetLogger []).1 = { pfx := [], level := .info } := by
  have key : ∀ (ps : List Bytes) (b : LoggerReg), (b = .init ∨ b.bufferedLoggers [] = some { pfx := [], level := .info }) →
      (∀ l ∈ (packageLoggers b ps).1, l.level = .info) ∧
      (ps ≠ [] → (packageLoggers b ps).2.bufferedLoggers [] = some { pfx := [], level := .info }) := by
    intro ps
    induction ps with
    | nil => intro b _; exact ⟨by intro l hl; simp [packageLoggers] at hl, by intro h; exact absurd rfl h⟩
    | cons p ps ih =>
      intro b hb
      have hg : (b.GetLogger []).1 = { pfx := [], level := .info } ∧ (b.GetLogger []).2.bufferedLoggers [] = some { pfx := [], level := .info } := by
        rcases hb with rfl | hb
        · exact ⟨rfl, rfl⟩
        · simp [LoggerReg.GetLogger, loggerName, LoggerReg.mapLogger, hb]
      obtain ⟨i1, i2⟩ := ih (b.GetLogger []).2 (.inr hg.2)
      constructor
      · intro l hl
        simp only [packageLoggers, List.mem_cons] at hl
        rcases hl with rfl | hl
        · show (b.GetLogger []).1.level = _; rw [hg.1]
        · exact i1 l hl
      · intro _
        show (packageLoggers (b.GetLogger []).2 ps).2.bufferedLoggers [] = _
        cases ps with
        | nil => exact hg.2
        | cons p' ps' => exact i2 (by simp)
  have hne : prefixes ≠ [] := by rintro rfl; simp [packageLoggers] at hl
  obtain ⟨k1, k2⟩ := key prefixes .init (.inl rfl)
  have hlev := k1 l hl
  refine ⟨hlev, (C54_prints l .Debug msg).2 (by rw [hlev]; decide), ?_, C54_trace_always l msg, ?_⟩
  · rw [C54_panic, hlev]; rfl
  · intro later
    have hb := k2 hne
    have e : ((packageLoggers LoggerReg.init prefixes).2.GetLogger []) = ({ pfx := [], level := .info }, (packageLoggers .init prefixes).2) := by
      simp [LoggerReg.GetLogger, loggerName, LoggerReg.mapLogger, hb]
    have := C54_same (packageLoggers LoggerReg.init prefixes).2 [] later
    rw [e] at this
    exact this

/-- **A name that is none of the six means DEBUG.** -/
theorem C54_unknown (upper : Bytes → Bytes) (name : Bytes)
    (h : upper name ∉ [b!"INFO", b!"WARN", b!"ERROR", b!"PANIC", b!"TRACE"]) : TransLogLevel upper name = .debug := by
  simp only [List.mem_cons, List.not_mem_nil, or_false, not_or] at h
  obtain ⟨h1, h2, h3, h4, h5⟩ := h
  simp [TransLogLevel, h1, h2, h3, h4, h5]

/-- the five others -/
theorem C54_known (upper : Bytes → Bytes) (name : Bytes) :
    (upper name = b!"INFO" → TransLogLevel upper name = .info) ∧ (upper name = b!"WARN" → TransLogLevel upper name = .warn) ∧
    (upper name = b!"ERROR" → TransLogLevel upper name = .error) ∧ (upper name = b!"PANIC" → TransLogLevel upper name = .panic) ∧
    (upper name = b!"TRACE" → TransLogLevel upper name = .trace) := by
  refine ⟨?_, ?_, ?_, ?_, ?_⟩ <;> intro h <;> simp [TransLogLevel, h]

/-! ## concrete cases -/

/-- a logger with a prefix at level WARN -/
example : ({ pfx := b!"dht", level := .warn } : ConsoleLogger).call .Error b!"x" = ([⟨b!"Error", b!"[dht]", b!"x"⟩], none) ∧
    ({ pfx := b!"dht", level := .warn } : ConsoleLogger).call .Info b!"x" = ([], none) ∧
    ({ pfx := b!"dht", level := .trace } : ConsoleLogger).call .Panic b!"x" = ([], none) := by decide +kernel

/-- levels set before and after: only the new name sees the second level -/
example : ((LoggerReg.init.run [.setLevel .error, .get [b!"a"], .setLevel .warn]).GetLogger [b!"a"]).1.level = .error ∧
    ((LoggerReg.init.run [.setLevel .error, .get [b!"a"], .setLevel .warn]).GetLogger [b!"b"]).1.level = .warn := by decide +kernel

example : (packageLoggers .init [b!"config", b!"dht"]).1 = [⟨b!"config", .info⟩, ⟨b!"dht", .info⟩] := by decide +kernel

end P2P

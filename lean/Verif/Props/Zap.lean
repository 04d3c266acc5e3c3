import Verif.Model.Zap
/-! # Property C68: the file logger -/
namespace P2P

/-! ## Specification -/

/-- the severities in ascending order; `Trace` is above all others -/
def severity : LogMethod → Nat
  | .Debug => 0
  | .Info => 1
  | .Warn => 2
  | .Error => 3
  | .Panic => 4
  | .Trace => 5

/-- the least severity a logger made with this level name writes: only four names in capitals are understood -/
def threshold (name : Bytes) : LogMethod :=
  if name = b!"DEBUG" then .Debug
  else if name = b!"ERROR" then .Error
  else if name = b!"PANIC" then .Panic
  else .Info

/-- a logger made by `NewZapLogger(file, name)` and any number of `SetPrefix` -/
def prefixed (file name : Bytes) (ps : List Bytes) : ZapLogger := ps.foldl ZapLogger.SetPrefix (NewZapLogger file name)

/-- only the last prefix counts -/
def lastPrefix (ps : List Bytes) : Bytes :=
  match ps.getLast? with
  | none => []
  | some p => b!"[" ++ p ++ b!"]"

/-! ## Proofs -/

theorem fieldLoop_eq (done : List (Option (Bytes × LogVal))) (es : List (Bytes × LogVal)) :
    fieldLoop (done ++ List.replicate es.length none) done.length es = some (done ++ es.map some) := by
  induction es generalizing done with
  | nil => simp [fieldLoop]
  | cons e es ih =>
    have h1 : done.length < (done ++ List.replicate (e :: es).length (none : Option (Bytes × LogVal))).length := by simp
    have h2 : (done ++ List.replicate (e :: es).length (none : Option (Bytes × LogVal))).set done.length (some e) =
        (done ++ [some e]) ++ List.replicate es.length none := by
      simp [List.replicate_succ]
    have h3 : done.length + 1 = (done ++ [some e]).length := by simp
    rw [fieldLoop, if_pos h1, h2, h3, ih]
    simp

theorem convert2slice_eq (ctx : Option (List (Bytes × LogVal))) :
    convert2slice ctx = some ((ctx.getD []).map some) := by
  match ctx with
  | none => rfl
  | some [] => rfl
  | some (e :: es) => exact fieldLoop_eq [] (e :: es)

theorem prefixed_eq (file name : Bytes) (ps : List Bytes) :
    prefixed file name ps = { pfx := lastPrefix ps, core := parseLogLevel name, file := b!"logs/" ++ file ++ b!".log" } := by
  suffices h : ∀ (l : ZapLogger) (ps : List Bytes), ps.foldl ZapLogger.SetPrefix l =
      { pfx := if ps = [] then l.pfx else lastPrefix ps, core := l.core, file := l.file } by
    rw [prefixed, h]
    cases ps <;> rfl
  intro l ps
  induction ps generalizing l with
  | nil => rfl
  | cons p ps ih =>
    rw [List.foldl_cons, ih]
    cases ps with
    | nil => rfl
    | cons q r => simp [ZapLogger.SetPrefix, lastPrefix, List.getLast?_cons_cons]

theorem threshold_level (name : Bytes) : parseLogLevel name = (threshold name).zapLevel := by
  unfold parseLogLevel threshold
  repeat' split
  all_goals first | rfl | (subst_vars; simp_all)

theorem severity_level (m m' : LogMethod) : m.zapLevel ≤ m'.zapLevel ↔ severity m ≤ severity m' := by
  cases m <;> cases m' <;> decide

/-- C68: a call never fails; it writes at most one record, and it does so exactly if the method is at least as severe as the
threshold; the record has the last prefix set in front of the message and one field per entry of the context. The call panics
exactly if it is `Panic`, whether or not a record was written. -/
theorem C68_call (file name : Bytes) (ps : List Bytes) (m : LogMethod) (msg : Bytes)
    (ctx : Option (List (Bytes × LogVal))) :
    ∃ recs p, (prefixed file name ps).call m msg ctx = some (recs, p) ∧
      (severity (threshold name) ≤ severity m →
        ∃ r, recs = [r] ∧ r.msg = lastPrefix ps ++ msg ∧ r.fields = ctx.getD [] ∧ r.level = m.zapLevel) ∧
      (severity m < severity (threshold name) → recs = []) ∧
      p = if m = .Panic then some (lastPrefix ps ++ msg) else none := by
  rw [prefixed_eq]
  simp only [ZapLogger.call, convert2slice_eq, zapCheck, threshold_level, severity_level]
  have hm : (if lastPrefix ps ≠ [] then lastPrefix ps ++ msg else msg) = lastPrefix ps ++ msg := by
    split
    · rfl
    · rename_i h; simp only [ne_eq, Classical.not_not] at h; simp [h]
  have hf : ((ctx.getD []).map some).filterMap id = ctx.getD [] := by
    induction ctx.getD [] with
    | nil => rfl
    | cons e es ih => simpa using ih
  rw [hm, hf]
  refine ⟨_, _, rfl, ?_, ?_, ?_⟩
  · intro h
    rw [if_pos h]
    exact ⟨_, rfl, rfl, rfl, rfl⟩
  · intro h
    rw [if_neg (Nat.not_le.2 h)]
  · cases m <;> simp [LogMethod.zapLevel, traceLevel]

/-- C68: `Trace` is written at every level, `Panic` too; `Debug` only with the name DEBUG. -/
theorem C68_always (file name : Bytes) (ps : List Bytes) (msg : Bytes) (ctx : Option (List (Bytes × LogVal))) :
    (∃ r p, (prefixed file name ps).call .Trace msg ctx = some ([r], p)) ∧
    (∃ r p, (prefixed file name ps).call .Panic msg ctx = some ([r], p)) ∧
    ((∃ r p, (prefixed file name ps).call .Debug msg ctx = some ([r], p)) ↔ name = b!"DEBUG") := by
  have le4 : severity (threshold name) ≤ 4 := by
    unfold threshold
    repeat' split
    all_goals decide
  have one : ∀ m, severity (threshold name) ≤ severity m → ∃ r p, (prefixed file name ps).call m msg ctx = some ([r], p) := by
    intro m hm
    obtain ⟨recs, p, e, h, -⟩ := C68_call file name ps m msg ctx
    obtain ⟨r, hr, -⟩ := h hm
    exact ⟨r, p, by rw [e, hr]⟩
  refine ⟨one _ (Nat.le_trans le4 (by decide)), one _ le4, ?_⟩
  constructor
  · rintro ⟨r, p, e⟩
    apply Classical.byContradiction
    intro hn
    obtain ⟨recs, p', e', -, h, -⟩ := C68_call file name ps .Debug msg ctx
    have : recs = [] := h (by
      unfold threshold
      rw [if_neg hn]
      repeat' split
      all_goals decide)
    rw [e, this] at e'
    simp at e'
  · rintro rfl
    exact one _ (by decide)

/-- C68: the level names of the console logger are not understood: WARN, TRACE and every name in small letters mean INFO. -/
theorem C68_names (name : Bytes) (h : name ∉ [b!"DEBUG", b!"ERROR", b!"PANIC"]) (file : Bytes) (ps : List Bytes) :
    prefixed file name ps = prefixed file b!"INFO" ps := by
  simp only [List.mem_cons, List.not_mem_nil, or_false, not_or] at h
  rw [prefixed_eq, prefixed_eq]
  simp only [threshold_level, threshold, h, if_false]
  rfl

/-- C68: the log of info hashes goes to `logs/infohash.log`, and `Info` records are always written to it. -/
theorem C68_infohash (msg : Bytes) (es : List (Bytes × LogVal)) :
    infoHashLogger.file = b!"logs/infohash.log" ∧
    ∃ r, infoHashLogger.call .Info msg (some es) = some ([r], none) ∧ r.msg = msg ∧ r.fields = es := by
  refine ⟨by decide, ?_⟩
  obtain ⟨recs, p, e, h, -, hp⟩ := C68_call b!"infohash" b!"info" [] .Info msg (some es)
  obtain ⟨r, hr, hm, hf, -⟩ := h (by decide)
  refine ⟨r, ?_, by simpa [lastPrefix] using hm, by simpa using hf⟩
  have : infoHashLogger = prefixed b!"infohash" b!"info" [] := rfl
  rw [this, e, hr, hp]
  rfl

/-- a warning at level WARN is written, and so is an information: WARN means INFO -/
example : severity (threshold b!"WARN") ≤ severity .Info := by decide
example : severity .Info < severity (threshold b!"ERROR") := by decide
/-- an empty prefix is printed as two brackets -/
example : lastPrefix [b!"a", []] = b!"[]" := by decide

end P2P

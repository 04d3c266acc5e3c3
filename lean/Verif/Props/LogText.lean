import Verif.Model.LogText
import Verif.Model.Krpc
/-! # Property C66: the text of log records and errors -/
namespace P2P

/-- one entry of a log context as text -/
def entryText (e : Bytes × LogVal) : Bytes := e.1 ++ b!":" ++ ToString e.2

/-- number of line feeds -/
def lineFeeds (b : Bytes) : Nat := b.count 10

theorem appendLoop_pos (acc : Bytes) (i : Nat) (es : List (Bytes × LogVal)) :
    appendLoop acc (i + 1) es = acc ++ (es.map (fun e => b!"|" ++ entryText e)).flatten := by
  induction es generalizing acc i with
  | nil => simp [appendLoop]
  | cons e es ih =>
    obtain ⟨k, v⟩ := e
    simp [appendLoop, ih, entryText]

/-- C66: a log text is the message, and, if a context is given, ", " and the entries `key:value` in iteration order,
separated by bars. -/
theorem C66_text (msg : Bytes) (es : List (Bytes × LogVal)) :
    appendCtx msg none = msg ∧
    appendCtx msg (some es) = msg ++ b!", " ++ List.intercalate b!"|" (es.map entryText) := by
  refine ⟨rfl, ?_⟩
  cases es with
  | nil => simp [appendCtx, appendLoop, List.intercalate]
  | cons e es =>
    obtain ⟨k, v⟩ := e
    simp only [appendCtx, appendLoop, appendLoop_pos, Nat.lt_irrefl, gt_iff_lt, if_false]
    have : ∀ (x : Bytes) (l : List Bytes), List.intercalate b!"|" (x :: l) = x ++ (l.map (b!"|" ++ ·)).flatten := by
      intro x l
      induction l generalizing x with
      | nil => simp [List.intercalate]
      | cons y l ih =>
        have h2 : List.intercalate b!"|" (x :: y :: l) = x ++ b!"|" ++ List.intercalate b!"|" (y :: l) := by
          simp [List.intercalate, List.intersperse]
        rw [h2, ih]; simp
    rw [List.map_cons, this]
    simp [entryText, Function.comp_def]

theorem intercalate_perm_bytes {l l' : List Bytes} (h : l.Perm l') :
    (List.intercalate b!"|" l).Perm (List.intercalate b!"|" l') := by
  have flat : ∀ (x : Bytes) (l : List Bytes), List.intercalate b!"|" (x :: l) = x ++ (l.map (b!"|" ++ ·)).flatten := by
    intro x l
    induction l generalizing x with
    | nil => simp [List.intercalate]
    | cons y l ih =>
      have h2 : List.intercalate b!"|" (x :: y :: l) = x ++ b!"|" ++ List.intercalate b!"|" (y :: l) := by
        simp [List.intercalate, List.intersperse]
      rw [h2, ih]; simp
  -- with a bar in front every entry is treated alike
  have bar : ∀ l : List Bytes, l ≠ [] → b!"|" ++ List.intercalate b!"|" l = (l.map (b!"|" ++ ·)).flatten := by
    intro l hl
    cases l with
    | nil => exact absurd rfl hl
    | cons x r => rw [flat]; simp
  by_cases hl : l = []
  · subst hl; rw [List.nil_perm.1 h]
  · have hl' : l' ≠ [] := fun hh => hl (by subst hh; exact List.perm_nil.1 h)
    have h1 := (h.map (b!"|" ++ ·)).flatten
    rw [← bar l hl, ← bar l' hl'] at h1
    exact (List.perm_append_left_iff _).1 h1

/-- C66: the iteration order of the map only permutes the text: every byte occurs equally often, in particular the length is
the same. -/
theorem C66_order (msg : Bytes) {es es' : List (Bytes × LogVal)} (h : es.Perm es') :
    (appendCtx msg (some es)).Perm (appendCtx msg (some es')) := by
  rw [(C66_text msg es).2, (C66_text msg es').2]
  exact (List.perm_append_left_iff _).2 (intercalate_perm_bytes (h.map entryText))

theorem count_intercalate (l : List Bytes) : (List.intercalate b!"|" l).count 10 = (l.map lineFeeds).sum := by
  induction l with
  | nil => rfl
  | cons x l ih =>
    cases l with
    | nil => simp [List.intercalate, lineFeeds]
    | cons y l =>
      have h2 : List.intercalate b!"|" (x :: y :: l) = x ++ b!"|" ++ List.intercalate b!"|" (y :: l) := by
        simp [List.intercalate, List.intersperse]
      rw [h2, List.count_append, List.count_append, ih]
      simp [lineFeeds]

/-- line feeds of a context -/
def ctxFeeds (ctx : Option (List (Bytes × LogVal))) : Nat :=
  match ctx with
  | none => 0
  | some es => (es.map (fun e => lineFeeds e.1 + lineFeeds (ToString e.2))).sum

theorem appendCtx_feeds (msg : Bytes) (ctx : Option (List (Bytes × LogVal))) :
    lineFeeds (appendCtx msg ctx) = lineFeeds msg + ctxFeeds ctx := by
  cases ctx with
  | none => simp [appendCtx, ctxFeeds]
  | some es =>
    rw [(C66_text msg es).2, lineFeeds, List.count_append, List.count_append, count_intercalate]
    simp only [ctxFeeds, List.map_map]
    have : es.map (lineFeeds ∘ entryText) = es.map (fun e => lineFeeds e.1 + lineFeeds (ToString e.2)) := by
      apply List.map_congr_left
      intro e _
      simp [entryText, lineFeeds]
    rw [this]
    simp [lineFeeds]

/-- C66: a record ends with CR LF, and the number of lines it spans is one plus the number of line feeds in the clock text,
the level, the prefix, the message, the keys and the values: it is one line exactly if none of them contains a line feed. -/
theorem C66_lines (c : ConsoleLogger) (time level msg : Bytes) (ctx : Option (List (Bytes × LogVal))) :
    b!"\r\n" <:+ c.record time level msg ctx ∧
    lineFeeds (c.record time level msg ctx) =
      1 + lineFeeds time + lineFeeds level + lineFeeds c.pfx + lineFeeds msg + ctxFeeds ctx := by
  have hp : (padLeft6 level).count 10 = level.count 10 := by
    simp [padLeft6, List.count_append, List.count_replicate]
  have hc := appendCtx_feeds msg ctx
  simp only [lineFeeds] at hc
  unfold ConsoleLogger.record
  simp only
  split
  · refine ⟨List.suffix_append _ _, ?_⟩
    simp only [lineFeeds, List.count_append, hp, hc]
    simp; omega
  · rename_i h
    have : c.pfx = [] := by
      cases hx : c.pfx with
      | nil => rfl
      | cons a r => rw [hx] at h; simp at h
    refine ⟨List.suffix_append _ _, ?_⟩
    simp only [lineFeeds, List.count_append, hp, hc, this]
    simp; omega

/-- C66: values are not escaped: whatever two messages somebody wants to see in the log, there is one message whose record is
byte for byte the records of the two. (Messages and values contain bytes of other nodes, e.g. the text of an error.) -/
theorem C66_forged (l : LogLevel) (time level m1 m2 : Bytes) :
    ∃ m, (ConsoleLogger.mk [] l).record time level m none =
      (ConsoleLogger.mk [] l).record time level m1 none ++ (ConsoleLogger.mk [] l).record time level m2 none := by
  refine ⟨m1 ++ b!"\r\n" ++ time ++ b!" " ++ padLeft6 level ++ b!": " ++ m2, ?_⟩
  simp [ConsoleLogger.record, appendCtx]

/-- C66: how a value is written: as itself if it is a string, otherwise its error text if it is an error, even if it can also describe
itself, otherwise its description, otherwise its JSON, and the reason if it has none. -/
theorem C66_value (v : LogVal) :
    (∀ x, v.asString = some x → entryText ([], v) = b!":" ++ x) ∧
    (∀ x, v.asString = none → v.asError = some x → entryText ([], v) = b!":" ++ x) ∧
    (∀ x, v.asString = none → v.asError = none → v.asStringer = some x → entryText ([], v) = b!":" ++ x) ∧
    (∀ x, v.asString = none → v.asError = none → v.asStringer = none → (v.json = .ok x ∨ v.json = .error x) → entryText ([], v) = b!":" ++ x) := by
  refine ⟨fun x h => ?_, fun x h h1 => ?_, fun x h h1 h2 => ?_, fun x h h1 h2 h3 => ?_⟩ <;> simp only [entryText, ToString, h]
  · rfl
  · simp [h1]
  · simp [h1, h2]
  · rcases h3 with h3 | h3 <;> simp [h1, h2, h3]

/-- an error that is also a `Stringer` -/
example : entryText ([], { asString := none, asError := some b!"bad", asStringer := some b!"descr", json := .ok b!"{}" }) = b!":bad" := by decide +kernel

/-- a string as a log value -/
def strLog (s : Bytes) : LogVal := { asString := some s, asError := none, asStringer := none, json := .ok s }

/-- C66: nor are separators escaped: two different contexts have the same text. -/
theorem C66_ambiguous :
    appendCtx b!"m" (some [(b!"a", strLog b!"1|b:2")]) =
      appendCtx b!"m" (some [(b!"a", strLog b!"1"), (b!"b", strLog b!"2")]) := by decide +kernel

/-! ## Errors -/

theorem paramsLoop_eq (acc : Bytes) (ps : List LogVal) :
    paramsLoop acc ps = acc ++ (ps.map (fun v => ToString v ++ b!"|")).flatten := by
  induction ps generalizing acc with
  | nil => simp [paramsLoop]
  | cons v r ih => simp [paramsLoop, ih]

/-- C66: the text of an error is its code, the message, the parameters each followed by a bar (only if there are any), and
always the stack trace, whether or not it was asked for. -/
theorem C66_error_text (code : Nat) (msg stack : Bytes) (printStack : Bool) (params : List LogVal) :
    (NewError code msg printStack params).Error stack =
      itoa code ++ b!": " ++ msg ++
      (if params = [] then [] else b!", params: " ++ (params.map (fun v => ToString v ++ b!"|")).flatten) ++
      b!"\r\nstacks:\r\n" ++ stack := by
  cases params with
  | nil => simp [NewError, MiscErr.Error]
  | cons p r =>
    simp only [NewError, MiscErr.Error, List.isEmpty_cons, Bool.false_eq_true, if_false, paramsLoop_eq]
    simp

/-- C66: the helpers for errors panic exactly if there is an error, with code 201, and its text is the last parameter. -/
theorem C66_panics_iff (err : Option LogVal) (msg : Bytes) (params : List LogVal) (stack : Bytes) :
    (PanicSysErrNonNil err msg params = none ↔ err = none) ∧ (PanicBizErrNonNil err msg params = none ↔ err = none) ∧
    ∀ e, err = some e → ∀ r, (PanicSysErrNonNil err msg params = some r ∨ PanicBizErrNonNil err msg params = some r) →
      r.Error stack = b!"201: " ++ msg ++ b!", params: " ++ (params.map (fun v => ToString v ++ b!"|")).flatten ++
        (ToString e ++ b!"|\r\nstacks:\r\n" ++ stack) := by
  refine ⟨by cases err <;> simp [PanicSysErrNonNil], by cases err <;> simp [PanicBizErrNonNil], ?_⟩
  rintro e rfl r h
  have key : ∀ ps, (NewError genericErr msg ps (params ++ [e])).Error stack =
      b!"201: " ++ msg ++ b!", params: " ++ (params.map (fun v => ToString v ++ b!"|")).flatten ++
        (ToString e ++ b!"|\r\nstacks:\r\n" ++ stack) := by
    intro ps
    have hi : itoa (genericErr : Nat) = b!"201" := by decide +kernel
    rw [C66_error_text, hi]
    simp
  rcases h with h | h
  · cases h; exact key true
  · cases h; exact key false

/-- C66: the text in an error reply (`bizText` in the RPC model) is the text of the error the accessors panic with. -/
theorem C66_biz_text (msg stack : Bytes) : (PanicBizErr msg []).Error stack = bizText msg stack := by
  have hi : itoa (genericErr : Nat) = b!"201" := by decide +kernel
  rw [PanicBizErr, C66_error_text, hi]
  simp [bizText]

/-- C66: the flag that asks for a stack trace is not observable: system errors and business errors with the same message
and parameters read the same, and the trace is always there. -/
theorem C66_flag (msg stack : Bytes) (params : List LogVal) (err : Option LogVal) :
    (PanicSysErr msg params).Error stack = (PanicBizErr msg params).Error stack ∧
    b!"\r\nstacks:\r\n" ++ stack <:+ (PanicSysErr msg params).Error stack ∧
    (PanicSysErrNonNil err msg params).map (·.Error stack) = (PanicBizErrNonNil err msg params).map (·.Error stack) := by
  refine ⟨by simp [PanicSysErr, PanicBizErr, C66_error_text], ?_, ?_⟩
  · rw [PanicSysErr, C66_error_text, List.append_assoc]
    exact List.suffix_append _ _
  · cases err <;> simp [PanicSysErrNonNil, PanicBizErrNonNil, C66_error_text]

/-- a record -/
example : (ConsoleLogger.mk b!"dht" .info).record b!"T" b!"Info" b!"hi" (some [(b!"a", strLog b!"1"), (b!"b", strLog b!"2")]) =
    b!"T   Info: [dht]hi, a:1|b:2\r\n" := by decide +kernel

end P2P

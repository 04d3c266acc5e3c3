import Verif.Model.Config
/-! # C53: the configuration is frozen at the first access -/
namespace P2P
variable {S V : Type}

/-- the settings in force after a history: those of the last file that was loaded -/
def lastLoaded (s : S) : List (CfgOp S) → S
  | [] => s
  | .reset (.loaded s') :: h => lastLoaded s' h
  | _ :: h => lastLoaded s h

/-- the section has not been asked for -/
def neverAccessed (k : CfgKey) (h : List (CfgOp S)) : Prop := CfgOp.access k ∉ h

theorem getSub_settings {view : S → CfgKey → Option V} {k : CfgKey} {st st' : CfgSt S V} {v : V}
    (h : getSubConfig view k st = some (v, st')) : st'.settings = st.settings ∧ st'.cache k = some v := by
  simp only [getSubConfig] at h
  split at h
  · next hc => injection h with h; injection h with h1 h2; subst h1 h2; exact ⟨rfl, hc⟩
  · split at h
    · cases h
    · injection h with h; injection h with h1 h2; subst h1 h2; exact ⟨rfl, by simp⟩

theorem cfgAfter_settings (view : S → CfgKey → Option V) (st : CfgSt S V) (op : CfgOp S) :
    (cfgAfter view st op).settings = lastLoaded st.settings [op] := by
  cases op with
  | access k =>
    simp only [cfgAfter, lastLoaded]
    split
    · next h => exact (getSub_settings h).1
    · rfl
  | reset r =>
    cases r with
    | loaded s => rfl
    | notFound b => cases b <;> rfl
    | failed => rfl

theorem lastLoaded_cons (s : S) (op : CfgOp S) (h : List (CfgOp S)) : lastLoaded s (op :: h) = lastLoaded (lastLoaded s [op]) h := by
  cases op with
  | access k => rfl
  | reset r => cases r <;> rfl

theorem cfgRun_settings (view : S → CfgKey → Option V) (st : CfgSt S V) (h : List (CfgOp S)) :
    (cfgRun view st h).settings = lastLoaded st.settings h := by
  induction h generalizing st with
  | nil => rfl
  | cons op h ih =>
    show (cfgRun view (cfgAfter view st op) h).settings = _
    rw [ih, cfgAfter_settings, lastLoaded_cons _ op h]

theorem cfgAfter_cached {view : S → CfgKey → Option V} {st : CfgSt S V} {k : CfgKey} {v : V} (h : st.cache k = some v) (op : CfgOp S) :
    (cfgAfter view st op).cache k = some v := by
  cases op with
  | access j =>
    simp only [cfgAfter]
    split
    · next hg =>
      simp only [getSubConfig] at hg
      split at hg
      · injection hg with hg; injection hg with h1 h2; subst h2; exact h
      · next hn =>
        split at hg
        · cases hg
        · injection hg with hg; injection hg with h1 h2; subst h2
          simp only
          rw [if_neg (by rintro rfl; rw [hn] at h; cases h)]; exact h
    · exact h
  | reset r =>
    cases r with
    | loaded s => exact h
    | notFound b => cases b <;> exact h
    | failed => exact h

theorem cfgRun_cached {view : S → CfgKey → Option V} {st : CfgSt S V} {k : CfgKey} {v : V} (h : st.cache k = some v) (ops : List (CfgOp S)) :
    (cfgRun view st ops).cache k = some v := by
  induction ops generalizing st with
  | nil => exact h
  | cons op ops ih => exact ih (cfgAfter_cached h op)

/-- **Frozen**: once a section has been read successfully, every later read returns the same value and changes nothing,
whatever was loaded in between. -/
theorem C53_frozen (view : S → CfgKey → Option V) (st st' : CfgSt S V) (k : CfgKey) (v : V)
    (h : getSubConfig view k st = some (v, st')) (later : List (CfgOp S)) :
    getSubConfig view k (cfgRun view st' later) = some (v, cfgRun view st' later) := by
  have := cfgRun_cached (view := view) (getSub_settings h).2 later
  simp [getSubConfig, this]

/-- **Fresh**: a section asked for the first time comes from the file loaded last (from the defaults if none was); it panics iff
that section cannot be decoded. -/
theorem C53_fresh (view : S → CfgKey → Option V) (defaults : S) (k : CfgKey) (h : List (CfgOp S)) (hk : neverAccessed k h) :
    (getSubConfig view k (cfgRun view { settings := defaults, cache := fun _ => none } h)).map (·.1) = view (lastLoaded defaults h) k := by
  have hc : ∀ (st : CfgSt S V) (h : List (CfgOp S)), st.cache k = none → neverAccessed k h → (cfgRun view st h).cache k = none := by
    intro st h
    induction h generalizing st with
    | nil => intro h _; exact h
    | cons op h ih =>
      intro hn hk
      have hk' : neverAccessed k h := fun hm => hk (List.mem_cons_of_mem _ hm)
      refine ih _ ?_ hk'
      cases op with
      | access j =>
        simp only [cfgAfter]
        split
        · next hg =>
          simp only [getSubConfig] at hg
          split at hg
          · injection hg with hg; injection hg with h1 h2; subst h2; exact hn
          · split at hg
            · cases hg
            · injection hg with hg; injection hg with h1 h2; subst h2
              simp only
              rw [if_neg (by rintro rfl; exact hk List.mem_cons_self)]; exact hn
        · exact hn
      | reset r =>
        cases r with
        | loaded s => exact hn
        | notFound b => cases b <;> exact hn
        | failed => exact hn
  have h0 := hc { settings := defaults, cache := fun _ => none } h rfl hk
  have hs := cfgRun_settings view { settings := defaults, cache := fun _ => none } h
  simp only [getSubConfig, h0, hs]
  cases view (lastLoaded defaults h) k <;> rfl

/-- **The file named on the command line only decides about `pprof`.** In every run that starts, the port, the bootstrap nodes, the
queue and pool sizes and the log level are those of the file `./conf/config.json` (of the defaults if there is none), and all
readers of a section see the same value; the file given with `--config` is loaded too late for them. -/
theorem C53_flag_only_pprof (view : S → CfgKey → Option V) (defaults : S) (first : ReadOut S) (flag : Option (ReadOut S))
    (p : Started V) (h : startProgram view defaults first flag = some p) :
    let s0 := lastLoaded defaults [CfgOp.reset first]
    some p.port = view s0 .dht ∧ p.bootstrap = p.port ∧ p.krpcPool = p.port ∧
    some p.queue = view s0 .fetchTorrent ∧ p.fetchPool = p.queue ∧
    some p.logger = view s0 .logger ∧
    some p.pprof = view (lastLoaded s0 (flag.toList.map CfgOp.reset)) .pprof := by
  intro s0
  simp only [startProgram, Option.bind_eq_bind, Option.bind_eq_some_iff] at h
  obtain ⟨st0, h0, ⟨port, st1⟩, h1, ⟨queue, st2⟩, h2, ⟨lg, st3⟩, h3, st4, h4, ⟨pp, st5⟩, h5, ⟨bs, st6⟩, h6, ⟨fp, st7⟩, h7, ⟨kp, st8⟩, h8, h9⟩ := h
  injection h9 with h9
  subst h9
  have e0 : st0 = { settings := s0, cache := fun _ => none } := by
    cases first with
    | loaded s => simp [ResetConfig] at h0; rw [← h0]; rfl
    | notFound b => cases b <;> simp [ResetConfig] at h0; rw [← h0]; rfl
    | failed => simp [ResetConfig] at h0
  subst e0
  simp only [getSubConfig] at h1
  cases hv1 : view s0 .dht with
  | none => simp [hv1] at h1
  | some v1 =>
    simp [hv1] at h1
    obtain ⟨rfl, rfl⟩ := h1
    simp [getSubConfig] at h2
    cases hv2 : view s0 .fetchTorrent with
    | none => simp [hv2] at h2
    | some v2 =>
      simp [hv2] at h2
      obtain ⟨rfl, rfl⟩ := h2
      simp [getSubConfig] at h3
      cases hv3 : view s0 .logger with
      | none => simp [hv3] at h3
      | some v3 =>
        simp [hv3] at h3
        obtain ⟨rfl, rfl⟩ := h3
        have e4 : st4.settings = lastLoaded s0 (flag.toList.map CfgOp.reset) ∧ st4.cache = fun x => if x = CfgKey.logger then some v3 else
            if x = CfgKey.fetchTorrent then some v2 else if x = CfgKey.dht then some v1 else none := by
          cases flag with
          | none => simp [resetFlag] at h4; subst h4; exact ⟨rfl, rfl⟩
          | some r =>
            cases r with
            | loaded s => simp [resetFlag, ResetConfig] at h4; subst h4; exact ⟨rfl, rfl⟩
            | notFound b => cases b <;> simp [resetFlag, ResetConfig] at h4; subst h4; exact ⟨rfl, rfl⟩
            | failed => simp [resetFlag, ResetConfig] at h4
        obtain ⟨e4s, e4c⟩ := e4
        simp [getSubConfig, e4c] at h5
        rw [e4s] at h5
        cases hv5 : view (lastLoaded s0 (flag.toList.map CfgOp.reset)) .pprof with
        | none => simp [hv5] at h5
        | some v5 =>
          simp [hv5] at h5
          obtain ⟨rfl, rfl⟩ := h5
          simp [getSubConfig] at h6
          obtain ⟨rfl, rfl⟩ := h6
          simp [getSubConfig] at h7
          obtain ⟨rfl, rfl⟩ := h7
          simp [getSubConfig] at h8
          obtain ⟨rfl, rfl⟩ := h8
          exact ⟨rfl, rfl, rfl, rfl, rfl, rfl, rfl⟩

/-- a program started with a second file: settings 1, then 2; every section shows its settings -/
example : startProgram (S := Nat) (V := Nat) (fun s _ => some s) 0 (.loaded 1) (some (.loaded 2)) =
    some { port := 1, bootstrap := 1, krpcPool := 1, queue := 1, fetchPool := 1, pprof := 2, logger := 1 } := rfl

/-- no file: the defaults are written out and used -/
example : startProgram (S := Nat) (V := Nat) (fun s _ => some s) 7 (.notFound true) none =
    some { port := 7, bootstrap := 7, krpcPool := 7, queue := 7, fetchPool := 7, pprof := 7, logger := 7 } := rfl

/-- the named file does not exist: the program does not start -/
example : startProgram (S := Nat) (V := Nat) (fun s _ => some s) 7 (.loaded 1) (some .failed) = none := rfl

example : neverAccessed (S := Nat) .pprof [.access .dht, .reset (.loaded 3)] ∧
    lastLoaded 1 [CfgOp.access .dht, .reset (.loaded 3), .reset .failed] = 3 := by
  constructor
  · intro h; simp at h
  · rfl

end P2P

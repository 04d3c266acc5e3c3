import Verif.Props.WorkPool
import Verif.Props.Shutdown
import Verif.Props.ShutdownReg
import Verif.Props.ConfigConc
import Verif.Props.SystemNet
/-! # A process that has ended does nothing more: C50, C51, C60, C107, C113 -/
namespace P2P

/-- **C50** When an uncaught panic (the second of two overlapping calls of `Shutdown`) has ended the process, no worker, submitter or `Shutdown` takes another step. -/
theorem C50_dead_stops {size : Nat} {s t : WpSt} (hd : s.dead = true) : ¬ WpStep size s t := by
  intro st
  cases st <;> simp_all

/-- **C51** -/
theorem C51_dead_stops {n : Nat} {s t : SdSt} (hd : s.dead = true) : ¬ SdStep n s t := by
  intro st
  cases st <;> simp_all

/-- **C60** -/
theorem C60_dead_stops {s t : RgSt} (hd : s.dead = true) : ¬ RgStep s t := by
  intro st
  cases st <;> simp_all

/-- **C107** -/
theorem C107_dead_stops {code : Nat → List CfgAct} {s t : CcSt} (hd : s.dead = true) : ¬ CcStep code s t := by
  intro st
  cases st <;> simp_all

/-- **C113** When the process has ended – it has returned from `main`, or has panicked, or was out of memory – no goroutine takes another step: every later state is this one. -/
theorem C113_end_is_final {S : SysEnv} {s t : SysNetSt} (hup : ¬ s.sys.up) (h : Reach (· = s) (SysNetStep S) t) : t = s := by
  induction h with
  | init h => exact h
  | step _ st ih =>
    subst ih
    cases st with
    | rest st _ _ _ => cases st <;> exact absurd ‹_› hup
    | _ => exact absurd ‹_› hup

/-- the deaths do occur: a second call of `Shutdown` (C50), functions that panic (C51), registering too late (C60) -/
example : (∃ s, WpReach 1 s ∧ s.dead = true) ∧ (∃ s : RgSt, s.dead = true ∧ RgReach [] [[0]] s) := by
  obtain ⟨s, h1, -, h2⟩ := C50_overlap_kills 1
  obtain ⟨a, t, ha, -, -, -, -, hf, hd⟩ := C60_race_kills
  exact ⟨⟨s, h1, h2⟩, t, hd, reach_trans ha hf⟩

end P2P

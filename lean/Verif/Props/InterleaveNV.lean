import Verif.Props.InterleaveUse
import Verif.Props.InterleaveEnd
import Verif.Props.PeerwireAmong4NV
/-! # C111: concrete schedules of two downloads -/
namespace P2P

/-- one turn of goroutine `i`, if it can take one -/
def turn (tasks : List Task) (n : Net) (i : Nat) : Net :=
  match n.threads[i]?, tasks[i]? with
  | some .idle, some t =>
    if t.E.dialFails then n
    else { shared := ((t.body n.shared).state.mem, (t.body n.shared).state.pool), threads := n.threads.set i (.running (t.body n.shared)) }
  | some (.running (.wait _ k)), _ => { shared := ((k n.shared).state.mem, (k n.shared).state.pool), threads := n.threads.set i (.running (k n.shared)) }
  | _, _ => n

/-- a schedule -/
def turns (tasks : List Task) (n : Net) : List Nat → Net
  | [] => n
  | i :: l => turns tasks (turn tasks n i) l

theorem turn_reach {tasks : List Task} {init : Net → Prop} {n : Net} (h : Reach init (TurnStepAny tasks) n) (i : Nat) : Reach init (TurnStepAny tasks) (turn tasks n i) := by
  unfold turn
  split
  · rename_i t h1 h2
    by_cases hd : t.E.dialFails = true
    · rw [if_pos hd]; exact h
    · rw [if_neg hd]; exact .step h ⟨i, .start t h2 h1 (by simpa using hd)⟩
  · rename_i s k h1
    exact .step h ⟨i, .resume s k h1⟩
  · exact h

theorem turns_reach {tasks : List Task} {init : Net → Prop} (l : List Nat) {n : Net} (h : Reach init (TurnStepAny tasks) n) : Reach init (TurnStepAny tasks) (turns tasks n l) := by
  induction l generalizing n with
  | nil => exact h
  | cons i l ih => exact ih (turn_reach h i)

/-- the two honest downloads of `C110_two_honest` -/
def pairTasks : List Task :=
  [{ E := calmEnv (exHandshake :: [exExt 24, exData0].flatMap wire), sha1 := toyHash, fold := fun _ _ => false, fuel := 3, peerId := b!"cccccccccccccccccccc", infoHash := b!"hhhhhhhhhhhhhhhhhhhh" },
   { E := calmEnv exChunks2, sha1 := toyHash, fold := fun _ _ => false, fuel := 3, peerId := b!"cccccccccccccccccccc", infoHash := b!"iiiiiiiiiiiiiiiiiiii" }]

def pairNet (l : List Nat) : Net := turns pairTasks (.fresh (fun _ => [], exPool) pairTasks) l

def endOf (n : Net) (i : Nat) : Option FetchOut :=
  match n.threads[i]? with
  | some (.running (.done o)) => some (.of o)
  | _ => none

def endsWith (n : Net) (i : Nat) (d : Bytes) : Bool :=
  match endOf n i with
  | some (.returned (some d') none _) => d' == d
  | _ => false

theorem endsWith_done {n : Net} {i : Nat} {d : Bytes} (h : endsWith n i d = true) :
    ∃ o s, n.threads[i]? = some (.running (.done o)) ∧ FetchOut.of o = .returned (some d) none s := by
  unfold endsWith endOf at h
  split at h
  · rename_i d' s he
    split at he
    · rename_i o ho
      simp only [beq_iff_eq] at h
      exact ⟨o, s, ho, by rw [Option.some.inj he, h]⟩
    · cases he
  · cases h

/-- turn and turn about -/
def fairTurns : List Nat := (List.replicate 24 [0, 1]).flatten

/-- C111_any_interleaving, C111_authentic: both downloads, turn and turn about, end, and return their metadata. -/
theorem pair_both : ∃ o o' s s', Ended pairTasks 0 pairTasks[0] o ∧ Ended pairTasks 1 pairTasks[1] o' ∧
    FetchOut.of o = .returned (some exMeta) none s ∧ FetchOut.of o' = .returned (some exMeta2) none s' := by
  obtain ⟨o, s, h1, h2⟩ := endsWith_done (n := pairNet fairTurns) (i := 0) (d := exMeta) (by decide +kernel)
  obtain ⟨o', s', h3, h4⟩ := endsWith_done (n := pairNet fairTurns) (i := 1) (d := exMeta2) (by decide +kernel)
  have hr : Reach (· = Net.fresh (fun _ => [], exPool) pairTasks) (TurnStepAny pairTasks) (pairNet fairTurns) := turns_reach _ (.init rfl)
  exact ⟨o, o', s, s', ⟨rfl, _, _, exPool_own, hr, h1⟩, ⟨rfl, _, _, exPool_own, hr, h3⟩, h2, h4⟩

/-- the first download up to just before it merges its piece; then the whole second one; then the rest of the first -/
def badTurns : List Nat := List.replicate 21 0 ++ List.replicate 24 1 ++ [0]

/-- **The schedule decides.** The same two honest downloads, with the same peers: in one schedule both return their metadata, in another one of them fails. -/
theorem C111_schedule_decides :
    (∃ o s, Ended pairTasks 0 pairTasks[0] o ∧ FetchOut.of o = .returned (some exMeta) none s) ∧
    ∃ o s, Ended pairTasks 0 pairTasks[0] o ∧ FetchOut.of o = .returned none (some b!"check sum err") s := by
  refine ⟨?_, ?_⟩
  · obtain ⟨o, -, s, -, h1, -, h2, -⟩ := pair_both
    exact ⟨o, s, h1, h2⟩
  · have h : (match endOf (pairNet badTurns) 0 with
        | some (.returned none (some e) _) => decide (e = b!"check sum err")
        | _ => false) = true := by decide +kernel
    have hr : Reach (· = Net.fresh (fun _ => [], exPool) pairTasks) (TurnStepAny pairTasks) (pairNet badTurns) := turns_reach _ (.init rfl)
    generalize pairNet badTurns = n at h hr
    unfold endOf at h
    split at h
    · rename_i s he
      split at he
      · rename_i o ho
        exact ⟨o, _, ⟨rfl, _, _, exPool_own, hr, ho⟩, by rw [Option.some.inj he, of_decide_eq_true h]⟩
      · cases he
    · cases h

theorem pair_fed : Fed pairTasks[0] exHandshake [exExt 24, exData0] where
  dial := rfl
  writes := fun _ => rfl
  time := fun _ => rfl
  memory := fun _ _ => rfl
  order := fun _ _ h => ⟨h, .refl _⟩
  peer := rfl
  info := rfl
  handshake := exHandshake_ok
  delivers := calmEnv_delivers _
  lengths := by decide +kernel
  rounds := Nat.le_refl _

/-- C111_complete at both schedules: 24 bytes are checked -/
example (o : POut (Option Bytes × Option Bytes)) (h : Ended pairTasks 0 pairTasks[0] o) : ∃ (data : Bytes) (s : PSt), data.length = 24 ∧
    FetchOut.of o = (if toyHash data = b!"hhhhhhhhhhhhhhhhhhhh" then .returned (some data) none s else .returned none (some b!"check sum err") s) := by
  obtain ⟨data, s, h1, h2, -⟩ := C111_complete h pair_fed 2 2 { size := 24, pieces := [some (1, exMeta)] } (by decide +kernel) (by decide +kernel)
  exact ⟨data, s, h1, h2⟩

theorem turn_if {R : Nat → PSt → Shared → Prop} {tasks : List Task} {init : Net → Prop} {n : Net} {i : Nat}
    (hR : ∀ s k, n.threads[i]? = some (.running (.wait s k)) → R i s n.shared)
    (h : Reach init (TurnStepIf R tasks) n) : Reach init (TurnStepIf R tasks) (turn tasks n i) := by
  unfold turn
  split
  · rename_i t h1 h2
    by_cases hd : t.E.dialFails = true
    · rw [if_pos hd]; exact h
    · rw [if_neg hd]; exact .step h ⟨i, .start t h2 h1 (by simpa using hd), hR⟩
  · rename_i s k h1
    exact .step h ⟨i, .resume s k h1, hR⟩
  · exact h

/-- whoever is next has no pieces yet -/
def noPieces (n : Net) (i : Nat) : Bool :=
  match n.threads[i]? with
  | some (.running (.wait s _)) => (pieceBuffers s.trace).isEmpty
  | _ => true

def noPiecesYet (tasks : List Task) (n : Net) : List Nat → Bool
  | [] => true
  | i :: l => noPieces n i && noPiecesYet tasks (turn tasks n i) l

/-- a schedule in which nobody has pieces is harmless -/
theorem noPieces_reach {tasks : List Task} {init : Net → Prop} (i : Nat) (l : List Nat) {n : Net} (hs : noPiecesYet tasks n l = true)
    (h : Reach init (TurnStepIf (Spared i) tasks) n) : Reach init (TurnStepIf (Spared i) tasks) (turns tasks n l) := by
  induction l generalizing n with
  | nil => exact h
  | cons j l ih =>
    simp only [noPiecesYet, Bool.and_eq_true] at hs
    refine ih hs.2 (turn_if (fun s k hk _ a ha => ?_) h)
    have := hs.1
    unfold noPieces at this
    rw [hk] at this
    rw [List.isEmpty_iff.1 this] at ha
    cases ha

/-- nothing happened since the last turn of `i` -/
def Undisturbed (n : Net) (i : Nat) : Prop := ∀ s k, n.threads[i]? = some (.running (.wait s k)) → n.shared.1 = s.mem

theorem turn_undisturbed {tasks : List Task} {n : Net} {i : Nat} (h : Undisturbed n i) : Undisturbed (turn tasks n i) i := by
  unfold turn
  split
  · rename_i t h1 h2
    have hl := (List.getElem?_eq_some_iff.1 h1).1
    by_cases hd : t.E.dialFails = true
    · rw [if_pos hd]; exact h
    · rw [if_neg hd]
      intro s k hk
      simp only [List.getElem?_set_self hl, Option.some.injEq, Thread.running.injEq] at hk
      show (t.body n.shared).state.mem = s.mem
      rw [hk]; rfl
  · rename_i s k h1
    have hl := (List.getElem?_eq_some_iff.1 h1).1
    intro s' k' hk
    simp only [List.getElem?_set_self hl, Option.some.injEq, Thread.running.injEq] at hk
    show (k n.shared).state.mem = s'.mem
    rw [hk]; rfl
  · exact h

/-- a download that runs on undisturbed is spared -/
theorem alone_reach {tasks : List Task} {init : Net → Prop} (i m : Nat) {n : Net} (hu : Undisturbed n i)
    (h : Reach init (TurnStepIf (Spared i) tasks) n) : Reach init (TurnStepIf (Spared i) tasks) (turns tasks n (List.replicate m i)) := by
  induction m generalizing n with
  | zero => exact h
  | succ m ih => exact ih (turn_undisturbed hu) (turn_if (fun s k hk _ a _ => by rw [hu s k hk]) h)

theorem turns_append (tasks : List Task) (l l' : List Nat) (n : Net) : turns tasks n (l ++ l') = turns tasks (turns tasks n l) l' := by
  induction l generalizing n with
  | nil => rfl
  | cons i l ih => exact ih _

/-- not at its end, and something was received -/
def underWay (n : Net) (i : Nat) : Bool :=
  match n.threads[i]? with
  | some (.running (.wait s _)) => decide (reads s.trace ≥ 1)
  | _ => false

/-- turn and turn about until the first download is about to read its piece; then it runs on alone, while the other is in the middle of its own -/
def goodTurns : List Nat := (List.replicate 17 [1, 0]).flatten ++ List.replicate 8 0

/-- C111_spared: a schedule that spares the first download, in which the second one is active and unfinished -/
example : ∃ n o s, Reach (· = Net.fresh (fun _ => [], exPool) pairTasks) (TurnStepIf (Spared 0) pairTasks) n ∧
    n.threads[0]? = some (.running (.done o)) ∧ FetchOut.of o = .returned (some exMeta) none s ∧ NotRetaken s.trace ∧
    ∃ s' k, n.threads[1]? = some (.running (.wait s' k)) ∧ reads s'.trace ≥ 1 := by
  have hu : Undisturbed (turns pairTasks (.fresh (fun _ => [], exPool) pairTasks) (List.replicate 17 [1, 0]).flatten) 0 := by
    intro s k hk
    have e : (List.replicate 17 [1, 0]).flatten = (List.replicate 16 [1, 0]).flatten ++ [1] ++ [0] := by decide
    rw [e, turns_append] at hk ⊢
    generalize hn : turns pairTasks (.fresh (fun _ => [], exPool) pairTasks) ((List.replicate 16 [1, 0]).flatten ++ [1]) = n at hk ⊢
    have hw : (match n.threads[0]? with | some (.running (.wait _ _)) => true | _ => false) = true := by rw [← hn]; decide +kernel
    split at hw
    · rename_i s0 k0 h0
      have hl := (List.getElem?_eq_some_iff.1 h0).1
      have ht : turns pairTasks n [0] = { shared := ((k0 n.shared).state.mem, (k0 n.shared).state.pool), threads := n.threads.set 0 (.running (k0 n.shared)) } := by
        show turn pairTasks n 0 = _
        unfold turn
        rw [h0]
      rw [ht] at hk ⊢
      simp only [List.getElem?_set_self hl, Option.some.injEq, Thread.running.injEq] at hk
      show (k0 n.shared).state.mem = s.mem
      rw [hk]; rfl
    · cases hw
  have hr := alone_reach 0 8 hu (noPieces_reach (tasks := pairTasks) (init := (· = Net.fresh (fun _ => [], exPool) pairTasks)) 0 _ (by decide +kernel) (.init rfl))
  rw [← turns_append] at hr
  obtain ⟨o, s, h1, h2⟩ := endsWith_done (n := pairNet goodTurns) (i := 0) (d := exMeta) (by decide +kernel)
  refine ⟨_, o, s, hr, h1, h2, notRetaken_of ?_, ?_⟩
  · have h4 : (match endOf (pairNet goodTurns) 0 with
        | some r => notRetakenB (outTrace r)
        | none => false) = true := by decide +kernel
    unfold endOf at h4
    rw [h1] at h4
    simp only [h2] at h4
    exact h4
  · have h5 : underWay (pairNet goodTurns) 1 = true := by decide +kernel
    unfold underWay at h5
    show ∃ s' k, (pairNet goodTurns).threads[1]? = _ ∧ _
    split at h5
    · rename_i s' k' h6
      exact ⟨s', k', h6, of_decide_eq_true h5⟩
    · cases h5

/-- C111_exclusive: in the middle of that schedule both downloads hold a buffer -/
example : ((pairNet (fairTurns.take 12)).threads.flatMap Thread.held).length = 2 := by decide +kernel

/-- C111_failed: a peer that sends data for a piece that was not announced, next to another download -/
def wrongTasks : List Task :=
  [{ E := calmEnv (exHandshake :: [exExt 24, [20, 1] ++ b!"d8:msg_typei1e5:piecei1ee"].flatMap wire), sha1 := toyHash, fold := fun _ _ => false, fuel := 3, peerId := b!"cccccccccccccccccccc", infoHash := b!"hhhhhhhhhhhhhhhhhhhh" },
   { E := calmEnv exChunks2, sha1 := toyHash, fold := fun _ _ => false, fuel := 3, peerId := b!"cccccccccccccccccccc", infoHash := b!"iiiiiiiiiiiiiiiiiiii" }]

theorem wrong_fed : Fed wrongTasks[0] exHandshake [exExt 24, [20, 1] ++ b!"d8:msg_typei1e5:piecei1ee"] where
  dial := rfl
  writes := fun _ => rfl
  time := fun _ => rfl
  memory := fun _ _ => rfl
  order := fun _ _ h => ⟨h, .refl _⟩
  peer := rfl
  info := rfl
  handshake := exHandshake_ok
  delivers := calmEnv_delivers _
  lengths := by decide +kernel
  rounds := Nat.le_refl _

example (o : POut (Option Bytes × Option Bytes)) (h : Ended wrongTasks 0 wrongTasks[0] o) :
    ∃ s, FetchOut.of o = .returned none (some b!"FetchMetaData err") s ∧ reads s.trace ≤ 5 :=
  C111_failed h wrong_fed 1 (by decide +kernel)

example : ∃ o, Ended wrongTasks 0 wrongTasks[0] o := by
  have h : (endOf (turns wrongTasks (.fresh (fun _ => [], exPool) wrongTasks) fairTurns) 0).isSome = true := by decide +kernel
  have hr : Reach (· = Net.fresh (fun _ => [], exPool) wrongTasks) (TurnStepAny wrongTasks) (turns wrongTasks (.fresh (fun _ => [], exPool) wrongTasks) fairTurns) :=
    turns_reach _ (.init rfl)
  generalize turns wrongTasks (.fresh (fun _ => [], exPool) wrongTasks) fairTurns = n at h hr
  unfold endOf at h
  split at h
  · rename_i o ho
    exact ⟨o, rfl, _, _, exPool_own, hr, ho⟩
  · cases h

/-- C111_waiting: the peer stops after the announcement -/
def shortTasks : List Task :=
  [{ E := calmEnv (exHandshake :: [exExt 24].flatMap wire), sha1 := toyHash, fold := fun _ _ => false, fuel := 2, peerId := b!"cccccccccccccccccccc", infoHash := b!"hhhhhhhhhhhhhhhhhhhh" },
   { E := calmEnv exChunks2, sha1 := toyHash, fold := fun _ _ => false, fuel := 3, peerId := b!"cccccccccccccccccccc", infoHash := b!"iiiiiiiiiiiiiiiiiiii" }]

example (o : POut (Option Bytes × Option Bytes)) (h : Ended shortTasks 0 shortTasks[0] o) :
    ∃ s, FetchOut.of o = .returned none (some b!"FetchMetaData err") s :=
  C111_waiting h (hs := exHandshake) (bodies := [exExt 24])
    ⟨rfl, fun _ => rfl, fun _ => rfl, fun _ _ => rfl, fun _ _ h => ⟨h, .refl _⟩, rfl, rfl, exHandshake_ok, calmEnv_delivers _, by decide +kernel, Nat.le_refl _⟩
    (by decide +kernel) (fun tr size h => by simp [shortTasks, calmEnv, chunkEnv, h]; omega)

/-- C111_never_stuck: the first download, in the middle of that schedule -/
example : (∃ m, TurnStep pairTasks (pairNet (fairTurns.take 12)) 0 m) ∨ ∃ o, (pairNet (fairTurns.take 12)).threads[0]? = some (.running (.done o)) :=
  C111_never_stuck pairTasks (fun _ => [], exPool) exPool_own _ (turns_reach _ (.init rfl)) 0 pairTasks[0] rfl rfl

end P2P

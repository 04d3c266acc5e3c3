import Verif.Props.LockLive
/-! # C96: what the guarantee of `sync.RWMutex` is needed for

Two goroutines that read the bucket in turns, each beginning before the other has ended, keep a third one out of `Add` for ever, if the lock
admits readers while a writer waits. Every goroutine that can go on does so here, and a goroutine that finds the lock free gets it. -/
namespace P2P

/-- Program points of the two readers at the ten moments of the cycle. -/
def starvePc (n : NodeInfo) : Nat → Nat → BkPc
  | _, 0 => .addW0 0 n
  | 0, 1 => .q1 .size | 0, 2 => .idle
  | 1, 1 => .q1 .size | 1, 2 => .q0 .size
  | 2, 1 => .q1 .size | 2, 2 => .q1 .size
  | 3, 1 => .q2 .size (.num 0) | 3, 2 => .q1 .size
  | 4, 1 => .q3 .size (.num 0) | 4, 2 => .q1 .size
  | 5, 1 => .idle | 5, 2 => .q1 .size
  | 6, 1 => .q0 .size | 6, 2 => .q1 .size
  | 7, 1 => .q1 .size | 7, 2 => .q1 .size
  | 8, 1 => .q1 .size | 8, 2 => .q2 .size (.num 0)
  | 9, 1 => .q1 .size | 9, 2 => .q3 .size (.num 0)
  | _, _ => .idle

/-- the reads that have returned by moment `i` -/
def starveReads : Nat → List (BkOp × BkRes)
  | 0 => []
  | i + 1 => if i % 5 = 4 then starveReads i ++ [(.size, .num 0)] else starveReads i

/-- the state at position `k` of the cycle -/
def starveAt (n : NodeInfo) (k : Nat) (reads : List (BkOp × BkRes)) : BkSt :=
  { cap := 1, slots := [none], size := 0, readers := fun t => (starvePc n k t).isReading, writer := none,
    pc := starvePc n k, calls := 1, log := [], adds := [], reads }

/-- the state at moment `i` -/
def starveSt (n : NodeInfo) (i : Nat) : BkSt := starveAt n (i % 10) (starveReads i)

theorem starve_goroutines (n : NodeInfo) (k t : Nat) (h : 3 ≤ t) : starvePc n k t = .idle := by
  unfold starvePc; split <;> first | rfl | omega

/-- what changes from one position to the next -/
theorem starve_upd (n : NodeInfo) (k k' g : Nat) (p : BkPc) (hg : g < 3) (h0 : starvePc n k' 0 = upd (starvePc n k) g p 0)
    (h1 : starvePc n k' 1 = upd (starvePc n k) g p 1) (h2 : starvePc n k' 2 = upd (starvePc n k) g p 2) :
    starvePc n k' = upd (starvePc n k) g p := by
  funext t
  by_cases ht : t < 3
  · obtain rfl | rfl | rfl : t = 0 ∨ t = 1 ∨ t = 2 := by omega
    · exact h0
    · exact h1
    · exact h2
  · rw [starve_goroutines n k' t (by omega), upd_ne _ _ (by omega), starve_goroutines n k t (by omega)]

theorem starve_readers {n : NodeInfo} {k k' g : Nat} {p : BkPc} (h : starvePc n k' = upd (starvePc n k) g p) (b : Bool) (hb : p.isReading = b) :
    (fun t => (starvePc n k' t).isReading) = upd (fun t => (starvePc n k t).isReading) g b := by
  funext t
  rw [h]
  by_cases ht : t = g
  · subst ht; simp [hb]
  · rw [upd_ne _ _ ht, upd_ne _ _ ht]

theorem starve_same {n : NodeInfo} {k k' g : Nat} {p : BkPc} (h : starvePc n k' = upd (starvePc n k) g p) (hb : p.isReading = (starvePc n k g).isReading) :
    (fun t => (starvePc n k' t).isReading) = fun t => (starvePc n k t).isReading := by
  funext t
  rw [h]
  by_cases ht : t = g
  · subst ht; simp [hb]
  · rw [upd_ne _ _ ht]

theorem starve_steps (n : NodeInfo) (env : Env) (r : List (BkOp × BkRes)) :
    BkStep env (starveAt n 0 r) (starveAt n 1 r) ∧ BkStep env (starveAt n 1 r) (starveAt n 2 r) ∧ BkStep env (starveAt n 2 r) (starveAt n 3 r) ∧
    BkStep env (starveAt n 3 r) (starveAt n 4 r) ∧ BkStep env (starveAt n 4 r) (starveAt n 5 (r ++ [(.size, .num 0)])) ∧
    BkStep env (starveAt n 5 r) (starveAt n 6 r) ∧ BkStep env (starveAt n 6 r) (starveAt n 7 r) ∧ BkStep env (starveAt n 7 r) (starveAt n 8 r) ∧
    BkStep env (starveAt n 8 r) (starveAt n 9 r) ∧ BkStep env (starveAt n 9 r) (starveAt n 0 (r ++ [(.size, .num 0)])) := by
  have call : ∀ k k' g, starvePc n k g = .idle → starvePc n k' = upd (starvePc n k) g (.q0 .size) → BkStep env (starveAt n k r) (starveAt n k' r) := by
    intro k k' g h1 h2
    have := BkStep.rdCall (env := env) (starveAt n k r) g .size h1
    unfold starveAt at this ⊢
    rwa [starve_same h2 (by rw [h1]; rfl), h2]
  have lock : ∀ k k' g, starvePc n k g = .q0 .size → starvePc n k' = upd (starvePc n k) g (.q1 .size) → BkStep env (starveAt n k r) (starveAt n k' r) := by
    intro k k' g h1 h2
    have := BkStep.rdLock (env := env) (starveAt n k r) g .size h1 rfl
    unfold starveAt at this ⊢
    rwa [starve_readers h2 true rfl, h2]
  have eval : ∀ k k' g, starvePc n k g = .q1 .size → starvePc n k' = upd (starvePc n k) g (.q2 .size (.num 0)) → BkStep env (starveAt n k r) (starveAt n k' r) := by
    intro k k' g h1 h2
    have := BkStep.rdEval (env := env) (starveAt n k r) g .size h1
    unfold starveAt at this ⊢
    rwa [starve_same h2 (by rw [h1]; rfl), h2]
  have unlock : ∀ k k' g, starvePc n k g = .q2 .size (.num 0) → starvePc n k' = upd (starvePc n k) g (.q3 .size (.num 0)) → BkStep env (starveAt n k r) (starveAt n k' r) := by
    intro k k' g h1 h2
    have := BkStep.rdUnlock (env := env) (starveAt n k r) g .size _ h1
    unfold starveAt at this ⊢
    rwa [starve_readers h2 false rfl, h2]
  have ret : ∀ k k' g, starvePc n k g = .q3 .size (.num 0) → starvePc n k' = upd (starvePc n k) g .idle →
      BkStep env (starveAt n k r) (starveAt n k' (r ++ [(.size, .num 0)])) := by
    intro k k' g h1 h2
    have := BkStep.rdReturn (env := env) (starveAt n k r) g .size _ h1
    unfold starveAt at this ⊢
    rwa [starve_same h2 (by rw [h1]; rfl), h2]
  exact ⟨call 0 1 2 rfl (starve_upd n _ _ _ _ (by decide) rfl rfl rfl), lock 1 2 2 rfl (starve_upd n _ _ _ _ (by decide) rfl rfl rfl),
    eval 2 3 1 rfl (starve_upd n _ _ _ _ (by decide) rfl rfl rfl), unlock 3 4 1 rfl (starve_upd n _ _ _ _ (by decide) rfl rfl rfl),
    ret 4 5 1 rfl (starve_upd n _ _ _ _ (by decide) rfl rfl rfl), call 5 6 1 rfl (starve_upd n _ _ _ _ (by decide) rfl rfl rfl),
    lock 6 7 1 rfl (starve_upd n _ _ _ _ (by decide) rfl rfl rfl), eval 7 8 2 rfl (starve_upd n _ _ _ _ (by decide) rfl rfl rfl),
    unlock 8 9 2 rfl (starve_upd n _ _ _ _ (by decide) rfl rfl rfl), ret 9 0 2 rfl (starve_upd n _ _ _ _ (by decide) rfl rfl rfl)⟩

theorem starve_step (n : NodeInfo) (env : Env) (i : Nat) : BkStep env (starveSt n i) (starveSt n (i + 1)) := by
  obtain ⟨h0, h1, h2, h3, h4, h5, h6, h7, h8, h9⟩ := starve_steps n env (starveReads i)
  have key : ∀ k, i % 10 = k → BkStep env (starveAt n k (starveReads i))
      (starveAt n ((k + 1) % 10) (if k % 5 = 4 then starveReads i ++ [(.size, .num 0)] else starveReads i)) →
      BkStep env (starveSt n i) (starveSt n (i + 1)) := by
    intro k hk h
    unfold starveSt
    rw [hk, show (i + 1) % 10 = (k + 1) % 10 by omega, show starveReads (i + 1) = if k % 5 = 4 then starveReads i ++ [(.size, .num 0)] else starveReads i by
      simp only [starveReads]; rw [show i % 5 = k % 5 by omega]]
    exact h
  have hlt := Nat.mod_lt i (show 0 < 10 by decide)
  generalize hk : i % 10 = k at hlt
  refine key k hk ?_
  obtain rfl | rfl | rfl | rfl | rfl | rfl | rfl | rfl | rfl | rfl :
    k = 0 ∨ k = 1 ∨ k = 2 ∨ k = 3 ∨ k = 4 ∨ k = 5 ∨ k = 6 ∨ k = 7 ∨ k = 8 ∨ k = 9 := by omega
  · exact h0
  · exact h1
  · exact h2
  · exact h3
  · exact h4
  · exact h5
  · exact h6
  · exact h7
  · exact h8
  · exact h9

/-- The state at the beginning of the cycle can be reached: one goroutine is in `Add`, another one holds the read lock. -/
theorem starve_reach (n : NodeInfo) (env : Env) : BkReach env 1 (starveSt n 0) := by
  have h : BkReach env 1 _ := .step (.step (.step (.step (.step (.step (.init (s := bk0) (by simp [BkSt.init, bk0]))
      (.addCall _ 0 n rfl)) (.addRLock _ 0 0 n rfl rfl)) (.addTest _ 0 0 n rfl)) (.addRUnlock _ 0 0 n rfl))
      (.rdCall _ 1 .size rfl)) (.rdLock _ 1 .size rfl rfl)
  refine cast (congrArg _ ?_) h
  unfold starveSt starveAt
  simp only [bk0, BkSt.mk.injEq, true_and]
  refine ⟨?_, ?_, rfl⟩
  · funext t
    by_cases ht : t < 3
    · obtain rfl | rfl | rfl : t = 0 ∨ t = 1 ∨ t = 2 := by omega
      all_goals rfl
    · rw [starve_goroutines n _ t (by omega)]
      simp [upd, show t ≠ 1 by omega, show t ≠ 0 by omega, BkPc.isReading]
  · funext t
    by_cases ht : t < 3
    · obtain rfl | rfl | rfl : t = 0 ∨ t = 1 ∨ t = 2 := by omega
      all_goals rfl
    · rw [starve_goroutines n _ t (by omega)]
      simp [upd, show t ≠ 1 by omega, show t ≠ 0 by omega]

/-- An execution with a given past. -/
theorem run_behind {S : Type} {init : S → Prop} {step : S → S → Prop} {s : S} (h : Reach init step s) (f : Nat → S) (h0 : f 0 = s)
    (hf : ∀ i, step (f i) (f (i + 1))) : ∃ e N, Run init step e ∧ ∀ i, e (N + i) = f i := by
  obtain ⟨e, N, r, hN⟩ := run_of_reach h
  refine ⟨fun i => if i ≤ N then e i else f (i - N), N, ⟨?_, fun i => ?_⟩, fun i => ?_⟩
  · show init (if 0 ≤ N then e 0 else _)
    rw [if_pos (Nat.zero_le N)]; exact r.start
  · show (if i + 1 ≤ N then e (i + 1) else f (i + 1 - N)) = (if i ≤ N then e i else f (i - N)) ∨
      step (if i ≤ N then e i else f (i - N)) (if i + 1 ≤ N then e (i + 1) else f (i + 1 - N))
    by_cases h1 : i + 1 ≤ N
    · rw [if_pos h1, if_pos (by omega)]; exact r.next i
    · rw [if_neg h1]
      by_cases h2 : i ≤ N
      · have : i = N := by omega
        subst this
        rw [if_pos h2, hN i (Nat.le_refl i), ← h0, show i + 1 - i = 0 + 1 by omega]
        exact .inr (hf 0)
      · rw [if_neg h2, show i + 1 - N = (i - N) + 1 by omega]; exact .inr (hf _)
  · show (if N + i ≤ N then e (N + i) else f (N + i - N)) = f i
    by_cases hi : i = 0
    · subst hi; rw [if_pos (by omega), hN _ (by omega), h0]
    · rw [if_neg (by omega), show N + i - N = i by omega]

/-- **C96: without the guarantee of `sync.RWMutex` an `Add` can wait for ever** - although every goroutine that can go on is scheduled, and every
goroutine that finds the lock free for itself again and again gets it. -/
theorem C96_writers_can_starve (n : NodeInfo) (env : Env) : ∃ e N, Run (BkSt.init 1) (BkStep env) e ∧
    (∀ g, WeaklyFair e fun s t => BkMoves env g s t ∧ ((bucketLock env 1).mode s g).runs = true) ∧
    (∀ g, StronglyFair e fun s t => BkMoves env g s t ∧ ((bucketLock env 1).mode s g = .needR ∨ (bucketLock env 1).mode s g = .needW)) ∧
    ∀ i, N ≤ i → (e i).pc 0 = .addW0 0 n := by
  obtain ⟨e, N, r, hN⟩ := run_behind (starve_reach n env) (starveSt n) rfl (starve_step n env)
  have hat : ∀ i, N ≤ i → e i = starveSt n (i - N) := by
    intro i hi
    obtain ⟨d, rfl⟩ := Nat.exists_eq_add_of_le hi
    rw [hN, show N + d - N = d by omega]
  have zero : ∀ i, N ≤ i → (e i).pc 0 = .addW0 0 n := by
    intro i hi
    rw [hat i hi]; show starvePc n ((i - N) % 10) 0 = _
    unfold starvePc; rfl
  -- goroutine `g`, one of the readers, goes from position `k` of the cycle to the next, whenever the cycle comes by
  have tick : ∀ (g k : Nat), k < 10 → starvePc n ((k + 1) % 10) g ≠ starvePc n k g → ∀ i,
      ∃ j, i ≤ j ∧ BkMoves env g (e j) (e (j + 1)) ∧ (e j).pc g = starvePc n k g := by
    intro g k hk hne i
    have hm : (10 * i + k) % 10 = k := by omega
    have hp1 : (e (N + (10 * i + k))).pc = starvePc n k := by rw [hN]; show starvePc n _ = _; rw [hm]
    have hp2 : (e (N + (10 * i + k) + 1)).pc = starvePc n ((k + 1) % 10) := by
      rw [show N + (10 * i + k) + 1 = N + (10 * i + k + 1) by omega, hN]
      show starvePc n _ = _; rw [show (10 * i + k + 1) % 10 = (k + 1) % 10 by omega]
    refine ⟨N + (10 * i + k), by omega, ⟨?_, ?_⟩, ?_⟩
    · rw [show N + (10 * i + k) + 1 = N + (10 * i + k + 1) by omega, hN, hN]
      exact starve_step n env _
    · rw [hp1, hp2]; exact hne
    · rw [hp1]
  have g0 : ∀ i t, N ≤ i → ¬ BkMoves env 0 (e i) t := by
    intro i t hi hm
    have h0 := zero i hi
    -- one of the readers holds the lock
    have hrd : ∃ u, (e i).readers u = true := by
      rw [hat i hi]
      have hlt := Nat.mod_lt (i - N) (show 0 < 10 by decide)
      show ∃ u, (starvePc n ((i - N) % 10) u).isReading = true
      generalize (i - N) % 10 = k at hlt
      obtain rfl | rfl | rfl | rfl | rfl | rfl | rfl | rfl | rfl | rfl :
        k = 0 ∨ k = 1 ∨ k = 2 ∨ k = 3 ∨ k = 4 ∨ k = 5 ∨ k = 6 ∨ k = 7 ∨ k = 8 ∨ k = 9 := by omega
      all_goals first | exact ⟨1, rfl⟩ | exact ⟨2, rfl⟩
    obtain ⟨u, hu⟩ := hrd
    have hacq : t.pc 0 ≠ (e i).pc 0 := hm.2
    obtain ⟨hs, -⟩ := hm
    generalize e i = s at hs h0 hu hacq
    cases hs with
    | addLock v c m hp hw hr => rw [hr u] at hu; cases hu
    | addCall v m hp | addRLock v c m hp hw | addTest v c m hp | addRUnlockFull v c m hp | addRUnlock v c m hp | addFull v c m hp
    | addRoom v c m hp | addStore v c m hp | addInc v c m hp | addUnlock v c m r hp | addReturn v c m r hp | rdCall v op hp
    | rdLock v op hp hw | rdEval v op hp | rdUnlock v op r hp | rdReturn v op r hp =>
      obtain ⟨rfl, -⟩ := upd_own rfl hacq
      rw [h0] at hp; cases hp
  have idle : ∀ i g, 3 ≤ g → N ≤ i → (e i).pc g = .idle := by
    intro i g hg hi
    rw [hat i hi]; exact starve_goroutines n _ g hg
  refine ⟨e, N, r, fun g i hi => ?_, fun g i hi => ?_, zero⟩
  · by_cases hg : g < 3
    · obtain rfl | rfl | rfl : g = 0 ∨ g = 1 ∨ g = 2 := by omega
      · obtain ⟨t, ht, -⟩ := hi (max i N) (by omega)
        exact absurd ht (g0 _ t (by omega))
      · obtain ⟨j, h1, h2, h3⟩ := tick 1 2 (by decide) (by simp [starvePc]) i
        exact ⟨j, h1, h2, by show ((e j).pc 1).mode.runs = true; rw [h3]; rfl⟩
      · obtain ⟨j, h1, h2, h3⟩ := tick 2 7 (by decide) (by simp [starvePc]) i
        exact ⟨j, h1, h2, by show ((e j).pc 2).mode.runs = true; rw [h3]; rfl⟩
    · obtain ⟨t, -, ht⟩ := hi (max i N) (by omega)
      have ht : ((e (max i N)).pc g).mode.runs = true := ht
      rw [idle _ g (by omega) (by omega)] at ht; cases ht
  · by_cases hg : g < 3
    · obtain rfl | rfl | rfl : g = 0 ∨ g = 1 ∨ g = 2 := by omega
      · obtain ⟨j, hj, t, ht, -⟩ := hi (max i N) (by omega)
        exact absurd ht (g0 _ t (by omega))
      · obtain ⟨j, h1, h2, h3⟩ := tick 1 6 (by decide) (by simp [starvePc]) i
        exact ⟨j, h1, h2, .inl (by show ((e j).pc 1).mode = .needR; rw [h3]; rfl)⟩
      · obtain ⟨j, h1, h2, h3⟩ := tick 2 1 (by decide) (by simp [starvePc]) i
        exact ⟨j, h1, h2, .inl (by show ((e j).pc 2).mode = .needR; rw [h3]; rfl)⟩
    · obtain ⟨j, hj, t, -, ht⟩ := hi (max i N) (by omega)
      have ht : ((e j).pc g).mode = .needR ∨ ((e j).pc g).mode = .needW := ht
      rw [idle _ g (by omega) (by omega)] at ht; rcases ht with h | h <;> cases h

end P2P

import Verif.Props.BucketConc
/-! # C25: results of rejected `Add`s and of readers, and progress -/
namespace P2P

/-- What a reader has to return if the accepted nodes are `l` (in order) and the capacity is `cap`. -/
def readOf (env : Env) (cap : Nat) (l : List NodeInfo) : BkOp → BkRes
  | .exist n => .bool (l.any (fun m => m.Equals env n))
  | .all => .slice l.length (l.map some)
  | .size => .num l.length
  | .full => .bool (decide (cap ≤ l.length))

/-- the answer is right for some prefix of the accepted nodes -/
def ReadOk (env : Env) (s : BkSt) (op : BkOp) (r : BkRes) : Prop :=
  ∃ l, l <+: s.log.map Prod.snd ∧ r = readOf env s.cap l op

/-- answers that say "full" -/
def BkPc.saysFull : BkPc → Bool
  | .addR2 _ _ true | .addW4 _ _ false | .addRet _ _ false => true
  | _ => false

structure BkInv2 (env : Env) (s : BkSt) : Prop where
  full : ∀ t, (s.pc t).saysFull = true → s.cap ≤ s.size
  adds : ∀ c n, (c, n, false) ∈ s.adds → s.cap ≤ s.size
  q2 : ∀ t op r, s.pc t = .q2 op r → ReadOk env s op r
  q3 : ∀ t op r, s.pc t = .q3 op r → ReadOk env s op r
  done : ∀ op r, (op, r) ∈ s.reads → ReadOk env s op r

theorem ReadOk.mono {env : Env} {s s' : BkSt} {op : BkOp} {r : BkRes} (h : ReadOk env s op r) (hl : s.log <+: s'.log)
    (hc : s'.cap = s.cap) : ReadOk env s' op r := by
  obtain ⟨l, h1, h2⟩ := h
  refine ⟨l, h1.trans ?_, by rw [hc]; exact h2⟩
  obtain ⟨x, hx⟩ := hl
  exact ⟨x.map Prod.snd, by rw [← hx, List.map_append]⟩

theorem eval_readOf {env : Env} {capacity : Nat} {s : BkSt} (h : BkReach env capacity s) (op : BkOp) :
    s.eval env op = readOf env s.cap (s.log.map Prod.snd) op := by
  obtain ⟨-, -, h3, h4, -⟩ := C25_contents h
  cases op with
  | exist n => simp only [BkSt.eval, h4, existScan_ok, readOf, List.any_map]; rfl
  | all => rw [h3] at h4; simp [BkSt.eval, h4, readOf, h3, Function.comp_def]
  | size => simp [BkSt.eval, readOf, h3]
  | full => simp [BkSt.eval, readOf, h3]

theorem bkInv2 {env : Env} {capacity : Nat} {s : BkSt} (h : BkReach env capacity s) : BkInv2 env s := by
  induction h with
  | init h =>
    obtain ⟨h1, h2, h3, h4, h5, h6, h7, h8, h9, h10⟩ := h
    constructor <;> simp_all [BkPc.saysFull]
  | @step s s' hr hst ih =>
    have hmono := C25_never_lost hr hst
    have hcap : s'.cap = s.cap := by cases hst <;> rfl
    have hev := fun op => eval_readOf hr op
    have k1 : ∀ {x : Prop}, (s.cap ≤ s.size) → s'.cap ≤ s'.size := fun hh => by
      rw [hcap]; exact Nat.le_trans hh hmono.1
    have pcs : ∀ u, s'.pc u = s.pc u ∨ (((s'.pc u).saysFull = true → s.cap ≤ s.size) ∧
        (∀ op r, s'.pc u = .q2 op r → ReadOk env s op r) ∧ (∀ op r, s'.pc u = .q3 op r → ReadOk env s op r)) := by
      intro u
      cases hst with
      | addTest t c n hp =>
        by_cases hu : u = t
        · subst hu
          right
          refine ⟨?_, by simp, by simp⟩
          simp only [upd_same]
          by_cases hb : s.size ≥ s.cap
          · intro _; exact hb
          · simp [hb, BkPc.saysFull]
        · left; simp only [upd_ne _ _ hu]
      | addRUnlockFull t c n hp =>
        by_cases hu : u = t
        · subst hu
          exact .inr ⟨fun _ => ih.full u (by rw [hp]; rfl), by simp, by simp⟩
        · left; simp only [upd_ne _ _ hu]
      | addFull t c n hp hf =>
        by_cases hu : u = t
        · subst hu
          exact .inr ⟨fun _ => hf, by simp, by simp⟩
        · left; simp only [upd_ne _ _ hu]
      | addUnlock t c n r hp =>
        by_cases hu : u = t
        · subst hu
          right
          refine ⟨?_, by simp, by simp⟩
          simp only [upd_same]
          cases r with
          | true => simp [BkPc.saysFull]
          | false => intro _; exact ih.full u (by rw [hp]; rfl)
        · left; simp only [upd_ne _ _ hu]
      | rdEval t op hp =>
        by_cases hu : u = t
        · subst hu
          right
          refine ⟨by simp [BkPc.saysFull], ?_, by simp⟩
          intro op' r h
          simp only [upd_same, BkPc.q2.injEq] at h
          obtain ⟨rfl, rfl⟩ := h
          exact ⟨_, List.prefix_rfl, hev op⟩
        · left; simp only [upd_ne _ _ hu]
      | rdUnlock t op r hp =>
        by_cases hu : u = t
        · subst hu
          right
          refine ⟨by simp [BkPc.saysFull], by simp, ?_⟩
          intro op' r' h
          simp only [upd_same, BkPc.q3.injEq] at h
          obtain ⟨rfl, rfl⟩ := h
          exact ih.q2 u _ _ hp
        · left; simp only [upd_ne _ _ hu]
      | addCall t | addRLock t | addRUnlock t | addLock t | addRoom t | addStore t | addInc t | addReturn t | rdCall t
      | rdLock t | rdReturn t =>
        by_cases hu : u = t
        · subst hu; right; simp [BkPc.saysFull]
        · left; simp only [upd_ne _ _ hu]
    refine ⟨?_, ?_, ?_, ?_, ?_⟩
    · intro u hu
      rcases pcs u with e | ⟨e, -, -⟩
      · rw [e] at hu; exact k1 (x := True) (ih.full u hu)
      · exact k1 (x := True) (e hu)
    · intro c n hm
      by_cases hmm : (c, n, false) ∈ s.adds
      · exact k1 (x := True) (ih.adds c n hmm)
      · cases hst with
        | addReturn t c' n' r hp =>
          simp only [List.mem_append, List.mem_singleton, Prod.mk.injEq] at hm
          rcases hm with hm | ⟨rfl, rfl, rfl⟩
          · exact absurd hm hmm
          · exact ih.full t (by rw [hp]; rfl)
        | _ => exact absurd hm hmm
    · intro u op r hu
      rcases pcs u with e | ⟨-, e, -⟩
      · rw [e] at hu; exact (ih.q2 u op r hu).mono hmono.2.2 hcap
      · exact (e op r hu).mono hmono.2.2 hcap
    · intro u op r hu
      rcases pcs u with e | ⟨-, -, e⟩
      · rw [e] at hu; exact (ih.q3 u op r hu).mono hmono.2.2 hcap
      · exact (e op r hu).mono hmono.2.2 hcap
    · intro op r hm
      by_cases hmm : (op, r) ∈ s.reads
      · exact (ih.done op r hmm).mono hmono.2.2 hcap
      · cases hst with
        | rdReturn t op' r' hp =>
          simp only [List.mem_append, List.mem_singleton, Prod.mk.injEq] at hm
          rcases hm with hm | ⟨rfl, rfl⟩
          · exact absurd hm hmm
          · exact ih.q3 t _ _ hp
        | _ => exact absurd hm hmm

/-- C25: a rejected `Add` means that the bucket is full - and stays full. -/
theorem C25_rejected_full {env : Env} {capacity : Nat} {s : BkSt} (h : BkReach env capacity s) {c : Nat} {n : NodeInfo}
    (hm : (c, n, false) ∈ s.adds) : s.log.length = capacity := by
  have h1 := (bkInv2 h).adds c n hm
  have h2 := C25_contents h
  have h3 := (bkReach_inv h).hcap
  omega

/-- C25: every completed `Exist`, `All`, `Size` or `Full` answered exactly what it had to answer for the nodes accepted up
to some moment. -/
theorem C25_reads_linear {env : Env} {capacity : Nat} {s : BkSt} (h : BkReach env capacity s) {op : BkOp} {r : BkRes}
    (hm : (op, r) ∈ s.reads) : ∃ l, l <+: s.log.map Prod.snd ∧ r = readOf env capacity l op := by
  have := (bkInv2 h).done op r hm
  rw [ReadOk, (bkReach_inv h).hcap] at this
  exact this

/-- C25: no deadlock: whenever a goroutine is within a call, some goroutine within a call can take its next step. -/
theorem C25_progress {env : Env} {capacity : Nat} {s : BkSt} (h : BkReach env capacity s) {t : Nat} (ht : s.pc t ≠ .idle) :
    ∃ u s', s.pc u ≠ .idle ∧ BkStep env s s' ∧ s'.pc u ≠ s.pc u := by
  have hi := bkReach_inv h
  -- whoever holds the lock can step
  have hw : ∀ u, (s.pc u).isWriting = true → ∃ u s', s.pc u ≠ .idle ∧ BkStep env s s' ∧ s'.pc u ≠ s.pc u := by
    intro u hu
    cases hp : s.pc u with
    | addW1 c n =>
      by_cases hf : s.size ≥ s.cap
      · exact ⟨u, _, by simp [hp], .addFull s u c n hp hf, by simp [hp]⟩
      · exact ⟨u, _, by simp [hp], .addRoom s u c n hp hf, by simp [hp]⟩
    | addW2 c n => exact ⟨u, _, by simp [hp], .addStore s u c n hp, by simp [hp]⟩
    | addW3 c n => exact ⟨u, _, by simp [hp], .addInc s u c n hp, by simp [hp]⟩
    | addW4 c n r => exact ⟨u, _, by simp [hp], .addUnlock s u c n r hp, by simp [hp]⟩
    | _ => rw [hp] at hu; simp [BkPc.isWriting] at hu
  have hr : ∀ u, (s.pc u).isReading = true → ∃ u s', s.pc u ≠ .idle ∧ BkStep env s s' ∧ s'.pc u ≠ s.pc u := by
    intro u hu
    cases hp : s.pc u with
    | addR1 c n => exact ⟨u, _, by simp [hp], .addTest s u c n hp, by simp [hp]⟩
    | addR2 c n f =>
      cases f with
      | true => exact ⟨u, _, by simp [hp], .addRUnlockFull s u c n hp, by simp [hp]⟩
      | false => exact ⟨u, _, by simp [hp], .addRUnlock s u c n hp, by simp [hp]⟩
    | q1 op => exact ⟨u, _, by simp [hp], .rdEval s u op hp, by simp [hp]⟩
    | q2 op r => exact ⟨u, _, by simp [hp], .rdUnlock s u op r hp, by simp [hp]⟩
    | _ => rw [hp] at hu; simp [BkPc.isReading] at hu
  cases hwr : s.writer with
  | some u => exact hw u ((hi.wr u).1 hwr)
  | none =>
    cases hp : s.pc t with
    | idle => exact absurd hp ht
    | addR0 c n => exact ⟨t, _, ht, .addRLock s t c n hp hwr, by simp [hp]⟩
    | q0 op => exact ⟨t, _, ht, .rdLock s t op hp hwr, by simp [hp]⟩
    | addRet c n r => exact ⟨t, _, ht, .addReturn s t c n r hp, by simp [hp]⟩
    | q3 op r => exact ⟨t, _, ht, .rdReturn s t op r hp, by simp [hp]⟩
    | addW0 c n =>
      by_cases hrd : ∀ u, s.readers u = false
      · exact ⟨t, _, ht, .addLock s t c n hp hwr hrd, by simp [hp]⟩
      · simp only [Classical.not_forall, Bool.not_eq_false] at hrd
        obtain ⟨u, hu⟩ := hrd
        exact hr u (by rw [← hi.rd u]; exact hu)
    | addR1 c n | addR2 c n f | q1 op | q2 op r => exact hr t (by rw [hp]; rfl)
    | addW1 c n | addW2 c n | addW3 c n | addW4 c n r =>
      exact hw t (by rw [hp]; rfl)

/-- some goroutine waits for the write lock (line 52) -/
def BkSt.WriterWaits (s : BkSt) : Prop := ∃ v c n, s.pc v = .addW0 c n

/-- C25: no deadlock with Go's `RWMutex` either, where a waiting writer keeps new readers out: whenever a goroutine is within a
call, some goroutine can take a step that does not acquire the read lock while a writer waits. -/
theorem C25_progress_writers_first {env : Env} {capacity : Nat} {s : BkSt} (h : BkReach env capacity s) {t : Nat} (ht : s.pc t ≠ .idle) :
    ∃ u s', s.pc u ≠ .idle ∧ BkStep env s s' ∧ s'.pc u ≠ s.pc u ∧ (s.WriterWaits → ∀ v, s'.readers v = true → s.readers v = true) := by
  have hi := bkReach_inv h
  by_cases hww : s.WriterWaits
  case neg =>
    obtain ⟨u, s', h1, h2, h3⟩ := C25_progress h ht
    exact ⟨u, s', h1, h2, h3, fun hw => absurd hw hww⟩
  obtain ⟨v, c, n, hv⟩ := hww
  have hoff : ∀ u w, upd s.readers u false w = true → s.readers w = true := by
    intro u w hw
    by_cases e : w = u
    · subst e; simp at hw
    · rwa [upd_ne _ _ e] at hw
  cases hwr : s.writer with
  | some u =>
    have hu := (hi.wr u).1 hwr
    cases hp : s.pc u with
    | addW1 c n =>
      by_cases hf : s.size ≥ s.cap
      · exact ⟨u, _, by simp [hp], .addFull s u c n hp hf, by simp [hp], fun _ _ h => h⟩
      · exact ⟨u, _, by simp [hp], .addRoom s u c n hp hf, by simp [hp], fun _ _ h => h⟩
    | addW2 c n => exact ⟨u, _, by simp [hp], .addStore s u c n hp, by simp [hp], fun _ _ h => h⟩
    | addW3 c n => exact ⟨u, _, by simp [hp], .addInc s u c n hp, by simp [hp], fun _ _ h => h⟩
    | addW4 c n r => exact ⟨u, _, by simp [hp], .addUnlock s u c n r hp, by simp [hp], fun _ _ h => h⟩
    | _ => rw [hp] at hu; simp [BkPc.isWriting] at hu
  | none =>
    by_cases hrd : ∀ u, s.readers u = false
    · exact ⟨v, _, by simp [hv], .addLock s v c n hv hwr hrd, by simp [hv], fun _ _ h => h⟩
    · simp only [Classical.not_forall, Bool.not_eq_false] at hrd
      obtain ⟨u, hu⟩ := hrd
      have hu : (s.pc u).isReading = true := by rw [← hi.rd u]; exact hu
      cases hp : s.pc u with
      | addR1 c n => exact ⟨u, _, by simp [hp], .addTest s u c n hp, by simp [hp], fun _ _ h => h⟩
      | addR2 c n f =>
        cases f with
        | true => exact ⟨u, _, by simp [hp], .addRUnlockFull s u c n hp, by simp [hp], fun _ => hoff u⟩
        | false => exact ⟨u, _, by simp [hp], .addRUnlock s u c n hp, by simp [hp], fun _ => hoff u⟩
      | q1 op => exact ⟨u, _, by simp [hp], .rdEval s u op hp, by simp [hp], fun _ _ h => h⟩
      | q2 op r => exact ⟨u, _, by simp [hp], .rdUnlock s u op r hp, by simp [hp], fun _ => hoff u⟩
      | _ => rw [hp] at hu; simp [BkPc.isReading] at hu

/-- own steps left until the call returns -/
def BkPc.left : BkPc → Nat
  | .idle => 0
  | .addRet .. | .q3 .. => 1
  | .addW4 .. | .q2 .. => 2
  | .addW3 .. | .q1 .. => 3
  | .addW2 .. | .q0 .. => 4
  | .addW1 .. => 5
  | .addW0 .. => 6
  | .addR2 .. => 7
  | .addR1 .. => 8
  | .addR0 .. => 9

/-- C25: every call returns after at most ten of its own steps: each step of a goroutine within a call brings it nearer to
the end of the call, and no step of another goroutine moves it. -/
theorem C25_calls_end {env : Env} {s s' : BkSt} (hst : BkStep env s s') (t : Nat) :
    s'.pc t = s.pc t ∨ (s.pc t = .idle ∧ (s'.pc t).left ≤ 9) ∨ (s'.pc t).left < (s.pc t).left := by
  have key : ∀ (u : Nat) (p : BkPc), s'.pc = upd s.pc u p →
      ((s.pc u = .idle ∧ p.left ≤ 9) ∨ p.left < (s.pc u).left) →
      s'.pc t = s.pc t ∨ (s.pc t = .idle ∧ (s'.pc t).left ≤ 9) ∨ (s'.pc t).left < (s.pc t).left := by
    intro u p e h
    by_cases ht : t = u
    · subst ht; right; rw [e]; simpa using h
    · left; rw [e, upd_ne _ _ ht]
  cases hst with
  | addCall u n hp => exact key u _ rfl (.inl ⟨hp, by simp [BkPc.left]⟩)
  | rdCall u op hp => exact key u _ rfl (.inl ⟨hp, by simp [BkPc.left]⟩)
  | addRLock u c n hp | addTest u c n hp | addRUnlockFull u c n hp | addRUnlock u c n hp | addLock u c n hp
  | addFull u c n hp | addRoom u c n hp | addStore u c n hp | addInc u c n hp | addUnlock u c n r hp
  | addReturn u c n r hp | rdLock u op hp | rdEval u op hp | rdUnlock u op r hp | rdReturn u op r hp =>
    exact key u _ rfl (.inr (by rw [hp]; simp [BkPc.left]))

/-- a run in which an `Add` is rejected and `Full` then answers true -/
example : ∃ s, BkReach { fold := fun _ _ => false, ip6 := id } 0 s ∧ (∃ n, (0, n, false) ∈ s.adds) ∧
    (BkOp.full, BkRes.bool true) ∈ s.reads := by
  refine ⟨_, .step (.step (.step (.step (.step (.step (.step (.step (.step (.step
    (.init (s := { bk0 with cap := 0, slots := [] }) (by simp [BkSt.init, bk0]))
      (.addCall _ 0 ⟨[1], ⟨[10, 0, 0, 1], 1, []⟩⟩ rfl)) (.addRLock _ 0 0 _ rfl rfl)) (.addTest _ 0 0 _ rfl))
      (.addRUnlockFull _ 0 0 ⟨[1], ⟨[10, 0, 0, 1], 1, []⟩⟩ rfl)) (.addReturn _ 0 0 _ _ rfl))
      (.rdCall _ 1 .full rfl)) (.rdLock _ 1 .full rfl rfl)) (.rdEval _ 1 .full rfl)) (.rdUnlock _ 1 .full _ rfl))
      (.rdReturn _ 1 .full _ rfl), ⟨⟨[1], ⟨[10, 0, 0, 1], 1, []⟩⟩, ?_⟩, ?_⟩
  · simp [bk0]
  · simp [bk0, BkSt.eval]

end P2P

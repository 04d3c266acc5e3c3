import Verif.Model.Shutdown
/-! # C51: the shutdown context -/
namespace P2P

abbrev SdReach (n : Nat) : SdSt → Prop := Reach (SdInit n) (SdStep n)
abbrev SdFrom (n : Nat) (s : SdSt) : SdSt → Prop := Reach (fun x => x = s) (SdStep n)

/-- the function has been called -/
def CleanPc.called : CleanPc → Bool
  | .running | .returned | .done => true
  | _ => false
/-- the function has returned -/
def CleanPc.ended : CleanPc → Bool
  | .returned | .done => true
  | _ => false
def CleanPc.notDone : CleanPc → Bool
  | .done => false
  | _ => true

structure CallInv (n : Nat) (x : SdCall) : Prop where
  len : x.cleans.length = n
  early : x.pc = .blocked ∨ x.pc = .store ∨ x.pc = .start → x.runner = .notYet
  none : x.runner = .notYet ∨ x.runner = .add → x.spawned = 0
  later : ∀ k, x.spawned ≤ k → k < n → x.cleans[k]? = some .no
  sooner : ∀ k, k < x.spawned → x.cleans[k]? ≠ some .no
  bound : x.spawned ≤ n
  wg : x.runner ≠ .notYet ∧ x.runner ≠ .add → x.wg = x.cleans.countP CleanPc.notDone
  all : x.runner = .waiting ∨ x.runner = .sending ∨ x.runner = .done → x.spawned = n
  zero : x.runner = .sending ∨ x.runner = .done → x.wg = 0
  sync : x.pc = .final false ∨ x.pc = .returned false ↔ x.runner = .done
  calledN : x.called.Nodup
  calledM : ∀ k, k ∈ x.called ↔ ∃ p, x.cleans[k]? = some p ∧ p.called = true
  endedN : x.ended.Nodup
  endedM : ∀ k, k ∈ x.ended ↔ ∃ p, x.cleans[k]? = some p ∧ p.ended = true

theorem countP_set {l : List CleanPc} {k : Nat} {old new : CleanPc} (h : l[k]? = some old) :
    (l.set k new).countP CleanPc.notDone + (if old.notDone then 1 else 0) =
      l.countP CleanPc.notDone + (if new.notDone then 1 else 0) := by
  induction l generalizing k with
  | nil => simp at h
  | cons a r ih =>
    cases k with
    | zero => simp at h; subst h; simp [List.countP_cons]; omega
    | succ k => simp at h; have := ih h; simp [List.countP_cons]; omega

structure SdInv (n : Nat) (s : SdSt) : Prop where
  call : ∀ c, CallInv n (s.calls c)
  trig : ∀ c, (s.calls c).pc ≠ .blocked → s.cancelled = true ∨ s.signalled = true
  sig : s.sig = true → s.signalled = true
  run : s.status = .running → ∀ c, (s.calls c).pc = .blocked ∨ (s.calls c).pc = .store

/-- a step of clean-up goroutine `k` from `old` to `new` -/
theorem CallInv.cleanStep {n : Nat} {x : SdCall} (I : CallInv n x) {k : Nat} {old new : CleanPc} (h : x.cleans[k]? = some old)
    (ho : old ≠ .no) (ho' : old ≠ .done) (hn : new ≠ .no) (wg' : Nat) (called' ended' : List Nat)
    (hwg : wg' + (if old.notDone then 1 else 0) = x.wg + (if new.notDone then 1 else 0))
    (hc : called' = x.called ∧ new.called = old.called ∨ called' = x.called ++ [k] ∧ old.called = false ∧ new.called = true)
    (he : ended' = x.ended ∧ new.ended = old.ended ∨ ended' = x.ended ++ [k] ∧ old.ended = false ∧ new.ended = true) :
    CallInv n { x with cleans := x.cleans.set k new, wg := wg', called := called', ended := ended' } := by
  have hlt : k < x.cleans.length := (List.getElem?_eq_some_iff.1 h).1
  have hks : k < x.spawned := by
    rcases Nat.lt_or_ge k x.spawned with h' | h'
    · exact h'
    · have := I.later k h' (by rw [← I.len]; exact hlt)
      rw [h] at this; injection this with this; exact absurd this ho
  have hrun : x.runner ≠ .notYet ∧ x.runner ≠ .add := by
    constructor
    · intro e; have := I.none (.inl e); omega
    · intro e; have := I.none (.inr e); omega
  have hcount := countP_set (new := new) h
  have hw := I.wg hrun
  have mem : ∀ (P : CleanPc → Bool) (l l' : List Nat), (∀ j, j ∈ l ↔ ∃ p, x.cleans[j]? = some p ∧ P p = true) →
      (l' = l ∧ P new = P old ∨ l' = l ++ [k] ∧ P old = false ∧ P new = true) →
      ∀ j, j ∈ l' ↔ ∃ p, (x.cleans.set k new)[j]? = some p ∧ P p = true := by
    intro P l l' hl hl' j
    by_cases hj : j = k
    · subst hj
      rw [List.getElem?_set_self hlt]
      rcases hl' with ⟨rfl, e⟩ | ⟨rfl, e1, e2⟩
      · rw [hl j]; simp [h, e]
      · simp [e2]
    · rw [List.getElem?_set_ne (Ne.symm hj)]
      rcases hl' with ⟨rfl, e⟩ | ⟨rfl, e1, e2⟩
      · exact hl j
      · rw [List.mem_append, hl j]; simp [hj]
  have nod : ∀ (P : CleanPc → Bool) (l l' : List Nat), (∀ j, j ∈ l ↔ ∃ p, x.cleans[j]? = some p ∧ P p = true) → l.Nodup →
      (l' = l ∧ P new = P old ∨ l' = l ++ [k] ∧ P old = false ∧ P new = true) → l'.Nodup := by
    intro P l l' hl hnd hl'
    rcases hl' with ⟨rfl, e⟩ | ⟨rfl, e1, e2⟩
    · exact hnd
    · rw [List.nodup_append]
      refine ⟨hnd, by simp, ?_⟩
      intro a ha b hb; simp at hb; subst hb; rintro rfl
      obtain ⟨p, h1, h2⟩ := (hl a).1 ha
      rw [h] at h1; injection h1 with h1; subst h1; rw [e1] at h2; cases h2
  exact {
    len := by simpa using I.len
    early := I.early
    none := I.none
    later := by
      intro j h1 h2
      have hj : k ≠ j := by intro e; subst e; exact absurd hks (by simpa using h1)
      show (x.cleans.set k new)[j]? = _
      rw [List.getElem?_set_ne hj]; exact I.later j h1 h2
    sooner := by
      intro j h1
      show (x.cleans.set k new)[j]? ≠ _
      by_cases hj : k = j
      · subst hj; rw [List.getElem?_set_self hlt]; simpa using hn
      · rw [List.getElem?_set_ne hj]; exact I.sooner j h1
    bound := I.bound
    wg := by intro _; show wg' = (x.cleans.set k new).countP CleanPc.notDone; omega
    all := I.all
    zero := by
      intro h'
      have h0 := I.zero h'
      -- all functions are done already
      exfalso
      rw [hw] at h0
      rw [List.countP_eq_zero] at h0
      have := h0 old (List.mem_of_getElem? h)
      -- a done function does not step
      cases old <;> simp [CleanPc.notDone] at this
      exact ho' rfl
    sync := I.sync
    calledN := nod _ _ _ I.calledM I.calledN hc
    calledM := mem _ _ _ I.calledM hc
    endedN := nod _ _ _ I.endedM I.endedN he
    endedM := mem _ _ _ I.endedM he }

theorem sd_inv {n : Nat} {s : SdSt} (h : SdReach n s) : SdInv n s := by
  refine h.inv (SdInv n) ?_ ?_
  · rintro s ⟨h1, h2, h3, h4, h5⟩
    refine ⟨?_, ?_, ?_, ?_⟩
    · intro c
      rw [h5]
      constructor <;> simp
      · intro k hk; rw [List.getElem?_replicate, if_pos hk]
      · intro k p hp; rw [List.getElem?_replicate] at hp; split at hp <;> simp at hp; subst hp; rfl
      · intro k p hp; rw [List.getElem?_replicate] at hp; split at hp <;> simp at hp; subst hp; rfl
    · intro c hc; rw [h5] at hc; simp at hc
    · intro h; rw [h2] at h; cases h
    · intro _ c; rw [h5]; exact .inl rfl
  · intro s t I st
    -- a step that replaces call `c` and keeps the rest
    have setc : ∀ (s' : SdSt) (c : Nat) (x : SdCall), s'.calls = s.calls → CallInv n x →
        (x.pc ≠ .blocked → s'.cancelled = true ∨ s'.signalled = true) → (s.cancelled = true → s'.cancelled = true) →
        (s.signalled = true → s'.signalled = true) → (s'.sig = true → s'.signalled = true) →
        (s'.status = .running → s.status = .running ∧ (x.pc = .blocked ∨ x.pc = .store)) → SdInv n (s'.setCall c x) := by
      intro s' c x e hx ht hcan hsig hsg hrun
      refine ⟨?_, ?_, hsg, ?_⟩
      · intro d
        show CallInv n (upd s'.calls c x d)
        rw [e]
        by_cases hd : d = c
        · subst hd; rw [upd_same]; exact hx
        · rw [upd_ne _ _ hd]; exact I.call d
      · intro d
        show (upd s'.calls c x d).pc ≠ .blocked → _
        rw [e]
        by_cases hd : d = c
        · subst hd; rw [upd_same]; exact ht
        · rw [upd_ne _ _ hd]; intro h; exact (I.trig d h).imp hcan hsig
      · intro hr d
        show (upd s'.calls c x d).pc = .blocked ∨ _
        show _ ∨ (upd s'.calls c x d).pc = .store
        rw [e]
        by_cases hd : d = c
        · subst hd; rw [upd_same]; exact (hrun hr).2
        · rw [upd_ne _ _ hd]; exact I.run (hrun hr).1 d
    -- a step of call `c` after its wake-up
    have setc' : ∀ (c : Nat) (x : SdCall), CallInv n x → (s.calls c).pc ≠ .blocked → x.pc = (s.calls c).pc ∨ (s.calls c).pc ≠ .store →
        SdInv n (s.setCall c x) := by
      intro c x hx hb hpc
      refine setc s c x rfl hx (fun _ => I.trig c hb) id id I.sig ?_
      intro hr
      refine ⟨hr, ?_⟩
      rcases I.run hr c with h | h
      · exact absurd h hb
      · rcases hpc with e | e
        · right; rw [e]; exact h
        · exact absurd h e
    have runner_awake : ∀ c, (s.calls c).runner ≠ .notYet → (s.calls c).pc ≠ .blocked ∧ (s.calls c).pc ≠ .store := by
      intro c hr
      constructor
      · intro e; exact hr ((I.call c).early (.inl e))
      · intro e; exact hr ((I.call c).early (.inr (.inl e)))
    have clean_awake : ∀ (c k : Nat) (p : CleanPc), (s.calls c).cleans[k]? = some p → p ≠ .no → (s.calls c).runner ≠ .notYet := by
      intro c k p hp hno e
      have h0 := (I.call c).none (.inl e)
      have hlt := (List.getElem?_eq_some_iff.1 hp).1
      rw [(I.call c).len] at hlt
      have := (I.call c).later k (by omega) hlt
      rw [hp] at this; injection this with this; exact hno this
    cases st with
    | signal hd => exact ⟨I.call, fun c h => .inr rfl, fun _ => rfl, I.run⟩
    | cancel hd => exact ⟨I.call, fun c h => .inl rfl, I.sig, I.run⟩
    | wakeCancel c hd hpc hcan =>
      have C := I.call c
      have hr := C.early (.inl hpc)
      refine setc s c _ rfl ?_ (fun _ => .inl hcan) id id I.sig (fun h => ⟨h, .inr rfl⟩)
      exact { C with early := fun _ => hr, sync := by simp [hr] }
    | wakeSignal c hd hpc hsig =>
      have C := I.call c
      have hr := C.early (.inl hpc)
      refine setc { s with sig := false } c _ rfl ?_ (fun _ => .inr (I.sig hsig)) id id (by intro h; cases h) (fun h => ⟨h, .inr rfl⟩)
      exact { C with early := fun _ => hr, sync := by simp [hr] }
    | storeShutdowning c hd hpc =>
      have C := I.call c
      have hr := C.early (.inr (.inl hpc))
      refine setc { s with status := .shutdowning } c _ rfl ?_ (fun _ => I.trig c (by rw [hpc]; simp)) id id I.sig (by intro h; cases h)
      exact { C with early := fun _ => hr, sync := by simp [hr] }
    | runCleans c hd hpc =>
      have C := I.call c
      have hr := C.early (.inr (.inr hpc))
      refine setc' c _ ?_ (by rw [hpc]; simp) (.inr (by rw [hpc]; simp))
      have h0 := C.none (.inl hr)
      exact { C with early := by simp, none := fun _ => h0, wg := by simp, all := by simp, zero := by simp, sync := by simp }
    | add c hd hr =>
      have C := I.call c
      have ha := runner_awake c (by rw [hr]; simp)
      refine setc' c _ ?_ ha.1 (.inl rfl)
      have h0 := C.none (.inr hr)
      have hcount : n = (s.calls c).cleans.countP CleanPc.notDone := by
        rw [← C.len]
        symm
        rw [List.countP_eq_length]
        intro p hp
        obtain ⟨k, hk⟩ := List.getElem?_of_mem hp
        have hlt := (List.getElem?_eq_some_iff.1 hk).1
        have := C.later k (by omega) (by rw [← C.len]; exact hlt)
        rw [hk] at this; injection this with this; subst this; rfl
      have hs := C.sync
      rw [hr] at hs
      exact { C with early := fun h => absurd (C.early h) (by rw [hr]; simp), none := by simp, wg := fun _ => hcount, all := by simp,
                     zero := by simp, sync := by simpa using hs }
    | spawn c hd hr hlt =>
      have C := I.call c
      have ha := runner_awake c (by rw [hr]; simp)
      refine setc' c _ ?_ ha.1 (.inl rfl)
      have hno := C.later _ (Nat.le_refl _) hlt
      have hcl : (s.calls c).spawned < (s.calls c).cleans.length := by rw [C.len]; exact hlt
      have hcount := countP_set (new := CleanPc.ready) hno
      have hw := C.wg (by rw [hr]; simp)
      have mem : ∀ (P : CleanPc → Bool), P CleanPc.no = false → P CleanPc.ready = false → ∀ l : List Nat,
          (∀ j, j ∈ l ↔ ∃ p, (s.calls c).cleans[j]? = some p ∧ P p = true) →
          ∀ j, j ∈ l ↔ ∃ p, ((s.calls c).cleans.set (s.calls c).spawned .ready)[j]? = some p ∧ P p = true := by
        intro P e1 e2 l hl j
        by_cases hj : j = (s.calls c).spawned
        · subst hj; rw [List.getElem?_set_self hcl, hl]; simp [hno, e1, e2]
        · rw [List.getElem?_set_ne (Ne.symm hj)]; exact hl j
      exact {
        len := by simpa using C.len
        early := fun h => absurd (C.early h) (by rw [hr]; simp)
        none := by intro h; rw [hr] at h; simp at h
        later := by
          intro k h1 h2
          rw [List.getElem?_set_ne (by simp at h1; omega)]
          exact C.later k (by simp at h1; omega) h2
        sooner := by
          intro k h1
          by_cases hk : (s.calls c).spawned = k
          · subst hk; rw [List.getElem?_set_self hcl]; simp
          · rw [List.getElem?_set_ne hk]; exact C.sooner k (by simp at h1; omega)
        bound := hlt
        wg := by
          intro _
          show (s.calls c).wg = ((s.calls c).cleans.set (s.calls c).spawned CleanPc.ready).countP CleanPc.notDone
          simp [CleanPc.notDone] at hcount
          omega
        all := by intro h; rw [hr] at h; simp at h
        zero := by intro h; rw [hr] at h; simp at h
        sync := C.sync
        calledN := C.calledN
        calledM := mem _ rfl rfl _ C.calledM
        endedN := C.endedN
        endedM := mem _ rfl rfl _ C.endedM }
    | spawnEnd c hd hr he =>
      have C := I.call c
      have ha := runner_awake c (by rw [hr]; simp)
      refine setc' c _ ?_ ha.1 (.inl rfl)
      have hs := C.sync
      have hw := C.wg (by rw [hr]; simp)
      rw [hr] at hs
      exact { C with early := fun h => absurd (C.early h) (by rw [hr]; simp), none := by simp, wg := fun _ => hw, all := fun _ => he,
                     zero := by simp, sync := by simpa using hs }
    | cleanStart c k hd hk =>
      have ha := runner_awake c (clean_awake c k _ hk (by simp))
      exact setc' c _ ((I.call c).cleanStep hk (by simp) (by simp) (by simp) _ _ _ rfl (.inr ⟨rfl, rfl, rfl⟩) (.inl ⟨rfl, rfl⟩)) ha.1 (.inl rfl)
    | cleanReturn c k hd hk =>
      have ha := runner_awake c (clean_awake c k _ hk (by simp))
      exact setc' c _ ((I.call c).cleanStep hk (by simp) (by simp) (by simp) _ _ _ rfl (.inl ⟨rfl, rfl⟩) (.inr ⟨rfl, rfl, rfl⟩)) ha.1 (.inl rfl)
    | cleanPanics c k hd hk => exact ⟨I.call, I.trig, I.sig, I.run⟩
    | cleanDone c k hd hk =>
      have hca := clean_awake c k _ hk (by simp)
      have ha := runner_awake c hca
      refine setc' c _ ((I.call c).cleanStep hk (by simp) (by simp) (by simp) _ _ _ ?_ (.inl ⟨rfl, rfl⟩) (.inl ⟨rfl, rfl⟩)) ha.1 (.inl rfl)
      simp only [CleanPc.notDone, if_true]
      have hw := (I.call c).wg ⟨hca, fun e => by
        have h0 := (I.call c).none (.inr e)
        have hlt := (List.getElem?_eq_some_iff.1 hk).1
        rw [(I.call c).len] at hlt
        have := (I.call c).later k (by omega) hlt
        rw [hk] at this; cases this⟩
      have : 0 < (s.calls c).cleans.countP CleanPc.notDone := by
        rw [List.countP_pos_iff]; exact ⟨_, List.mem_of_getElem? hk, rfl⟩
      simp
      omega
    | wgWait c hd hr hwg =>
      have C := I.call c
      have ha := runner_awake c (by rw [hr]; simp)
      refine setc' c _ ?_ ha.1 (.inl rfl)
      have hs := C.sync
      have hw := C.wg (by rw [hr]; simp)
      have hall := C.all (.inl hr)
      rw [hr] at hs
      exact { C with early := fun h => absurd (C.early h) (by rw [hr]; simp), none := by simp, wg := fun _ => hw, all := fun _ => hall,
                     zero := fun _ => hwg, sync := by simpa using hs }
    | finished c hd hr hpc =>
      have C := I.call c
      refine setc' c _ ?_ (by rw [hpc]; simp) (.inr (by rw [hpc]; simp))
      have hw := C.wg (by rw [hr]; simp)
      exact { C with early := by simp, none := by simp, wg := fun _ => hw, all := fun _ => C.all (.inr (.inl hr)),
                     zero := fun _ => C.zero (.inl hr), sync := by simp }
    | timeout c hd hpc =>
      have C := I.call c
      refine setc' c _ ?_ (by rw [hpc]; simp) (.inr (by rw [hpc]; simp))
      have hs := C.sync
      rw [hpc] at hs
      exact { C with early := by simp, sync := by simpa using hs }
    | final c b hd hpc =>
      have C := I.call c
      refine setc { s with status := .shutdowned } c _ rfl ?_ (fun _ => I.trig c (by rw [hpc]; simp)) id id I.sig (by intro h; cases h)
      have hs := C.sync
      rw [hpc] at hs
      exact { C with early := by simp, sync := by simpa using hs }

/-! ## C51 -/

/-- **Clean-ups run at most once per `WaitShutdown` call, and only after a signal or cancellation**; a function that has
returned had been called; while one is called the status is not `Running`. -/
theorem C51_at_most_once {n : Nat} {s : SdSt} (h : SdReach n s) (c : Nat) :
    (s.calls c).called.Nodup ∧ (∀ k ∈ (s.calls c).called, k < n) ∧ (∀ k ∈ (s.calls c).ended, k ∈ (s.calls c).called) ∧
    ((s.calls c).called ≠ [] → (s.cancelled = true ∨ s.signalled = true) ∧ s.status ≠ .running) := by
  have I := sd_inv h
  have C := I.call c
  have hk : ∀ k ∈ (s.calls c).called, k < n := by
    intro k hk
    obtain ⟨p, h1, -⟩ := (C.calledM k).1 hk
    rw [← C.len]; exact (List.getElem?_eq_some_iff.1 h1).1
  refine ⟨C.calledN, hk, ?_, ?_⟩
  · intro k hk
    obtain ⟨p, h1, h2⟩ := (C.endedM k).1 hk
    refine (C.calledM k).2 ⟨p, h1, ?_⟩
    cases p <;> simp [CleanPc.ended, CleanPc.called] at h2 ⊢
  · intro hne
    obtain ⟨k, hkm⟩ := List.exists_mem_of_ne_nil _ hne
    obtain ⟨p, h1, h2⟩ := (C.calledM k).1 hkm
    have hr : (s.calls c).runner ≠ .notYet := by
      intro e
      have h0 := C.none (.inl e)
      have := C.later k (by omega) (hk k hkm)
      rw [h1] at this; injection this with this; subst this; simp [CleanPc.called] at h2
    refine ⟨I.trig c (fun e => hr (C.early (.inl e))), ?_⟩
    intro hrun
    rcases I.run hrun c with e | e
    · exact hr (C.early (.inl e))
    · exact hr (C.early (.inr (.inl e)))

/-- **A call that returns without timeout has run every clean-up exactly once, and all have returned.** -/
theorem C51_all_done {n : Nat} {s : SdSt} (h : SdReach n s) (c : Nat) (hc : (s.calls c).pc = .returned false) :
    (s.calls c).called.Perm (List.range n) ∧ (s.calls c).ended.Perm (List.range n) := by
  have C := (sd_inv h).call c
  have hr := C.sync.1 (.inr hc)
  have h0 := C.zero (.inr hr)
  rw [C.wg (by rw [hr]; simp), List.countP_eq_zero] at h0
  have hdone : ∀ k, k < n → (s.calls c).cleans[k]? = some .done := by
    intro k hk
    have hlt : k < (s.calls c).cleans.length := by rw [C.len]; exact hk
    rw [List.getElem?_eq_getElem hlt]
    have := h0 _ (List.getElem_mem hlt)
    cases hp : (s.calls c).cleans[k] <;> rw [hp] at this <;> simp [CleanPc.notDone] at this
  have perm : ∀ (P : CleanPc → Bool) (l : List Nat), P .done = true → l.Nodup →
      (∀ k, k ∈ l ↔ ∃ p, (s.calls c).cleans[k]? = some p ∧ P p = true) → l.Perm (List.range n) := by
    intro P l hP hnd hl
    rw [List.perm_ext_iff_of_nodup hnd List.nodup_range]
    intro k
    rw [hl k, List.mem_range]
    constructor
    · rintro ⟨p, h1, -⟩; rw [← C.len]; exact (List.getElem?_eq_some_iff.1 h1).1
    · intro hk; exact ⟨_, hdone k hk, hP⟩
  exact ⟨perm _ _ rfl C.calledN C.calledM, perm _ _ rfl C.endedN C.endedM⟩

/-- **With a single call the status is `Shutdowned` when it returns.** -/
theorem C51_status {n : Nat} {s : SdSt} (h : SdReach n s) (c : Nat) (b : Bool) (hc : (s.calls c).pc = .returned b)
    (hone : ∀ d, d ≠ c → (s.calls d).pc = .blocked) : s.status = .shutdowned := by
  have key := h.inv (fun s => ∀ c b, (s.calls c).pc = .returned b → (∀ d, d ≠ c → (s.calls d).pc = .blocked) → s.status = .shutdowned) ?_ ?_
  · exact key c b hc hone
  · rintro s ⟨h1, h2, h3, h4, h5⟩ c b hc _; rw [h5] at hc; cases hc
  · intro s t I st c b hc hone
    have set : ∀ (s' : SdSt) (e : Nat) (x : SdCall), s'.calls = s.calls → s'.status = s.status → t = s'.setCall e x →
        (x.pc = .blocked → (s.calls e).pc = .blocked) → (∀ b, x.pc = .returned b → (s.calls e).pc = .returned b) →
        (x.pc ≠ .blocked ∨ x.pc = (s.calls e).pc) → t.status = .shutdowned := by
      intro s' e x h1 h2 ht hbl hret hnb
      subst ht
      show s'.status = _
      rw [h2]
      have hcall : ∀ d, ((s'.setCall e x).calls d) = if d = e then x else s.calls d := by
        intro d; show upd s'.calls e x d = _; rw [h1]; rfl
      refine I c b ?_ ?_
      · rw [hcall] at hc
        by_cases hce : c = e
        · subst hce; rw [if_pos rfl] at hc; exact hret b hc
        · rw [if_neg hce] at hc; exact hc
      · intro d hd
        have := hone d hd
        rw [hcall] at this
        by_cases hde : d = e
        · subst hde; rw [if_pos rfl] at this; exact hbl this
        · rw [if_neg hde] at this; exact this
    cases st with
    | signal hd => exact I c b hc hone
    | cancel hd => exact I c b hc hone
    | cleanPanics e k hd hk => exact I c b hc hone
    | final e b' hd hpc => rfl
    | wakeCancel e hd hpc hcan => exact set s e _ rfl rfl rfl (by simp) (by simp) (.inl (by simp))
    | wakeSignal e hd hpc hcan => exact set { s with sig := false } e _ rfl rfl rfl (by simp) (by simp) (.inl (by simp))
    | storeShutdowning e hd hpc =>
      have hce : c = e := by
        apply Classical.byContradiction
        intro hne
        have := hone e (Ne.symm hne)
        simp [SdSt.setCall] at this
      subst hce
      revert hc
      simp [SdSt.setCall]
    | runCleans e hd hpc => exact set s e _ rfl rfl rfl (by simp) (by simp) (.inl (by simp))
    | finished e hd hpc => exact set s e _ rfl rfl rfl (by simp) (by simp) (.inl (by simp))
    | timeout e hd hpc => exact set s e _ rfl rfl rfl (by simp) (by simp) (.inl (by simp))
    | _ => exact set s _ _ rfl rfl rfl id (fun _ h => h) (.inr rfl)

/-- **After a timeout the goroutine that waits for the clean-ups is left behind for ever**: nobody receives what it sends. -/
theorem C51_timeout_leaks {n : Nat} {s t : SdSt} (h : SdReach n s) (c : Nat)
    (hc : (s.calls c).pc = .returned true) (ht : SdFrom n s t) : (t.calls c).runner ≠ .done := by
  have hreach : SdReach n t ∧ (t.calls c).pc = .returned true := by
    refine ht.inv (fun t => SdReach n t ∧ (t.calls c).pc = .returned true) (by rintro t rfl; exact ⟨h, hc⟩) ?_
    rintro a b ⟨ha, hp⟩ st
    refine ⟨.step ha st, ?_⟩
    have set : ∀ (s' : SdSt) (e : Nat) (x : SdCall), s'.calls = a.calls → (e = c → x.pc = .returned true) →
        ((s'.setCall e x).calls c).pc = .returned true := by
      intro s' e x h1 h2
      show (upd s'.calls e x c).pc = _
      rw [h1]
      by_cases hce : c = e
      · subst hce; rw [upd_same]; exact h2 rfl
      · rw [upd_ne _ _ hce]; exact hp
    cases st with
    | signal hd => exact hp
    | cancel hd => exact hp
    | cleanPanics e k hd hk => exact hp
    | wakeCancel e hd hpc _ | wakeSignal e hd hpc _ | storeShutdowning e hd hpc | runCleans e hd hpc | timeout e hd hpc =>
      exact set _ e _ rfl (by rintro rfl; rw [hp] at hpc; cases hpc)
    | finished e hd _ hpc => exact set _ e _ rfl (by rintro rfl; rw [hp] at hpc; cases hpc)
    | final e b hd hpc => exact set _ e _ rfl (by rintro rfl; rw [hp] at hpc; cases hpc)
    | _ => exact set _ _ _ rfl (by rintro rfl; exact hp)
  intro hd
  have := ((sd_inv hreach.1).call c).sync.2 hd
  rw [hreach.2] at this
  simp at this

/-! ## nothing but a slow clean-up delays the shutdown -/

/-- steps left to a clean-up goroutine -/
def CleanPc.left : CleanPc → Nat
  | .no => 4
  | .ready => 3
  | .running => 2
  | .returned => 1
  | .done => 0

def RunPc.left : RunPc → Nat
  | .notYet => 5
  | .add => 4
  | .spawning => 3
  | .waiting => 2
  | .sending => 1
  | .done => 0

def SdCall.left (x : SdCall) : Nat := (x.cleans.map CleanPc.left).sum + x.runner.left

theorem sum_set_lt {l : List CleanPc} {k : Nat} {old new : CleanPc} (h : l[k]? = some old) (hlt : new.left < old.left) :
    ((l.set k new).map CleanPc.left).sum < (l.map CleanPc.left).sum := by
  induction l generalizing k with
  | nil => simp at h
  | cons a r ih =>
    cases k with
    | zero => simp at h; subst h; simp; omega
    | succ k => simp at h; have := ih h; simp only [List.set_cons_succ, List.map_cons, List.sum_cons]; omega

/-- **If no clean-up panics and every one returns, the call can always finish without waiting for its timeout** — whatever
the other calls have done: no schedule gets the waiting goroutine stuck. -/
theorem C51_progress {n : Nat} {s : SdSt} (h : SdReach n s) (hd : s.dead = false) (c : Nat) (hc : (s.calls c).pc = .cleaning) :
    ∃ t, SdFrom n s t ∧ (t.calls c).pc = .returned false ∧ t.status = .shutdowned := by
  -- one step of the call, which shortens what is left, or the end
  have key : ∀ (m : Nat) (u : SdSt), SdFrom n s u → SdReach n u → u.dead = false → (u.calls c).pc = .cleaning → (u.calls c).left = m →
      ∃ t, SdFrom n s t ∧ (t.calls c).pc = .returned false ∧ t.status = .shutdowned := by
    intro m
    induction m using Nat.strongRecOn with
    | ind m ih =>
      intro u hu hr hd hc hm
      have go : ∀ (x : SdCall), SdStep n u (u.setCall c x) → x.pc = .cleaning → x.left < (u.calls c).left →
          ∃ t, SdFrom n s t ∧ (t.calls c).pc = .returned false ∧ t.status = .shutdowned := by
        intro x st hx hl
        refine ih x.left (by omega) (u.setCall c x) (.step hu st) (.step hr st) hd ?_ ?_
        · simpa [SdSt.setCall] using hx
        · simp [SdSt.setCall]
      have C := (sd_inv hr).call c
      -- a clean-up goroutine that is running
      by_cases hk : ∃ (k : Nat) (p : CleanPc), (u.calls c).cleans[k]? = some p ∧ p ≠ .no ∧ p ≠ .done
      · obtain ⟨k, p, hp, h1, h2⟩ := hk
        cases p with
        | no => exact absurd rfl h1
        | done => exact absurd rfl h2
        | ready => exact go _ (.cleanStart c k hd hp) hc (by
            have := sum_set_lt (new := .running) hp (by simp [CleanPc.left]); simp only [SdCall.left]; omega)
        | running => exact go _ (.cleanReturn c k hd hp) hc (by
            have := sum_set_lt (new := .returned) hp (by simp [CleanPc.left]); simp only [SdCall.left]; omega)
        | returned => exact go _ (.cleanDone c k hd hp) hc (by
            have := sum_set_lt (new := .done) hp (by simp [CleanPc.left]); simp only [SdCall.left]; omega)
      · have hk' : ∀ (k : Nat) (p : CleanPc), (u.calls c).cleans[k]? = some p → p = .no ∨ p = .done := by
          intro k p hp
          by_cases h1 : p = .no
          · exact .inl h1
          · by_cases h2 : p = .done
            · exact .inr h2
            · exact absurd ⟨k, p, hp, h1, h2⟩ hk
        cases hrun : (u.calls c).runner with
        | notYet =>
          exfalso
          have := hr.inv (fun u => ∀ c, (u.calls c).pc = .cleaning → (u.calls c).runner ≠ .notYet) ?_ ?_
          · exact this c hc hrun
          · rintro s ⟨h1, h2, h3, h4, h5⟩ c; rw [h5]; simp
          · intro a b I st d
            have set : ∀ (a' : SdSt) (e : Nat) (x : SdCall), a'.calls = a.calls →
                (x.pc = .cleaning → x.runner ≠ .notYet) → ((a'.setCall e x).calls d).pc = .cleaning → ((a'.setCall e x).calls d).runner ≠ .notYet := by
              intro a' e x h1 h2
              show (upd a'.calls e x d).pc = _ → (upd a'.calls e x d).runner ≠ _
              rw [h1]
              by_cases hce : d = e
              · subst hce; rw [upd_same]; exact h2
              · rw [upd_ne _ _ hce]; exact I d
            cases st with
            | signal hd => exact I d
            | cancel hd => exact I d
            | cleanPanics e k hd hk => exact I d
            | wakeCancel e hd hpc _ | wakeSignal e hd hpc _ | storeShutdowning e hd hpc | runCleans e hd hpc | timeout e hd hpc =>
              exact set _ e _ rfl (by simp)
            | finished e hd _ hpc => exact set _ e _ rfl (by simp)
            | add e hd hpc => exact set _ e _ rfl (by simp)
            | wgWait e hd hpc => exact set _ e _ rfl (by simp)
            | spawnEnd e hd hpc => exact set _ e _ rfl (by simp)
            | final e b hd hpc => exact set _ e _ rfl (by simp)
            | spawn e hd h1 h2 => exact set _ e _ rfl (by intro _; show (a.calls e).runner ≠ _; rw [h1]; simp)
            | cleanStart e k hd hk | cleanReturn e k hd hk | cleanDone e k hd hk => exact set _ e _ rfl (I e)
        | add => exact go _ (.add c hd hrun) hc (by simp only [SdCall.left, hrun, RunPc.left]; omega)
        | spawning =>
          by_cases hs : (u.calls c).spawned < n
          · have hno := C.later _ (Nat.le_refl _) hs
            exact go _ (.spawn c hd hrun hs) hc (by
              have := sum_set_lt (new := .ready) hno (by simp [CleanPc.left]); simp only [SdCall.left]; omega)
          · have := C.bound
            exact go _ (.spawnEnd c hd hrun (by omega)) hc (by simp only [SdCall.left, hrun, RunPc.left]; omega)
        | waiting =>
          have hall := C.all (.inl hrun)
          have hwg : (u.calls c).wg = 0 := by
            rw [C.wg (by rw [hrun]; simp), List.countP_eq_zero]
            intro p hp
            obtain ⟨k, hk⟩ := List.getElem?_of_mem hp
            rcases hk' k p hk with e | e
            · subst e
              exact absurd hk (C.sooner k (by rw [hall, ← C.len]; exact (List.getElem?_eq_some_iff.1 hk).1))
            · subst e; simp [CleanPc.notDone]
          exact go _ (.wgWait c hd hrun hwg) hc (by simp only [SdCall.left, hrun, RunPc.left]; omega)
        | sending =>
          have t1 := Reach.step hu (.finished c hd hrun hc)
          have t2 := Reach.step t1 (.final c false hd (by simp [SdSt.setCall]))
          exact ⟨_, t2, by simp [SdSt.setCall], rfl⟩
        | done =>
          have := C.sync.2 hrun
          rw [hc] at this; simp at this
  exact key _ s (.init rfl) h hd hc rfl

/-! ## concrete runs -/

def sd0 (n : Nat) : SdSt where
  status := .running
  cancelled := false
  sig := false
  signalled := false
  dead := false
  calls := fun _ => { pc := .blocked, runner := .notYet, spawned := 0, cleans := List.replicate n .no, wg := 0, called := [], ended := [] }

theorem sd0_init (n : Nat) : SdInit n (sd0 n) := ⟨rfl, rfl, rfl, rfl, fun _ => rfl⟩

/-- run the call `c` from its wake-up to its return, with one clean-up function -/
theorem sd_full1 {s : SdSt} (hd : s.dead = false) (hs : s.sig = true) (c : Nat)
    (hc : s.calls c = (sd0 1).calls c) :
    ∃ t, SdFrom 1 s t ∧ t.dead = false ∧ (t.calls c).pc = .returned false ∧ (t.calls c).called = [0] ∧
      t.status = .shutdowned ∧ (∀ d, d ≠ c → t.calls d = s.calls d) := by
  have t0 : SdFrom 1 s s := .init rfl
  have hpc : (s.calls c).pc = .blocked := by rw [hc]; rfl
  have t1 := Reach.step t0 (.wakeSignal c hd hpc hs)
  have t2 := Reach.step t1 (.storeShutdowning c hd (by simp [SdSt.setCall]))
  have t3 := Reach.step t2 (.runCleans c hd (by simp [SdSt.setCall]))
  have t4 := Reach.step t3 (.add c hd (by simp [SdSt.setCall]))
  have t5 := Reach.step t4 (.spawn c hd (by simp [SdSt.setCall]) (by simp [SdSt.setCall, hc, sd0]))
  have t6 := Reach.step t5 (.spawnEnd c hd (by simp [SdSt.setCall]) (by simp [SdSt.setCall, hc, sd0]))
  have t7 := Reach.step t6 (.cleanStart c 0 hd (by simp [SdSt.setCall, hc, sd0]))
  have t8 := Reach.step t7 (.cleanReturn c 0 hd (by simp [SdSt.setCall, hc, sd0]))
  have t9 := Reach.step t8 (.cleanDone c 0 hd (by simp [SdSt.setCall, hc, sd0]))
  have t10 := Reach.step t9 (.wgWait c hd (by simp [SdSt.setCall]) (by simp [SdSt.setCall, hc, sd0]))
  have t11 := Reach.step t10 (.finished c hd (by simp [SdSt.setCall]) (by simp [SdSt.setCall]))
  have t12 := Reach.step t11 (.final c false hd (by simp [SdSt.setCall]))
  refine ⟨_, t12, hd, by simp [SdSt.setCall], by simp [SdSt.setCall, hc, sd0], rfl, ?_⟩
  intro d hdc
  simp [SdSt.setCall, upd, hdc]

theorem sdFrom_reach {n : Nat} {s t : SdSt} (h : SdReach n s) (ht : SdFrom n s t) : SdReach n t := by
  induction ht with
  | init e => subst e; exact h
  | step _ st ih => exact .step ih st

/-- **A second `WaitShutdown` runs the clean-ups a second time**: nothing remembers that they have run. Also the concrete
case for `C51_at_most_once`, `C51_all_done` and `C51_status`. -/
theorem C51_second_call_again : ∃ s, SdReach 1 s ∧ (s.calls 0).pc = .returned false ∧ (s.calls 1).pc = .returned false ∧
    (s.calls 0).called = [0] ∧ (s.calls 1).called = [0] ∧ s.status = .shutdowned := by
  have r0 : SdReach 1 (sd0 1) := .init (sd0_init 1)
  have r1 := Reach.step r0 (.signal rfl)
  obtain ⟨t, ht, hd, h1, h2, h3, h4⟩ := sd_full1 (s := { sd0 1 with sig := true, signalled := true }) rfl rfl 0 rfl
  have r2 := Reach.step (sdFrom_reach r1 ht) (.signal hd)
  obtain ⟨u, hu, hd', h1', h2', h3', h4'⟩ := sd_full1 (s := { t with sig := true, signalled := true }) hd rfl 1 (by show t.calls 1 = _; rw [h4 1 (by decide)])
  have e : u.calls 0 = t.calls 0 := h4' 0 (by decide)
  exact ⟨u, sdFrom_reach r2 hu, by rw [e]; exact h1, h1', by rw [e]; exact h2, h2', h3'⟩

/-- **… and moves the status backwards.** -/
theorem C51_status_backwards : ∃ s t, SdReach 1 s ∧ SdStep 1 s t ∧ s.status = .shutdowned ∧ t.status = .shutdowning := by
  have r0 : SdReach 1 (sd0 1) := .init (sd0_init 1)
  have r1 := Reach.step r0 (.signal rfl)
  obtain ⟨t, ht, hd, h1, h2, h3, h4⟩ := sd_full1 (s := { sd0 1 with sig := true, signalled := true }) rfl rfl 0 rfl
  have r2 := Reach.step (sdFrom_reach r1 ht) (.signal hd)
  have r3 := Reach.step r2 (.wakeSignal 1 hd (by show (t.calls 1).pc = _; rw [h4 1 (by decide)]; rfl) rfl)
  exact ⟨_, _, r3, .storeShutdowning 1 hd (by simp [SdSt.setCall]), h3, rfl⟩

theorem sdFrom_self {n : Nat} {s : SdSt} (_ : SdReach n s) : SdFrom n s s := .init rfl

/-- one of two clean-up functions is still running when the call gives up: the case of `C51_timeout_leaks` and of `C51_progress` -/
theorem C51_timeout_example : ∃ s t, SdReach 2 s ∧ s.dead = false ∧ (s.calls 0).pc = .cleaning ∧ SdFrom 2 s t ∧
    (t.calls 0).pc = .returned true ∧ (t.calls 0).called = [1] ∧ (t.calls 0).ended = [] ∧ t.status = .shutdowned := by
  have r0 : SdReach 2 (sd0 2) := .init (sd0_init 2)
  have r1 := Reach.step r0 (.cancel rfl)
  have r2 := Reach.step r1 (.wakeCancel 0 rfl rfl rfl)
  have r3 := Reach.step r2 (.storeShutdowning 0 rfl (by simp [SdSt.setCall]))
  have r4 := Reach.step r3 (.runCleans 0 rfl (by simp [SdSt.setCall]))
  have r5 := Reach.step r4 (.add 0 rfl (by simp [SdSt.setCall]))
  have r6 := Reach.step r5 (.spawn 0 rfl (by simp [SdSt.setCall]) (by simp [SdSt.setCall, sd0]))
  have r7 := Reach.step r6 (.spawn 0 rfl (by simp [SdSt.setCall]) (by simp [SdSt.setCall, sd0]))
  have r8 := Reach.step r7 (.cleanStart 0 1 rfl (by simp [SdSt.setCall, sd0]))
  have t0 := sdFrom_self r8
  have t1 := Reach.step t0 (.timeout 0 rfl (by simp [SdSt.setCall]))
  have t2 := Reach.step t1 (.final 0 true rfl (by simp [SdSt.setCall]))
  exact ⟨_, _, r8, rfl, by simp [SdSt.setCall, sd0], t2, by simp [SdSt.setCall], by simp [SdSt.setCall, sd0], by simp [SdSt.setCall, sd0], rfl⟩

end P2P

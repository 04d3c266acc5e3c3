import Verif.Model.SyncMap
/-! # C52: the synchronised map -/
namespace P2P
variable {V : Type}

abbrev SmReach : SmSt V → Prop := Reach SmInit SmStep

/-- the call a goroutine is in -/
def SmPc.callOf : SmPc V → Option Nat
  | .idle => none
  | .peek c _ | .peeking c _ | .lock c _ | .inside c _ | .access c _ | .delW c _ | .deleting c _ | .unlock c _ | .ret c _ => some c

/-- inside the critical section -/
def SmPc.holds : SmPc V → Bool
  | .inside _ _ | .access _ _ | .delW _ _ | .deleting _ _ | .unlock _ _ => true
  | _ => false

/-- what the history says about the call a goroutine is in -/
def SmPc.wants (f : Nat → List (SmEv V)) : SmPc V → Prop
  | .idle => True
  | .peek c k | .peeking c k | .delW c k | .deleting c k => f c = [.call c (.del k)]
  | .lock c op | .inside c op | .access c op => f c = [.call c op]
  | .unlock c r | .ret c r => ∃ op, f c = [.call c op, .lin c op r]

def evOf (h : List (SmEv V)) (c : Nat) : List (SmEv V) := h.filter (fun e => e.id == c)

structure SmInv (s : SmSt V) : Prop where
  legal : SmLegal (fun _ => none) s.hist s.mapping
  fresh : ∀ c, s.next ≤ c → evOf s.hist c = []
  ok : ∀ c, SmCallOk c (evOf s.hist c)
  pc : ∀ g, (s.pcs g).wants (evOf s.hist)
  uniq : ∀ g h c, (s.pcs g).callOf = some c → (s.pcs h).callOf = some c → g = h
  mutex : ∀ g, (s.pcs g).holds = true ↔ s.mutex = some g

theorem evOf_append_ne {h : List (SmEv V)} {e : SmEv V} {c : Nat} (hne : e.id ≠ c) : evOf (h ++ [e]) c = evOf h c := by
  simp [evOf, hne]

theorem evOf_append_eq {h : List (SmEv V)} {e : SmEv V} {c : Nat} (he : e.id = c) : evOf (h ++ [e]) c = evOf h c ++ [e] := by
  simp [evOf, he]

theorem wants_congr {f f' : Nat → List (SmEv V)} {p : SmPc V} (h : ∀ c, p.callOf = some c → f' c = f c) (hp : p.wants f) : p.wants f' := by
  cases p <;> simp only [SmPc.wants, SmPc.callOf] at hp h ⊢ <;> first | exact trivial | (rw [h _ rfl]; exact hp)

theorem SmInv.call_lt {s : SmSt V} (I : SmInv s) {g c : Nat} (h : (s.pcs g).callOf = some c) : c < s.next := by
  rcases Nat.lt_or_ge c s.next with h' | h'
  · exact h'
  · have h0 := I.fresh c h'
    have hp := I.pc g
    exfalso
    cases hpc : s.pcs g <;> rw [hpc] at h hp <;> simp [SmPc.callOf] at h <;> subst h <;> simp [SmPc.wants, h0] at hp

/-- step of goroutine `g` within call `c`, with at most one event of that call -/
theorem SmInv.next' {s : SmSt V} (I : SmInv s) {g c : Nat} (hc : (s.pcs g).callOf = some c) (p : SmPc V)
    (hp : p.callOf = some c ∨ p.callOf = none) (es : List (SmEv V)) (he : es = [] ∨ ∃ e, es = [e] ∧ e.id = c)
    (m : Bytes → Option V) (mx : Option Nat) (legal : SmLegal (fun _ => none) (s.hist ++ es) m)
    (ok : SmCallOk c (evOf s.hist c ++ es)) (pc : p.wants (fun _ => evOf s.hist c ++ es))
    (mutex : ∀ h, (if h = g then p.holds else (s.pcs h).holds) = true ↔ mx = some h) :
    SmInv { s with mapping := m, mutex := mx, pcs := upd s.pcs g p, hist := s.hist ++ es } := by
  have hlt := I.call_lt hc
  have hev : ∀ d, evOf (s.hist ++ es) d = if d = c then evOf s.hist c ++ es else evOf s.hist d := by
    intro d
    rcases he with rfl | ⟨e, rfl, he⟩
    · simp; intro h; rw [h]
    · by_cases hd : d = c
      · subst hd; rw [if_pos rfl, evOf_append_eq he]
      · rw [if_neg hd, evOf_append_ne (by rw [he]; exact Ne.symm hd)]
  refine ⟨legal, ?_, ?_, ?_, ?_, ?_⟩
  · intro d hd
    show evOf (s.hist ++ es) d = _
    rw [hev, if_neg (by intro e; subst e; simp at hd; omega)]; exact I.fresh d hd
  · intro d
    show SmCallOk d (evOf (s.hist ++ es) d)
    rw [hev]
    split
    · next h => subst h; exact ok
    · exact I.ok d
  · intro h
    show (upd s.pcs g p h).wants (evOf (s.hist ++ es))
    by_cases hg : h = g
    · subst hg
      rw [upd_same]
      refine wants_congr ?_ pc
      intro d hd
      rcases hp with hp | hp
      · rw [hp] at hd; injection hd with hd; subst hd; rw [hev, if_pos rfl]
      · rw [hp] at hd; cases hd
    · rw [upd_ne _ _ hg]
      refine wants_congr ?_ (I.pc h)
      intro d hd
      rw [hev, if_neg (by intro e; subst e; exact hg (I.uniq _ _ _ hd hc))]
  · intro a b d ha hb
    have key : ∀ x, (upd s.pcs g p x).callOf = some d → (s.pcs x).callOf = some d := by
      intro x hx
      by_cases hg : x = g
      · subst hg
        rw [upd_same] at hx
        rcases hp with hp | hp
        · rw [hp] at hx; rw [hc]; exact hx
        · rw [hp] at hx; cases hx
      · rw [upd_ne _ _ hg] at hx; exact hx
    exact I.uniq a b d (key a ha) (key b hb)
  · intro h
    show (upd s.pcs g p h).holds = true ↔ mx = some h
    rw [← mutex h]
    by_cases hg : h = g
    · subst hg; simp
    · rw [upd_ne _ _ hg]; simp [hg]

theorem sm_inv {s : SmSt V} (h : SmReach s) : SmInv s := by
  refine h.inv SmInv ?_ ?_
  · rintro s ⟨h1, h2, h3, h4, h5⟩
    refine ⟨?_, ?_, ?_, ?_, ?_, ?_⟩
    · rw [h1, h5]; exact .nil
    · intro c _; rw [h5]; rfl
    · intro c; rw [h5]; exact .no
    · intro g; rw [h3]; trivial
    · intro g _ c hc; rw [h3] at hc; cases hc
    · intro g; rw [h3, h2]; simp [SmPc.holds]
  · rintro s t I ⟨-, st⟩
    -- the mutex of the other goroutines
    have same : ∀ (g : Nat) (p : SmPc V), p.holds = (s.pcs g).holds →
        ∀ h, (if h = g then p.holds else (s.pcs h).holds) = true ↔ s.mutex = some h := by
      intro g p hp h
      rw [← I.mutex h]
      by_cases hg : h = g
      · subst hg; rw [if_pos rfl, hp]
      · rw [if_neg hg]
    have upd_if : ∀ (m : Bytes → Option V) (k : Bytes) (v : Option V), upd m k v = fun x => if x = k then v else m x := fun _ _ _ => rfl
    have del_none : ∀ k, s.mapping k = none → (fun x => if x = k then none else s.mapping x) = s.mapping := by
      intro k hk; funext x; by_cases hx : x = k
      · subst hx; rw [if_pos rfl, hk]
      · rw [if_neg hx]
    cases st with
    | call g op hg =>
      have hev : ∀ d, evOf (s.hist ++ [SmEv.call s.next op]) d = if d = s.next then [SmEv.call s.next op] else evOf s.hist d := by
        intro d
        by_cases hd : d = s.next
        · subst hd; rw [if_pos rfl, evOf_append_eq (c := s.next) (e := SmEv.call s.next op) rfl, I.fresh _ (Nat.le_refl _)]; rfl
        · rw [if_neg hd, evOf_append_ne (by simpa [SmEv.id] using Ne.symm hd)]
      have hcall : (smStart s.next op).callOf = some s.next := by cases op <;> rfl
      refine ⟨.call _ _ I.legal, ?_, ?_, ?_, ?_, ?_⟩
      · intro d hd
        simp only at hd
        show evOf (s.hist ++ _) d = _
        rw [hev, if_neg (by omega)]
        exact I.fresh d (by omega)
      · intro d
        show SmCallOk d (evOf (s.hist ++ _) d)
        rw [hev]
        split
        · next h => subst h; exact .called op
        · exact I.ok d
      · intro h
        show (upd s.pcs g _ h).wants (evOf (s.hist ++ _))
        by_cases hh : h = g
        · subst hh; rw [upd_same]; cases op <;> simp [smStart, SmPc.wants, hev]
        · rw [upd_ne _ _ hh]
          refine wants_congr ?_ (I.pc h)
          intro d hd
          have := I.call_lt hd
          rw [hev, if_neg (by omega)]
      · have key : ∀ x d, (upd s.pcs g (smStart s.next op) x).callOf = some d → x = g ∧ d = s.next ∨ (s.pcs x).callOf = some d := by
          intro x d hx
          by_cases hh : x = g
          · subst hh; rw [upd_same, hcall] at hx; injection hx with hx; exact .inl ⟨rfl, hx.symm⟩
          · rw [upd_ne _ _ hh] at hx; exact .inr hx
        intro a b d ha hb
        rcases key a d ha with ⟨e1, e2⟩ | h1 <;> rcases key b d hb with ⟨e3, e4⟩ | h2
        · rw [e1, e3]
        · have := I.call_lt h2; omega
        · have := I.call_lt h1; omega
        · exact I.uniq a b d h1 h2
      · intro h
        show (upd s.pcs g _ h).holds = true ↔ s.mutex = some h
        rw [← I.mutex h]
        by_cases hh : h = g
        · subst hh; rw [upd_same, hg]; cases op <;> simp [smStart, SmPc.holds]
        · rw [upd_ne _ _ hh]
    | peekBegin g c k hg =>
      have w := I.pc g; rw [hg] at w
      have := I.next' (g := g) (c := c) (by rw [hg]; rfl) (.peeking c k) (.inl rfl) [] (.inl rfl) s.mapping s.mutex
        (by simpa using I.legal) (by simpa using I.ok c) (by simpa [SmPc.wants] using w) (same g _ (by rw [hg]; rfl))
      simpa using this
    | peekMiss g c k hg hk =>
      have w := I.pc g; rw [hg] at w; simp only [SmPc.wants] at w
      have hl := SmLegal.lin c (.del k) I.legal
      simp only [smApply, del_none k hk] at hl
      exact I.next' (g := g) (c := c) (by rw [hg]; rfl) (.ret c .done) (.inl rfl) [.lin c (.del k) .done] (.inr ⟨_, rfl, rfl⟩) s.mapping s.mutex
        hl (by rw [w]; exact .effective _ _) ⟨_, by rw [w]; rfl⟩ (same g _ (by rw [hg]; rfl))
    | peekHit g c k v hg hk =>
      have w := I.pc g; rw [hg] at w
      have := I.next' (g := g) (c := c) (by rw [hg]; rfl) (.lock c (.del k)) (.inl rfl) [] (.inl rfl) s.mapping s.mutex
        (by simpa using I.legal) (by simpa using I.ok c) (by simpa [SmPc.wants] using w) (same g _ (by rw [hg]; rfl))
      simpa using this
    | lock g c op hg hm =>
      have w := I.pc g; rw [hg] at w
      have := I.next' (g := g) (c := c) (by rw [hg]; rfl) (.inside c op) (.inl rfl) [] (.inl rfl) s.mapping (some g)
        (by simpa using I.legal) (by simpa using I.ok c) (by simpa [SmPc.wants] using w) (by
          intro h
          by_cases hh : h = g
          · subst hh; simp [SmPc.holds]
          · have := I.mutex h
            rw [hm] at this
            simp only [if_neg hh]
            constructor
            · intro h'; exact absurd (this.1 h') (by simp)
            · intro h'; injection h' with h'; exact absurd h'.symm hh)
      simpa using this
    | begin g c op hg =>
      have w := I.pc g; rw [hg] at w
      have := I.next' (g := g) (c := c) (by rw [hg]; rfl) (.access c op) (.inl rfl) [] (.inl rfl) s.mapping s.mutex
        (by simpa using I.legal) (by simpa using I.ok c) (by simpa [SmPc.wants] using w) (same g _ (by rw [hg]; rfl))
      simpa using this
    | putEnd g c k v hg =>
      have w := I.pc g; rw [hg] at w; simp only [SmPc.wants] at w
      exact I.next' (g := g) (c := c) (by rw [hg]; rfl) (.unlock c .done) (.inl rfl) [.lin c (.put k v) .done] (.inr ⟨_, rfl, rfl⟩)
        (upd s.mapping k (some v)) s.mutex
        (SmLegal.lin c (.put k v) I.legal) (by rw [w]; exact .effective _ _) ⟨_, by rw [w]; rfl⟩ (same g _ (by rw [hg]; rfl))
    | getEnd g c k hg =>
      have w := I.pc g; rw [hg] at w; simp only [SmPc.wants] at w
      exact I.next' (g := g) (c := c) (by rw [hg]; rfl) (.unlock c (.got (s.mapping k))) (.inl rfl) [.lin c (.get k) (.got (s.mapping k))]
        (.inr ⟨_, rfl, rfl⟩) s.mapping s.mutex
        (SmLegal.lin c (.get k) I.legal) (by rw [w]; exact .effective _ _) ⟨_, by rw [w]; rfl⟩ (same g _ (by rw [hg]; rfl))
    | delMiss g c k hg hk =>
      have w := I.pc g; rw [hg] at w; simp only [SmPc.wants] at w
      have hl := SmLegal.lin c (.del k) I.legal
      simp only [smApply, del_none k hk] at hl
      exact I.next' (g := g) (c := c) (by rw [hg]; rfl) (.unlock c .done) (.inl rfl) [.lin c (.del k) .done] (.inr ⟨_, rfl, rfl⟩) s.mapping s.mutex
        hl (by rw [w]; exact .effective _ _) ⟨_, by rw [w]; rfl⟩ (same g _ (by rw [hg]; rfl))
    | delHit g c k v hg hk =>
      have w := I.pc g; rw [hg] at w
      have := I.next' (g := g) (c := c) (by rw [hg]; rfl) (.delW c k) (.inl rfl) [] (.inl rfl) s.mapping s.mutex
        (by simpa using I.legal) (by simpa using I.ok c) (by simpa [SmPc.wants] using w) (same g _ (by rw [hg]; rfl))
      simpa using this
    | delBegin g c k hg =>
      have w := I.pc g; rw [hg] at w
      have := I.next' (g := g) (c := c) (by rw [hg]; rfl) (.deleting c k) (.inl rfl) [] (.inl rfl) s.mapping s.mutex
        (by simpa using I.legal) (by simpa using I.ok c) (by simpa [SmPc.wants] using w) (same g _ (by rw [hg]; rfl))
      simpa using this
    | delEnd g c k hg =>
      have w := I.pc g; rw [hg] at w; simp only [SmPc.wants] at w
      exact I.next' (g := g) (c := c) (by rw [hg]; rfl) (.unlock c .done) (.inl rfl) [.lin c (.del k) .done] (.inr ⟨_, rfl, rfl⟩)
        (upd s.mapping k none) s.mutex
        (SmLegal.lin c (.del k) I.legal) (by rw [w]; exact .effective _ _) ⟨_, by rw [w]; rfl⟩ (same g _ (by rw [hg]; rfl))
    | unlock g c r hg =>
      have w := I.pc g; rw [hg] at w
      have := I.next' (g := g) (c := c) (by rw [hg]; rfl) (.ret c r) (.inl rfl) [] (.inl rfl) s.mapping none
        (by simpa using I.legal) (by simpa using I.ok c) (by simpa [SmPc.wants] using w) (by
          intro h
          by_cases hh : h = g
          · subst hh; simp [SmPc.holds]
          · have h1 := I.mutex h
            have h2 := (I.mutex g).1 (by rw [hg]; rfl)
            rw [h2] at h1
            simp only [if_neg hh]
            constructor
            · intro h'; have := h1.1 h'; injection this with this; exact absurd this.symm hh
            · intro h'; cases h')
      simpa using this
    | ret g c r hg =>
      have w := I.pc g; rw [hg] at w; simp only [SmPc.wants] at w
      obtain ⟨op, w⟩ := w
      exact I.next' (g := g) (c := c) (by rw [hg]; rfl) .idle (.inr rfl) [.ret c r] (.inr ⟨_, rfl, rfl⟩) s.mapping s.mutex
        (.ret c r I.legal) (by rw [w]; exact .returned _ _) trivial (same g _ (by rw [hg]; rfl))

/-- **Up to the first overlapping access, every history of `Put`, `Get` and `Del` calls by any number of goroutines is
linearizable.** -/
theorem C52_linearizable {s : SmSt V} (h : SmReach s) : Linearizable (smObs s.hist) :=
  ⟨s.hist, s.mapping, rfl, (sm_inv h).legal, (sm_inv h).ok⟩

/-- **Only the unlocked look-up at the start of `Del` can race with a write.** -/
theorem C52_only_del_races {s : SmSt V} (h : SmReach s) (hr : SmRacy s) : ∃ g c k, s.pcs g = .peeking c k := by
  obtain ⟨g, h', hne, h1, h2⟩ := hr
  have I := sm_inv h
  have hg : s.mutex = some g := (I.mutex g).1 (by cases hp : s.pcs g <;> rw [hp] at h1 <;> simp [SmPc.writing] at h1 <;> rfl)
  refine ⟨h', ?_⟩
  by_cases hh : (s.pcs h').holds = true
  · have := (I.mutex h').1 hh
    rw [hg] at this; injection this with this; exact absurd this hne
  · cases hp : s.pcs h' <;> rw [hp] at h2 hh <;> simp [SmPc.writing, SmPc.reading, SmPc.holds] at h2 hh
    exact ⟨_, _, rfl⟩

/-- **Without `Del` calls — the program makes none — accesses never overlap**, so the map never aborts and every history is
linearizable without restriction. -/
theorem C52_put_get_no_race {s : SmSt V}
    (h : Reach SmInit (fun a b => SmStep a b ∧ ∀ c k, SmEv.call c (.del k) ∉ b.hist) s) : ¬ SmRacy s := by
  have hr : SmReach s := by
    induction h with
    | init h => exact .init h
    | step _ st ih => exact .step ih st.1
  have hno : ∀ c k, SmEv.call c (.del k) ∉ s.hist := by
    cases h with
    | init h => intro c k; rw [h.2.2.2.2]; simp
    | step _ st => exact st.2
  intro hrace
  obtain ⟨g, c, k, hg⟩ := C52_only_del_races hr hrace
  have := (sm_inv hr).pc g
  rw [hg] at this
  simp only [SmPc.wants] at this
  have hm : SmEv.call c (.del k) ∈ evOf s.hist c := by rw [this]; simp
  exact hno c k ((List.mem_filter.1 hm).1)

/-- **No deadlock**: as long as some call is unfinished (and accesses do not overlap), some unfinished call can go on without
waiting for a new one. -/
theorem C52_no_deadlock {s : SmSt V} (h : SmReach s) (hr : ¬ SmRacy s) (g : Nat) (hg : s.pcs g ≠ .idle) :
    ∃ t, SmStep s t ∧ t.next = s.next := by
  have I := sm_inv h
  have go : ∀ g, s.pcs g ≠ .idle → ((s.pcs g).holds = true ∨ s.mutex = none) → ∃ t, SmStep s t ∧ t.next = s.next := by
    intro g hg hm
    cases hp : s.pcs g with
    | idle => exact absurd hp hg
    | peek c k => exact ⟨_, ⟨hr, .peekBegin g c k hp⟩, rfl⟩
    | peeking c k =>
      cases hk : s.mapping k with
      | none => exact ⟨_, ⟨hr, .peekMiss g c k hp hk⟩, rfl⟩
      | some v => exact ⟨_, ⟨hr, .peekHit g c k v hp hk⟩, rfl⟩
    | lock c op =>
      rw [hp] at hm
      rcases hm with hm | hm
      · simp [SmPc.holds] at hm
      · exact ⟨_, ⟨hr, .lock g c op hp hm⟩, rfl⟩
    | inside c op => exact ⟨_, ⟨hr, .begin g c op hp⟩, rfl⟩
    | access c op =>
      cases op with
      | put k v => exact ⟨_, ⟨hr, .putEnd g c k v hp⟩, rfl⟩
      | get k => exact ⟨_, ⟨hr, .getEnd g c k hp⟩, rfl⟩
      | del k =>
        cases hk : s.mapping k with
        | none => exact ⟨_, ⟨hr, .delMiss g c k hp hk⟩, rfl⟩
        | some v => exact ⟨_, ⟨hr, .delHit g c k v hp hk⟩, rfl⟩
    | delW c k => exact ⟨_, ⟨hr, .delBegin g c k hp⟩, rfl⟩
    | deleting c k => exact ⟨_, ⟨hr, .delEnd g c k hp⟩, rfl⟩
    | unlock c r => exact ⟨_, ⟨hr, .unlock g c r hp⟩, rfl⟩
    | ret c r => exact ⟨_, ⟨hr, .ret g c r hp⟩, rfl⟩
  cases hm : s.mutex with
  | none => exact go g hg (.inr hm)
  | some m =>
    have hh := (I.mutex m).2 hm
    exact go m (by intro e; rw [e] at hh; cases hh) (.inl hh)

/-! ## concrete runs -/

def sm0 : SmSt Nat where
  mapping := fun _ => none
  mutex := none
  pcs := fun _ => .idle
  next := 0
  hist := []

theorem sm0_init : SmInit sm0 := ⟨rfl, rfl, fun _ => rfl, rfl, rfl⟩

/-- no goroutine but `a` and `b` is in the map, and the two do not conflict -/
theorem not_racy {s : SmSt V} (a : Nat) (h : ∀ g, g ≠ a → (s.pcs g).reading = false ∧ (s.pcs g).writing = false) : ¬ SmRacy s := by
  rintro ⟨g, g', hne, h1, h2⟩
  by_cases e : g = a
  · subst e
    have := h g' (Ne.symm hne)
    rw [this.1, this.2] at h2; simp at h2
  · have := h g e
    rw [this.2] at h1; cases h1

/-- **The unlocked look-up of `Del` can race**: a `Del` looks while a `Put` writes; the Go runtime then aborts. -/
theorem C52_del_races : ∃ s : SmSt Nat, SmReach s ∧ SmRacy s := by
  have nr : ∀ {s : SmSt Nat}, (∀ g, (s.pcs g).writing = false) → ¬ SmRacy s := by
    rintro s h ⟨g, _, _, h1, _⟩; rw [h g] at h1; cases h1
  have r0 : SmReach sm0 := .init sm0_init
  have r1 := Reach.step r0 ⟨nr (fun g => rfl), .call 0 (.put b!"k" 7) rfl⟩
  have r2 := Reach.step r1 ⟨nr (fun g => by simp only [upd]; split <;> rfl), .call 1 (.del b!"k") (by simp [upd, sm0])⟩
  have r3 := Reach.step r2 ⟨nr (fun g => by simp only [upd]; repeat' split <;> try rfl), .lock 0 0 (.put b!"k" 7) (by simp [upd, smStart, sm0]) rfl⟩
  have r4 := Reach.step r3 ⟨nr (fun g => by simp only [upd]; repeat' split <;> try rfl), .peekBegin 1 1 b!"k" (by simp [upd, smStart, sm0])⟩
  have r5 := Reach.step r4 ⟨nr (fun g => by simp only [upd]; repeat' split <;> try rfl), .begin 0 0 (.put b!"k" 7) (by simp [upd])⟩
  exact ⟨_, r5, 0, 1, by decide, by simp [upd, SmPc.writing], .inl (by simp [upd, SmPc.reading])⟩

/-- a `Get` that overlaps a `Put` and sees its value, without `Del`: the hypotheses of the theorems are met -/
example : ∃ s : SmSt Nat, Reach SmInit (fun a b => SmStep a b ∧ ∀ c k, SmEv.call c (.del k) ∉ b.hist) s ∧
    smObs s.hist = [.call 0 (.put b!"k" 7), .call 1 (.get b!"k"), .ret 1 (.got (some 7))] := by
  have r0 : Reach SmInit (fun a b => SmStep a b ∧ ∀ c k, SmEv.call c (.del k) ∉ b.hist) sm0 := .init sm0_init
  have r1 := Reach.step r0 ⟨⟨C52_put_get_no_race r0, .call 0 (.put b!"k" 7) rfl⟩, by simp [sm0]⟩
  have r2 := Reach.step r1 ⟨⟨C52_put_get_no_race r1, .call 1 (.get b!"k") (by simp [upd, sm0])⟩, by simp [sm0]⟩
  have r3 := Reach.step r2 ⟨⟨C52_put_get_no_race r2, .lock 0 0 (.put b!"k" 7) (by simp [upd, smStart, sm0]) rfl⟩, by simp [sm0]⟩
  have r4 := Reach.step r3 ⟨⟨C52_put_get_no_race r3, .begin 0 0 (.put b!"k" 7) (by simp [upd])⟩, by simp [sm0]⟩
  have r5 := Reach.step r4 ⟨⟨C52_put_get_no_race r4, .putEnd 0 0 b!"k" 7 (by simp [upd])⟩, by simp [sm0]⟩
  have r6 := Reach.step r5 ⟨⟨C52_put_get_no_race r5, .unlock 0 0 .done (by simp [upd])⟩, by simp [sm0]⟩
  have r7 := Reach.step r6 ⟨⟨C52_put_get_no_race r6, .lock 1 1 (.get b!"k") (by simp [upd, smStart, sm0]) rfl⟩, by simp [sm0]⟩
  have r8 := Reach.step r7 ⟨⟨C52_put_get_no_race r7, .begin 1 1 (.get b!"k") (by simp [upd])⟩, by simp [sm0]⟩
  have r9 := Reach.step r8 ⟨⟨C52_put_get_no_race r8, .getEnd 1 1 b!"k" (by simp [upd])⟩, by simp [sm0]⟩
  have r10 := Reach.step r9 ⟨⟨C52_put_get_no_race r9, .unlock 1 1 _ (by simp [upd]; rfl)⟩, by simp [sm0]⟩
  have r11 := Reach.step r10 ⟨⟨C52_put_get_no_race r10, .ret 1 1 _ (by simp [upd]; rfl)⟩, by simp [sm0]⟩
  exact ⟨_, r11, by simp [smObs, SmEv.isLin, sm0, upd]⟩

end P2P

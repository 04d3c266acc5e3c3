import Verif.Model.BucketConc
import Verif.Lemmas.RouteTable
/-! # C25: a bucket shared by goroutines -/
namespace P2P

/-- reachable states of a bucket of the given capacity -/
abbrev BkReach (env : Env) (capacity : Nat) : BkSt → Prop := Reach (BkSt.init capacity) (BkStep env)

def BkPc.isWriting : BkPc → Bool
  | .addW1 .. | .addW2 .. | .addW3 .. | .addW4 .. => true
  | _ => false
def BkPc.isReading : BkPc → Bool
  | .addR1 .. | .addR2 .. | .q1 .. | .q2 .. => true
  | _ => false
/-- ghost number of the `Add` call in progress -/
def BkPc.ticket : BkPc → Option (Nat × NodeInfo)
  | .addR0 c n | .addR1 c n | .addR2 c n _ | .addW0 c n | .addW1 c n | .addW2 c n | .addW3 c n
  | .addW4 c n _ | .addRet c n _ => some (c, n)
  | _ => none
/-- the store of this call has taken effect -/
def BkPc.accepted : BkPc → Bool
  | .addW4 _ _ r | .addRet _ _ r => r
  | _ => false

/-- the result is consistent with the current state -/
def BkRes.okIn (s : BkSt) : BkRes → Prop
  | .slice l snap => l ≤ s.size ∧ s.slots.take l = snap ∧ ∀ x ∈ snap, x ≠ none
  | .num n => n ≤ s.size
  | .nilDeref => False
  | .bool _ => True

structure BkInv (env : Env) (capacity : Nat) (s : BkSt) : Prop where
  hcap : s.cap = capacity
  len : s.slots.length = capacity
  le : s.size ≤ capacity
  wr : ∀ t, s.writer = some t ↔ (s.pc t).isWriting = true
  rd : ∀ t, s.readers t = (s.pc t).isReading
  excl : ∀ t, s.writer = some t → ∀ u, s.readers u = false
  contents : s.slots.take s.size = s.log.map (fun p => some p.2)
  room2 : ∀ t c n, s.pc t = .addW2 c n → s.size < capacity
  room3 : ∀ t c n, s.pc t = .addW3 c n → s.size < capacity ∧ s.slots[s.size]? = some (some n)
  res2 : ∀ t op r, s.pc t = .q2 op r → r.okIn s
  res3 : ∀ t op r, s.pc t = .q3 op r → r.okIn s
  resd : ∀ op r, (op, r) ∈ s.reads → r.okIn s
  tick : ∀ t c n, (s.pc t).ticket = some (c, n) → c < s.calls
  tdist : ∀ t u c n m, (s.pc t).ticket = some (c, n) → (s.pc u).ticket = some (c, m) → t = u
  tdone : ∀ c n r, (c, n, r) ∈ s.adds → c < s.calls
  tsep : ∀ t c n m r, (s.pc t).ticket = some (c, n) → (c, m, r) ∉ s.adds
  tlog : ∀ c n, (c, n) ∈ s.log → c < s.calls
  logpc : ∀ t c n m, (s.pc t).ticket = some (c, n) → ((c, m) ∈ s.log ↔ m = n ∧ (s.pc t).accepted = true)
  logdone : ∀ c n r, (c, n, r) ∈ s.adds → ∀ m, ((c, m) ∈ s.log ↔ m = n ∧ r = true)
  logall : ∀ c n, (c, n) ∈ s.log →
    (c, n, true) ∈ s.adds ∨ ∃ t, (s.pc t).ticket = some (c, n) ∧ (s.pc t).accepted = true
  nodup : (s.log.map (fun p => p.1)).Nodup

theorem existScan_ok (env : Env) (n : NodeInfo) (l : List (Nat × NodeInfo)) :
    existScan env n (l.map (fun p => some p.2)) = .bool (l.any (fun p => p.2.Equals env n)) := by
  induction l with
  | nil => rfl
  | cons a r ih =>
    simp only [List.map_cons, existScan, List.any_cons]
    by_cases h : a.2.Equals env n = true
    · simp [h]
    · simp [h, ih]

theorem BkRes.okIn_mono {s s' : BkSt} {r : BkRes} (h : r.okIn s)
    (hs : ∀ l, l ≤ s.size → s'.slots.take l = s.slots.take l) (hz : s.size ≤ s'.size) : r.okIn s' := by
  cases r with
  | bool b => trivial
  | num n => exact Nat.le_trans h hz
  | nilDeref => exact h
  | slice l snap =>
    obtain ⟨h1, h2, h3⟩ := h
    exact ⟨Nat.le_trans h1 hz, by rw [hs l h1]; exact h2, h3⟩

theorem bkInv_init {env : Env} {capacity : Nat} {s : BkSt} (h : BkSt.init capacity s) :
    BkInv env capacity s := by
  obtain ⟨h1, h2, h3, h4, h5, h6, h7, h8, h9, h10⟩ := h
  constructor <;> simp_all [BkPc.isWriting, BkPc.isReading, BkPc.ticket]

theorem logall_upd {pc : Nat → BkPc} {t : Nat} {p : BkPc} {log : List (Nat × NodeInfo)}
    {adds : List (Nat × NodeInfo × Bool)}
    (h : ∀ c n, (c, n) ∈ log → (c, n, true) ∈ adds ∨ ∃ t, (pc t).ticket = some (c, n) ∧ (pc t).accepted = true)
    (hp : (pc t).accepted = true → p.ticket = (pc t).ticket ∧ p.accepted = true) :
    ∀ c n, (c, n) ∈ log →
      (c, n, true) ∈ adds ∨ ∃ u, (upd pc t p u).ticket = some (c, n) ∧ (upd pc t p u).accepted = true := by
  intro c n hm
  rcases h c n hm with h1 | ⟨u, h1, h2⟩
  · exact .inl h1
  · right
    refine ⟨u, ?_⟩
    simp only [upd]
    split
    · subst_vars; exact ⟨(hp h2).1.trans h1, (hp h2).2⟩
    · exact ⟨h1, h2⟩

set_option maxHeartbeats 1000000 in
theorem bkInv_step {env : Env} {capacity : Nat} {s s' : BkSt} (hi : BkInv env capacity s)
    (hst : BkStep env s s') : BkInv env capacity s' := by
  obtain ⟨hcap, len, le, wr, rd, excl, contents, room2, room3, res2, res3, resd, tick, tdist, tdone, tsep,
    tlog, logpc, logdone, logall, nodup⟩ := hi
  cases hst with
  | addStore t c n hpc =>
    have hr := room2 t c n hpc
    have hnr : ∀ u, (s.pc u).isReading = false := by
      intro u; rw [← rd u]; exact excl t ((wr t).mpr (by simp [hpc, BkPc.isWriting])) u
    have hw : ∀ u, (s.pc u).isWriting = true → u = t := by
      intro u hu
      have h1 := (wr u).mpr hu
      have h2 := (wr t).mpr (by simp [hpc, BkPc.isWriting])
      rw [h1] at h2; exact Option.some.inj h2
    have htake : ∀ l, l ≤ s.size → (s.slots.set s.size (some n)).take l = s.slots.take l := by
      intro l hl
      apply List.ext_getElem?
      intro i
      by_cases hil : i < l
      · simp [List.getElem?_take, hil, List.getElem?_set, show ¬ s.size = i by omega]
      · simp [List.getElem?_take, hil]
    have hmono : ∀ r : BkRes, r.okIn s → r.okIn { s with slots := s.slots.set s.size (some n), pc := upd s.pc t (.addW3 c n) } :=
      fun r h => BkRes.okIn_mono h htake (Nat.le_refl _)
    constructor
    · exact hcap
    · simpa using len
    · exact le
    · intro u; simp only [upd]; split
      · subst_vars; rw [wr u, hpc]; simp [BkPc.isWriting]
      · exact wr u
    · intro u; simp only [upd]; split
      · subst_vars; rw [rd u, hpc]; simp [BkPc.isReading]
      · exact rd u
    · exact excl
    · simp only; rw [htake _ (Nat.le_refl _)]; exact contents
    · intro u c' n' h
      simp only [upd] at h; split at h
      · cases h
      · exact room2 u c' n' h
    · intro u c' n' h
      simp only [upd] at h; split at h
      · cases h; exact ⟨hr, by simp [len, hr]⟩
      · rename_i hne
        exact absurd (hw u (by simp [h, BkPc.isWriting])) hne
    · intro u op r h
      simp only [upd] at h; split at h
      · cases h
      · exact hmono r (res2 u op r h)
    · intro u op r h
      simp only [upd] at h; split at h
      · cases h
      · exact hmono r (res3 u op r h)
    · intro op r h; exact hmono r (resd op r h)
    · intro u c' n' h
      simp only [upd] at h; split at h
      · exact tick t c' n' (by rw [hpc]; exact h)
      · exact tick u c' n' h
    · grind [upd, BkPc.ticket]
    · exact tdone
    · grind [upd, BkPc.ticket]
    · exact tlog
    · intro u c' n' m h
      simp only [upd] at h ⊢; split at h
      · rename_i hu
        have := logpc t c' n' m (by rw [hpc]; exact h)
        simp only [hu, if_true]
        rw [this, hpc]; simp [BkPc.accepted]
      · rename_i hu
        simp only [hu, if_false]
        exact logpc u c' n' m h
    · exact logdone
    · intro c' n' h
      rcases logall c' n' h with h1 | ⟨u, h1, h2⟩
      · exact .inl h1
      · right
        refine ⟨u, ?_⟩
        have : u ≠ t := by rintro rfl; rw [hpc] at h2; simp [BkPc.accepted] at h2
        simp only [upd, this, if_false]
        exact ⟨h1, h2⟩
    · exact nodup
  | addInc t c n hpc =>
    have hr := room3 t c n hpc
    have hw : ∀ u, (s.pc u).isWriting = true → u = t := by
      intro u hu
      have h1 := (wr u).mpr hu
      have h2 := (wr t).mpr (by simp [hpc, BkPc.isWriting])
      rw [h1] at h2; exact Option.some.inj h2
    have hmono : ∀ r : BkRes, r.okIn s → r.okIn { s with size := s.size + 1, log := s.log ++ [(c, n)], pc := upd s.pc t (.addW4 c n true) } :=
      fun r h => BkRes.okIn_mono h (fun _ _ => rfl) (by simp)
    have htk : (s.pc t).ticket = some (c, n) := by simp [hpc, BkPc.ticket]
    have hnot : ∀ m, (c, m) ∉ s.log := by
      intro m hm
      have := (logpc t c n m htk).mp hm
      rw [hpc] at this; simp [BkPc.accepted] at this
    constructor
    · exact hcap
    · exact len
    · exact hr.1
    · intro u; simp only [upd]; split
      · subst_vars; rw [wr u, hpc]; simp [BkPc.isWriting]
      · exact wr u
    · intro u; simp only [upd]; split
      · subst_vars; rw [rd u, hpc]; simp [BkPc.isReading]
      · exact rd u
    · exact excl
    · simp only [List.map_append, List.map_cons, List.map_nil]
      rw [List.take_add_one, hr.2, contents]; rfl
    · intro u c' n' h
      simp only [upd] at h; split at h
      · cases h
      · rename_i hne; exact absurd (hw u (by simp [h, BkPc.isWriting])) hne
    · intro u c' n' h
      simp only [upd] at h; split at h
      · cases h
      · rename_i hne; exact absurd (hw u (by simp [h, BkPc.isWriting])) hne
    · intro u op r h
      simp only [upd] at h; split at h
      · cases h
      · exact hmono r (res2 u op r h)
    · intro u op r h
      simp only [upd] at h; split at h
      · cases h
      · exact hmono r (res3 u op r h)
    · intro op r h; exact hmono r (resd op r h)
    · intro u c' n' h
      simp only [upd] at h; split at h
      · exact tick t c' n' (by rw [hpc]; exact h)
      · exact tick u c' n' h
    · grind [upd, BkPc.ticket]
    · exact tdone
    · grind [upd, BkPc.ticket]
    · intro c' n' h
      simp only [List.mem_append, List.mem_singleton, Prod.mk.injEq] at h
      rcases h with h | ⟨rfl, rfl⟩
      · exact tlog c' n' h
      · exact tick t _ _ htk
    · intro u c' n' m h
      simp only [upd] at h ⊢; split at h
      · rename_i hu
        simp only [BkPc.ticket, Option.some.injEq, Prod.mk.injEq] at h
        obtain ⟨rfl, rfl⟩ := h
        simp [hu, hnot m, BkPc.accepted]
      · rename_i hu
        simp only [hu, if_false, List.mem_append, List.mem_singleton, Prod.mk.injEq]
        rw [logpc u c' n' m h]
        constructor
        · rintro (h1 | ⟨rfl, _⟩)
          · exact h1
          · exact absurd (tdist u t _ _ _ h htk) hu
        · exact .inl
    · intro c' n' r h m
      simp only [List.mem_append, List.mem_singleton, Prod.mk.injEq]
      rw [logdone c' n' r h m]
      constructor
      · rintro (h1 | ⟨rfl, _⟩)
        · exact h1
        · exact absurd h (tsep t _ _ _ _ htk)
      · exact .inl
    · intro c' n' h
      simp only [List.mem_append, List.mem_singleton, Prod.mk.injEq] at h
      rcases h with h | ⟨rfl, rfl⟩
      · rcases logall c' n' h with h1 | ⟨u, h1, h2⟩
        · exact .inl h1
        · right
          refine ⟨u, ?_⟩
          have : u ≠ t := by rintro rfl; rw [hpc] at h2; simp [BkPc.accepted] at h2
          simp only [upd, this, if_false]
          exact ⟨h1, h2⟩
      · right; exact ⟨t, by simp [BkPc.ticket, BkPc.accepted]⟩
    · simp only [List.map_append, List.map_cons, List.map_nil]
      rw [List.nodup_append]
      refine ⟨nodup, by simp, ?_⟩
      intro a ha b hb hab
      simp only [List.mem_singleton] at hb
      subst hb hab
      obtain ⟨⟨c0, m⟩, hm, rfl⟩ := List.mem_map.mp ha
      exact hnot m hm
  | addReturn t c n r hpc =>
    have htk : (s.pc t).ticket = some (c, n) := by simp [hpc, BkPc.ticket]
    have hacc : (s.pc t).accepted = r := by simp [hpc, BkPc.accepted]
    constructor
    · exact hcap
    · exact len
    · exact le
    · intro u; simp only [upd]; split
      · subst_vars; rw [wr u, hpc]; simp [BkPc.isWriting]
      · exact wr u
    · intro u; simp only [upd]; split
      · subst_vars; rw [rd u, hpc]; simp [BkPc.isReading]
      · exact rd u
    · exact excl
    · exact contents
    · grind [upd]
    · grind [upd]
    · intro u op r h
      simp only [upd] at h; split at h
      · cases h
      · exact res2 u op r h
    · intro u op r h
      simp only [upd] at h; split at h
      · cases h
      · exact res3 u op r h
    · exact resd
    · grind [upd, BkPc.ticket]
    · grind [upd, BkPc.ticket]
    · intro c' n' r' h
      simp only [List.mem_append, List.mem_singleton, Prod.mk.injEq] at h
      rcases h with h | ⟨rfl, rfl, rfl⟩
      · exact tdone c' n' r' h
      · exact tick t _ _ htk
    · intro u c' n' m r' h hm
      simp only [upd] at h; split at h
      · simp [BkPc.ticket] at h
      · rename_i hu
        simp only [List.mem_append, List.mem_singleton, Prod.mk.injEq] at hm
        rcases hm with hm | ⟨rfl, rfl, rfl⟩
        · exact tsep u c' n' m r' h hm
        · exact absurd (tdist u t _ _ _ h htk) hu
    · exact tlog
    · intro u c' n' m h
      simp only [upd] at h ⊢; split at h
      · simp [BkPc.ticket] at h
      · rename_i hu
        simp only [hu, if_false]
        exact logpc u c' n' m h
    · intro c' n' r' h m
      simp only [List.mem_append, List.mem_singleton, Prod.mk.injEq] at h
      rcases h with h | ⟨rfl, rfl, rfl⟩
      · exact logdone c' n' r' h m
      · rw [logpc t _ _ m htk, hacc]
    · intro c' n' h
      rcases logall c' n' h with h1 | ⟨u, h1, h2⟩
      · exact .inl (by simp [h1])
      · by_cases hu : u = t
        · subst hu
          left
          rw [htk] at h1
          cases h1
          rw [hacc] at h2
          simp [h2]
        · right; exact ⟨u, by simp only [upd, hu, if_false]; exact ⟨h1, h2⟩⟩
    · exact nodup
  | addCall t n hpc =>
    have htk : (s.pc t).ticket = none := by simp [hpc, BkPc.ticket]
    constructor
    · exact hcap
    · exact len
    · exact le
    · intro u; simp only [upd]; split
      · subst_vars; rw [wr u, hpc]; simp [BkPc.isWriting]
      · exact wr u
    · intro u; simp only [upd]; split
      · subst_vars; rw [rd u, hpc]; simp [BkPc.isReading]
      · exact rd u
    · exact excl
    · exact contents
    · grind [upd]
    · grind [upd]
    · intro u op r h
      simp only [upd] at h; split at h
      · cases h
      · exact res2 u op r h
    · intro u op r h
      simp only [upd] at h; split at h
      · cases h
      · exact res3 u op r h
    · exact resd
    · intro u c' n' h
      simp only [upd] at h; split at h
      · simp only [BkPc.ticket, Option.some.injEq, Prod.mk.injEq] at h; obtain ⟨rfl, -⟩ := h
        show s.calls < s.calls + 1; omega
      · have := tick u c' n' h
        show c' < s.calls + 1; omega
    · intro u v c' n' m h1 h2
      simp only [upd] at h1 h2
      split at h1 <;> split at h2
      · subst_vars; rfl
      · simp only [BkPc.ticket, Option.some.injEq, Prod.mk.injEq] at h1; obtain ⟨rfl, -⟩ := h1
        have := tick v _ _ h2; omega
      · simp only [BkPc.ticket, Option.some.injEq, Prod.mk.injEq] at h2; obtain ⟨rfl, -⟩ := h2
        have := tick u _ _ h1; omega
      · exact tdist u v c' n' m h1 h2
    · intro c' n' r' h
      have := tdone c' n' r' h
      show c' < s.calls + 1; omega
    · intro u c' n' m r' h hm
      simp only [upd] at h; split at h
      · simp only [BkPc.ticket, Option.some.injEq, Prod.mk.injEq] at h; obtain ⟨rfl, -⟩ := h
        have := tdone _ _ _ hm; omega
      · exact tsep u c' n' m r' h hm
    · intro c' n' h
      have := tlog c' n' h
      show c' < s.calls + 1; omega
    · intro u c' n' m h
      simp only [upd] at h ⊢; split at h
      · rename_i hu
        simp only [BkPc.ticket, Option.some.injEq, Prod.mk.injEq] at h; obtain ⟨rfl, rfl⟩ := h
        simp only [hu, if_true, BkPc.accepted, Bool.false_eq_true, and_false, iff_false]
        intro hm
        have := tlog _ _ hm; omega
      · rename_i hu
        simp only [hu, if_false]
        exact logpc u c' n' m h
    · exact logdone
    · intro c' n' h
      rcases logall c' n' h with h1 | ⟨u, h1, h2⟩
      · exact .inl h1
      · right
        have hu : u ≠ t := by rintro rfl; rw [htk] at h1; cases h1
        exact ⟨u, by simp only [upd, hu, if_false]; exact ⟨h1, h2⟩⟩
    · exact nodup
  | rdEval t op hpc =>
    have hev : (s.eval env op).okIn s := by
      cases op with
      | exist n => simp [BkSt.eval, contents, existScan_ok, BkRes.okIn]
      | all =>
        refine ⟨Nat.le_refl _, rfl, ?_⟩
        rw [contents]
        intro x hx
        simp only [List.mem_map] at hx
        obtain ⟨p, -, rfl⟩ := hx
        simp
      | size => exact Nat.le_refl _
      | full => trivial
    constructor <;> simp only [] <;> first | assumption | skip
    · intro u; simp only [upd]; split
      · subst_vars; rw [wr u, hpc]; simp [BkPc.isWriting]
      · exact wr u
    · intro u; simp only [upd]; split
      · subst_vars; rw [rd u, hpc]; simp [BkPc.isReading]
      · exact rd u
    · grind [upd]
    · grind [upd]
    · intro u op r h
      simp only [upd] at h; split at h
      · cases h; exact hev
      · exact res2 u op r h
    · intro u op r h
      simp only [upd] at h; split at h
      · cases h
      · exact res3 u op r h
    case logall =>
      exact logall_upd logall (by simp only [*]; simp [BkPc.ticket, BkPc.accepted])
    all_goals grind [upd, BkPc.ticket, BkPc.accepted]
  | rdUnlock t op r hpc =>
    have hev : r.okIn s := res2 t op r hpc
    constructor <;> simp only [] <;> first | assumption | skip
    · intro u; simp only [upd]; split
      · subst_vars; rw [wr u, hpc]; simp [BkPc.isWriting]
      · exact wr u
    · intro u; simp only [upd]; split
      · subst_vars; simp [BkPc.isReading]
      · exact rd u
    · intro u hu v; simp only [upd]; split
      · rfl
      · exact excl u hu v
    · grind [upd]
    · grind [upd]
    · intro u op r h
      simp only [upd] at h; split at h
      · cases h
      · exact res2 u op r h
    · intro u op r h
      simp only [upd] at h; split at h
      · cases h; exact hev
      · exact res3 u op r h
    case logall =>
      exact logall_upd logall (by simp only [*]; simp [BkPc.ticket, BkPc.accepted])
    all_goals grind [upd, BkPc.ticket, BkPc.accepted]
  | rdReturn t op r hpc =>
    have hev : r.okIn s := res3 t op r hpc
    constructor <;> simp only [] <;> first | assumption | skip
    · intro u; simp only [upd]; split
      · subst_vars; rw [wr u, hpc]; simp [BkPc.isWriting]
      · exact wr u
    · intro u; simp only [upd]; split
      · subst_vars; rw [rd u, hpc]; simp [BkPc.isReading]
      · exact rd u
    · grind [upd]
    · grind [upd]
    · intro u op r h
      simp only [upd] at h; split at h
      · cases h
      · exact res2 u op r h
    · intro u op r h
      simp only [upd] at h; split at h
      · cases h
      · exact res3 u op r h
    · intro op' r' h
      simp only [List.mem_append, List.mem_singleton, Prod.mk.injEq] at h
      rcases h with h | ⟨rfl, rfl⟩
      · exact resd _ _ h
      · exact hev
    case logall =>
      exact logall_upd logall (by simp only [*]; simp [BkPc.ticket, BkPc.accepted])
    all_goals grind [upd, BkPc.ticket, BkPc.accepted]
  | _ =>
    constructor <;> simp only [] <;> first | assumption | skip
    case res2 | res3 =>
      intro u op r h
      simp only [upd] at h
      split at h
      · cases h
      · first | exact res2 u op r h | exact res3 u op r h
    case logall =>
      exact logall_upd logall (by simp only [*]; simp [BkPc.ticket, BkPc.accepted])
    all_goals grind [upd, BkPc.ticket, BkPc.accepted, BkPc.isReading, BkPc.isWriting]

theorem bkReach_inv {env : Env} {capacity : Nat} {s : BkSt} (h : BkReach env capacity s) :
    BkInv env capacity s :=
  h.inv (BkInv env capacity) (fun _ => bkInv_init) (fun _ _ => bkInv_step)

/-- C25: in every interleaving the bucket never holds more than its capacity, its used part contains
exactly the accepted nodes in the order of their lock sections (none overwritten, none nil), and no two
accepted entries belong to one call. -/
theorem C25_contents {env : Env} {capacity : Nat} {s : BkSt} (h : BkReach env capacity s) :
    s.size ≤ capacity ∧ s.slots.length = capacity ∧ s.size = s.log.length ∧
    s.slots.take s.size = s.log.map (fun p => some p.2) ∧ (s.log.map (fun p => p.1)).Nodup := by
  have hi := bkReach_inv h
  refine ⟨hi.le, hi.len, ?_, hi.contents, hi.nodup⟩
  have := congrArg List.length hi.contents
  simp only [List.length_take, List.length_map, hi.len] at this
  have := hi.le
  omega

/-- C25: a completed `Add` returned true iff its node was stored, and every stored node belongs to an `Add`
that returned true or is about to. -/
theorem C25_result {env : Env} {capacity : Nat} {s : BkSt} (h : BkReach env capacity s) :
    (∀ c n r, (c, n, r) ∈ s.adds → (r = true ↔ (c, n) ∈ s.log)) ∧
    (∀ c n, (c, n) ∈ s.log → (c, n, true) ∈ s.adds ∨
      ∃ t, s.pc t = .addW4 c n true ∨ s.pc t = .addRet c n true) := by
  have hi := bkReach_inv h
  refine ⟨fun c n r hm => by simp [hi.logdone c n r hm n], ?_⟩
  intro c n hm
  rcases hi.logall c n hm with h1 | ⟨t, h1, h2⟩
  · exact .inl h1
  · right
    refine ⟨t, ?_⟩
    cases hp : s.pc t <;> simp_all [BkPc.ticket, BkPc.accepted]

/-- C25: a step never changes a used slot, nor the accepted nodes recorded so far. -/
theorem C25_never_lost {env : Env} {capacity : Nat} {s s' : BkSt} (h : BkReach env capacity s)
    (hst : BkStep env s s') : s.size ≤ s'.size ∧ s'.slots.take s.size = s.slots.take s.size ∧
      s.log <+: s'.log := by
  have h1 := bkReach_inv h
  have h2 := bkReach_inv (Reach.step h hst)
  have hlog : s.log <+: s'.log := by cases hst <;> simp
  have hsz := (C25_contents h).2.2.1
  have hsz' := (C25_contents (Reach.step h hst)).2.2.1
  have hle : s.size ≤ s'.size := by rw [hsz, hsz']; exact hlog.length_le
  refine ⟨hle, ?_, hlog⟩
  have : s'.slots.take s.size = (s'.slots.take s'.size).take s.size := by
    rw [List.take_take, Nat.min_eq_left hle]
  rw [this, h2.contents, h1.contents]
  obtain ⟨r, hr⟩ := hlog
  rw [← hr, hsz]
  simp

/-- C25: the slice returned by a completed `All` still shows what it showed when it was returned, whatever
happened since, and contains no nil entry. -/
theorem C25_slices_stable {env : Env} {capacity : Nat} {s : BkSt} (h : BkReach env capacity s)
    {op : BkOp} {l : Nat} {snap : List (Option NodeInfo)} (hm : (op, BkRes.slice l snap) ∈ s.reads) :
    l ≤ s.size ∧ s.slots.take l = snap ∧ ∀ x ∈ snap, x ≠ none := (bkReach_inv h).resd op _ hm

/-- C25: no reader dereferences an unused slot, and nobody writes while a reader reads. -/
theorem C25_reads_safe {env : Env} {capacity : Nat} {s : BkSt} (h : BkReach env capacity s) :
    (∀ op, (op, BkRes.nilDeref) ∉ s.reads) ∧
    (∀ t u, (s.pc t).isWriting = true → (s.pc u).isReading = false) ∧
    (∀ t u, (s.pc t).isWriting = true → (s.pc u).isWriting = true → t = u) := by
  have hi := bkReach_inv h
  refine ⟨fun op hm => hi.resd op _ hm, ?_, ?_⟩
  · intro t u ht
    rw [← hi.rd u]; exact hi.excl t ((hi.wr t).mpr ht) u
  · intro t u ht hu
    have h1 := (hi.wr t).mpr ht
    have h2 := (hi.wr u).mpr hu
    rw [h1] at h2; exact Option.some.inj h2

/-- a run in which an `Add` is accepted and the stored node is then seen by `All` -/
def bk0 : BkSt :=
  { cap := 1, slots := [none], size := 0, readers := fun _ => false, writer := none, pc := fun _ => .idle,
    calls := 0, log := [], adds := [], reads := [] }
example : ∃ s, BkReach { fold := fun _ _ => false, ip6 := id } 1 s ∧
    (0, ⟨[1], ⟨[10, 0, 0, 1], 1, []⟩⟩, true) ∈ s.adds ∧
    (BkOp.all, BkRes.slice 1 [some ⟨[1], ⟨[10, 0, 0, 1], 1, []⟩⟩]) ∈ s.reads := by
  refine ⟨_, .step (.step (.step (.step (.step (.step (.step (.step (.step (.step (.step (.step (.step
    (.step (.step (.init (s := bk0) (by simp [BkSt.init, bk0]))
      (.addCall _ 0 ⟨[1], ⟨[10, 0, 0, 1], 1, []⟩⟩ rfl)) (.addRLock _ 0 0 _ rfl rfl)) (.addTest _ 0 0 _ rfl))
      (.addRUnlock _ 0 0 ⟨[1], ⟨[10, 0, 0, 1], 1, []⟩⟩ rfl)) (.addLock _ 0 0 _ rfl rfl ?_)) (.addRoom _ 0 0 _ rfl (by decide)))
      (.addStore _ 0 0 _ rfl)) (.addInc _ 0 0 _ rfl)) (.addUnlock _ 0 0 _ _ rfl)) (.addReturn _ 0 0 _ _ rfl))
      (.rdCall _ 1 .all rfl)) (.rdLock _ 1 .all rfl rfl)) (.rdEval _ 1 .all rfl)) (.rdUnlock _ 1 .all _ rfl))
      (.rdReturn _ 1 .all _ rfl), ?_, ?_⟩
  · intro u; simp only [upd, bk0]; split <;> rfl
  · simp [bk0]
  · simp [bk0, BkSt.eval]

end P2P

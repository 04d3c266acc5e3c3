import Verif.Lemmas.Interleave
import Verif.Lts
/-! # C111: any number of downloads in any order

C110 is about one download, whatever others do as long as they use the pool properly. Here all are downloads, and they take turns in any order. -/
namespace P2P

/-- the buffers a download took and did not give back -/
def Step.held {α : Type} (st : Step α) : List Nat := heldP st.state.trace

def Thread.held : Thread → List Nat
  | .idle => []
  | .running st => st.held

def Net.held (n : Net) : List Nat := n.threads.flatMap Thread.held
/-- what all but `i` hold -/
def Net.heldElse (n : Net) (i : Nat) : List Nat := (n.threads.eraseIdx i).flatMap Thread.held

theorem perm_eraseIdx {α β : Type} (f : α → List β) : ∀ (l : List α) (i : Nat) (a : α), l[i]? = some a →
    (l.flatMap f).Perm (f a ++ (l.eraseIdx i).flatMap f)
  | [], i, a, h => by simp at h
  | b :: l, 0, a, h => by simp at h; subst h; simp
  | b :: l, i + 1, a, h => by
    simp only [List.getElem?_cons_succ] at h
    have ih := perm_eraseIdx f l i a h
    simp only [List.flatMap_cons, List.eraseIdx_cons_succ]
    refine (List.Perm.append_left (f b) ih).trans ?_
    rw [← List.append_assoc, ← List.append_assoc]
    exact List.Perm.append_right _ List.perm_append_comm

theorem eraseIdx_set {α : Type} : ∀ (l : List α) (i : Nat) (a : α), (l.set i a).eraseIdx i = l.eraseIdx i
  | [], i, a => by simp
  | b :: l, 0, a => by simp
  | b :: l, i + 1, a => by simp [eraseIdx_set l i a]

theorem mem_heldElse {n : Net} {i j : Nat} {t : Thread} (hj : n.threads[j]? = some t) (hne : j ≠ i) {a : Nat} (ha : a ∈ t.held) : a ∈ n.heldElse i := by
  unfold Net.heldElse
  exact List.mem_flatMap.2 ⟨t, List.mem_eraseIdx_iff_getElem?.2 ⟨j, hne, hj⟩, ha⟩

/-- shared memory and pool as a goroutine left them -/
def Step.left {α : Type} (st : Step α) : Shared := (st.state.mem, st.state.pool)

/-- at every stop, and at the end, it was a proper user -/
abbrev AllGood {α : Type} (c : Turn) (o : POut α) : Prop := Good [] c o.state

theorem ends_good {α : Type} {c : Turn} {st : Step α} (h : st.Ends AllGood c) : Good [] c st.state := by
  cases st with
  | done o => cases o <;> exact h
  | wait s k => exact h.1

theorem body_ends (t : Task) (x : Shared) (H : List Nat) (hx : Own H x) : (t.body x).Ends AllGood ⟨H, x, [], 0⟩ := by
  have h0 : Good [] ⟨H, x, [], 0⟩ (NewPeerConn x.1 x.2) := ⟨⟨hx, .nothing _, by simp⟩, ⟨[], rfl, .nil _⟩, Nat.zero_le _⟩
  refine (good_fetch t.E t.sha1 t.fold t.fuel t.peerId t.infoHash _ _ h0).weaken fun c o ho => ?_
  cases o <;> exact ho

/-- `f'` says what `f` says about all that came before the present stop -/
def Agrees {α : Type} (f' f : List PEvent → Shared → Shared) : Step α → Prop
  | .done _ => f' = f
  | .wait s _ => ∀ tr, tr.length < s.trace.length → f' tr = f tr

/-- The download `t`, now at `st`, came here from memory and pool `x0` as if the others had done what `f` says. -/
structure Past (R : PSt → Shared → Prop) (t : Task) (st : Step (Option Bytes × Option Bytes)) (f : List PEvent → Shared → Shared) (x0 : Shared) : Prop where
  proper : ∀ tr y, Own (heldP tr) y → OthersDo (heldP tr) y (f tr y)
  real : ∀ tr y, f tr y = y ∨ ∃ s, s.trace = tr ∧ (s.mem, s.pool) = y ∧ R s (f tr y)
  own : Own [] x0
  same : ∀ f', Agrees f' f st → (t.body x0).run (t.E.among f') = st.run (t.E.among f')

/-- the situation of goroutine `i` with task `t` in a net -/
def ThreadOK (R : PSt → Shared → Prop) (t : Task) (x : Shared) : Thread → Prop
  | .idle => True
  | .running st => OthersDo st.held st.left x ∧ Own st.held st.left ∧ t.E.dialFails = false ∧
      (∀ s k, st = .wait s k → ∀ H y, Own (heldP s.trace ++ H) y → (∀ a ∈ heldP s.trace, y.1 a = s.mem a) → (k y).Ends AllGood ⟨H, y, s.trace, s.trace.length + 1⟩) ∧
      ∃ f x0, Past R t st f x0

structure TurnInv (R : Nat → PSt → Shared → Prop) (tasks : List Task) (n : Net) : Prop where
  len : n.threads.length = tasks.length
  own : Own n.held n.shared
  each : ∀ (i : Nat) (t : Task) (th : Thread), tasks[i]? = some t → n.threads[i]? = some th → ThreadOK (R i) t n.shared th

/-- The result of a turn of goroutine `i`. -/
theorem turn_inv {R : Nat → PSt → Shared → Prop} {tasks : List Task} {n : Net} (h : TurnInv R tasks n) {i : Nat} {t : Task} {th : Thread}
    (ht : tasks[i]? = some t) (hth : n.threads[i]? = some th) (hd : t.E.dialFails = false) {st : Step (Option Bytes × Option Bytes)} {T : List PEvent} {m : Nat}
    (hst : st.Ends AllGood ⟨n.heldElse i, n.shared, T, m⟩) (hh : ∃ f x0, Past (R i) t st f x0) :
    TurnInv R tasks { shared := st.left, threads := n.threads.set i (.running st) } := by
  have hg := ends_good hst
  have hown : Own (st.held ++ n.heldElse i) st.left := hg.1.own
  have hlen := (List.getElem?_eq_some_iff.1 hth).1
  refine ⟨by simp [h.len], ?_, fun j u th' hj hth' => ?_⟩
  · refine hown.perm (List.Perm.symm ?_)
    have := perm_eraseIdx Thread.held (n.threads.set i (.running st)) i (.running st) (by simp [hlen])
    rw [eraseIdx_set] at this
    exact this
  · by_cases hji : j = i
    · subst hji
      rw [ht] at hj
      cases hj
      simp only [List.getElem?_set_self hlen, Option.some.injEq] at hth'
      subst hth'
      refine ⟨.nothing _, ⟨hown.bufs, ?_, fun a ha => hown.old a ?_⟩, hd, fun s k hs => ?_, hh⟩
      · have := hown.nodup
        rw [List.append_assoc] at this
        refine this.sublist (List.Sublist.append (List.Sublist.refl _) (List.sublist_append_right _ _))
      · simp only [List.mem_append] at ha ⊢
        exact ha.elim (fun h => .inl (.inl h)) .inr
      · subst hs
        exact hst.2
    · simp only [List.getElem?_set_ne (Ne.symm hji)] at hth'
      have := h.each j u th' hj hth'
      cases th' with
      | idle => exact trivial
      | running st' =>
        obtain ⟨h1, h2⟩ := this
        exact ⟨h1.trans (hg.1.did.mono fun a ha => mem_heldElse hth' hji ha), h2⟩

theorem turnStep_inv {R : Nat → PSt → Shared → Prop} {tasks : List Task} {n m : Net} (h : TurnInv R tasks n) (hs : TurnStepIf R tasks n m) : TurnInv R tasks m := by
  obtain ⟨i, hs, hR⟩ := hs
  have hperm : ∀ th, n.threads[i]? = some th → Own (th.held ++ n.heldElse i) n.shared := fun th hth => h.own.perm (perm_eraseIdx Thread.held n.threads i th hth)
  cases hs with
  | start t ht hth hd =>
    have hown : Own (n.heldElse i) n.shared := hperm _ hth
    refine turn_inv h ht hth hd (body_ends t n.shared _ hown) ⟨fun _ x => x, n.shared, fun _ _ _ => .nothing _, fun _ _ => .inl rfl, ?_, fun f' hf' => rfl⟩
    exact ⟨hown.bufs, (List.nodup_append.1 hown.nodup).2.1, fun a ha => hown.old a (List.mem_append_right _ ha)⟩
  | resume s k hth =>
    obtain ⟨t, ht⟩ : ∃ t, tasks[i]? = some t := by
      have hlen := (List.getElem?_eq_some_iff.1 hth).1
      exact ⟨tasks[i]'(by rw [← h.len]; exact hlen), List.getElem?_eq_getElem _⟩
    obtain ⟨g1, g2, hd, g3, f, x0, g4⟩ := h.each i t _ ht hth
    have hown := hperm _ hth
    have hkeep := (g1.keeps g2).2.1
    have hends := g3 s k rfl (n.heldElse i) n.shared hown hkeep
    have hgood := ends_good hends
    refine turn_inv h ht hth hd hends ?_
    classical
    refine ⟨fun tr y => if tr = s.trace ∧ y = (s.mem, s.pool) then n.shared else f tr y, x0, ?_, ?_, g4.own, ?_⟩
    · intro tr y hy
      by_cases hc : tr = s.trace ∧ y = (s.mem, s.pool)
      · simp only [if_pos hc]
        obtain ⟨rfl, rfl⟩ := hc
        exact g1
      · simp only [if_neg hc]
        exact g4.proper tr y hy
    · intro tr y
      by_cases hc : tr = s.trace ∧ y = (s.mem, s.pool)
      · simp only [if_pos hc]
        exact .inr ⟨s, hc.1.symm, hc.2.symm, hR s k hth⟩
      · simp only [if_neg hc]
        exact g4.real tr y
    · intro f' hf'
      have hkey : (∀ tr, tr.length < s.trace.length → f' tr = f tr) ∧ f' s.trace (s.mem, s.pool) = n.shared := by
        have hbefore : ∀ tr : List PEvent, tr.length < s.trace.length → ¬ (tr = s.trace) := fun tr h e => by subst e; omega
        cases hk : k n.shared with
        | done o =>
          rw [hk] at hf'
          have hf' : f' = _ := hf'
          subst hf'
          refine ⟨fun tr htr => ?_, by simp⟩
          funext y
          simp only [hbefore tr htr, false_and, if_false]
        | wait s' k' =>
          rw [hk] at hf' hgood
          have hlt : s.trace.length + 1 ≤ s'.trace.length := hgood.2.2
          refine ⟨fun tr htr => ?_, ?_⟩
          · rw [hf' tr (by omega)]
            funext y
            simp only [hbefore tr htr, false_and, if_false]
          · rw [hf' s.trace (by omega)]
            simp
      rw [g4.same f' hkey.1]
      show (k (f' s.trace (s.mem, s.pool))).run _ = _
      rw [hkey.2]

theorem inv_fresh (R : Nat → PSt → Shared → Prop) (tasks : List Task) {x : Shared} (hx : Own [] x) : TurnInv R tasks (.fresh x tasks) := by
  have hnil : ∀ l : List Task, (l.map fun _ => Thread.idle).flatMap Thread.held = [] := by
    intro l
    induction l with
    | nil => rfl
    | cons t l ih => simp only [List.map_cons, List.flatMap_cons, ih]; rfl
  refine ⟨by simp [Net.fresh], ?_, fun i t th _ h => ?_⟩
  · show Own ((tasks.map fun _ => Thread.idle).flatMap Thread.held) x
    rw [hnil]; exact hx
  · simp only [Net.fresh, List.getElem?_map] at h
    cases htk : tasks[i]? with
    | none => rw [htk] at h; simp at h
    | some u => rw [htk] at h; simp at h; subst h; trivial

/-- C111: **any number of downloads, taking turns in any order at every use of the connection, of the pool and of a buffer**: for each that ended, there are
other users, all of them proper users of the pool, among which `FetchMetaData`, called once, does what this download did. Where this download found
memory and pool always in a state that satisfies `R`, so does it among those. -/
theorem C111_any_interleaving (R : Nat → PSt → Shared → Prop) (tasks : List Task) (x : Shared) (hx : Own [] x) (n : Net)
    (h : Reach (· = Net.fresh x tasks) (TurnStepIf R tasks) n) (i : Nat) (t : Task) (ht : tasks[i]? = some t) (o : POut (Option Bytes × Option Bytes))
    (hi : n.threads[i]? = some (.running (.done o))) :
    ∃ f mem pool, (∀ tr y, Own (heldP tr) y → OthersDo (heldP tr) y (f tr y)) ∧ Own [] (mem, pool) ∧
      (∀ tr y, f tr y = y ∨ ∃ s, s.trace = tr ∧ (s.mem, s.pool) = y ∧ R i s (f tr y)) ∧
      FetchMetaData (t.E.among f) t.sha1 t.fold t.fuel t.peerId t.infoHash mem pool = .of o := by
  have key := Reach.inv (TurnInv R tasks) (fun s hs => by subst hs; exact inv_fresh R tasks hx) (fun _ _ h hs => turnStep_inv h hs) h
  obtain ⟨-, -, hd, -, f, x0, hh⟩ := key.each i t _ ht hi
  refine ⟨f, x0.1, x0.2, hh.proper, hh.own, hh.real, ?_⟩
  rw [FetchMetaData_eq _ (show (t.E.among f).dialFails = false from hd), ← run_fetchBodyR]
  exact congrArg FetchOut.of (hh.same f rfl)

/-- C111: no buffer is in use by two downloads at a time, or in use and in the pool. -/
theorem C111_exclusive (tasks : List Task) (x : Shared) (hx : Own [] x) (n : Net) (h : Reach (· = Net.fresh x tasks) (TurnStepAny tasks) n) :
    (n.threads.flatMap Thread.held ++ pooled n.shared.2).Nodup := by
  have key := Reach.inv (TurnInv (fun _ _ _ => True) tasks) (fun s hs => by subst hs; exact inv_fresh _ tasks hx)
    (fun _ _ h hs => turnStep_inv h (by obtain ⟨i, hs⟩ := hs; exact ⟨i, hs, fun _ _ _ => trivial⟩)) h
  exact key.own.nodup

end P2P

import Verif.Props.InterleaveMoment
import Verif.Props.InterleaveUse
/-! # C112: how many receive buffers there are -/
namespace P2P

/-- how many buffers of `w` bytes are in the pool -/
def inPool (w : Nat) (p : BPool) : Nat := ((p.chan w).getD []).length

/-- how many big buffers a download that is under way took and did not give back -/
def Thread.inUse : Thread → Nat
  | .running (.wait s _) => taken maxReadLength s.trace - returned maxReadLength s.trace
  | _ => 0

/-- 1 for a download that is under way -/
def Thread.busy : Thread → Nat
  | .running (.wait _ _) => 1
  | _ => 0

/-- how many big buffers are in use -/
def Net.inUse (n : Net) : Nat := (n.threads.map Thread.inUse).sum
/-- how many downloads are under way -/
def Net.busy (n : Net) : Nat := (n.threads.map Thread.busy).sum

theorem inPool_loadOrStore (w : Nat) (p : BPool) (i : Int) : inPool w (p.loadOrStore i) = inPool w p := by
  unfold inPool
  rw [loadOrStore_chan]
  split
  · rename_i h; rw [h]; rfl
  · rfl

theorem inPool_get (w : Nat) {p q : BPool} {b : Slice} (h : p.GetBySize b.cap = .ok (b, q)) :
    inPool w q = if b.cap = w then inPool w p - 1 else inPool w p := by
  unfold BPool.GetBySize at h
  rw [← inPool_loadOrStore w p b.cap]
  generalize p.loadOrStore b.cap = p at *
  unfold BPool.selectGet at h
  split at h
  · rename_i c r hc
    simp only [Res.ok.injEq, Prod.mk.injEq] at h
    obtain ⟨rfl, rfl⟩ := h
    unfold inPool BPool.chan at *
    rw [lookup_setChan]
    by_cases hw : c.cap = w
    · subst hw
      rw [if_pos rfl, if_pos rfl, hc]
      simp
    · rw [if_neg hw, if_neg (by omega)]
  · rename_i hno
    rw [if_neg (by omega)] at h
    simp only [Res.ok.injEq, Prod.mk.injEq] at h
    have hq : q.chans = p.chans := by rw [← h.2]
    have : inPool w q = inPool w p := by unfold inPool BPool.chan; rw [hq]
    rw [this]
    split
    · rename_i hw
      subst hw
      have : inPool b.cap p = 0 := by
        unfold inPool
        cases hc : p.chan b.cap with
        | none => rfl
        | some c =>
          cases c with
          | nil => rfl
          | cons d r => exact absurd hc (hno d r)
      omega
    · rfl

theorem inPool_put (w : Nat) (p : BPool) (b : Slice) : inPool w (p.Put b) ≤ inPool w p + if b.cap = w then 1 else 0 := by
  unfold BPool.Put
  rw [← inPool_loadOrStore w p b.cap]
  generalize p.loadOrStore b.cap = p
  unfold BPool.selectPut
  split
  · rename_i c hc
    split
    · unfold inPool BPool.chan at *
      rw [lookup_setChan]
      by_cases hw : b.cap = w
      · subst hw
        rw [if_pos rfl, if_pos rfl, hc]
        simp
      · rw [if_neg hw, if_neg (by omega)]
        simp
    · omega
  · omega

/-- Events of a download that has never more than one big buffer out, while others have `o`: buffers in the pool and in use do not become more than `P`. -/
theorem runs_bound {es : List PEvent} {p q : BPool} (h : PoolRuns es p q) {T : List PEvent} {o P : Nat}
    (hone : ∀ t, t <+: T ++ es → returned maxReadLength t ≤ taken maxReadLength t ∧ taken maxReadLength t ≤ returned maxReadLength t + 1) (ho : o + 1 ≤ P)
    (h0 : inPool maxReadLength p + (taken maxReadLength T - returned maxReadLength T) + o ≤ P) :
    inPool maxReadLength q + (taken maxReadLength (T ++ es) - returned maxReadLength (T ++ es)) + o ≤ P := by
  induction h with
  | nil => simpa using h0
  | @snoc es p q r e h1 h2 ih =>
    have hpre : T ++ es <+: T ++ (es ++ [e]) := by rw [← List.append_assoc]; exact List.prefix_append _ _
    have ih := ih (fun t ht => hone t (ht.trans hpre)) h0
    have hb := hone _ hpre
    have ha := hone _ (List.prefix_refl _)
    rw [← List.append_assoc, taken_snoc, returned_snoc] at ha ⊢
    cases e with
    | get b =>
      have hg := inPool_get maxReadLength (p := q) (q := r) (b := b) h2
      simp only at ha ⊢
      rw [hg]
      split
      · rename_i hw
        rw [if_pos hw] at ha
        omega
      · omega
    | put b =>
      have hg := inPool_put maxReadLength q b
      have h2 : r = q.Put b := h2
      subst h2
      simp only at ha ⊢
      split at hg
      · rename_i hw
        rw [if_pos hw] at ha ⊢
        omega
      · rename_i hw
        rw [if_neg hw] at ha ⊢
        omega
    | _ =>
      have h2 : r = q := h2
      subst h2
      simpa using ih

theorem sum_eraseIdx {α : Type} (f : α → Nat) : ∀ (l : List α) (i : Nat) (a : α), l[i]? = some a → (l.map f).sum = f a + ((l.eraseIdx i).map f).sum
  | [], i, a, h => by simp at h
  | b :: l, 0, a, h => by simp at h; subst h; simp
  | b :: l, i + 1, a, h => by
    simp only [List.getElem?_cons_succ] at h
    have ih := sum_eraseIdx f l i a h
    simp only [List.map_cons, List.sum_cons, List.eraseIdx_cons_succ, ih]
    omega

theorem sum_le {α : Type} (f g : α → Nat) : ∀ (l : List α), (∀ a ∈ l, f a ≤ g a) → (l.map f).sum ≤ (l.map g).sum
  | [], _ => Nat.le_refl _
  | a :: l, h => by
    have := sum_le f g l fun b hb => h b (List.mem_cons_of_mem _ hb)
    have := h a (List.mem_cons_self ..)
    simp only [List.map_cons, List.sum_cons]
    omega

/-- a download does not use the pool before it stops for the first time -/
theorem body_start (t : Task) (x : Shared) : (t.body x).state.trace = [] ∧ (t.body x).state.pool = x.2 := by
  unfold Task.body fetchBodyR handshakePeerR
  show (((RM.now (PM.lift (withHandShakeMsg t.peerId t.infoHash)) >>= _) >>= _ : RM _) _).state.trace = [] ∧ _
  cases h : withHandShakeMsg t.peerId t.infoHash <;> exact ⟨rfl, rfl⟩

/-- at every moment up to now: at most one big buffer is out -/
theorem one_buffer_ever {tasks : List Task} {x : Shared} (hx : Own [] x) {n : Net} (h : Reach (· = Net.fresh x tasks) (TurnStepAny tasks) n)
    {i : Nat} {st : Step (Option Bytes × Option Bytes)} (hi : n.threads[i]? = some (.running st)) :
    ∀ p, p <+: st.state.trace → returned maxReadLength p ≤ taken maxReadLength p ∧ taken maxReadLength p ≤ returned maxReadLength p + 1 := by
  have key := Reach.inv (TurnInv (fun _ _ _ => True) tasks) (fun s hs => by subst hs; exact inv_fresh _ tasks hx)
    (fun _ _ h hs => turnStep_inv h (by obtain ⟨i, hs⟩ := hs; exact ⟨i, hs, fun _ _ _ => trivial⟩)) h
  obtain ⟨t, ht⟩ : ∃ t, tasks[i]? = some t := by
    have hlen := (List.getElem?_eq_some_iff.1 hi).1
    exact ⟨tasks[i]'(by rw [← key.len]; exact hlen), List.getElem?_eq_getElem _⟩
  obtain ⟨f, mem, pool, o, h1, h2, -, rfl, h3⟩ := C112_so_far tasks x hx n h i t ht st hi
  obtain ⟨k, hk⟩ := counts_whole (t.E.among f) h1 t.sha1 t.fold t.fuel t.peerId t.infoHash h2
  exact fun p hp => hk.ever p (hp.trans h3)

/-- C112: **in every schedule in which at no time more than `P` downloads are under way**, there are at no time more than `P` big receive buffers in the pool
and in use together: the pool keeps as many as were needed at the same time, however many downloads there are one after the other. (A download that fails
may keep one for ever; nobody uses it any more.) -/
theorem C112_memory (tasks : List Task) (x : Shared) (hx : Own [] x) (P : Nat) (hP : inPool maxReadLength x.2 ≤ P) (n : Net)
    (h : Reach (· = Net.fresh x tasks) (fun n m => TurnStepAny tasks n m ∧ m.busy ≤ P) n) : inPool maxReadLength n.shared.2 + n.inUse ≤ P := by
  have hidle : ∀ (f : Thread → Nat), f .idle = 0 → ((Net.fresh x tasks).threads.map f).sum = 0 := by
    intro f hf
    unfold Net.fresh
    simp only [List.map_map]
    clear h
    induction tasks with
    | nil => rfl
    | cons t l ih => simp only [List.map_cons, List.sum_cons, ih, Function.comp_apply, hf]
  have key : Reach (· = Net.fresh x tasks) (TurnStepAny tasks) n ∧ n.busy ≤ P ∧ inPool maxReadLength n.shared.2 + n.inUse ≤ P := by
    induction h with
    | init h =>
      subst h
      refine ⟨.init rfl, ?_, ?_⟩
      · unfold Net.busy; rw [hidle _ rfl]; omega
      · unfold Net.inUse; rw [hidle _ rfl]; exact hP
    | @step n m _ hs ih =>
      obtain ⟨hr, hb, hn⟩ := ih
      obtain ⟨hs, hmb⟩ := hs
      refine ⟨.step hr hs, hmb, ?_⟩
      have inv := Reach.inv (TurnInv (fun _ _ _ => True) tasks) (fun s hs => by subst hs; exact inv_fresh _ tasks hx)
        (fun _ _ h hs => turnStep_inv h (by obtain ⟨i, hs⟩ := hs; exact ⟨i, hs, fun _ _ _ => trivial⟩)) hr
      obtain ⟨i, hs⟩ := hs
      have hm : Reach (· = Net.fresh x tasks) (TurnStepAny tasks) m := .step hr ⟨i, hs⟩
      cases hs with
      | start t ht hth hd =>
        obtain ⟨k1, k2⟩ := body_start t n.shared
        have hlen := (List.getElem?_eq_some_iff.1 hth).1
        have hz : Thread.inUse (.running (t.body n.shared)) = 0 := by
          cases hb : t.body n.shared with
          | done o => rfl
          | wait s k =>
            rw [hb] at k1
            have k1 : s.trace = [] := k1
            unfold Thread.inUse
            simp only [k1]
            rfl
        have e1 := sum_eraseIdx Thread.inUse _ i _ hth
        have e2 := sum_eraseIdx Thread.inUse (n.threads.set i (.running (t.body n.shared))) i _ (List.getElem?_set_self hlen)
        rw [eraseIdx_set, hz] at e2
        unfold Net.inUse at hn ⊢
        simp only [k2]
        have : Thread.inUse .idle = 0 := rfl
        omega
      | resume s k hth =>
        have hlen := (List.getElem?_eq_some_iff.1 hth).1
        obtain ⟨t, ht⟩ : ∃ t, tasks[i]? = some t := ⟨tasks[i]'(by rw [← inv.len]; exact hlen), List.getElem?_eq_getElem _⟩
        obtain ⟨g1, g2, -, g3, -⟩ := inv.each i t _ ht hth
        have hown : Own (heldP s.trace ++ n.heldElse i) n.shared := inv.own.perm (perm_eraseIdx Thread.held n.threads i _ hth)
        obtain ⟨es, k1, k2⟩ := (ends_good (g3 s k rfl (n.heldElse i) n.shared hown (g1.keeps g2).2.1)).2.1
        have hone := one_buffer_ever hx hm (i := i) (st := k n.shared) (List.getElem?_set_self hlen)
        rw [k1] at hone
        have e1 := sum_eraseIdx Thread.inUse _ i _ hth
        have e2 := sum_eraseIdx Thread.inUse (n.threads.set i (.running (k n.shared))) i _ (List.getElem?_set_self hlen)
        have e3 := sum_eraseIdx Thread.busy _ i _ hth
        rw [eraseIdx_set] at e2
        have ho : ((n.threads.eraseIdx i).map Thread.inUse).sum ≤ ((n.threads.eraseIdx i).map Thread.busy).sum := by
          refine sum_le _ _ _ fun th hth' => ?_
          obtain ⟨j, -, hj⟩ := List.mem_eraseIdx_iff_getElem?.1 hth'
          match th, hj with
          | .idle, _ => exact Nat.le_refl _
          | .running (.done o), _ => exact Nat.le_refl _
          | .running (.wait s' k'), hj =>
            have : taken maxReadLength s'.trace ≤ returned maxReadLength s'.trace + 1 := (one_buffer_ever hx hr hj _ (List.prefix_refl _)).2
            show taken maxReadLength s'.trace - returned maxReadLength s'.trace ≤ 1
            omega
        have hb1 : Thread.busy (.running (.wait s k)) = 1 := rfl
        have hu1 : Thread.inUse (.running (.wait s k)) = taken maxReadLength s.trace - returned maxReadLength s.trace := rfl
        have hu2 : Thread.inUse (.running (k n.shared)) ≤ taken maxReadLength (s.trace ++ es) - returned maxReadLength (s.trace ++ es) := by
          rw [show s.trace ++ es = (k n.shared).state.trace from k1.symm]
          cases k n.shared with
          | done o => exact Nat.zero_le _
          | wait s' k' => exact Nat.le_refl _
        unfold Net.inUse at hn ⊢
        unfold Net.busy at hb
        generalize ((n.threads.eraseIdx i).map Thread.inUse).sum = o at *
        generalize ((n.threads.eraseIdx i).map Thread.busy).sum = ob at *
        rw [hb1] at e3
        rw [hu1] at e1
        have h1 : o + 1 ≤ P := by omega
        have fin := runs_bound (p := n.shared.2) k2 (T := s.trace) hone (o := o) (P := P) h1 (by omega)
        simp only at fin e2 k1 hu2 ⊢
        omega
  exact key.2.2

end P2P

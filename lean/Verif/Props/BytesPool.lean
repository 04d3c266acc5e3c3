import Verif.Model.BytesPool
/-! # C35, C36: the buffer pool -/
namespace P2P

/-- every pooled buffer is filed under its capacity, at full length; no class is too large -/
def BPool.Ok (p : BPool) : Prop :=
  ∀ i c, p.chan i = some c → c.length ≤ p.maxSize ∧ ∀ b ∈ c, (b.cap : Int) = i ∧ b.len = b.cap

theorem lookup_setChan (l : List (Int × List Slice)) (i j : Int) (c : List Slice) :
    (setChan l i c).lookup j = if j = i then (l.lookup i).map (fun _ => c) else l.lookup j := by
  induction l with
  | nil => simp [setChan]
  | cons x r ih =>
    obtain ⟨k, d⟩ := x
    simp only [setChan]
    by_cases hk : k = i
    · subst hk
      by_cases hj : j = k
      · subst hj; simp [List.lookup]
      · simp [List.lookup, hj, beq_eq_false_iff_ne.2 hj]
    · rw [if_neg hk]
      by_cases hj : j = k
      · subst hj; simp [List.lookup, hk]
      · simp only [List.lookup, beq_eq_false_iff_ne.2 hj, ih, beq_eq_false_iff_ne.2 (Ne.symm hk)]

theorem loadOrStore_chan (p : BPool) (i j : Int) :
    (p.loadOrStore i).chan j = if j = i then some ((p.chan i).getD []) else p.chan j := by
  unfold BPool.loadOrStore
  cases h : p.chan i with
  | some c => by_cases hj : j = i <;> simp [hj, h]
  | none =>
    by_cases hj : j = i
    · subst hj; simp [BPool.chan, List.lookup]
    · simp [BPool.chan, List.lookup, hj, beq_eq_false_iff_ne.2 hj]

@[simp] theorem loadOrStore_maxSize (p : BPool) (i : Int) : (p.loadOrStore i).maxSize = p.maxSize := by
  unfold BPool.loadOrStore; split <;> rfl
@[simp] theorem loadOrStore_fresh (p : BPool) (i : Int) : (p.loadOrStore i).fresh = p.fresh := by
  unfold BPool.loadOrStore; split <;> rfl

theorem loadOrStore_ok {p : BPool} (h : p.Ok) (i : Int) : (p.loadOrStore i).Ok := by
  intro j c hc
  rw [loadOrStore_chan] at hc
  rw [loadOrStore_maxSize]
  by_cases hj : j = i
  · subst hj
    rw [if_pos rfl, Option.some.injEq] at hc
    subst hc
    cases hp : p.chan j with
    | none => simp
    | some d => exact h j d hp
  · rw [if_neg hj] at hc; exact h j c hc

theorem selectGet_ok {p p' : BPool} {size : Int} {b : Slice} (h : p.Ok) (hg : p.selectGet size = .ok (b, p')) :
    p'.Ok ∧ (b.cap : Int) = size ∧ b.len = b.cap ∧ p'.maxSize = p.maxSize := by
  unfold BPool.selectGet at hg
  split at hg
  · rename_i b0 r hc
    simp only [Res.ok.injEq, Prod.mk.injEq] at hg
    obtain ⟨rfl, rfl⟩ := hg
    obtain ⟨h1, h2⟩ := h _ _ hc
    refine ⟨fun j c hj => ?_, (h2 b0 (by simp)).1, (h2 b0 (by simp)).2, rfl⟩
    simp only [BPool.chan, lookup_setChan] at hj
    by_cases hji : j = size
    · subst hji
      simp only [BPool.chan] at hc
      rw [if_pos rfl, hc] at hj
      simp only [Option.map_some, Option.some.injEq] at hj
      subst hj
      simp only [List.length_cons] at h1
      exact ⟨by show r.length ≤ p.maxSize; omega, fun x hx => h2 x (by simp [hx])⟩
    · rw [if_neg hji] at hj
      exact h j c hj
  · split at hg
    · cases hg
    · simp only [Res.ok.injEq, Prod.mk.injEq] at hg
      obtain ⟨rfl, rfl⟩ := hg
      exact ⟨h, by simp only; omega, rfl, rfl⟩

theorem selectPut_ok {p : BPool} (h : p.Ok) (b : Slice) : (p.selectPut b).Ok := by
  unfold BPool.selectPut
  split
  · rename_i c hc
    split
    · rename_i hl
      intro j d hj
      simp only [BPool.chan, lookup_setChan] at hj
      by_cases hji : j = (b.cap : Int)
      · subst hji
        simp only [BPool.chan] at hc
        rw [if_pos rfl, hc] at hj
        simp only [Option.map_some, Option.some.injEq] at hj
        subst hj
        obtain ⟨h1, h2⟩ := h _ _ hc
        refine ⟨by simp; omega, fun x hx => ?_⟩
        rcases List.mem_append.1 hx with hx | hx
        · exact h2 x hx
        · simp at hx; subst hx; exact ⟨rfl, rfl⟩
      · rw [if_neg hji] at hj
        exact h j d hj
    · exact h
  · exact h

theorem new_ok {m w : Int} {f : Nat} {p : BPool} (h : NewBytesPool m w f = .ok p) : p.Ok ∧ p.fresh = f ∧
    ∀ i c, p.chan i = some c → c = [] := by
  unfold NewBytesPool at h
  split at h
  · cases h
  · simp only [Res.ok.injEq] at h
    subst h
    have : ∀ i c, (BPool.chan { chans := [(w, [])], defaultWidth := w, maxSize := m.toNat, fresh := f } i = some c) → c = [] := by
      intro i c hc
      simp only [BPool.chan, List.lookup] at hc
      split at hc
      · simp only [Option.some.injEq] at hc; exact hc.symm
      · cases hc
    exact ⟨fun i c hc => by rw [this i c hc]; simp, rfl, this⟩

/-! ## C35 -/

/-- C35 for all interleavings of `Get`, `GetBySize` and `Put` by any number of goroutines, with any slices whatsoever put
into the pool: every completed `GetBySize(n)` returned a buffer of length and capacity exactly `n`, every size class holds
at most `maxSize` buffers. -/
theorem C35_sizes {s : PoolSt} (hr : Reach PoolSt.init PoolStep s) :
    (∀ n b, (n, b) ∈ s.log → (b.len : Int) = n ∧ (b.cap : Int) = n) ∧
    (∀ n c, s.pool.chan n = some c → c.length ≤ s.pool.maxSize) := by
  have hI : s.pool.Ok ∧ ∀ n b, (n, b) ∈ s.log → (b.len : Int) = n ∧ (b.cap : Int) = n := by
    refine Reach.inv (fun s => s.pool.Ok ∧ ∀ n b, (n, b) ∈ s.log → (b.len : Int) = n ∧ (b.cap : Int) = n) ?_ ?_ hr
    · rintro s ⟨⟨m, w, hp⟩, -, -, hl⟩
      exact ⟨(new_ok hp).1, by simp [hl]⟩
    · rintro s t ⟨h1, h2⟩ hs
      cases hs with
      | getLoad g size hg => exact ⟨loadOrStore_ok h1 _, h2⟩
      | getSelect hg hb =>
        obtain ⟨h3, h4, h5, -⟩ := selectGet_ok h1 hb
        refine ⟨h3, fun n b hm => ?_⟩
        rcases List.mem_append.1 hm with hm | hm
        · exact h2 n b hm
        · simp only [List.mem_singleton, Prod.mk.injEq] at hm
          obtain ⟨rfl, rfl⟩ := hm
          exact ⟨by rw [h5]; exact h4, h4⟩
      | getPanic hg hb => exact ⟨h1, h2⟩
      | putLoad g b hg => exact ⟨loadOrStore_ok h1 _, h2⟩
      | putSelect hg => exact ⟨selectPut_ok h1 _, h2⟩
      | alloc g hg => exact ⟨h1, h2⟩
      | handOver g g' arr hg hm => exact ⟨h1, h2⟩
  exact ⟨hI.2, fun n c hc => (hI.1 n c hc).1⟩

/-- The pool operations a caller can make, one after the other. -/
inductive PoolOp where
  | get (size : Int)
  | put (b : Slice)

/-- The pools reachable by any sequence of calls. -/
inductive PoolReach : BPool → Prop where
  | new {m w : Int} {f : Nat} {p : BPool} : NewBytesPool m w f = .ok p → PoolReach p
  | get {p p' : BPool} {size : Int} {b : Slice} : PoolReach p → p.GetBySize size = .ok (b, p') → PoolReach p'
  | put {p : BPool} (b : Slice) : PoolReach p → PoolReach (p.Put b)

/-- C35 for sequential use, in terms of the methods: `GetBySize(n)` returns a buffer of length and capacity `n` and `Get` one
of the default width; neither panics unless the width is negative. -/
theorem C35_methods {p : BPool} (hr : PoolReach p) :
    (∀ n b p', p.GetBySize n = .ok (b, p') → (b.len : Int) = n ∧ (b.cap : Int) = n) ∧
    (∀ b p', p.Get = .ok (b, p') → (b.len : Int) = p.defaultWidth) ∧
    (∀ n, 0 ≤ n → ∃ b p', p.GetBySize n = .ok (b, p')) := by
  have hok : p.Ok := by
    induction hr with
    | new h => exact (new_ok h).1
    | get _ h ih => exact (selectGet_ok (loadOrStore_ok ih _) h).1
    | put b _ ih => exact selectPut_ok (loadOrStore_ok ih _) b
  have h1 : ∀ n b p', p.GetBySize n = .ok (b, p') → (b.len : Int) = n ∧ (b.cap : Int) = n := by
    intro n b p' h
    obtain ⟨-, h1, h2, -⟩ := selectGet_ok (loadOrStore_ok hok n) h
    exact ⟨by rw [h2]; exact h1, h1⟩
  refine ⟨h1, fun b p' h => (h1 _ b p' h).1, fun n hn => ?_⟩
  unfold BPool.GetBySize BPool.selectGet
  split
  · exact ⟨_, _, rfl⟩
  · rw [if_neg (by omega)]; exact ⟨_, _, rfl⟩

/-- a buffer cut to length 3 comes back with its full length 10 -/
example : ∃ p b p', PoolReach p ∧ p.GetBySize 10 = .ok (b, p') ∧ b = { arr := 0, off := 0, len := 10, cap := 10 } ∧
    p.chan 10 = some [b] :=
  ⟨BPool.Put { chans := [(10, []), (100, [])], defaultWidth := 100, maxSize := 5, fresh := 1 } { arr := 0, off := 0, len := 3, cap := 10 },
   { arr := 0, off := 0, len := 10, cap := 10 }, { chans := [(10, []), (100, [])], defaultWidth := 100, maxSize := 5, fresh := 1 },
   .put _ (.get (size := 10) (b := { arr := 0, off := 0, len := 10, cap := 10 }) (.new (m := 5) (w := 100) (f := 0) rfl) (by decide)),
   by decide, rfl, by decide⟩

/-! ## C36 -/

/-- the arrays waiting in the pool -/
def pooled (p : BPool) : List Nat := p.chans.flatMap (fun x => x.2.map Slice.arr)

theorem pooled_loadOrStore (p : BPool) (i : Int) : pooled (p.loadOrStore i) = pooled p := by
  unfold BPool.loadOrStore
  split
  · rfl
  · simp [pooled]

theorem flatMap_setChan (l : List (Int × List Slice)) (i : Int) (c c' : List Slice) (h : l.lookup i = some c) :
    ∃ a b, l.flatMap (fun x => x.2.map Slice.arr) = a ++ c.map Slice.arr ++ b ∧
      (setChan l i c').flatMap (fun x => x.2.map Slice.arr) = a ++ c'.map Slice.arr ++ b := by
  induction l with
  | nil => cases h
  | cons x r ih =>
    obtain ⟨k, d⟩ := x
    by_cases hk : k = i
    · subst hk
      simp only [List.lookup, BEq.rfl, Option.some.injEq] at h
      subst h
      exact ⟨[], r.flatMap (fun x => x.2.map Slice.arr), by simp, by simp [setChan]⟩
    · simp only [List.lookup, beq_eq_false_iff_ne.2 (Ne.symm hk)] at h
      obtain ⟨a, b, h1, h2⟩ := ih h
      exact ⟨d.map Slice.arr ++ a, b, by simp [h1], by simp [setChan, hk, h2]⟩

theorem selectGet_pooled {p p' : BPool} {size : Int} {b : Slice} (h : p.selectGet size = .ok (b, p')) :
    (List.Perm (b.arr :: pooled p') (pooled p) ∧ p'.fresh = p.fresh) ∨
    (b.arr = p.fresh ∧ pooled p' = pooled p ∧ p'.fresh = p.fresh + 1) := by
  unfold BPool.selectGet at h
  split at h
  · rename_i b0 r hc
    simp only [Res.ok.injEq, Prod.mk.injEq] at h
    obtain ⟨rfl, rfl⟩ := h
    obtain ⟨x, y, h1, h2⟩ := flatMap_setChan p.chans size (b0 :: r) r hc
    left
    refine ⟨?_, rfl⟩
    simp only [pooled, h1, h2]
    simp only [List.map_cons, List.append_assoc, List.cons_append]
    exact List.perm_middle.symm
  · split at h
    · cases h
    · simp only [Res.ok.injEq, Prod.mk.injEq] at h
      obtain ⟨rfl, rfl⟩ := h
      exact .inr ⟨rfl, rfl, rfl⟩

theorem selectPut_pooled (p : BPool) (b : Slice) :
    (p.selectPut b).fresh = p.fresh ∧
    (List.Perm (pooled (p.selectPut b)) (b.arr :: pooled p) ∨ pooled (p.selectPut b) = pooled p) := by
  unfold BPool.selectPut
  split
  · rename_i c hc
    split
    · obtain ⟨x, y, h1, h2⟩ := flatMap_setChan p.chans b.cap c (c ++ [{ b with len := b.cap }]) hc
      refine ⟨rfl, .inl ?_⟩
      simp only [pooled, h1, h2]
      simp only [List.map_append, List.map_cons, List.map_nil, List.append_assoc, List.cons_append, List.nil_append]
      rw [← List.append_assoc, ← List.append_assoc]
      exact List.perm_middle
    · exact ⟨rfl, .inr rfl⟩
  · exact ⟨rfl, .inr rfl⟩

/-- what the discipline maintains -/
structure OwnInv (s : PoolSt) : Prop where
  nodup : (s.held.map Prod.snd ++ pooled s.pool).Nodup
  old : ∀ a ∈ s.held.map Prod.snd ++ pooled s.pool, a < s.pool.fresh
  puts : ∀ g b, s.pc g = .putting b → (g, b.arr) ∈ s.held

theorem erase_perm_held {l : List (Nat × Nat)} {x : Nat × Nat} (h : x ∈ l) :
    List.Perm (l.map Prod.snd) (x.2 :: (l.erase x).map Prod.snd) := by
  have := (List.perm_cons_erase h).map Prod.snd
  simpa using this

theorem OwnInv.step {s t : PoolSt} (h : OwnInv s) (hs : OwnStep s t) : OwnInv t := by
  obtain ⟨hs, hown⟩ := hs
  cases hs with
  | getLoad g size hg =>
    refine ⟨by simpa [pooled_loadOrStore] using h.nodup, by simpa [pooled_loadOrStore] using h.old, fun g' b hp => ?_⟩
    by_cases hgg : g' = g
    · subst hgg; simp at hp
    · simp only [upd_ne _ _ hgg] at hp; exact h.puts g' b hp
  | @getSelect g size b p hg hb =>
    have hputs : ∀ g' b', upd s.pc g .idle g' = .putting b' → (g', b'.arr) ∈ ((g, b.arr) :: s.held) := by
      intro g' b' hp
      by_cases hgg : g' = g
      · subst hgg; simp at hp
      · simp only [upd_ne _ _ hgg] at hp; exact List.mem_cons_of_mem _ (h.puts g' b' hp)
    rcases selectGet_pooled hb with ⟨hperm, hf⟩ | ⟨ha, hp, hf⟩
    · have hp2 : List.Perm (((g, b.arr) :: s.held).map Prod.snd ++ pooled p) (s.held.map Prod.snd ++ pooled s.pool) := by
        simp only [List.map_cons, List.cons_append]
        exact List.perm_middle.symm.trans (hperm.append_left _)
      refine ⟨hp2.nodup_iff.2 h.nodup, fun a ha => ?_, hputs⟩
      rw [hf]; exact h.old a (hp2.mem_iff.1 ha)
    · have hn : b.arr ∉ s.held.map Prod.snd ++ pooled s.pool := by
        intro hm
        have := h.old _ hm
        omega
      refine ⟨?_, ?_, hputs⟩
      · show (((g, b.arr) :: s.held).map Prod.snd ++ pooled p).Nodup
        rw [hp]
        simp only [List.map_cons, List.cons_append, List.nodup_cons]
        exact ⟨hn, h.nodup⟩
      · intro a hm
        simp only [hp, hf] at hm ⊢
        simp only [List.map_cons, List.cons_append, List.mem_cons] at hm
        rcases hm with rfl | hm
        · omega
        · have := h.old a hm; omega
  | getPanic hg hb =>
    refine ⟨h.nodup, h.old, fun g' b hp => ?_⟩
    rename_i g size
    by_cases hgg : g' = g
    · subst hgg; simp at hp
    · simp only [upd_ne _ _ hgg] at hp; exact h.puts g' b hp
  | putLoad g b hg =>
    refine ⟨by simpa [pooled_loadOrStore] using h.nodup, by simpa [pooled_loadOrStore] using h.old, fun g' b' hp => ?_⟩
    by_cases hgg : g' = g
    · subst hgg
      have hp' := hp
      simp only [upd_same, PoolPc.putting.injEq] at hp
      subst hp
      exact hown g' b hg hp'
    · simp only [upd_ne _ _ hgg] at hp; exact h.puts g' b' hp
  | @putSelect g b hg =>
    have hm := h.puts g b hg
    have hpe := erase_perm_held hm
    have hnd := h.nodup
    have hnd' : (b.arr :: (s.held.erase (g, b.arr)).map Prod.snd ++ pooled s.pool).Nodup :=
      (hpe.append_right _).nodup_iff.1 hnd
    obtain ⟨hf, hp⟩ := selectPut_pooled s.pool b
    have hall : ∀ a ∈ (b.arr :: (s.held.erase (g, b.arr)).map Prod.snd) ++ pooled s.pool, a < s.pool.fresh :=
      fun a ha => h.old a ((hpe.append_right _).mem_iff.2 ha)
    have hputs : ∀ g' b', upd s.pc g .idle g' = .putting b' → (g', b'.arr) ∈ s.held.erase (g, b.arr) := by
      intro g' b' hp
      by_cases hgg : g' = g
      · subst hgg; simp at hp
      · simp only [upd_ne _ _ hgg] at hp
        refine (List.mem_erase_of_ne ?_).2 (h.puts g' b' hp)
        intro he; exact hgg (congrArg Prod.fst he)
    rcases hp with hp | hp
    · have hp2 : List.Perm ((s.held.erase (g, b.arr)).map Prod.snd ++ pooled (s.pool.selectPut b))
          ((b.arr :: (s.held.erase (g, b.arr)).map Prod.snd) ++ pooled s.pool) :=
        (hp.append_left _).trans List.perm_middle
      refine ⟨hp2.nodup_iff.2 hnd', fun a ha => ?_, hputs⟩
      show a < (s.pool.selectPut b).fresh
      rw [hf]; exact hall a (hp2.mem_iff.1 ha)
    · refine ⟨?_, fun a ha => ?_, hputs⟩
      · show ((s.held.erase (g, b.arr)).map Prod.snd ++ pooled (s.pool.selectPut b)).Nodup
        rw [hp]
        exact (List.nodup_cons.1 hnd').2
      · show a < (s.pool.selectPut b).fresh
        rw [hf]
        simp only [hp] at ha
        exact hall a (by simp only [List.cons_append, List.mem_cons]; exact .inr ha)
  | alloc g hg =>
    refine ⟨?_, fun a ha => ?_, fun g' b hp => List.mem_cons_of_mem _ (h.puts g' b hp)⟩
    · simp only [List.map_cons, List.cons_append, List.nodup_cons]
      exact ⟨fun hm => by have := h.old _ hm; omega, h.nodup⟩
    · simp only [List.map_cons, List.cons_append, List.mem_cons] at ha
      rcases ha with rfl | ha
      · show _ < s.pool.fresh + 1; omega
      · have := h.old a ha; show _ < s.pool.fresh + 1; omega
  | handOver g g' arr hg hm =>
    have hpe := erase_perm_held hm
    have hp2 : List.Perm (((g', arr) :: s.held.erase (g, arr)).map Prod.snd ++ pooled s.pool)
        (s.held.map Prod.snd ++ pooled s.pool) := by
      simp only [List.map_cons]
      exact (hpe.append_right _).symm
    refine ⟨hp2.nodup_iff.2 h.nodup, fun a ha => h.old a (hp2.mem_iff.1 ha), fun g'' b hp => ?_⟩
    refine List.mem_cons_of_mem _ ((List.mem_erase_of_ne ?_).2 (h.puts g'' b hp))
    intro he
    have : g'' = g := congrArg Prod.fst he
    subst this
    simp only at hp
    rw [hg] at hp; cases hp

/-- C36: if goroutines only ever put back buffers they hold (each hold entitles to one `Put`), then in every interleaving no
buffer is held twice, and no buffer is held and in the pool – nor twice in the pool. -/
theorem C36_no_sharing {s : PoolSt} (hr : Reach PoolSt.init OwnStep s) :
    (s.held.map Prod.snd).Nodup ∧ (pooled s.pool).Nodup ∧ ∀ a ∈ s.held.map Prod.snd, a ∉ pooled s.pool := by
  have hI : OwnInv s := by
    refine Reach.inv OwnInv ?_ (fun s t h hs => h.step hs) hr
    rintro s ⟨⟨m, w, hp⟩, hpc, hh, -⟩
    have hpe : pooled s.pool = [] := by
      unfold NewBytesPool at hp
      split at hp
      · cases hp
      · simp only [Res.ok.injEq] at hp
        rw [← hp]; rfl
    exact ⟨by simp [hh, hpe], by simp [hh, hpe], by simp [hpc]⟩
  have := List.nodup_append.1 hI.nodup
  exact ⟨this.1, this.2.1, fun a ha hb => this.2.2 a ha a hb rfl⟩

/-- in particular, a buffer just handed out by the pool is not held by anyone else -/
theorem C36_fresh_hold {s t : PoolSt} (hr : Reach PoolSt.init OwnStep s) (hs : OwnStep s t) {g arr : Nat}
    (ht : t.held = (g, arr) :: s.held) : ∀ g', (g', arr) ∉ s.held := by
  intro g' hm
  have h := (C36_no_sharing (.step hr hs)).1
  rw [ht, List.map_cons, List.nodup_cons] at h
  exact h.1 (List.mem_map.2 ⟨_, hm, rfl⟩)

/-- a goroutine at rest -/
private def p0 : BPool := { chans := [(4, [])], defaultWidth := 4, maxSize := 10, fresh := 0 }
private def b0 : Slice := { arr := 0, off := 0, len := 4, cap := 4 }

private def mk (p : BPool) (pc : Nat → PoolPc) (held : List (Nat × Nat)) (log : List (Int × Slice)) : PoolSt :=
  { pool := p, pc, held, log }

/-- a disciplined run in which goroutine 1 reuses the buffer goroutine 0 gave back -/
example : ∃ s, Reach PoolSt.init OwnStep s ∧ s.held = [(1, 0)] ∧ s.log = [(4, b0), (4, b0)] := by
  have own : ∀ {s t : PoolSt}, PoolStep s t → (∀ g b, t.pc g ≠ .putting b) → OwnStep s t :=
    fun h hn => ⟨h, fun g b _ hb => absurd hb (hn g b)⟩
  have np : ∀ (g0 : Nat) (x : PoolPc), (∀ b, x ≠ .putting b) → ∀ g b, upd (fun _ => PoolPc.idle) g0 x g ≠ .putting b := by
    intro g0 x hx g b
    by_cases h : g = g0
    · subst h; simpa using hx b
    · simp [upd_ne _ _ h]
  have ui : ∀ (g0 : Nat) x, upd (upd (fun _ => PoolPc.idle) g0 x) g0 .idle = fun _ => .idle := by
    intro g0 x; funext g; by_cases h : g = g0
    · subst h; simp
    · simp [upd_ne _ _ h]
  have r0 : Reach PoolSt.init OwnStep (mk p0 (fun _ => .idle) [] []) :=
    .init ⟨⟨10, 4, rfl⟩, fun _ => rfl, rfl, rfl⟩
  have r1 : Reach PoolSt.init OwnStep (mk p0 (upd (fun _ => .idle) 0 (.getting 4)) [] []) :=
    .step r0 (own (.getLoad 0 4 rfl) (np 0 _ (by simp)))
  have r2 : Reach PoolSt.init OwnStep (mk { p0 with fresh := 1 } (fun _ => .idle) [(0, 0)] [(4, b0)]) := by
    refine .step r1 (own ?_ (by simp [mk]))
    have := PoolStep.getSelect (s := mk p0 (upd (fun _ => .idle) 0 (.getting 4)) [] []) (g := 0) (size := 4) (b := b0)
      (p := { p0 with fresh := 1 }) (by simp [mk]) (by decide)
    simpa [mk, ui, b0] using this
  have r3 : Reach PoolSt.init OwnStep (mk { p0 with fresh := 1 } (upd (fun _ => .idle) 0 (.putting { b0 with len := 2 }))
      [(0, 0)] [(4, b0)]) := by
    refine .step r2 ⟨.putLoad 0 { b0 with len := 2 } rfl, fun g b _ hb => ?_⟩
    simp only [mk] at hb
    by_cases h : g = 0
    · subst h; simp at hb; subst hb; simp [mk, b0]
    · simp [upd_ne _ _ h] at hb
  have r4 : Reach PoolSt.init OwnStep (mk { p0 with fresh := 1, chans := [(4, [b0])] } (fun _ => .idle) [] [(4, b0)]) := by
    refine .step r3 (own ?_ (by simp [mk]))
    have := PoolStep.putSelect (s := mk { p0 with fresh := 1 } (upd (fun _ => .idle) 0 (.putting { b0 with len := 2 }))
      [(0, 0)] [(4, b0)]) (g := 0) (b := { b0 with len := 2 }) (by simp [mk])
    simpa [mk, ui, b0, p0, BPool.selectPut, BPool.chan, setChan] using this
  have r5 : Reach PoolSt.init OwnStep (mk { p0 with fresh := 1, chans := [(4, [b0])] } (upd (fun _ => .idle) 1 (.getting 4)) [] [(4, b0)]) :=
    .step r4 (own (.getLoad 1 4 rfl) (np 1 _ (by simp)))
  refine ⟨_, .step r5 (own (.getSelect (g := 1) (size := 4) (b := b0) (p := { p0 with fresh := 1 }) (by simp [mk]) (by decide)) ?_),
    rfl, rfl⟩
  simp only [mk, ui]
  simp

/-- a goroutine outside the pool allocates a buffer of its own and hands it over: then only the other one holds it -/
example : ∃ s, Reach PoolSt.init OwnStep s ∧ s.held = [(3, 0)] ∧ s.pool.fresh = 1 := by
  have r0 : Reach PoolSt.init OwnStep (mk p0 (fun _ => .idle) [] []) := .init ⟨⟨10, 4, rfl⟩, fun _ => rfl, rfl, rfl⟩
  have r1 : Reach PoolSt.init OwnStep (mk { p0 with fresh := 1 } (fun _ => .idle) [(0, 0)] []) :=
    .step r0 ⟨.alloc 0 rfl, fun g b _ hb => by cases hb⟩
  exact ⟨_, .step r1 ⟨.handOver 0 3 0 rfl (by simp [mk]), fun g b _ hb => by cases hb⟩, rfl, rfl⟩

/-- C36: the discipline is needed. After a double `Put` the pool hands the same buffer to two holders. -/
theorem C36_double_put_shares : ∃ p1 p2 p3 b b', p0.GetBySize 4 = .ok (b, p1) ∧
    ((p1.Put b).Put b).GetBySize 4 = .ok (b', p2) ∧ p2.GetBySize 4 = .ok (b', p3) :=
  ⟨{ p0 with fresh := 1 }, { p0 with fresh := 1, chans := [(4, [b0])] }, { p0 with fresh := 1 }, b0, b0, by decide⟩

end P2P

import Verif.Props.BytesPool
import Verif.Props.Shutdown
import Verif.Props.Crawl
/-! # How calls end: the pool's `Get`/`Put` (C35), a panicking clean-up (C51), the start of the program (C82) -/
namespace P2P

/-! ## C35: every call of the pool ends, and how -/

theorem neg_chan_empty {s : PoolSt} (hr : Reach PoolSt.init PoolStep s) {n : Int} (hn : n < 0) {c : List Slice}
    (hc : s.pool.chan n = some c) : c = [] := by
  have hI : s.pool.Ok := by
    refine Reach.inv (fun s => s.pool.Ok) ?_ ?_ hr
    · rintro s ⟨⟨m, w, hp⟩, -, -, hl⟩
      exact (new_ok hp).1
    · intro s t h hs
      cases hs with
      | getLoad g size hg => exact loadOrStore_ok h _
      | getSelect hg he => exact (selectGet_ok h he).1
      | getPanic hg he => exact h
      | putLoad g b hg => exact loadOrStore_ok h _
      | putSelect hg => exact selectPut_ok h _
      | alloc g hg => exact h
      | handOver g g' arr hg hm => exact h
  cases c with
  | nil => rfl
  | cons b r =>
    have := ((hI n _ hc).2 b (List.mem_cons_self ..)).1
    omega

/-- `selectGet` on a reachable pool: a result exactly for sizes that are not negative -/
theorem selectGet_reach {s : PoolSt} (hr : Reach PoolSt.init PoolStep s) (n : Int) :
    (0 ≤ n → ∃ b p, s.pool.selectGet n = .ok (b, p)) ∧ (n < 0 → s.pool.selectGet n = .panic .runtime) := by
  constructor
  · intro h
    unfold BPool.selectGet
    split
    · exact ⟨_, _, rfl⟩
    · rw [if_neg (by omega)]; exact ⟨_, _, rfl⟩
  · intro h
    unfold BPool.selectGet
    split
    · rename_i b r hc
      exact absurd (neg_chan_empty hr h hc) (by simp)
    · rw [if_pos h]

/-- **C35: how a call of the pool ends.** Among any number of goroutines, a `Get`/`GetBySize(n)` that is under way can finish now, whatever the
others do, and finishes in one way only: for `n ≥ 0` it returns a buffer of length and capacity `n`; for `n < 0` it panics, hands out nothing
and leaves the pool as it was. A `Put` that is under way can finish now, too. -/
theorem C35_ends {s : PoolSt} (hr : Reach PoolSt.init PoolStep s) (g : Nat) (n : Int) (hg : s.pc g = .getting n) :
    (∃ t, PoolStep s t ∧ t.pc g = .idle) ∧
    ∀ t, PoolStep s t → t.pc g = .idle →
      (0 ≤ n → ∃ b : Slice, (b.len : Int) = n ∧ (b.cap : Int) = n ∧ t.log = s.log ++ [(n, b)] ∧ t.held = (g, b.arr) :: s.held) ∧
      (n < 0 → t.log = s.log ∧ t.held = s.held ∧ t.pool = s.pool) := by
  obtain ⟨h1, h2⟩ := selectGet_reach hr n
  constructor
  · by_cases hn : 0 ≤ n
    · obtain ⟨b, p, e⟩ := h1 hn
      exact ⟨_, .getSelect hg e, by simp⟩
    · exact ⟨_, .getPanic hg (h2 (by omega)), by simp⟩
  · intro t hs ht
    have hsz := (C35_sizes (.step hr hs)).1
    cases hs with
    | getLoad g' size hg' =>
      by_cases e : g = g'
      · subst e; rw [hg] at hg'; cases hg'
      · simp [upd_ne _ _ e, hg] at ht
    | @getSelect g' size b p hg' he =>
      by_cases e : g = g'
      · subst e
        rw [hg] at hg'; cases hg'
        by_cases hn : 0 ≤ n
        · obtain ⟨a1, a2⟩ := hsz n b (by simp)
          exact ⟨fun _ => ⟨b, a1, a2, rfl, rfl⟩, fun h => by omega⟩
        · rw [h2 (by omega)] at he; cases he
      · simp [upd_ne _ _ e, hg] at ht
    | @getPanic g' size hg' he =>
      by_cases e : g = g'
      · subst e
        rw [hg] at hg'; cases hg'
        by_cases hn : 0 ≤ n
        · obtain ⟨b, p, e⟩ := h1 hn
          rw [e] at he; cases he
        · exact ⟨fun h => absurd h hn, fun _ => ⟨rfl, rfl, rfl⟩⟩
      · simp [upd_ne _ _ e, hg] at ht
    | putLoad g' b hg' =>
      by_cases e : g = g'
      · subst e; rw [hg] at hg'; cases hg'
      · simp [upd_ne _ _ e, hg] at ht
    | @putSelect g' b hg' =>
      by_cases e : g = g'
      · subst e; rw [hg] at hg'; cases hg'
      · simp [upd_ne _ _ e, hg] at ht
    | alloc g' hg' => rw [hg] at ht; cases ht
    | handOver g' g'' arr hg' hm => rw [hg] at ht; cases ht

/-- **C35: a `Put` that is under way** can finish now, and when it does, the buffer is the newest of its width, at full length, unless that
width already has `maxSize` buffers; the other widths are as they were. -/
theorem C35_put_ends {s : PoolSt} (hr : Reach PoolSt.init PoolStep s) (g : Nat) (b : Slice) (hg : s.pc g = .putting b) :
    (∃ t, PoolStep s t ∧ t.pc g = .idle) ∧
    ∀ t, PoolStep s t → t.pc g = .idle → t.log = s.log ∧
      ∃ c, s.pool.chan b.cap = some c ∧
        t.pool.chan b.cap = some (if c.length < s.pool.maxSize then c ++ [{ b with len := b.cap }] else c) ∧
        ∀ n, n ≠ (b.cap : Int) → t.pool.chan n = s.pool.chan n := by
  have hc : ∃ c, s.pool.chan b.cap = some c := by
    have key := Reach.inv (fun s => ∀ g b, s.pc g = .putting b → ∃ c, s.pool.chan b.cap = some c) ?_ ?_ hr
    · exact key g b hg
    · rintro s ⟨-, hp, -, -⟩ g b h
      rw [hp] at h; cases h
    · have mono : ∀ (p : BPool) (i j : Int), (∃ c, p.chan i = some c) → ∃ c, (p.loadOrStore j).chan i = some c := by
        rintro p i j ⟨c, hc⟩
        rw [loadOrStore_chan]
        split
        · exact ⟨_, rfl⟩
        · exact ⟨c, hc⟩
      have setc : ∀ (p : BPool) (i j : Int) (c' : List Slice), (∃ c, p.chan i = some c) →
          ∃ c, BPool.chan { p with chans := setChan p.chans j c' } i = some c := by
        rintro p i j c' ⟨c, hc⟩
        unfold BPool.chan at *
        rw [lookup_setChan]
        split
        · rename_i e; subst e
          rw [hc]; exact ⟨_, rfl⟩
        · exact ⟨c, hc⟩
      intro s t I hs g b hp
      cases hs with
      | getLoad g' size hg' =>
        by_cases e : g = g'
        · subst e; simp at hp
        · simp only [upd_ne _ _ e] at hp
          exact mono _ _ _ (I g b hp)
      | @getSelect g' size b' p hg' he =>
        by_cases e : g = g'
        · subst e; simp at hp
        · simp only [upd_ne _ _ e] at hp
          have := I g b hp
          unfold BPool.selectGet at he
          split at he
          · cases he; exact setc _ _ _ _ this
          · split at he
            · cases he
            · cases he; exact this
      | @getPanic g' size hg' he =>
        by_cases e : g = g'
        · subst e; simp at hp
        · simp only [upd_ne _ _ e] at hp
          exact I g b hp
      | putLoad g' b' hg' =>
        by_cases e : g = g'
        · subst e
          simp only [upd_same, PoolPc.putting.injEq] at hp
          subst hp
          simp only [loadOrStore_chan, if_pos]
          exact ⟨_, rfl⟩
        · simp only [upd_ne _ _ e] at hp
          exact mono _ _ _ (I g b hp)
      | @putSelect g' b' hg' =>
        by_cases e : g = g'
        · subst e; simp at hp
        · simp only [upd_ne _ _ e] at hp
          have := I g b hp
          show ∃ c, (s.pool.selectPut b').chan b.cap = some c
          unfold BPool.selectPut
          split
          · split
            · exact setc _ _ _ _ this
            · exact this
          · exact this
      | alloc g' hg' => exact I g b hp
      | handOver g' g'' arr hg' hm => exact I g b hp
  obtain ⟨c, hc⟩ := hc
  refine ⟨⟨_, .putSelect hg, by simp⟩, ?_⟩
  intro t hs ht
  cases hs with
  | getLoad g' size hg' =>
    by_cases e : g = g'
    · subst e; rw [hg] at hg'; cases hg'
    · simp [upd_ne _ _ e, hg] at ht
  | @getSelect g' size b p hg' he =>
    by_cases e : g = g'
    · subst e; rw [hg] at hg'; cases hg'
    · simp [upd_ne _ _ e, hg] at ht
  | @getPanic g' size hg' he =>
    by_cases e : g = g'
    · subst e; rw [hg] at hg'; cases hg'
    · simp [upd_ne _ _ e, hg] at ht
  | putLoad g' b hg' =>
    by_cases e : g = g'
    · subst e; rw [hg] at hg'; cases hg'
    · simp [upd_ne _ _ e, hg] at ht
  | @putSelect g' b' hg' =>
    by_cases e : g = g'
    · subst e
      rw [hg] at hg'; cases hg'
      refine ⟨rfl, c, hc, ?_, ?_⟩
      · show (s.pool.selectPut b).chan b.cap = _
        unfold BPool.selectPut
        rw [hc]
        by_cases hl : c.length < s.pool.maxSize
        · simp only [if_pos hl]
          unfold BPool.chan at *
          rw [lookup_setChan, if_pos rfl, hc]; rfl
        · simp only [if_neg hl]; exact hc
      · intro n hn
        show (s.pool.selectPut b).chan n = _
        unfold BPool.selectPut
        rw [hc]
        by_cases hl : c.length < s.pool.maxSize
        · simp only [if_pos hl]
          unfold BPool.chan at *
          rw [lookup_setChan, if_neg hn]
        · simp only [if_neg hl]
    · simp [upd_ne _ _ e, hg] at ht
  | alloc g' hg' => rw [hg] at ht; cases ht
  | handOver g' g'' arr hg' hm => rw [hg] at ht; cases ht

/-- a pool in which goroutine 0 is in `GetBySize(-1)` and goroutine 1 in `Put` -/
example : ∃ s, Reach PoolSt.init PoolStep s ∧ s.pc 0 = .getting (-1) ∧ s.pc 1 = .putting ⟨0, 0, 2, 4⟩ := by
  have r0 : Reach PoolSt.init PoolStep { pool := ⟨[(4, [])], 4, 10, 0⟩, pc := fun _ => .idle, held := [], log := [] } :=
    .init ⟨⟨10, 4, rfl⟩, fun _ => rfl, rfl, rfl⟩
  have r1 := Reach.step r0 (.getLoad 0 (-1) rfl)
  have r2 := Reach.step r1 (.putLoad 1 ⟨0, 0, 2, 4⟩ rfl)
  exact ⟨_, r2, rfl, rfl⟩

/-! ## C51: a clean-up that panics -/

/-- **C51: a panic of a clean-up function ends the process.** Nothing recovers it: while a clean-up is running it may panic, and after that no
`WaitShutdown` returns, no clean-up starts, the status stays what it is: nothing happens any more. -/
theorem C51_panic_kills {n : Nat} {s : SdSt} :
    (s.dead = false → ∀ (c k : Nat), (s.calls c).cleans[k]? = some CleanPc.running → ∃ t, SdStep n s t ∧ t.dead = true ∧ t.calls = s.calls ∧ t.status = s.status) ∧
    (s.dead = true → ∀ t, ¬ SdStep n s t) := by
  constructor
  · intro hd c k hk
    exact ⟨_, .cleanPanics c k hd hk, rfl, rfl, rfl⟩
  · intro hd t hs
    cases hs <;> simp_all

/-- only a running clean-up function makes the process die: without one, no step ends it -/
theorem C51_only_cleans_kill {n : Nat} {s t : SdSt} (hd : s.dead = false) (hs : SdStep n s t) (ht : t.dead = true) :
    ∃ (c k : Nat), (s.calls c).cleans[k]? = some CleanPc.running := by
  cases hs with
  | cleanPanics c k h hk => exact ⟨c, k, hk⟩
  | _ => exact absurd (hd.symm.trans ht) (by decide)

/-- a reachable state with a running clean-up -/
example : ∃ s, SdReach 1 s ∧ s.dead = false ∧ (s.calls 0).cleans[0]? = some .running := by
  have r0 : SdReach 1 (sd0 1) := .init (sd0_init 1)
  have r1 := Reach.step r0 (.cancel rfl)
  have r2 := Reach.step r1 (.wakeCancel 0 rfl rfl rfl)
  have r3 := Reach.step r2 (.storeShutdowning 0 rfl (by simp [SdSt.setCall]))
  have r4 := Reach.step r3 (.runCleans 0 rfl (by simp [SdSt.setCall]))
  have r5 := Reach.step r4 (.add 0 rfl (by simp [SdSt.setCall]))
  have r6 := Reach.step r5 (.spawn 0 rfl (by simp [SdSt.setCall]) (by simp [SdSt.setCall, sd0]))
  have r7 := Reach.step r6 (.cleanStart 0 0 rfl (by simp [SdSt.setCall, sd0]))
  exact ⟨_, r7, rfl, by simp [SdSt.setCall, sd0]⟩

/-! ## C82: the start of the program -/

/-- **C82: the program starts exactly when its DHT port is a port number.** Then the route table holds the crawler itself only; otherwise
making it panics, before anything else happens. -/
theorem C82_start (port : Int) :
    ((∃ t, initialTable port = .ok t) ↔ 0 ≤ port ∧ port < 65536) ∧
    (¬ (0 ≤ port ∧ port < 65536) → ∃ p, initialTable port = .panic p) ∧
    ∀ t, initialTable port = .ok t → t.nodes = [{ id := localNodeId, addr := { ip := [], port } }] := by
  have hno : ¬ (0 ≤ port ∧ port < 65536) → ∃ p, initialTable port = .panic p := by
    intro h
    unfold initialTable NewNodeInfoFromHost resolveHostPort
    rw [if_neg h]; exact ⟨_, rfl⟩
  refine ⟨⟨?_, ?_⟩, hno, ?_⟩
  · rintro ⟨t, ht⟩
    apply Classical.byContradiction
    intro hn
    obtain ⟨p, hp⟩ := hno hn
    rw [hp] at ht; cases ht
  · intro h
    unfold initialTable NewNodeInfoFromHost resolveHostPort
    rw [if_pos h]; exact ⟨_, rfl⟩
  · intro t ht
    obtain ⟨-, -, -, e, -, h, -⟩ := initialTable_sound realK.env ht
    rw [h, e]

end P2P

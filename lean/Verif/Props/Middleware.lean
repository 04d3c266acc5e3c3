import Verif.Model.Middleware
/-! # C26: the handler chain -/
namespace P2P

/-- the handler's own code terminates (handlers are assumed not to loop or block forever) -/
def Prog.Terminating {σ : Type} : Prog σ → Prop
  | .ret => True
  | .eff f k => (∀ s, f s ≠ .diverge) ∧ k.Terminating
  | .ask k => ∀ s, (k s).Terminating
  | .next k => k.Terminating

/-- what a piece of chain code started with `c` must satisfy -/
def ChainOk {σ : Type} (n : Nat) (lo hi : Nat) (c : ChainSt σ) : Out (ChainSt σ) Unit → Prop
  | .ok _ c' => c.index + lo ≤ c'.index ∧ c'.started = List.range (min (c'.index + 1 - hi).toNat n)
  | .panic _ c' => ∃ m, m ≤ n ∧ 0 < m ∧ c'.started = List.range m
  | .diverge => False

theorem runProg_ok {σ : Type} (n : Nat) (nextCall : GoM (ChainSt σ) Unit) (i0 : Int)
    (hn : ∀ c : ChainSt σ, i0 ≤ c.index → 0 ≤ c.index → c.started = List.range (min (c.index + 1).toNat n) →
      ChainOk n 0 0 c (nextCall c))
    (p : Prog σ) (hp : p.Terminating) (c : ChainSt σ) (hi : i0 ≤ c.index) (h0 : 0 ≤ c.index) (hn0 : 0 < n)
    (hc : c.started = List.range (min (c.index + 1).toNat n)) :
    ChainOk n 0 0 c (runProg nextCall p c) := by
  induction p generalizing c with
  | ret => exact ⟨by omega, by simpa using hc⟩
  | eff f k ih =>
    simp only [runProg]
    cases hf : f c.s with
    | ok a s' => exact ih hp.2 _ hi h0 hc
    | panic q s' => exact ⟨_, Nat.min_le_right _ _, by omega, hc⟩
    | diverge => exact absurd hf (hp.1 _)
  | ask k ih => exact ih c.s (hp c.s) c hi h0 hc
  | next k ih =>
    simp only [runProg]
    have h1 := hn c hi h0 hc
    cases hr : nextCall c with
    | ok a c' =>
      rw [hr] at h1
      simp only [ChainOk] at h1
      have h2 := ih hp c' (by omega) (by omega) (by simpa using h1.2)
      show ChainOk n 0 0 c (runProg nextCall k c')
      generalize runProg nextCall k c' = r at h2 ⊢
      cases r with
      | ok _ c'' => simp only [ChainOk] at h2 ⊢; exact ⟨by omega, h2.2⟩
      | panic => exact h2
      | diverge => exact h2
    | panic q c' => rw [hr] at h1; exact h1
    | diverge => rw [hr] at h1; exact h1

theorem chainLoop_final {σ : Type} (chain : List (Prog σ)) (g : Nat) (d d' : ChainSt σ)
    (h : chainLoop chain g d = .ok () d') : (chain.length : Int) ≤ d'.index := by
  induction g generalizing d with
  | zero => simp [chainLoop] at h
  | succ g ihg =>
    simp only [chainLoop] at h
    split at h
    · split at h
      · cases h
      · split at h
        · exact ihg _ h
        · cases h
        · cases h
    · cases h; omega

theorem chain_ok {σ : Type} (chain : List (Prog σ)) (ht : ∀ p ∈ chain, p.Terminating) (f : Nat) :
    (∀ c : ChainSt σ, 0 ≤ c.index → 2 * ((chain.length : Int) - c.index) + 1 ≤ f → 1 ≤ f → 0 < chain.length →
      c.started = List.range (min c.index.toNat chain.length) →
      ChainOk chain.length 0 1 c (chainLoop chain f c)) ∧
    (∀ c : ChainSt σ, 0 ≤ c.index → 2 * ((chain.length : Int) - c.index) ≤ f → 2 ≤ f → 0 < chain.length →
      c.started = List.range (min (c.index + 1).toNat chain.length) →
      ChainOk chain.length 0 0 c (chainNext chain f c)) := by
  induction f with
  | zero => exact ⟨fun c _ _ h => by omega, fun c _ _ h => by omega⟩
  | succ f ih =>
    refine ⟨?_, ?_⟩
    · intro c h0 hf _ hpos hc
      simp only [chainLoop]
      by_cases hlt : c.index < chain.length
      · have hget : chain[c.index.toNat]? = some (chain[c.index.toNat]'(by omega)) :=
          List.getElem?_eq_getElem (by omega)
        simp only [hlt, if_true, hget]
        have hstart : (c.started ++ [c.index.toNat]) = List.range (min (c.index + 1).toNat chain.length) := by
          rw [hc]
          have e1 : min c.index.toNat chain.length = c.index.toNat := by omega
          have e2 : min (c.index + 1).toNat chain.length = c.index.toNat + 1 := by omega
          rw [e1, e2, List.range_succ]
        have h1 := runProg_ok chain.length (chainNext chain f) c.index
          (fun c' hi h0' hc' => ih.2 c' h0' (by omega) (by omega) hpos hc')
          (chain[c.index.toNat]'(by omega)) (ht _ (List.getElem_mem _))
          { c with started := c.started ++ [c.index.toNat] } (Int.le_refl _) h0 hpos hstart
        generalize runProg (chainNext chain f) (chain[c.index.toNat]'(by omega))
          { c with started := c.started ++ [c.index.toNat] } = r at h1 ⊢
        cases r with
        | ok _ c' =>
          simp only [ChainOk] at h1
          have h2 := ih.1 { c' with index := c'.index + 1 } (by show 0 ≤ c'.index + 1; omega)
            (by show 2 * ((chain.length : Int) - (c'.index + 1)) + 1 ≤ f; omega) (by omega) hpos
            (by simpa using h1.2)
          show ChainOk chain.length 0 1 c (chainLoop chain f { c' with index := c'.index + 1 })
          generalize chainLoop chain f { c' with index := c'.index + 1 } = r at h2 ⊢
          cases r with
          | ok _ c'' => simp only [ChainOk] at h2 ⊢; exact ⟨by omega, h2.2⟩
          | panic => exact h2
          | diverge => exact h2
        | panic => exact h1
        | diverge => exact h1
      · simp only [hlt, if_false]
        refine ⟨by omega, ?_⟩
        rw [hc]; congr 2; omega
    · intro c h0 hf _ hpos hc
      simp only [chainNext]
      have h1 := ih.1 { c with index := c.index + 1 } (by show 0 ≤ c.index + 1; omega)
        (by show 2 * ((chain.length : Int) - (c.index + 1)) + 1 ≤ f; omega) (by omega) hpos
        (by simpa using hc)
      have hfin : ∀ c', chainLoop chain f { c with index := c.index + 1 } = .ok () c' →
          (chain.length : Int) ≤ c'.index := by
        intro c' h
        exact chainLoop_final _ _ _ _ h
      cases hr : chainLoop chain f { c with index := c.index + 1 } with
      | ok a c' =>
        rw [hr] at h1
        simp only [ChainOk] at h1 ⊢
        have := hfin c' hr
        refine ⟨by omega, ?_⟩
        rw [h1.2]; congr 1; omega
      | panic q c' => rw [hr] at h1; exact h1
      | diverge => rw [hr] at h1; exact h1

/-- C26: one `ctx.Next()` on a fresh context always comes to an end; it starts every handler of the chain
exactly once, in order – whatever the handlers do and whether or not they call `Next` – unless a handler
panics, and then exactly a prefix of the chain has been started. -/
theorem C26_chain {σ : Type} (chain : List (Prog σ)) (ht : ∀ p ∈ chain, p.Terminating) (s : σ) :
    (∃ c, runChain chain s = .ok () c ∧ c.started = List.range chain.length) ∨
    (∃ p c m, runChain chain s = .panic p c ∧ 0 < m ∧ m ≤ chain.length ∧ c.started = List.range m) := by
  by_cases hpos : 0 < chain.length
  · have h := (chain_ok chain ht (2 * chain.length + 1)).1 { index := 0, started := [], s := s } (Int.le_refl _)
      (by simp) (by omega) hpos (by simp)
    have e : runChain chain s = chainLoop chain (2 * chain.length + 1) { index := 0, started := [], s := s } := rfl
    rw [e]
    cases hr : chainLoop chain (2 * chain.length + 1) { index := 0, started := [], s := s } with
    | ok a c =>
      left
      rw [hr] at h
      simp only [ChainOk] at h
      refine ⟨c, rfl, ?_⟩
      have hfin : (chain.length : Int) ≤ c.index := chainLoop_final _ _ _ _ hr
      rw [h.2]; congr 1; omega
    | panic p c =>
      right
      rw [hr] at h
      obtain ⟨m, h1, h2, h3⟩ := h
      exact ⟨p, c, m, rfl, h2, h1, h3⟩
    | diverge => rw [hr] at h; exact absurd h id
  · left
    have : chain = [] := List.length_eq_zero_iff.mp (by omega)
    subst this
    exact ⟨_, rfl, rfl⟩

/-- C26: if no handler panics, all handlers run. -/
def Prog.PanicFree {σ : Type} : Prog σ → Prop
  | .ret => True
  | .eff f k => (∀ s p s', f s ≠ .panic p s') ∧ k.PanicFree
  | .ask k => ∀ s, (k s).PanicFree
  | .next k => k.PanicFree

theorem runProg_noPanic {σ : Type} (nextCall : GoM (ChainSt σ) Unit)
    (hn : ∀ c p c', nextCall c ≠ .panic p c') (q : Prog σ) (hq : q.PanicFree) :
    ∀ c p c', runProg nextCall q c ≠ .panic p c' := by
  induction q with
  | ret => intro c p c' h; cases h
  | eff f k ih =>
    intro c p c' h
    simp only [runProg] at h
    split at h
    · exact ih hq.2 _ _ _ h
    · rename_i hf; exact hq.1 _ _ _ hf
    · cases h
  | ask k ih => intro c p c' h; exact ih c.s (hq c.s) c p c' h
  | next k ih =>
    intro c p c' h
    simp only [runProg] at h
    split at h
    · exact ih hq _ _ _ h
    · rename_i hf; exact hn _ _ _ hf
    · cases h

/-- no panic, and the index is not negative -/
def ChainNP {σ : Type} : Out (ChainSt σ) Unit → Prop
  | .ok _ c => 0 ≤ c.index
  | .panic _ _ => False
  | .diverge => True

theorem chain_noPanic {σ : Type} (chain : List (Prog σ)) (hq : ∀ p ∈ chain, p.PanicFree) (f : Nat) :
    (∀ c p c', 0 ≤ c.index → chainLoop chain f c ≠ .panic p c') ∧
    (∀ c p c', -1 ≤ c.index → chainNext chain f c ≠ .panic p c') := by
  induction f with
  | zero => exact ⟨fun c p c' _ h => by simp [chainLoop] at h, fun c p c' _ h => by simp [chainNext] at h⟩
  | succ f ih =>
    refine ⟨?_, ?_⟩
    · intro c p c' h0 h
      simp only [chainLoop] at h
      split at h
      · split at h
        · rename_i hlt hnone
          rw [List.getElem?_eq_none_iff] at hnone
          omega
        · rename_i hd hget
          have hmem : hd ∈ chain := List.mem_of_getElem? hget
          have key : ∀ (q : Prog σ), q.PanicFree → ∀ c, 0 ≤ c.index →
              ChainNP (runProg (chainNext chain f) q c) := by
            intro q
            induction q with
            | ret => intro _ c hc; exact hc
            | eff g k ihk =>
              intro hq c hc
              simp only [runProg]
              split
              · exact ihk hq.2 _ hc
              · rename_i hf; exact absurd hf (hq.1 _ _ _)
              · trivial
            | ask k ihk => intro hq c hc; exact ihk c.s (hq c.s) c hc
            | next k ihk =>
              intro hq c hc
              simp only [runProg]
              split
              · rename_i c' hcn
                apply ihk hq
                cases f with
                | zero => simp [chainNext] at hcn
                | succ f =>
                  simp only [chainNext] at hcn
                  have := chainLoop_final _ _ _ _ hcn
                  omega
              · rename_i hf
                exact absurd hf (ih.2 _ _ _ (by omega))
              · trivial
          have hk := key hd (hq hd hmem) { c with started := c.started ++ [c.index.toNat] } h0
          split at h
          · rename_i c1 hr
            rw [hr] at hk
            have : 0 ≤ c1.index := hk
            exact ih.1 _ _ _ (by show 0 ≤ c1.index + 1; omega) h
          · rename_i hr; rw [hr] at hk; exact hk
          · cases h
      · cases h
    · intro c p c' h0 h
      simp only [chainNext] at h
      exact ih.1 _ _ _ (by show 0 ≤ c.index + 1; omega) h

/-- C26: the only way to keep a handler from running is a panic. -/
theorem C26_all_run {σ : Type} (chain : List (Prog σ)) (ht : ∀ p ∈ chain, p.Terminating)
    (hq : ∀ p ∈ chain, p.PanicFree) (s : σ) :
    ∃ c, runChain chain s = .ok () c ∧ c.started = List.range chain.length := by
  rcases C26_chain chain ht s with h | ⟨p, c, m, h, -⟩
  · exact h
  · exact absurd h ((chain_noPanic chain hq _).2 _ _ _ (by simp))

/-- three middlewares: one that calls `Next` twice, one that does not call it, one that works afterwards;
the recorded work shows the nesting -/
example : ∃ c, runChain (σ := List Nat)
    [.eff (GoM.modify (· ++ [10])) (.next (.next (.eff (GoM.modify (· ++ [11])) .ret))),
     .eff (GoM.modify (· ++ [20])) .ret,
     .eff (GoM.modify (· ++ [30])) (.next (.eff (GoM.modify (· ++ [31])) .ret))] [] = .ok () c ∧
    c.started = [0, 1, 2] ∧ c.s = [10, 20, 30, 31, 11] := by
  simp [runChain, chainNext, chainLoop, runProg]
/-- a panicking middleware cuts the chain -/
example : ∃ c, runChain (σ := List Nat)
    [.next .ret, .eff (GoM.panic (.str b!"stop")) .ret, .ret] [] = .panic (.str b!"stop") c ∧
    c.started = [0, 1] := ⟨_, rfl, rfl⟩

end P2P

import Verif.Model.ConfigConc
/-! # C107: the configuration is accessed without a race -/
namespace P2P

/-- an access to the map of sections overlaps a write to it by another goroutine, or two goroutines are in viper -/
def CfgRacy (s : CcSt) : Prop :=
  ∃ (g g' : Nat) (k k' : CfgKey) (r r' : List CfgAct), g ≠ g' ∧
    ((s.gor g = some (.writing k, r) ∧ (s.gor g' = some (.reading k', r') ∨ s.gor g' = some (.writing k', r'))) ∨
     (s.gor g = some (.decoding k, r) ∧ s.gor g' = some (.decoding k', r')))

/-- nothing but accesses to sections in `ks` and starts of goroutines that exist in `code` -/
def Within (ks : List CfgKey) (l : List CfgAct) : Prop := ∀ k, CfgAct.get k ∈ l → k ∈ ks

/-- **prepared**: goroutine 0 first accesses all sections that are ever accessed, before it starts the first goroutine -/
structure Prepared (code : Nat → List CfgAct) (ks : List CfgKey) (rest : List CfgAct) : Prop where
  first : code 0 = ks.map .get ++ rest
  rest : Within ks rest
  others : ∀ g, g ≠ 0 → Within ks (code g)

inductive CcInv (code : Nat → List CfgAct) (ks : List CfgKey) (rest : List CfgAct) (s : CcSt) : Prop where
  /-- goroutine 0 is alone -/
  | alone (done todo : List CfgKey) (hks : ks = done ++ todo) (hd : ∀ k ∈ done, s.cached k = true)
      (h0 : s.gor 0 = some (.out, todo.map .get ++ rest) ∨
        ∃ k r, todo = k :: r ∧ (s.gor 0 = some (.reading k, r.map .get ++ rest) ∨ s.gor 0 = some (.decoding k, r.map .get ++ rest) ∨
          s.gor 0 = some (.writing k, r.map .get ++ rest)))
      (hg : ∀ g, g ≠ 0 → s.gor g = none)
  /-- all sections are there -/
  | ready (hc : ∀ k ∈ ks, s.cached k = true)
      (hg : ∀ g a r, s.gor g = some (a, r) → (a = .out ∨ ∃ k ∈ ks, a = .reading k) ∧ Within ks r)

theorem ccInv_step {code : Nat → List CfgAct} {ks : List CfgKey} {rest : List CfgAct} (hp : Prepared code ks rest) {s t : CcSt}
    (h : CcInv code ks rest s) (st : CcStep code s t) : CcInv code ks rest t := by
  have conv : ∀ {s : CcSt}, (∀ k ∈ ks, s.cached k = true) → s.gor 0 = some (.out, rest) → (∀ g, g ≠ 0 → s.gor g = none) → CcInv code ks rest s := by
    intro s hc h0 hg
    refine .ready hc ?_
    intro g a r e
    by_cases hz : g = 0
    · subst hz; rw [h0] at e; cases e; exact ⟨.inl rfl, hp.rest⟩
    · rw [hg g hz] at e; cases e
  cases h with
  | ready hc hg =>
    have put : ∀ {s' : CcSt} (g : Nat) (x : CfgAt × List CfgAct), s'.gor = upd s.gor g (some x) → (∀ k ∈ ks, s'.cached k = true) →
        ((x.1 = .out ∨ ∃ k ∈ ks, x.1 = .reading k) ∧ Within ks x.2) → CcInv code ks rest s' := by
      intro s' g x e hc' hx
      refine .ready hc' ?_
      intro g' a r he
      rw [e] at he
      by_cases hz : g' = g
      · subst hz; rw [upd_same] at he; cases he; exact hx
      · rw [upd_ne _ _ hz] at he; exact hg g' a r he
    cases st with
    | call g k r hd e =>
      have := hg g _ _ e
      exact put g _ rfl hc ⟨.inr ⟨k, this.2 k (List.mem_cons_self ..), rfl⟩, fun k' hk' => this.2 k' (List.mem_cons_of_mem _ hk')⟩
    | hit g k r hd e hk => exact put g _ rfl hc ⟨.inl rfl, (hg g _ _ e).2⟩
    | miss g k r hd e hk =>
      obtain ⟨h1 | ⟨k', hk', h1⟩, -⟩ := hg g _ _ e
      · cases h1
      · cases h1; rw [hc k hk'] at hk; cases hk
    | decoded g k r hd e => obtain ⟨h1 | ⟨k', hk', h1⟩, -⟩ := hg g _ _ e <;> cases h1
    | failed g k r hd e => exact .ready hc hg
    | stored g k r hd e => obtain ⟨h1 | ⟨k', hk', h1⟩, -⟩ := hg g _ _ e <;> cases h1
    | go g h r hd e hn =>
      refine .ready hc ?_
      intro g' a r' he
      change upd (upd s.gor h _) g _ g' = _ at he
      by_cases hz : g' = g
      · subst hz; rw [upd_same] at he; cases he
        exact ⟨.inl rfl, fun k hk => (hg g' _ _ e).2 k (List.mem_cons_of_mem _ hk)⟩
      · rw [upd_ne _ _ hz] at he
        by_cases hh : g' = h
        · subst hh; rw [upd_same] at he; cases he
          refine ⟨.inl rfl, ?_⟩
          by_cases h0 : g' = 0
          · subst h0
            rw [hp.first]
            intro k hk
            rcases List.mem_append.1 hk with hk | hk
            · obtain ⟨k', hk', e'⟩ := List.mem_map.1 hk; cases e'; exact hk'
            · exact hp.rest k hk
          · exact hp.others g' h0
        · rw [upd_ne _ _ hh] at he; exact hg g' a r' he
  | alone done todo hks hd h0 hg =>
    have only : ∀ {g : Nat} {x}, s.gor g = some x → g = 0 := by
      intro g x e
      by_cases hz : g = 0
      · exact hz
      · rw [hg g hz] at e; cases e
    have oth : ∀ (x : Option (CfgAt × List CfgAct)) g, g ≠ 0 → upd s.gor 0 x g = none := by
      intro x g hz; rw [upd_ne _ _ hz]; exact hg g hz
    have us : ∀ x, upd s.gor 0 x 0 = x := fun x => upd_same s.gor 0 x
    cases todo with
    | nil =>
      have e0 : s.gor 0 = some (.out, rest) := by
        rcases h0 with h0 | ⟨k, r, e, _⟩
        · exact h0
        · cases e
      have hc : ∀ k ∈ ks, s.cached k = true := by rw [hks, List.append_nil]; exact hd
      have hrdy := conv hc e0 hg
      -- from here on as in the other phase
      have hg' : ∀ g a r, s.gor g = some (a, r) → (a = .out ∨ ∃ k ∈ ks, a = .reading k) ∧ Within ks r := by
        intro g a r e
        have := only e; subst this
        rw [e0] at e; cases e; exact ⟨.inl rfl, hp.rest⟩
      cases st with
      | call g k r hdd e =>
        have := only e; subst this
        rw [e0] at e; cases e
        refine .ready hc ?_
        intro g' a r' he
        change upd s.gor 0 _ g' = _ at he
        by_cases hz : g' = 0
        · subst hz; rw [upd_same] at he; cases he
          exact ⟨.inr ⟨k, hp.rest k (List.mem_cons_self ..), rfl⟩, fun k' hk' => hp.rest k' (List.mem_cons_of_mem _ hk')⟩
        · rw [oth _ g' hz] at he; cases he
      | hit g k r _ e hk => have := only e; subst this; rw [e0] at e; cases e
      | miss g k r _ e hk => have := only e; subst this; rw [e0] at e; cases e
      | decoded g k r _ e => have := only e; subst this; rw [e0] at e; cases e
      | failed g k r _ e => have := only e; subst this; rw [e0] at e; cases e
      | stored g k r _ e => have := only e; subst this; rw [e0] at e; cases e
      | go g h r _ e hn =>
        have := only e; subst this
        rw [e0] at e; cases e
        refine .ready hc ?_
        intro g' a r' he
        change upd (upd s.gor h _) 0 _ g' = _ at he
        by_cases hz : g' = 0
        · subst hz; rw [upd_same] at he; cases he
          exact ⟨.inl rfl, fun k hk => hp.rest k (List.mem_cons_of_mem _ hk)⟩
        · rw [upd_ne _ _ hz] at he
          by_cases hh : g' = h
          · subst hh; rw [upd_same] at he; cases he
            exact ⟨.inl rfl, hp.others g' hz⟩
          · rw [upd_ne _ _ hh, hg g' hz] at he; cases he
    | cons k0 r0 =>
      have hdone : ∀ {c : CfgKey → Bool}, (∀ k ∈ done, c k = true) → c k0 = true → ∀ k ∈ done ++ [k0], c k = true := by
        intro c h1 h2 k hk
        rcases List.mem_append.1 hk with hk | hk
        · exact h1 k hk
        · rw [List.mem_singleton] at hk; subst hk; exact h2
      have hks' : ks = (done ++ [k0]) ++ r0 := by rw [hks]; simp
      cases st with
      | call g k r hdd e =>
        have := only e; subst this
        rcases h0 with h0 | ⟨k', r', e', h0 | h0 | h0⟩
        · rw [h0] at e; cases e
          exact .alone done (k0 :: r0) hks hd (.inr ⟨k0, r0, rfl, .inl (us _)⟩) (oth _)
        all_goals rw [h0] at e; cases e
      | hit g k r hdd e hk =>
        have := only e; subst this
        rcases h0 with h0 | ⟨k', r', e', h0 | h0 | h0⟩
        · rw [h0] at e; cases e
        · rw [h0] at e; cases e; cases e'
          exact .alone (done ++ [k0]) r0 hks' (hdone hd hk) (.inl (us _)) (oth _)
        all_goals rw [h0] at e; cases e
      | miss g k r hdd e hk =>
        have := only e; subst this
        rcases h0 with h0 | ⟨k', r', e', h0 | h0 | h0⟩
        · rw [h0] at e; cases e
        · rw [h0] at e; cases e; cases e'
          exact .alone done (k0 :: r0) hks hd (.inr ⟨k0, r0, rfl, .inr (.inl (us _))⟩) (oth _)
        all_goals rw [h0] at e; cases e
      | decoded g k r hdd e =>
        have := only e; subst this
        rcases h0 with h0 | ⟨k', r', e', h0 | h0 | h0⟩
        · rw [h0] at e; cases e
        · rw [h0] at e; cases e
        · rw [h0] at e; cases e; cases e'
          exact .alone done (k0 :: r0) hks hd (.inr ⟨k0, r0, rfl, .inr (.inr (us _))⟩) (oth _)
        · rw [h0] at e; cases e
      | failed g k r hdd e => exact .alone done (k0 :: r0) hks hd h0 hg
      | stored g k r hdd e =>
        have := only e; subst this
        rcases h0 with h0 | ⟨k', r', e', h0 | h0 | h0⟩
        · rw [h0] at e; cases e
        · rw [h0] at e; cases e
        · rw [h0] at e; cases e
        · rw [h0] at e; cases e; cases e'
          refine .alone (done ++ [k0]) r0 hks' (hdone ?_ (upd_same s.cached k0 true)) (.inl (us _)) (oth _)
          intro k hk
          show upd s.cached k0 true k = true
          by_cases hz : k = k0
          · subst hz; exact upd_same ..
          · rw [upd_ne _ _ hz]; exact hd k hk
      | go g h r hdd e hn =>
        have := only e; subst this
        rcases h0 with h0 | ⟨k', r', e', h0 | h0 | h0⟩ <;> rw [h0] at e <;> cases e

theorem ccInv {code : Nat → List CfgAct} {ks : List CfgKey} {rest : List CfgAct} (hp : Prepared code ks rest) {s : CcSt}
    (h : Reach (CcInit code) (CcStep code) s) : CcInv code ks rest s := by
  refine Reach.inv (CcInv code ks rest) ?_ (fun s t hs st => ccInv_step hp hs st) h
  intro s ⟨h1, h2, h3, h4⟩
  exact .alone [] ks rfl (by simp) (.inl (by rw [h2, hp.first])) h3

/-- C107 (for any program): if the goroutine that exists at the start accesses every section once before it starts any other goroutine, then in no
interleaving an access overlaps a write, nor are two goroutines in viper. -/
theorem C107_prepared {code : Nat → List CfgAct} {ks : List CfgKey} {rest : List CfgAct} (hp : Prepared code ks rest) {s : CcSt}
    (h : Reach (CcInit code) (CcStep code) s) : ¬ CfgRacy s := by
  rintro ⟨g, g', k, k', r, r', hne, hr⟩
  have hi := ccInv hp h
  have key : ∃ a x a' x', (a = .writing k ∨ a = .decoding k) ∧ s.gor g = some (a, x) ∧ s.gor g' = some (a', x') := by
    rcases hr with ⟨h1, h2 | h2⟩ | ⟨h1, h2⟩
    · exact ⟨_, _, _, _, .inl rfl, h1, h2⟩
    · exact ⟨_, _, _, _, .inl rfl, h1, h2⟩
    · exact ⟨_, _, _, _, .inr rfl, h1, h2⟩
  obtain ⟨a, x, a', x', ha, e, e'⟩ := key
  cases hi with
  | alone done todo hks hd h0 hg =>
    apply hne
    have z : ∀ {g : Nat} {y}, s.gor g = some y → g = 0 := by
      intro g y e
      by_cases hz : g = 0
      · exact hz
      · rw [hg g hz] at e; cases e
    rw [z e, z e']
  | ready hc hg =>
    obtain ⟨h1 | ⟨_, _, h1⟩, -⟩ := hg g a x e <;> subst h1 <;> rcases ha with ha | ha <;> cases ha

/-- C107: **the crawler accesses its configuration without a race**, in every interleaving of its goroutines, although the map has no lock: all
sections have been read before the first goroutine that reads one is started. -/
theorem C107_crawler {s : CcSt} (h : Reach (CcInit crawlerAccesses) (CcStep crawlerAccesses) s) : ¬ CfgRacy s := by
  refine C107_prepared (ks := [.dht, .fetchTorrent, .logger, .pprof]) (rest := [.get .dht, .spawn 1]) ⟨rfl, ?_, ?_⟩ h
  · intro k _; cases k <;> simp
  · intro g _ k _; cases k <;> simp

/-- C107: afterwards nothing of the configuration can fail: goroutines other than the first never get past a look-up that hits, so none of them calls
viper or panics. -/
theorem C107_others_only_look_up {s : CcSt} (h : Reach (CcInit crawlerAccesses) (CcStep crawlerAccesses) s) {g : Nat} (hg : g ≠ 0) {a : CfgAt}
    {r : List CfgAct} (e : s.gor g = some (a, r)) : (a = .out ∨ ∃ k, a = .reading k ∧ s.cached k = true) := by
  have hi := ccInv (ks := [.dht, .fetchTorrent, .logger, .pprof]) (rest := [.get .dht, .spawn 1])
    ⟨rfl, by intro k _; cases k <;> simp, by intro g _ k _; cases k <;> simp⟩ h
  cases hi with
  | alone done todo hks hd h0 hn => rw [hn g hg] at e; cases e
  | ready hc hn =>
    obtain ⟨h1 | ⟨k, hk, h1⟩, -⟩ := hn g a r e
    · exact .inl h1
    · exact .inr ⟨k, h1, hc k hk⟩

/-- the program with the section `fetchTorrent` read only where it is used by the downloads, and `dht` only by the server -/
def lazyAccesses : Nat → List CfgAct
  | 0 => [.get .logger, .get .pprof, .spawn 1]
  | 1 => [.spawn 2, .get .dht]
  | 2 => [.get .fetchTorrent]
  | _ => []

def exCc (code : Nat → List CfgAct) : CcSt := { cached := fun _ => false, gor := fun g => if g = 0 then some (.out, code 0) else none, dead := false }

theorem exCc_init (code : Nat → List CfgAct) : CcInit code (exCc code) :=
  ⟨fun _ => rfl, rfl, fun g hg => by simp [exCc, hg], rfl⟩

theorem cc_get {code : Nat → List CfgAct} {s : CcSt} (h : Reach (CcInit code) (CcStep code) s) (hd : s.dead = false) {g : Nat} {k : CfgKey} {r : List CfgAct}
    (e : s.gor g = some (.out, .get k :: r)) :
    Reach (CcInit code) (CcStep code) { s with cached := upd s.cached k true, gor := upd s.gor g (some (.out, r)) } := by
  have s1 := CcStep.call (code := code) g k r hd e
  cases hc : s.cached k with
  | true =>
    have s2 := CcStep.hit (code := code) (s := { s with gor := upd s.gor g (some (.reading k, r)) }) g k r hd (upd_same s.gor g _) hc
    have := Reach.step (Reach.step h s1) s2
    have e1 : upd (upd s.gor g (some (.reading k, r))) g (some (.out, r)) = upd s.gor g (some (.out, r)) := by
      funext x; unfold upd; split <;> rfl
    have e2 : upd s.cached k true = s.cached := by
      funext x; unfold upd; split
      · rename_i e; rw [e, hc]
      · rfl
    rw [e2]
    simp only [e1] at this
    exact this
  | false =>
    have s2 := CcStep.miss (code := code) (s := { s with gor := upd s.gor g (some (.reading k, r)) }) g k r hd (upd_same s.gor g _) hc
    have s3 := CcStep.decoded (code := code) (s := { s with gor := upd (upd s.gor g (some (.reading k, r))) g (some (.decoding k, r)) }) g k r hd
      (upd_same _ g _)
    have s4 := CcStep.stored (code := code) (s := { s with gor := upd (upd (upd s.gor g (some (.reading k, r))) g (some (.decoding k, r))) g (some (.writing k, r)) })
      g k r hd (upd_same _ g _)
    have := Reach.step (Reach.step (Reach.step (Reach.step h s1) s2) s3) s4
    have e1 : upd (upd (upd (upd s.gor g (some (.reading k, r))) g (some (.decoding k, r))) g (some (.writing k, r))) g (some (.out, r)) =
        upd s.gor g (some (.out, r)) := by
      funext x; unfold upd; split <;> rfl
    simp only [e1] at this
    exact this

/-- C107 (example): all goroutines of the crawler get what they need. -/
theorem C107_example : ∃ s, Reach (CcInit crawlerAccesses) (CcStep crawlerAccesses) s ∧ s.dead = false ∧ (∀ k, s.cached k = true) ∧
    s.gor 0 = some (.out, []) ∧ s.gor 1 = some (.out, []) ∧ s.gor 2 = some (.out, []) := by
  have r1 := cc_get (.init (exCc_init crawlerAccesses)) rfl (g := 0) (k := .dht) rfl
  have r2 := cc_get r1 rfl (g := 0) (k := .fetchTorrent) rfl
  have r3 := cc_get r2 rfl (g := 0) (k := .logger) rfl
  have r4 := cc_get r3 rfl (g := 0) (k := .pprof) rfl
  have r5 := cc_get r4 rfl (g := 0) (k := .dht) rfl
  have r6 := Reach.step r5 (.go 0 1 [] rfl rfl rfl)
  have r7 := Reach.step r6 (.go 1 2 [.get .dht] rfl rfl rfl)
  have r8 := cc_get r7 rfl (g := 1) (k := .dht) rfl
  have r9 := cc_get r8 rfl (g := 2) (k := .fetchTorrent) rfl
  exact ⟨_, r9, rfl, by intro k; cases k <;> rfl, rfl, rfl, rfl⟩

/-- C107: **it is the accesses during initialisation that prevent the race**: without them two goroutines could be in viper and then write the map at the
same time. -/
theorem C107_lazy_races : ∃ s t, Reach (CcInit lazyAccesses) (CcStep lazyAccesses) s ∧ CfgRacy s ∧ Reach (CcInit lazyAccesses) (CcStep lazyAccesses) t ∧
    (∃ r r', t.gor 1 = some (.writing .dht, r) ∧ t.gor 2 = some (.writing .fetchTorrent, r')) := by
  have r1 := cc_get (.init (exCc_init lazyAccesses)) rfl (g := 0) (k := .logger) rfl
  have r2 := cc_get r1 rfl (g := 0) (k := .pprof) rfl
  have r3 := Reach.step r2 (.go 0 1 [] rfl rfl rfl)
  have r4 := Reach.step r3 (.go 1 2 [.get .dht] rfl rfl rfl)
  have r5 := Reach.step r4 (.call 1 .dht [] rfl rfl)
  have r6 := Reach.step r5 (.call 2 .fetchTorrent [] rfl rfl)
  have r7 := Reach.step r6 (.miss 1 .dht [] rfl rfl rfl)
  have r8 := Reach.step r7 (.miss 2 .fetchTorrent [] rfl rfl rfl)
  have r9 := Reach.step r8 (.decoded 1 .dht [] rfl rfl)
  have r10 := Reach.step r9 (.decoded 2 .fetchTorrent [] rfl rfl)
  exact ⟨_, _, r8, ⟨1, 2, .dht, .fetchTorrent, [], [], by decide, .inr ⟨rfl, rfl⟩⟩, r10, [], [], rfl, rfl⟩

end P2P

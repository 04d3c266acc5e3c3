import Verif.Props.ProgramLog
/-! # C100: what the end of the log says; every run has a log -/
namespace P2P
variable {K : KEnv} {L : LifeEnv} {H : List (Bytes × Option UDPAddr)}

/-- a list with one more element at the end, split in the middle -/
theorem snoc_split {α : Type} {l a b : List α} {x y : α} (h : l ++ [y] = a ++ x :: b) :
    (a = l ∧ x = y ∧ b = []) ∨ ∃ b', b = b' ++ [y] ∧ l = a ++ x :: b' := by
  rcases List.eq_nil_or_concat b with rfl | ⟨b', z, rfl⟩
  · have := List.append_inj' h rfl
    exact .inl ⟨this.1.symm, (List.cons.inj this.2).1.symm, rfl⟩
  · have := List.append_inj' (s₁ := l) (t₁ := [y]) (s₂ := a ++ x :: b') (t₂ := [z]) (by rw [h]; simp) rfl
    have hz := (List.cons.inj this.2).1
    subst hz
    exact .inr ⟨b', by simp, this.1⟩

theorem pg_of_step {s t : PLogSt} (h : PLogReach K L H s) (st : PLogStep K L s t) : PgStep K s.pg t.pg ∨ t.pg = s.pg := by
  have hb := plogReach_base h
  cases st with
  | write => exact .inr rfl
  | main a hp m =>
    cases m with
    | bootOk hd hh hpc hO hc => exact .inl (.other a (.startup (.bootOk hpc hO (boot_ok_erased hc))))
    | bootFails => exact .inr rfl
    | @bootPanic tr hd =>
      rcases hb.dying tr hd with e | ⟨a', r, O, p, c, e1, e2, e3, e4⟩
      · exact absurd e a.2.1
      · subst e4; exact .inl (.other a (.startup (.bootPanic e1 e2 e3)))
    | run hpc => exact .inl (.other a (.startup (.run hpc)))
    | wait hs m => exact .inl (.main a m)
  | run a hp m =>
    cases m with
    | register hpc hr => exact .inl (.other a (.startup (.register hpc hr)))
    | registered hpc => exact .inl (.other a (.startup (.registered hpc)))
    | fetch hpc => exact .inl (.other a (.startup (.fetch hpc)))
    | clean hpc => exact .inl (.other a (.startup (.clean hpc)))
    | take hpc hq => exact .inl (.other a (.startup (.take hpc hq)))
  | closer a hp m =>
    cases m with
    | store e => exact .inl (.other a (.closeStore e))
    | close e => exact .inl (.other a (.closeConn e))
    | done e => exact .inl (.other a (.closeDone e))
  | rcv a hp m =>
    cases m with
    | test e => exact .inl (.other a (.test e))
    | read p e e2 => exact .inl (.other a (.read p e e2))
    | readErr x e => exact .inl (.other a (.readErr e))
    | deliver e e2 => exact .inl (.other a (.deliver e e2))
  | quiet a m =>
    cases m with
    | signal => exact .inl (.other a .signal)
    | add e => exact .inl (.other a (.add e))
    | rangeNone e e2 => exact .inl (.other a (.rangeNone e e2))
    | rangeOne e e2 => exact .inl (.other a (.rangeOne e e2))
    | wait e e2 => exact .inl (.other a (.wait e e2))

/-- the clean-up is registered and will be (or has been) counted -/
def WillClose (p : PgSt) : Prop := p.st.cleanup = true ∧ (p.cleaner = .notYet ∨ p.cleaner = .add ∨ p.added = 1)

theorem willClose_step {p q : PgSt} (st : PgStep K p q) (h : WillClose p) : WillClose q := by
  obtain ⟨a, b⟩ := h
  unfold WillClose
  cases st with
  | main _ m => cases m <;> simp_all
  | other _ m =>
    cases m with
    | startup sm => exact ⟨cleanup_step sm a, b⟩
    | add e => simp_all [PgSt.cleans]
    | deliver e e2 => exact ⟨a, b⟩
    | _ => simp_all

/-- C100: **an orderly end can be read off the log**: if "enter listen loop..." was written before "start cleaning...", then "shutdown clean all" is
written only after all the records of the clean-up, the last of which is "rpcserver closed...". -/
theorem C100_cleaned {s : PLogSt} (h : PLogReach K L H s) {a b c : List (Gor × LogRec)}
    (e : s.log = a ++ (.main, ⟨b!"shutdown", .Trace, b!"start cleaning...", none⟩) :: b ++ (.main, ⟨b!"shutdown", .Trace, b!"shutdown clean all", none⟩) :: c)
    (hl : (⟨b!"dht", .Info, b!"enter listen loop...", none⟩ : LogRec) ∈ recsOf .run a) :
    recsOf .closer (a ++ (.main, ⟨b!"shutdown", .Trace, b!"start cleaning...", none⟩) :: b) = closeLines L := by
  obtain ⟨u, q, h1, h2, h3, -⟩ := written_at h e
  -- when "start cleaning..." was written the clean-up was registered
  have hw : ∀ {v : PLogSt}, PLogReach K L H v → ∀ a b, v.log = a ++ (.main, ⟨b!"shutdown", .Trace, b!"start cleaning...", none⟩) :: b →
      (⟨b!"dht", .Info, b!"enter listen loop...", none⟩ : LogRec) ∈ recsOf .run a → WillClose v.pg := by
    intro v hv a b ev hl
    obtain ⟨w, q, w1, w2, w3, w4⟩ := written_at hv ev
    subst w2
    have hm : w.pg.main = .start := (plogReach_pend w1).cleaning _ (by rw [w3]; exact List.mem_cons_self) rfl
    have hc : w.pg.st.cleanup = true := (C100_tells w1).2.2 hl
    have h0 : WillClose w.pg := ⟨hc, .inl ((pgReach_inv (C100_erases w1)).notYet.2 (.inr (.inr hm)))⟩
    have : PLogReach K L H v ∧ WillClose v.pg := by
      clear ev hv
      induction w4 with
      | init e => subst e; exact ⟨w1, h0⟩
      | step hr st ih =>
        refine ⟨ih.1.step st, ?_⟩
        rcases pg_of_step ih.1 st with x | x
        · exact willClose_step x ih.2
        · rw [x]; exact ih.2
    exact this.2
  have hu := hw h1 a b h2 hl
  have hm : u.pg.main = .final false := (plogReach_pend h1).all _ (by rw [h3]; exact List.mem_cons_self) rfl
  have hi := pgReach_inv (C100_erases h1)
  have hd := hi.done.2 (.inl hm)
  have ha : u.pg.added = 1 := by
    rcases hu.2 with x | x | x
    · rw [hd] at x; cases x
    · rw [hd] at x; cases x
    · exact x
  have hdone := hi.sent (.inr hd) ha
  obtain ⟨hc1, hc2⟩ := plogReach_closer h1
  rw [said_of_pend_nil (hc2 hdone), hdone, h2] at hc1
  exact hc1

/-- C100: **after "close udp conn" the receive goroutine writes at most one more record**. -/
theorem C100_deaf {s : PLogSt} (h : PLogReach K L H s) {a b : List (Gor × LogRec)}
    (e : s.log = a ++ (.closer, ⟨b!"server", .Info, b!"close udp conn", none⟩) :: b) : (recsOf .rcv b).length ≤ 1 := by
  have key : ∀ {s : PLogSt}, PLogReach K L H s → ∀ a b, s.log = a ++ (.closer, ⟨b!"server", .Info, b!"close udp conn", none⟩) :: b →
      (recsOf .rcv b).length + (s.pend .rcv).length + (match s.pg.rcv with | .reading => 1 | _ => 0) ≤ 1 := by
    intro s h
    induction h with
    | init hi => intro a b e; rw [hi.2.2.2.2] at e; simp at e
    | @step s t hr st ih =>
      intro a b e
      have small : (s.pend .rcv).length + (match s.pg.rcv with | .reading => 1 | _ => 0) ≤ 1 := by
        cases (plogReach_rcv hr).pend with
        | none e => rw [e]; cases s.pg.rcv <;> simp
        | err x e e2 => rw [e, e2]; simp
        | got e e2 => rw [e, e2]; simp
      have closed : ∀ a b, s.log = a ++ (.closer, ⟨b!"server", .Info, b!"close udp conn", none⟩) :: b → s.pg.connOpen = false ∧ s.pg.closed = true := by
        intro a b e
        refine (C100_tells hr).1 ?_
        rw [e, recsOf_append]
        exact List.mem_append_right _ (by simp [recsOf])
      cases st with
      | @write r q g al hp =>
        rcases snoc_split e with ⟨rfl, e1, rfl⟩ | ⟨b', rfl, e1⟩
        · have hg : g = .closer := (Prod.mk.inj e1).1.symm
          subst hg
          simp only [upd_ne s.pend q (show Gor.rcv ≠ Gor.closer by decide)]
          simpa [recsOf] using small
        · have := ih _ _ e1
          rw [recsOf_snoc]
          by_cases hg : g = .rcv
          · subst hg
            simp only [upd_same]
            rw [hp] at this
            simp only [List.length_cons, List.length_append, if_true, List.length_nil] at this ⊢
            omega
          · simp only [upd_ne s.pend q (fun x => hg x.symm : Gor.rcv ≠ g), if_neg hg, List.append_nil]
            exact this
      | main al hp m =>
        cases m with
        | bootOk => rw [act_pend_ne _ _ (by decide)]; exact ih a b e
        | bootFails => rw [act_pend_ne _ _ (by decide)]; exact ih a b e
        | bootPanic => exact ih a b e
        | run => rw [act_pend_ne _ _ (by decide), act_pend_ne _ _ (by decide)]; exact ih a b e
        | @wait p sig hs m =>
          have hst : p.rcv = s.pg.rcv := by cases m <;> rfl
          rw [act_pend_ne _ _ (by decide), act_pg, hst]; exact ih a b e
      | run al hp m => cases m <;> (rw [act_pend_ne _ _ (by decide)]; exact ih a b e)
      | closer al hp m => cases m <;> (rw [act_pend_ne _ _ (by decide)]; exact ih a b e)
      | rcv al hp m =>
        have := ih a b (by cases m <;> exact e)
        have hcl := closed a b (by cases m <;> exact e)
        rw [hp] at this
        simp only [List.length_nil, Nat.add_zero] at this
        cases m with
        | test ex =>
          rw [ex] at this
          rw [act_pend, hp]
          simp only [act_pg, hcl.2, if_true, List.append_nil, List.length_nil]
          omega
        | read p ex ex2 => rw [hcl.1] at ex2; cases ex2
        | readErr x ex =>
          rw [ex] at this
          rw [act_pend, hp]
          simp only [act_pg, List.nil_append, List.length_cons, List.length_nil]
          simp only at this
          omega
        | deliver ex ex2 =>
          rw [ex] at this
          rw [act_pend, hp]
          simp only [act_pg, List.nil_append, List.length_nil]
          simp only at this
          omega
      | quiet al m =>
        cases m with
        | rangeOne => rw [act_pend_ne _ _ (by decide)]; exact ih a b e
        | _ => exact ih a b e
  have := key h a b e
  omega

/-! ## Every run has a log -/

/-- all pending records can be written -/
theorem flush {s : PLogSt} (h : PLogReach K L H s) (ha : s.pg.alive) :
    ∃ t, PLogReach K L H t ∧ t.pg = s.pg ∧ t.hosts = s.hosts ∧ t.dying = s.dying ∧ s.log <+: t.log ∧ ∀ g, t.pend g = [] := by
  have one : ∀ (g : Gor) (n : Nat) (s : PLogSt), PLogReach K L H s → s.pg.alive → (s.pend g).length = n →
      ∃ t, PLogReach K L H t ∧ t.pg = s.pg ∧ t.hosts = s.hosts ∧ t.dying = s.dying ∧ s.log <+: t.log ∧ t.pend g = [] ∧
        ∀ g', g' ≠ g → t.pend g' = s.pend g' := by
    intro g n
    induction n with
    | zero => intro s h ha hn; exact ⟨s, h, rfl, rfl, rfl, List.prefix_rfl, List.eq_nil_of_length_eq_zero hn, fun _ _ => rfl⟩
    | succ n ih =>
      intro s h ha hn
      obtain ⟨r, q, hp⟩ : ∃ r q, s.pend g = r :: q := by
        cases hp : s.pend g with
        | nil => rw [hp] at hn; simp at hn
        | cons r q => exact ⟨r, q, rfl⟩
      obtain ⟨t, h1, h2, h3, h4, h5, h6, h7⟩ := ih _ (h.step (.write g ha hp)) ha (by rw [hp] at hn; simpa using hn)
      refine ⟨t, h1, h2, h3, h4, (List.prefix_append _ _).trans h5, h6, fun g' hg => ?_⟩
      rw [h7 g' hg]; simp only [upd_ne s.pend q hg]
  obtain ⟨t1, a1, a2, a3, a4, a5, a6, a7⟩ := one .main _ s h ha rfl
  obtain ⟨t2, b1, b2, b3, b4, b5, b6, b7⟩ := one .run _ t1 a1 (a2 ▸ ha) rfl
  obtain ⟨t3, c1, c2, c3, c4, c5, c6, c7⟩ := one .closer _ t2 b1 (by rw [b2, a2]; exact ha) rfl
  obtain ⟨t4, d1, d2, d3, d4, d5, d6, d7⟩ := one .rcv _ t3 c1 (by rw [c2, b2, a2]; exact ha) rfl
  refine ⟨t4, d1, by rw [d2, c2, b2, a2], by rw [d3, c3, b3, a3], by rw [d4, c4, b4, a4], ((a5.trans b5).trans c5).trans d5, fun g => ?_⟩
  cases g with
  | main => rw [d7 _ (by decide), c7 _ (by decide), b7 _ (by decide)]; exact a6
  | run => rw [d7 _ (by decide), c7 _ (by decide)]; exact b6
  | closer => rw [d7 _ (by decide)]; exact c6
  | rcv => exact d6

/-- the last records of a goroutine can be written if the process is alive; otherwise nothing is claimed -/
theorem C100_runs_step {s : PLogSt} (h : PLogReach K L H s) (hd : s.dying = none) {p : PgSt} (st : PgStep K s.pg p) :
    ∃ t, PLogReach K L H t ∧ t.pg = p ∧ s.log <+: t.log ∧ (p.st.pc ≠ .dead → t.dying = none) := by
  have ha : s.pg.alive := by cases st <;> assumption
  obtain ⟨u, h1, h2, h3, h4, h5, h6⟩ := flush h ha
  rw [← h2] at st
  rw [hd] at h4
  have ha : u.pg.alive := h2 ▸ ha
  cases st with
  | main _ m => exact ⟨_, h1.step (.main ha (h6 _) (.wait (sig := b!"interrupt") (by simp) m)), rfl, h5, fun _ => h4⟩
  | other _ m =>
    cases m with
    | signal => exact ⟨_, h1.step (.quiet ha .signal), rfl, h5, fun _ => h4⟩
    | add e => exact ⟨_, h1.step (.quiet ha (.add e)), rfl, h5, fun _ => h4⟩
    | rangeNone e e2 => exact ⟨_, h1.step (.quiet ha (.rangeNone e e2)), rfl, h5, fun _ => h4⟩
    | rangeOne e e2 => exact ⟨_, h1.step (.quiet ha (.rangeOne e e2)), rfl, h5, fun _ => h4⟩
    | wait e e2 => exact ⟨_, h1.step (.quiet ha (.wait e e2)), rfl, h5, fun _ => h4⟩
    | closeStore e => exact ⟨_, h1.step (.closer ha (h6 _) (.store e)), rfl, h5, fun _ => h4⟩
    | closeConn e => exact ⟨_, h1.step (.closer ha (h6 _) (.close e)), rfl, h5, fun _ => h4⟩
    | closeDone e => exact ⟨_, h1.step (.closer ha (h6 _) (.done e)), rfl, h5, fun _ => h4⟩
    | test e => exact ⟨_, h1.step (.rcv ha (h6 _) (.test e)), rfl, h5, fun _ => h4⟩
    | read p e e2 => exact ⟨_, h1.step (.rcv ha (h6 _) (.read p e e2)), rfl, h5, fun _ => h4⟩
    | readErr e => exact ⟨_, h1.step (.rcv ha (h6 _) (.readErr [] e)), rfl, h5, fun _ => h4⟩
    | deliver e e2 => exact ⟨_, h1.step (.rcv ha (h6 _) (.deliver e e2)), rfl, h5, fun _ => h4⟩
    | startup sm =>
      have hb := plogReach_base h1
      cases sm with
      | @bootOk h0 r O c e hO hc =>
        have hh := hb.hosts _ e
        obtain ⟨⟨host, addr⟩, rest, he⟩ : ∃ x rest, u.hosts = x :: rest := by
          cases hx : u.hosts with
          | nil => rw [hx] at hh; cases hh
          | cons x rest => exact ⟨x, rest, rfl⟩
        rw [he, List.map_cons] at hh
        obtain ⟨hx1, hx2⟩ := List.cons.inj hh
        simp only at hx1
        subst hx1; subst hx2
        have hc' := bootCall_erases K L O host h0 { h := { resp := none, trace := [] }, logs := [] }
        simp only at hc'
        rw [hc] at hc'
        cases hcall : bootCallL K L O host h0 { h := { resp := none, trace := [] }, logs := [] } with
        | ok x c' =>
          rw [hcall] at hc'
          have : c'.h = c := by simp only [Out.erase] at hc'; injection hc'
          subst this
          exact ⟨_, h1.step (.main ha (h6 _) (.bootOk h4 he e hO hcall)), rfl, h5, fun _ => h4⟩
        | panic p c' => rw [hcall] at hc'; cases hc'
        | diverge => rw [hcall] at hc'; cases hc'
      | @bootPanic h0 r O p c e hO hc =>
        have hh := hb.hosts _ e
        obtain ⟨⟨host, addr⟩, rest, he⟩ : ∃ x rest, u.hosts = x :: rest := by
          cases hx : u.hosts with
          | nil => rw [hx] at hh; cases hh
          | cons x rest => exact ⟨x, rest, rfl⟩
        rw [he, List.map_cons] at hh
        obtain ⟨hx1, hx2⟩ := List.cons.inj hh
        simp only at hx1
        subst hx1; subst hx2
        have hc' := bootCall_erases K L O host h0 { h := { resp := none, trace := [] }, logs := [] }
        simp only at hc'
        rw [hc] at hc'
        cases hcall : bootCallL K L O host h0 { h := { resp := none, trace := [] }, logs := [] } with
        | ok x c' => rw [hcall] at hc'; cases hc'
        | diverge => rw [hcall] at hc'; cases hc'
        | panic p' c' =>
          rw [hcall] at hc'
          have : c'.h = c := by simp only [Out.erase] at hc'; injection hc'
          subst this
          obtain ⟨v, v1, v2, v3, v4, v5, v6⟩ := flush (h1.step (.main ha (h6 _) (.bootFails h4 he e hO hcall))) ha
          refine ⟨_, v1.step (.main (by rw [v2]; exact ha) (v6 _) (.bootPanic v4)), ?_, h5.trans v5, fun x => absurd rfl x⟩
          simp only [v2, act_pg]
      | run e => exact ⟨_, h1.step (.main ha (h6 _) (.run e)), rfl, h5, fun _ => h4⟩
      | register e e2 => exact ⟨_, h1.step (.run ha (h6 _) (.register e e2)), rfl, h5, fun _ => h4⟩
      | registered e => exact ⟨_, h1.step (.run ha (h6 _) (.registered e)), rfl, h5, fun _ => h4⟩
      | fetch e => exact ⟨_, h1.step (.run ha (h6 _) (.fetch e)), rfl, h5, fun _ => h4⟩
      | clean e => exact ⟨_, h1.step (.run ha (h6 _) (.clean e)), rfl, h5, fun _ => h4⟩
      | take e e2 => exact ⟨_, h1.step (.run ha (h6 _) (.take e e2)), rfl, h5, fun _ => h4⟩

end P2P

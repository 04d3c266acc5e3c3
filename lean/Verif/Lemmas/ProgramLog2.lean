import Verif.Lemmas.ProgramLog
/-! # Invariants of the program with its log: what has been said -/
namespace P2P
variable {K : KEnv} {L : LifeEnv} {H : List (Bytes × Option UDPAddr)}

/-! ## The main goroutine -/

/-- what `Wait4Shutdown` has said when it is here -/
def saidWait (sig : Bytes) : WaitPc → List LogRec
  | .select => [sdRec b!"blocking in main goroutinue..." none]
  | .store => [sdRec b!"blocking in main goroutinue..." none, sdRec b!"received shutdown signal" (some [(b!"sig", lstr sig)])]
  | .start => [sdRec b!"blocking in main goroutinue..." none, sdRec b!"received shutdown signal" (some [(b!"sig", lstr sig)]),
      sdRec b!"start cleaning..." none]
  | .cleaning => [sdRec b!"blocking in main goroutinue..." none, sdRec b!"received shutdown signal" (some [(b!"sig", lstr sig)]),
      sdRec b!"start cleaning..." none]
  | .final b => [sdRec b!"blocking in main goroutinue..." none, sdRec b!"received shutdown signal" (some [(b!"sig", lstr sig)]),
      sdRec b!"start cleaning..." none] ++ waitSays sig (.final b)
  | .exited b => [sdRec b!"blocking in main goroutinue..." none, sdRec b!"received shutdown signal" (some [(b!"sig", lstr sig)]),
      sdRec b!"start cleaning..." none] ++ waitSays sig (.final b)

inductive MainAt (K : KEnv) (L : LifeEnv) (H : List (Bytes × Option UDPAddr)) (s : PLogSt) : Prop where
  | dying {tr hs h rest l l'} : s.dying = some tr → s.pg.st.pc.booted = false → H = hs ++ h :: rest → BootsDone K L hs l →
      BootLines K L h l' false → s.said .main = l ++ l' → MainAt K L H s
  | boot {hs l} : s.dying = none → s.pg.st.pc.booted = false → H = hs ++ s.hosts → BootsDone K L hs l →
      s.said .main = l ++ nextHello s.hosts → MainAt K L H s
  | up {l sig} : s.dying = none → s.pg.st.pc.booted = true → sig ∈ [b!"interrupt", b!"terminated"] → BootsDone K L H l →
      s.said .main = l ++ saidWait sig s.pg.main → l <+: recsOf .main s.log → MainAt K L H s

theorem recsOf_prefix (g : Gor) {a b : List (Gor × LogRec)} (h : a <+: b) : recsOf g a <+: recsOf g b := by
  obtain ⟨x, rfl⟩ := h
  rw [recsOf_append]; exact List.prefix_append _ _

theorem MainAt.frame {s t : PLogSt} (h : MainAt K L H s) (h1 : t.dying = s.dying) (h2 : t.hosts = s.hosts) (h3 : t.said .main = s.said .main)
    (h4 : s.log <+: t.log) (h5 : t.pg.main = s.pg.main) (h6 : t.pg.st.pc.booted = s.pg.st.pc.booted) : MainAt K L H t := by
  cases h with
  | dying a b c d e f => exact .dying (h1.trans a) (h6.trans b) c d e (h3.trans f)
  | boot a b c d e => exact .boot (h1.trans a) (h6.trans b) (by rw [h2]; exact c) d (by rw [h3, h2]; exact e)
  | up a b c d e f => exact .up (h1.trans a) (h6.trans b) c d (by rw [h3, h5]; exact e) (f.trans (recsOf_prefix _ h4))

theorem saidWait_step {p q : PgSt} (h : PgMain p q) {sig sig' : Bytes} (hs' : sig' ∈ [b!"interrupt", b!"terminated"])
    (hs : sig ∈ [b!"interrupt", b!"terminated"]) :
    ∃ x, x ∈ [b!"interrupt", b!"terminated"] ∧ saidWait sig p.main ++ waitSays sig' q.main = saidWait x q.main := by
  cases h with
  | wake _ e _ => exact ⟨sig', hs', by rw [e]; rfl⟩
  | store e => exact ⟨sig, hs, by rw [e]; rfl⟩
  | runCleans e => exact ⟨sig, hs, by rw [e]; rfl⟩
  | finished e _ => exact ⟨sig, hs, by rw [e]; rfl⟩
  | timeout e => exact ⟨sig, hs, by rw [e]; rfl⟩
  | @exit b e => exact ⟨sig, hs, by rw [e]; simp [waitSays, saidWait]⟩

theorem said_of_pend_nil {s : PLogSt} {g : Gor} (h : s.pend g = []) : s.said g = recsOf g s.log := by simp [PLogSt.said, h]

theorem mainAt_step {s t : PLogSt} (hb : PlBase K L H s) (h : MainAt K L H s) (st : PLogStep K L s t) : MainAt K L H t := by
  cases st with
  | @write _ _ g a hp =>
    exact h.frame rfl rfl (said_write hp _) (List.prefix_append _ _) rfl rfl
  | main a hp m =>
    cases m with
    | @bootOk host addr r O c hd hh hpc hO hc =>
      cases h with
      | dying e => rw [hd] at e; cases e
      | up _ e => rw [hpc] at e; cases e
      | @boot hs l _ _ e1 e2 e3 =>
        have hl := bootOk_lines hO hc
        have hsd := said_act { s with hosts := r } { s.pg with st := { s.pg.st with pc := .boot (r.map Prod.snd), boots := s.pg.st.boots ++ [c.h.trace] } }
          .main (c.logs ++ nextHello r)
        refine .boot (hs := hs ++ [(host, addr)]) (l := l ++ (bootHello host :: c.logs)) hd rfl ?_ (.snoc e2 hl) ?_
        · rw [e1, hh]; simp
        · rw [hsd, show ({ s with hosts := r } : PLogSt).said .main = s.said .main from rfl, e3, hh]
          simp [nextHello]
    | @bootFails host addr r O p c hd hh hpc hO hc =>
      cases h with
      | dying e => rw [hd] at e; cases e
      | up _ e => rw [hpc] at e; cases e
      | @boot hs l _ _ e1 e2 e3 =>
        have hl := bootPanic_lines hO hc
        have hsd := said_act { s with dying := some c.h.trace } s.pg .main c.logs
        refine .dying (hs := hs) (h := (host, addr)) (rest := r) (l := l) (l' := bootHello host :: c.logs) rfl (by rw [act_pg, hpc]; rfl) ?_ e2 hl ?_
        · rw [e1, hh]
        · rw [hsd, show ({ s with dying := some c.h.trace } : PLogSt).said .main = s.said .main from rfl, e3, hh]
          simp [nextHello]
    | @bootPanic tr hd =>
      cases h with
      | dying a b c d e f => exact .dying a rfl c d e f
      | up e => rw [hd] at e; cases e
      | boot e => rw [hd] at e; cases e
    | run hpc =>
      cases h with
      | dying e0 =>
        rcases hb.dying _ e0 with e | ⟨a', r, O, p, c, e1, -⟩
        · rw [hpc] at e; cases e
        · rw [hpc] at e1; cases e1
      | up _ e => rw [hpc] at e; cases e
      | @boot hs l e0 _ e1 e2 e3 =>
        have hh : s.hosts = [] := by have := hb.hosts _ hpc; simpa using this.symm
        rw [hh] at e1 e3
        simp only [List.append_nil, nextHello] at e1 e3
        subst e1
        refine .up (l := l) (sig := b!"interrupt") e0 rfl (by simp) e2 ?_ ?_
        · have hm : s.pg.main = .select := by
            by_cases hm : s.pg.main = .select
            · exact hm
            · have := ((pgReach_inv hb.pg).left hm).1; rw [hpc] at this; cases this
          rw [said_act_ne _ _ (by decide), said_act, e3, act_pg]
          simp only [hm]; rfl
        · simp only [act_log]
          rw [← said_of_pend_nil hp, e3]; exact List.prefix_rfl
    | @wait p sig hs m =>
      have hst := pgMain_st m
      cases h with
      | dying a b c d e f =>
        exfalso
        have := (pgReach_inv hb.pg)
        have hm : s.pg.main = .select := by
          by_cases hm : s.pg.main = .select
          · exact hm
          · have := (this.left hm).1; rw [this] at b; cases b
        cases m <;> simp_all
      | boot a b =>
        exfalso
        have := (pgReach_inv hb.pg)
        have hm : s.pg.main = .select := by
          by_cases hm : s.pg.main = .select
          · exact hm
          · have := (this.left hm).1; rw [this] at b; cases b
        cases m <;> simp_all
      | @up l sg e0 e1 e2 e3 e4 e5 =>
        obtain ⟨x, hx, hx2⟩ := saidWait_step m hs e2
        refine .up e0 (by rw [act_pg, hst]; exact e1) hx e3 ?_ e5
        rw [said_act, e4, act_pg, List.append_assoc, hx2]
  | run a hp m =>
    cases m with
    | register e => exact h.frame rfl rfl (said_act_ne _ _ (by decide) _) List.prefix_rfl rfl (by rw [e]; rfl)
    | registered e => exact h.frame rfl rfl (said_act_ne _ _ (by decide) _) List.prefix_rfl rfl (by rw [e]; rfl)
    | fetch e => exact h.frame rfl rfl (said_act_ne _ _ (by decide) _) List.prefix_rfl rfl (by rw [e]; rfl)
    | clean e => exact h.frame rfl rfl (said_act_ne _ _ (by decide) _) List.prefix_rfl rfl (by rw [e]; rfl)
    | take e => exact h.frame rfl rfl (said_act_ne _ _ (by decide) _) List.prefix_rfl rfl rfl
  | closer a hp m => cases m <;> exact h.frame rfl rfl (said_act_ne _ _ (by decide) _) List.prefix_rfl rfl rfl
  | rcv a hp m => cases m <;> exact h.frame rfl rfl (said_act_ne _ _ (by decide) _) List.prefix_rfl rfl rfl
  | quiet a m =>
    cases m with
    | rangeOne => exact h.frame rfl rfl (said_act_ne _ _ (by decide) _) List.prefix_rfl rfl rfl
    | _ => exact h.frame rfl rfl rfl List.prefix_rfl rfl rfl

theorem plogReach_main {s : PLogSt} (h : PLogReach K L H s) : MainAt K L H s := by
  induction h with
  | init hi =>
    obtain ⟨h1, h2, h3, h4, h5⟩ := hi
    have hs := h1.1
    rw [StSt.start] at hs
    refine .boot (hs := []) (l := []) h4 (by rw [hs]; rfl) (by rw [h2]; rfl) .nil ?_
    simp [PLogSt.said, h5, h3, h2, recsOf]
  | step hr st ih => exact mainAt_step (plogReach_base hr) ih st

/-! ## What is about to be written -/

theorem bootLines_msg {h : Bytes × Option UDPAddr} {l : List LogRec} {b : Bool} (hl : BootLines K L h l b) :
    ∀ r ∈ l, r.pfx ≠ b!"shutdown" := by
  cases hl <;> simp <;> decide

theorem bootsDone_msg {hs : List (Bytes × Option UDPAddr)} {l : List LogRec} (hl : BootsDone K L hs l) : ∀ r ∈ l, r.pfx ≠ b!"shutdown" := by
  induction hl with
  | nil => simp
  | snoc _ h2 ih =>
    intro r hr
    rcases List.mem_append.1 hr with hr | hr
    · exact ih r hr
    · exact bootLines_msg h2 r hr

/-- the record of the main goroutine that goes with its place -/
structure PendAt (s : PLogSt) : Prop where
  cleaning : ∀ r ∈ s.pend .main, r = sdRec b!"start cleaning..." none → s.pg.main = .start
  all : ∀ r ∈ s.pend .main, r = sdRec b!"shutdown clean all" none → s.pg.main = .final false
  done : s.pg.cleaner ≠ .notYet → sdRec b!"start cleaning..." none ∈ recsOf .main s.log

theorem pgMain_cleaner {p q : PgSt} (h : PgMain p q) : p.main = .start ∨ (q.cleaner ≠ .notYet → p.cleaner ≠ .notYet) := by
  cases h <;> simp_all

theorem PendAt.frame {s t : PLogSt} (h : PendAt s) (h1 : ∀ r ∈ t.pend .main, r ∈ s.pend .main) (h2 : t.pg.main = s.pg.main)
    (h3 : s.log <+: t.log) (h4 : t.pg.cleaner ≠ .notYet → s.pg.cleaner ≠ .notYet) : PendAt t := by
  obtain ⟨a, b, c⟩ := h
  refine ⟨fun r hr e => ?_, fun r hr e => ?_, fun e => ?_⟩
  · rw [h2]; exact a r (h1 r hr) e
  · rw [h2]; exact b r (h1 r hr) e
  · exact (recsOf_prefix _ h3).subset (c (h4 e))

theorem sdRec_ne {m m' : Bytes} {c : Option (List (Bytes × LogVal))} {c' : Option (List (Bytes × LogVal))} (h : m ≠ m') : sdRec m c ≠ sdRec m' c' := by
  intro e
  exact h (congrArg LogRec.msg e)

theorem pendAt_step {s t : PLogSt} (hb : PlBase K L H s) (hm : MainAt K L H s) (h : PendAt s) (st : PLogStep K L s t) : PendAt t := by
  cases st with
  | @write r q g a hp =>
    refine h.frame ?_ rfl (List.prefix_append _ _) id
    intro r' hr
    by_cases e : g = .main
    · subst e; simp only [upd_same] at hr; rw [hp]; exact List.mem_cons_of_mem _ hr
    · simp only [upd_ne s.pend q (fun x => e x.symm : Gor.main ≠ g)] at hr; exact hr
  | main a hp m =>
    cases m with
    | @bootOk host addr r O c hd hh hpc hO hc =>
      have hl := bootLines_msg (bootOk_lines hO hc)
      have key : ∀ x ∈ c.logs ++ nextHello r, x.pfx ≠ b!"shutdown" := by
        intro x hx
        rcases List.mem_append.1 hx with hx | hx
        · exact hl x (List.mem_cons_of_mem _ hx)
        · cases r with
          | nil => cases hx
          | cons y r => simp only [nextHello, List.mem_singleton] at hx; subst hx; show b!"dht" ≠ _; decide
      have hpe : ∀ x ∈ (({ s with hosts := r } : PLogSt).act { s.pg with st := { s.pg.st with pc := .boot (r.map Prod.snd), boots := s.pg.st.boots ++ [c.h.trace] } } .main (c.logs ++ nextHello r)).pend .main,
          x ∈ c.logs ++ nextHello r := by
        intro x hx
        rw [act_pend] at hx
        rw [show ({ s with hosts := r } : PLogSt).pend .main = s.pend .main from rfl, hp] at hx
        exact hx
      refine ⟨fun x hx e => ?_, fun x hx e => ?_, h.done⟩
      · exact absurd (congrArg LogRec.pfx e) (key x (hpe x hx))
      · exact absurd (congrArg LogRec.pfx e) (key x (hpe x hx))
    | @bootFails host addr r O p c hd hh hpc hO hc =>
      have hl := bootLines_msg (bootPanic_lines hO hc)
      have hpe : ∀ x ∈ (({ s with dying := some c.h.trace } : PLogSt).act s.pg .main c.logs).pend .main, x ∈ c.logs := by
        intro x hx
        rw [act_pend] at hx
        rw [show ({ s with dying := some c.h.trace } : PLogSt).pend .main = s.pend .main from rfl, hp] at hx
        exact hx
      refine ⟨fun x hx e => ?_, fun x hx e => ?_, h.done⟩
      · exact absurd (congrArg LogRec.pfx e) (hl x (List.mem_cons_of_mem _ (hpe x hx)))
      · exact absurd (congrArg LogRec.pfx e) (hl x (List.mem_cons_of_mem _ (hpe x hx)))
    | @bootPanic tr hd => exact h.frame (fun _ => id) rfl List.prefix_rfl id
    | run hpc =>
      refine ⟨fun x hx e => ?_, fun x hx e => ?_, h.done⟩
      · rw [act_pend_ne _ _ (by decide), act_pend, hp, List.nil_append, List.mem_singleton] at hx
        subst hx; exact absurd e (sdRec_ne (by decide))
      · rw [act_pend_ne _ _ (by decide), act_pend, hp, List.nil_append, List.mem_singleton] at hx
        subst hx; exact absurd e (sdRec_ne (by decide))
    | @wait p sig hs m =>
      have hi := pgReach_inv hb.pg
      have hpe : ∀ x ∈ (s.act p .main (waitSays sig p.main)).pend .main, x ∈ waitSays sig p.main := by
        intro x hx; rw [act_pend, hp] at hx; exact hx
      have hc : p.cleaner ≠ .notYet → sdRec b!"start cleaning..." none ∈ recsOf .main s.log := by
        intro e
        rcases pgMain_cleaner m with e1 | e1
        · cases hm with
          | dying _ b => rw [(hi.left (by rw [e1]; simp)).1] at b; cases b
          | boot _ b => rw [(hi.left (by rw [e1]; simp)).1] at b; cases b
          | up _ _ _ _ e4 =>
            rw [said_of_pend_nil hp, e1] at e4
            rw [e4]; simp [saidWait]
        · exact h.done (e1 e)
      refine ⟨fun x hx e => ?_, fun x hx e => ?_, hc⟩
      · have := hpe x hx
        rw [act_pg]
        cases hq : p.main with
        | final b => rw [hq] at this; cases b <;> simp [waitSays, e, sdRec] at this <;> revert this <;> decide
        | start => rfl
        | _ => rw [hq] at this; simp [waitSays, e, sdRec] at this <;> revert this <;> decide
      · have := hpe x hx
        rw [act_pg]
        cases hq : p.main with
        | final b => rw [hq] at this; cases b <;> simp [waitSays, e, sdRec] at this ⊢ <;> revert this <;> decide
        | start => rw [hq] at this; simp [waitSays, e, sdRec] at this <;> revert this <;> decide
        | _ => rw [hq] at this; simp [waitSays, e, sdRec] at this <;> revert this <;> decide
  | run a hp m =>
    have key : ∀ pg recs, ∀ r ∈ (s.act pg .run recs).pend .main, r ∈ s.pend .main := fun pg recs r hr => by
      rw [act_pend_ne _ _ (by decide)] at hr; exact hr
    cases m <;> exact h.frame (key _ _) rfl List.prefix_rfl id
  | closer a hp m =>
    have key : ∀ pg recs, ∀ r ∈ (s.act pg .closer recs).pend .main, r ∈ s.pend .main := fun pg recs r hr => by
      rw [act_pend_ne _ _ (by decide)] at hr; exact hr
    cases m <;> exact h.frame (key _ _) rfl List.prefix_rfl id
  | rcv a hp m =>
    have key : ∀ pg recs, ∀ r ∈ (s.act pg .rcv recs).pend .main, r ∈ s.pend .main := fun pg recs r hr => by
      rw [act_pend_ne _ _ (by decide)] at hr; exact hr
    cases m <;> exact h.frame (key _ _) rfl List.prefix_rfl id
  | quiet a m =>
    have key : ∀ pg recs, ∀ r ∈ (s.act pg .closer recs).pend .main, r ∈ s.pend .main := fun pg recs r hr => by
      rw [act_pend_ne _ _ (by decide)] at hr; exact hr
    cases m with
    | rangeOne e => exact h.frame (key _ _) rfl List.prefix_rfl (fun _ => by rw [e]; simp)
    | signal => exact h.frame (fun _ => id) rfl List.prefix_rfl id
    | add e => exact h.frame (fun _ => id) rfl List.prefix_rfl (fun _ => by rw [e]; simp)
    | rangeNone e => exact h.frame (fun _ => id) rfl List.prefix_rfl (fun _ => by rw [e]; simp)
    | wait e => exact h.frame (fun _ => id) rfl List.prefix_rfl (fun _ => by rw [e]; simp)

theorem plogReach_pend {s : PLogSt} (h : PLogReach K L H s) : PendAt s := by
  induction h with
  | init hi =>
    obtain ⟨h1, h2, h3, h4, h5⟩ := hi
    have hpe : ∀ x ∈ nextHello H, x.pfx ≠ b!"shutdown" := by
      intro x hx
      cases H with
      | nil => cases hx
      | cons y r => simp only [nextHello, List.mem_singleton] at hx; subst hx; show b!"dht" ≠ _; decide
    refine ⟨fun x hx e => ?_, fun x hx e => ?_, fun e => absurd h1.2.2.2.2.1 e⟩
    · rw [h3, upd_same] at hx; exact absurd (congrArg LogRec.pfx e) (hpe x hx)
    · rw [h3, upd_same] at hx; exact absurd (congrArg LogRec.pfx e) (hpe x hx)
  | step hr st ih => exact pendAt_step (plogReach_base hr) (plogReach_main hr) ih st

/-! ## The goroutine of `Run` -/

/-- what `Run` has said when it is here -/
def saidRun (K : KEnv) (taken : List RecvPacket) : StPc → List LogRec
  | .boot _ => []
  | .dead => []
  | .register _ => runLines.take 3
  | .spawnFetch => runLines.take 4
  | .registerClean => runLines.take 4
  | .listen => runLines ++ taken.map (rpcReceived K)

theorem runAt_step {s t : PLogSt} (h : s.said .run = saidRun K (s.pg.st.taken.map Prod.fst) s.pg.st.pc) (hb : PlBase K L H s) (st : PLogStep K L s t) :
    t.said .run = saidRun K (t.pg.st.taken.map Prod.fst) t.pg.st.pc := by
  cases st with
  | write g a hp => rw [said_write hp]; exact h
  | main a hp m =>
    cases m with
    | @bootOk host addr r O c hd hh hpc hO hc =>
      rw [said_act_ne _ _ (by decide)]
      rw [hpc] at h; exact h
    | @bootFails host addr r O p c hd hh hpc hO hc =>
      rw [said_act_ne _ _ (by decide)]
      exact h
    | @bootPanic tr hd =>
      rcases hb.dying _ hd with e | ⟨a', r, O, p, c, e1, -⟩
      · exact absurd e a.2.1
      · rw [e1] at h; exact h
    | run hpc =>
      rw [said_act, said_act_ne _ _ (by decide), h, hpc]; rfl
    | @wait p sig hs m =>
      have hst := pgMain_st m
      rw [said_act_ne _ _ (by decide), act_pg, hst]; exact h
  | run a hp m =>
    cases m with
    | register e => rw [said_act, h, e]; rfl
    | registered e => rw [said_act, h, e]; rfl
    | fetch e => rw [said_act, h, e]; rfl
    | clean e =>
      have ht : s.pg.st.taken = [] := by
        have hs := C83_startup hb.pg
        have := (stReach_inv hs).2.2.2
        rw [e] at this
        obtain ⟨x, hx⟩ := this
        simp_all
      rw [said_act, h, e]
      simp only [act_pg, ht]; rfl
    | take e => rw [said_act, h, act_pg]; simp only [e]; simp [saidRun]
  | closer a hp m => cases m <;> (rw [said_act_ne _ _ (by decide)]; exact h)
  | rcv a hp m => cases m <;> (rw [said_act_ne _ _ (by decide)]; exact h)
  | quiet a m =>
    cases m with
    | rangeOne => rw [said_act_ne _ _ (by decide)]; exact h
    | _ => exact h

theorem plogReach_run {s : PLogSt} (h : PLogReach K L H s) : s.said .run = saidRun K (s.pg.st.taken.map Prod.fst) s.pg.st.pc := by
  induction h with
  | init hi =>
    obtain ⟨h1, h2, h3, h4, h5⟩ := hi
    have hs := h1.1
    rw [StSt.start] at hs
    simp [PLogSt.said, h5, h3, hs, recsOf, saidRun, upd]
  | step hr st ih => exact runAt_step ih (plogReach_base hr) st

/-! ## The clean-up function -/

def saidCloser (L : LifeEnv) : CloserPc → List LogRec
  | .notYet => []
  | .begin => (closeLines L).take 1
  | .stored => (closeLines L).take 1
  | .returned => closeLines L
  | .done => closeLines L

theorem closerAt_step {s t : PLogSt} (h : s.said .closer = saidCloser L s.pg.closer ∧ (s.pg.closer = .done → s.pend .closer = []))
    (hb : PlBase K L H s) (st : PLogStep K L s t) : t.said .closer = saidCloser L t.pg.closer ∧ (t.pg.closer = .done → t.pend .closer = []) := by
  obtain ⟨h, hd⟩ := h
  have hi := pgReach_inv hb.pg
  cases st with
  | @write r q g a hp =>
    refine ⟨by rw [said_write hp]; exact h, fun e => ?_⟩
    have := hd e
    by_cases e : g = .closer
    · subst e; rw [hp] at this; cases this
    · simp only [upd_ne s.pend q (fun x => e x.symm : Gor.closer ≠ g)]; exact this
  | main a hp m =>
    cases m with
    | bootOk => exact ⟨by rw [said_act_ne _ _ (by decide)]; exact h, fun e => by rw [act_pend_ne _ _ (by decide)]; exact hd e⟩
    | bootFails => exact ⟨by rw [said_act_ne _ _ (by decide)]; exact h, fun e => by rw [act_pend_ne _ _ (by decide)]; exact hd e⟩
    | bootPanic => exact ⟨h, hd⟩
    | run hpc =>
      exact ⟨by rw [said_act_ne _ _ (by decide), said_act_ne _ _ (by decide)]; exact h,
        fun e => by rw [act_pend_ne _ _ (by decide), act_pend_ne _ _ (by decide)]; exact hd e⟩
    | @wait p sig hs m =>
      have hst : p.closer = s.pg.closer := by cases m <;> rfl
      exact ⟨by rw [said_act_ne _ _ (by decide), act_pg, hst]; exact h,
        fun e => by rw [act_pg, hst] at e; rw [act_pend_ne _ _ (by decide)]; exact hd e⟩
  | run a hp m =>
    cases m <;> exact ⟨by rw [said_act_ne _ _ (by decide)]; exact h, fun e => by rw [act_pend_ne _ _ (by decide)]; exact hd e⟩
  | closer a hp m =>
    cases m with
    | store e => exact ⟨by rw [said_act, h, e]; rfl, fun e => by cases e⟩
    | close e => exact ⟨by rw [said_act, h, e]; rfl, fun e => by cases e⟩
    | done e => exact ⟨by rw [said_act, h, e]; rfl, fun e => by rw [act_pend, hp]; rfl⟩
  | rcv a hp m =>
    cases m <;> exact ⟨by rw [said_act_ne _ _ (by decide)]; exact h, fun e => by rw [act_pend_ne _ _ (by decide)]; exact hd e⟩
  | quiet a m =>
    cases m with
    | rangeOne e =>
      have e1 : s.pg.closer = .notYet := hi.range (by simp [e])
      exact ⟨by rw [said_act, h, e1]; rfl, fun e => by cases e⟩
    | _ => exact ⟨h, hd⟩

theorem plogReach_closer {s : PLogSt} (h : PLogReach K L H s) :
    s.said .closer = saidCloser L s.pg.closer ∧ (s.pg.closer = .done → s.pend .closer = []) := by
  induction h with
  | init hi =>
    obtain ⟨h1, h2, h3, h4, h5⟩ := hi
    have hs := h1.2.2.2.2.2.2.2.1
    simp [PLogSt.said, h5, h3, hs, recsOf, saidCloser, upd]
  | step hr st ih => exact closerAt_step ih (plogReach_base hr) st

/-! ## The receive goroutine -/

/-- the record is that of a datagram -/
def isRead (r : LogRec) : Bool := r.msg = b!"<<< received Bytes"

inductive RcvPend (K : KEnv) (s : PLogSt) : Prop where
  | none : s.pend .rcv = [] → RcvPend K s
  | err (e : Bytes) : s.pend .rcv = [udpReceiveErr e] → s.pg.rcv = .top → RcvPend K s
  | got {p : RecvPacket} : s.pend .rcv = [udpReceived K p] → s.pg.rcv = .sending p → RcvPend K s

structure RcvAt (K : KEnv) (s : PLogSt) : Prop where
  pend : RcvPend K s
  got : (s.said .rcv).filter isRead = s.pg.got.map (udpReceived K)
  kinds : ∀ r ∈ s.said .rcv, (∃ p, r = udpReceived K p) ∨ ∃ e, r = udpReceiveErr e

theorem RcvAt.frame {s t : PLogSt} (h : RcvAt K s) (h1 : t.pend .rcv = s.pend .rcv) (h2 : recsOf .rcv t.log = recsOf .rcv s.log)
    (h3 : t.pg.rcv = s.pg.rcv) (h4 : t.pg.got = s.pg.got) : RcvAt K t := by
  have hs : t.said .rcv = s.said .rcv := by simp [PLogSt.said, h1, h2]
  obtain ⟨a, b, c⟩ := h
  refine ⟨?_, by rw [hs, h4]; exact b, by rw [hs]; exact c⟩
  cases a with
  | none e => exact .none (h1.trans e)
  | err x e e2 => exact .err x (h1.trans e) (h3.trans e2)
  | got e e2 => exact .got (h1.trans e) (h3.trans e2)

theorem rcvAt_step {s t : PLogSt} (h : RcvAt K s) (st : PLogStep K L s t) : RcvAt K t := by
  cases st with
  | @write r q g a hp =>
    by_cases e : g = .rcv
    · subst e
      refine ⟨.none ?_, by rw [said_write hp]; exact h.got, by rw [said_write hp]; exact h.kinds⟩
      simp only [upd_same]
      cases h.pend with
      | none e => rw [hp] at e; cases e
      | err x e => rw [hp] at e; exact (List.cons.inj e).2
      | got e => rw [hp] at e; exact (List.cons.inj e).2
    · refine h.frame ?_ ?_ rfl rfl
      · simp only [upd_ne s.pend q (fun x => e x.symm : Gor.rcv ≠ g)]
      · simp only [recsOf_snoc, if_neg e, List.append_nil]
  | main a hp m =>
    cases m with
    | bootOk => exact h.frame (act_pend_ne _ _ (by decide) _) rfl rfl rfl
    | bootFails => exact h.frame (act_pend_ne _ _ (by decide) _) rfl rfl rfl
    | bootPanic => exact h.frame rfl rfl rfl rfl
    | run hpc => exact h.frame (by rw [act_pend_ne _ _ (by decide), act_pend_ne _ _ (by decide)]) rfl rfl rfl
    | @wait p sig hs m =>
      exact h.frame (act_pend_ne _ _ (by decide) _) rfl (by cases m <;> rfl) (by cases m <;> rfl)
  | run a hp m => cases m <;> exact h.frame (act_pend_ne _ _ (by decide) _) rfl rfl rfl
  | closer a hp m => cases m <;> exact h.frame (act_pend_ne _ _ (by decide) _) rfl rfl rfl
  | rcv a hp m =>
    cases m with
    | test e =>
      exact ⟨.none (by rw [act_pend, hp]; rfl), by rw [said_act, List.append_nil]; exact h.got, by rw [said_act, List.append_nil]; exact h.kinds⟩
    | read p e e2 =>
      refine ⟨.got (p := p) (by rw [act_pend, hp]; rfl) rfl, ?_, ?_⟩
      · rw [said_act, List.filter_append, h.got]; simp [isRead, udpReceived]
      · intro r hr
        rw [said_act] at hr
        rcases List.mem_append.1 hr with hr | hr
        · exact h.kinds r hr
        · exact .inl ⟨p, List.mem_singleton.1 hr⟩
    | readErr x e =>
      refine ⟨.err x (by rw [act_pend, hp]; rfl) rfl, ?_, ?_⟩
      · rw [said_act, List.filter_append, h.got]
        have : [udpReceiveErr x].filter isRead = [] := by
          rw [List.filter_eq_nil_iff]; intro r hr; rw [List.mem_singleton.1 hr]
          show ¬ decide (b!"<<< receive udp err" = b!"<<< received Bytes") = true
          clear hr; decide
        rw [this]; simp
      · intro r hr
        rw [said_act] at hr
        rcases List.mem_append.1 hr with hr | hr
        · exact h.kinds r hr
        · exact .inr ⟨x, List.mem_singleton.1 hr⟩
    | deliver e e2 =>
      exact ⟨.none (by rw [act_pend, hp]; rfl), by rw [said_act, List.append_nil]; exact h.got, by rw [said_act, List.append_nil]; exact h.kinds⟩
  | quiet a m =>
    cases m with
    | rangeOne => exact h.frame (act_pend_ne _ _ (by decide) _) rfl rfl rfl
    | _ => exact h.frame rfl rfl rfl rfl

theorem plogReach_rcv {s : PLogSt} (h : PLogReach K L H s) : RcvAt K s := by
  induction h with
  | init hi =>
    obtain ⟨h1, h2, h3, h4, h5⟩ := hi
    have hs := h1.2.2.2.2.2.2.2.2.2.2.2.2.2
    have hpe : ∀ {s : PLogSt}, s.pend = upd (fun _ => []) .main (nextHello H) → s.pend .rcv = [] := by
      intro s e; rw [e]; rfl
    refine ⟨.none (hpe h3), ?_, ?_⟩
    · simp [PLogSt.said, hpe h3, h5, recsOf, hs]
    · simp [PLogSt.said, hpe h3, h5, recsOf]
  | step hr st ih => exact rcvAt_step ih st

/-! ## The moment at which a record was written -/

theorem log_step {s t : PLogSt} (st : PLogStep K L s t) :
    (t.log = s.log) ∨ ∃ g r q, s.pend g = r :: q ∧ t = { s with pend := upd s.pend g q, log := s.log ++ [(g, r)] } := by
  cases st with
  | @write r q g a hp => exact .inr ⟨g, r, q, hp, rfl⟩
  | main a hp m => cases m <;> exact .inl rfl
  | run a hp m => cases m <;> exact .inl rfl
  | closer a hp m => cases m <;> exact .inl rfl
  | rcv a hp m => cases m <;> exact .inl rfl
  | quiet a m => cases m <;> exact .inl rfl

theorem written_at {s : PLogSt} (h : PLogReach K L H s) : ∀ {a b : List (Gor × LogRec)} {g : Gor} {r : LogRec}, s.log = a ++ (g, r) :: b →
    ∃ u q, PLogReach K L H u ∧ u.log = a ∧ u.pend g = r :: q ∧ Reach (· = u) (PLogStep K L) s := by
  induction h with
  | init hi => intro a b g r e; rw [hi.2.2.2.2] at e; simp at e
  | @step s t hr st ih =>
    intro a b g r e
    rcases log_step st with e1 | ⟨g', r', q, e1, e2⟩
    · rw [e1] at e
      obtain ⟨u, q, h1, h2, h3, h4⟩ := ih e
      exact ⟨u, q, h1, h2, h3, h4.step st⟩
    · have e3 : t.log = s.log ++ [(g', r')] := by rw [e2]
      rw [e3] at e
      rcases List.eq_nil_or_concat b with rfl | ⟨b', x, rfl⟩
      · have := List.append_inj' e rfl
        have h2 := (List.cons.inj this.2).1
        cases h2
        exact ⟨s, q, hr, this.1, e1, Reach.step (Reach.init (init := fun x => x = s) rfl) st⟩
      · have := List.append_inj' (s₁ := s.log) (t₁ := [(g', r')]) (s₂ := a ++ (g, r) :: b') (t₂ := [x]) (by rw [e]; simp) rfl
        obtain ⟨u, q, h1, h2, h3, h4⟩ := ih this.1
        exact ⟨u, q, h1, h2, h3, h4.step st⟩

end P2P

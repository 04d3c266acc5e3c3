import Verif.Lemmas.ProgramLog2
/-! # C100: what the log says about the life of the program -/
namespace P2P
variable {K : KEnv} {L : LifeEnv} {H : List (Bytes × Option UDPAddr)}

/-- C100: logging does not influence the run: without its log this is the program of C83. -/
theorem C100_erases {s : PLogSt} (h : PLogReach K L H s) : PgReach K (H.map Prod.snd) s.pg := (plogReach_base h).pg

/-- C100: whatever is in front of a record was the whole log at an earlier moment of the same run. -/
theorem C100_prefix {s : PLogSt} (h : PLogReach K L H s) {a : List (Gor × LogRec)} (ha : a <+: s.log) :
    ∃ u, PLogReach K L H u ∧ u.log = a ∧ Reach (· = u) (PLogStep K L) s := by
  obtain ⟨b, hb⟩ := ha
  cases b with
  | nil => exact ⟨s, h, by simpa using hb.symm, .init rfl⟩
  | cons x b =>
    obtain ⟨u, q, h1, h2, -, h4⟩ := written_at h hb.symm
    exact ⟨u, h1, h2, h4⟩

theorem ended_quiet {s : PLogSt} (h : PLogReach K L H s) : ((∃ b, s.pg.main = .exited b) ∨ s.pg.st.pc = .dead) → s.pend .main = [] := by
  cases h with
  | init hi =>
    obtain ⟨h1, h2, h3, h4, h5⟩ := hi
    have hs := h1.1
    rw [StSt.start] at hs
    rintro (⟨b, e⟩ | e)
    · rw [h1.2.2.1] at e; cases e
    · rw [hs] at e; cases e
  | @step u t hr st =>
    have no : ∀ {v : PLogSt}, u.pg.alive → v.pg.main = u.pg.main → v.pg.st.pc = u.pg.st.pc →
        ¬ ((∃ b, v.pg.main = .exited b) ∨ v.pg.st.pc = .dead) := by
      rintro v ⟨-, a1, a2⟩ e1 e2 (⟨b, e⟩ | e)
      · exact a2 b (e1 ▸ e)
      · exact a1 (e2 ▸ e)
    have no2 : ∀ {v : PLogSt}, u.pg.alive → v.pg.main = u.pg.main → v.pg.st.pc ≠ .dead →
        ¬ ((∃ b, v.pg.main = .exited b) ∨ v.pg.st.pc = .dead) := by
      rintro v ⟨-, a1, a2⟩ e1 e2 (⟨b, e⟩ | e)
      · exact a2 b (e1 ▸ e)
      · exact e2 e
    intro hx
    cases st with
    | write g a hp => exact absurd hx (no a rfl rfl)
    | main a hp m =>
      cases m with
      | bootOk => exact absurd hx (no2 a rfl (by simp))
      | bootFails => exact absurd hx (no a rfl rfl)
      | bootPanic => exact hp
      | run => exact absurd hx (no2 a rfl (by simp))
      | @wait p sig hs m =>
        have hst := pgMain_st m
        rcases hx with ⟨b, e⟩ | e
        · rw [act_pg] at e; rw [act_pend, hp, e]; rfl
        · rw [act_pg, hst] at e; exact absurd e a.2.1
    | run a hp m =>
      cases m with
      | take => exact absurd hx (no a rfl rfl)
      | _ => exact absurd hx (no2 a rfl (by simp))
    | closer a hp m => cases m <;> exact absurd hx (no a rfl rfl)
    | rcv a hp m => cases m <;> exact absurd hx (no a rfl rfl)
    | quiet a m => cases m <;> exact absurd hx (no a rfl rfl)

/-- a run that is bootstrapping can still end in one of the two ways -/
theorem script_exists (r : List (Bytes × Option UDPAddr)) : ∀ (hs : List (Bytes × Option UDPAddr)) (l : List LogRec), BootsDone K L hs l →
    ∃ e full, MainScript K L (hs ++ r) e full ∧ (l ++ nextHello r) <+: full := by
  induction r with
  | nil =>
    intro hs l h
    refine ⟨_, _, MainScript.ended (sig := b!"interrupt") false (by simpa using h) (by simp), ?_⟩
    simp only [nextHello, List.append_nil]
    exact List.prefix_append _ _
  | cons x r ih =>
    obtain ⟨host, a⟩ := x
    intro hs l h
    cases a with
    | none =>
      exact ⟨_, _, MainScript.died rfl h (.unresolved host), (List.prefix_append_right_inj l).2 ⟨_, rfl⟩⟩
    | some a =>
      obtain ⟨e, full, h1, h2⟩ := ih _ _ (BootsDone.snoc h (.sent host a 0))
      refine ⟨e, full, by simpa using h1, List.IsPrefix.trans ?_ h2⟩
      rw [List.append_assoc]
      exact (List.prefix_append_right_inj l).2 ⟨_, rfl⟩

/-- C100: **the records of the main goroutine are the beginning of a script**: for every host in turn the record of the attempt and those of its outcome (a
failure is the end), then that it waits, the signal, that it cleans up, how that ended, and that it is finished. If the process has ended the
script is complete and is the one for that end. -/
theorem C100_main_log {s : PLogSt} (h : PLogReach K L H s) :
    ∃ e full, MainScript K L H e full ∧ recsOf .main s.log <+: full ∧
      (∀ b, s.pg.main = .exited b → e = .ended b ∧ recsOf .main s.log = full) ∧ (s.pg.st.pc = .dead → e = .died ∧ recsOf .main s.log = full) := by
  have hi := pgReach_inv (C100_erases h)
  have hq := ended_quiet h
  have hw : recsOf .main s.log <+: s.said .main := List.prefix_append _ _
  cases plogReach_main h with
  | dying e0 e1 e2 e3 e4 e5 =>
    rw [e5] at hw
    refine ⟨_, _, .died e2 e3 e4, hw, fun b e => ?_, fun e => ⟨rfl, ?_⟩⟩
    · rw [(hi.left (by rw [e]; simp)).1] at e1; cases e1
    · rw [← said_of_pend_nil (hq (.inr e)), e5]
  | @boot hs l e0 e1 e2 e3 e4 =>
    obtain ⟨e, full, h1, h2⟩ := script_exists s.hosts hs l e3
    rw [← e2] at h1
    refine ⟨e, full, h1, hw.trans (by rw [e4]; exact h2), fun b e => ?_, fun e => ?_⟩
    · rw [(hi.left (by rw [e]; simp)).1] at e1; cases e1
    · exact absurd e0 ((plogReach_base h).dead e)
  | @up l sig e0 e1 e2 e3 e4 e5 =>
    have hd : s.pg.st.pc ≠ .dead := by intro e; rw [e] at e1; cases e1
    rw [e4] at hw
    cases hm : s.pg.main with
    | exited b =>
      refine ⟨_, _, .ended b e3 e2, ?_, fun b' e => ?_, fun e => absurd e hd⟩
      · rw [hm] at hw; cases b <;> exact hw
      · cases e
        refine ⟨rfl, ?_⟩
        rw [← said_of_pend_nil (hq (.inl ⟨b, hm⟩)), e4, hm]
        cases b <;> rfl
    | final b =>
      refine ⟨_, _, .ended b e3 e2, ?_, fun b' e => (by cases e), fun e => absurd e hd⟩
      rw [hm] at hw; cases b <;> exact hw
    | select =>
      refine ⟨_, _, .ended false e3 e2, ?_, fun b' e => (by cases e), fun e => absurd e hd⟩
      rw [hm] at hw; exact hw.trans ((List.prefix_append_right_inj l).2 ⟨_, rfl⟩)
    | store =>
      refine ⟨_, _, .ended false e3 e2, ?_, fun b' e => (by cases e), fun e => absurd e hd⟩
      rw [hm] at hw; exact hw.trans ((List.prefix_append_right_inj l).2 ⟨_, rfl⟩)
    | start =>
      refine ⟨_, _, .ended false e3 e2, ?_, fun b' e => (by cases e), fun e => absurd e hd⟩
      rw [hm] at hw; exact hw.trans ((List.prefix_append_right_inj l).2 ⟨_, rfl⟩)
    | cleaning =>
      refine ⟨_, _, .ended false e3 e2, ?_, fun b' e => (by cases e), fun e => absurd e hd⟩
      rw [hm] at hw; exact hw.trans ((List.prefix_append_right_inj l).2 ⟨_, rfl⟩)

/-- C100: **nothing runs before the bootstrap is over**: in front of every record of the goroutine of `Run` there are the records of all the
`BootStrap` calls, all successful and in order. -/
theorem C100_after_boot {s : PLogSt} (h : PLogReach K L H s) {a b : List (Gor × LogRec)} {r : LogRec} (e : s.log = a ++ (.run, r) :: b) :
    ∃ l, BootsDone K L H l ∧ l <+: recsOf .main a := by
  obtain ⟨u, q, h1, rfl, h3, -⟩ := written_at h e
  have hr := plogReach_run h1
  have hb : u.pg.st.pc.booted = true := by
    cases hpc : u.pg.st.pc <;> first | rfl | skip
    · rw [hpc] at hr; simp [PLogSt.said, h3, saidRun] at hr
    · rw [hpc] at hr; simp [PLogSt.said, h3, saidRun] at hr
  cases plogReach_main h1 with
  | dying _ e1 => rw [hb] at e1; cases e1
  | boot _ e1 => rw [hb] at e1; cases e1
  | up _ _ _ e3 _ e5 => exact ⟨_, e3, e5⟩

theorem saidRun_prefix (taken : List RecvPacket) (pc : StPc) : saidRun K taken pc <+: runLines ++ taken.map (takenLine K) := by
  cases pc with
  | boot => exact List.nil_prefix
  | dead => exact List.nil_prefix
  | listen => exact List.prefix_rfl
  | register => exact ((List.take_prefix _ _).trans (List.prefix_append _ _))
  | spawnFetch => exact ((List.take_prefix _ _).trans (List.prefix_append _ _))
  | registerClean => exact ((List.take_prefix _ _).trans (List.prefix_append _ _))

/-- C100: **the records of `Run`**: what it is doing, step by step, and then one record for every packet that it takes, in the order in which it takes
them and with the sender and the length of the packet. -/
theorem C100_run_log {s : PLogSt} (h : PLogReach K L H s) :
    recsOf .run s.log <+: runLines ++ (s.pg.st.taken.map Prod.fst).map (takenLine K) := by
  have h1 : recsOf .run s.log <+: s.said .run := List.prefix_append _ _
  rw [plogReach_run h] at h1
  exact h1.trans (saidRun_prefix _ _)

/-- … and before it takes the next packet it has written the record of the last one -/
theorem C100_run_keeps_up {s : PLogSt} (h : PLogReach K L H s) (ht : s.pg.st.taken ≠ []) :
    runLines ++ (s.pg.st.taken.dropLast.map Prod.fst).map (takenLine K) <+: recsOf .run s.log := by
  induction h with
  | init hi =>
    have hs := hi.1.1
    rw [StSt.start] at hs
    rw [hs] at ht; exact absurd rfl ht
  | @step s t hr st ih =>
    cases st with
    | write g a hp => exact (ih ht).trans (recsOf_prefix _ (List.prefix_append _ _))
    | main a hp m =>
      cases m with
      | @wait p sig hs m =>
        have hst := pgMain_st m
        rw [act_pg, hst] at ht ⊢
        exact ih ht
      | _ => exact ih ht
    | run a hp m =>
      cases m with
      | @take p q e eq =>
        have h2 := plogReach_run hr
        rw [said_of_pend_nil hp, e] at h2
        simp only [act_pg, act_log]
        rw [List.dropLast_concat, h2]
        exact List.prefix_rfl
      | _ => exact ih ht
    | closer a hp m => cases m <;> exact ih ht
    | rcv a hp m => cases m <;> exact ih ht
    | quiet a m => cases m <;> exact ih ht

/-- C100: **the records of the receive goroutine**: the datagrams read, in order, with sender and length (the last one may be outstanding), and
nothing else but failed reads. -/
theorem C100_read_log {s : PLogSt} (h : PLogReach K L H s) :
    (∃ rest, s.pg.got.map (readLine K) = (recsOf .rcv s.log).filter (fun r => r.msg = b!"<<< received Bytes") ++ rest ∧ rest.length ≤ 1) ∧
    ∀ r ∈ recsOf .rcv s.log, (∃ p ∈ s.pg.got, r = readLine K p) ∨ ∃ e, r = readErrLine e := by
  obtain ⟨h1, h2, h3⟩ := plogReach_rcv h
  have h2' : (recsOf .rcv s.log).filter isRead ++ (s.pend .rcv).filter isRead = s.pg.got.map (udpReceived K) := by
    rw [← h2, PLogSt.said, List.filter_append]
  refine ⟨⟨(s.pend .rcv).filter isRead, h2'.symm, ?_⟩, fun r hr => ?_⟩
  · refine Nat.le_trans (List.length_filter_le _ _) ?_
    cases h1 with
    | none e => simp [e]
    | err x e => simp [e]
    | got e => simp [e]
  · rcases h3 r (List.mem_append_left _ hr) with ⟨p, rfl⟩ | ⟨e, rfl⟩
    · left
      have : udpReceived K p ∈ s.pg.got.map (udpReceived K) := by
        rw [← h2']; exact List.mem_append_left _ (List.mem_filter.2 ⟨hr, by simp [isRead, udpReceived]⟩)
      obtain ⟨p', h5, h6⟩ := List.mem_map.1 this
      exact ⟨p', h5, h6.symm⟩
    · exact .inr ⟨e, rfl⟩

/-- C100: **a packet is reported read before it is reported taken**: the packets of the records "<<<rpc received" are the first ones of those of the
records "<<< received Bytes". By `C100_prefix` this holds of every beginning of the log. -/
theorem C100_read_then_taken {s : PLogSt} (h : PLogReach K L H s) :
    ∃ ps qs, (recsOf .run s.log).drop runLines.length = ps.map (takenLine K) ∧
      (recsOf .rcv s.log).filter (fun r => r.msg = b!"<<< received Bytes") = qs.map (readLine K) ∧ ps <+: qs ∧ qs <+: s.pg.got := by
  obtain ⟨h1, h2, h3⟩ := plogReach_rcv h
  have hn := C83_none_lost (C100_erases h)
  have h2' : (recsOf .rcv s.log).filter isRead ++ (s.pend .rcv).filter isRead = s.pg.got.map (udpReceived K) := by
    rw [← h2, PLogSt.said, List.filter_append]
  have hr := C100_run_log h
  obtain ⟨x, hx⟩ := hr
  have hd : ((recsOf .run s.log).drop runLines.length) <+: (s.pg.st.taken.map Prod.fst).map (takenLine K) := by
    by_cases hlen : runLines.length ≤ (recsOf .run s.log).length
    · have := congrArg (List.drop runLines.length) hx
      rw [List.drop_append_of_le_length hlen, List.drop_left] at this
      exact ⟨_, this⟩
    · rw [List.drop_eq_nil_of_le (by omega)]; exact List.nil_prefix
  obtain ⟨ps, hp1, hp2⟩ : ∃ ps, ps <+: s.pg.st.taken.map Prod.fst ∧ (recsOf .run s.log).drop runLines.length = ps.map (takenLine K) := by
    refine ⟨(s.pg.st.taken.map Prod.fst).take ((recsOf .run s.log).drop runLines.length).length, List.take_prefix _ _, ?_⟩
    rw [List.map_take]
    exact List.prefix_iff_eq_take.1 hd
  refine ⟨ps, s.pg.st.taken.map Prod.fst ++ s.pg.st.queue ++ (match s.pend .rcv, s.pg.rcv with | [], .sending p => [p] | _, _ => []), hp2, ?_, ?_, ?_⟩
  · cases h1 with
    | none e =>
      rw [e] at h2' ⊢
      simp only [List.filter_nil, List.append_nil] at h2'
      rw [show (recsOf .rcv s.log).filter (fun r => r.msg = b!"<<< received Bytes") = (recsOf .rcv s.log).filter isRead from rfl, h2', hn]
      cases s.pg.rcv <;> rfl
    | err y e e2 =>
      rw [e] at h2' ⊢
      rw [hn, e2] at h2'
      have : [udpReceiveErr y].filter isRead = [] := by
        rw [List.filter_eq_nil_iff]; intro r hr; rw [List.mem_singleton.1 hr]
        show ¬ decide (b!"<<< receive udp err" = b!"<<< received Bytes") = true
        clear hr; decide
      rw [this, List.append_nil] at h2'
      exact h2'
    | @got p e e2 =>
      rw [e] at h2' ⊢
      rw [hn, e2] at h2'
      have : [udpReceived K p].filter isRead = [udpReceived K p] := by simp [isRead, udpReceived]
      rw [this] at h2'
      simp only [List.map_append, List.map_cons, List.map_nil] at h2'
      have := (List.append_inj' h2' rfl).1
      simp only [List.append_nil, List.map_append]
      exact this
  · rw [List.append_assoc]; exact hp1.trans (List.prefix_append _ _)
  · rw [hn]
    refine (List.prefix_append_right_inj _).2 ?_
    cases s.pend .rcv <;> cases s.pg.rcv <;> first | exact List.prefix_rfl | exact List.nil_prefix

/-- C100: **the clean-up reports**: that it begins, that the socket is closed, that the server is closed; each once, and not before the main
goroutine has reported that it starts cleaning. -/
theorem C100_close_log {s : PLogSt} (h : PLogReach K L H s) :
    recsOf .closer s.log <+: closeLines L ∧
    ∀ a b r, s.log = a ++ (.closer, r) :: b → (⟨b!"shutdown", .Trace, b!"start cleaning...", none⟩ : LogRec) ∈ recsOf .main a := by
  constructor
  · have h1 : recsOf .closer s.log <+: s.said .closer := List.prefix_append _ _
    rw [(plogReach_closer h).1] at h1
    refine h1.trans ?_
    cases s.pg.closer with
    | notYet => exact List.nil_prefix
    | begin => exact List.take_prefix _ _
    | stored => exact List.take_prefix _ _
    | returned => exact List.prefix_rfl
    | done => exact List.prefix_rfl
  · intro a b r e
    obtain ⟨u, q, h1, rfl, h3, -⟩ := written_at h e
    have hc := (plogReach_closer h1).1
    have hi := pgReach_inv (C100_erases h1)
    refine (plogReach_pend h1).done fun e => ?_
    have := hi.range (.inl e)
    rw [this] at hc; simp [PLogSt.said, h3, saidCloser] at hc

/-- C100: the log does not run ahead: when it says that the connection is closed, it is; when it says that a signal was received, one was. -/
theorem C100_tells {s : PLogSt} (h : PLogReach K L H s) :
    ((⟨b!"server", .Info, b!"close udp conn", none⟩ : LogRec) ∈ recsOf .closer s.log → s.pg.connOpen = false ∧ s.pg.closed = true) ∧
    (∀ sig, (⟨b!"shutdown", .Trace, b!"received shutdown signal", sig⟩ : LogRec) ∈ recsOf .main s.log → 1 ≤ s.pg.signals) ∧
    ((⟨b!"dht", .Info, b!"enter listen loop...", none⟩ : LogRec) ∈ recsOf .run s.log → s.pg.st.cleanup = true) := by
  have hi := pgReach_inv (C100_erases h)
  refine ⟨fun hm => ?_, fun sig hm => ?_, fun hm => ?_⟩
  · have hm := (List.prefix_append _ (s.pend .closer)).subset hm
    have hc := (plogReach_closer h).1
    rw [PLogSt.said] at hc; rw [hc] at hm
    have : s.pg.closer = .returned ∨ s.pg.closer = .done := by
      cases hx : s.pg.closer with
      | returned => exact .inl rfl
      | done => exact .inr rfl
      | notYet => rw [hx] at hm; cases hm
      | begin => rw [hx] at hm; simp [saidCloser, closeLines] at hm
      | stored => rw [hx] at hm; simp [saidCloser, closeLines] at hm
    exact ⟨hi.conn.2 this, hi.closed.2 (.inr this)⟩
  · have hm := (List.prefix_append _ (s.pend .main)).subset hm
    by_cases hsel : s.pg.main = .select
    · exfalso
      cases plogReach_main h with
      | dying e0 e1 e2 e3 e4 e5 =>
        rw [show recsOf .main s.log ++ s.pend .main = s.said .main from rfl, e5] at hm
        rcases List.mem_append.1 hm with hm | hm
        · exact bootsDone_msg e3 _ hm rfl
        · exact bootLines_msg e4 _ hm rfl
      | boot e0 e1 e2 e3 e4 =>
        rw [show recsOf .main s.log ++ s.pend .main = s.said .main from rfl, e4] at hm
        rcases List.mem_append.1 hm with hm | hm
        · exact bootsDone_msg e3 _ hm rfl
        · cases hh : s.hosts with
          | nil => rw [hh] at hm; cases hm
          | cons y r => rw [hh] at hm; simp [nextHello, bootHello] at hm
      | up e0 e1 e2 e3 e4 =>
        rw [show recsOf .main s.log ++ s.pend .main = s.said .main from rfl, e4, hsel] at hm
        rcases List.mem_append.1 hm with hm | hm
        · exact bootsDone_msg e3 _ hm rfl
        · simp [saidWait, sdRec] at hm
    · exact (hi.left hsel).2
  · have hm := (List.prefix_append _ (s.pend .run)).subset hm
    have hr := plogReach_run h
    rw [PLogSt.said] at hr; rw [hr] at hm
    have hs := (stReach_inv hi.st).2.2.2
    cases hx : s.pg.st.pc with
    | listen => rw [hx] at hs; obtain ⟨x, hx⟩ := hs; simp_all
    | boot => rw [hx] at hm; cases hm
    | dead => rw [hx] at hm; cases hm
    | register => rw [hx] at hm; simp [saidRun, runLines] at hm
    | spawnFetch => rw [hx] at hm; simp [saidRun, runLines] at hm
    | registerClean => rw [hx] at hm; simp [saidRun, runLines] at hm

end P2P

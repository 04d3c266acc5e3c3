import Verif.Props.DownloadCount
/-! # C97, continued: the log of a job, its file, and the lines -/
namespace P2P

/-! ## Specification -/

/-- what is wrong with an announce that leads to no download -/
def jobComplaints : List Bytes :=
  [b!"cannot find info_hash's val", b!"info_hash's val cannot match type of string", b!"cannot find port's val", b!"port's val cannot match type of int",
   b!"implied_port's val cannot match type of int"]

/-- the record of an announce that leads to no download -/
def noJobRec (m stack : Bytes) : LogRec :=
  { pfx := b!"dht", method := .Error, msg := b!"fetchHandler panic", ctx := some [(b!"err", lerr (bizText m stack))] }
/-- the record of a file that could not be created -/
def createRec (e : Bytes) : LogRec := { pfx := b!"dht", method := .Error, msg := b!"create file err", ctx := some [(b!"err", lerr e)] }
/-- the record of a file that could not be written -/
def writeRec (e : Bytes) : LogRec := { pfx := b!"dht", method := .Error, msg := b!"write file err", ctx := some [(b!"err", lerr e)] }

/-- What a job logs, by what becomes of its file. -/
inductive JobLog (env : Env) (C : DlEnv) (F : FlushEnv) (sha1 : Bytes → Bytes) (ctx : Job) : FileOut → List LogRec → Prop where
  /-- the announce lacks a field, or one has the wrong type -/
  | noJob {m} (hm : m ∈ jobComplaints) : JobLog env C F sha1 ctx .none [noJobRec m (C.stack [])]
  /-- the download returned no data -/
  | noData {infoHash laddr o l} (hh : (asMap ctx.req.body).lookup b!"info_hash" = some (.str infoHash)) (ha : parseFetchAddr env ctx = .ok laddr)
      (hv : DlVerdict C laddr infoHash o l) (ho : o = .dialErr ∨ ∃ e s, o = .returned none (some e) s) : JobLog env C F sha1 ctx .none l
  /-- it never returned -/
  | never {infoHash laddr o l} (hh : (asMap ctx.req.body).lookup b!"info_hash" = some (.str infoHash)) (ha : parseFetchAddr env ctx = .ok laddr)
      (hv : DlVerdict C laddr infoHash o l) (ho : ∃ s, o = .fatal s ∨ o = .diverge s) : JobLog env C F sha1 ctx .never l
  /-- the file could not be created -/
  | notCreated {infoHash laddr d s l e} (hh : (asMap ctx.req.body).lookup b!"info_hash" = some (.str infoHash)) (ha : parseFetchAddr env ctx = .ok laddr)
      (hv : DlVerdict C laddr infoHash (.returned (some d) none s) l) (hc : F.createErr (torrentPath (hexEncode infoHash)) = some e) :
      JobLog env C F sha1 ctx .notCreated (l ++ [createRec e])
  /-- the file could not be written -/
  | notWritten {infoHash laddr d s l e} (hh : (asMap ctx.req.body).lookup b!"info_hash" = some (.str infoHash)) (ha : parseFetchAddr env ctx = .ok laddr)
      (hv : DlVerdict C laddr infoHash (.returned (some d) none s) l) (hc : F.createErr (torrentPath (hexEncode infoHash)) = none)
      (hw : F.writeErr (torrentPath (hexEncode infoHash)) = some e) :
      JobLog env C F sha1 ctx (.notWritten (hexEncode infoHash)) (l ++ [writeRec e])
  /-- the file is there -/
  | written {infoHash laddr d s l} (hh : (asMap ctx.req.body).lookup b!"info_hash" = some (.str infoHash)) (ha : parseFetchAddr env ctx = .ok laddr)
      (hv : DlVerdict C laddr infoHash (.returned (some d) none s) l) (hd : sha1 d = infoHash) (hc : F.createErr (torrentPath (hexEncode infoHash)) = none)
      (hw : F.writeErr (torrentPath (hexEncode infoHash)) = none) : JobLog env C F sha1 ctx (.written (hexEncode infoHash) d) l

/-! ## Proofs -/

theorem job_getString {d : Entries} {p : Panic} (h : Dict.GetString d b!"info_hash" = .panic p) : ∃ m ∈ jobComplaints, p = .biz m := by
  unfold Dict.GetString Dict.GetVal at h
  cases hd : dictGet d b!"info_hash" with
  | none => rw [hd] at h; cases h; exact ⟨_, by decide, rfl⟩
  | some v =>
    rw [hd] at h
    simp only [Res.bind_ok] at h
    split at h
    · cases h
    · cases h; exact ⟨_, by decide, rfl⟩

theorem job_getString_total {d : Entries} : (∃ i, Dict.GetString d b!"info_hash" = .ok i) ∨ ∃ p, Dict.GetString d b!"info_hash" = .panic p := by
  unfold Dict.GetString Dict.GetVal
  cases hd : dictGet d b!"info_hash" with
  | none => exact .inr ⟨_, rfl⟩
  | some v =>
    simp only [Res.bind_ok]
    split
    · exact .inl ⟨_, rfl⟩
    · exact .inr ⟨_, rfl⟩

theorem job_getInteger {d : Entries} {k : Bytes} {p : Panic} (h : Dict.GetInteger d k = .panic p) :
    (dictGet d k = none ∧ p = .biz (b!"cannot find " ++ k ++ b!"'s val")) ∨ p = .biz (k ++ b!"'s val cannot match type of int") := by
  unfold Dict.GetInteger Dict.GetVal at h
  cases hd : dictGet d k with
  | none => rw [hd] at h; cases h; exact .inl ⟨rfl, rfl⟩
  | some v =>
    rw [hd] at h
    simp only [Res.bind_ok] at h
    split at h
    · cases h
    · cases h; exact .inr rfl

theorem job_getInteger_total {d : Entries} {k : Bytes} : (∃ i, Dict.GetInteger d k = .ok i) ∨ ∃ p, Dict.GetInteger d k = .panic p := by
  unfold Dict.GetInteger Dict.GetVal
  cases hd : dictGet d k with
  | none => exact .inr ⟨_, rfl⟩
  | some v =>
    simp only [Res.bind_ok]
    split
    · exact .inl ⟨_, rfl⟩
    · exact .inr ⟨_, rfl⟩

theorem job_addr (env : Env) (ctx : Job) : (∃ a, parseFetchAddr env ctx = .ok a) ∨ ∃ m ∈ jobComplaints, parseFetchAddr env ctx = .panic (.biz m) := by
  unfold parseFetchAddr
  rcases @job_getInteger_total (asMap ctx.req.body) b!"port" with ⟨i, hi⟩ | ⟨p, hp⟩
  · simp only [hi, Res.bind_ok]
    by_cases he : Dict.Exist (asMap ctx.req.body) b!"implied_port"
    · rw [if_pos he]
      rcases @job_getInteger_total (asMap ctx.req.body) b!"implied_port" with ⟨i, hi⟩ | ⟨p, hp⟩
      · simp only [hi, Res.bind_ok]; exact .inl ⟨_, rfl⟩
      · right
        rcases job_getInteger hp with ⟨h1, -⟩ | h1
        · unfold Dict.Exist at he; rw [h1] at he; simp at he
        · simp only [hp]; rw [h1]; exact ⟨_, by decide, rfl⟩
    · rw [if_neg he]; exact .inl ⟨_, rfl⟩
  · right
    simp only [hp]
    rcases job_getInteger hp with ⟨-, h1⟩ | h1 <;> rw [h1] <;> exact ⟨_, by decide, rfl⟩

/-- **C97.** What a job logs, and what becomes of its file. -/
theorem C97_job (env : Env) (conn : Bytes → PEnv) (C : DlEnv) (F : FlushEnv) (ho : ∀ a tr, OrderOK ((conn a).order tr)) (sha1 : Bytes → Bytes) (fuel : Nat)
    (peerId : Bytes) (mem : Nat → Bytes) (pool : BPool) (ctx : Job) :
    JobLog env C F sha1 ctx (fetchHandlerL env conn C F sha1 fuel peerId mem pool ctx).1 (fetchHandlerL env conn C F sha1 fuel peerId mem pool ctx).2 := by
  unfold fetchHandlerL
  cases hh : Dict.GetString (asMap ctx.req.body) b!"info_hash" with
  | err e => rcases @job_getString_total (asMap ctx.req.body) with ⟨i, h⟩ | ⟨i, h⟩ <;> rw [hh] at h <;> cases h
  | diverge => rcases @job_getString_total (asMap ctx.req.body) with ⟨i, h⟩ | ⟨i, h⟩ <;> rw [hh] at h <;> cases h
  | panic p =>
    obtain ⟨m, hm, rfl⟩ := job_getString hh
    exact .noJob hm
  | ok infoHash =>
    have hl : (asMap ctx.req.body).lookup b!"info_hash" = some (.str infoHash) := by
      unfold Dict.GetString Dict.GetVal dictGet at hh
      cases hd : (asMap ctx.req.body).lookup b!"info_hash" with
      | none => rw [hd] at hh; cases hh
      | some v => rw [hd] at hh; cases v <;> first | (cases hh; rfl) | cases hh
    dsimp only
    rcases job_addr env ctx with ⟨laddr, ha⟩ | ⟨m, hm, ha⟩
    · rw [ha]
      dsimp only
      have hv := C97_verdict (conn laddr) C laddr (ho laddr) sha1 env.fold fuel peerId infoHash mem pool
      rcases hf : FetchMetaDataL (conn laddr) C laddr sha1 env.fold fuel peerId infoHash mem pool with ⟨o, l⟩
      rw [hf] at hv
      obtain ⟨h1, h2⟩ := hv
      dsimp only at h1 h2
      cases o with
      | dialErr => exact .noData hl ha h2 (.inl rfl)
      | panicked p => cases h2
      | fatal s => exact .never hl ha h2 ⟨s, .inl rfl⟩
      | diverge s => exact .never hl ha h2 ⟨s, .inr rfl⟩
      | returned ret err s =>
        have hauth := C41_authentic (conn laddr) sha1 env.fold fuel peerId infoHash mem pool ret err s h1.symm
        rcases hauth with ⟨rfl, he⟩ | ⟨d, rfl, rfl, hd⟩
        · obtain ⟨e, rfl⟩ := Option.ne_none_iff_exists'.1 he
          exact .noData hl ha h2 (.inr ⟨e, s, rfl⟩)
        · dsimp only
          rw [if_neg (by simp)]
          unfold flushTorrentFileL
          cases hc : F.createErr (torrentPath (hexEncode infoHash)) with
          | some e => exact .notCreated hl ha h2 hc
          | none =>
            cases hw : F.writeErr (torrentPath (hexEncode infoHash)) with
            | some e => exact .notWritten hl ha h2 hc hw
            | none => rw [List.append_nil]; exact .written hl ha h2 hd hc hw
    · rw [ha]
      exact .noJob hm

/-- a file was written: `fetchHandler` flushed it -/
theorem file_flushed {env : Env} {conn : Bytes → PEnv} {C : DlEnv} {F : FlushEnv} (ho : ∀ a tr, OrderOK ((conn a).order tr)) {sha1 : Bytes → Bytes} {fuel : Nat}
    {peerId : Bytes} {mem : Nat → Bytes} {pool : BPool} {ctx : Job} {n d : Bytes} {l : List LogRec}
    (h : fetchHandlerL env conn C F sha1 fuel peerId mem pool ctx = (.written n d, l)) :
    fetchHandler env conn sha1 fuel peerId mem pool ctx = .flush n d := by
  unfold fetchHandlerL at h
  unfold fetchHandler
  cases hh : Dict.GetString (asMap ctx.req.body) b!"info_hash" with
  | err e => rw [hh] at h; cases h
  | diverge => rw [hh] at h; cases h
  | panic p => rw [hh] at h; cases h
  | ok infoHash =>
    rw [hh] at h
    dsimp only at h
    cases ha : parseFetchAddr env ctx with
    | err e => rw [ha] at h; cases h
    | diverge => rw [ha] at h; cases h
    | panic p => rw [ha] at h; cases h
    | ok laddr =>
      rw [ha] at h
      dsimp only at h
      simp only [Res.bind_ok, Res.pure_eq]
      have hv := (C97_verdict (conn laddr) C laddr (ho laddr) sha1 env.fold fuel peerId infoHash mem pool).1
      rw [← hv]
      rcases hf : FetchMetaDataL (conn laddr) C laddr sha1 env.fold fuel peerId infoHash mem pool with ⟨o, l'⟩
      rw [hf] at h
      cases o with
      | dialErr => cases h
      | panicked p => cases h
      | fatal s => cases h
      | diverge s => cases h
      | returned ret err s =>
        dsimp only at h ⊢
        by_cases he : err ≠ none
        · rw [if_pos he] at h; cases h
        · rw [if_neg he] at h
          rw [if_neg he]
          have h := (Prod.mk.inj h).1
          unfold flushTorrentFileL at h
          cases hc : F.createErr (torrentPath (hexEncode infoHash)) with
          | some e => rw [hc] at h; cases h
          | none =>
            rw [hc] at h
            cases hw : F.writeErr (torrentPath (hexEncode infoHash)) with
            | some e => rw [hw] at h; cases h
            | none => rw [hw] at h; cases h; rfl

/-- the texts of a job that does not end with a file -/
theorem verdict_data {C : DlEnv} {laddr infoHash d : Bytes} {s : PSt} {l : List LogRec} (h : DlVerdict C laddr infoHash (.returned (some d) none s) l) :
    ∃ l', l = l' ++ [matchRec laddr infoHash] := by
  cases h with
  | data h => exact ⟨_, rfl⟩

theorem verdict_noData {C : DlEnv} {laddr infoHash : Bytes} {o : FetchOut} {l : List LogRec} (h : DlVerdict C laddr infoHash o l)
    (ho : ∀ d s, o ≠ .returned (some d) none s) : ∀ x, l.getLast? = some x → x.msg ≠ b!"chesum metadata match" := by
  have pr : ∀ {l : List LogRec}, DlProgress C laddr l → ∀ x, l.getLast? = some x → x.msg ≠ b!"chesum metadata match" :=
    fun hl x hx => (dlTexts_other (hl x (List.mem_of_getLast? hx)).1).1
  have one : ∀ {l : List LogRec} {v : LogVal} x, (l ++ [brokenRec laddr v]).getLast? = some x → x.msg ≠ b!"chesum metadata match" := by
    intro l v x hx; simp at hx; rw [← hx]; show b!"FetchMetaData err" ≠ _; decide
  cases h with
  | dial => intro x hx; cases hx
  | data hl => exact absurd rfl (ho _ _)
  | mismatch hl => intro x hx; simp at hx; rw [← hx]; show b!"chesum metadata not match" ≠ _; decide
  | incomplete hl => exact pr hl
  | refused hl hx hp => intro x hx; simp at hx; rw [← hx]; show b!"FetchMetaData err" ≠ _; decide
  | crashed hl hs => exact one
  | field hl hs hm => exact one
  | fatal hl => exact pr hl
  | diverge hl => exact pr hl

theorem verdict_texts {C : DlEnv} {laddr infoHash : Bytes} {o : FetchOut} {l : List LogRec} (hv : DlVerdict C laddr infoHash o l) :
    ∀ x ∈ l, x.msg ≠ b!"fetchHandler panic" := by
  intro x hx
  have pr : ∀ {y : LogRec}, DlRecord C laddr y → y.msg ≠ b!"fetchHandler panic" := by
    intro y hy e
    have := hy.msg
    rw [e] at this
    exact absurd this (by decide)
  cases hv with
  | dial => cases hx
  | data hl =>
    rcases List.mem_append.1 hx with hx | hx
    · exact pr (hl x hx).1
    · rw [List.mem_singleton.1 hx]; show b!"chesum metadata match" ≠ _; decide
  | mismatch hl =>
    rcases List.mem_append.1 hx with hx | hx
    · exact pr (hl x hx).1
    · rw [List.mem_singleton.1 hx]; show b!"chesum metadata not match" ≠ _; decide
  | incomplete hl => exact pr (hl x hx).1
  | refused hl hy hp =>
    rcases List.mem_append.1 hx with hx | hx
    · exact pr (hl x hx).1
    · rcases List.mem_cons.1 hx with rfl | hx
      · exact pr hy
      · rw [List.mem_singleton.1 hx]; show b!"FetchMetaData err" ≠ _; decide
  | crashed hl hs =>
    rcases List.mem_append.1 hx with hx | hx
    · exact pr (hl x hx).1
    · rw [List.mem_singleton.1 hx]; show b!"FetchMetaData err" ≠ _; decide
  | field hl hs hm =>
    rcases List.mem_append.1 hx with hx | hx
    · exact pr (hl x hx).1
    · rw [List.mem_singleton.1 hx]; show b!"FetchMetaData err" ≠ _; decide
  | fatal hl => exact pr (hl x hx).1
  | diverge hl => exact pr (hl x hx).1

/-- a job that only logs "fetchHandler panic" had no download -/
theorem job_bad {env : Env} {conn : Bytes → PEnv} {C : DlEnv} {F : FlushEnv} (ho : ∀ a tr, OrderOK ((conn a).order tr)) {sha1 : Bytes → Bytes} {fuel : Nat}
    {peerId : Bytes} {mem : Nat → Bytes} {pool : BPool} {ctx : Job} {f : FileOut} {m k : Bytes}
    (h : fetchHandlerL env conn C F sha1 fuel peerId mem pool ctx = (f, [noJobRec m k])) :
    (∀ s, (asMap ctx.req.body).lookup b!"info_hash" ≠ some (.str s)) ∨ ∀ a, parseFetchAddr env ctx ≠ .ok a := by
  by_cases h1 : ∀ s, (asMap ctx.req.body).lookup b!"info_hash" ≠ some (.str s)
  · exact .inl h1
  right
  intro a ha
  obtain ⟨s, h1⟩ := Classical.not_forall.1 h1
  have h1 := Classical.not_not.1 h1
  have hg : Dict.GetString (asMap ctx.req.body) b!"info_hash" = .ok s := by
    unfold Dict.GetString Dict.GetVal dictGet
    rw [h1]; rfl
  unfold fetchHandlerL at h
  rw [hg, ha] at h
  dsimp only at h
  have hv := (C97_verdict (conn a) C a (ho a) sha1 env.fold fuel peerId s mem pool).2
  rcases hf : FetchMetaDataL (conn a) C a sha1 env.fold fuel peerId s mem pool with ⟨o, l'⟩
  rw [hf] at h hv
  dsimp only at h hv
  have mem1 : noJobRec m k ∉ l' := fun hm => verdict_texts hv _ hm rfl
  cases o with
  | dialErr => have := (Prod.mk.inj h).2; rw [this] at mem1; simp at mem1
  | panicked p => cases hv
  | fatal s => have := (Prod.mk.inj h).2; rw [this] at mem1; simp at mem1
  | diverge s => have := (Prod.mk.inj h).2; rw [this] at mem1; simp at mem1
  | returned ret err t =>
    dsimp only at h
    split at h
    · have := (Prod.mk.inj h).2; rw [this] at mem1; simp at mem1
    · have h := (Prod.mk.inj h).2
      have : noJobRec m k ∈ l' ++ (flushTorrentFileL F (hexEncode s) (ret.getD [])).2 := by rw [h]; simp
      rcases List.mem_append.1 this with h | h
      · exact mem1 h
      · unfold flushTorrentFileL at h
        split at h
        · have := congrArg LogRec.msg (List.mem_singleton.1 h)
          exact absurd this (show b!"fetchHandler panic" ≠ b!"create file err" by decide)
        · split at h
          · have := congrArg LogRec.msg (List.mem_singleton.1 h)
            exact absurd this (show b!"fetchHandler panic" ≠ b!"write file err" by decide)
          · cases h

/-- **C97.** The last thing a job logs is "chesum metadata match" iff its file was written completely; the record then names the file's hash.
Only an announce that lacks a field is reported as "fetchHandler panic". -/
theorem C97_file (env : Env) (conn : Bytes → PEnv) (C : DlEnv) (F : FlushEnv) (ho : ∀ a tr, OrderOK ((conn a).order tr)) (sha1 : Bytes → Bytes) (fuel : Nat)
    (peerId : Bytes) (mem : Nat → Bytes) (pool : BPool) (ctx : Job) (f : FileOut) (l : List LogRec)
    (h : fetchHandlerL env conn C F sha1 fuel peerId mem pool ctx = (f, l)) :
    ((∃ x, l.getLast? = some x ∧ x.msg = b!"chesum metadata match") ↔ ∃ name data, f = .written name data) ∧
    (∀ name data, f = .written name data → ∃ laddr infoHash, l.getLast? = some (matchRec laddr infoHash) ∧ IsHexOf name infoHash ∧
      infoHash.length = 20 ∧ sha1 data = infoHash ∧ (asMap ctx.req.body).lookup b!"info_hash" = some (.str infoHash)) ∧
    ((∃ x ∈ l, x.msg = b!"fetchHandler panic") ↔
      (∀ s, (asMap ctx.req.body).lookup b!"info_hash" ≠ some (.str s)) ∨ ∀ a, parseFetchAddr env ctx ≠ .ok a) := by
  have hj := C97_job env conn C F ho sha1 fuel peerId mem pool ctx
  have hs : fetchHandler env conn sha1 fuel peerId mem pool ctx = (match f with | .written n d => .flush n d | _ => fetchHandler env conn sha1 fuel peerId mem pool ctx) := by
    cases f with
    | written n d => exact file_flushed ho h
    | _ => rfl
  rw [h] at hj
  dsimp only at hj
  have np : ∀ {laddr infoHash : Bytes} {o : FetchOut} {l : List LogRec}, DlVerdict C laddr infoHash o l → ∀ x ∈ l, x.msg ≠ b!"fetchHandler panic" := verdict_texts
  have good : ∀ {infoHash laddr : Bytes}, (asMap ctx.req.body).lookup b!"info_hash" = some (.str infoHash) → parseFetchAddr env ctx = .ok laddr →
      ¬ ((∀ s, (asMap ctx.req.body).lookup b!"info_hash" ≠ some (.str s)) ∨ ∀ a, parseFetchAddr env ctx ≠ .ok a) := by
    rintro infoHash laddr h1 h2 (h | h)
    · exact h _ h1
    · exact h _ h2
  cases hj with
  | noJob hm =>
    refine ⟨iff_of_false (fun ⟨x, hx, e⟩ => ?_) (by simp), (fun _ _ h => by cases h), iff_of_true ⟨_, List.mem_singleton_self _, rfl⟩ (job_bad ho h)⟩
    simp at hx
    rw [← hx] at e
    exact absurd e (show b!"fetchHandler panic" ≠ b!"chesum metadata match" by decide)
  | noData hh ha hv hn =>
    refine ⟨iff_of_false (fun ⟨x, hx, e⟩ => verdict_noData hv ?_ x hx e) (by simp), (fun _ _ h => by cases h), iff_of_false (fun ⟨x, hx, e⟩ => np hv x hx e) (good hh ha)⟩
    rintro d s rfl
    rcases hn with hn | ⟨e, s', hn⟩ <;> cases hn
  | never hh ha hv hn =>
    refine ⟨iff_of_false (fun ⟨x, hx, e⟩ => verdict_noData hv ?_ x hx e) (by simp), (fun _ _ h => by cases h), iff_of_false (fun ⟨x, hx, e⟩ => np hv x hx e) (good hh ha)⟩
    rintro d s rfl
    obtain ⟨s', hn | hn⟩ := hn <;> cases hn
  | notCreated hh ha hv hc =>
    refine ⟨iff_of_false (fun ⟨x, hx, e⟩ => ?_) (by simp), (fun _ _ h => by cases h), iff_of_false (fun ⟨x, hx, e⟩ => ?_) (good hh ha)⟩
    · simp at hx
      rw [← hx] at e
      exact absurd e (show b!"create file err" ≠ b!"chesum metadata match" by decide)
    · rcases List.mem_append.1 hx with hx | hx
      · exact np hv x hx e
      · rw [List.mem_singleton.1 hx] at e; exact absurd e (show b!"create file err" ≠ b!"fetchHandler panic" by decide)
  | notWritten hh ha hv hc hw =>
    refine ⟨iff_of_false (fun ⟨x, hx, e⟩ => ?_) (by simp), (fun _ _ h => by cases h), iff_of_false (fun ⟨x, hx, e⟩ => ?_) (good hh ha)⟩
    · simp at hx
      rw [← hx] at e
      exact absurd e (show b!"write file err" ≠ b!"chesum metadata match" by decide)
    · rcases List.mem_append.1 hx with hx | hx
      · exact np hv x hx e
      · rw [List.mem_singleton.1 hx] at e; exact absurd e (show b!"write file err" ≠ b!"fetchHandler panic" by decide)
  | written hh ha hv hd hc hw =>
    obtain ⟨l', rfl⟩ := verdict_data hv
    refine ⟨iff_of_true ⟨_, List.getLast?_concat, rfl⟩ ⟨_, _, rfl⟩, ?_, iff_of_false (fun ⟨x, hx, e⟩ => np hv x hx e) (good hh ha)⟩
    intro name data e
    cases e
    obtain ⟨ih, q1, q2, q3, q4⟩ := C46_flush env conn sha1 fuel peerId mem pool ctx _ _ hs
    rw [hh] at q1
    cases q1
    exact ⟨_, _, List.getLast?_concat, q3, q2, q4, hh⟩

end P2P

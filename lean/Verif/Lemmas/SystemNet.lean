import Verif.Model.SystemNet
import Verif.Lemmas.SystemRefine
import Verif.Props.InterleaveMemory
/-! # Lemmas about `Model/SystemNet` -/
namespace P2P

abbrev SysNetReach (S : SysEnv) (port : Int) (fs0 : Bytes → Option Bytes) : SysNetSt → Prop := Reach (SysNetInit S port fs0) (SysNetStep S)

/-- `S` with other peers, where the buffers are others at first -/
def SysEnv.instead (S : SysEnv) (conn : Nat → Bytes → PEnv) (mem : Nat → Nat → Bytes) (pool : Nat → BPool) : SysEnv :=
  { S with conn := conn, mem := mem, pool := pool }

theorem fetchHandler_eq (env : Env) (conn : Bytes → PEnv) (sha1 : Bytes → Bytes) (fuel : Nat) (peerId : Bytes) (mem : Nat → Bytes) (pool : BPool) (ctx : Job) :
    fetchHandler env conn sha1 fuel peerId mem pool ctx =
      match fetchArgs env ctx with
      | .ok a => afterFetch a.1 (FetchMetaData (conn a.2) sha1 env.fold fuel peerId a.1 mem pool)
      | .err _ => .nothing
      | .panic _ => .nothing
      | .diverge => .diverge := by
  have key : ∀ r : Res (Bytes × Bytes), (match r with
      | .ok (infoHash, laddr) =>
        match FetchMetaData (conn laddr) sha1 env.fold fuel peerId infoHash mem pool with
        | .dialErr => HandlerOut.nothing
        | .returned ret err _ => if err ≠ none then .nothing else .flush (hexEncode infoHash) (ret.getD [])
        | .panicked _ => .nothing
        | .fatal _ => .fatal
        | .diverge _ => .diverge
      | .err _ => .nothing
      | .panic _ => .nothing
      | .diverge => .diverge) =
      match r with
      | .ok a => afterFetch a.1 (FetchMetaData (conn a.2) sha1 env.fold fuel peerId a.1 mem pool)
      | .err _ => .nothing
      | .panic _ => .nothing
      | .diverge => .diverge := by
    intro r
    cases r with
    | ok a =>
      obtain ⟨infoHash, laddr⟩ := a
      simp only
      cases FetchMetaData (conn laddr) sha1 env.fold fuel peerId infoHash mem pool <;> rfl
    | _ => rfl
  exact key (fetchArgs env ctx)

theorem enqueued_append (a b : List Event) : enqueued (a ++ b) = enqueued a ++ enqueued b := List.filterMap_append
theorem logOf_append (p : Nat) (a b : List (Nat × Event)) : logOf p (a ++ b) = logOf p a ++ logOf p b := List.filterMap_append

/-- what was enqueued first stays the first -/
theorem enqueued_stays {p : Nat} {a b : List (Nat × Event)} {job : Job} {l : List Job} (h : enqueued (logOf p a) = job :: l) :
    ∃ l', enqueued (logOf p (a ++ b)) = job :: l' := ⟨l ++ enqueued (logOf p b), by rw [logOf_append, enqueued_append, h]; rfl⟩

theorem sysStep_log {S : SysEnv} {s t : SysSt} (h : SysStep S s t) : ∃ new, t.pl.log = s.pl.log ++ new := by
  cases h with
  | pipe new _ _ _ _ _ _ hl _ _ _ => exact ⟨new, hl⟩
  | _ => exact ⟨[], (List.append_nil _).symm⟩

section
variable {S : SysEnv}

theorem netStep_log {s t : SysNetSt} (h : SysNetStep S s t) : ∃ new, t.sys.pl.log = s.sys.pl.log ++ new := by
  cases h with
  | rest h _ _ _ => exact sysStep_log h
  | _ => exact ⟨[], (List.append_nil _).symm⟩

theorem netStep_done {s t : SysNetSt} (h : SysNetStep S s t) {p : Nat} {o : POut (Option Bytes × Option Bytes)} (hp : s.dl p = .running (.done o)) :
    t.dl p = .running (.done o) := by
  cases h with
  | start i q t _ _ _ _ hq =>
    simp only [upd]
    split
    · rename_i e; subst e; rw [hp] at hq; cases hq
    · exact hp
  | turn i q st k _ _ hq =>
    simp only [upd]
    split
    · rename_i e; subst e; rw [hp] at hq; cases hq
    · exact hp
  | _ => exact hp

theorem task_stays {s t : SysSt} (h : ∃ new, t.pl.log = s.pl.log ++ new) {p : Nat} {x : Task} (hx : s.task S p = some x) : t.task S p = some x := by
  obtain ⟨new, h⟩ := h
  unfold SysSt.task at *
  cases he : enqueued (logOf p s.pl.log) with
  | nil => rw [he] at hx; cases hx
  | cons job l =>
    obtain ⟨l', hl⟩ := enqueued_stays (b := new) he
    rw [h, hl]
    rw [he] at hx
    exact hx

theorem outcome_stays {s t : SysNetSt} (h : SysNetStep S s t) {p : Nat} {out : HandlerOut} (hx : s.outcome S p = some out) : t.outcome S p = some out := by
  obtain ⟨new, hl⟩ := netStep_log h
  unfold SysNetSt.outcome at *
  cases he : enqueued (logOf p s.sys.pl.log) with
  | nil => rw [he] at hx; cases hx
  | cons job l =>
    obtain ⟨l', hl'⟩ := enqueued_stays (b := new) he
    rw [hl, hl']
    rw [he] at hx
    simp only at hx ⊢
    cases ha : fetchArgs S.K.env job with
    | ok a =>
      rw [ha] at hx
      simp only at hx ⊢
      by_cases hd : (S.conn p a.2).dialFails = true
      · rw [if_pos hd] at hx ⊢; exact hx
      · rw [if_neg hd] at hx ⊢
        cases hdl : s.dl p with
        | idle => rw [hdl] at hx; cases hx
        | running st =>
          cases st with
          | wait _ _ => rw [hdl] at hx; cases hx
          | done o =>
            rw [netStep_done h hdl]
            rw [hdl] at hx
            exact hx
    | err _ => rw [ha] at hx; exact hx
    | panic _ => rw [ha] at hx; exact hx
    | diverge => rw [ha] at hx; exact hx

/-- something has come out only of a job that was sent -/
theorem outcome_job {s : SysNetSt} {p : Nat} {out : HandlerOut} (hx : s.outcome S p = some out) : ∃ job l, enqueued (logOf p s.sys.pl.log) = job :: l := by
  unfold SysNetSt.outcome at hx
  cases he : enqueued (logOf p s.sys.pl.log) with
  | nil => rw [he] at hx; cases hx
  | cons job l => exact ⟨job, l, rfl⟩

theorem outs_stays {S' : SysEnv} {s t : SysSt} (h : ∃ new, t.pl.log = s.pl.log ++ new) {p : Nat} {job : Job} {l : List Job}
    (he : enqueued (logOf p s.pl.log) = job :: l) : t.outs S' p = s.outs S' p := by
  obtain ⟨new, h⟩ := h
  obtain ⟨l', hl⟩ := enqueued_stays (b := new) he
  unfold SysSt.outs
  rw [h, hl, he]

theorem sysStep_instead {s t : SysSt} (h : SysStep S s t) (hfs : t.fs = s.fs) (hfin : t.pl.p2.finished = s.pl.p2.finished) (hoom : t.oom = s.oom)
    (conn : Nat → Bytes → PEnv) (mem : Nat → Nat → Bytes) (pool : Nat → BPool) : SysStep (S.instead conn mem pool) s t ∨ t = s := by
  cases h with
  | life a b c d e => exact .inl (.life a b c d e)
  | boot tr a b c d => exact .inl (.boot tr a b c d)
  | read a b c => exact .inl (.read a b c)
  | deliver x a b c => exact .inl (.deliver x a b c)
  | take x p q a b c d e => exact .inl (.take x p q a b c d e)
  | pipe new a b c d e f g h i j => exact .inl (.pipe new a b c d e f g h i j)
  | file i p _ _ _ _ =>
    right
    simp only at hfs
    subst hfs
    rfl
  | back i p _ _ _ => exact (snoc_ne hfin.symm).elim
  | fatal i p up _ _ =>
    have := up.2
    rw [this] at hoom
    cases hoom

/-- `S` with such peers does what `S` did in this execution. -/
theorem net_refines {port : Int} {fs0 : Bytes → Option Bytes} (conn : Nat → Bytes → PEnv) (mem : Nat → Nat → Bytes) (pool : Nat → BPool) {s : SysNetSt}
    (h : SysNetReach S port fs0 s) (hx : ∀ p out, s.outcome S p = some out → s.sys.outs (S.instead conn mem pool) p = out) :
    SysReach (S.instead conn mem pool) port fs0 s.sys := by
  induction h with
  | init h => exact .init h.1
  | @step s t hr st ih =>
    have hxs : ∀ p out, s.outcome S p = some out → s.sys.outs (S.instead conn mem pool) p = out := by
      intro p out ho
      obtain ⟨job, l, he⟩ := outcome_job ho
      rw [← outs_stays (netStep_log st) he]
      exact hx p out (outcome_stays st ho)
    have ih := ih hxs
    cases st with
    | rest a b c d =>
      rcases sysStep_instead a b c d conn mem pool with h | h
      · exact .step ih h
      · simp only [h]; exact ih
    | start i p t _ _ _ _ _ => exact ih
    | turn i p st k _ _ _ => exact ih
    | file i p out up hw ho hs hd =>
      have e := hxs p out ho
      refine .step ih (.file i p up hw ?_ hd)
      have : (fun j => if j = p then flushes (s.sys.outs (S.instead conn mem pool)) j else none) = fun j => if j = p then flushes (fun _ => out) j else none := by
        funext j
        split
        · rename_i hj; subst hj; unfold flushes; rw [e]
        · rfl
      rw [this]
      exact hs
    | back i p out up hw ho hr' =>
      have e := hxs p out ho
      refine .step ih (.back i p up hw ?_)
      unfold HandlerReturns at hr' ⊢
      rw [e]
      exact hr'
    | fatal i p up hw ho => exact .step ih (.fatal i p up hw (hxs p _ ho))
end

end P2P

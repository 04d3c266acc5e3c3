import Verif.Props.Fetch
import Verif.Props.PeerwireEx
import Verif.Lemmas.Num
/-! # C47: can the chosen address be dialled? And examples for C46 and C47 -/
namespace P2P

/-- no ':', '[' or ']' -/
def Plain (s : Bytes) : Prop := ∀ c ∈ s, c ≠ 58 ∧ c ≠ 91 ∧ c ≠ 93

/-- `net.SplitHostPort` (Go standard library, used by `net.DialTimeout`) accepts exactly `host:port` and `[host]:port`; the
host may contain colons only in the second form. -/
inductive SplitsTo : Bytes → Bytes → Bytes → Prop where
  | plain (host port : Bytes) : Plain host → Plain port → SplitsTo (host ++ b!":" ++ port) host port
  | bracket (host port : Bytes) : (∀ c ∈ host, c ≠ 91 ∧ c ≠ 93) → Plain port → SplitsTo (b!"[" ++ host ++ b!"]:" ++ port) host port

theorem plain_natDec (n : Nat) : Plain (natDec n) := by
  intro c hc
  have := isDigit_iff.1 (natDec_digit hc)
  refine ⟨?_, ?_, ?_⟩ <;> (rintro rfl; simp at this)

theorem plain_itoa (i : Int) : Plain (itoa i) := by
  cases i with
  | ofNat n => exact plain_natDec n
  | negSucc n =>
    intro c hc
    rcases List.mem_cons.1 hc with rfl | hc
    · decide
    · exact plain_natDec _ c hc

theorem plain_dotted (ip : Bytes) : Plain (dotted ip) := by
  intro c hc
  unfold dotted at hc
  generalize hl : ip.map (fun c => natDec c.toNat) = l at hc
  have hall : ∀ x ∈ l, Plain x := by
    intro x hx; rw [← hl] at hx
    obtain ⟨a, -, rfl⟩ := List.mem_map.1 hx
    exact plain_natDec _
  clear hl
  have hdot : Plain b!"." := by intro c hc; simp at hc; subst hc; decide
  induction l with
  | nil => simp [List.intercalate, List.intersperse] at hc
  | cons x r ih =>
    cases r with
    | nil => simp [List.intercalate, List.intersperse] at hc; exact hall x (by simp) c hc
    | cons y r =>
      have e : List.intercalate b!"." (x :: y :: r) = x ++ (b!"." ++ List.intercalate b!"." (y :: r)) := by
        simp [List.intercalate, List.intersperse]
      rw [e] at hc
      rcases List.mem_append.1 hc with h | h
      · exact hall x (by simp) c h
      · rcases List.mem_append.1 h with h | h
        · exact hdot c h
        · exact ih h (fun z hz => hall z (by simp [hz]))

theorem ipString_v4 (env : Env) (ip : Bytes) (h : to4 ip ≠ []) : ipString env ip = dotted (to4 ip) := by
  unfold ipString
  have hne : ip ≠ [] := by rintro rfl; exact h (by decide)
  rw [if_neg hne, if_pos h]

/-- **IPv4 sources**: without `implied_port` the address splits into the source's IP and the announced port, whatever
that integer is. -/
theorem C47_ipv4 (env : Env) (ctx : Job) (port : Int) (h4 : to4 ctx.addr.ip ≠ [])
    (hport : (asMap ctx.req.body).lookup b!"port" = some (.int port))
    (himp : ∀ v, (asMap ctx.req.body).lookup b!"implied_port" = some v → ∃ i, v = .int i ∧ i ≤ 0) :
    ∃ text, parseFetchAddr env ctx = .ok text ∧ SplitsTo text (dotted (to4 ctx.addr.ip)) (itoa port) := by
  refine ⟨_, (C47_address env ctx port hport).2.1 himp, ?_⟩
  have hne : ctx.addr.ip ≠ [] := by intro h; rw [h] at h4; exact h4 (by decide)
  unfold IPString
  rw [if_neg hne, ipString_v4 env _ h4]
  exact .plain _ _ (plain_dotted _) (plain_itoa _)

/-- **IPv6 sources**: without `implied_port` the address is not a `host:port` that can be dialled: the crawler can
fetch nothing from such a peer. (`text` is the IPv6 text: it contains a colon and no brackets.) -/
theorem C47_ipv6_undialable (env : Env) (ctx : Job) (port : Int)
    (hlen : ctx.addr.ip.length = 16) (h4 : to4 ctx.addr.ip = [])
    (htext : (58 : UInt8) ∈ env.ip6 ctx.addr.ip ∧ (91 : UInt8) ∉ env.ip6 ctx.addr.ip)
    (hport : (asMap ctx.req.body).lookup b!"port" = some (.int port))
    (himp : ∀ v, (asMap ctx.req.body).lookup b!"implied_port" = some v → ∃ i, v = .int i ∧ i ≤ 0) :
    ∃ text, parseFetchAddr env ctx = .ok text ∧ ¬ ∃ host p, SplitsTo text host p := by
  refine ⟨_, (C47_address env ctx port hport).2.1 himp, ?_⟩
  have hne : ctx.addr.ip ≠ [] := by intro h; rw [h] at hlen; simp at hlen
  have e : IPString env ctx.addr.ip = env.ip6 ctx.addr.ip := by
    unfold IPString ipString
    rw [if_neg hne, if_neg hne, if_neg (by simp [h4]), if_neg (by simp [hlen])]
  rw [e]
  rintro ⟨host, p, hs⟩
  generalize htx : env.ip6 ctx.addr.ip ++ b!":" ++ itoa port = text at hs
  have hcount : 2 ≤ text.count 58 := by
    rw [← htx, List.count_append, List.count_append]
    have := List.count_pos_iff.2 htext.1
    have : List.count (58 : UInt8) b!":" = 1 := by decide
    omega
  have hno : (91 : UInt8) ∉ text := by
    rw [← htx]
    simp only [List.mem_append, not_or]
    exact ⟨⟨htext.2, by decide⟩, fun h => (plain_itoa port _ h).2.1 rfl⟩
  cases hs with
  | plain _ _ h1 h2 =>
    rw [List.count_append, List.count_append, List.count_eq_zero.2 (fun h => (h1 _ h).1 rfl),
      List.count_eq_zero.2 (fun h => (h2 _ h).1 rfl)] at hcount
    have : List.count (58 : UInt8) b!":" = 1 := by decide
    omega
  | bracket _ _ _ _ => exact hno (by simp)

/-- the host as dialled: the IP and, for a link-local IPv6 source, its zone -/
def hostText (env : Env) (a : UDPAddr) : Bytes := if a.zone = [] then ipString env a.ip else ipString env a.ip ++ b!"%" ++ a.zone

/-- with a positive `implied_port` the address always splits into the source's IP (with its zone) and UDP port -/
theorem C47_implied (env : Env) (ctx : Job) (port i : Int)
    (hport : (asMap ctx.req.body).lookup b!"port" = some (.int port))
    (himp : (asMap ctx.req.body).lookup b!"implied_port" = some (.int i)) (hi : i > 0)
    (hip : (to4 ctx.addr.ip ≠ [] ∧ ctx.addr.zone = []) ∨
      (to4 ctx.addr.ip = [] ∧ ctx.addr.ip.length = 16 ∧ (58 : UInt8) ∈ env.ip6 ctx.addr.ip ∧ (∀ c ∈ env.ip6 ctx.addr.ip, c ≠ 91 ∧ c ≠ 93) ∧
        ∀ c ∈ ctx.addr.zone, c ≠ 91 ∧ c ≠ 93)) :
    ∃ text, parseFetchAddr env ctx = .ok text ∧ SplitsTo text (hostText env ctx.addr) (itoa ctx.addr.port) := by
  refine ⟨_, (C47_address env ctx port hport).1 i himp hi, ?_⟩
  unfold addrString hostText
  rcases hip with ⟨h4, hz⟩ | ⟨h4, hlen, h1, h2, h3⟩
  · rw [ipString_v4 env _ h4]
    simp only [hz, if_true]
    rw [if_neg]
    · exact .plain _ _ (plain_dotted _) (plain_itoa _)
    · intro h
      exact (plain_dotted _ _ h).1 rfl
  · have hne : ctx.addr.ip ≠ [] := by intro h; rw [h] at hlen; simp at hlen
    have e : ipString env ctx.addr.ip = env.ip6 ctx.addr.ip := by
      unfold ipString
      rw [if_neg hne, if_neg (by simp [h4]), if_neg (by simp [hlen])]
    rw [e]
    by_cases hz : ctx.addr.zone = []
    · simp only [hz, h1, if_true]
      exact .bracket _ _ h2 (plain_itoa _)
    · have hm : (58 : UInt8) ∈ env.ip6 ctx.addr.ip ++ b!"%" ++ ctx.addr.zone := by simp [h1]
      simp only [hz, if_false]
      rw [if_pos hm]
      refine .bracket _ _ ?_ (plain_itoa _)
      intro c hc
      rcases List.mem_append.1 hc with hc | hc
      · rcases List.mem_append.1 hc with hc | hc
        · exact h2 c hc
        · simp only [List.mem_cons, List.not_mem_nil, or_false] at hc
          subst hc; decide
      · exact h3 c hc

/-! ## Examples -/

def exEnv : Env := { fold := fun _ _ => false, ip6 := fun _ => b!"2001:db8::1" }

def exFetchAnnounce (ip : Bytes) (extra : Entries) : Job :=
  { req := { txId := b!"aa", qType := b!"announce_peer",
             body := some ([(b!"info_hash", .str b!"hhhhhhhhhhhhhhhhhhhh"), (b!"port", .int 6881)] ++ extra), handler := none },
    addr := { ip, port := 4242 } }

def ex6 : Bytes := [0x20, 1, 0xd, 0xb8, 0, 0, 0, 0, 0, 0, 0, 0, 0, 0, 0, 1]

-- the hypotheses of the four C47 theorems are met
example : parseFetchAddr exEnv (exFetchAnnounce [1, 2, 3, 4] []) = .ok b!"1.2.3.4:6881" ∧
    parseFetchAddr exEnv (exFetchAnnounce [1, 2, 3, 4] [(b!"implied_port", .int 1)]) = .ok b!"1.2.3.4:4242" ∧
    parseFetchAddr exEnv (exFetchAnnounce [1, 2, 3, 4] [(b!"implied_port", .int (-1))]) = .ok b!"1.2.3.4:6881" ∧
    parseFetchAddr exEnv (exFetchAnnounce ex6 []) = .ok b!"2001:db8::1:6881" ∧
    parseFetchAddr exEnv (exFetchAnnounce ex6 [(b!"implied_port", .int 1)]) = .ok b!"[2001:db8::1]:4242" ∧
    parseFetchAddr exEnv { exFetchAnnounce ex6 [(b!"implied_port", .int 1)] with addr := { ip := ex6, port := 4242, zone := b!"eth0" } } =
      .ok b!"[2001:db8::1%eth0]:4242" ∧
    parseFetchAddr exEnv (exFetchAnnounce [] []) = .ok b!"<nil>:6881" ∧
    parseFetchAddr exEnv (exFetchAnnounce [1, 2, 3, 4] [(b!"implied_port", .str b!"1")]) =
      .panic (.biz b!"implied_port's val cannot match type of int") := by decide +kernel

example : to4 [1, 2, 3, 4] ≠ [] ∧ to4 ex6 = [] ∧ (58 : UInt8) ∈ exEnv.ip6 ex6 ∧ (91 : UInt8) ∉ exEnv.ip6 ex6 ∧
    (asMap (exFetchAnnounce ex6 []).req.body).lookup b!"implied_port" = none := by decide +kernel

/-- a whole announce: the peer of `exChunks` is asked, its metadata is flushed under the hex name -/
theorem ex_flush : fetchHandler exEnv (fun _ => chunkEnv exChunks) toyHash 10 b!"cccccccccccccccccccc" (fun _ => []) exPool
    (exFetchAnnounce [1, 2, 3, 4] []) = .flush b!"6868686868686868686868686868686868686868" exMeta := by decide +kernel

/-- two such announces at once, both files complete in the end: `C46_complete` and `C46_files` apply -/
example :
    let jobs := fetchJobs exEnv (fun _ _ => chunkEnv exChunks) toyHash 10 b!"cccccccccccccccccccc" (fun _ _ => []) (fun _ => exPool)
      (fun j => if j ≤ 1 then exFetchAnnounce [1, 2, 3, 4] [] else exFetchAnnounce [1, 2, 3, 4] [(b!"implied_port", .nil)])
    SameData jobs ∧ ∃ s, Reach (FsInit (fun _ => none)) (FsStep jobs) s ∧ s.pc 0 = .done ∧ s.pc 1 = .done ∧
      (∀ k d, jobs k = some (b!"6868686868686868686868686868686868686868", d) → s.pc k = .start ∨ s.pc k = .done) := by
  intro jobs
  have h01 : ∀ j, j ≤ 1 → jobs j = some (b!"6868686868686868686868686868686868686868", exMeta) := by
    intro j hj
    show fetchJobs _ _ _ _ _ _ _ _ j = _
    simp only [fetchJobs, hj, if_true, ex_flush]
  have h2 : ∀ j, ¬ j ≤ 1 → jobs j = none := by
    intro j hj
    show fetchJobs _ _ _ _ _ _ _ _ j = _
    simp only [fetchJobs, hj, if_false]
    have : fetchHandler exEnv (fun _ => chunkEnv exChunks) toyHash 10 b!"cccccccccccccccccccc" (fun _ => []) exPool
      (exFetchAnnounce [1, 2, 3, 4] [(b!"implied_port", .nil)]) = .nothing := by decide +kernel
    rw [this]
  refine ⟨?_, ?_⟩
  · intro i j hash d d' hi hj
    by_cases h1 : i ≤ 1
    · by_cases h3 : j ≤ 1
      · rw [h01 i h1] at hi; rw [h01 j h3] at hj
        simp at hi hj; rw [← hi.2, ← hj.2]
      · rw [h2 j h3] at hj; cases hj
    · rw [h2 i h1] at hi; cases hi
  · have r0 : Reach (FsInit (fun _ => none)) (FsStep jobs) { fs := fun _ => none, pc := fun _ => .start, owner := fun _ => none } :=
      .init ⟨rfl, fun _ => rfl, fun _ => rfl⟩
    have hl : exMeta.length = 24 := by decide
    have r1 := Reach.step r0 (.create 0 _ exMeta (h01 0 (by omega)) rfl)
    have r2 := Reach.step r1 (.write 0 _ exMeta [] 0 5 (h01 0 (by omega)) (by simp) (by simp) (by omega) (by omega))
    have r3 := Reach.step r2 (.create 1 _ exMeta (h01 1 (by omega)) (by simp [upd]))
    have r4 := Reach.step r3 (.write 0 _ exMeta [] 5 19 (h01 0 (by omega)) (by simp [upd]) (by simp) (by omega) (by omega))
    have r5 := Reach.step r4 (.finish 0 _ exMeta 24 (h01 0 (by omega)) (by simp [upd]) hl.symm)
    have r6 := Reach.step r5 (.write 1 _ exMeta _ 0 24 (h01 1 (by omega)) (by simp [upd]) (by simp; rfl) (by omega) (by omega))
    have r7 := Reach.step r6 (.finish 1 _ exMeta 24 (h01 1 (by omega)) (by simp [upd]) hl.symm)
    refine ⟨_, r7, by simp [upd], by simp [upd], ?_⟩
    intro k d hk
    by_cases h1 : k ≤ 1
    · right; rcases (by omega : k = 0 ∨ k = 1) with rfl | rfl <;> simp [upd]
    · rw [h2 k h1] at hk; cases hk

end P2P

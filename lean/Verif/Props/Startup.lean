import Verif.Model.Startup
import Verif.Props.KrpcHistory
/-! # Property C63: start-up and outgoing queries -/
namespace P2P

/-! ## Specification -/

/-- One `BootStrap` call: `host` is the address the host name resolves to, if any; the flag says whether the call returns
(otherwise it panics). A fresh transaction id is drawn; a host that does not resolve is not contacted; otherwise one
find_node query for the own id is registered under the id and one datagram with exactly this query is sent. -/
inductive BootRun (nodeId : Bytes) : Option UDPAddr → List Event → Bool → Prop where
  | unresolved (v : UInt16) : BootRun nodeId none [.nextTx v] false
  | contacted (a : UDPAddr) (v : UInt16) (b : Bytes) (failed : Bool) :
      EncodingOf (.dict (queryDict (txIdText v) b!"find_node" [(b!"id", .str nodeId), (b!"target", .str nodeId)])) b →
      BootRun nodeId (some a) [.nextTx v, .put (crawlQuery nodeId v), .send a b failed] (!failed)

/-- The calls for a list of hosts, all of which returned. -/
inductive BootSeq (nodeId : Bytes) : List (Option UDPAddr) → List (List Event) → Prop where
  | nil : BootSeq nodeId [] []
  | snoc {hs : List (Option UDPAddr)} {trs : List (List Event)} {h : Option UDPAddr} {tr : List Event} :
      BootSeq nodeId hs trs → BootRun nodeId h tr true → BootSeq nodeId (hs ++ [h]) (trs ++ [tr])

/-! ## BootStrap -/

/-- C63: `BootStrap` sends one find_node query for the own id, registered beforehand under a fresh transaction id, to the
resolved host, and panics exactly if the host does not resolve (then nothing is sent) or the socket refuses. -/
theorem C63_bootstrap (K : KEnv) {O : Oracle} (hO : O.Fair) (host : Option UDPAddr) :
    ∃ tr ret, BootRun K.nodeId host tr ret ∧
      (ret = true → BootStrap K O host { resp := none, trace := [] } = .ok () { resp := none, trace := tr }) ∧
      (ret = false → ∃ p, BootStrap K O host { resp := none, trace := [] } = .panic p { resp := none, trace := tr }) := by
  simp only [BootStrap, GoM.bind_apply, nextTxId, List.nil_append]
  generalize O.nextTx [] = v
  cases host with
  | none => exact ⟨_, _, .unresolved v, by simp, fun _ => ⟨_, rfl⟩⟩
  | some a =>
    have hm : WithFindNodeMsg (txIdText v) K.nodeId K.nodeId (some genericH) = crawlQuery K.nodeId v := rfl
    simp only [hm]
    obtain ⟨b, f, err, hb, hqq, he⟩ := Query_spec hO a (crawlQuery K.nodeId v)
      { resp := none, trace := [.nextTx v] }
      (args := [(b!"id", .str K.nodeId), (b!"target", .str K.nodeId)]) rfl
      ⟨by simp, by simp [GoVal.WFD, GoVal.WF]⟩ (by simp [Encodable, EncodableD])
    refine ⟨_, _, .contacted a v b f hb, ?_, ?_⟩
    · intro h
      have : err = none := he.2 (by simpa using h)
      subst this
      simp only [GoM.bind_apply, hqq]
      rfl
    · intro h
      simp only [GoM.bind_apply, hqq]
      cases err with
      | none => have := he.1 rfl; subst this; simp at h
      | some e => exact ⟨_, rfl⟩

theorem bootStrap_ok {K : KEnv} {O : Oracle} (hO : O.Fair) {host : Option UDPAddr} {c : HSt}
    (h : BootStrap K O host { resp := none, trace := [] } = .ok () c) : BootRun K.nodeId host c.trace true := by
  obtain ⟨tr, ret, h1, h2, h3⟩ := C63_bootstrap K hO host
  cases ret with
  | true => rw [h2 rfl] at h; cases h; exact h1
  | false => obtain ⟨p, hp⟩ := h3 rfl; rw [hp] at h; cases h

theorem bootStrap_panic {K : KEnv} {O : Oracle} (hO : O.Fair) {host : Option UDPAddr} {c : HSt} {p : Panic}
    (h : BootStrap K O host { resp := none, trace := [] } = .panic p c) : BootRun K.nodeId host c.trace false := by
  obtain ⟨tr, ret, h1, h2, h3⟩ := C63_bootstrap K hO host
  cases ret with
  | true => rw [h2 rfl] at h; cases h
  | false => obtain ⟨p', hp⟩ := h3 rfl; rw [hp] at h; cases h; exact h1

/-! ## The start-up sequence -/

/-- the hosts not yet handled and what has been done, per program point -/
def stInv (K : KEnv) (hosts : List (Option UDPAddr)) (s : StSt) : Prop :=
  s.taken.map Prod.fst ++ s.queue = s.arrived ∧ s.queue.length ≤ recvqCap ∧
  (∀ x ∈ s.taken, x.2 = registrations K) ∧
  match s.pc with
  | .boot rest => ∃ dn, hosts = dn ++ rest ∧ BootSeq K.nodeId dn s.boots ∧ s.router = [] ∧ s.taken = [] ∧
      s.fetching = false ∧ s.cleanup = false
  | .dead => ∃ dn h rest trs tr, hosts = dn ++ h :: rest ∧ BootSeq K.nodeId dn trs ∧ BootRun K.nodeId h tr false ∧
      s.boots = trs ++ [tr] ∧ s.router = [] ∧ s.taken = [] ∧ s.fetching = false ∧ s.cleanup = false
  | .register todo => BootSeq K.nodeId hosts s.boots ∧ s.router ++ todo = registrations K ∧ s.taken = [] ∧
      s.fetching = false ∧ s.cleanup = false
  | .spawnFetch => BootSeq K.nodeId hosts s.boots ∧ s.router = registrations K ∧ s.taken = [] ∧
      s.fetching = false ∧ s.cleanup = false
  | .registerClean => BootSeq K.nodeId hosts s.boots ∧ s.router = registrations K ∧ s.taken = [] ∧
      s.fetching = true ∧ s.cleanup = false
  | .listen => BootSeq K.nodeId hosts s.boots ∧ s.router = registrations K ∧ s.fetching = true ∧ s.cleanup = true

theorem routerPut_new (r : List (Bytes × Handler)) (q : Bytes) (h : Handler) (hn : q ∉ r.map Prod.fst) :
    routerPut r q h = r ++ [(q, h)] := by
  induction r with
  | nil => rfl
  | cons x r ih =>
    obtain ⟨k, g⟩ := x
    simp only [List.map_cons, List.mem_cons, not_or] at hn
    simp only [routerPut, if_neg (Ne.symm hn.1), ih hn.2, List.cons_append]

theorem registeHandler_method (K : KEnv) (O : Oracle) (r : List (Bytes × Handler)) {q : Bytes} (h : Handler)
    (hq : q ∈ methods) (hn : q ∉ r.map Prod.fst) :
    RegisteHandler K.env.fold (withRouter K O r) q (some h) = .ok (withRouter K O (r ++ [(q, h)])) := by
  obtain ⟨b, hb, hb'⟩ := supported_spec K.env.fold q
  rw [hb' hq] at hb
  simp only [RegisteHandler, hb, withRouter]
  simp [routerPut_new _ _ _ hn]

theorem registrations_split (K : KEnv) {r todo : List (Bytes × Handler)} {q : Bytes} {h : Handler}
    (e : r ++ (q, h) :: todo = registrations K) : q ∈ methods ∧ q ∉ r.map Prod.fst := by
  have hm : (registrations K).map Prod.fst = methods := rfl
  have hnd : ((registrations K).map Prod.fst).Nodup := by rw [hm]; decide
  constructor
  · rw [← hm, ← e]; simp
  · rw [← e] at hnd
    simp only [List.map_append, List.map_cons, List.nodup_append, List.nodup_cons, List.mem_cons] at hnd
    intro hq
    exact hnd.2.2 _ hq _ (.inl rfl) rfl

theorem stInv_step {K : KEnv} {hosts : List (Option UDPAddr)} {s t : StSt} (h : stInv K hosts s) (st : StStep K s t) :
    stInv K hosts t := by
  obtain ⟨h1, h2, h3, h4⟩ := h
  cases st with
  | arrive p hd hl =>
    refine ⟨by simp [← h1], by simp; omega, h3, ?_⟩
    revert h4
    cases s.pc <;> exact id
  | main m =>
    cases m with
    | bootOk hp hO hb =>
      rw [hp] at h4
      obtain ⟨dn, e, hs, a⟩ := h4
      exact ⟨h1, h2, h3, dn ++ [_], by simp [e], hs.snoc (bootStrap_ok hO hb), a⟩
    | bootPanic hp hO hb =>
      rw [hp] at h4
      obtain ⟨dn, e, hs, a⟩ := h4
      exact ⟨h1, h2, h3, dn, _, _, _, _, e, hs, bootStrap_panic hO hb, rfl, a⟩
    | run hp =>
      rw [hp] at h4
      obtain ⟨dn, e, hs, a, b⟩ := h4
      simp only [List.append_nil] at e
      subst e
      exact ⟨h1, h2, h3, hs, by simp [a], b⟩
    | register hp hr =>
      rw [hp] at h4
      obtain ⟨hs, e, a⟩ := h4
      obtain ⟨hq, hn⟩ := registrations_split K e
      rw [registeHandler_method K _ _ _ hq hn] at hr
      cases hr
      exact ⟨h1, h2, h3, hs, by simp [withRouter, ← e], a⟩
    | registered hp =>
      rw [hp] at h4
      obtain ⟨hs, e, a⟩ := h4
      exact ⟨h1, h2, h3, hs, by simpa using e, a⟩
    | fetch hp =>
      rw [hp] at h4
      obtain ⟨hs, e, a, b, c⟩ := h4
      exact ⟨h1, h2, h3, hs, e, a, rfl, c⟩
    | clean hp =>
      rw [hp] at h4
      obtain ⟨hs, e, a, b, c⟩ := h4
      exact ⟨h1, h2, h3, hs, e, b, rfl⟩
    | take hp hq =>
      rw [hp] at h4
      refine ⟨by simp [← h1, hq], by rw [hq] at h2; simp at h2 ⊢; omega, ?_, ?_⟩
      · intro x hx
        simp only [List.mem_append, List.mem_singleton] at hx
        rcases hx with hx | hx
        · exact h3 x hx
        · subst hx; exact h4.2.1
      · simp only [hp]; exact h4

/-- The states the starting program can be in, for given bootstrap hosts. -/
abbrev StReach (K : KEnv) (hosts : List (Option UDPAddr)) : StSt → Prop := Reach (StSt.start hosts) (StStep K)

theorem stReach_inv {K : KEnv} {hosts : List (Option UDPAddr)} {s : StSt} (h : StReach K hosts s) : stInv K hosts s := by
  refine Reach.inv (stInv K hosts) ?_ (fun s t => stInv_step) h
  intro s hs
  rw [StSt.start] at hs
  subst hs
  exact ⟨rfl, by simp [recvqCap], by simp, [], rfl, .nil, rfl, rfl, rfl, rfl⟩

/-- C63: whenever a packet is handled, every bootstrap host has been contacted successfully, in the configured order, the
torrent loop runs and the clean-up is registered; and the packet is handled with exactly the handlers of a fully
configured server. -/
theorem C63_packets_wait {K : KEnv} {hosts : List (Option UDPAddr)} {s : StSt} (h : StReach K hosts s)
    (ht : s.taken ≠ []) :
    BootSeq K.nodeId hosts s.boots ∧ s.fetching = true ∧ s.cleanup = true ∧
    ∀ p r, (p, r) ∈ s.taken → ∀ O, withRouter K O r = dhtHandlers K O := by
  obtain ⟨-, -, h3, h4⟩ := stReach_inv h
  have hr : ∀ p r, (p, r) ∈ s.taken → ∀ O, withRouter K O r = dhtHandlers K O := by
    intro p r hx O
    rw [show r = registrations K from h3 _ hx]
    rfl
  revert h4
  cases s.pc with
  | boot rest => rintro ⟨dn, -, -, -, hn, -⟩; exact absurd hn ht
  | register todo => rintro ⟨-, -, hn, -⟩; exact absurd hn ht
  | spawnFetch => rintro ⟨-, -, hn, -⟩; exact absurd hn ht
  | registerClean => rintro ⟨-, -, hn, -⟩; exact absurd hn ht
  | listen => rintro ⟨a, -, b, c⟩; exact ⟨a, b, c, hr⟩
  | dead => rintro ⟨_, _, _, _, _, -, -, -, -, -, hn, -⟩; exact absurd hn ht

/-- C63: packets that arrive during start-up are kept and handled in arrival order once the server listens; at most 100
wait. -/
theorem C63_none_lost {K : KEnv} {hosts : List (Option UDPAddr)} {s : StSt} (h : StReach K hosts s) :
    s.taken.map Prod.fst ++ s.queue = s.arrived ∧ s.queue.length ≤ 100 :=
  ⟨(stReach_inv h).1, (stReach_inv h).2.1⟩

/-- C63: while fewer than 100 packets wait, the next one is taken in, as long as the process lives. -/
theorem C63_takes_in (K : KEnv) (s : StSt) (p : RecvPacket) (hd : s.pc ≠ .dead) (h : s.queue.length < 100) :
    ∃ t, StStep K s t ∧ t.queue = s.queue ++ [p] ∧ t.arrived = s.arrived ++ [p] ∧ t.pc = s.pc :=
  ⟨_, .arrive p hd h, rfl, rfl, rfl⟩

theorem BootSeq.sends {nodeId : Bytes} {hs : List (Option UDPAddr)} {trs : List (List Event)} (h : BootSeq nodeId hs trs) :
    hs = (P2P.sends trs.flatten).map (fun x => some x.1) := by
  induction h with
  | nil => rfl
  | @snoc hs trs hh tr _ hr ih =>
    rw [ih]
    generalize hret : true = ret at hr
    cases hr with
    | unresolved v => cases hret
    | contacted a v b f hb => simp [P2P.sends]

theorem BootSeq.length {nodeId : Bytes} {hs : List (Option UDPAddr)} {trs : List (List Event)} (h : BootSeq nodeId hs trs) :
    hs.length = trs.length := by
  induction h with
  | nil => rfl
  | snoc _ _ ih => simp [ih]

/-- C63: the datagrams sent while bootstrapping go to the configured hosts, in order, at most one each; hosts behind a
failing one are not contacted. -/
theorem C63_contact_order {K : KEnv} {hosts : List (Option UDPAddr)} {s : StSt} (h : StReach K hosts s) :
    (sends s.boots.flatten).map (fun x => some x.1) <+: hosts := by
  obtain ⟨-, -, -, h4⟩ := stReach_inv h
  revert h4
  cases s.pc with
  | boot rest => rintro ⟨dn, e, hs, -⟩; exact ⟨rest, by rw [e, ← hs.sends]⟩
  | register todo => rintro ⟨hs, -⟩; exact ⟨[], by rw [← hs.sends]; simp⟩
  | spawnFetch => rintro ⟨hs, -⟩; exact ⟨[], by rw [← hs.sends]; simp⟩
  | registerClean => rintro ⟨hs, -⟩; exact ⟨[], by rw [← hs.sends]; simp⟩
  | listen => rintro ⟨hs, -⟩; exact ⟨[], by rw [← hs.sends]; simp⟩
  | dead =>
    rintro ⟨dn, hh, rest, trs, tr, e, hs, hr, hb, -⟩
    have e2 := hs.sends
    have split : sends s.boots.flatten = sends trs.flatten ++ sends tr := by
      rw [hb]; simp [sends]
    rw [split, List.map_append, ← e2, e]
    generalize false = ret at hr
    cases hr with
    | unresolved v => exact ⟨none :: rest, by simp [sends]⟩
    | contacted a v b f hb => exact ⟨rest, by simp [sends]⟩

/-- C63: the process dies during start-up only because of a host that does not resolve or a refused send, after all
hosts before it were contacted; it has then handled no packet, and nothing happens any more. -/
theorem C63_death {K : KEnv} {hosts : List (Option UDPAddr)} {s : StSt} (h : StReach K hosts s) (hd : s.pc = .dead) :
    (∃ dn hh rest trs tr, hosts = dn ++ hh :: rest ∧ BootSeq K.nodeId dn trs ∧ BootRun K.nodeId hh tr false ∧
      s.boots = trs ++ [tr]) ∧ s.taken = [] ∧ ∀ t, ¬ StStep K s t := by
  obtain ⟨-, -, -, h4⟩ := stReach_inv h
  rw [hd] at h4
  obtain ⟨dn, hh, rest, trs, tr, e, hs, hr, hb, -, ht, -⟩ := h4
  refine ⟨⟨dn, hh, rest, trs, tr, e, hs, hr, hb⟩, ht, ?_⟩
  intro t st
  cases st with
  | arrive p h => exact h hd
  | main m => cases m <;> simp_all

/-- number of main steps left before the server listens -/
def StPc.left : StPc → Nat
  | .boot rest => rest.length + 8
  | .register todo => todo.length + 3
  | .spawnFetch => 2
  | .registerClean => 1
  | .listen => 0
  | .dead => 0

/-- C63: the start-up sequence is never stuck: unless the process died, the next main step exists as long as the server
does not listen or a packet waits; every main step before listening brings the server nearer to listening (or ends the
process), so it listens after `hosts.length + 8` of them. -/
theorem C63_progress {K : KEnv} {hosts : List (Option UDPAddr)} {s : StSt} (h : StReach K hosts s) {O : Oracle}
    (hO : O.Fair) :
    (s.pc ≠ .dead → (s.pc ≠ .listen ∨ s.queue ≠ []) → ∃ t, StMain K s t) ∧
    (∀ t, StMain K s t → s.pc ≠ .listen → t.pc.left < s.pc.left) ∧
    (∀ t, StStep K s t → t.pc.left ≤ s.pc.left) ∧ s.pc.left ≤ hosts.length + 8 ∧
    (s.pc.left = 0 ↔ s.pc = .listen ∨ s.pc = .dead) := by
  have hi := stReach_inv h
  have hdec : ∀ t, StMain K s t → s.pc ≠ .listen → t.pc.left < s.pc.left := by
    intro t m hl
    cases m <;> simp_all [StPc.left, registrations]
  refine ⟨?_, hdec, ?_, ?_, ?_⟩
  · intro hd hw
    obtain ⟨-, -, -, h4⟩ := hi
    cases hp : s.pc with
    | boot rest =>
      cases rest with
      | nil => exact ⟨_, .run hp⟩
      | cons x r =>
        obtain ⟨tr, ret, h1, h2, h3⟩ := C63_bootstrap K hO x
        cases ret with
        | true => exact ⟨_, .bootOk hp hO (h2 rfl)⟩
        | false => obtain ⟨p, hpp⟩ := h3 rfl; exact ⟨_, .bootPanic hp hO hpp⟩
    | register todo =>
      cases todo with
      | nil => exact ⟨_, .registered hp⟩
      | cons x r =>
        obtain ⟨q, g⟩ := x
        rw [hp] at h4
        obtain ⟨hq, hn⟩ := registrations_split K h4.2.1
        exact ⟨_, .register (O := O) hp (registeHandler_method K O _ _ hq hn)⟩
    | spawnFetch => exact ⟨_, .fetch hp⟩
    | registerClean => exact ⟨_, .clean hp⟩
    | listen =>
      cases hq : s.queue with
      | nil => simp [hp, hq] at hw
      | cons p q => exact ⟨_, .take hp hq⟩
    | dead => exact absurd hp hd
  · intro t st
    cases st with
    | arrive => exact Nat.le_refl _
    | main m =>
      by_cases hl : s.pc = .listen
      · cases m <;> simp_all
      · exact Nat.le_of_lt (hdec t m hl)
  · obtain ⟨-, -, -, h4⟩ := hi
    revert h4
    cases s.pc with
    | boot rest => rintro ⟨dn, e, -⟩; simp [StPc.left, e]
    | register todo =>
      rintro ⟨-, e, -⟩
      have := congrArg List.length e
      simp [registrations] at this
      simp [StPc.left]; omega
    | _ => intro _; simp [StPc.left] <;> omega
  · cases s.pc <;> simp [StPc.left]

end P2P

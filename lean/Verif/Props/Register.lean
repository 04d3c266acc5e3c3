import Verif.Props.ErrorReply
/-! # Property C67: registration of query handlers -/
namespace P2P

/-! ## Specification -/

/-- a query type the server knows, in any case -/
def KnownType (fold : FoldTable) (q : Bytes) : Prop := ∃ m ∈ methods, equalFold fold m q = true

/-- a call `RegisteHandler(name, handler)`; `none` is a nil function -/
structure RegCall where
  name : Bytes
  handler : Option Handler

/-- the calls that are allowed -/
def RegCall.Valid (fold : FoldTable) (c : RegCall) : Prop := KnownType fold c.name ∧ c.handler ≠ none

/-- the handler of the last allowed call with this very name (byte for byte) -/
def lastHandlerFor (fold : FoldTable) [∀ c, Decidable (RegCall.Valid fold c)] (calls : List RegCall) (q : Bytes) : Option Handler :=
  ((calls.filter (fun c => decide (c.Valid fold) && decide (c.name = q))).getLast?).bind RegCall.handler

/-- a sequence of calls in which the caller recovers from panics: a call that panics leaves the server as it was -/
def registerCalls (fold : FoldTable) : Handlers → List RegCall → Handlers
  | H, [] => H
  | H, c :: r =>
    match RegisteHandler fold H c.name c.handler with
    | .ok H' => registerCalls fold H' r
    | _ => registerCalls fold H r

/-! ## Proofs -/

theorem lookup_routerPut (r : List (Bytes × Handler)) (k q : Bytes) (h : Handler) :
    (routerPut r k h).lookup q = if q = k then some h else r.lookup q := by
  induction r with
  | nil =>
    by_cases e : q = k
    · simp [routerPut, e]
    · simp [routerPut, List.lookup, e, beq_false_of_ne e]
  | cons x r ih =>
    obtain ⟨k', h'⟩ := x
    unfold routerPut
    split
    · rename_i e
      subst e
      by_cases e : q = k'
      · simp [e]
      · simp [List.lookup, e, beq_false_of_ne e]
    · rename_i e
      by_cases e2 : q = k'
      · subst e2
        simp [e]
      · simp [List.lookup, beq_false_of_ne e2, ih]

theorem knownType_iff (fold : FoldTable) (q : Bytes) : KnownType fold q ↔ ¬ ∀ m ∈ methods, equalFold fold m q = false := by
  simp [KnownType]

/-- C67: `RegisteHandler` succeeds iff the name is, up to case, one of the four query types and the handler is not nil;
otherwise it panics with the text of the first problem. It changes nothing but the handler of exactly this name. -/
theorem C67_outcome (fold : FoldTable) (H : Handlers) (c : RegCall) :
    (¬ KnownType fold c.name → RegisteHandler fold H c.name c.handler = .panic (.str b!"cannot support the query type")) ∧
    (KnownType fold c.name → c.handler = none →
      RegisteHandler fold H c.name c.handler = .panic (.str b!"register fail, handler is nil")) ∧
    (∀ h, KnownType fold c.name → c.handler = some h →
      ∃ H', RegisteHandler fold H c.name c.handler = .ok H' ∧
        (∀ q, H'.router.lookup q = if q = c.name then some h else H.router.lookup q) ∧
        H'.reqMw = H.reqMw ∧ H'.respMw = H.respMw ∧ H'.respH = H.respH) := by
  refine ⟨?_, ?_, ?_⟩
  · intro hk
    rw [knownType_iff, Classical.not_not] at hk
    simp [RegisteHandler, containsString_methods, decide_eq_true hk]
  · intro hk hn
    rw [knownType_iff] at hk
    simp [RegisteHandler, containsString_methods, decide_eq_false hk, hn]
  · intro h hk hn
    rw [knownType_iff] at hk
    refine ⟨{ H with router := routerPut H.router c.name h }, ?_, fun q => lookup_routerPut _ _ _ _, rfl, rfl, rfl⟩
    simp [RegisteHandler, containsString_methods, decide_eq_false hk, hn]

/-- C67: after any sequence of calls on a server without handlers, the handler of a query type is that of the last allowed
call with this name, byte for byte; every other query type has none. -/
theorem C67_history (fold : FoldTable) [∀ c, Decidable (RegCall.Valid fold c)] (H : Handlers) (hH : H.router = [])
    (calls : List RegCall) (q : Bytes) :
    (registerCalls fold H calls).router.lookup q = lastHandlerFor fold calls q := by
  have gen : ∀ (calls : List RegCall) (H : Handlers), (registerCalls fold H calls).router.lookup q =
      (lastHandlerFor fold calls q).or (H.router.lookup q) := by
    intro calls
    induction calls with
    | nil => intro H; rfl
    | cons c r ih =>
      intro H
      obtain ⟨o1, o2, o3⟩ := C67_outcome fold H c
      unfold registerCalls
      have skip : ¬ c.Valid fold → lastHandlerFor fold (c :: r) q = lastHandlerFor fold r q := by
        intro hv; simp [lastHandlerFor, hv]
      by_cases hk : KnownType fold c.name
      case neg => rw [o1 hk, skip (fun h => hk h.1)]; exact ih H
      by_cases hn : c.handler = none
      case pos => rw [o2 hk hn, skip (fun h => h.2 hn)]; exact ih H
      obtain ⟨h, hh⟩ := Option.ne_none_iff_exists'.1 hn
      obtain ⟨H', e, l, -⟩ := o3 h hk hh
      rw [e]
      simp only
      rw [ih H', l q]
      have hv : c.Valid fold := ⟨hk, hn⟩
      by_cases eq : q = c.name
      · subst eq
        rw [if_pos rfl]
        simp only [lastHandlerFor, List.filter_cons, hv, decide_true, Bool.and_self, if_true]
        generalize hl : r.filter (fun c' => decide (c'.Valid fold) && decide (c'.name = c.name)) = l
        have hall : ∀ x ∈ l, x.handler ≠ none := by
          intro x hx
          rw [← hl] at hx
          simp only [List.mem_filter, Bool.and_eq_true, decide_eq_true_eq] at hx
          exact hx.2.1.2
        rw [List.getLast?_cons]
        cases hg : l.getLast? with
        | none => simp [hh]
        | some x =>
          have := hall x (List.mem_of_getLast? hg)
          obtain ⟨y, hy⟩ := Option.ne_none_iff_exists'.1 this
          simp [hy]
      · rw [if_neg eq]
        have : lastHandlerFor fold (c :: r) q = lastHandlerFor fold r q := by
          simp [lastHandlerFor, Ne.symm eq]
        rw [this]
  rw [gen, hH]
  simp

/-- C67: registering never makes a query type reachable that the server rejects, and what is registered under a name in
another case is reached only by queries in that case: the handler found for `q` was registered under `q` and `q` is known. -/
theorem C67_reachable (fold : FoldTable) [∀ c, Decidable (RegCall.Valid fold c)] (H : Handlers) (hH : H.router = [])
    (calls : List RegCall) (q : Bytes) (h : Handler) (hl : (registerCalls fold H calls).router.lookup q = some h) :
    KnownType fold q ∧ ∃ c ∈ calls, c.name = q ∧ c.handler = some h := by
  rw [C67_history fold H hH] at hl
  unfold lastHandlerFor at hl
  rw [Option.bind_eq_some_iff] at hl
  obtain ⟨c, hc, hh⟩ := hl
  have := List.mem_of_getLast? hc
  simp only [List.mem_filter, Bool.and_eq_true, decide_eq_true_eq] at this
  exact ⟨this.2.2 ▸ this.2.1.1, c, this.1, this.2.2, hh⟩

/-- C67: a query of a known type whose arguments have a well-formed id, for which nothing is registered under exactly this
name, is refused with the text "cannot handle not match handler"; with a handler, this handler is started behind the
middlewares with the query's transaction id, type and arguments. -/
theorem C67_dispatch (fold : FoldTable) (H : Handlers) (O : Oracle) (addr : UDPAddr) {d a : Entries} {t q id : Bytes} (s : HSt)
    (ht : d.lookup b!"t" = some (.str t)) (hq : d.lookup b!"q" = some (.str q)) (hk : KnownType fold q)
    (ha : d.lookup b!"a" = some (.dict a)) (hid : a.lookup b!"id" = some (.str id)) (hl : id.length = 20) :
    (H.router.lookup q = none → requestHandle fold H O addr d s =
      .ok (some (WithErr t 203 b!"cannot handle not match handler")) s) ∧
    (∀ h r s', H.router.lookup q = some h →
      doRequestHandle H { txId := t, qType := q, body := some a, handler := none } h addr s = .ok r s' →
      requestHandle fold H O addr d s = .ok r s') := by
  have e1 : Dict.GetString d b!"t" = .ok t := (C13_present d _).2.1 t |>.2 ht
  have e2 : Dict.GetString d b!"q" = .ok q := (C13_present d _).2.1 q |>.2 hq
  have e3 : Dict.GetDict d b!"a" = .ok (some a) := (C13_present d _).2.2.2 a |>.2 ha
  have e4 : Dict.GetString a b!"id" = .ok id := (C13_present a _).2.1 id |>.2 hid
  rw [knownType_iff] at hk
  constructor
  · intro hr
    simp [requestHandle, e1, e2, e3, e4, GoM.recoverWith, containsString_methods, decide_eq_false hk, asMap, hl, hr, WithParamErr]
  · intro h r s' hr hd
    simp [requestHandle, e1, e2, e3, e4, GoM.recoverWith, containsString_methods, decide_eq_false hk, asMap, hl, hr, hd]

/-! ## Concrete cases -/

/-- the type PING is known although it differs from ping -/
example : KnownType env0.fold b!"PING" ∧ b!"PING" ∉ methods := ⟨⟨b!"ping", by decide, by decide +kernel⟩, by decide⟩
example : ¬ KnownType env0.fold b!"vote" := by rw [knownType_iff, Classical.not_not]; decide +kernel

/-- a second registration replaces the first, one in another case and an unknown one do not touch it -/
example (H : Handlers) (hH : H.router = []) (h1 h2 h3 : Handler) [∀ c, Decidable (RegCall.Valid env0.fold c)] :
    (registerCalls env0.fold H [⟨b!"ping", some h1⟩, ⟨b!"ping", some h2⟩, ⟨b!"ping", none⟩, ⟨b!"PING", some h3⟩,
      ⟨b!"vote", some h3⟩]).router.lookup b!"ping" = some h2 := by
  rw [C67_history _ _ hH]
  have k : KnownType env0.fold b!"ping" := ⟨b!"ping", by decide, by decide +kernel⟩
  have n1 : ¬ b!"PING" = b!"ping" := by decide
  have n2 : ¬ b!"vote" = b!"ping" := by decide
  simp [lastHandlerFor, RegCall.Valid, k, n1, n2]

end P2P

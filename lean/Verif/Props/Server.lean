import Verif.Props.Register
import Verif.Props.KrpcSafe
import Verif.Props.KrpcExamples
import Verif.Props.BencodeFail
/-! # Property C80: the server with arbitrary handlers and middlewares -/
namespace P2P

/-! ## Specification -/

/-- The dictionary of the message that stands for a response: `r` with the body, or `e` with code and text.
`none`: an error response without an integer `code` or a string `msg`. -/
def Response.message (r : Response) : Option Entries :=
  if r.isErr then
    match (r.body.getD []).lookup b!"code", (r.body.getD []).lookup b!"msg" with
    | some (.int code), some (.str msg) =>
      some [(b!"t", .str r.txId), (b!"y", .str b!"e"), (b!"e", .list [.int code, .str msg])]
    | _, _ => none
  else
    match r.body with
    | some b => some [(b!"t", .str r.txId), (b!"y", .str b!"r"), (b!"r", .dict b)]
    | none => some [(b!"t", .str r.txId), (b!"y", .str b!"r"), (b!"r", .nilDict)]

/-- What one request starts: the middlewares of the server in order and, last, the handler. -/
def Handlers.requestChain (H : Handlers) (req : Request) (addr : UDPAddr) (h : Handler) : List (Prog HSt) :=
  H.reqMw.map (fun m => m { req, addr }) ++ [.eff (emit (.dispatch req addr)) (h { req, addr })]

/-- What one matched response starts: the response middlewares in order and, last, the request's own handler. -/
def Handlers.responseChain (H : Handlers) (req : Request) (addr : UDPAddr) (i : Nat) : List (Prog HSt) :=
  H.respMw.map (fun m => m { req, addr }) ++
    [.ask fun s => .eff (emit (.invoke req s.resp addr)) (H.respH i { req, addr })]

/-- The datagram carries this message. -/
def SentAfter (tr : List Event) (to : UDPAddr) (msg : Entries) (all : List Event) : Prop :=
  ∃ b failed, all = tr ++ [.send to b failed] ∧ EncodingOf (.dict msg) b

/-- What the sender of a query gets, given how the chain of handlers ended: -/
inductive Served (src : UDPAddr) (t : Bytes) : Out (ChainSt HSt) Unit → List Event → Prop where
  /-- a response was written: exactly it -/
  | reply {c : ChainSt HSt} {r : Response} {m : Entries} {tr : List Event} : c.s.resp = some r → r.message = some m →
      Encodable (.dict m) → SentAfter c.s.trace src m tr → Served src t (.ok () c) tr
  /-- no response was written: nothing -/
  | silent {c : ChainSt HSt} : c.s.resp = none → Served src t (.ok () c) c.s.trace
  /-- an error response without code or text: nothing -/
  | malformed {c : ChainSt HSt} {r : Response} : c.s.resp = some r → r.message = none → Served src t (.ok () c) c.s.trace
  /-- a response with a value that has no bencoding: an empty datagram, or nothing if there is a nil among its values -/
  | unencodable {c : ChainSt HSt} {r : Response} {m : Entries} {tr : List Event} : c.s.resp = some r → r.message = some m →
      ¬ Encodable (.dict m) →
      ((∃ failed, tr = c.s.trace ++ [.send src [] failed]) ∨ (tr = c.s.trace ∧ ∃ x ∈ (GoVal.dict m).leaves, x.untyped = true)) →
      Served src t (.ok () c) tr
  /-- a parameter problem was reported: an error 203 with its text -/
  | problem {c : ChainSt HSt} {msg stack : Bytes} {tr : List Event} :
      SentAfter c.s.trace src [(b!"t", .str t), (b!"y", .str b!"e"),
        (b!"e", .list [.int 203, .str (b!"201: " ++ msg ++ b!"\r\nstacks:\r\n" ++ stack)])] tr →
      Served src t (.panic (.biz msg) c) tr
  /-- any other panic: nothing -/
  | crashed {p : Panic} {c : ChainSt HSt} : (∀ msg, p ≠ .biz msg) → Served src t (.panic p c) c.s.trace

/-! ## Proofs -/

theorem mem_leavesL {x : GoVal} {l : List GoVal} : x ∈ GoVal.leavesL l ↔ ∃ v ∈ l, x ∈ v.leaves := by
  induction l with
  | nil => simp [GoVal.leavesL]
  | cons v r ih => simp [GoVal.leavesL, ih]

theorem mem_leavesD {x : GoVal} {d : Entries} : x ∈ GoVal.leavesD d ↔ ∃ kv ∈ d, x ∈ kv.2.leaves := by
  induction d with
  | nil => simp [GoVal.leavesD]
  | cons v r ih => obtain ⟨k, v⟩ := v; simp [GoVal.leavesD, ih]

/-- a listing of a value has no other leaves -/
theorem leaves_of_deepEq {v w : GoVal} (h : DeepEq v w) (hw : w.WF) {x : GoVal} (hx : x ∈ w.leaves) : x ∈ v.leaves := by
  induction h with
  | refl => exact hx
  | list hlen h ih =>
    rename_i l m
    simp only [GoVal.leaves] at hx ⊢
    rw [mem_leavesL] at hx ⊢
    obtain ⟨y, hy, hxy⟩ := hx
    obtain ⟨i, hi, rfl⟩ := List.mem_iff_getElem.1 hy
    have hi' : i < l.length := by omega
    refine ⟨l[i], List.getElem_mem _, ih i l[i] m[i] (List.getElem?_eq_getElem _) (List.getElem?_eq_getElem _)
      (wfL_iff.1 hw _ (List.getElem_mem _)) hxy⟩
  | dict hdom h ih =>
    rename_i d e
    simp only [GoVal.leaves] at hx ⊢
    rw [mem_leavesD] at hx ⊢
    obtain ⟨⟨k, y⟩, hy, hxy⟩ := hx
    have hl := lookup_of_mem hw.1 hy
    have hk := hdom k
    rw [hl] at hk
    obtain ⟨z, hz⟩ := Option.isSome_iff_exists.1 hk
    exact ⟨(k, z), mem_of_lookup hz, ih k z y hz hl (wfD_iff.1 hw.2 _ hy) hxy⟩

theorem Response.message_rawData (r : Response) :
    (∀ m, r.message = some m → r.RawData = .ok m) ∧ (r.message = none → ∃ p, r.RawData = .panic p) := by
  unfold Response.message Response.RawData
  cases he : r.isErr with
  | false =>
    cases hb : r.body <;> simp [dictVal]
  | true =>
    have e : asMap r.body = r.body.getD [] := rfl
    simp only [if_true, Bool.not_true, Bool.false_eq_true, if_false, e]
    generalize r.body.getD [] = d
    split
    · rename_i code msg h1 h2
      have e1 : Dict.GetInteger d b!"code" = .ok code := (C13_present d _).1 _ |>.2 h1
      have e2 : Dict.GetString d b!"msg" = .ok msg := (C13_present d _).2.1 _ |>.2 h2
      simp [e1, e2]
    · rename_i hn
      refine ⟨by simp, fun _ => ?_⟩
      rcases getInteger_cases d b!"code" with ⟨i, hi, hi'⟩ | ⟨-, p, hp⟩
      · rcases getString_cases d b!"msg" with ⟨j, hj, hj'⟩ | ⟨-, p, hp⟩
        · exact absurd hj (fun h => hn _ _ hi h)
        · exact ⟨.biz p, by simp [hi', hp]⟩
      · exact ⟨.biz p, by simp [hp]⟩

/-- a query that reaches its handler -/
theorem requestHandle_chain (fold : FoldTable) (H : Handlers) (O : Oracle) (addr : UDPAddr) {d a : Entries} {t q id : Bytes}
    {h : Handler} (s : HSt) (ht : d.lookup b!"t" = some (.str t)) (hq : d.lookup b!"q" = some (.str q))
    (hk : KnownType fold q) (ha : d.lookup b!"a" = some (.dict a)) (hid : a.lookup b!"id" = some (.str id))
    (hl : id.length = 20) (hr : H.router.lookup q = some h) :
    requestHandle fold H O addr d s =
      match runChain (H.requestChain { txId := t, qType := q, body := some a, handler := none } addr h)
        { s with resp := none } with
      | .ok _ c => .ok c.s.resp c.s
      | .panic (.biz msg) c => .ok (some (WithParamErr t (bizText msg (O.stack c.s.trace)))) c.s
      | .panic p c => .panic p c.s
      | .diverge => .diverge := by
  have e1 : Dict.GetString d b!"t" = .ok t := (C13_present d _).2.1 t |>.2 ht
  have e2 : Dict.GetString d b!"q" = .ok q := (C13_present d _).2.1 q |>.2 hq
  have e3 : Dict.GetDict d b!"a" = .ok (some a) := (C13_present d _).2.2.2 a |>.2 ha
  have e4 : Dict.GetString a b!"id" = .ok id := (C13_present a _).2.1 id |>.2 hid
  rw [knownType_iff] at hk
  simp only [requestHandle, e1, e2, e3, e4, GoM.recoverWith, containsString_methods, decide_eq_false hk, asMap, hl, hr,
    GoM.bind_apply, GoM.lift_ok, Bool.not_false, Bool.not_true, Bool.false_eq_true, if_false, ne_eq, not_true_eq_false,
    Option.getD_some, doRequestHandle, runHandlers, Handlers.requestChain]
  cases runChain (List.map (fun m => m { req := { txId := t, qType := q, body := some a, handler := none }, addr := addr }) H.reqMw ++
      [Prog.eff (emit (Event.dispatch { txId := t, qType := q, body := some a, handler := none } addr))
        (h { req := { txId := t, qType := q, body := some a, handler := none }, addr := addr })]) { s with resp := none } with
  | ok u c => rfl
  | diverge => rfl
  | panic p c => cases p <;> rfl

/-- **C80: a query that reaches its handler.** For any handlers and middlewares: when a query of a known type arrives
whose arguments carry a 20-byte id and for which a handler is registered, the middlewares and the handler are
started once each in the order of registration (a prefix of them if one panics) and the sender gets what
`Served` says; the worker survives and the buffer is given back once. -/
theorem C80_query (fold : FoldTable) {H : Handlers} (hH : H.Terminating) {O : Oracle} (hO : O.Fair) {pkt : RecvPacket}
    {d a : Entries} {t q id : Bytes} {h : Handler} (hq : IsQuery pkt.bytes d t q) (hk : KnownType fold q)
    (ha : d.lookup b!"a" = some (.dict a)) (hid : a.lookup b!"id" = some (.str id)) (hl : id.length = 20)
    (hr : H.router.lookup q = some h)
    (hw : ∀ c r m, runChain (H.requestChain { txId := t, qType := q, body := some a, handler := none } pkt.addr h)
      { resp := none, trace := [] } = .ok () c → c.s.resp = some r → r.message = some m → GoVal.WF (.dict m)) :
    ∃ out tr, runChain (H.requestChain { txId := t, qType := q, body := some a, handler := none } pkt.addr h)
        { resp := none, trace := [] } = out ∧
      recvPacketHandle fold H O pkt = some { trace := tr, recycled := [pkt.bytes], escaped := none } ∧
      Served pkt.addr t out tr ∧
      ((∃ c, out = .ok () c ∧ c.started = List.range (H.reqMw.length + 1)) ∨
        ∃ p c n, out = .panic p c ∧ 0 < n ∧ n ≤ H.reqMw.length + 1 ∧ c.started = List.range n) := by
  obtain ⟨n, hd⟩ := hq.decodes
  have hy : Dict.Exist d b!"y" = true := by simp [Dict.Exist, dictGet, hq.y]
  have hy' : Dict.GetString d b!"y" = .ok b!"q" := (C13_present d _).2.1 _ |>.2 hq.y
  have hrq := requestHandle_chain fold H O pkt.addr { resp := none, trace := [] } hq.t hq.q hk ha hid hl hr
  have hterm : ∀ p ∈ H.requestChain { txId := t, qType := q, body := some a, handler := none } pkt.addr h, p.Terminating := by
    intro p hp
    simp only [Handlers.requestChain, List.mem_append, List.mem_map, List.mem_singleton] at hp
    rcases hp with ⟨m, hm, rfl⟩ | rfl
    · exact hH.reqMw m hm _
    · exact ⟨fun s => by simp [emit], hH.router _ (lookup_mem hr) _⟩
  have hlen : (H.requestChain { txId := t, qType := q, body := some a, handler := none } pkt.addr h).length =
      H.reqMw.length + 1 := by simp [Handlers.requestChain]
  have hst := C26_chain _ hterm { resp := none, trace := [] }
  rw [hlen] at hst
  suffices hs : ∀ out, runChain (H.requestChain { txId := t, qType := q, body := some a, handler := none } pkt.addr h)
      { resp := none, trace := [] } = out → out ≠ .diverge → ∃ tr,
      recvPacketHandle fold H O pkt = some { trace := tr, recycled := [pkt.bytes], escaped := none } ∧
      Served pkt.addr t out tr by
    rcases hst with ⟨c, hc, hst⟩ | ⟨p, c, m, hc, h1, h2, h3⟩
    · obtain ⟨tr, h1, h2⟩ := hs _ hc (by simp)
      exact ⟨_, tr, hc, h1, h2, .inl ⟨c, rfl, hst⟩⟩
    · obtain ⟨tr, h1', h2'⟩ := hs _ hc (by simp)
      exact ⟨_, tr, hc, h1', h2', .inr ⟨p, c, m, rfl, h1, h2, h3⟩⟩
  clear hst
  intro out hout hnd
  -- what happens with a response
  have send : ∀ (r : Response) (m : Entries) (s : HSt), r.RawData = .ok m →
      requestHandle fold H O pkt.addr d { resp := none, trace := [] } = .ok (some r) s →
      recvPacketHandle fold H O pkt = some (PacketRun.mk (match EncodeDict (some (O.order s.trace m)) with
          | .ok b => s.trace ++ [.send pkt.addr b (O.sendFails s.trace)]
          | .err _ => s.trace ++ [.send pkt.addr [] (O.sendFails s.trace)]
          | .panic _ => s.trace
          | .diverge => s.trace) [pkt.bytes] none) := by
    intro r m s hm hrq
    simp only [recvPacketHandle, GoM.recoverWith, packetBody, hd, hy, hy', Bool.not_true,
      Bool.false_eq_true, if_false, GoM.bind_apply, GoM.lift_ok, if_true, hrq, hm,
      GoM.get_apply]
    have := EncodeDict_nd (some (O.order s.trace m))
    cases he : EncodeDict (some (O.order s.trace m)) with
    | ok b => simp [SendPacket]
    | err e => simp [SendPacket]
    | panic p => simp
    | diverge => exact absurd he this
  have nosend : ∀ (p : Panic) (s : HSt),
      requestHandle fold H O pkt.addr d { resp := none, trace := [] } = .panic p s →
      recvPacketHandle fold H O pkt = some { trace := s.trace, recycled := [pkt.bytes], escaped := none } := by
    intro p s hrq
    simp only [recvPacketHandle, GoM.recoverWith, packetBody, hd, hy, hy', Bool.not_true,
      Bool.false_eq_true, if_false, GoM.bind_apply, GoM.lift_ok, if_true, hrq, GoM.pure_apply]
  cases out with
  | diverge => exact absurd rfl hnd
  | ok u c =>
    rw [hout] at hrq
    simp only at hrq
    cases hres : c.s.resp with
    | none =>
      rw [hres] at hrq
      refine ⟨_, ?_, .silent hres⟩
      simp only [recvPacketHandle, GoM.recoverWith, packetBody, hd, hy, hy', Bool.not_true,
        Bool.false_eq_true, if_false, GoM.bind_apply, GoM.lift_ok, if_true, hrq, GoM.pure_apply, GoM.panic_apply]
    | some r =>
      rw [hres] at hrq
      cases hm : r.message with
      | none =>
        obtain ⟨p, hp⟩ := r.message_rawData.2 hm
        refine ⟨_, ?_, .malformed hres hm⟩
        simp only [recvPacketHandle, GoM.recoverWith, packetBody, hd, hy, hy', Bool.not_true,
          Bool.false_eq_true, if_false, GoM.bind_apply, GoM.lift_ok, if_true, hrq, hp, GoM.lift_panic, GoM.pure_apply]
      | some m =>
        have hsend := send r m c.s (r.message_rawData.1 m hm) hrq
        have hwf := hw c r m hout hres hm
        have hL := hO c.s.trace m hwf
        refine ⟨_, hsend, ?_⟩
        by_cases he : Encodable (.dict m)
        · obtain ⟨b, hb, hb', -⟩ := encode_decode hO c.s.trace hwf he
          rw [hb]
          exact .reply hres hm he ⟨b, _, rfl, hb'⟩
        · refine .unencodable hres hm he ?_
          have ho := C12_outcome (.dict (O.order c.s.trace m))
          have hne : ∀ b, encodeItem (.dict (O.order c.s.trace m)) ≠ .ok b := by
            intro b hb
            exact he (encodable_deepEq hL.2.symm hwf ((encodeItem_ok_iff _).1 ⟨b, hb⟩))
          have hED : EncodeDict (some (O.order c.s.trace m)) = encodeItem (.dict (O.order c.s.trace m)) := rfl
          rw [hED]
          cases hf : (GoVal.dict (O.order c.s.trace m)).leaves.find? GoVal.bad with
          | none => rw [hf] at ho; obtain ⟨b, hb⟩ := ho; exact absurd hb (hne b)
          | some x =>
            rw [hf] at ho
            simp only at ho
            cases hx : x.untyped with
            | false => rw [hx] at ho; rw [ho]; exact .inl ⟨_, rfl⟩
            | true =>
              rw [hx] at ho; rw [ho]
              exact .inr ⟨rfl, x, leaves_of_deepEq hL.2 hL.1 (List.mem_of_find?_eq_some hf), hx⟩
  | panic p c =>
    rw [hout] at hrq
    cases p with
    | runtime => exact ⟨_, nosend _ _ hrq, .crashed (by simp)⟩
    | str msg => exact ⟨_, nosend _ _ hrq, .crashed (by simp)⟩
    | biz msg =>
      simp only at hrq
      have hraw : (WithParamErr t (bizText msg (O.stack c.s.trace))).RawData =
          .ok [(b!"t", .str t), (b!"y", .str b!"e"), (b!"e", .list [.int 203, .str (bizText msg (O.stack c.s.trace))])] := by
        have : ¬ (bizText msg (O.stack c.s.trace)).length ≤ 0 := by simp [bizText]
        simp only [WithParamErr, this, if_false]; rfl
      have hsend := send _ _ c.s hraw hrq
      obtain ⟨b, hb, hb', -⟩ := encode_decode hO c.s.trace
        (d := [(b!"t", .str t), (b!"y", .str b!"e"), (b!"e", .list [.int 203, .str (bizText msg (O.stack c.s.trace))])])
        ⟨by simp, by simp [GoVal.WFD, GoVal.WF, GoVal.WFL, IsInt64]⟩ (by simp [Encodable, EncodableD, EncodableL])
      rw [hb] at hsend
      exact ⟨_, hsend, .problem ⟨b, _, rfl, hb'⟩⟩


/-- **C80: a response that matches a pending request.** The response middlewares and then the request's own handler are
started once each in order, beginning with the response that arrived; nothing else happens besides what they do, whether
or not they panic. -/
theorem C80_response (fold : FoldTable) {H : Handlers} (hH : H.Terminating) (O : Oracle) {pkt : RecvPacket}
    {t : Bytes} {body : Entries} {req : Request} {i : Nat} (hr : IsResponse pkt.bytes t body)
    (hf : O.lookup [] t = some req) (hi : req.handler = some i) :
    ∃ out c, runChain (H.responseChain req pkt.addr i)
        { resp := some { txId := t, body := some body, isErr := false }, trace := [.lookup t (some req)] } = out ∧
      (out = .ok () c ∧ c.started = List.range (H.respMw.length + 1) ∨
        ∃ p n, out = .panic p c ∧ 0 < n ∧ n ≤ H.respMw.length + 1 ∧ c.started = List.range n) ∧
      recvPacketHandle fold H O pkt = some { trace := c.s.trace, recycled := [pkt.bytes], escaped := none } := by
  obtain ⟨⟨d, n, hd, y, ht, hb⟩, id, hid⟩ := hr
  have hy : Dict.Exist d b!"y" = true := by simp [Dict.Exist, dictGet, y]
  have hy' : Dict.GetString d b!"y" = .ok b!"r" := (C13_present d _).2.1 _ |>.2 y
  have e1 : Dict.GetString d b!"t" = .ok t := (C13_present d _).2.1 t |>.2 ht
  have e3 : Dict.GetDict d b!"r" = .ok (some body) := (C13_present d _).2.2.2 body |>.2 hb
  have e4 : Dict.GetString body b!"id" = .ok id := (C13_present body _).2.1 id |>.2 hid
  have hterm : ∀ p ∈ H.responseChain req pkt.addr i, p.Terminating := by
    intro p hp
    simp only [Handlers.responseChain, List.mem_append, List.mem_map, List.mem_singleton] at hp
    rcases hp with ⟨m, hm, rfl⟩ | rfl
    · exact hH.respMw m hm _
    · exact fun s => ⟨fun s => by simp [emit], hH.respH _ _⟩
  have hch : H.respMw.map (fun m => m { req, addr := pkt.addr }) ++ [callRespHandler H { req, addr := pkt.addr }] =
      H.responseChain req pkt.addr i := by simp [Handlers.responseChain, callRespHandler, hi]
  have hlen : (H.responseChain req pkt.addr i).length = H.respMw.length + 1 := by simp [Handlers.responseChain]
  have hst := C26_chain _ hterm { resp := some { txId := t, body := some body, isErr := false }, trace := [.lookup t (some req)] }
  rw [hlen] at hst
  have ne : ¬ (b!"r" = b!"q") := by decide
  rcases hst with ⟨c, hc, hst⟩ | ⟨p, c, m, hc, h1, h2, h3⟩
  · refine ⟨_, c, hc, .inl ⟨rfl, hst⟩, ?_⟩
    simp only [recvPacketHandle, GoM.recoverWith, packetBody, hd, hy, hy', Bool.not_true, Bool.false_eq_true, if_false,
      GoM.bind_apply, GoM.lift_ok, ne, if_true, responseHandle, e1, e3, e4, asMap, Option.getD_some, getReq, hf,
      doResponseHandle, runHandlers, hch, List.nil_append, WithResponse, hc, GoM.pure_apply]
  · refine ⟨_, c, hc, .inr ⟨p, m, rfl, h1, h2, h3⟩, ?_⟩
    simp only [recvPacketHandle, GoM.recoverWith, packetBody, hd, hy, hy', Bool.not_true, Bool.false_eq_true, if_false,
      GoM.bind_apply, GoM.lift_ok, ne, if_true, responseHandle, e1, e3, e4, asMap, Option.getD_some, getReq, hf,
      doResponseHandle, runHandlers, hch, List.nil_append, WithResponse, hc, GoM.pure_apply]

/-- a configuration call -/
inductive ConfigCall where
  | useReq (ms : List Handler)
  | useResp (ms : List Handler)
  | register (c : RegCall)

/-- a sequence of configuration calls (panics of `RegisteHandler` are recovered by the caller) -/
def configure (fold : FoldTable) : Handlers → List ConfigCall → Handlers
  | H, [] => H
  | H, .useReq ms :: r => configure fold (UseReqHandlerMiddleware H ms) r
  | H, .useResp ms :: r => configure fold (UseRespHandlerMiddleware H ms) r
  | H, .register c :: r => configure fold (registerCalls fold H [c]) r

/-- the arguments of the calls of one kind -/
def ConfigCall.reqArgs : ConfigCall → List Handler
  | .useReq ms => ms
  | _ => []
def ConfigCall.respArgs : ConfigCall → List Handler
  | .useResp ms => ms
  | _ => []
def ConfigCall.regArg : ConfigCall → List RegCall
  | .register c => [c]
  | _ => []

/-- **C80: configuration.** After any calls on a fresh server, the request middlewares are the arguments of all
`UseReqHandlerMiddleware` calls in the order of the calls, the response middlewares those of `UseRespHandlerMiddleware`, and the
handlers are as if only the registrations had happened. -/
theorem C80_configured (fold : FoldTable) (H : Handlers) (h1 : H.reqMw = []) (h2 : H.respMw = []) (calls : List ConfigCall) :
    (configure fold H calls).reqMw = calls.flatMap ConfigCall.reqArgs ∧
    (configure fold H calls).respMw = calls.flatMap ConfigCall.respArgs ∧
    (configure fold H calls).router = (registerCalls fold H (calls.flatMap ConfigCall.regArg)).router := by
  have reg : ∀ (H : Handlers) c, (registerCalls fold H [c]).reqMw = H.reqMw ∧ (registerCalls fold H [c]).respMw = H.respMw := by
    intro H c
    obtain ⟨o1, o2, o3⟩ := C67_outcome fold H c
    by_cases hk : KnownType fold c.name
    case neg => simp [registerCalls, o1 hk]
    cases hn : c.handler with
    | none => rw [hn] at o2; simp [registerCalls, hn, o2 hk rfl]
    | some h =>
      obtain ⟨H', e, -, e1, e2, -⟩ := o3 h hk hn
      simp [registerCalls, e, e1, e2]
  have router : ∀ (calls : List RegCall) (H K : Handlers), H.router = K.router →
      (registerCalls fold H calls).router = (registerCalls fold K calls).router := by
    intro calls
    induction calls with
    | nil => intro H K h; exact h
    | cons c r ih =>
      intro H K h
      unfold registerCalls RegisteHandler
      obtain ⟨b, hb⟩ := C14_contains_string_total fold methods c.name
      have hb' : GoList.ContainsString fold supportQueryType c.name = .ok b := hb
      simp only [hb', Res.bind_ok]
      cases b with
      | false => simpa using ih H K h
      | true =>
        cases c.handler with
        | none => simpa using ih H K h
        | some f => simpa using ih _ _ (by simp [h])
  have app : ∀ (a b : List RegCall) (H : Handlers), registerCalls fold H (a ++ b) = registerCalls fold (registerCalls fold H a) b := by
    intro a
    induction a with
    | nil => intro b H; rfl
    | cons c r ih =>
      intro b H
      simp only [List.cons_append, registerCalls]
      split
      · exact ih _ _
      · exact ih _ _
  have gen : ∀ (calls : List ConfigCall) (H : Handlers),
      (configure fold H calls).reqMw = H.reqMw ++ calls.flatMap ConfigCall.reqArgs ∧
      (configure fold H calls).respMw = H.respMw ++ calls.flatMap ConfigCall.respArgs ∧
      (configure fold H calls).router = (registerCalls fold H (calls.flatMap ConfigCall.regArg)).router := by
    intro calls
    induction calls with
    | nil => intro H; simp [configure, registerCalls]
    | cons c r ih =>
      intro H
      cases c with
      | useReq ms =>
        obtain ⟨i1, i2, i3⟩ := ih (UseReqHandlerMiddleware H ms)
        refine ⟨?_, ?_, ?_⟩
        · rw [configure, i1]; simp [UseReqHandlerMiddleware, ConfigCall.reqArgs]
        · rw [configure, i2]; simp [UseReqHandlerMiddleware, ConfigCall.respArgs]
        · rw [configure, i3]; exact router _ _ _ rfl
      | useResp ms =>
        obtain ⟨i1, i2, i3⟩ := ih (UseRespHandlerMiddleware H ms)
        refine ⟨?_, ?_, ?_⟩
        · rw [configure, i1]; simp [UseRespHandlerMiddleware, ConfigCall.reqArgs]
        · rw [configure, i2]; simp [UseRespHandlerMiddleware, ConfigCall.respArgs]
        · rw [configure, i3]; exact router _ _ _ rfl
      | register c =>
        obtain ⟨i1, i2, i3⟩ := ih (registerCalls fold H [c])
        obtain ⟨r1, r2⟩ := reg H c
        refine ⟨?_, ?_, ?_⟩
        · rw [configure, i1, r1]; simp [ConfigCall.reqArgs]
        · rw [configure, i2, r2]; simp [ConfigCall.respArgs]
        · rw [configure, i3, ← app]; rfl
  have := gen calls H
  rw [h1, h2] at this
  simpa using this

/-! ## Concrete cases -/

/-- a server with two request middlewares, one that overrides the response after the handler and one that answers pings to
port 1 with a panic, and a ping handler whose response depends on the port -/
def exServer : Handlers :=
  configure env0.fold { router := [], reqMw := [], respMw := [], respH := fun _ _ => .ret }
    [.useReq [fun a => .next (.ask fun s =>
        if s.resp = none then .ret else .eff (writeAs (WithErr a.req.txId 202 b!"no")) .ret)],
     .register ⟨b!"ping", some fun a => if a.addr.port = 3 then .ret else .eff (writeAs (WithResponse a.req.txId none)) .ret⟩,
     .useReq [fun a => if a.addr.port = 1 then .eff (GoM.panic (.biz b!"bad")) .ret else
        if a.addr.port = 2 then .eff (GoM.panic .runtime) .ret else .ret]]

def exPing : Bytes := b!"d1:ad2:id20:bbbbbbbbbbbbbbbbbbbbe1:q4:ping1:t2:zz1:y1:qe"
def exPingArgs : Entries := [(b!"id", .str b!"bbbbbbbbbbbbbbbbbbbb")]
def exPingDict : Entries := [(b!"a", .dict exPingArgs), (b!"q", .str b!"ping"), (b!"t", .str b!"zz"), (b!"y", .str b!"q")]

/-- the hypotheses of `C80_query` are met -/
example : IsQuery exPing exPingDict b!"zz" b!"ping" ∧ KnownType env0.fold b!"ping" ∧
    exPingDict.lookup b!"a" = some (.dict exPingArgs) ∧ exPingArgs.lookup b!"id" = some (.str b!"bbbbbbbbbbbbbbbbbbbb") ∧
    (exServer.router.lookup b!"ping").isSome ∧ exServer.reqMw.length = 2 :=
  ⟨⟨⟨exPing.length, by decide +kernel⟩, by decide +kernel, by decide +kernel, by decide +kernel⟩,
   ⟨b!"ping", by decide, by decide +kernel⟩, by decide +kernel, by decide +kernel, by decide +kernel, by decide +kernel⟩

/-- the four kinds of endings -/
example :
    (recvPacketHandle env0.fold exServer exO { addr := { ip := [10, 0, 0, 1], port := 9 }, bytes := exPing }).map (fun r => sends r.trace) =
      some [({ ip := [10, 0, 0, 1], port := 9 }, b!"d1:t2:zz1:y1:e1:eli202e2:noee")] ∧
    (recvPacketHandle env0.fold exServer exO { addr := { ip := [10, 0, 0, 1], port := 1 }, bytes := exPing }).map (fun r => sends r.trace) =
      some [({ ip := [10, 0, 0, 1], port := 1 }, b!"d1:t2:zz1:y1:e1:eli203e" ++ EncodeString (bizText b!"bad" b!"stack") ++ b!"ee")] ∧
    (recvPacketHandle env0.fold exServer exO { addr := { ip := [10, 0, 0, 1], port := 2 }, bytes := exPing }).map (fun r => sends r.trace) = some [] ∧
    (recvPacketHandle env0.fold exServer exO { addr := { ip := [10, 0, 0, 1], port := 3 }, bytes := exPing }).map (fun r => sends r.trace) = some [] := by
  refine ⟨?_, ?_, ?_, ?_⟩ <;> decide +kernel

/-- a response with a nil body: an empty datagram -/
example : (recvPacketHandle env0.fold { exServer with reqMw := [] } exO
    { addr := { ip := [10, 0, 0, 1], port := 9 }, bytes := exPing }).map (fun r => sends r.trace) =
      some [({ ip := [10, 0, 0, 1], port := 9 }, [])] := by decide +kernel

/-- hypotheses of `C80_response`, with a middleware that runs before the request's handler -/
example : IsResponse exResp b!"03e9" exBody ∧ exO.lookup [] b!"03e9" = some (crawlQuery exId 1001) ∧
    (crawlQuery exId 1001).handler = some 0 := ⟨exResp_isResponse, by decide +kernel, rfl⟩

end P2P

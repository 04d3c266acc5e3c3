import Verif.Props.KrpcExamples
/-! # Property C65: the exact text of error replies -/
namespace P2P

/-! ## Specification -/

/-- what is wrong with a field that must be a string -/
def strProblem (d : Entries) (k : Bytes) : Option Bytes :=
  match d.lookup k with
  | none => some (b!"cannot find " ++ k ++ b!"'s val")
  | some (.str _) => none
  | some _ => some (k ++ b!"'s val cannot match type of string")

/-- what is wrong with a field that must be an integer -/
def intProblem (d : Entries) (k : Bytes) : Option Bytes :=
  match d.lookup k with
  | none => some (b!"cannot find " ++ k ++ b!"'s val")
  | some (.int _) => none
  | some _ => some (k ++ b!"'s val cannot match type of int")

/-- A reason to refuse a query: a plain text, or a text that is followed by a stack trace. -/
inductive Complaint where
  | plain (m : Bytes)
  | withStack (m : Bytes)
deriving DecidableEq

/-- the text sent, given the text of the stack trace -/
def Complaint.text (stack : Bytes) : Complaint → Bytes
  | .plain m => m
  | .withStack m => b!"201: " ++ m ++ b!"\r\nstacks:\r\n" ++ stack

/-- what is wrong with the arguments of a query -/
def argsProblem (q : Bytes) (a : Entries) : Option Complaint :=
  match a.lookup b!"id" with
  | some (.str id) =>
    if id.length ≠ 20 then some (.plain b!"id format err")
    else if q ∉ methods then some (.plain b!"cannot handle not match handler")
    else if q = b!"get_peers" then (strProblem a b!"info_hash").map .withStack
    else if q = b!"announce_peer" then ((strProblem a b!"info_hash").or (intProblem a b!"port")).map .withStack
    else none
  | _ => (strProblem a b!"id").map .withStack

/-- what is wrong with a query; `fold` is Unicode case folding -/
def complaint (fold : FoldTable) (d : Entries) (q : Bytes) : Option Complaint :=
  if ∀ m ∈ methods, equalFold fold m q = false then some (.plain (b!"donnot support <" ++ q ++ b!"> query type"))
  else
    match d.lookup b!"a" with
    | none => some (.withStack b!"cannot find a's val")
    | some (.dict a) => argsProblem q a
    | some .nilDict => some (.withStack b!"cannot find id's val")
    | some _ => some (.withStack b!"a's val cannot match type of Dict")

/-! ## Proofs -/

theorem getString_problem (d : Entries) (k : Bytes) :
    (∃ s, d.lookup k = some (.str s) ∧ Dict.GetString d k = .ok s ∧ strProblem d k = none) ∨
    (∃ m, strProblem d k = some m ∧ Dict.GetString d k = .panic (.biz m) ∧ ∀ s, d.lookup k ≠ some (.str s)) := by
  unfold strProblem Dict.GetString Dict.GetVal dictGet
  cases h : d.lookup k with
  | none => exact .inr ⟨_, rfl, rfl, by simp⟩
  | some v => cases v <;> first | exact .inl ⟨_, rfl, rfl, rfl⟩ | exact .inr ⟨_, rfl, rfl, by simp⟩

theorem getInteger_problem (d : Entries) (k : Bytes) :
    (∃ s, d.lookup k = some (.int s) ∧ Dict.GetInteger d k = .ok s ∧ intProblem d k = none) ∨
    (∃ m, intProblem d k = some m ∧ Dict.GetInteger d k = .panic (.biz m) ∧ ∀ s, d.lookup k ≠ some (.int s)) := by
  unfold intProblem Dict.GetInteger Dict.GetVal dictGet
  cases h : d.lookup k with
  | none => exact .inr ⟨_, rfl, rfl, by simp⟩
  | some v => cases v <;> first | exact .inl ⟨_, rfl, rfl, rfl⟩ | exact .inr ⟨_, rfl, rfl, by simp⟩

theorem methods_known {fold : FoldTable} {q : Bytes} (h : q ∈ methods) :
    ¬ ∀ m ∈ methods, equalFold fold m q = false := by
  intro hh
  have := hh q h
  rw [equalFold_refl] at this
  cases this

/-- C65: a query has nothing wrong exactly if it is answerable. -/
theorem C65_answerable (fold : FoldTable) (d : Entries) (q : Bytes) : complaint fold d q = none ↔ Answerable d q := by
  unfold complaint Answerable
  by_cases hm : q ∈ methods
  case neg =>
    simp only [hm, false_and, iff_false]
    split
    · simp
    · split
      · simp
      · unfold argsProblem
        split
        · split
          · simp
          · simp [hm]
        · rename_i a _ _ hx
          rcases getString_problem a b!"id" with ⟨s, hs, -⟩ | ⟨m, hm', -⟩
          · exact absurd hs (hx s)
          · simp [hm']
      · simp
      · simp
  rw [if_neg (methods_known hm)]
  simp only [hm, true_and]
  split
  · rename_i hn
    simp only [reduceCtorEq, false_iff]
    rintro ⟨a, h, -⟩
    rw [hn] at h; cases h
  · rename_i a ha
    simp only [ha, Option.some.injEq, GoVal.dict.injEq, exists_eq_left']
    unfold argsProblem
    split
    · rename_i id hid
      simp only [hid, Option.some.injEq, GoVal.str.injEq, exists_eq_left']
      by_cases hl : id.length = 20
      · simp only [hl, ne_eq, not_true_eq_false, if_false, hm, true_and]
        have sp : strProblem a b!"info_hash" = none ↔ ∃ h, a.lookup b!"info_hash" = some (.str h) := by
          rcases getString_problem a b!"info_hash" with ⟨s, hs, -, hn⟩ | ⟨m, hm', -, hn⟩
          · simp [hs, hn]
          · simp only [hm', reduceCtorEq, false_iff]; rintro ⟨x, hx⟩; exact hn x hx
        have ip : intProblem a b!"port" = none ↔ ∃ h, a.lookup b!"port" = some (.int h) := by
          rcases getInteger_problem a b!"port" with ⟨s, hs, -, hn⟩ | ⟨m, hm', -, hn⟩
          · simp [hs, hn]
          · simp only [hm', reduceCtorEq, false_iff]; rintro ⟨x, hx⟩; exact hn x hx
        rcases mem_methods.1 hm with rfl | rfl | rfl | rfl
        · simp
        · simp
        · simp [sp]
        · simp [sp, ip]
      · simp [hl]
    · rename_i hx
      rcases getString_problem a b!"id" with ⟨s, hs, -⟩ | ⟨m, hm', -⟩
      · exact absurd hs (hx s)
      · simp only [hm', Option.map_some, reduceCtorEq, false_iff]
        rintro ⟨⟨id, h, -⟩, -⟩; exact hx id h
  · rename_i hn
    simp only [reduceCtorEq, false_iff]
    rintro ⟨a, h, -⟩
    rw [hn] at h; cases h
  · rename_i v hx _ hv
    simp only [reduceCtorEq, false_iff]
    rintro ⟨a, h, -⟩
    rw [hv] at h
    exact hx a (Option.some.inj h)

theorem containsString_methods (fold : FoldTable) (q : Bytes) :
    GoList.ContainsString fold supportQueryType q = .ok (! decide (∀ m ∈ methods, equalFold fold m q = false)) := by
  have e : supportQueryType = methods.map .str := rfl
  rw [e]
  by_cases h : ∀ m ∈ methods, equalFold fold m q = false
  · obtain ⟨b, hb⟩ := C14_contains_string_total fold methods q
    rw [hb]
    cases b with
    | false => simp only [decide_eq_true h, Bool.not_true]
    | true =>
      obtain ⟨m, hm, hf⟩ := (C14_contains_string fold methods q).1 hb
      rw [h m hm] at hf; cases hf
  · have : ∃ m ∈ methods, equalFold fold m q = true := by
      simp only [Classical.not_forall, Bool.not_eq_false] at h
      obtain ⟨m, hm, hf⟩ := h
      exact ⟨m, hm, hf⟩
    rw [(C14_contains_string fold methods q).2 this]
    simp [h]

/-- what the server does with a query that has something wrong -/
theorem requestHandle_complaint (K : KEnv) (O : Oracle) (addr : UDPAddr) (d : Entries) (t q : Bytes) (s : HSt)
    (ht : d.lookup b!"t" = some (.str t)) (hq : d.lookup b!"q" = some (.str q)) {c : Complaint}
    (hc : complaint K.env.fold d q = some c) :
    ∃ r' tr, requestHandle K.env.fold (dhtHandlers K O) O addr d s =
      .ok (some (WithErr t 203 (c.text (O.stack (s.trace ++ tr))))) { resp := r', trace := s.trace ++ tr } := by
  have e1 : Dict.GetString d b!"t" = .ok t := (C13_present d _).2.1 t |>.2 ht
  have e2 : Dict.GetString d b!"q" = .ok q := (C13_present d _).2.1 q |>.2 hq
  have pe : ∀ (m : Bytes), m ≠ [] → WithParamErr t m = WithErr t 203 m := by
    intro m hm
    have : ¬ m.length ≤ 0 := by
      have := List.length_pos_iff.2 hm; omega
    simp [WithParamErr, this]
  have pb : ∀ m st, bizText m st ≠ [] := by intro m st; simp [bizText]
  have tx : ∀ m st, (Complaint.withStack m).text st = bizText m st := fun _ _ => rfl
  simp only [requestHandle, GoM.bind_apply, e1, e2, GoM.lift_ok, GoM.recoverWith, containsString_methods]
  unfold complaint at hc
  by_cases hk : ∀ m ∈ methods, equalFold K.env.fold m q = false
  · rw [if_pos hk] at hc
    cases hc
    refine ⟨s.resp, [], ?_⟩
    simp only [decide_eq_true hk, Bool.not_true, Bool.not_false, if_true]
    simp [Complaint.text, pe]
  rw [if_neg hk] at hc
  simp only [decide_eq_false hk, Bool.not_false, Bool.not_true, Bool.false_eq_true, if_false, GoM.bind_apply]
  cases ha : d.lookup b!"a" with
  | none =>
    rw [ha] at hc
    cases hc
    have : Dict.GetDict d b!"a" = .panic (.biz b!"cannot find a's val") := by
      simp [Dict.GetDict, Dict.GetVal, dictGet, ha]
    exact ⟨s.resp, [], by simp [this, tx, pe _ (pb _ _)]⟩
  | some v =>
    rw [ha] at hc
    cases v with
    | int | str | list | nilList | nil | namedInt | namedStr | otherSlice | otherMap | other =>
      cases hc
      have h1 : Dict.GetDict d b!"a" = .panic (.biz b!"a's val cannot match type of Dict") := by
        simp [Dict.GetDict, Dict.GetVal, dictGet, ha, GoVal.asDict]
      exact ⟨s.resp, [], by simp only [h1]; simp [tx, pe _ (pb _ _)]⟩
    | nilDict =>
      cases hc
      have h1 : Dict.GetDict d b!"a" = .ok none := by simp [Dict.GetDict, Dict.GetVal, dictGet, ha, GoVal.asDict]
      have h2 : Dict.GetString [] b!"id" = .panic (.biz b!"cannot find id's val") := rfl
      exact ⟨s.resp, [], by simp [h1, asMap, h2, tx, pe _ (pb _ _)]⟩
    | dict a =>
      simp only at hc
      have ha' : Dict.GetDict d b!"a" = .ok (some a) := (C13_present d _).2.2.2 a |>.2 ha
      rw [argsProblem] at hc
      rcases getString_problem a b!"id" with ⟨id, hid, hid', -⟩ | ⟨m, hm, hid', hno⟩
      case inr =>
        have : c = .withStack m := by
          split at hc
          · rename_i h; exact absurd h (hno _)
          · rw [hm] at hc; exact (Option.some.inj hc).symm
        subst this
        exact ⟨s.resp, [], by simp [ha', asMap, hid', tx, pe _ (pb _ _)]⟩
      rw [hid] at hc
      simp only at hc
      by_cases hl : id.length = 20
      case neg =>
        rw [if_pos hl] at hc
        cases hc
        exact ⟨s.resp, [], by simp [ha', asMap, hid', hl, Complaint.text, pe]⟩
      rw [if_neg (by simpa using hl)] at hc
      simp only [ha', asMap, Option.getD_some, GoM.lift_ok, hid', hl, if_false,
        ne_eq, not_true_eq_false]
      have hrt : (dhtHandlers K O).router = [(b!"ping", pingHandler K), (b!"find_node", findNodeHandler K),
          (b!"get_peers", getPeersHandler K), (b!"announce_peer", announcePeerHandler K)] := rfl
      rw [hrt]
      by_cases hm : q ∈ methods
      case neg =>
        rw [if_pos hm] at hc
        cases hc
        have : List.lookup q [(b!"ping", pingHandler K), (b!"find_node", findNodeHandler K),
          (b!"get_peers", getPeersHandler K), (b!"announce_peer", announcePeerHandler K)] = none := by
          rw [List.lookup_eq_none_iff]
          simp only [mem_methods, not_or] at hm
          simp [hm]
        rw [this]
        exact ⟨s.resp, [], by simp [pe, Complaint.text]⟩
      rw [if_neg (by simpa using hm)] at hc
      rcases mem_methods.1 hm with rfl | rfl | rfl | rfl
      · cases hc
      · cases hc
      · simp only [if_true] at hc
        simp only [List.lookup, show (b!"get_peers" == b!"ping") = false from rfl,
          show (b!"get_peers" == b!"find_node") = false from rfl, BEq.rfl]
        rw [doRequestHandle_dht K O _ _ _ _ _ rfl]
        rcases getString_problem a b!"info_hash" with ⟨h, hh, hh', hn⟩ | ⟨m, hm', hh', -⟩
        · rw [hn] at hc; cases hc
        · rw [hm'] at hc
          cases hc
          exact ⟨none, [.dispatch { txId := t, qType := b!"get_peers", body := some a, handler := none } addr],
            by simp [asMap, hh', pe _ (pb _ _), tx]⟩
      · have q1 : ¬ b!"announce_peer" = b!"get_peers" := by decide
        simp only [q1, if_false, if_true] at hc
        simp only [List.lookup, show (b!"announce_peer" == b!"ping") = false from rfl,
          show (b!"announce_peer" == b!"find_node") = false from rfl,
          show (b!"announce_peer" == b!"get_peers") = false from rfl, BEq.rfl]
        rw [doRequestHandle_dht K O _ _ _ _ _ rfl]
        rcases getString_problem a b!"info_hash" with ⟨h, hh, hh', hn⟩ | ⟨m, hm', hh', -⟩
        · rw [hn] at hc
          simp only [Option.none_or] at hc
          rcases getInteger_problem a b!"port" with ⟨p, hp, hp', hpn⟩ | ⟨m, hm', hp', -⟩
          · rw [hpn] at hc; cases hc
          · rw [hm'] at hc
            cases hc
            exact ⟨none, [.dispatch { txId := t, qType := b!"announce_peer", body := some a, handler := none } addr],
              by simp [asMap, hh', hp', pe _ (pb _ _), tx]⟩
        · rw [hm'] at hc
          cases hc
          exact ⟨none, [.dispatch { txId := t, qType := b!"announce_peer", body := some a, handler := none } addr],
            by simp [asMap, hh', pe _ (pb _ _), tx]⟩

/-- C65: a query with something wrong is answered by one error message with code 203 and exactly the specified text; where
a field is missing or has the wrong type the text contains the whole stack trace of the server. -/
theorem C65_error_reply (K : KEnv) {O : Oracle} (hO : O.Fair) {pkt : RecvPacket} {d : Entries} {t q : Bytes}
    (h : IsQuery pkt.bytes d t q) {c : Complaint} (hc : complaint K.env.fold d q = some c) :
    ∃ tr b failed, dhtPacket K O pkt = some
        { trace := tr ++ [.send pkt.addr b failed], recycled := [pkt.bytes], escaped := none } ∧
      EncodingOf (.dict [(b!"t", .str t), (b!"y", .str b!"e"),
        (b!"e", .list [.int 203, .str (c.text (O.stack tr))])]) b := by
  obtain ⟨n, hd⟩ := h.decodes
  have hy : Dict.Exist d b!"y" = true := by simp [Dict.Exist, dictGet, h.y]
  have hy' : Dict.GetString d b!"y" = .ok b!"q" := (C13_present d _).2.1 _ |>.2 h.y
  obtain ⟨r', tr, hr⟩ := requestHandle_complaint K O pkt.addr d t q { resp := none, trace := [] } h.t h.q hc
  rw [List.nil_append] at hr
  generalize hmsg : c.text (O.stack tr) = msg at *
  have hw : GoVal.WF (.dict [(b!"t", .str t), (b!"y", .str b!"e"), (b!"e", .list [.int 203, .str msg])]) :=
    ⟨by simp, by simp [GoVal.WFD, GoVal.WF, GoVal.WFL, IsInt64]⟩
  have hl := hO tr _ hw
  obtain ⟨b, hb⟩ := (encodeItem_ok_iff _).2 (encodable_deepEq hl.2 hl.1
    (by simp [Encodable, EncodableD, EncodableL]))
  have hb2 : EncodeDict (some (O.order tr [(b!"t", .str t), (b!"y", .str b!"e"), (b!"e", .list [.int 203, .str msg])])) =
      .ok b := hb
  refine ⟨tr, b, O.sendFails tr, ?_, ⟨_, hl.1, by rw [hmsg]; exact hl.2, hb⟩⟩
  have hraw : (WithErr t 203 msg).RawData =
      .ok [(b!"t", .str t), (b!"y", .str b!"e"), (b!"e", .list [.int 203, .str msg])] := rfl
  simp only [dhtPacket, recvPacketHandle, GoM.recoverWith, packetBody, hd, hy, hy', Bool.not_true,
    Bool.false_eq_true, if_false, GoM.bind_apply, GoM.lift_ok, if_true, hr, hraw,
    GoM.get_apply, hb2, SendPacket, GoM.pure_apply]

/-- concrete complaints -/
example : complaint env0.fold exDict b!"announce_peer" = none := by decide +kernel
example : complaint env0.fold [] b!"vote" = some (.plain b!"donnot support <vote> query type") := by decide +kernel
example : complaint env0.fold [] b!"ping" = some (.withStack b!"cannot find a's val") := by decide +kernel
example : complaint env0.fold [(b!"a", .dict [(b!"id", .str b!"x")])] b!"ping" = some (.plain b!"id format err") := by
  decide +kernel
example : complaint env0.fold [(b!"a", .dict [(b!"id", .str exId)])] b!"get_peers" =
    some (.withStack b!"cannot find info_hash's val") := by decide +kernel

end P2P

import Verif.Lemmas.Console
import Verif.Props.LogText
import Verif.Props.Krpc
import Verif.Props.Amplify
import Verif.Props.KrpcExamples
import Verif.Props.BencodeFail
import Verif.Props.ErrorReply
/-! # C90: what the console log says about packets -/
namespace P2P

/-- C90: logging does not influence the handling of a packet: apart from the log the model with log statements is the model of the other theorems. -/
theorem C90_transparent (K : KEnv) (C : ConsoleEnv) (O : Oracle) (pkt : RecvPacket) :
    (dhtPacketL K C O pkt).map LoggedRun.run = dhtPacket K O pkt := by
  have h : Erases (GoM.recoverWith (packetBodyL K C O pkt) (fun p => do
      let s ← GoM.get
      serverLog .Error b!"recv packet handle panic"
        [(b!"from", lstr (addrString K.env pkt.addr)), (b!"err", panicVal C s.h.trace p), (b!"bytesLen", lint pkt.bytes.length)]))
      (GoM.recoverWith (packetBody K.env.fold (dhtHandlers K O) O pkt) fun _ => pure ()) :=
    .recover (erases_body K C O pkt) fun p => .peek fun _ => .logEnd
  have := h { h := { resp := none, trace := [] }, logs := [] }
  unfold dhtPacketL dhtPacket recvPacketHandle
  simp only at this ⊢
  rw [← this]
  cases GoM.recoverWith (packetBodyL K C O pkt) (fun p => do
      let s ← GoM.get
      serverLog .Error b!"recv packet handle panic"
        [(b!"from", lstr (addrString K.env pkt.addr)), (b!"err", panicVal C s.h.trace p), (b!"bytesLen", lint pkt.bytes.length)])
      { h := { resp := none, trace := [] }, logs := [] } <;> rfl

/-! ## Where the texts come from -/

/-- The strings of a packet that reach the log as they are: the transaction id, the method of a query, the node id of a response. -/
def RawField (pkt : RecvPacket) (s : Bytes) : Prop :=
  ∃ d n, DecodeDictNoLimit pkt.bytes = .ok (d, n) ∧
    (d.lookup b!"t" = some (.str s) ∨ d.lookup b!"q" = some (.str s) ∨
     ∃ body, d.lookup b!"r" = some (.dict body) ∧ body.lookup b!"id" = some (.str s))

/-- Values that can be in a record about this packet, other than recovered panics. -/
inductive Source (K : KEnv) (C : ConsoleEnv) (O : Oracle) (pkt : RecvPacket) : LogVal → Prop where
  /-- a string of the packet, as it is -/
  | raw {s : Bytes} : RawField pkt s → Source K C O pkt (lstr s)
  /-- hexadecimal digits -/
  | hex (s : Bytes) : Source K C O pkt (lstr (hexEncode s))
  /-- a number -/
  | num (n : Int) : Source K C O pkt (lint n)
  /-- the address of the sender or one that was read from a packet -/
  | addr (a : UDPAddr) : a = pkt.addr ∨ a.zone = [] → Source K C O pkt (lstr (addrString K.env a))
  /-- the address of the own socket -/
  | laddr : Source K C O pkt (lstringer C.laddr)
  /-- the type of a request that was pending -/
  | pending {tr : List Event} {t : Bytes} {req : Request} : O.lookup tr t = some req → Source K C O pkt (lstr req.qType)
  /-- the text of every request -/
  | braces : Source K C O pkt (lstr b!"{}")
  /-- JSON -/
  | json (v : GoVal) : Source K C O pkt (ljson (C.json v))
  | jsonStr (v : GoVal) : Source K C O pkt (lstr (C.json v))
  | jsonAddrs (l : List UDPAddr) : Source K C O pkt (ljson (C.jsonAddrs l))
  | jsonNodes (l : List NodeInfo) : Source K C O pkt (ljson (C.jsonNodes l))
  /-- the text of an error of the decoder, the encoder, the socket or the route table -/
  | err (e : GoErr) : Source K C O pkt (lerr (C.errText e))
  | sendErr (tr : List Event) : Source K C O pkt (lerr (C.sendErr tr))
  | tableErr {tr : List Event} {n : NodeInfo} {e : Bytes} : O.addNode tr n = some e → Source K C O pkt (lerr e)

/-- the fixed texts of the records -/
def logTexts : List Bytes :=
  [b!">>> send udp err", b!">>> send Bytes", b!"send query packet err", b!">>>rpc sended", b!"encode request err", b!"get ping request",
   b!"get find_node request", b!"get get_peers request", b!"get announce_peer request", b!"add node err", b!"recurve find node err", b!"add nodes",
   b!"handle response", b!"ping response", b!"cannot match request ignore", b!"getpeer with peers has not implement",
   b!"getpeer with nodes has not implement", b!"announce peer response", b!"response handle", b!"cannot match request", b!"return err",
   b!"decode bencode err", b!"cannot handle packet err", b!">>>  Bytes sended", b!"encode response err"]
/-- and their keys -/
def logKeys : List Bytes :=
  [b!"laddr", b!"err", b!"raddr", b!"length", b!"to", b!"query", b!"len", b!"txId", b!"infoHash", b!"port", b!"tableSize", b!"size", b!"txid",
   b!"queryType", b!"nodeId", b!"values", b!"nodes", b!"from", b!"dict", b!"bytesLen"]

/-- the fields that are looked at, of packets and of error replies -/
def fieldNames : List Bytes :=
  [b!"t", b!"y", b!"q", b!"a", b!"r", b!"e", b!"id", b!"info_hash", b!"port", b!"nodes", b!"values", b!"code", b!"msg"]
/-- the texts of the panics about missing or mistyped fields -/
def fieldComplaints : List Bytes :=
  b!"val cannot match type of string" ::
  fieldNames.flatMap fun k => [b!"cannot find " ++ k ++ b!"'s val", k ++ b!"'s val cannot match type of int",
    k ++ b!"'s val cannot match type of string", k ++ b!"'s val cannot match type of List", k ++ b!"'s val cannot match type of Dict"]
/-- a panic of the Go runtime, or one about a field -/
def FieldPanic (p : Panic) : Prop := p = .runtime ∨ ∃ m ∈ fieldComplaints, p = .biz m

/-- A record about the packet: an informational or error record of one of the three loggers with a fixed text and values as above; or an error record about
a recovered panic. -/
inductive About (K : KEnv) (C : ConsoleEnv) (O : Oracle) (pkt : RecvPacket) : LogRec → Prop where
  | plain {r : LogRec} : r.pfx ∈ [b!"server", b!"udp", b!"dht"] → r.method = .Info ∨ r.method = .Error → r.msg ∈ logTexts →
      (∀ ctx, r.ctx = some ctx → ∀ e ∈ ctx, e.1 ∈ logKeys ∧ Source K C O pkt e.2) → About K C O pkt r
  | requestPanic (tr : List Event) {p : Panic} : FieldPanic p →
      About K C O pkt { pfx := b!"server", method := .Error, msg := b!"request handle panic", ctx := some [(b!"err", panicVal C tr p)] }
  | packetPanic (tr : List Event) {p : Panic} : FieldPanic p →
      About K C O pkt { pfx := b!"server", method := .Error, msg := b!"recv packet handle panic"
                        ctx := some [(b!"from", lstr (addrString K.env pkt.addr)), (b!"err", panicVal C tr p), (b!"bytesLen", lint pkt.bytes.length)] }

/-- all datagrams, with what the kernel answered -/
def attempts (tr : List Event) : List (UDPAddr × Bytes × Bool) :=
  tr.filterMap fun e => match e with | .send a b f => some (a, b, f) | _ => none

/-- the record of `SendPacket` about a datagram -/
def SendRec (K : KEnv) (C : ConsoleEnv) (x : UDPAddr × Bytes × Bool) (r : LogRec) : Prop :=
  if x.2.2 then
    ∃ e, r = { pfx := b!"udp", method := .Error, msg := b!">>> send udp err", ctx := some [(b!"laddr", lstringer C.laddr), (b!"err", lerr e)] }
  else
    r = { pfx := b!"udp", method := .Info, msg := b!">>> send Bytes"
          ctx := some [(b!"laddr", lstringer C.laddr), (b!"raddr", lstr (addrString K.env x.1)), (b!"length", lint x.2.1.length)] }

/-- the records of the UDP server -/
def udpRecords (l : List LogRec) : List LogRec := l.filter (fun r => r.pfx == b!"udp")

/-- two lists of the same length whose corresponding members are related -/
inductive OneEach {α β : Type} (R : α → β → Prop) : List α → List β → Prop where
  | nil : OneEach R [] []
  | cons {a : α} {b : β} {l : List α} {m : List β} : R a b → OneEach R l m → OneEach R (a :: l) (b :: m)

theorem OneEach.snoc {α β : Type} {R : α → β → Prop} {l : List α} {m : List β} (h : OneEach R l m) {a : α} {b : β} (hab : R a b) :
    OneEach R (l ++ [a]) (m ++ [b]) := by
  induction h with
  | nil => exact .cons hab .nil
  | cons h _ ih => exact .cons h ih

/-- what holds at every moment of a call -/
structure LogOk (K : KEnv) (C : ConsoleEnv) (O : Oracle) (pkt : RecvPacket) (s : LSt) : Prop where
  about : ∀ r ∈ s.logs, About K C O pkt r
  sent : OneEach (SendRec K C) (attempts s.h.trace) (udpRecords s.logs)

/-- an outcome with a log in order -/
def GoodOut {α : Type} (K : KEnv) (C : ConsoleEnv) (O : Oracle) (pkt : RecvPacket) : Out LSt α → Prop
  | .ok _ s => LogOk K C O pkt s
  | .panic p s => FieldPanic p ∧ LogOk K C O pkt s
  | .diverge => True

/-- the code keeps the log in order -/
def LKeeps {α : Type} (K : KEnv) (C : ConsoleEnv) (O : Oracle) (pkt : RecvPacket) (m : LM α) : Prop :=
  ∀ s, LogOk K C O pkt s → GoodOut K C O pkt (m s)

/-- the code sends nothing -/
def LSendsNothing {α : Type} (m : HM α) : Prop :=
  ∀ h, ∃ a h', m h = .ok a h' ∧ attempts h'.trace = attempts h.trace

section
variable {K : KEnv} {C : ConsoleEnv} {O : Oracle} {pkt : RecvPacket} {α β : Type}

theorem LKeeps.pure (a : α) : LKeeps K C O pkt (Pure.pure a) := fun _ hs => hs
theorem LKeeps.panic {p : Panic} (h : FieldPanic p) : LKeeps K C O pkt (GoM.panic p : LM α) := fun _ hs => ⟨h, hs⟩
theorem LKeeps.diverge : LKeeps K C O pkt (fun _ => .diverge : LM α) := fun _ _ => trivial

theorem LKeeps.bind {m : LM α} {f : α → LM β} (h : LKeeps K C O pkt m) (hf : ∀ a, LKeeps K C O pkt (f a)) : LKeeps K C O pkt (m >>= f) := by
  intro s hs
  have := h s hs
  simp only [GoM.bind_apply]
  cases hm : m s with
  | ok a s1 => rw [hm] at this; exact hf a s1 this
  | panic q s1 => rw [hm] at this; exact this
  | diverge => trivial

theorem LKeeps.get {f : LSt → LM α} (hf : ∀ s, LKeeps K C O pkt (f s)) : LKeeps K C O pkt (GoM.get >>= f) := fun s hs => hf s s hs

/-- code without effects: what it returns is known afterwards -/
theorem LKeeps.liftBind {r : Res α} {f : α → LM β} (hp : ∀ p, r = .panic p → FieldPanic p) (hf : ∀ a, r = .ok a → LKeeps K C O pkt (f a)) :
    LKeeps K C O pkt (GoM.lift r >>= f) := by
  intro s hs
  simp only [GoM.bind_apply]
  cases hr : r with
  | ok a => exact hf a hr s hs
  | err e => exact ⟨.inl rfl, hs⟩
  | panic p => exact ⟨hp p hr, hs⟩
  | diverge => trivial

theorem LKeeps.log {pfx : Bytes} {k : LogMethod} {msg : Bytes} {ctx : Option (List (Bytes × LogVal))} (hu : pfx ≠ b!"udp")
    (ha : About K C O pkt { pfx, method := k, msg, ctx }) : LKeeps K C O pkt (logCall pfx k msg ctx) := by
  intro s hs
  refine ⟨fun r hr => ?_, ?_⟩
  · rcases List.mem_append.1 hr with hr | hr
    · exact hs.about r hr
    · cases List.mem_singleton.1 hr; exact ha
  · have : udpRecords (s.logs ++ [{ pfx, method := k, msg, ctx }]) = udpRecords s.logs := by
      simp [udpRecords, List.filter_append, hu]
    rw [this]; exact hs.sent

theorem LKeeps.quiet {m : HM α} (h : LSendsNothing m) : LKeeps K C O pkt (P2P.quiet m) := by
  intro s hs
  obtain ⟨a, h', e, ha⟩ := h s.h
  simp only [P2P.quiet, e, GoodOut]
  exact ⟨hs.about, ha ▸ hs.sent⟩

theorem LKeeps.recover {m : LM α} {g : Panic → LM α} (h : LKeeps K C O pkt m) (hg : ∀ p, FieldPanic p → LKeeps K C O pkt (g p)) :
    LKeeps K C O pkt (GoM.recoverWith m g) := by
  intro s hs
  have := h s hs
  simp only [GoM.recoverWith]
  cases hm : m s with
  | ok a s1 => rw [hm] at this; exact this
  | panic q s1 => rw [hm] at this; exact hg q this.1 s1 this.2
  | diverge => trivial
end

section
variable {K : KEnv} {C : ConsoleEnv} {O : Oracle} {pkt : RecvPacket} {α β : Type}

theorem sendsNothing_emit {e : Event} (h : attempts [e] = []) : LSendsNothing (emit e) := by
  intro s
  refine ⟨(), _, rfl, ?_⟩
  simp only [attempts, List.filterMap_append] at h ⊢
  rw [h, List.append_nil]
theorem sendsNothing_write (r : Response) : LSendsNothing (writeAs r) := fun s => ⟨(), _, rfl, rfl⟩
theorem sendsNothing_get (t : Bytes) : LSendsNothing (getReq O t) := fun s => ⟨_, _, rfl, by simp [attempts]⟩
theorem sendsNothing_table (n : NodeInfo) : LSendsNothing (tableAdd O n) := fun s => ⟨_, _, rfl, by simp [attempts]⟩
theorem sendsNothing_next : LSendsNothing (nextTxId O) := fun s => ⟨_, _, rfl, by simp [attempts]⟩

theorem keeps_send (data : Bytes) (to : UDPAddr) (hto : to = pkt.addr ∨ to.zone = []) : LKeeps K C O pkt (SendPacketL K C O data to) := by
  intro s hs
  have hf : ∀ x r, SendRec K C x r → r.pfx = b!"udp" := by
    intro x r h
    unfold SendRec at h
    split at h
    · obtain ⟨e, rfl⟩ := h; rfl
    · rw [h]
  have key : ∀ r, SendRec K C (to, data, O.sendFails s.h.trace) r → About K C O pkt r →
      LogOk K C O pkt { h := { s.h with trace := s.h.trace ++ [.send to data (O.sendFails s.h.trace)] }, logs := s.logs ++ [r] } := by
    intro r hr ha
    refine ⟨fun r' hr' => ?_, ?_⟩
    · rcases List.mem_append.1 hr' with h | h
      · exact hs.about r' h
      · cases List.mem_singleton.1 h; exact ha
    · have e1 : attempts (s.h.trace ++ [.send to data (O.sendFails s.h.trace)]) = attempts s.h.trace ++ [(to, data, O.sendFails s.h.trace)] := by
        simp [attempts]
      have e2 : udpRecords (s.logs ++ [r]) = udpRecords s.logs ++ [r] := by
        simp [udpRecords, List.filter_append, hf _ _ hr]
      simp only [e1, e2]
      exact hs.sent.snoc hr
  unfold SendPacketL
  simp only [GoM.bind_apply, GoM.get_apply, P2P.quiet, SendPacket]
  cases hb : O.sendFails s.h.trace with
  | true =>
    rw [hb] at key
    refine key _ ⟨C.sendErr s.h.trace, rfl⟩ (.plain ?_ ?_ ?_ ?_)
    · simp
    · simp
    · simp [logTexts]
    · rintro _ ⟨⟩ e he
      simp only [List.mem_cons, List.not_mem_nil, or_false] at he
      rcases he with rfl | rfl
      · exact ⟨by simp [logKeys], .laddr⟩
      · exact ⟨by simp [logKeys], .sendErr _⟩
  | false =>
    rw [hb] at key
    refine key _ rfl (.plain ?_ ?_ ?_ ?_)
    · simp
    · simp
    · simp [logTexts]
    · rintro _ ⟨⟩ e he
      simp only [List.mem_cons, List.not_mem_nil, or_false] at he
      rcases he with rfl | rfl | rfl
      · exact ⟨by simp [logKeys], .laddr⟩
      · exact ⟨by simp [logKeys], .addr _ hto⟩
      · exact ⟨by simp [logKeys], .num _⟩

/-- all entries of a context have a known key and a value of a known source -/
def CtxOk (K : KEnv) (C : ConsoleEnv) (O : Oracle) (pkt : RecvPacket) : List (Bytes × LogVal) → Prop
  | [] => True
  | (k, v) :: r => (k ∈ logKeys ∧ Source K C O pkt v) ∧ CtxOk K C O pkt r

theorem ctxOk_mem {l : List (Bytes × LogVal)} (h : CtxOk K C O pkt l) : ∀ e ∈ l, e.1 ∈ logKeys ∧ Source K C O pkt e.2 := by
  induction l with
  | nil => intro e he; cases he
  | cons a r ih =>
    obtain ⟨k, v⟩ := a
    intro e he
    rcases List.mem_cons.1 he with rfl | he
    · exact h.1
    · exact ih h.2 e he

theorem LKeeps.server {k : LogMethod} {msg : Bytes} {ctx : List (Bytes × LogVal)} (hk : k = .Info ∨ k = .Error) (hm : msg ∈ logTexts)
    (hc : CtxOk K C O pkt ctx) : LKeeps K C O pkt (serverLog k msg ctx) :=
  .log (by decide +kernel) (.plain (by simp) hk hm (by rintro _ ⟨⟩; exact ctxOk_mem hc))
theorem LKeeps.dht {k : LogMethod} {msg : Bytes} {ctx : List (Bytes × LogVal)} (hk : k = .Info ∨ k = .Error) (hm : msg ∈ logTexts)
    (hc : CtxOk K C O pkt ctx) : LKeeps K C O pkt (dhtLog k msg ctx) :=
  .log (by decide +kernel) (.plain (by simp) hk hm (by rintro _ ⟨⟩; exact ctxOk_mem hc))
theorem LKeeps.ignore : LKeeps K C O pkt (logCall b!"dht" .Info b!"cannot match request ignore" none) :=
  .log (by decide +kernel) (.plain (by simp) (.inl rfl) (by decide +kernel) (by rintro _ ⟨⟩))

theorem encode_panic {d : Entries} {p : Panic} (h : EncodeDict (some d) = .panic p) : FieldPanic p := by
  have := C12_outcome (.dict d)
  simp only [EncodeDict] at h
  cases hf : (GoVal.dict d).leaves.find? GoVal.bad with
  | none => rw [hf] at this; obtain ⟨b, hb⟩ := this; rw [hb] at h; cases h
  | some x =>
    rw [hf] at this
    simp only at this
    rw [this] at h
    split at h
    · cases h; exact .inl rfl
    · cases h

/-- the complaints about a field are known texts -/
theorem complaints_mem {k : Bytes} (hk : k ∈ fieldNames) :
    (b!"cannot find " ++ k ++ b!"'s val") ∈ fieldComplaints ∧ (k ++ b!"'s val cannot match type of int") ∈ fieldComplaints ∧
    (k ++ b!"'s val cannot match type of string") ∈ fieldComplaints ∧ (k ++ b!"'s val cannot match type of List") ∈ fieldComplaints ∧
    (k ++ b!"'s val cannot match type of Dict") ∈ fieldComplaints := by
  have h : ∀ x, x ∈ [b!"cannot find " ++ k ++ b!"'s val", k ++ b!"'s val cannot match type of int",
      k ++ b!"'s val cannot match type of string", k ++ b!"'s val cannot match type of List", k ++ b!"'s val cannot match type of Dict"] →
      x ∈ fieldComplaints := fun x hx => List.mem_cons_of_mem _ (List.mem_flatMap.2 ⟨k, hk, hx⟩)
  exact ⟨h _ (by simp), h _ (by simp), h _ (by simp), h _ (by simp), h _ (by simp)⟩

theorem getString_panic {d : Entries} {k : Bytes} (hk : k ∈ fieldNames) {p : Panic} (h : Dict.GetString d k = .panic p) : FieldPanic p := by
  unfold Dict.GetString Dict.GetVal at h
  cases hd : dictGet d k with
  | none => rw [hd] at h; cases h; exact .inr ⟨_, (complaints_mem hk).1, rfl⟩
  | some v =>
    rw [hd] at h
    simp only [Res.bind_ok] at h
    split at h
    · cases h
    · cases h; exact .inr ⟨_, (complaints_mem hk).2.2.1, rfl⟩
theorem getInteger_panic {d : Entries} {k : Bytes} (hk : k ∈ fieldNames) {p : Panic} (h : Dict.GetInteger d k = .panic p) : FieldPanic p := by
  unfold Dict.GetInteger Dict.GetVal at h
  cases hd : dictGet d k with
  | none => rw [hd] at h; cases h; exact .inr ⟨_, (complaints_mem hk).1, rfl⟩
  | some v =>
    rw [hd] at h
    simp only [Res.bind_ok] at h
    split at h
    · cases h
    · cases h; exact .inr ⟨_, (complaints_mem hk).2.1, rfl⟩
theorem getList_panic {d : Entries} {k : Bytes} (hk : k ∈ fieldNames) {p : Panic} (h : Dict.GetList d k = .panic p) : FieldPanic p := by
  unfold Dict.GetList Dict.GetVal at h
  cases hd : dictGet d k with
  | none => rw [hd] at h; cases h; exact .inr ⟨_, (complaints_mem hk).1, rfl⟩
  | some v =>
    rw [hd] at h
    simp only [Res.bind_ok] at h
    split at h
    · cases h
    · cases h; exact .inr ⟨_, (complaints_mem hk).2.2.2.1, rfl⟩
theorem getDict_panic {d : Entries} {k : Bytes} (hk : k ∈ fieldNames) {p : Panic} (h : Dict.GetDict d k = .panic p) : FieldPanic p := by
  unfold Dict.GetDict Dict.GetVal at h
  cases hd : dictGet d k with
  | none => rw [hd] at h; cases h; exact .inr ⟨_, (complaints_mem hk).1, rfl⟩
  | some v =>
    rw [hd] at h
    simp only [Res.bind_ok] at h
    split at h
    · cases h
    · cases h; exact .inr ⟨_, (complaints_mem hk).2.2.2.2, rfl⟩

theorem mapM_panic {γ δ : Type} (g : γ → Res δ) (Q : Panic → Prop) (l : List γ) (hg : ∀ a ∈ l, ∀ p, g a = .panic p → Q p) :
    ∀ p, l.mapM g = .panic p → Q p := by
  induction l with
  | nil => intro p h; cases h
  | cons a r ih =>
    intro p h
    rw [List.mapM_cons] at h
    cases ha : g a with
    | ok b =>
      rw [ha] at h
      simp only [Res.bind_ok] at h
      cases hr : r.mapM g with
      | ok c => rw [hr] at h; cases h
      | err e => rw [hr] at h; cases h
      | panic q => rw [hr] at h; cases h; exact ih (fun x hx => hg x (List.mem_cons_of_mem _ hx)) _ hr
      | diverge => rw [hr] at h; cases h
    | err e => rw [ha] at h; cases h
    | panic q => rw [ha] at h; cases h; exact hg a (List.mem_cons_self ..) _ ha
    | diverge => rw [ha] at h; cases h

theorem parsePeerInfo_panic {cap : Nat → Nat} {vals : List GoVal} {p : Panic} (h : parsePeerInfo cap vals = .panic p) : FieldPanic p := by
  refine mapM_panic (parsePeerAt cap vals) FieldPanic _ (fun i _ q hq => ?_) p h
  unfold parsePeerAt at hq
  have h0 : ∀ q, GoList.GetString vals i = .panic q → FieldPanic q := by
    intro q hq
    unfold GoList.GetString GoList.GetVal at hq
    split at hq
    · split at hq
      · simp only [Res.bind_ok] at hq
        split at hq
        · cases hq
        · cases hq; exact .inr ⟨_, List.mem_cons_self .., rfl⟩
      · cases hq; exact .inl rfl
    · cases hq; exact .inl rfl
  have h1 : ∀ {s a b q}, goSlice s a b = .panic q → FieldPanic q := by
    intro s a b q hq
    unfold goSlice at hq
    split at hq
    · cases hq
    · cases hq; exact .inl rfl
  cases hg : GoList.GetString vals i with
  | err e => rw [hg] at hq; cases hq
  | diverge => rw [hg] at hq; cases hq
  | panic q' => rw [hg] at hq; cases hq; exact h0 _ hg
  | ok val =>
    rw [hg] at hq
    simp only [Res.bind_ok] at hq
    cases hs : goSlice (bytesWithCap cap val) 0 4 with
    | err e => rw [hs] at hq; cases hq
    | diverge => rw [hs] at hq; cases hq
    | panic q' => rw [hs] at hq; cases hq; exact h1 hs
    | ok ip =>
      rw [hs] at hq
      simp only [Res.bind_ok] at hq
      cases ht : goSlice (bytesWithCap cap val) 4 6 with
      | err e => rw [ht] at hq; cases hq
      | diverge => rw [ht] at hq; cases hq
      | panic q' => rw [ht] at hq; cases hq; exact h1 ht
      | ok port => rw [ht] at hq; cases hq

theorem keeps_at {m : LM α} (h : LKeeps K C O pkt m) {s : LSt} (hs : LogOk K C O pkt s) : GoodOut K C O pkt (m s) := h s hs

theorem keeps_query (raddr : UDPAddr) (hto : raddr = pkt.addr ∨ raddr.zone = []) (req : Request) : LKeeps K C O pkt (QueryL K C O raddr req) := by
  unfold QueryL
  refine .bind (.quiet (sendsNothing_emit rfl)) fun _ => .get fun s => ?_
  cases hx : EncodeDict (some (O.order s.h.trace req.RawData)) with
  | ok raw =>
    refine .bind (keeps_send _ _ hto) fun failed => ?_
    cases failed
    · exact .bind (.server (.inl rfl) (by decide +kernel) ⟨⟨by decide +kernel, .addr _ hto⟩, ⟨by decide +kernel, .num _⟩, trivial⟩) fun _ => .pure _
    · exact .bind (.server (.inr rfl) (by decide +kernel)
        ⟨⟨by decide +kernel, .addr _ hto⟩, ⟨by decide +kernel, .braces⟩, ⟨by decide +kernel, .sendErr _⟩, trivial⟩) fun _ => .pure _
  | err e => exact .bind (.server (.inr rfl) (by decide +kernel)
        ⟨⟨by decide +kernel, .addr _ hto⟩, ⟨by decide +kernel, .braces⟩, ⟨by decide +kernel, .err _⟩, trivial⟩) fun _ => .pure _
  | panic p => exact .panic (encode_panic hx)
  | diverge => exact .diverge

theorem keeps_loop (ns : List NodeInfo) (hz : ∀ n ∈ ns, n.addr.zone = []) : LKeeps K C O pkt (findNodeLoopL K C O ns) := by
  induction ns with
  | nil => exact .pure _
  | cons n r ih' =>
    have ih := ih' fun m hm => hz m (List.mem_cons_of_mem _ hm)
    unfold findNodeLoopL
    intro s hs
    have h1 : LogOk K C O pkt { s with h := { s.h with trace := s.h.trace ++ [.addNode n (O.addNode s.h.trace n)] } } := by
      have := (LKeeps.quiet (K := K) (C := C) (O := O) (pkt := pkt) (sendsNothing_table (O := O) n)) s hs
      exact this
    simp only [GoM.bind_apply, P2P.quiet, tableAdd]
    cases he : O.addNode s.h.trace n with
    | some e =>
      rw [he] at h1
      have k : LKeeps K C O pkt (do
          let s ← GoM.get
          dhtLog .Info b!"add node err" [(b!"err", lerr e), (b!"tableSize", lint (C.tableSize s.h.trace))]
          findNodeLoopL K C O r) :=
        .get fun s' => .bind (.dht (.inl rfl) (by decide +kernel)
          ⟨⟨by decide +kernel, .tableErr he⟩, ⟨by decide +kernel, .num _⟩, trivial⟩) fun _ => ih
      exact k _ h1
    | none =>
      rw [he] at h1
      refine (LKeeps.bind (.quiet sendsNothing_next) fun tx => .bind (keeps_query _ (.inr (hz n (List.mem_cons_self ..))) _) fun qe => ?_) _ h1
      cases qe with
      | none => exact ih
      | some e => exact .get fun s' => .bind (.dht (.inr rfl) (by decide +kernel)
          ⟨⟨by decide +kernel, .err _⟩, ⟨by decide +kernel, .num _⟩, trivial⟩) fun _ => ih

theorem keeps_find (ns : List NodeInfo) (hz : ∀ n ∈ ns, n.addr.zone = []) : LKeeps K C O pkt (findNodeRespHandlerL K C O ns) := by
  unfold findNodeRespHandlerL
  exact .bind (keeps_loop ns hz) fun _ => .get fun s => .dht (.inl rfl) (by decide +kernel)
    ⟨⟨by decide +kernel, .num _⟩, ⟨by decide +kernel, .num _⟩, trivial⟩

/-- the response handler, on a response made of fields of the packet to a request that was pending -/
theorem keeps_resp {t : Bytes} {body : Option Entries} (ht : RawField pkt t)
    (hb : ∀ i, Dict.GetString (asMap body) b!"id" = .ok i → RawField pkt i) {tr : List Event} {u : Bytes} {a : HArgs}
    (hreq : O.lookup tr u = some a.req) {s : LSt} (hs : LogOk K C O pkt s) (hr : s.h.resp = some (WithResponse t body)) :
    GoodOut K C O pkt (genericRespL K C O a s) := by
  unfold genericRespL
  simp only [GoM.bind_apply (m := GoM.get), GoM.get_apply, hr]
  refine keeps_at (LKeeps.liftBind (fun p hp => getString_panic (by decide +kernel) hp) (fun i hi => ?_)) hs
  have hi' : RawField pkt i := hb i hi
  refine .bind (.dht (.inl rfl) (by decide +kernel) ⟨⟨by decide +kernel, .raw ht⟩, ⟨by decide +kernel, .pending hreq⟩, trivial⟩) fun _ => ?_
  by_cases h1 : a.req.qType = b!"ping"
  · rw [if_pos h1]; exact .bind (.dht (.inl rfl) (by decide +kernel) ⟨⟨by decide +kernel, .raw hi'⟩, trivial⟩) fun _ => .ignore
  rw [if_neg h1]
  by_cases h2 : a.req.qType = b!"find_node"
  · rw [if_pos h2]
    refine .liftBind (fun p hp => getString_panic (by decide +kernel) hp) fun nodes _ => .liftBind (fun p hp => ?_) fun ns hns => ?_
    · rw [parseNodeInfo_eq] at hp; cases hp
    · have hz : ∀ n ∈ ns, n.addr.zone = [] := by
        obtain ⟨ns', e1, -, e2⟩ := C15_parse_total nodes
        rw [hns] at e1; cases e1
        exact fun n hn => (e2 n hn).2.2.2
      exact .bind (keeps_find ns hz) fun _ => .ignore
  rw [if_neg h2]
  by_cases h3 : a.req.qType = b!"get_peers"
  · rw [if_pos h3]
    split
    · refine .liftBind (fun p hp => getList_panic (by decide +kernel) hp) fun vals _ => .liftBind (fun p hp => parsePeerInfo_panic hp) fun addrs _ => ?_
      exact .dht (.inl rfl) (by decide +kernel) ⟨⟨by decide +kernel, .jsonAddrs _⟩, trivial⟩
    · refine .liftBind (fun p hp => getString_panic (by decide +kernel) hp) fun nodes _ => .liftBind (fun p hp => ?_) fun ns _ => ?_
      · rw [parseNodeInfo_eq] at hp; cases hp
      · exact .bind (.dht (.inl rfl) (by decide +kernel) ⟨⟨by decide +kernel, .jsonNodes _⟩, trivial⟩) fun _ => .ignore
  rw [if_neg h3]
  by_cases h4 : a.req.qType = b!"announce_peer"
  · rw [if_pos h4]; exact .bind (.dht (.inl rfl) (by decide +kernel) ⟨⟨by decide +kernel, .raw hi'⟩, trivial⟩) fun _ => .ignore
  · rw [if_neg h4]; exact .ignore

theorem keeps_handlers {t q : Bytes} (ht : RawField pkt t) {a : HArgs} (ha : a.req.txId = t) {h : HArgs → LM Unit}
    (hh : (handlersL K).lookup q = some h) : LKeeps K C O pkt (h a) := by
  subst ha
  have hm : h = pingHandlerL K ∨ h = findNodeHandlerL K ∨ h = getPeersHandlerL K ∨ h = announcePeerHandlerL K := by
    simp only [handlersL, List.lookup] at hh
    repeat' split at hh
    all_goals cases hh
    all_goals simp
  rcases hm with rfl | rfl | rfl | rfl
  · exact .bind (.dht (.inl rfl) (by decide +kernel) ⟨⟨by decide +kernel, .raw ht⟩, trivial⟩) fun _ => .quiet (sendsNothing_write _)
  · exact .bind (.dht (.inl rfl) (by decide +kernel) ⟨⟨by decide +kernel, .raw ht⟩, trivial⟩) fun _ => .quiet (sendsNothing_write _)
  · refine .liftBind (fun p hp => getString_panic (by decide +kernel) hp) fun ih _ => ?_
    exact .bind (.dht (.inl rfl) (by decide +kernel) ⟨⟨by decide +kernel, .raw ht⟩, ⟨by decide +kernel, .hex _⟩, trivial⟩) fun _ =>
      .bind (.quiet (sendsNothing_emit rfl)) fun _ => .quiet (sendsNothing_write _)
  · refine .liftBind (fun p hp => getString_panic (by decide +kernel) hp) fun ih _ =>
      .liftBind (fun p hp => getInteger_panic (by decide +kernel) hp) fun port _ => ?_
    exact .bind (.dht (.inl rfl) (by decide +kernel)
      ⟨⟨by decide +kernel, .raw ht⟩, ⟨by decide +kernel, .hex _⟩, ⟨by decide +kernel, .num _⟩, trivial⟩) fun _ =>
      .bind (.quiet (sendsNothing_emit rfl)) fun _ => .bind (.quiet (sendsNothing_write _)) fun _ => .quiet (sendsNothing_emit rfl)

theorem LKeeps.setResp (x : Option Response) : LKeeps K C O pkt (GoM.modify (fun s : LSt => { s with h := { s.h with resp := x } })) :=
  fun _ hs => ⟨hs.about, hs.sent⟩

theorem keeps_request {d : Entries} {n : Nat} (hd : DecodeDictNoLimit pkt.bytes = .ok (d, n)) :
    LKeeps K C O pkt (requestHandleL K C O pkt.addr d) := by
  unfold requestHandleL
  refine .liftBind (fun p hp => getString_panic (by decide +kernel) hp) fun t ht =>
    .liftBind (fun p hp => getString_panic (by decide +kernel) hp) fun q hq => ?_
  have ht' : RawField pkt t := ⟨d, n, hd, .inl ((C13_present d _).2.1 _ |>.1 ht)⟩
  have hq' : RawField pkt q := ⟨d, n, hd, .inr (.inl ((C13_present d _).2.1 _ |>.1 hq))⟩
  refine .bind (.server (.inl rfl) (by decide +kernel) ⟨⟨by decide +kernel, .raw ht'⟩, ⟨by decide +kernel, .raw hq'⟩, trivial⟩) fun _ => ?_
  refine .recover (.liftBind (fun p hp => ?_) fun sup _ => ?_) fun p hp => ?_
  · rw [containsString_methods] at hp; cases hp
  · cases sup with
    | false => exact .pure _
    | true =>
      refine .liftBind (fun p hp => getDict_panic (by decide +kernel) hp) fun body _ =>
        .liftBind (fun p hp => getString_panic (by decide +kernel) hp) fun id _ => ?_
      split
      · exact .pure _
      · cases hl : (handlersL K).lookup q with
        | none => exact .pure _
        | some h =>
          exact .bind (.setResp _) fun _ => .bind (.quiet (sendsNothing_emit rfl)) fun _ =>
            .bind (keeps_handlers (q := q) ht' rfl hl) fun _ => .get fun s => .pure _
  · refine .get fun s => .bind (.log (by decide +kernel) (.requestPanic _ hp)) fun _ => ?_
    cases p with
    | biz m => exact .pure _
    | runtime => exact .panic hp
    | str x => exact .panic hp

theorem keeps_response {d : Entries} {n : Nat} (hd : DecodeDictNoLimit pkt.bytes = .ok (d, n)) :
    LKeeps K C O pkt (responseHandleL K C O pkt.addr d) := by
  unfold responseHandleL
  refine .liftBind (fun p hp => getString_panic (by decide +kernel) hp) fun t ht =>
    .liftBind (fun p hp => getDict_panic (by decide +kernel) hp) fun body hb =>
    .liftBind (fun p hp => getString_panic (by decide +kernel) hp) fun i hi => ?_
  have ht' : RawField pkt t := ⟨d, n, hd, .inl ((C13_present d _).2.1 _ |>.1 ht)⟩
  have hi' : ∀ i, Dict.GetString (asMap body) b!"id" = .ok i → RawField pkt i := by
    intro i hi
    cases body with
    | none => cases hi
    | some e => exact ⟨d, n, hd, .inr (.inr ⟨e, (C13_present d _).2.2.2 _ |>.1 hb, (C13_present e _).2.1 _ |>.1 hi⟩)⟩
  refine .bind (.server (.inl rfl) (by decide +kernel) ⟨⟨by decide +kernel, .raw ht'⟩, ⟨by decide +kernel, .hex _⟩, trivial⟩) fun _ => ?_
  intro s hs
  have h1 : LogOk K C O pkt { s with h := { s.h with trace := s.h.trace ++ [.lookup t (O.lookup s.h.trace t)] } } :=
    (LKeeps.quiet (K := K) (C := C) (O := O) (pkt := pkt) (sendsNothing_get (O := O) t)) s hs
  simp only [GoM.bind_apply, P2P.quiet, getReq]
  cases he : O.lookup s.h.trace t with
  | none =>
    rw [he] at h1
    refine keeps_at (LKeeps.server (.inr rfl) (by decide +kernel) ?_) h1
    exact ⟨⟨by decide +kernel, .raw ht'⟩, ⟨by decide +kernel, .raw (hi' i hi)⟩, trivial⟩
  | some req =>
    rw [he] at h1
    have h2 := (LKeeps.setResp (K := K) (C := C) (O := O) (pkt := pkt) (some (WithResponse t body))) _ h1
    simp only [GoM.modify_apply] at h2 ⊢
    cases hh : req.handler with
    | none => exact ⟨.inl rfl, h2⟩
    | some x =>
      simp only [GoM.bind_apply]
      have h3 := (LKeeps.quiet (K := K) (C := C) (O := O) (pkt := pkt)
        (sendsNothing_emit (e := .invoke req (some (WithResponse t body)) pkt.addr) rfl)) _ h2
      exact keeps_resp ht' hi' (a := { req, addr := pkt.addr }) he h3 rfl

theorem keeps_err {d : Entries} {n : Nat} (hd : DecodeDictNoLimit pkt.bytes = .ok (d, n)) : LKeeps K C O pkt (responseErrHandleL C d) := by
  unfold responseErrHandleL
  refine .liftBind (fun p hp => getString_panic (by decide +kernel) hp) fun t ht =>
    .liftBind (fun p hp => getList_panic (by decide +kernel) hp) fun l _ => ?_
  have ht' : RawField pkt t := ⟨d, n, hd, .inl ((C13_present d _).2.1 _ |>.1 ht)⟩
  exact .server (.inr rfl) (by decide +kernel) ⟨⟨by decide +kernel, .raw ht'⟩, ⟨by decide +kernel, .json _⟩, trivial⟩

theorem rawData_panic {r : Response} {p : Panic} (h : r.RawData = .panic p) : FieldPanic p := by
  unfold Response.RawData at h
  split at h
  · cases h
  · cases h1 : Dict.GetInteger (asMap r.body) b!"code" with
    | err e => rw [h1] at h; cases h
    | diverge => rw [h1] at h; cases h
    | panic q => rw [h1] at h; cases h; exact getInteger_panic (by decide +kernel) h1
    | ok c =>
      rw [h1] at h
      simp only [Res.bind_ok] at h
      cases h2 : Dict.GetString (asMap r.body) b!"msg" with
      | err e => rw [h2] at h; cases h
      | diverge => rw [h2] at h; cases h
      | panic q => rw [h2] at h; cases h; exact getString_panic (by decide +kernel) h2
      | ok m => rw [h2] at h; cases h

theorem keeps_body : LKeeps K C O pkt (packetBodyL K C O pkt) := by
  unfold packetBodyL
  cases hd : DecodeDictNoLimit pkt.bytes with
  | err e =>
    exact .server (.inr rfl) (by decide +kernel) ⟨⟨by decide +kernel, .addr _ (.inl rfl)⟩, ⟨by decide +kernel, .err _⟩, ⟨by decide +kernel, .num _⟩, trivial⟩
  | panic p => exact .panic (.inl ((C10_only_runtime_panics _ p).2.2.2 hd))
  | diverge => exact .diverge
  | ok x =>
    obtain ⟨d, n⟩ := x
    simp only
    split
    · exact .server (.inr rfl) (by decide +kernel) ⟨⟨by decide +kernel, .addr _ (.inl rfl)⟩, trivial⟩
    refine .liftBind (fun p hp => getString_panic (by decide +kernel) hp) fun y _ => ?_
    by_cases h1 : y = b!"q"
    · rw [if_pos h1]
      refine .bind (keeps_request hd) fun ret => ?_
      cases ret with
      | none => exact .panic (.inl rfl)
      | some r =>
        refine .liftBind (fun p hp => rawData_panic hp) fun raw _ => .get fun s => ?_
        cases hz : EncodeDict (some (O.order s.h.trace raw)) with
        | ok bytes =>
          exact .bind (keeps_send _ _ (.inl rfl)) fun _ => .server (.inl rfl) (by decide +kernel) ⟨⟨by decide +kernel, .addr _ (.inl rfl)⟩, ⟨by decide +kernel, .num _⟩, trivial⟩
        | err e =>
          refine .bind (.server (.inr rfl) (by decide +kernel) ⟨⟨by decide +kernel, .addr _ (.inl rfl)⟩, ⟨by decide +kernel, .jsonStr _⟩, trivial⟩) fun _ => ?_
          exact .bind (keeps_send _ _ (.inl rfl)) fun _ => .server (.inl rfl) (by decide +kernel) ⟨⟨by decide +kernel, .addr _ (.inl rfl)⟩, ⟨by decide +kernel, .num _⟩, trivial⟩
        | panic p => exact .panic (encode_panic hz)
        | diverge => exact .diverge
    rw [if_neg h1]
    by_cases h2 : y = b!"r"
    · rw [if_pos h2]; exact keeps_response hd
    rw [if_neg h2]
    by_cases h3 : y = b!"e"
    · rw [if_pos h3]; exact keeps_err hd
    rw [if_neg h3]
    exact .pure _
end

theorem logOk_packet {K : KEnv} {C : ConsoleEnv} {O : Oracle} {pkt : RecvPacket} {r : LoggedRun} (h : dhtPacketL K C O pkt = some r) :
    (∀ x ∈ r.logs, About K C O pkt x) ∧ OneEach (SendRec K C) (attempts r.run.trace) (udpRecords r.logs) := by
  have hk : LKeeps K C O pkt (GoM.recoverWith (packetBodyL K C O pkt) (fun p => do
      let s ← GoM.get
      serverLog .Error b!"recv packet handle panic"
        [(b!"from", lstr (addrString K.env pkt.addr)), (b!"err", panicVal C s.h.trace p), (b!"bytesLen", lint pkt.bytes.length)])) :=
    .recover keeps_body fun p hp => .get fun s => .log (by decide +kernel) (.packetPanic _ hp)
  have := hk { h := { resp := none, trace := [] }, logs := [] } ⟨fun r hr => (by cases hr), .nil⟩
  unfold dhtPacketL at h
  simp only at h
  cases hm : GoM.recoverWith (packetBodyL K C O pkt) (fun p => do
      let s ← GoM.get
      serverLog .Error b!"recv packet handle panic"
        [(b!"from", lstr (addrString K.env pkt.addr)), (b!"err", panicVal C s.h.trace p), (b!"bytesLen", lint pkt.bytes.length)])
      { h := { resp := none, trace := [] }, logs := [] } with
  | ok a s => rw [hm] at h this; cases h; exact ⟨this.about, this.sent⟩
  | panic p s => rw [hm] at h this; cases h; exact ⟨this.2.about, this.2.sent⟩
  | diverge => rw [hm] at h; cases h

/-- C90: **what can be in a record.** Every record about a packet is an informational or an error record of the loggers "server", "udp", "dht" with a fixed
text and fixed keys. Strings of the packet appear as they are only as transaction id, method and node id; everything else is a number, an address,
hexadecimal digits, JSON, or the text of an error that contains nothing of the packet. -/
theorem C90_sources {K : KEnv} {C : ConsoleEnv} {O : Oracle} {pkt : RecvPacket} {r : LoggedRun} (h : dhtPacketL K C O pkt = some r) :
    ∀ x ∈ r.logs, About K C O pkt x := (logOk_packet h).1

/-- C90: **one record per datagram.** The records of the logger "udp" are, in this order, one for each datagram handed to the kernel: with the destination
and the length if it was accepted, an error record if not. -/
theorem C90_sends {K : KEnv} {C : ConsoleEnv} {O : Oracle} {pkt : RecvPacket} {r : LoggedRun} (h : dhtPacketL K C O pkt = some r) :
    OneEach (SendRec K C) (attempts r.run.trace) (udpRecords r.logs) := (logOk_packet h).2

end P2P

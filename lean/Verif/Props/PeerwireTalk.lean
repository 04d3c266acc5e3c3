import Verif.Spec.Client
import Verif.Props.PeerwireTime
/-! # C74: the conversation of a download -/
namespace P2P

section
variable {fold : FoldTable} {peerId infoHash : Bytes}

/-- the download stands at `p` -/
abbrev At (fold : FoldTable) (peerId infoHash : Bytes) (p : Phase) (s : PSt) : Prop := Conversation fold peerId infoHash s.trace p

theorem talk_inv (p : Phase) : TraceInv (fun e => Phase.Step fold peerId infoHash p e p) (fun tr => Conversation fold peerId infoHash tr p) :=
  ⟨fun _ _ h he => h.step he⟩

theorem At.stop {p : Phase} {s : PSt} (h : At fold peerId infoHash p s)
    (hp : p = .idle ∨ p = .clock ∨ p = .prefixGot ∨ p = .msgGot) : At fold peerId infoHash .over s := h.skip (.stop p hp)

/-- a phase in which the download may give up -/
theorem Keeps.stops {α : Type} {m : PM α} {p : Phase} (h : Keeps (At fold peerId infoHash p) m)
    (hp : p = .idle ∨ p = .clock ∨ p = .prefixGot ∨ p = .msgGot) :
    Triple (At fold peerId infoHash p) m (fun _ => At fold peerId infoHash p) (At fold peerId infoHash .over) :=
  Triple.weaken h (fun _ h => h) (fun _ _ h => h) (fun _ h => h.stop hp)

theorem talk_connRead (E : PEnv) (b : Slice) (p q : Phase) (h0 : ∀ d, Phase.Step fold peerId infoHash p (.read b.len d false) q)
    (h1 : ∀ d, Phase.Step fold peerId infoHash p (.read b.len d true) .over) :
    Triple (At fold peerId infoHash p) (connRead E b) (fun r s => if r.2 = true then At fold peerId infoHash .over s else At fold peerId infoHash q s)
      (At fold peerId infoHash .over) := by
  intro s hs
  simp only [connRead, PM.bind_apply, others, PM.modify_apply, PM.get_apply, emitP, PM.pure_apply]
  cases (E.read s.trace b.len).2 with
  | true => simpa using hs.step (h1 _)
  | false => simpa using hs.step (h0 _)

theorem talk_connReadNew (E : PEnv) (n : Nat) (p q : Phase) (h0 : ∀ d, Phase.Step fold peerId infoHash p (.read n d false) q)
    (h1 : ∀ d, Phase.Step fold peerId infoHash p (.read n d true) .over) :
    Triple (At fold peerId infoHash p) (connReadNew E n) (fun r s => if r.2 = true then At fold peerId infoHash .over s else At fold peerId infoHash q s)
      (At fold peerId infoHash .over) := by
  intro s hs
  simp only [connReadNew, PM.bind_apply, others, PM.modify_apply, PM.get_apply, emitP, PM.pure_apply]
  cases (E.read s.trace n).2 with
  | true => simpa using hs.step (h1 _)
  | false => simpa using hs.step (h0 _)

theorem talk_connWrite (E : PEnv) (d : Bytes) (p q : Phase) (h0 : Phase.Step fold peerId infoHash p (.write d false) q)
    (h1 : Phase.Step fold peerId infoHash p (.write d true) .over) :
    Triple (At fold peerId infoHash p) (connWrite E d) (fun r s => if r = true then At fold peerId infoHash .over s else At fold peerId infoHash q s)
      (At fold peerId infoHash .over) := by
  intro s hs
  simp only [connWrite, PM.bind_apply, others, PM.modify_apply, PM.get_apply, emitP, PM.pure_apply]
  cases E.writeFails s.trace with
  | true => simpa using hs.step h1
  | false => simpa using hs.step h0

theorem triple_if {β : Type} {c : Bool} {A B : PSt → Prop} {m n : PM β} {Q : β → PSt → Prop} {X : PSt → Prop}
    (h1 : Triple A m Q X) (h2 : Triple B n Q X) : Triple (fun s => if c = true then A s else B s) (if c = true then m else n) Q X := by
  cases c with
  | true => simpa using h1
  | false => simpa using h2

theorem listing_one {a : Bytes} {x : Int} {w : Entries} (h : Listing (.dict [(a, .int x)]) (.dict w)) : w = [(a, .int x)] := by
  obtain ⟨hw, hd⟩ := h
  have ha : w.lookup a = some (.int x) := by
    obtain ⟨v, h1, h2⟩ := deepEq_dict_lookup hd a (.int x) (by simp)
    cases h2; exact h1
  have hall : ∀ k v, (k, v) ∈ w → k = a := by
    intro k v hk
    have h1 := lookup_of_mem hw.1 hk
    obtain ⟨v', h2, _⟩ := deepEq_dict_lookup hd.symm k v h1
    by_cases hka : k = a
    · exact hka
    · simp [List.lookup_cons, beq_eq_false_iff_ne.2 hka] at h2
  match w, hw.1 with
  | [], _ => simp at ha
  | [(k, v)], _ =>
    have := hall k v (by simp)
    subst this
    simp at ha
    rw [ha]
  | (k, v) :: (k', v') :: r, hn =>
    exfalso
    have h1 := hall k v (by simp)
    have h2 := hall k' v' (by simp)
    simp [h1, h2] at hn

/-- the exact bytes of a request -/
theorem request_bytes (order : Entries → Entries) (ho : OrderOK order) (i : Nat) (hi : i < 2 ^ 63) :
    ∃ w, withExtendedFetchMetaMsg order 1 ExRequest i 0 [] = .ok w ∧ IsPieceRequest i w := by
  have hi64 : IsInt64 (i : Int) := by unfold IsInt64; omega
  have hl := ho [(b!"msg_type", .int ExRequest), (b!"piece", .int i)] (by simp [GoVal.WF, GoVal.WFD, ExRequest, hi64]; decide)
  have hn8 : natDec 8 = b!"8" := by decide
  have hn5 : natDec 5 = b!"5" := by decide
  have hn0 : natDec 0 = b!"0" := by decide
  rcases listing_two (by decide) hl with hw | hw
  · refine ⟨_, ?_, .inl rfl⟩
    simp only [withExtendedFetchMetaMsg, ExFetchMeta.Bytes, ExFetchMeta.dict, List.length_nil, Nat.lt_irrefl, if_false, gt_iff_lt]
    rw [hw]
    simp [EncodeDict, encodeItem, encodeEntries, framedMsg, EncodeString, EncodeInteger, itoa, ExRequest, hn8, hn5, hn0, ExtendedPeerMsg]
    congr 1; omega
  · refine ⟨_, ?_, .inr rfl⟩
    simp only [withExtendedFetchMetaMsg, ExFetchMeta.Bytes, ExFetchMeta.dict, List.length_nil, Nat.lt_irrefl, if_false, gt_iff_lt]
    rw [hw]
    simp [EncodeDict, encodeItem, encodeEntries, framedMsg, EncodeString, EncodeInteger, itoa, ExRequest, hn8, hn5, hn0, ExtendedPeerMsg]
    congr 1; omega

theorem hello_bytes (order : Entries → Entries) (ho : OrderOK order) :
    withExtendedhandShake order (some [(b!"ut_metadata", .int 1)]) none = .ok extendedHelloMsg := by
  obtain ⟨hw, hd⟩ := ho [(b!"m", .dict [(b!"ut_metadata", .int 1)])] (by simp [GoVal.WF, GoVal.WFD]; decide)
  generalize hx : order [(b!"m", .dict [(b!"ut_metadata", .int 1)])] = w at hw hd
  have hone : w = [(b!"m", .dict [(b!"ut_metadata", .int 1)])] := by
    obtain ⟨v, h1, h2⟩ := deepEq_dict_lookup hd b!"m" (.dict [(b!"ut_metadata", .int 1)]) (by simp)
    have hall : ∀ k v, (k, v) ∈ w → k = b!"m" := by
      intro k v hk
      have h1 := lookup_of_mem hw.1 hk
      obtain ⟨v', h2, _⟩ := deepEq_dict_lookup hd.symm k v h1
      by_cases hka : k = b!"m"
      · exact hka
      · simp [List.lookup_cons, beq_eq_false_iff_ne.2 hka] at h2
    match w, hw.1 with
    | [], _ => simp at h1
    | [(k, v')], _ =>
      have := hall k v' (by simp)
      subst this
      simp at h1
      subst h1
      cases v' with
      | dict w' =>
        rw [listing_one ⟨by simpa [GoVal.WF, GoVal.WFD] using hw.2, h2⟩]
      | _ => cases h2
    | (k, v) :: (k', v') :: r, hn =>
      exfalso
      have h1 := hall k v (by simp)
      have h2 := hall k' v' (by simp)
      simp [h1, h2] at hn
  simp only [withExtendedhandShake, exHandShakeBytes, NewBaseExHandShakeMsg, Option.getD_none]
  have : dictPut [] b!"m" (GoVal.dict [(b!"ut_metadata", .int 1)]) = [(b!"m", .dict [(b!"ut_metadata", .int 1)])] := by decide
  rw [this, hx, hone]
  decide +kernel

theorem talk_requestLoop (E : PEnv) (ho : ∀ tr, OrderOK (E.order tr)) (n : Nat) : ∀ i N, i + n = N → N ≤ 2 ^ 63 →
    Triple (At fold peerId infoHash (.asking i N)) (requestLoop E n i) (fun _ => At fold peerId infoHash .idle) (At fold peerId infoHash .over) := by
  induction n with
  | zero =>
    intro i N h _
    obtain rfl : i = N := by omega
    exact Triple.pure fun s hs => hs.skip (.asked _)
  | succ n ih =>
    intro i N h hN
    refine Triple.bind (Q := fun a s => At fold peerId infoHash (.asking i N) s) (fun s hs => hs) fun s => ?_
    obtain ⟨w, hw, hreq⟩ := request_bytes (E.order s.trace) (ho _) i (by omega)
    rw [hw]
    refine Triple.bind_ok (Triple.bind (talk_connWrite E w _ (.asking (i + 1) N) (.request _ _ _ (by omega) hreq) (.requestFails _ _ _ (by omega) hreq)) fun f => ?_)
    exact triple_if (Triple.lift (fun a s h _ => by cases h) fun _ h => h) (ih (i + 1) N (by omega) hN)

theorem pieceCount_neg {z : Int} (hz : z < 0) (h : ¬ pieceCount z < 0) : -16384 < z ∧ pieceCount z = 0 := by
  have h1 : Int.tdiv z 16384 = -((-z) / 16384) := by
    rw [← Int.tdiv_eq_ediv_of_nonneg (by omega), Int.neg_tdiv, Int.neg_neg]
  have h2 : Int.tmod z 16384 = -((-z) % 16384) := by
    rw [← Int.tmod_eq_emod_of_nonneg (by omega), Int.neg_tmod, Int.neg_neg]
  have h3 : pieceCount z = if Int.tmod z 16384 > 0 then Int.tdiv z 16384 + 1 else Int.tdiv z 16384 := rfl
  have h4 : ¬ (-(-z % 16384) > 0) := by omega
  rw [h1, h2, if_neg h4] at h3
  omega

theorem talk_handleExtendedMsg (E : PEnv) (ho : ∀ tr, OrderOK (E.order tr)) (rb : Slice) (data : Bytes) :
    Triple (At fold peerId infoHash .msgGot) (handleExtendedMsg E rb data) (fun _ => At fold peerId infoHash .idle) (At fold peerId infoHash .over) := by
  have hstop : ∀ s, At fold peerId infoHash .msgGot s → At fold peerId infoHash .over s := fun s h => h.stop (by simp)
  have hmk : ∀ n w, Triple (At fold peerId infoHash .msgGot) (makeSized E n (w + 1))
      (fun _ s => At fold peerId infoHash .msgGot s ∧ ¬ n < 0 ∧ n.toNat ≤ 2 ^ 48) (At fold peerId infoHash .over) := by
    intro n w
    refine Triple.ite (fun _ => Triple.panic hstop) fun hn => Triple.ite (fun _ => Triple.panic hstop) fun h => ?_
    have hle : n.toNat ≤ 2 ^ 48 := by
      have h' : ¬ n.toNat * (w + 1) > 2 ^ 48 := h
      exact Nat.le_trans (Nat.le_mul_of_pos_right n.toNat (Nat.succ_pos w)) (Nat.not_lt.1 h')
    refine Triple.bind (Q := fun _ => At fold peerId infoHash .msgGot) (fun s hs => hs.step (.alloc _)) fun _ =>
      Triple.bind (Q := fun _ => At fold peerId infoHash .msgGot) (fun s hs => hs) fun _ => ?_
    exact Triple.ite (fun _ s hs => hstop s hs) fun _ => Triple.pure fun s hs => ⟨hs, hn, hle⟩
  unfold handleExtendedMsg
  cases data[1]? with
  | none => exact Triple.panic hstop
  | some id =>
    refine Triple.ite (fun _ => ?_) fun _ => Triple.ite (fun _ => ?_) fun _ => Triple.pure fun s h => h.skip .ignored
    · refine Triple.bind (Q := fun _ => At fold peerId infoHash .msgGot) (Triple.lift (fun _ _ _ h => h) hstop) fun dict => ?_
      refine Triple.ite (fun _ => Triple.lift (fun _ _ h _ => by cases h) hstop) fun _ => ?_
      refine Triple.bind (Q := fun _ => At fold peerId infoHash .msgGot) (Triple.lift (fun _ _ _ h => h) hstop) fun z => ?_
      refine Triple.bind (Q := fun _ => At fold peerId infoHash .msgGot) (fun s hs => hs) fun _ => ?_
      refine Triple.bind (hmk _ 23) fun _ => Triple.bind (Q := fun _ => At fold peerId infoHash .msgGot) (fun s hs => hs.1) fun _ => ?_
      refine Triple.bind (hmk _ 0) fun _ => ?_
      refine Triple.bind (Q := fun _ s => At fold peerId infoHash .msgGot s ∧ ¬ pieceCount z < 0 ∧ (pieceCount z).toNat ≤ 2 ^ 48) (fun s hs => hs) fun _ => ?_
      refine Triple.bind (Q := fun _ s => At fold peerId infoHash (.asking 0 (pieceCount z).toNat) s ∧ (pieceCount z).toNat ≤ 2 ^ 48) ?_ fun _ => ?_
      · intro s hs
        refine ⟨?_, hs.2.2⟩
        by_cases hz : 0 ≤ z
        · have := Conversation.step hs.1 (.announced z hz)
          rw [C42_piece_count z hz]; exact this
        · obtain ⟨g1, g2⟩ := pieceCount_neg (by omega) hs.2.1
          have := Conversation.step hs.1 (.announcedNone z ⟨g1, by omega⟩)
          rw [g2]; exact this
      · intro s hs
        exact talk_requestLoop E ho (pieceCount z).toNat 0 _ (by omega) (by omega) s hs.1
    · refine Triple.bind (Q := fun _ => At fold peerId infoHash .msgGot) (Triple.lift (fun _ _ _ h => h) hstop) fun r => ?_
      refine Triple.ite (fun _ => Triple.pure fun s h => h.skip .ignored) fun _ => ?_
      refine Triple.bind (Q := fun _ => At fold peerId infoHash .msgGot) (fun s hs => hs) fun s => ?_
      dsimp only
      split
      · exact Triple.panic hstop
      · refine Triple.bind (Q := fun _ => At fold peerId infoHash .msgGot) (fun s hs => hs) fun _ => ?_
        split
        · exact Triple.panic hstop
        · refine Triple.bind (Q := fun _ => At fold peerId infoHash .msgGot) (fun s hs => hs) fun _ => ?_
          exact fun s hs => Conversation.step hs (.piece _)

/-- where the download stands after `readBytesByPrefixLenMsg` -/
def TalkRead (fold : FoldTable) (peerId infoHash : Bytes) (r : Bool × Option Slice × Bool) (s : PSt) : Prop :=
  (r.1 = true → At fold peerId infoHash .idle s) ∧ (r.1 = false → r.2.2 = true → At fold peerId infoHash .over s) ∧
  (r.1 = false → r.2.2 = false → At fold peerId infoHash .msgGot s)

theorem talk_readBytes (E : PEnv) :
    Triple (At fold peerId infoHash .clock) (readBytesByPrefixLenMsg E) (TalkRead fold peerId infoHash) (At fold peerId infoHash .over) := by
  unfold readBytesByPrefixLenMsg
  refine Triple.bind (Keeps.stops (keeps_poolGet (talk_inv _) E _ fun b => .get _ b (by simp)) (by simp)) fun b => ?_
  refine Triple.bind (talk_connRead E b _ .prefixGot (fun d => .readPrefix _ d) (fun d => .noPrefix _ d)) fun r => ?_
  refine triple_if (Triple.pure fun s h => ⟨by simp, fun _ _ => h, by simp⟩) ?_
  unfold readAfterPrefix
  refine Triple.bind (Keeps.stops (keeps_loadSlice (J := fun tr => Conversation fold peerId infoHash tr .prefixGot) E b fun _ h => h.step (.load _ (by simp))) (by simp)) fun pre => Triple.ite (fun _ => Triple.panic fun _ h => h.stop (by simp)) fun _ => ?_
  refine Triple.ite (fun _ => Triple.pure fun s h => ⟨fun _ => h.skip .keepAlive, by simp, by simp⟩) fun _ => ?_
  refine Triple.bind (Keeps.stops (keeps_poolPut (talk_inv _) E b (.put _ b (by simp))) (by simp)) fun _ => ?_
  refine Triple.ite (fun _ => Triple.pure fun s h => ⟨by simp, fun _ _ => h.stop (by simp), by simp⟩) fun _ => ?_
  refine Triple.bind (Keeps.stops (keeps_poolGet (talk_inv _) E _ fun b => .get _ b (by simp)) (by simp)) fun buf => ?_
  refine Triple.bind (talk_connRead E buf _ .msgGot (fun d => .readBody _ d) (fun d => .noBody _ d)) fun r => ?_
  exact triple_if (Triple.pure fun s h => ⟨by simp, fun _ _ => h, by simp⟩)
    (Triple.pure fun s h => ⟨by simp, by simp, fun _ _ => h⟩)

theorem talk_handleMsg (E : PEnv) (ho : ∀ tr, OrderOK (E.order tr)) (r : Bool × Option Slice × Bool) :
    Triple (TalkRead fold peerId infoHash r) (handleMsg E r.1 r.2.1 r.2.2) (fun _ => At fold peerId infoHash .idle) (At fold peerId infoHash .over) := by
  obtain ⟨ka, rb, er⟩ := r
  unfold handleMsg
  cases ka with
  | true => exact Triple.pure fun s h => h.1 rfl
  | false =>
    cases er with
    | true => exact fun s h => h.2.1 rfl rfl
    | false =>
      simp only [Bool.false_eq_true, if_false]
      refine Triple.weaken (I := At fold peerId infoHash .msgGot) (Q := fun _ => At fold peerId infoHash .idle) (X := At fold peerId infoHash .over) ?_
        (fun s h => h.2.2 rfl rfl) (fun _ _ h => h) (fun _ h => h)
      cases rb with
      | none => exact Triple.panic fun s h => h.stop (by simp)
      | some rb =>
        refine Triple.bind (Keeps.stops (keeps_loadSlice (J := fun tr => Conversation fold peerId infoHash tr .msgGot) E rb fun _ h => h.step (.load _ (by simp))) (by simp)) fun data => ?_
        refine Triple.bind (Keeps.stops (Keeps.lift _) (by simp)) fun t => ?_
        exact Triple.ite (fun _ => talk_handleExtendedMsg E ho rb data) fun _ => Triple.pure fun s h => h.skip .ignored

theorem talk_handler (E : PEnv) (ho : ∀ tr, OrderOK (E.order tr)) :
    Triple (At fold peerId infoHash .clock) (readMetaDataHandler E) (fun _ => At fold peerId infoHash .idle) (At fold peerId infoHash .over) := by
  unfold readMetaDataHandler
  refine Triple.bind (talk_readBytes E) fun r => ?_
  exact Triple.deferred (talk_handleMsg E ho r) (fun _ => Keeps.stops (keeps_putBack (talk_inv _) E (fun b => .put _ b (by simp)) _) (by simp))
    (keeps_putBack (talk_inv _) E (fun b => .put _ b (by simp)) _) fun _ h => h

theorem talk_loop (E : PEnv) (ho : ∀ tr, OrderOK (E.order tr)) (f : Nat) :
    Triple (At fold peerId infoHash .idle) (readMetaDataLoop E f) (fun _ => At fold peerId infoHash .over) (At fold peerId infoHash .over) := by
  induction f with
  | zero => exact fun s hs => At.stop hs (by simp)
  | succ f ih =>
    intro s hs
    unfold readMetaDataLoop
    simp only [PM.bind_apply, PM.get_apply]
    cases hc : CompledMetaData s with
    | true => exact At.stop hs (by simp)
    | false =>
      simp only [Bool.false_eq_true, if_false, PM.bind_apply, IsReadLoopExpire, PM.get_apply, emitP, PM.modify_apply, PM.pure_apply]
      cases he : E.expired s.trace with
      | true => exact hs.step .timeOver
      | false =>
        simp only [Bool.false_eq_true, if_false]
        exact (Triple.bind (talk_handler E ho) fun _ => ih) { s with trace := s.trace ++ [.expired false] } (hs.step .timeLeft)

theorem talk_hello (E : PEnv) :
    Triple (At fold peerId infoHash .helloSent) (connReadNew E handShakeLen)
      (fun r s => if r.2 = true then At fold peerId infoHash .over s else
        r.1.length = 68 ∧ (GoodHello fold r.1 → At fold peerId infoHash .helloGot s) ∧ (¬ GoodHello fold r.1 → At fold peerId infoHash .over s))
      (At fold peerId infoHash .over) := by
  intro s hs
  simp only [connReadNew, PM.bind_apply, others, PM.modify_apply, PM.get_apply, emitP, PM.pure_apply]
  cases (E.read s.trace handShakeLen).2 with
  | true => exact hs.step (.notAnswered _)
  | false =>
    generalize hd : (E.read s.trace handShakeLen).1.take handShakeLen = d
    have hl : d.length ≤ 68 := by rw [← hd, List.length_take]; exact Nat.min_le_left _ _
    refine ⟨by simp [handShakeLen]; omega, fun h => hs.step (.answered d h), fun h => hs.step (.badAnswer d h)⟩

/-- the checks of the handshake (dht/peerwire/bep9.go:274-283) -/
theorem hello_check (fold : FoldTable) {x : Bytes} (hx : x.length = 68) (s : PSt) :
    ((do
      let resp ← PM.lift (parseHandShakeMsg x [])
      if ¬ equalFold fold supportProtocolName resp.protocol then PM.lift (logPanic b!"get handshake not support bittoroute protocol")
      else do
        let ext ← PM.lift resp.SupportExtended
        if ¬ ext then PM.lift (logPanic b!"get handshake not support extended protocol") else pure () : PM Unit) s = .ok () s ∧ GoodHello fold x) ∨
    ((∃ p, (do
      let resp ← PM.lift (parseHandShakeMsg x [])
      if ¬ equalFold fold supportProtocolName resp.protocol then PM.lift (logPanic b!"get handshake not support bittoroute protocol")
      else do
        let ext ← PM.lift resp.SupportExtended
        if ¬ ext then PM.lift (logPanic b!"get handshake not support extended protocol") else pure () : PM Unit) s = .panic p s) ∧ ¬ GoodHello fold x) := by
  obtain ⟨c, hc⟩ : ∃ c, x[0]? = some c := ⟨x[0], by simp⟩
  have hp := C38_parse x [] c hx hc
  by_cases h19 : c.toNat ≤ 19
  · rw [if_pos (by simpa using h19)] at hp
    obtain ⟨c', b, hc', hb, hs⟩ := C38_support_extended x [] _ hx hp
    rw [hc] at hc'
    cases hc'
    rw [hp]
    simp only [List.append_nil] at hb hs hp ⊢
    have hsl : slice x 1 (1 + c.toNat) = (x.drop 1).take c.toNat := by simp [slice]
    rw [PM.bind_apply, PM.lift_ok]
    dsimp only
    rw [hsl] at hs ⊢
    by_cases hf : equalFold fold supportProtocolName ((x.drop 1).take c.toNat) = true
    · rw [if_neg (fun h => h hf), PM.bind_apply, hs, PM.lift_ok]
      cases hbit : b.toNat.testBit 4 with
      | true => exact .inl ⟨rfl, c, b, hc, h19, hf, hb, hbit⟩
      | false =>
        refine .inr ⟨⟨_, rfl⟩, ?_⟩
        rintro ⟨c', b', g1, g2, g3, g4, g5⟩
        rw [hc] at g1; cases g1
        rw [hb] at g4; cases g4
        rw [hbit] at g5; cases g5
    · rw [if_pos hf]
      refine .inr ⟨⟨_, rfl⟩, ?_⟩
      rintro ⟨c', b', g1, g2, g3, g4, g5⟩
      rw [hc] at g1; cases g1
      exact hf g3
  · rw [if_neg (by simpa using h19)] at hp
    rw [hp]
    refine .inr ⟨⟨_, rfl⟩, ?_⟩
    rintro ⟨c', b', g1, g2, g3, g4, g5⟩
    rw [hc] at g1; cases g1
    exact h19 g2

theorem talk_fetchBody (E : PEnv) (ho : ∀ tr, OrderOK (E.order tr)) (sha1 : Bytes → Bytes) (fuel : Nat) :
    Triple (At fold peerId infoHash .start) (fetchBody E sha1 fold fuel peerId infoHash) (fun _ => At fold peerId infoHash .over) (At fold peerId infoHash .over) := by
  unfold fetchBody
  refine Triple.bind (Q := fun _ => At fold peerId infoHash .helloGot) ?_ fun _ => ?_
  · unfold handshakePeer
    by_cases hl : peerId.length = 20 ∧ infoHash.length = 20
    · rw [C38_wire_format peerId infoHash hl.1 hl.2]
      refine Triple.bind_ok (Triple.bind (talk_connWrite E _ _ .helloSent .hello .helloFails) fun f => ?_)
      refine triple_if (Triple.lift (fun a s h _ => by cases h) fun _ h => h) ?_
      refine Triple.bind (talk_hello E) fun r => triple_if (Triple.lift (fun a s h _ => by cases h) fun _ h => h) ?_
      intro s hs
      rcases hello_check fold hs.1 s with ⟨h1, h2⟩ | ⟨⟨p, h1⟩, h2⟩
      · rw [h1]; exact hs.2.1 h2
      · rw [h1]; exact hs.2.2 h2
    · have : withHandShakeMsg peerId infoHash = .panic (.str b!"wrong peerId or infohash") := C38_build_panics _ _ (by omega)
      rw [this]
      exact fun s hs => hs.skip (.badIds (by omega))
  · refine Triple.bind (Q := fun _ => At fold peerId infoHash .idle) ?_ fun _ => Triple.bind (talk_loop E ho fuel) fun _ => ?_
    · unfold initialMessages
      refine Triple.bind (Q := fun _ => At fold peerId infoHash .helloGot) (fun s hs => hs) fun s => ?_
      rw [hello_bytes _ (ho s.trace)]
      refine Triple.bind_ok (Triple.bind (talk_connWrite E _ _ .idle .extended .extendedFails) fun f => ?_)
      exact triple_if (Triple.lift (fun a s h _ => by cases h) fun _ h => h) (Triple.pure fun _ h => h)
    · refine Keeps.bind Keeps.get fun s => Keeps.ite (Keeps.pure _) ?_
      refine Keeps.bind (keeps_makeSized (talk_inv _) E _ _ fun n => .result n) fun _ =>
        Keeps.bind (keeps_mergeLoop (J := fun tr => Conversation fold peerId infoHash tr .over) E (fun _ h => h.step (.load _ (by simp))) _ _ _) fun r => Keeps.ite (Keeps.pure _) (Keeps.pure _)

/-- C74: whatever the peer does, the interactions of a download that returns are a conversation as specified, up to the closing of the connection. -/
theorem C74_conversation (E : PEnv) (ho : ∀ tr, OrderOK (E.order tr)) (sha1 : Bytes → Bytes) (fuel : Nat)
    (mem : Nat → Bytes) (pool : BPool) (ret err : Option Bytes) (s : PSt)
    (h : FetchMetaData E sha1 fold fuel peerId infoHash mem pool = .returned ret err s) : Conversation fold peerId infoHash s.trace .closed := by
  have := talk_fetchBody (fold := fold) (peerId := peerId) (infoHash := infoHash) E ho sha1 fuel (NewPeerConn mem pool) .start
  unfold FetchMetaData at h
  by_cases hd : E.dialFails = true
  · rw [if_pos hd] at h; cases h
  · rw [if_neg hd] at h
    cases hb : fetchBody E sha1 fold fuel peerId infoHash (NewPeerConn mem pool) with
    | ok r t =>
      rw [hb] at h this
      obtain ⟨r1, r2⟩ := r
      simp only [emitP, PM.modify_apply, FetchOut.returned.injEq] at h
      obtain ⟨-, -, rfl⟩ := h
      exact Conversation.step this .close
    | panic p t =>
      rw [hb] at h this
      simp only [emitP, PM.modify_apply, FetchOut.returned.injEq] at h
      obtain ⟨-, -, rfl⟩ := h
      exact Conversation.step this .close
    | fatal t => rw [hb] at h; cases h
    | diverge t => rw [hb] at h; cases h

/-- C74: likewise for calls that have not ended or that end with the process. -/
theorem C74_conversation_always (E : PEnv) (ho : ∀ tr, OrderOK (E.order tr)) (sha1 : Bytes → Bytes) (fuel : Nat)
    (mem : Nat → Bytes) (pool : BPool) (s : PSt)
    (h : (FetchMetaData E sha1 fold fuel peerId infoHash mem pool).state = some s) : ∃ p, Conversation fold peerId infoHash s.trace p := by
  have := talk_fetchBody (fold := fold) (peerId := peerId) (infoHash := infoHash) E ho sha1 fuel (NewPeerConn mem pool) .start
  unfold FetchMetaData at h
  by_cases hd : E.dialFails = true
  · rw [if_pos hd] at h; cases h
  · rw [if_neg hd] at h
    cases hb : fetchBody E sha1 fold fuel peerId infoHash (NewPeerConn mem pool) with
    | ok r t =>
      rw [hb] at h this
      obtain ⟨r1, r2⟩ := r
      simp only [emitP, PM.modify_apply, FetchOut.state, Option.some.injEq] at h
      subst h
      exact ⟨_, Conversation.step this .close⟩
    | panic p t =>
      rw [hb] at h this
      simp only [emitP, PM.modify_apply, FetchOut.state, Option.some.injEq] at h
      subst h
      exact ⟨_, Conversation.step this .close⟩
    | fatal t => rw [hb] at h this; cases h; exact ⟨_, this⟩
    | diverge t => rw [hb] at h this; cases h; exact ⟨_, this⟩

/-! ## What the conversation says -/

/-- buffers and memory only -/
def Quiet : PEvent → Prop
  | .put _ => True
  | .alloc _ => True
  | .close => True
  | .load => True
  | _ => False

/-- a step out of `over` or `closed` -/
theorem step_over {p q : Phase} {e : PEvent} (h : Phase.Step fold peerId infoHash p e q) (hp : p = .over ∨ p = .closed) :
    Quiet e ∧ (q = .over ∨ q = .closed) := by
  rcases hp with rfl | rfl <;> cases h <;> simp_all [Quiet]

theorem skip_over {p q : Phase} (h : Phase.Skip peerId infoHash p q) (hp : p = .over ∨ p = .closed) : False := by
  rcases hp with rfl | rfl <;> cases h <;> simp_all

/-- C74: after a read, a write or the clock has failed, nothing is read or written any more. -/
theorem C74_failure_ends {tr : List PEvent} {p : Phase} (h : Conversation fold peerId infoHash tr p) :
    ∀ pre post e, tr = pre ++ e :: post → ((∃ n d, e = .read n d true) ∨ (∃ d, e = .write d true) ∨ e = .expired true) →
      (∀ e' ∈ post, Quiet e') ∧ (p = .over ∨ p = .closed) := by
  induction h with
  | start => intro pre post e h; simp at h
  | step hc hs ih =>
    intro pre post e he hf
    rcases List.eq_nil_or_concat post with rfl | ⟨post', e', rfl⟩
    · obtain ⟨rfl, h2⟩ := List.append_inj' he rfl
      cases h2
      refine ⟨by simp, ?_⟩
      rcases hf with ⟨n, d, rfl⟩ | ⟨d, rfl⟩ | rfl <;> cases hs <;> simp
    · have : pre ++ e :: (post' ++ [e']) = (pre ++ e :: post') ++ [e'] := by simp
      rw [List.concat_eq_append, this] at he
      obtain ⟨h1, h2⟩ := List.append_inj' he rfl
      cases h2
      obtain ⟨g1, g2⟩ := ih pre post' e h1 hf
      obtain ⟨g3, g4⟩ := step_over hs g2
      refine ⟨fun x hx => ?_, g4⟩
      simp at hx
      rcases hx with hx | rfl
      · exact g1 x hx
      · exact g3
  | skip hc hs ih =>
    intro pre post e he hf
    obtain ⟨g1, g2⟩ := ih pre post e he hf
    exact absurd hs fun hs => skip_over hs g2

/-- requests for the pieces `0, 1, ...`, all written without an error -/
def AskedFor (reqs : List Bytes) (evs : List PEvent) : Prop :=
  evs = reqs.map (fun w => .write w false) ∧ ∀ (j : Nat) w, reqs[j]? = some w → IsPieceRequest j w

theorem AskedFor.snoc {reqs : List Bytes} {evs : List PEvent} {w : Bytes} (h : AskedFor reqs evs) (hw : IsPieceRequest reqs.length w) :
    AskedFor (reqs ++ [w]) (evs ++ [.write w false]) := by
  refine ⟨by simp [h.1], fun j w' hj => ?_⟩
  rw [List.getElem?_append] at hj
  split at hj
  · exact h.2 j w' hj
  · rename_i hlt
    rw [List.getElem?_singleton] at hj
    split at hj
    · cases hj
      have : j = reqs.length := by omega
      rw [this]; exact hw
    · cases hj

/-- C74: an accepted announcement of `z` bytes is followed, immediately and in order, by the requests for its `⌈z / 16384⌉` pieces, unless one of
them cannot be written, which ends the download, or the conversation has not come further yet. -/
theorem C74_requests {tr : List PEvent} {p : Phase} (h : Conversation fold peerId infoHash tr p) :
    ∀ pre post z, tr = pre ++ .announced z :: post → 0 ≤ z → ∃ (reqs : List Bytes) (rest : List PEvent), post = reqs.map (fun w => .write w false) ++ rest ∧
      (∀ (j : Nat) w, reqs[j]? = some w → IsPieceRequest j w) ∧
      ((reqs.length : Int) = (z + 16383) / 16384 ∨
       (reqs.length : Int) < (z + 16383) / 16384 ∧
        (rest = [] ∧ p = .asking reqs.length ((z + 16383) / 16384).toNat ∨
         ∃ w rest', rest = .write w true :: rest' ∧ IsPieceRequest reqs.length w ∧ ∀ e ∈ rest', Quiet e)) := by
  have key : ∀ pre post z, tr = pre ++ .announced z :: post → 0 ≤ z → ∃ (reqs : List Bytes) (rest : List PEvent), post = reqs.map (fun w => .write w false) ++ rest ∧
      (∀ (j : Nat) w, reqs[j]? = some w → IsPieceRequest j w) ∧
      (reqs.length = ((z + 16383) / 16384).toNat ∧ (rest = [] → p = .asking reqs.length ((z + 16383) / 16384).toNat ∨ p = .idle ∨ p = .over) ∨
       reqs.length < ((z + 16383) / 16384).toNat ∧
        (rest = [] ∧ p = .asking reqs.length ((z + 16383) / 16384).toNat ∨
         (p = .over ∨ p = .closed) ∧ ∃ w rest', rest = .write w true :: rest' ∧ IsPieceRequest reqs.length w ∧ ∀ e ∈ rest', Quiet e)) := by
    induction h with
    | start => intro pre post z h; simp at h
    | @step tr0 p0 q0 e0 hc hs ih =>
      intro pre post z he hz
      rcases List.eq_nil_or_concat post with rfl | ⟨post', e', rfl⟩
      · obtain ⟨rfl, h2⟩ := List.append_inj' he rfl
        cases h2
        generalize hn : ((z + 16383) / 16384).toNat = n
        have hq : q0 = .asking 0 n := by
          cases hs with
          | announced _ _ => rw [hn]
          | announcedNone _ h => omega
        subst hq
        refine ⟨[], [], rfl, by simp, ?_⟩
        by_cases h0 : n = 0
        · exact .inl ⟨by simp [h0], fun _ => .inl rfl⟩
        · exact .inr ⟨by simp; omega, .inl ⟨rfl, rfl⟩⟩
      · have : pre ++ .announced z :: (post' ++ [e']) = (pre ++ .announced z :: post') ++ [e'] := by simp
        rw [List.concat_eq_append, this] at he
        obtain ⟨h1, h2⟩ := List.append_inj' he rfl
        cases h2
        obtain ⟨reqs, rest, g1, g2, g3⟩ := ih pre post' z h1 hz
        generalize hn : ((z + 16383) / 16384).toNat = n at *
        rcases g3 with ⟨g3, g4⟩ | ⟨g3, ⟨rfl, rfl⟩ | ⟨hp, w, rest', rfl, g5, g6⟩⟩
        · refine ⟨reqs, rest ++ [e0], by simp [g1], g2, .inl ⟨g3, by simp⟩⟩
        · -- a request or a failing one
          cases hs with
          | request _ _ w hlt hw =>
            have hA : AskedFor (reqs ++ [w]) (post' ++ [.write w false]) := AskedFor.snoc ⟨by simpa using g1, g2⟩ hw
            refine ⟨reqs ++ [w], [], by simpa using hA.1, hA.2, ?_⟩
            by_cases heq : reqs.length + 1 = n
            · exact .inl ⟨by simpa using heq, fun _ => .inl (by simp)⟩
            · exact .inr ⟨by simp; omega, .inl ⟨rfl, by simp⟩⟩
          | requestFails _ _ w hlt hw =>
            exact ⟨reqs, [.write w true], by simp [g1], g2, .inr ⟨g3, .inr ⟨.inl rfl, w, [], rfl, hw, by simp⟩⟩⟩
          | get _ _ h => simp at h
          | put _ _ h => simp at h
          | load _ h => simp at h
        · obtain ⟨k1, k2⟩ := step_over hs hp
          refine ⟨reqs, .write w true :: (rest' ++ [e0]), by simp [g1], g2, .inr ⟨g3, .inr ⟨k2, w, rest' ++ [e0], by simp, g5, fun x hx => ?_⟩⟩⟩
          simp at hx
          rcases hx with hx | rfl
          · exact g6 x hx
          · exact k1
    | skip hc hs ih =>
      intro pre post z he hz
      obtain ⟨reqs, rest, g1, g2, g3⟩ := ih pre post z he hz
      refine ⟨reqs, rest, g1, g2, ?_⟩
      generalize hn : ((z + 16383) / 16384).toNat = n at *
      rcases g3 with ⟨g3, g4⟩ | ⟨g3, ⟨rfl, rfl⟩ | ⟨hp, w, rest', rfl, g5, g6⟩⟩
      · refine .inl ⟨g3, fun hr => ?_⟩
        rcases g4 hr with rfl | rfl | rfl
        · cases hs with
          | asked _ => simp
          | stop _ h => simp
        · cases hs with
          | stop _ h => simp
        · cases hs with
          | stop _ h => simp
      · cases hs with
        | asked _ => omega
        | stop _ h => simp at h
      · exact absurd hs fun hs => skip_over hs hp
  intro pre post z he hz
  obtain ⟨reqs, rest, g1, g2, g3⟩ := key pre post z he hz
  refine ⟨reqs, rest, g1, g2, ?_⟩
  rcases g3 with ⟨g3, -⟩ | ⟨g3, ⟨g4, g5⟩ | ⟨-, g4⟩⟩
  · exact .inl (by omega)
  · exact .inr ⟨by omega, .inl ⟨g4, g5⟩⟩
  · exact .inr ⟨by omega, .inr g4⟩

end
end P2P

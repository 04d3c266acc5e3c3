import Verif.Props.PeerwireBuf
/-! # Property theorems C42 (piece requests) and C58 (memory requested by a peer) -/
namespace P2P

/-! ## C42 -/

/-- number of 16 KiB pieces of `size` bytes -/
theorem C42_piece_count (size : Int) (h : 0 ≤ size) : pieceCount size = (size + 16383) / 16384 := by
  unfold pieceCount SizeOf16KB
  rw [Int.tdiv_eq_ediv_of_nonneg h, Int.tmod_eq_emod_of_nonneg h]
  simp only [show ((16 * 1024 : Nat) : Int) = 16384 from rfl]
  split <;> omega

/-- a framed BEP 9 request for piece `i`, sent under extension id 1 -/
def IsRequest (i : Nat) (w : Bytes) : Prop :=
  ∃ pre body r, w = pre ++ body ∧ pre.length = 4 ∧ beVal pre = body.length ∧ parseExtendedFetchMetaMsg body = .ok r ∧
    r.msgId = 1 ∧ r.msgType = 0 ∧ r.pieceNum = i ∧ r.data = []

theorem natDecAux_length (f n k : Nat) (h : n < 10 ^ k) (hk : 1 ≤ k) : (natDecAux f n).length ≤ k := by
  induction f generalizing n k with
  | zero => simp [natDecAux]
  | succ f ih =>
    unfold natDecAux
    split
    · simpa using hk
    · cases k with
      | zero => omega
      | succ k =>
        have h1 : n / 10 < 10 ^ k := by
          rw [Nat.pow_succ] at h; omega
        have h2 : 1 ≤ k := by
          cases k with
          | zero => simp at h; omega
          | succ k => omega
        have := ih (n / 10) k h1 h2
        simp only [List.length_append, List.length_cons, List.length_nil]; omega

theorem natDec_length {n : Nat} (h : n < 2 ^ 63) : (natDec n).length ≤ 19 := by
  refine natDecAux_length _ _ _ (Nat.lt_of_lt_of_le h (by decide)) (by omega)

/-- a map with two entries has two listings -/
theorem listing_two {a b : Bytes} {x y : Int} {w : Entries} (hab : a ≠ b)
    (h : Listing (.dict [(a, .int x), (b, .int y)]) (.dict w)) :
    w = [(a, .int x), (b, .int y)] ∨ w = [(b, .int y), (a, .int x)] := by
  obtain ⟨hw, hd⟩ := h
  have ha : w.lookup a = some (.int x) := by
    obtain ⟨v, h1, h2⟩ := deepEq_dict_lookup hd a (.int x) (by simp)
    cases h2; exact h1
  have hb : w.lookup b = some (.int y) := by
    obtain ⟨v, h1, h2⟩ := deepEq_dict_lookup hd b (.int y) (by simp [List.lookup_cons, beq_eq_false_iff_ne.2 hab.symm])
    cases h2; exact h1
  have hall : ∀ k v, (k, v) ∈ w → (k = a ∧ v = .int x) ∨ (k = b ∧ v = .int y) := by
    intro k v hk
    have h1 := lookup_of_mem hw.1 hk
    obtain ⟨v', h2, _⟩ := deepEq_dict_lookup hd.symm k v h1
    by_cases hka : k = a
    · subst hka; rw [ha] at h1; injection h1 with h1; exact .inl ⟨rfl, h1.symm⟩
    · by_cases hkb : k = b
      · subst hkb; rw [hb] at h1; injection h1 with h1; exact .inr ⟨rfl, h1.symm⟩
      · simp [List.lookup_cons, beq_eq_false_iff_ne.2 hka, beq_eq_false_iff_ne.2 hkb] at h2
  match w, hw.1 with
  | [], _ => simp at ha
  | [(k, v)], _ =>
    exfalso
    rcases hall k v (by simp) with ⟨rfl, rfl⟩ | ⟨rfl, rfl⟩
    · simp [List.lookup_cons, beq_eq_false_iff_ne.2 hab.symm] at hb
    · simp [List.lookup_cons, beq_eq_false_iff_ne.2 hab] at ha
  | [(k, v), (k', v')], hn =>
    have hne : k ≠ k' := by simpa using hn
    rcases hall k v (by simp) with ⟨rfl, rfl⟩ | ⟨rfl, rfl⟩ <;> rcases hall k' v' (by simp) with ⟨rfl, rfl⟩ | ⟨rfl, rfl⟩
    · exact absurd rfl hne
    · exact .inl rfl
    · exact .inr rfl
    · exact absurd rfl hne
  | (k, v) :: (k', v') :: (k'', v'') :: r, hn =>
    exfalso
    simp only [List.map_cons, List.nodup_cons, List.mem_cons, not_or] at hn
    rcases hall k v (by simp) with ⟨rfl, _⟩ | ⟨rfl, _⟩ <;> rcases hall k' v' (by simp) with ⟨rfl, _⟩ | ⟨rfl, _⟩ <;>
      rcases hall k'' v'' (by simp) with ⟨rfl, _⟩ | ⟨rfl, _⟩ <;> simp_all

theorem request_ok (order : Entries → Entries) (ho : OrderOK order) (i : Nat) (hi : i < 2 ^ 63) :
    ∃ w, withExtendedFetchMetaMsg order 1 ExRequest i 0 [] = .ok w ∧ IsRequest i w := by
  have hi64 : IsInt64 (i : Int) := by unfold IsInt64; omega
  obtain ⟨pre, body, h1, h2, h3, h4⟩ := C40_roundtrip order ho 1 ExRequest i 0 [] (by decide) (by decide) hi64 (by decide)
  have hlen : body.length ≤ 100 := by
    have hl := ho [(b!"msg_type", .int ExRequest), (b!"piece", .int i)]
      (by simp [GoVal.WF, GoVal.WFD, ExRequest, hi64]; decide)
    have hnl := natDec_length hi
    have : pre.length + body.length ≤ 100 := by
      rw [← List.length_append]
      simp only [withExtendedFetchMetaMsg, ExFetchMeta.Bytes, ExFetchMeta.dict, List.length_nil, Nat.lt_irrefl, if_false, gt_iff_lt] at h1
      rcases listing_two (by decide) hl with hw | hw
      all_goals
        rw [hw] at h1
        simp only [EncodeDict, encodeItem, encodeEntries, Res.bind_ok, Res.pure_eq, Res.ok.injEq] at h1
        rw [← h1]
        simp [be32, EncodeString, EncodeInteger, itoa, ExRequest]
        have e8 : (natDec 8).length = 1 := rfl
        have e5 : (natDec 5).length = 1 := rfl
        have e0 : (natDec 0).length = 1 := rfl
        omega
    omega
  obtain ⟨r, h5, h6, h7, h8, h9, _⟩ := h4 (by unfold GoString; omega)
  exact ⟨_, h1, pre, body, r, rfl, h2, h3 (by omega), h5, h6, h7, h8, h9⟩

/-- the messages written to the peer, in order -/
def writesOf (tr : List PEvent) : List Bytes := tr.filterMap fun e => match e with | .write d _ => some d | _ => none

theorem writesOf_snoc (tr : List PEvent) (e : PEvent) :
    writesOf (tr ++ [e]) = match e with | .write d _ => writesOf tr ++ [d] | _ => writesOf tr := by
  unfold writesOf
  rw [List.filterMap_append]
  cases e <;> simp

theorem writes_other (W : List Bytes) : TraceInv (fun e => ∀ d f, e ≠ .write d f) (fun tr => writesOf tr = W) :=
  ⟨fun tr e h he => by
    rw [writesOf_snoc]
    cases e with
    | write d f => exact absurd rfl (he d f)
    | _ => exact h⟩

/-- the first `k` requests from piece `i` on -/
def Requests (i : Nat) (reqs : List Bytes) : Prop := ∀ (j : Nat) w, reqs[j]? = some w → IsRequest (i + j) w

theorem triple_requestLoop (E : PEnv) (ho : ∀ tr, OrderOK (E.order tr)) (n i : Nat) (hi : i + n ≤ 2 ^ 63) (W : List Bytes) :
    Triple (fun s => writesOf s.trace = W) (requestLoop E n i)
      (fun _ s => ∃ reqs, writesOf s.trace = W ++ reqs ∧ reqs.length = n ∧ Requests i reqs)
      (fun s => ∃ reqs, writesOf s.trace = W ++ reqs ∧ reqs.length ≤ n ∧ Requests i reqs) := by
  induction n generalizing i W with
  | zero => exact Triple.pure fun s hs => ⟨[], by simpa using hs, rfl, by intro j w h; simp at h⟩
  | succ n ih =>
    refine Triple.bind (Q := fun a s => writesOf s.trace = W) (fun s hs => hs) fun s => ?_
    obtain ⟨w, hw, hreq⟩ := request_ok (E.order s.trace) (ho _) i (by omega)
    rw [hw]
    refine Triple.bind (Q := fun a s => a = w ∧ writesOf s.trace = W) (fun s hs => ⟨rfl, hs⟩) fun msg => ?_
    refine Triple.bind (Q := fun _ s => writesOf s.trace = W ++ [w]) (fun s hs => ?_) fun failed => ?_
    · obtain ⟨rfl, hs⟩ := hs
      simp only [connWrite, others, emitP, PM.bind_apply, PM.modify_apply, PM.get_apply, PM.pure_apply]
      rw [writesOf_snoc, hs]
    · refine Triple.ite (fun _ => ?_) fun _ => ?_
      · intro s hs
        refine ⟨[w], hs, by simp, ?_⟩
        intro j w' h
        cases j with
        | zero => simp at h; subst h; exact hreq
        | succ j => simp at h
      · have step : ∀ reqs, Requests (i + 1) reqs → Requests i ([w] ++ reqs) := by
          intro reqs h2 j w' h
          cases j with
          | zero => simp at h; subst h; exact hreq
          | succ j => rw [show i + (j + 1) = i + 1 + j by omega]; exact h2 j w' (by simpa using h)
        refine Triple.weaken (ih (i + 1) (by omega) (W ++ [w])) (fun _ h => h) (fun _ s h => ?_) (fun s h => ?_)
        · obtain ⟨reqs, h1, h2, h3⟩ := h
          exact ⟨[w] ++ reqs, by rw [h1, List.append_assoc], by simp [h2], step reqs h3⟩
        · obtain ⟨reqs, h1, h2, h3⟩ := h
          exact ⟨[w] ++ reqs, by rw [h1, List.append_assoc], by simp; omega, step reqs h3⟩

theorem Triple.bind_ok {α β : Type} {a : α} {I : PSt → Prop} {f : α → PM β} {Q : β → PSt → Prop} {X : PSt → Prop}
    (h : Triple I (f a) Q X) : Triple I (PM.lift (.ok a) >>= f) Q X := fun s hs => h s hs

/-- On an extended handshake announcing `size` bytes: the pieces `0, 1, 2, ...` are requested in order, each once, nothing
else is written, and if all goes well there are exactly `⌈size / 16384⌉` requests. -/
theorem C42_requests (E : PEnv) (ho : ∀ tr, OrderOK (E.order tr)) (rb : Slice) (data : Bytes) (dict : Entries) (size : Int)
    (hid : data[1]? = some 0) (hp : parseExtendedHandShake data = .ok dict) (hm : dict.lookup b!"metadata_size" = some (.int size))
    (hsz : 0 ≤ size) (s : PSt) :
    ∃ reqs, writesOf (handleExtendedMsg E rb data s).state.trace = writesOf s.trace ++ reqs ∧ Requests 0 reqs ∧
      (reqs.length : Int) ≤ (size + 16383) / 16384 ∧
      (∀ t, handleExtendedMsg E rb data s = .ok () t →
        (reqs.length : Int) = (size + 16383) / 16384 ∧ t.requested = List.replicate reqs.length false) := by
  have hc := C42_piece_count size hsz
  have hreq : ∀ n i, Keeps (fun s : PSt => s.requested = List.replicate (pieceCount size).toNat false) (requestLoop E n i) := by
    intro n
    induction n with
    | zero => intro i; exact Keeps.pure _
    | succ n ih =>
      intro i
      exact Keeps.bind Keeps.get fun _ => Keeps.bind (Keeps.lift _) fun _ => Keeps.bind (fun s hs => hs) fun _ =>
        Keeps.ite (Keeps.lift _) (ih _)
  generalize hW : writesOf s.trace = W
  have key : Triple (fun s => writesOf s.trace = W) (handleExtendedMsg E rb data)
      (fun _ t => (∃ reqs, writesOf t.trace = W ++ reqs ∧ reqs.length = (pieceCount size).toNat ∧ Requests 0 reqs) ∧
        t.requested = List.replicate (pieceCount size).toNat false)
      (fun t => ∃ reqs, writesOf t.trace = W ++ reqs ∧ reqs.length ≤ (pieceCount size).toNat ∧ Requests 0 reqs) := by
    have hX : ∀ s : PSt, writesOf s.trace = W →
        ∃ reqs, writesOf s.trace = W ++ reqs ∧ reqs.length ≤ (pieceCount size).toNat ∧ Requests 0 reqs :=
      fun s h => ⟨[], by simpa using h, by simp, by intro j w h; simp at h⟩
    have hmk : ∀ w, Triple (fun s => writesOf s.trace = W) (makeSized E (pieceCount size) (w + 1))
        (fun _ s => writesOf s.trace = W ∧ (pieceCount size).toNat ≤ 2 ^ 48)
        (fun t => ∃ reqs, writesOf t.trace = W ++ reqs ∧ reqs.length ≤ (pieceCount size).toNat ∧ Requests 0 reqs) := by
      intro w
      refine Triple.ite (fun _ => Triple.panic hX) fun _ => Triple.ite (fun _ => Triple.panic hX) fun h => ?_
      have hle : (pieceCount size).toNat ≤ 2 ^ 48 := by
        have h' : ¬ (pieceCount size).toNat * (w + 1) > 2 ^ 48 := h
        exact Nat.le_trans (Nat.le_mul_of_pos_right (pieceCount size).toNat (Nat.succ_pos w)) (Nat.not_lt.1 h')
      refine Triple.bind (Q := fun _ s => writesOf s.trace = W)
        (fun s hs => (writes_other W).step _ _ hs (by simp)) fun _ => Triple.bind (Q := fun _ s => writesOf s.trace = W) (fun s hs => hs) fun _ => ?_
      exact Triple.ite (fun _ s hs => hX s hs) fun _ => Triple.pure fun s hs => ⟨hs, hle⟩
    unfold handleExtendedMsg
    rw [hid]
    simp only
    rw [if_pos (by decide), hp]
    refine Triple.bind_ok ?_
    have hex : Dict.Exist dict b!"metadata_size" = true := by simp [Dict.Exist, dictGet, hm]
    have hgi : Dict.GetInteger dict b!"metadata_size" = .ok size := by simp [Dict.GetInteger, Dict.GetVal, dictGet, hm, GoVal.asInt]
    rw [if_neg (by simp [hex]), hgi]
    refine Triple.bind_ok ?_
    refine Triple.bind (Q := fun _ s => writesOf s.trace = W) (fun s hs => hs) fun _ => ?_
    refine Triple.bind (hmk 23) fun _ => Triple.bind (Q := fun _ s => writesOf s.trace = W) (fun s hs => hs.1) fun _ => ?_
    refine Triple.bind (hmk 0) fun _ => Triple.bind (Q := fun _ s => (writesOf s.trace = W ∧ (pieceCount size).toNat ≤ 2 ^ 48) ∧
      s.requested = List.replicate (pieceCount size).toNat false) (fun s hs => ⟨hs, rfl⟩) fun _ => ?_
    refine Triple.bind (Q := fun _ s => (writesOf s.trace = W ∧ (pieceCount size).toNat ≤ 2 ^ 48) ∧
      s.requested = List.replicate (pieceCount size).toNat false) (fun s hs => ?_) fun _ => ?_
    · refine ⟨⟨?_, hs.1.2⟩, hs.2⟩
      exact (writes_other W).step _ _ hs.1.1 (by simp)
    · intro s hs
      have h1 := triple_requestLoop E ho (pieceCount size).toNat 0 (by omega) W s hs.1.1
      have h2 := hreq (pieceCount size).toNat 0 s hs.2
      cases h : requestLoop E (pieceCount size).toNat 0 s with
      | ok u t => rw [h] at h1 h2; exact ⟨h1, h2⟩
      | panic p t => rw [h] at h1; exact h1
      | fatal t => rw [h] at h1; exact h1
      | diverge t => rw [h] at h1; exact h1
  have := key s hW
  have hnn : 0 ≤ pieceCount size := by rw [hc]; omega
  cases h : handleExtendedMsg E rb data s with
  | ok u t =>
    rw [h] at this
    obtain ⟨⟨reqs, h1, h2, h3⟩, h4⟩ := this
    refine ⟨reqs, h1, h3, by omega, fun t' ht => ?_⟩
    injection ht with _ ht
    subst ht
    exact ⟨by omega, by rw [h4, h2]⟩
  | panic p t =>
    rw [h] at this
    obtain ⟨reqs, h1, h2, h3⟩ := this
    exact ⟨reqs, h1, h3, by omega, fun t' ht => by cases ht⟩
  | fatal t =>
    rw [h] at this
    obtain ⟨reqs, h1, h2, h3⟩ := this
    exact ⟨reqs, h1, h3, by omega, fun t' ht => by cases ht⟩
  | diverge t =>
    rw [h] at this
    obtain ⟨reqs, h1, h2, h3⟩ := this
    exact ⟨reqs, h1, h3, by omega, fun t' ht => by cases ht⟩

end P2P

import Verif.Props.PeerwireAmong
/-! # C110: the outcome of a download among other downloads -/
namespace P2P

/-- What is known of the state after `k` messages (keep-alives apart). The data of the pieces is in buffers that are no longer held: only its size is
known, except for a piece that came with the very last message. -/
structure Follows (s : PSt) (k : Nat) (g : Received) : Prop where
  fine : Fine s
  size : s.metaDataSize = g.size
  len : g.pieces.length ≤ s.metaData.length
  req : s.requested = g.pieces.map Option.isSome
  none : ∀ i j : Nat, g.pieces[i]? = some (some (j, [])) → s.metaData[i]? = some none
  got : ∀ (i j : Nat) d, g.pieces[i]? = some (some (j, d)) → d ≠ [] →
    ∃ sl, s.metaData[i]? = some (some sl) ∧ sl.len = d.length ∧ sl.arr < s.pool.fresh ∧ sl.off + sl.len ≤ (s.mem sl.arr).length
  num : ∀ (i j : Nat) d, g.pieces[i]? = some (some (j, d)) → j < k
  last : g.all = true → ∀ (i j : Nat) d, g.pieces[i]? = some (some (j, d)) → j + 1 = k → d ≠ [] →
    ∃ sl tr b, s.metaData[i]? = some (some sl) ∧ s.trace = tr ++ [.put b] ∧ sl.arr = b.arr ∧ readSlice s.mem sl = d

/-- how the pieces known after a message got there: known before, or just received -/
def PiecesFrom (s t : PSt) (g g' : Received) : Prop :=
  ∀ (i j : Nat) d, g'.pieces[i]? = some (some (j, d)) → d ≠ [] →
    (g.pieces[i]? = some (some (j, d)) ∧ t.metaData[i]? = s.metaData[i]?) ∨
    ∃ sl, t.metaData[i]? = some (some sl) ∧ readSlice t.mem sl = d

theorem Follows.completed {s : PSt} {k : Nat} {g : Received} (h : Follows s k g) : CompledMetaData s = g.all := by
  unfold CompledMetaData Received.all
  rw [h.req, List.all_map]
  rfl

/-- nothing was received -/
theorem Follows.wait {s t : PSt} {k : Nat} {g : Received} (h : Follows s k g) (hg : g.all = false) (hf : Fine t) (hz : StaySized s t) (hv : SameVars s t) : Follows t k g := by
  refine ⟨hf, by rw [hv.2.1]; exact h.size, by rw [hv.1]; exact h.len, by rw [hv.2.2]; exact h.req, by rw [hv.1]; exact h.none, fun i j d hd hne => ?_, h.num, fun hg' => ?_⟩
  · obtain ⟨sl, h1, h2, h3, h4⟩ := h.got i j d hd hne
    exact ⟨sl, by rw [hv.1]; exact h1, h2, Nat.lt_of_lt_of_le h3 hz.1, by rw [hz.2 _ h3]; exact h4⟩
  · rw [hg] at hg'; cases hg'

section
variable {E : PEnv} (hE : Among E)
include hE

/-- one message -/
theorem msg_am {s : PSt} {k : Nat} {g : Received} {body : Bytes} (hT : Follows s k g) (hg : g.all = false) (hlt : body.length < 2 ^ 32)
    (hr : ∀ tr size j c, (wire body)[j]? = some c → reads tr = reads s.trace + j → E.read tr size = (c, false)) :
    (∀ g', g.after k (meaning body) = some g' → ∃ t, readMetaDataHandler E s = .ok () t ∧
      Follows t (if body = [] then k else k + 1) g' ∧ reads t.trace = reads s.trace + (wire body).length ∧ PiecesFrom s t g g') ∧
    (g.after k (meaning body) = none →
      (∃ p t, readMetaDataHandler E s = .panic p t ∧ reads t.trace ≤ reads s.trace + (wire body).length) ∨
      (∃ t, readMetaDataHandler E s = .ok () t ∧ t.requested = [] ∧ t.metaDataSize < 0 ∧ reads t.trace = reads s.trace + (wire body).length)) := by
  by_cases hne : body = []
  · subst hne
    have hmean : meaning [] = .pass := rfl
    rw [hmean]
    refine ⟨fun g' hg' => ?_, fun h => by cases h⟩
    cases hg'
    obtain ⟨t, h1, h2, h3, h4, h5⟩ := keepAlive_am hE hT.fine (fun tr htr => hr tr 4 0 _ rfl htr)
    exact ⟨t, h1, by rw [if_pos rfl]; exact hT.wait hg h2 h3 h4, h5, fun i j d hd _ => .inl ⟨hd, by rw [h4.1]⟩⟩
  · have hw : wire body = [be32 body.length, body] := by unfold wire; rw [if_neg hne]
    rw [hw] at hr
    have hwl : (wire body).length = 2 := by rw [hw]; rfl
    rw [hwl, if_neg hne]
    by_cases hlong : body.length > 32768
    · have hmean : meaning body = .bad := by unfold meaning; rw [if_pos hlong]
      rw [hmean]
      refine ⟨fun g' h => (nomatch h), fun _ => .inl ?_⟩
      obtain ⟨p, t, h1, h2⟩ := tooLong_am hE hT.fine (n := body.length) ⟨hlong, hlt⟩ (fun tr htr => hr tr 4 0 _ rfl htr)
      exact ⟨p, t, h1, by omega⟩
    · have hle : body.length ≤ 32768 := by omega
      obtain ⟨b, t, hrun, hF, hoff, hbl, ⟨rest0, hbody⟩, hZ, hf, hO, hreads, hput⟩ := handler_am hE hT.fine hne hle (fun tr htr => hr tr 4 0 _ rfl htr)
        (fun tr htr => hr tr 32768 1 _ rfl htr)
      -- doom
      have hdoom : body[0]? = some 20 → Dooms (handleExtendedMsg E { b with len := body.length } body) t →
          (∃ p u, readMetaDataHandler E s = .panic p u ∧ reads u.trace ≤ reads s.trace + 2) ∨
          (∃ u, readMetaDataHandler E s = .ok () u ∧ u.requested = [] ∧ u.metaDataSize < 0 ∧ reads u.trace = reads s.trace + 2) := by
        intro h20 hd
        rw [if_pos h20] at hrun
        rcases hd with ⟨p, u, hu, hur⟩ | ⟨u, hu, hup, hum, hu1, hu2, hur⟩
        · left
          obtain ⟨v, hv, hvr, -⟩ := putBack_any E (some { b with len := body.length }) u
          exact ⟨p, v, by rw [hrun]; simp only [PM.deferred, hu, hv], by omega⟩
        · right
          obtain ⟨v, hv, hvr, hfv⟩ := putBack_any E (some { b with len := body.length }) u
          exact ⟨v, by rw [hrun]; simp only [PM.deferred, hu, hv], by rw [hfv.2.2]; exact hu1, by rw [hfv.2.1]; exact hu2, by omega⟩
      -- success
      have hsucc : ∀ (u : PSt) (g' : Received), (if body[0]? = some 20 then handleExtendedMsg E { b with len := body.length } body else pure ()) t = .ok () u →
          Along t u → u.metaDataSize = g'.size → g'.pieces.length ≤ u.metaData.length → u.requested = g'.pieces.map Option.isSome →
          (∀ i j : Nat, g'.pieces[i]? = some (some (j, [])) → u.metaData[i]? = some none) →
          (∀ (i j : Nat) d, g'.pieces[i]? = some (some (j, d)) → d ≠ [] →
            (g.pieces[i]? = some (some (j, d)) ∧ u.metaData[i]? = s.metaData[i]?) ∨
            (∃ sl, u.metaData[i]? = some (some sl) ∧ sl.arr = b.arr ∧ sl.off + d.length = b.off + body.length ∧ sl.len = d.length ∧
              d.length ≤ body.length ∧ d = body.drop (body.length - d.length))) →
          (∀ (i j : Nat) d, g'.pieces[i]? = some (some (j, d)) → j < k + 1) →
          ∃ v, readMetaDataHandler E s = .ok () v ∧ Follows v (k + 1) g' ∧ reads v.trace = reads s.trace + 2 ∧ PiecesFrom s v g g' := by
        intro u g' hu hA h1 h2 h3 h4 h5 h6
        obtain ⟨v, hv, hvF, hvm, hvZ, hfv, hvr, hvt⟩ := hput u hA
        have hZv : StaySized t v := hA.sized.trans hvZ
        have hread : ∀ (sl : Slice) (d : Bytes), sl.arr = b.arr → sl.off + d.length = b.off + body.length → sl.len = d.length → d.length ≤ body.length →
            d = body.drop (body.length - d.length) → readSlice v.mem sl = d := by
          intro sl d e2 e3 e4 e5 e6
          unfold readSlice
          rw [e2, hvm, hbody, e4, List.drop_append_of_le_length (by omega), List.take_append_of_le_length (by rw [List.length_drop]; omega),
            show sl.off = body.length - d.length by omega, ← e6, List.take_of_length_le (by omega)]
        refine ⟨v, by rw [hrun]; simp only [PM.deferred, hu, hv], ?_, by rw [hvr, hA.reads, hreads], fun i j d hd hdne => ?_⟩
        rotate_left
        · rcases h5 i j d hd hdne with ⟨e1, e2⟩ | ⟨sl, e1, e2, e3, e4, e5, e6⟩
          · exact .inl ⟨e1, by rw [hfv.1]; exact e2⟩
          · exact .inr ⟨sl, by rw [hfv.1]; exact e1, hread sl d e2 e3 e4 e5 e6⟩
        refine ⟨hvF, by rw [hfv.2.1]; exact h1, by rw [hfv.1]; exact h2, by rw [hfv.2.2]; exact h3, by rw [hfv.1]; exact h4, fun i j d hd hdne => ?_, h6,
          fun hall i j d hd hj hdne => ?_⟩
        · rcases h5 i j d hd hdne with ⟨e1, e2⟩ | ⟨sl, e1, e2, e3, e4, e5, e6⟩
          · obtain ⟨sl, c1, c2, c3, c4⟩ := hT.got i j d e1 hdne
            have hZs := hZ.trans hZv
            exact ⟨sl, by rw [hfv.1, e2]; exact c1, c2, Nat.lt_of_lt_of_le c3 hZs.1, by rw [hZs.2 _ c3]; exact c4⟩
          · exact ⟨sl, by rw [hfv.1]; exact e1, e4, by rw [e2]; exact Nat.lt_of_lt_of_le hO hZv.1, by rw [e2, hvm, hbl]; omega⟩
        · rcases h5 i j d hd hdne with ⟨e1, e2⟩ | ⟨sl, e1, e2, e3, e4, e5, e6⟩
          · have := hT.num i j d e1; omega
          · refine ⟨sl, u.trace, { b with len := body.length }, by rw [hfv.1]; exact e1, hvt, e2, hread sl d e2 e3 e4 e5 e6⟩
      cases hm : meaning body with
      | pass =>
        refine ⟨fun g' hg' => ?_, fun h => by cases h⟩
        cases hg'
        have hu : (if body[0]? = some 20 then handleExtendedMsg E { b with len := body.length } body else pure ()) t = .ok () t := by
          split
          · rename_i h20; exact pass_ext h20 hle hm _ t
          · rfl
        exact hsucc t g hu (.still hF rfl rfl rfl rfl) (by rw [hf.2.1]; exact hT.size) (by rw [hf.1]; exact hT.len) (by rw [hf.2.2]; exact hT.req)
          (by rw [hf.1]; exact hT.none) (fun i j d hd _ => .inl ⟨hd, by rw [hf.1]⟩) (fun i j d hd => by have := hT.num i j d hd; omega)
      | bad =>
        refine ⟨fun g' h => (nomatch h), fun _ => ?_⟩
        obtain ⟨h20, hd⟩ := meaning_bad hle hm { b with len := body.length } t (E := E)
        exact hdoom h20 hd
      | announce z =>
        have h20 := (meaning_announce hm).1
        obtain ⟨ha1, ha2⟩ := announce_am hE hm { b with len := body.length } hF
        refine ⟨fun g' hg' => ?_, fun hg' => ?_⟩
        · simp only [Received.after] at hg'
          split at hg'
          · rename_i hc
            cases hg'
            obtain ⟨u, h1, h2, h3, h4, h5⟩ := ha1 hc
            refine hsucc u _ (by rw [if_pos h20]; exact h1) h2 h3 (by rw [h4]; simp) (by rw [h5]; simp) ?_ ?_ ?_
            · intro i j hd
              simp [List.getElem?_replicate] at hd
            · intro i j d hd
              simp [List.getElem?_replicate] at hd
            · intro i j d hd
              simp [List.getElem?_replicate] at hd
          · cases hg'
        · simp only [Received.after] at hg'
          split at hg'
          · cases hg'
          · rename_i hc
            exact hdoom h20 (ha2 hc)
      | piece i d =>
        have h20 := (meaning_piece hm).1
        have hrl : t.requested.length = g.pieces.length := by rw [hf.2.2, hT.req]; simp
        obtain ⟨ha1, ha2⟩ := piece_gen (E := E) hm { b with len := body.length } t rfl (by rw [hrl, hf.1]; exact hT.len)
        rw [hrl] at ha1 ha2
        refine ⟨fun g' hg' => ?_, fun hg' => ?_⟩
        · simp only [Received.after] at hg'
          split at hg'
          · rename_i hc
            cases hg'
            obtain ⟨o, ho1, ho2, h1⟩ := ha1 hc
            have hml : i.toNat < t.metaData.length := by
              have := hT.len
              rw [hf.1]; omega
            refine hsucc { t with
                metaData := t.metaData.set i.toNat o, requested := t.requested.set i.toNat true, trace := t.trace ++ [.gotPiece i.toNat] } _
              (by rw [if_pos h20]; exact h1) (.still hF rfl rfl (by simp only [heldP_snoc]) (by simp only [reads_snoc, Nat.add_zero]))
              (by simp only; rw [hf.2.1]; exact hT.size)
              (by simp only [List.length_set]; rw [hf.1]; exact hT.len) ?_ ?_ ?_ ?_
            · simp only
              rw [hf.2.2, hT.req, List.map_set]
              rfl
            · intro i' j hd
              simp only at hd ⊢
              by_cases hi : i.toNat = i'
              · subst hi
                rw [List.getElem?_set_self (by omega)] at hd
                cases hd
                rw [List.getElem?_set_self hml, ho1 rfl]
              · rw [List.getElem?_set_ne hi] at hd ⊢
                rw [hf.1]
                exact hT.none i' j hd
            · intro i' j d' hd hdne
              simp only at hd ⊢
              by_cases hi : i.toNat = i'
              · subst hi
                rw [List.getElem?_set_self (by omega)] at hd
                cases hd
                obtain ⟨sl, e1, e2, e3⟩ := ho2 hdne
                exact .inr ⟨sl, by rw [List.getElem?_set_self hml, e1], e2, e3⟩
              · rw [List.getElem?_set_ne hi] at hd ⊢
                exact .inl ⟨hd, by rw [hf.1]⟩
            · intro i' j d' hd
              simp only at hd
              by_cases hi : i.toNat = i'
              · subst hi
                rw [List.getElem?_set_self (by omega)] at hd
                cases hd
                omega
              · rw [List.getElem?_set_ne hi] at hd
                have := hT.num i' j d' hd
                omega
          · cases hg'
        · simp only [Received.after] at hg'
          split at hg'
          · cases hg'
          · rename_i hc
            exact hdoom h20 (ha2 hc)

/-- what the loop does with the messages to come -/
def LoopAmong (E : PEnv) (K : PSt → Received → Prop) (fuel : Nat) (s : PSt) (n : Nat) (bodies : List Bytes) : Verdict → Prop
  | .failed n' => n ≤ n' ∧
    ((∃ p t, readMetaDataLoop E fuel s = .panic p t ∧ reads t.trace ≤ reads s.trace + ((bodies.take (n' + 1 - n)).flatMap wire).length) ∨
    (∃ t, readMetaDataLoop E fuel s = .ok () t ∧ t.requested = [] ∧ t.metaDataSize < 0 ∧
      reads t.trace ≤ reads s.trace + ((bodies.take (n' + 1 - n)).flatMap wire).length))
  | .complete n' k' g' => n ≤ n' ∧ g'.all = true ∧ ∃ t, readMetaDataLoop E fuel s = .ok () t ∧ Follows t k' g' ∧
      reads t.trace = reads s.trace + ((bodies.take (n' - n)).flatMap wire).length ∧ K t g'
  | .waiting => (∀ tr size, reads tr = reads s.trace + (bodies.flatMap wire).length → (E.read tr size).2 = true) →
      ∃ p t, readMetaDataLoop E fuel s = .panic p t

/-- an additional invariant of the loop: kept when the clock is asked and by every message -/
structure LoopInv (E : PEnv) (K : PSt → Received → Prop) : Prop where
  tick : ∀ s g, K s g → K { s with trace := s.trace ++ [.expired false] } g
  msg : ∀ s t g g', Fine s → readMetaDataHandler E s = .ok () t → PiecesFrom s t g g' → K s g → K t g'

theorem msgs_am {K : PSt → Received → Prop} (hK : LoopInv E K) (bodies : List Bytes) : ∀ (n k : Nat) (g : Received) (s : PSt) (fuel : Nat), Follows s k g → K s g →
    (∀ tr size j c, (bodies.flatMap wire)[j]? = some c → reads tr = reads s.trace + j → E.read tr size = (c, false)) →
    (∀ b ∈ bodies, b.length < 2 ^ 32) → bodies.length + 1 ≤ fuel → LoopAmong E K fuel s n bodies (verdict n k g bodies) := by
  induction bodies with
  | nil =>
    intro n k g s fuel hT hk hr hlt hf
    obtain ⟨f, rfl⟩ : ∃ f, fuel = f + 1 := ⟨fuel - 1, by omega⟩
    unfold verdict
    have hc := hT.completed
    cases hg : g.all with
    | true =>
      refine ⟨Nat.le_refl _, hg, s, ?_, hT, by simp, hk⟩
      unfold readMetaDataLoop
      simp only [PM.bind_apply, PM.get_apply, hc, hg, if_true, PM.pure_apply]
    | false =>
      intro hend
      have hA : Along s { s with trace := s.trace ++ [.expired false] } := .still hT.fine rfl rfl (by simp only [heldP_snoc]) (by simp only [reads_snoc, Nat.add_zero])
      obtain ⟨p, t, h⟩ := readErr_am hE hA.fine (fun tr htr => hend tr 4 (by rw [htr, hA.reads]; simp))
      refine ⟨p, t, ?_⟩
      unfold readMetaDataLoop
      simp only [PM.bind_apply, PM.get_apply, hc, hg, Bool.false_eq_true, if_false, IsReadLoopExpire, hE.time, emitP, PM.modify_apply,
        PM.pure_apply, h]
  | cons b r ih =>
    intro n k g s fuel hT hk hr hlt hf
    obtain ⟨f, rfl⟩ : ∃ f, fuel = f + 1 := ⟨fuel - 1, by omega⟩
    unfold verdict
    have hc := hT.completed
    cases hg : g.all with
    | true =>
      refine ⟨Nat.le_refl _, hg, s, ?_, hT, by simp, hk⟩
      unfold readMetaDataLoop
      simp only [PM.bind_apply, PM.get_apply, hc, hg, if_true, PM.pure_apply]
    | false =>
      simp only [Bool.false_eq_true, if_false]
      have hloop : readMetaDataLoop E (f + 1) s = (readMetaDataHandler E >>= fun _ => readMetaDataLoop E f) { s with trace := s.trace ++ [.expired false] } := by
        rw [readMetaDataLoop]
        simp only [PM.bind_apply, PM.get_apply, hc, hg, Bool.false_eq_true, if_false, IsReadLoopExpire, hE.time, emitP, PM.modify_apply,
          PM.pure_apply]
      have hA : Along s { s with trace := s.trace ++ [.expired false] } := .still hT.fine rfl rfl (by simp only [heldP_snoc]) (by simp only [reads_snoc, Nat.add_zero])
      have hrd0 : reads (s.trace ++ [.expired false]) = reads s.trace := by simp only [reads_snoc, Nat.add_zero]
      obtain ⟨m1, m2⟩ := msg_am hE (hT.wait hg hA.fine hA.sized ⟨rfl, rfl, rfl⟩) hg (hlt b (by simp)) (fun tr size j c hj htr =>
        hr tr size j c (by
          rw [List.flatMap_cons, List.getElem?_append_left]
          · exact hj
          · rcases Nat.lt_or_ge j (wire b).length with h | h
            · exact h
            · rw [List.getElem?_eq_none h] at hj; cases hj) (by simp only [hrd0] at htr; exact htr))
      simp only [hrd0] at m1 m2
      cases ha : g.after k (meaning b) with
      | none =>
        refine ⟨Nat.le_refl _, ?_⟩
        have htake : ((b :: r).take (n + 1 - n)) = [b] := by rw [show n + 1 - n = 1 by omega]; rfl
        rw [htake, hloop, PM.bind_apply]
        have hw : ([b].flatMap wire).length = (wire b).length := by simp
        rw [hw]
        rcases m2 ha with ⟨p, t, h1, h2⟩ | ⟨t, h1, h2, h3, h4⟩
        · left
          rw [h1]
          exact ⟨p, t, rfl, h2⟩
        · right
          rw [h1]
          refine ⟨t, ?_, h2, h3, Nat.le_of_eq h4⟩
          obtain ⟨f', rfl⟩ : ∃ f', f = f' + 1 := ⟨f - 1, by simp at hf; omega⟩
          simp only
          unfold readMetaDataLoop
          have : CompledMetaData t = true := by unfold CompledMetaData; rw [h2]; rfl
          simp only [PM.bind_apply, PM.get_apply, this, if_true, PM.pure_apply]
      | some g' =>
        obtain ⟨t, h1, h2, h4, h6⟩ := m1 g' ha
        simp only
        have hr' : ∀ tr size j c, (r.flatMap wire)[j]? = some c → reads tr = reads t.trace + j → E.read tr size = (c, false) := by
          intro tr size j c hj htr
          refine hr tr size ((wire b).length + j) c ?_ (by omega)
          rw [List.flatMap_cons, List.getElem?_append_right (by omega)]
          rw [show (wire b).length + j - (wire b).length = j by omega]
          exact hj
        have := ih (n + 1) _ g' t f h2 (hK.msg _ t g g' hA.fine h1 h6 (hK.tick s g hk)) hr' (fun x hx => hlt x (by simp [hx])) (by simp at hf; omega)
        have hstep : readMetaDataLoop E (f + 1) s = readMetaDataLoop E f t := by rw [hloop, PM.bind_apply, h1]
        revert this
        cases verdict (n + 1) (if b = [] then k else k + 1) g' r with
        | failed n' =>
          rintro ⟨a1, a2⟩
          refine ⟨by omega, ?_⟩
          have htake : (((b :: r).take (n' + 1 - n)).flatMap wire).length = (wire b).length + ((r.take (n' + 1 - (n + 1))).flatMap wire).length := by
            rw [show n' + 1 - n = n' + 1 - (n + 1) + 1 by omega, List.take_succ_cons, List.flatMap_cons, List.length_append]
          rw [hstep, htake]
          rcases a2 with ⟨p, u, b1, b2⟩ | ⟨u, b1, b2, b3, b4⟩
          · exact .inl ⟨p, u, b1, by omega⟩
          · exact .inr ⟨u, b1, b2, b3, by omega⟩
        | complete n' k'' g'' =>
          rintro ⟨a1, a2, u, b1, b2, b5, b6⟩
          have hn : (b :: r).take (n' - n) = b :: r.take (n' - (n + 1)) := by
            rw [show n' - n = n' - (n + 1) + 1 by omega, List.take_succ_cons]
          refine ⟨by omega, a2, u, by rw [hstep]; exact b1, b2, ?_, b6⟩
          rw [hn, List.flatMap_cons, List.length_append]
          omega
        | waiting =>
          intro hw hend
          rw [hstep]
          refine hw fun tr size htr => hend tr size ?_
          rw [List.flatMap_cons, List.length_append]
          omega

/-- reading a piece that is no longer held: something of its size -/
theorem loadOld_am {s : PSt} (h : Fine s) {b : Slice} (h1 : b.arr < s.pool.fresh) (h2 : b.off + b.len ≤ (s.mem b.arr).length) :
    ∃ d t, loadSlice E b s = .ok d t ∧ d.length = b.len ∧ Along s t ∧ SameVars s t := by
  obtain ⟨t, g1, A1, V1, -⟩ := others_am hE h
  refine ⟨readSlice t.mem b, { t with trace := t.trace ++ [.load] }, ?_, ?_, A1.trans (.still A1.fine rfl rfl (by simp only [heldP_snoc]) (by simp only [reads_snoc, Nat.add_zero])), V1⟩
  · unfold loadSlice
    simp only [PM.bind_apply, g1, PM.get_apply, emitP, PM.modify_apply, PM.pure_apply]
  · unfold readSlice
    rw [List.length_take, List.length_drop, A1.sized.2 _ h1]
    omega

omit hE in
/-- the pieces from `i` on have the right sizes -/
def RightSizes (s : PSt) (ps : List (Option (Nat × Bytes))) : Prop :=
  ∀ i, i < ps.length → ∃ o j d, s.metaData[i]? = some o ∧ ps[i]? = some (some (j, d)) ∧
    ∀ sl, (o = some sl → sl.len = d.length ∧ sl.arr < s.pool.fresh ∧ sl.off + sl.len ≤ (s.mem sl.arr).length) ∧ (o = none → d = [])

theorem merge_am {ps : List (Option (Nat × Bytes))} (k : Nat) : ∀ i acc s, i + k = ps.length → Fine s → RightSizes s ps →
    ∃ data t, mergeLoop E k i acc s = .ok (acc ++ data) t ∧ reads t.trace = reads s.trace ∧
      data.length = ((ps.drop i).flatMap fun p => match p with | some (_, d) => d | none => []).length := by
  induction k with
  | zero =>
    intro i acc s hi _ _
    rw [List.drop_of_length_le (by omega)]
    exact ⟨[], s, by simp [mergeLoop], rfl, rfl⟩
  | succ k ih =>
    intro i acc s hi hF h
    obtain ⟨o, j, d, h1, h2, h3⟩ := h i (by omega)
    have hi' : i < ps.length := by omega
    rw [List.getElem?_eq_getElem hi'] at h2
    have h2 := Option.some.inj h2
    rw [List.drop_eq_getElem_cons hi', h2]
    unfold mergeLoop
    cases o with
    | none =>
      have hd : d = [] := (h3 ⟨0, 0, 0, 0⟩).2 rfl
      obtain ⟨data, t, g1, g2, g3⟩ := ih (i + 1) acc s (by omega) hF h
      refine ⟨data, t, ?_, g2, ?_⟩
      · simp only [PM.bind_apply, PM.get_apply, h1, g1]
      · rw [g3, hd]; simp
    | some sl =>
      obtain ⟨c1, c2, c3⟩ := (h3 sl).1 rfl
      obtain ⟨e, t, g1, g2, A, V⟩ := loadOld_am hE hF c2 c3
      have hR : RightSizes t ps := by
        intro i' hi'
        obtain ⟨o, j, d, d1, d2, d3⟩ := h i' hi'
        refine ⟨o, j, d, by rw [V.1]; exact d1, d2, fun sl => ⟨fun ho => ?_, (d3 sl).2⟩⟩
        obtain ⟨e1, e2, e3⟩ := (d3 sl).1 ho
        exact ⟨e1, Nat.lt_of_lt_of_le e2 A.sized.1, by rw [A.sized.2 _ e2]; exact e3⟩
      obtain ⟨data, u, g4, g5, g6⟩ := ih (i + 1) (acc ++ e) t (by omega) A.fine hR
      refine ⟨e ++ data, u, ?_, g5.trans A.reads, ?_⟩
      · simp only [PM.bind_apply, PM.get_apply, h1, g1, g4, List.append_assoc]
      · rw [List.length_append, g6, g2, c1]; simp

theorem handshake_am {hs peerId infoHash : Bytes} {fold : FoldTable} (hhs : IsPeerHandshake hs) (hp : peerId.length = 20)
    (hi : infoHash.length = 20) {s : PSt} (h : Fine s) (hr : ∀ tr, reads tr = reads s.trace → E.read tr 68 = (hs, false)) :
    ∃ t, handshakePeer E fold peerId infoHash s = .ok () t ∧ Fine t ∧ StaySized s t ∧ SameVars s t ∧ reads t.trace = reads s.trace + 1 := by
  obtain ⟨rsv, rest, c, rfl, h1, h2, h3, h4⟩ := hhs
  have hlen : ([19] ++ b!"BitTorrent protocol" ++ rsv ++ rest).length = 68 := by simp [h1, h2]
  generalize hhs : [19] ++ b!"BitTorrent protocol" ++ rsv ++ rest = hs at *
  have hparse := C38_parse hs [] 19 hlen (by rw [← hhs]; rfl)
  rw [if_pos (by decide)] at hparse
  have hproto : slice (hs ++ []) 1 (1 + (19 : UInt8).toNat) = supportProtocolName := by
    rw [← hhs]; simp [slice, supportProtocolName]
  obtain ⟨c', b', hc1, hc2, hc3⟩ := C38_support_extended hs [] _ hlen hparse
  have hc0 : c' = 19 := by rw [← hhs] at hc1; simp at hc1; exact hc1.symm
  have hb : b' = c := by
    subst hc0
    rw [← hhs, List.append_nil] at hc2
    have : ([19] ++ b!"BitTorrent protocol" ++ rsv ++ rest)[6 + (19 : UInt8).toNat]? = rsv[5]? := by
      rw [List.getElem?_append_left (by simp [h1]), List.getElem?_append_right (by simp)]
      simp
    rw [this, h3] at hc2
    exact (Option.some.inj hc2).symm
  rw [hb, h4] at hc3
  have hw : withHandShakeMsg peerId infoHash = .ok (HandShake.Bytes { protocol := supportProtocolName, rBytes := reservedBytes, infoHash, peerId }) := by
    unfold withHandShakeMsg
    rw [if_neg (by simp [PeerIdLen, InfoHashLen, hp, hi])]
  obtain ⟨s1, g1, A1, V1⟩ := write_am hE h (HandShake.Bytes { protocol := supportProtocolName, rBytes := reservedBytes, infoHash, peerId })
  obtain ⟨s2, g2, A2, V2, t2, -⟩ := others_am hE A1.fine
  have A3 : Fine { s2 with trace := s2.trace ++ [.read 68 hs false] } := by
    have := A2.fine
    unfold Fine at *
    simp only [heldP_snoc]
    exact this
  refine ⟨{ s2 with trace := s2.trace ++ [.read 68 hs false] }, ?_, A3, A1.sized.trans A2.sized, V1.trans V2, ?_⟩
  · unfold handshakePeer
    simp only [PM.bind_apply, hw, PM.lift_ok, g1, Bool.false_eq_true, if_false, connReadNew, g2, PM.get_apply,
      handShakeLen, emitP, PM.modify_apply, PM.pure_apply]
    rw [hr _ (by rw [A2.reads, A1.reads])]
    have htake : hs.take 68 = hs := List.take_of_length_le (by omega)
    simp only [htake, hlen, Nat.sub_self, List.replicate_zero, List.append_nil, Bool.false_eq_true, if_false, PM.bind_apply]
    rw [List.append_nil] at hparse hproto
    rw [hparse]
    simp only [PM.lift_ok]
    rw [if_neg (by rw [hproto, equalFold_refl]; simp)]
    rw [List.append_nil] at hc3
    simp only [PM.bind_apply, hc3, PM.lift_ok]
    simp
  · simp only [reads_snoc, A2.reads, A1.reads]

theorem initial_am {s : PSt} (h : Fine s) : ∃ t, initialMessages E s = .ok () t ∧ Along s t ∧ SameVars s t := by
  obtain ⟨pre, body, hm, -⟩ := C39_roundtrip (E.order s.trace) (hE.order _) [(b!"ut_metadata", .int 1)] none
    (by simp [GoVal.WF, GoVal.WFD, IsInt64]) (by simp [Encodable, EncodableD]) (by simp [GoVal.WF, GoVal.WFD]) (by simp [Encodable, EncodableD])
  obtain ⟨t, g, A, V⟩ := write_am hE h (pre ++ body)
  refine ⟨t, ?_, A, V⟩
  unfold initialMessages
  simp only [PM.bind_apply, PM.get_apply, hm, PM.lift_ok, g, Bool.false_eq_true, if_false, PM.pure_apply]

end

/-- The setting of the following theorems: as in C70, but others use the buffers, too. At the beginning no buffer is twice in the pool. -/
structure StreamAmong (E : PEnv) (peerId infoHash : Bytes) (mem : Nat → Bytes) (pool : BPool) (hs : Bytes) (bodies : List Bytes) (fuel : Nat) : Prop where
  among : Among E
  own : Own [] (mem, pool)
  peer : peerId.length = 20
  info : infoHash.length = 20
  handshake : IsPeerHandshake hs
  delivers : Delivers E (hs :: bodies.flatMap wire)
  lengths : ∀ b ∈ bodies, b.length < 2 ^ 32
  rounds : bodies.length + 1 ≤ fuel

theorem StreamAmong.loop {E : PEnv} {peerId infoHash : Bytes} {mem : Nat → Bytes} {pool : BPool} {hs : Bytes} {bodies : List Bytes} {fuel : Nat}
    (S : StreamAmong E peerId infoHash mem pool hs bodies fuel) (fold : FoldTable) {K : PSt → Received → Prop} (hK : LoopInv E K)
    (hK0 : ∀ s, Fine s → (∀ (i : Nat) sl, s.metaData[i]? ≠ some (some sl)) → K s .start) :
    ∃ s0, handshakePeer E fold peerId infoHash (NewPeerConn mem pool) = .ok () s0 ∧ ∃ s1, initialMessages E s0 = .ok () s1 ∧ reads s1.trace = 1 ∧
      LoopAmong E K fuel s1 0 bodies (verdict 0 0 .start bodies) := by
  have hE := S.among
  obtain ⟨s0, g1, F1, Z1, V1, r1⟩ := handshake_am hE (fold := fold) S.handshake S.peer S.info (s := NewPeerConn mem pool) S.own
    (fun tr htr => S.delivers tr 68 _ (by rw [htr]; rfl))
  have r1 : reads s0.trace = 1 := r1
  obtain ⟨s1, g2, A2, V2⟩ := initial_am hE F1
  have V := V1.trans V2
  have r2 : reads s1.trace = 1 := by rw [A2.reads, r1]
  have hT : Follows s1 0 Received.start := by
    refine ⟨A2.fine, V.2.1, by rw [V.1]; show 1 ≤ 16; omega, by rw [V.2.2]; rfl, ?_, ?_, ?_, fun h => by cases h⟩
    · intro i j h
      match i with
      | 0 => simp [Received.start] at h
      | i + 1 => simp [Received.start] at h
    · intro i j d h
      match i with
      | 0 => simp [Received.start] at h
      | i + 1 => simp [Received.start] at h
    · intro i j d h
      match i with
      | 0 => simp [Received.start] at h
      | i + 1 => simp [Received.start] at h
  have hng : ∀ (i : Nat) sl, s1.metaData[i]? ≠ some (some sl) := by
    intro i sl h
    rw [V.1] at h
    have := List.mem_of_getElem? h
    simp [NewPeerConn] at this
  refine ⟨_, g1, _, g2, r2, msgs_am hE hK bodies 0 0 _ _ fuel hT (hK0 s1 A2.fine hng) (fun tr size j c hj htr => ?_) S.lengths S.rounds⟩
  refine S.delivers tr size c ?_
  have : reads tr = j + 1 := by rw [htr]; omega
  rw [this, List.getElem?_cons_succ]
  exact hj

/-- **A message that breaks the protocol** makes the download fail, whatever other downloads do. -/
theorem C110_failed {E : PEnv} {peerId infoHash : Bytes} {mem : Nat → Bytes} {pool : BPool} {hs : Bytes} {bodies : List Bytes} {fuel : Nat}
    (S : StreamAmong E peerId infoHash mem pool hs bodies fuel) (sha1 : Bytes → Bytes) (fold : FoldTable) (n : Nat)
    (hv : verdict 0 0 .start bodies = .failed n) :
    ∃ s, FetchMetaData E sha1 fold fuel peerId infoHash mem pool = .returned none (some b!"FetchMetaData err") s ∧
      reads s.trace ≤ 1 + ((bodies.take (n + 1)).flatMap wire).length := by
  obtain ⟨s0, g1, s1, g2, r2, hl⟩ := S.loop fold (K := fun _ _ => True) ⟨fun _ _ _ => trivial, fun _ _ _ _ _ _ _ _ => trivial⟩ (fun _ _ _ => trivial)
  rw [hv] at hl
  obtain ⟨-, hl⟩ := hl
  unfold FetchMetaData
  rw [S.among.dial]
  simp only [Bool.false_eq_true, if_false]
  rcases hl with ⟨p, t, h1, h2⟩ | ⟨t, h1, h2, h3, h4⟩
  · have hb : fetchBody E sha1 fold fuel peerId infoHash (NewPeerConn mem pool) = .panic p t := by
      unfold fetchBody
      simp only [PM.bind_apply, g1, g2, h1]
    rw [hb]
    refine ⟨_, rfl, ?_⟩
    simp only [reads_snoc]
    simpa [r2] using h2
  · have hb : fetchBody E sha1 fold fuel peerId infoHash (NewPeerConn mem pool) = .panic .runtime t := by
      unfold fetchBody
      have : CompledMetaData t = true := by unfold CompledMetaData; rw [h2]; rfl
      simp only [PM.bind_apply, g1, g2, h1, PM.get_apply, this, not_true_eq_false, if_false, makeSized, if_pos h3, PM.panic_apply]
    rw [hb]
    refine ⟨_, rfl, ?_⟩
    simp only [reads_snoc]
    simpa [r2] using h4

/-- **While pieces are missing** and the peer stops, the download fails. -/
theorem C110_waiting {E : PEnv} {peerId infoHash : Bytes} {mem : Nat → Bytes} {pool : BPool} {hs : Bytes} {bodies : List Bytes} {fuel : Nat}
    (S : StreamAmong E peerId infoHash mem pool hs bodies fuel) (sha1 : Bytes → Bytes) (fold : FoldTable)
    (hv : verdict 0 0 .start bodies = .waiting)
    (hend : ∀ tr size, reads tr = 1 + (bodies.flatMap wire).length → (E.read tr size).2 = true) :
    ∃ s, FetchMetaData E sha1 fold fuel peerId infoHash mem pool = .returned none (some b!"FetchMetaData err") s := by
  obtain ⟨s0, g1, s1, g2, r2, hl⟩ := S.loop fold (K := fun _ _ => True) ⟨fun _ _ _ => trivial, fun _ _ _ _ _ _ _ _ => trivial⟩ (fun _ _ _ => trivial)
  rw [hv] at hl
  obtain ⟨p, t, h1⟩ := hl (by rw [r2]; exact hend)
  unfold FetchMetaData
  rw [S.among.dial]
  simp only [Bool.false_eq_true, if_false]
  have hb : fetchBody E sha1 fold fuel peerId infoHash (NewPeerConn mem pool) = .panic p t := by
    unfold fetchBody
    simp only [PM.bind_apply, g1, g2, h1]
  rw [hb]
  exact ⟨_, rfl⟩

/-- the end of a download whose pieces were all received, if merging them yields `data` -/
theorem StreamAmong.ends {E : PEnv} {peerId infoHash : Bytes} {mem : Nat → Bytes} {pool : BPool} {hs : Bytes} {bodies : List Bytes} {fuel : Nat}
    (S : StreamAmong E peerId infoHash mem pool hs bodies fuel) (sha1 : Bytes → Bytes) (fold : FoldTable) (n k : Nat) (g : Received)
    (hv : verdict 0 0 .start bodies = .complete n k g) (hsz : g.size ≤ 2 ^ 48) {K : PSt → Received → Prop} (hK : LoopInv E K)
    (hK0 : ∀ s, Fine s → (∀ (i : Nat) sl, s.metaData[i]? ≠ some (some sl)) → K s .start) (P : Bytes → PSt → Prop)
    (hP : ∀ t m, Follows t k g → K t g → g.all = true → ∃ data u, mergeLoop E g.pieces.length 0 [] { t with trace := t.trace ++ [.alloc m] } = .ok data u ∧
      reads u.trace = reads t.trace ∧ P data u) :
    ∃ data s, (∃ u, s.trace = u.trace ++ [.close] ∧ P data u) ∧ FetchMetaData E sha1 fold fuel peerId infoHash mem pool =
        (if sha1 data = infoHash then .returned (some data) none s else .returned none (some b!"check sum err") s) ∧
      reads s.trace = 1 + ((bodies.take n).flatMap wire).length := by
  have hE := S.among
  obtain ⟨s0, g1, s1, g2, r2, hl⟩ := S.loop fold hK hK0
  rw [hv] at hl
  obtain ⟨-, hall, t, h1, hT, hreads, hk⟩ := hl
  have hdone : CompledMetaData t = true := by rw [hT.completed]; exact hall
  have hreqlen : t.requested.length = g.pieces.length := by rw [hT.req]; simp
  have h0 : 0 ≤ g.size := verdict_size (by decide) hv
  obtain ⟨sz, hsz'⟩ : ∃ sz : Nat, g.size = sz := ⟨g.size.toNat, by omega⟩
  have hmk := make_am hE sz 1 (show sz * 1 ≤ 2 ^ 48 by omega) t
  obtain ⟨data, u, hmerge, hur, hPd⟩ := hP t (sz * 1) hT hk hall
  refine ⟨data, { u with trace := u.trace ++ [.close] }, ⟨u, rfl, hPd⟩, ?_, ?_⟩
  · unfold FetchMetaData
    rw [hE.dial]
    simp only [Bool.false_eq_true, if_false]
    have hb : fetchBody E sha1 fold fuel peerId infoHash (NewPeerConn mem pool) =
        .ok (if sha1 data = infoHash then (some data, none) else (none, some b!"check sum err")) u := by
      unfold fetchBody
      simp only [PM.bind_apply, g1, g2, h1, PM.get_apply, hdone, not_true_eq_false, if_false, hT.size, hsz', hmk, hreqlen]
      rw [← hsz', ← hT.size, hmerge]
      by_cases hs : sha1 data = infoHash
      · simp [hs]
      · have hs' : ¬ infoHash = sha1 data := fun h => hs h.symm
        simp [hs, hs']
    rw [hb]
    by_cases hs : sha1 data = infoHash
    · simp only [if_pos hs]; rfl
    · simp only [if_neg hs]; rfl
  · simp only [reads_snoc, Nat.add_zero]
    rw [hur, hreads, r2]
    simp

theorem follows_sizes {t : PSt} {k : Nat} {g : Received} (hT : Follows t k g) (hall : g.all = true) : RightSizes t g.pieces := by
  intro i hi
  have hmem : g.pieces[i]? = some g.pieces[i] := List.getElem?_eq_getElem hi
  have hsome : (g.pieces[i]).isSome = true := by
    unfold Received.all at hall
    exact List.all_eq_true.1 hall _ (List.getElem_mem hi)
  obtain ⟨⟨j, d⟩, hjd⟩ := Option.isSome_iff_exists.1 hsome
  rw [hjd] at hmem
  by_cases hd : d = []
  · subst hd
    exact ⟨none, j, [], hT.none i j hmem, hmem, fun sl => ⟨fun h => (nomatch h), fun _ => rfl⟩⟩
  · obtain ⟨sl, c1, c2, c3, c4⟩ := hT.got i j d hmem hd
    exact ⟨some sl, j, d, c1, hmem, fun sl' => ⟨fun h => by cases h; exact ⟨c2, c3, c4⟩, fun h => (nomatch h)⟩⟩

/-- **When all pieces were received**, nothing more is read, whatever other downloads do. What is checked (and returned, if the hash is right) is as
long as what was received – but other downloads may have changed it. -/
theorem C110_complete {E : PEnv} {peerId infoHash : Bytes} {mem : Nat → Bytes} {pool : BPool} {hs : Bytes} {bodies : List Bytes} {fuel : Nat}
    (S : StreamAmong E peerId infoHash mem pool hs bodies fuel) (sha1 : Bytes → Bytes) (fold : FoldTable) (n k : Nat) (g : Received)
    (hv : verdict 0 0 .start bodies = .complete n k g) (hsz : g.size ≤ 2 ^ 48) :
    ∃ data s, data.length = g.content.length ∧ FetchMetaData E sha1 fold fuel peerId infoHash mem pool =
        (if sha1 data = infoHash then .returned (some data) none s else .returned none (some b!"check sum err") s) ∧
      reads s.trace = 1 + ((bodies.take n).flatMap wire).length := by
  have key := S.ends sha1 fold n k g hv hsz (K := fun _ _ => True) ⟨fun _ _ _ => trivial, fun _ _ _ _ _ _ _ _ => trivial⟩ (fun _ _ _ => trivial) (fun data _ => data.length = g.content.length) ?hP
  · obtain ⟨data, s, ⟨-, -, h1⟩, h2⟩ := key
    exact ⟨data, s, h1, h2⟩
  intro t m hT _ hall
  have hA : Along t { t with trace := t.trace ++ [.alloc m] } := .still hT.fine rfl rfl (by simp only [heldP_snoc]) (by simp only [reads_snoc, Nat.add_zero])
  obtain ⟨data, u, h1, h2, h3⟩ := merge_am S.among (ps := g.pieces) g.pieces.length 0 [] { t with trace := t.trace ++ [.alloc m] } (by omega) hA.fine (show RightSizes t g.pieces from follows_sizes hT hall)
  refine ⟨data, u, by rw [h1]; rfl, h2.trans hA.reads, ?_⟩
  rw [h3]
  rfl

/-- the message that completes the metadata carries a piece (unless there are none) -/
theorem verdict_last {bodies : List Bytes} : ∀ {n k n' k' : Nat} {g g' : Received}, g.all = false → verdict n k g bodies = .complete n' k' g' →
    g'.pieces = [] ∨ ∃ (i j : Nat) (d : Bytes), g'.pieces[i]? = some (some (j, d)) ∧ j + 1 = k' := by
  induction bodies with
  | nil =>
    intro n k n' k' g g' h0 h
    unfold verdict at h
    rw [h0] at h
    cases h
  | cons b r ih =>
    intro n k n' k' g g' h0 h
    unfold verdict at h
    rw [h0] at h
    simp only [Bool.false_eq_true, if_false] at h
    cases ha : g.after k (meaning b) with
    | none => rw [ha] at h; cases h
    | some g1 =>
      rw [ha] at h
      simp only at h
      cases hg1 : g1.all with
      | false => exact ih hg1 h
      | true =>
        have hdone : verdict (n + 1) (if b = [] then k else k + 1) g1 r = .complete (n + 1) (if b = [] then k else k + 1) g1 := by
          unfold verdict
          rw [hg1, if_pos rfl]
        rw [hdone] at h
        cases h
        cases hm : meaning b with
        | pass => rw [hm] at ha; cases ha; rw [h0] at hg1; cases hg1
        | bad => rw [hm] at ha; cases ha
        | announce z =>
          rw [hm] at ha
          simp only [Received.after] at ha
          split at ha
          · cases ha
            left
            generalize ((z + 16383) / 16384).toNat = m at *
            cases m with
            | zero => rfl
            | succ m => simp [Received.all, List.replicate_succ] at hg1
          · cases ha
        | piece i d =>
          rw [hm] at ha
          simp only [Received.after] at ha
          split at ha
          · rename_i hc
            cases ha
            right
            have hb : b ≠ [] := by rintro rfl; cases hm
            refine ⟨i.toNat, k, d, ?_, by rw [if_neg hb]⟩
            simp only
            rw [List.getElem?_set_self (by omega)]
          · cases ha

/-- **Metadata of one piece** are downloaded right among other downloads, provided nobody writes into their buffer in the short time between giving it back
and merging. -/
theorem C110_one_piece {E : PEnv} {peerId infoHash : Bytes} {mem : Nat → Bytes} {pool : BPool} {hs : Bytes} {bodies : List Bytes} {fuel : Nat}
    (S : StreamAmong E peerId infoHash mem pool hs bodies fuel) (sha1 : Bytes → Bytes) (fold : FoldTable) (n k j : Nat) (size : Int) (d : Bytes)
    (hv : verdict 0 0 .start bodies = .complete n k { size, pieces := [some (j, d)] }) (hsz : size ≤ 2 ^ 48)
    (hquiet : ∀ tr b m x, (E.interfere (tr ++ [.put b, .alloc m]) x).1 b.arr = x.1 b.arr) :
    ∃ s, FetchMetaData E sha1 fold fuel peerId infoHash mem pool =
        (if sha1 d = infoHash then .returned (some d) none s else .returned none (some b!"check sum err") s) ∧
      reads s.trace = 1 + ((bodies.take n).flatMap wire).length := by
  have hj : j + 1 = k := by
    rcases verdict_last (by decide) hv with h | ⟨i, j', d', h1, h2⟩
    · simp at h
    · match i with
      | 0 => simp at h1; omega
      | i + 1 => simp at h1
  obtain ⟨data, s, ⟨-, -, h1⟩, h2, h3⟩ := S.ends sha1 fold n k _ hv hsz (K := fun _ _ => True) ⟨fun _ _ _ => trivial, fun _ _ _ _ _ _ _ _ => trivial⟩ (fun _ _ _ => trivial) (fun data _ => data = d) fun t m hT _ hall => by
    have hA : Along t { t with trace := t.trace ++ [.alloc m] } := .still hT.fine rfl rfl (by simp only [heldP_snoc]) (by simp only [reads_snoc, Nat.add_zero])
    by_cases hd : d = []
    · subst hd
      have := hT.none 0 j rfl
      refine ⟨[], { t with trace := t.trace ++ [.alloc m] }, ?_, hA.reads, rfl⟩
      show mergeLoop E 1 0 [] _ = _
      unfold mergeLoop
      simp only [PM.bind_apply, PM.get_apply, this]
      rfl
    · obtain ⟨sl, tr, b, c1, c2, c3, c4⟩ := hT.last hall 0 j d rfl hj hd
      obtain ⟨u, g1, A1, V1, -, m1⟩ := others_am S.among hA.fine
      refine ⟨d, { u with trace := u.trace ++ [.load] }, ?_, by simp only [reads_snoc, Nat.add_zero]; exact A1.reads.trans hA.reads, rfl⟩
      show mergeLoop E 1 0 [] _ = _
      unfold mergeLoop
      simp only [PM.bind_apply, PM.get_apply, c1, loadSlice, g1, emitP, PM.modify_apply, PM.pure_apply]
      have : readSlice u.mem sl = d := by
        rw [← c4]
        unfold readSlice
        rw [m1]
        simp only [c2, List.append_assoc, List.cons_append, List.nil_append]
        rw [c3, hquiet]
      rw [this]
      rfl
  subst h1
  exact ⟨s, h2, h3⟩

end P2P

import Verif.Spec.Download
import Verif.Props.PeerwireFrame
/-! # C70: a download as a function of the messages received -/
namespace P2P

theorem putBack_ok {E : PEnv} (hE : Calm E) (rb : Option Slice) (u : PSt) :
    ∃ v, putBack E rb u = .ok () v ∧ reads v.trace = reads u.trace := by
  cases rb with
  | none => exact ⟨u, rfl, rfl⟩
  | some rb =>
    unfold putBack
    by_cases h : rb.cap > 0
    · simp only [if_pos h]
      refine ⟨{ u with pool := u.pool.Put rb, trace := u.trace ++ [.put rb] }, by simp only [poolPut, PM.bind_apply, others_calm hE, PM.modify_apply, emitP], ?_⟩
      simp only [reads_snoc, Nat.add_zero]
    · simp only [if_neg h]
      exact ⟨u, rfl, rfl⟩

section
variable {E : PEnv} (hE : Calm E)
include hE

/-- a message with a body arrives: the handler runs `handleExtendedMsg` on extended messages and nothing on others, and then
returns the buffer -/
theorem handler_gen {s : PSt} {q32 : List Slice} {body : Bytes} (H : Ready s q32)
    (hne : body ≠ []) (hle : body.length ≤ 32768)
    (hr1 : ∀ tr, reads tr = reads s.trace → E.read tr 4 = (be32 body.length, false))
    (hr2 : ∀ tr, reads tr = reads s.trace + 1 → E.read tr 32768 = (body, false)) :
    ∃ b t, (q32 ≠ [] → q32 = b :: q32.tail) ∧ readSlice t.mem { b with len := body.length } = body ∧
      (∀ x ∈ q32.tail, x.arr ≠ b.arr ∧ t.mem x.arr = s.mem x.arr) ∧ Frame s t ∧ reads t.trace = reads s.trace + 2 ∧
      readMetaDataHandler E s = PM.deferred
        (if body[0]? = some 20 then handleExtendedMsg E { b with len := body.length } body else pure ())
        (putBack E (some { b with len := body.length })) t ∧
      (b.off = 0 ∧ (∃ rest, t.mem b.arr = body ++ rest) ∧ (q32 ≠ [] → t.mem b.arr = body ++ (s.mem b.arr).drop body.length)) ∧
      ∀ u, u.pool = t.pool → u.mem = t.mem →
        ∃ v, putBack E (some { b with len := body.length }) u = .ok () v ∧ Ready v (q32.tail ++ [b]) ∧ v.mem = u.mem ∧ Frame u v ∧
          reads v.trace = reads u.trace := by
  obtain ⟨⟨q4, H0, hq4⟩, hroom⟩ := H
  have hpos : 1 ≤ body.length := by cases body with | nil => exact absurd rfl hne | cons => simp
  obtain ⟨b, t, q4', g, H1, hb, hrd, hl, hq, hm, hf, hreads⟩ := readBytes_ok hE H0 ⟨hroom.1, hq4⟩ (pre := be32 body.length) rfl
    (by rw [beVal_be32 (by omega)]; omega) hle hr1 hr2
  refine ⟨b, { t with trace := t.trace ++ [.load] }, fun h => (hq h).1, hrd, fun x hx => ⟨H1.held_ne x (by simp [hx]), hm x hx⟩, hf, by simp only [reads_snoc, hreads], ?_, ⟨hb.1, ?_, fun h => (hq h).2⟩, fun u hup hum => ?_⟩
  · unfold readMetaDataHandler
    rw [PM.bind_apply, g]
    simp only [PM.deferred, handleMsg, Bool.false_eq_true, if_false, PM.bind_apply, load_ok hE, hrd]
    obtain ⟨c, hc⟩ : ∃ c, body[0]? = some c := ⟨body[0], List.getElem?_eq_getElem (by omega)⟩
    simp only [parsePrefixLenMsg, hc, PM.lift_ok]
    by_cases h20 : c = 20
    · subst h20; rfl
    · rw [if_neg (show ¬ (c.toNat = ExtendedPeerMsg) from fun h => h20 (UInt8.toNat_inj.1 h)), if_neg (by simpa using h20)]
  · refine ⟨(t.mem b.arr).drop body.length, ?_⟩
    have h0 : b.off = 0 := hb.1
    have : (t.mem b.arr).take body.length = body := by
      have h := hrd
      simp only [readSlice, h0, List.drop_zero] at h
      exact h
    exact (List.take_append_drop body.length (t.mem b.arr)).symm.trans (by rw [this])
  · have H2 : PoolI u [b] 4 q4' 32768 q32.tail := H1.change hup (fun a _ => by rw [hum])
    have hb2 : Buf u.mem 32768 b := by rw [hum]; exact hb
    have hms : u.pool.maxSize = s.pool.maxSize := by rw [hup]; exact hf.2.2.2
    obtain ⟨v, g3, H3, hm3, f3, t3⟩ := put_ok hE H2.swap hb2 (by rw [hms, List.length_tail]; omega) (rb := { b with len := body.length }) (by
        obtain ⟨a1, a2, a3, a4⟩ := hb
        cases b; simp at a2 a3; simp [a2, a3])
    have hcap : ({ b with len := body.length } : Slice).cap > 0 := by
      show b.cap > 0; rw [hb.2.2.1]; omega
    refine ⟨v, by simp only [putBack, if_pos hcap, g3], ⟨⟨q4', H3.swap, by rw [f3.2.2.2, hms]; exact hl⟩, by rw [f3.2.2.2, hms]; exact hroom.1, ?_⟩,
      hm3, f3, ?_⟩
    · rw [f3.2.2.2, hms]
      simp only [List.length_append, List.length_tail, List.length_cons, List.length_nil]; omega
    · simp only [t3, reads_snoc, Nat.add_zero]

/-- a keep-alive: nothing changes (its 4-byte buffer is lost) -/
theorem keepAlive_ok {s : PSt} {q32 : List Slice} (H : Ready s q32)
    (hr1 : ∀ tr, reads tr = reads s.trace → E.read tr 4 = (be32 0, false)) :
    ∃ t, readMetaDataHandler E s = .ok () t ∧ Ready t q32 ∧ (∀ x ∈ q32, t.mem x.arr = s.mem x.arr) ∧ Frame s t ∧ reads t.trace = reads s.trace + 1 := by
  obtain ⟨q4, H0, hq4⟩ := H.pool
  obtain ⟨p, s1, g1, H1, hp1, hm1, -, f1, t1⟩ := get_ok hE H0
  have hrd1 : reads s1.trace = reads s.trace := by simp only [t1, reads_snoc, Nat.add_zero]
  obtain ⟨s2, g2, e2, hm2, hv2, hp2, f2, t2⟩ := read_ok hE hp1 (d := be32 0) (Nat.le_of_eq rfl) (hr1 _ hrd1)
  have hrd2 : reads s2.trace = reads s.trace + 1 := by simp only [t2, reads_snoc, hrd1]
  have H2 := H1.change e2 hm2
  have hload : readSlice s2.mem p = be32 0 := by
    have h4 := hp1.2.2.2
    unfold readSlice
    rw [hv2, hp2.1, hp2.2.1]
    simp only [List.drop_zero]
    rfl
  have hnd := H2.nodup
  rw [List.cons_append, List.map_cons, List.nodup_cons] at hnd
  refine ⟨{ s2 with trace := s2.trace ++ [.load] }, ?_, ⟨⟨q4.tail, ⟨H2.ne, H2.c1, H2.c2, H2.b1, H2.b2, by simpa using hnd.2, fun x hx => H2.old x (by simp at hx ⊢; exact .inr hx)⟩, ?_⟩, ?_⟩, fun x hx => ?_, f1.trans f2, by simp only [reads_snoc, hrd2]⟩
  · unfold readMetaDataHandler
    have hstart : readBytesByPrefixLenMsg E s = .ok (true, none, false) { s2 with trace := s2.trace ++ [.load] } := by
      unfold readBytesByPrefixLenMsg
      simp only [PM.bind_apply, PrefixLen, g1, g2, Bool.false_eq_true, if_false]
      unfold readAfterPrefix
      simp only [PM.bind_apply, load_ok hE, hload]
      rw [if_neg (by decide), if_pos (by decide)]
      rfl
    rw [PM.bind_apply, hstart]
    rfl
  · rw [f2.2.2.2, f1.2.2.2, List.length_tail]; omega
  · rw [f2.2.2.2, f1.2.2.2]; exact H.room
  · rw [hm2 _ (H1.held_ne x (by simp [hx])), hm1 _ (H0.old x (by simp [hx]))]

/-- a length above 32768: the handler panics -/
theorem tooLong_panics {s : PSt} {q32 : List Slice} {n : Nat} (H : Ready s q32) (hn : 32768 < n ∧ n < 2 ^ 32)
    (hr1 : ∀ tr, reads tr = reads s.trace → E.read tr 4 = (be32 n, false)) :
    ∃ p t, readMetaDataHandler E s = .panic p t ∧ reads t.trace = reads s.trace + 1 := by
  have hv := beVal_be32 hn.2
  obtain ⟨t, h1, h2⟩ := C45_prefix_only hE H (pre := be32 n) rfl (.inr (by omega)) hr1
  refine ⟨.str b!"read prefix length err", t, ?_, h2⟩
  unfold readMetaDataHandler
  rw [PM.bind_apply, h1]
  have e1 : decide (beVal (be32 n) = 0) = false := by simp; omega
  have e2 : decide (beVal (be32 n) ≠ 0) = true := by simp; omega
  simp only [e1, e2, PM.deferred, handleMsg, Bool.false_eq_true, if_false, if_true, logPanic, PM.lift_panic]
  rfl

/-- What is known of the state after the messages with bodies `ws` (keep-alives apart): everything the specification knows, and for the
data of a piece, what is in the buffer it was received into. -/
structure Tracks (s : PSt) (q : List Slice) (m : Nat) (ws : List Bytes) (g : Received) : Prop where
  ready : Ready s q
  size : s.metaDataSize = g.size
  len : g.pieces.length ≤ s.metaData.length
  req : s.requested = g.pieces.map Option.isSome
  bufs : m = max 1 q.length
  none : ∀ i j : Nat, g.pieces[i]? = some (some (j, [])) → s.metaData[i]? = some none
  got : ∀ (i j : Nat) d, g.pieces[i]? = some (some (j, d)) → j < ws.length ∧
    (d ≠ [] → ∃ sl x body rest, s.metaData[i]? = some (some sl) ∧ ws[j]? = some body ∧ d.length ≤ body.length ∧ d = body.drop (body.length - d.length) ∧
      sl.arr = x.arr ∧ sl.off = body.length - d.length ∧ sl.len = d.length ∧
      q[(bufferNow m ws j).1]? = some x ∧ s.mem x.arr = (bufferNow m ws j).2 ++ rest)

omit hE in
theorem Tracks.trace {s : PSt} {q : List Slice} {m : Nat} {ws : List Bytes} {g : Received} (h : Tracks s q m ws g) (tr : List PEvent) :
    Tracks { s with trace := tr } q m ws g :=
  ⟨⟨(by obtain ⟨q4, H, h'⟩ := h.ready.pool; exact ⟨q4, ⟨H.ne, H.c1, H.c2, H.b1, H.b2, H.nodup, H.old⟩, h'⟩), h.ready.room⟩, h.size, h.len, h.req,
    h.bufs, h.none, h.got⟩

omit hE in
theorem bufferNow_snoc {m j : Nat} {ws : List Bytes} (w : Bytes) (hj : j < ws.length) : bufferNow m (ws ++ [w]) j = cycle m (bufferNow m ws j) w := by
  unfold bufferNow
  rw [List.drop_append_of_le_length (by omega), List.foldl_append, List.getElem?_append_left hj]
  rfl

omit hE in
theorem bufferNow_last {m : Nat} {ws : List Bytes} (w : Bytes) : bufferNow m (ws ++ [w]) ws.length = (m - 1, w) := by
  unfold bufferNow
  rw [List.drop_of_length_le (by simp)]
  simp

omit hE in
theorem over_length (old new : Bytes) : old.length ≤ (over old new).length := by
  unfold over; simp; omega

omit hE in
theorem cycle_length (m : Nat) (ws : List Bytes) : ∀ c : Nat × Bytes, c.2.length ≤ (ws.foldl (cycle m) c).2.length := by
  induction ws with
  | nil => intro c; exact Nat.le_refl _
  | cons w r ih =>
    rintro ⟨c, cur⟩
    refine Nat.le_trans ?_ (ih (cycle m (c, cur) w))
    cases c with
    | zero => exact over_length cur w
    | succ => exact Nat.le_refl _

omit hE in
/-- a buffer and its turn, over the next message -/
theorem carry {s t : PSt} {q : List Slice} {b x : Slice} {m c : Nat} {w cur rest : Bytes} (hm1 : m = max 1 q.length) (hq : q ≠ [] → q = b :: q.tail)
    (hm : ∀ x ∈ q.tail, x.arr ≠ b.arr ∧ t.mem x.arr = s.mem x.arr) (hb : q ≠ [] → t.mem b.arr = w ++ (s.mem b.arr).drop w.length)
    (hx : q[c]? = some x) (hr : s.mem x.arr = cur ++ rest) :
    (q.tail ++ [b])[(cycle m (c, cur) w).1]? = some x ∧ ∃ rest', t.mem x.arr = (cycle m (c, cur) w).2 ++ rest' := by
  have hne : q ≠ [] := by rintro rfl; cases hx
  obtain ⟨r, rfl⟩ : ∃ r, q = b :: r := ⟨q.tail, hq hne⟩
  simp only [List.tail_cons, List.length_cons] at hm1 hm ⊢
  cases c with
  | zero =>
    simp only [List.getElem?_cons_zero, Option.some.injEq] at hx
    subst hx
    simp only [cycle]
    refine ⟨?_, rest.drop (w.length - cur.length), ?_⟩
    · rw [show m - 1 = r.length by omega]; simp
    · rw [hb hne, hr, over, List.drop_append, List.append_assoc]
  | succ c =>
    simp only [List.getElem?_cons_succ] at hx
    simp only [cycle]
    refine ⟨?_, rest, ?_⟩
    · rw [List.getElem?_append_left]
      · exact hx
      · exact (List.getElem?_eq_some_iff.1 hx).1
    · rw [(hm x (List.mem_of_getElem? hx)).2, hr]

omit hE in
/-- where the payload of a data message starts, or that there is none -/
theorem dataOff_none {body : Bytes} {r : ExFetchMeta} (h : parseExtendedFetchMetaMsg body = .ok r) (hd : r.data = []) : r.dataOff = none := by
  match body with
  | [] => cases h
  | c0 :: rest =>
    simp only [parseExtendedFetchMetaMsg, List.getElem?_cons_zero] at h
    by_cases hc : ExtendedPeerMsg ≠ c0.toNat
    · rw [if_pos hc] at h; cases h
    · rw [if_neg hc] at h
      cases hr : (c0 :: rest)[1]? with
      | none => rw [hr] at h; cases h
      | some c1 =>
        rw [hr] at h
        simp only at h
        cases hdec : DecodeDictNoLimit ((c0 :: rest).drop 2) with
        | err _ => rw [hdec] at h; cases h
        | panic _ => rw [hdec] at h; cases h
        | diverge => rw [hdec] at h; cases h
        | ok o =>
          obtain ⟨d, n⟩ := o
          rw [hdec] at h
          simp only at h
          by_cases hn : n + 2 ≥ (c0 :: rest).length
          · rw [if_pos hn] at h
            obtain ⟨t, ht, h⟩ := Res.bind_eq_ok.1 h
            obtain ⟨p, hp, h⟩ := Res.bind_eq_ok.1 h
            injection h with h
            subst h
            rfl
          · rw [if_neg hn] at h
            obtain ⟨tot, _, h⟩ := Res.bind_eq_ok.1 h
            obtain ⟨t, ht, h⟩ := Res.bind_eq_ok.1 h
            obtain ⟨p, hp, h⟩ := Res.bind_eq_ok.1 h
            injection h with h
            subst h
            have := congrArg List.length hd
            simp only [List.length_drop, List.length_nil] at this
            omega

/-- what a failing message leads to: a panic, or a negative size of no pieces (which makes the final allocation panic) -/
def Dooms (m : PM Unit) (s : PSt) : Prop :=
  (∃ p t, m s = .panic p t ∧ reads t.trace = reads s.trace) ∨
  (∃ t, m s = .ok () t ∧ t.pool = s.pool ∧ t.mem = s.mem ∧ t.requested = [] ∧ t.metaDataSize < 0 ∧ reads t.trace = reads s.trace)

omit hE in
theorem lift_dooms {α : Type} {r : Res α} (f : α → PM Unit) (s : PSt) (h : ∀ a, r ≠ .ok a) (hd : r ≠ .diverge) :
    Dooms (PM.lift r >>= f) s := by
  refine .inl ?_
  cases r with
  | ok a => exact absurd rfl (h a)
  | err e => exact ⟨_, s, rfl, rfl⟩
  | panic p => exact ⟨_, s, rfl, rfl⟩
  | diverge => exact absurd rfl hd

omit hE in
/-- a message with another extended id, or no data -/
theorem pass_ext {body : Bytes} (h0 : body[0]? = some 20) (hle : body.length ≤ 32768) (hm : meaning body = .pass) (rb : Slice) (s : PSt) :
    handleExtendedMsg E rb body s = .ok () s := by
  match body, h0 with
  | [c], h0 =>
    simp at h0; subst h0
    simp [meaning] at hm
  | c :: id :: rest, h0 =>
    simp at h0; subst h0
    unfold handleExtendedMsg
    simp only [List.getElem?_cons_succ, List.getElem?_cons_zero]
    unfold meaning at hm
    rw [if_neg (by omega)] at hm
    simp only at hm
    rw [if_neg (by simp)] at hm
    by_cases h0 : id = 0
    · exfalso
      subst h0
      rw [if_pos rfl] at hm
      split at hm
      · split at hm <;> cases hm
      · cases hm
    · rw [if_neg h0] at hm
      rw [if_neg (show ¬ id.toNat = 0 from fun h => h0 (UInt8.toNat_inj.1 h))]
      by_cases h1 : id = 1
      · subst h1
        rw [if_pos rfl] at hm
        rw [if_pos (by decide)]
        cases hp : parseExtendedFetchMetaMsg (20 :: 1 :: rest) with
        | ok r =>
          rw [hp] at hm
          simp only at hm
          by_cases ht : r.msgType = 1
          · rw [if_pos ht] at hm; cases hm
          · simp only [PM.bind_apply, PM.lift_ok]
            rw [if_pos (fun h => ht h.symm)]
            rfl
        | err e => rw [hp] at hm; cases hm
        | panic e => rw [hp] at hm; cases hm
        | diverge => rw [hp] at hm; cases hm
      · rw [if_neg (show ¬ id.toNat = 1 from fun h => h1 (UInt8.toNat_inj.1 h))]
        rfl

omit hE in
theorem meaning_announce {body : Bytes} {z : Int} (h : meaning body = .announce z) :
    body[0]? = some 20 ∧ body[1]? = some 0 ∧ ∃ d, parseExtendedHandShake body = .ok d ∧ d.lookup b!"metadata_size" = some (.int z) := by
  unfold meaning at h
  split at h
  · cases h
  · split at h
    · cases h
    · split at h
      · cases h
      · rename_i hk
        have hk : _ = (20 : UInt8) := Decidable.not_not.1 hk
        subst hk
        split at h
        · cases h
        · split at h
          · rename_i hid
            subst hid
            refine ⟨rfl, rfl, ?_⟩
            split at h
            · rename_i d hd
              split at h
              · rename_i z' hz
                cases h
                exact ⟨d, hd, hz⟩
              · cases h
            · cases h
          · split at h
            · split at h
              · split at h <;> cases h
              · cases h
            · cases h

omit hE in
theorem meaning_piece {body : Bytes} {i : Int} {d : Bytes} (h : meaning body = .piece i d) :
    body[0]? = some 20 ∧ body[1]? = some 1 ∧ ∃ r, parseExtendedFetchMetaMsg body = .ok r ∧ r.msgType = 1 ∧ r.pieceNum = i ∧ r.data = d := by
  unfold meaning at h
  split at h
  · cases h
  · split at h
    · cases h
    · split at h
      · cases h
      · rename_i hk
        have hk : _ = (20 : UInt8) := Decidable.not_not.1 hk
        subst hk
        split at h
        · cases h
        · split at h
          · split at h
            · split at h <;> cases h
            · cases h
          · split at h
            · rename_i hid
              subst hid
              refine ⟨rfl, rfl, ?_⟩
              split at h
              · rename_i r hr
                split at h
                · rename_i ht
                  cases h
                  exact ⟨r, hr, ht, rfl, rfl⟩
                · cases h
              · cases h
            · cases h

omit hE in
theorem meaning_bad {body : Bytes} (hle : body.length ≤ 32768) (h : meaning body = .bad) (rb : Slice) (s : PSt) :
    body[0]? = some 20 ∧ Dooms (handleExtendedMsg E rb body) s := by
  unfold meaning at h
  rw [if_neg (by omega)] at h
  split at h
  · cases h
  · split at h
    · cases h
    · rename_i hk
      have hk : _ = (20 : UInt8) := Decidable.not_not.1 hk
      subst hk
      refine ⟨rfl, ?_⟩
      split at h
      · exact .inl ⟨_, s, rfl, rfl⟩
      · rename_i id rest
        unfold handleExtendedMsg
        simp only [List.getElem?_cons_succ, List.getElem?_cons_zero]
        by_cases h0 : id = 0
        · subst h0
          rw [if_pos rfl] at h
          rw [if_pos (by decide)]
          cases hp : parseExtendedHandShake (20 :: 0 :: rest) with
          | ok d =>
            rw [hp] at h
            simp only at h
            simp only [Dooms, PM.bind_apply, PM.lift_ok]
            have hl : ∀ z, d.lookup b!"metadata_size" ≠ some (.int z) := by
              intro z hz
              rw [hz] at h
              cases h
            left
            cases hz : d.lookup b!"metadata_size" with
            | none =>
              have hex : Dict.Exist d b!"metadata_size" = false := by simp [Dict.Exist, dictGet, hz]
              rw [if_pos (by simp [hex])]
              exact ⟨_, s, rfl, rfl⟩
            | some v =>
              have hex : Dict.Exist d b!"metadata_size" = true := by simp [Dict.Exist, dictGet, hz]
              rw [if_neg (by simp [hex])]
              have : ∀ r, Dict.GetInteger d b!"metadata_size" ≠ .ok r := by
                intro r hr
                cases v <;> simp [Dict.GetInteger, Dict.GetVal, dictGet, hz, GoVal.asInt] at hr
                exact hl _ hz
              have h3 := lift_dooms (r := Dict.GetInteger d b!"metadata_size") (fun _ => pure ()) s this (GetInteger_noDiv _ _)
              cases hg : Dict.GetInteger d b!"metadata_size" with
              | ok r => exact absurd hg (this r)
              | diverge => exact absurd hg (GetInteger_noDiv _ _)
              | err e => exact ⟨_, s, rfl, rfl⟩
              | panic e => exact ⟨_, s, rfl, rfl⟩
          | err e => exact .inl ⟨_, s, rfl, rfl⟩
          | panic e => exact .inl ⟨_, s, rfl, rfl⟩
          | diverge => exact absurd hp (parseExtendedHandShake_noDiv _)
        · rw [if_neg h0] at h
          rw [if_neg (show ¬ id.toNat = 0 from fun h => h0 (UInt8.toNat_inj.1 h))]
          by_cases h1 : id = 1
          · subst h1
            rw [if_pos rfl] at h
            rw [if_pos (by decide)]
            refine lift_dooms _ s ?_ (parseExtendedFetchMetaMsg_noDiv _)
            intro r hr
            rw [hr] at h
            simp only at h
            split at h <;> cases h
          · rw [if_neg h1] at h; cases h

/-- an announcement: the new state, or doom -/
theorem announce_gen {body : Bytes} {z : Int} (hm : meaning body = .announce z) (rb : Slice) (s : PSt) :
    (0 ≤ z ∧ 24 * ((z + 16383) / 16384) ≤ 2 ^ 48 → ∃ tr, handleExtendedMsg E rb body s = .ok () { s with
        metaDataSize := z, metaData := List.replicate ((z + 16383) / 16384).toNat none
        requested := List.replicate ((z + 16383) / 16384).toNat false, trace := tr } ∧
      reads tr = reads s.trace) ∧
    (¬ (0 ≤ z ∧ 24 * ((z + 16383) / 16384) ≤ 2 ^ 48) → Dooms (handleExtendedMsg E rb body) s) := by
  obtain ⟨-, hid, dict, hp, hz⟩ := meaning_announce hm
  have hex : Dict.Exist dict b!"metadata_size" = true := by simp [Dict.Exist, dictGet, hz]
  have hgi : Dict.GetInteger dict b!"metadata_size" = .ok z := by simp [Dict.GetInteger, Dict.GetVal, dictGet, hz, GoVal.asInt]
  refine ⟨fun ⟨h0, hsz⟩ => ?_, fun hbad => ?_⟩
  · have hc := C42_piece_count z h0
    obtain ⟨n, hn⟩ : ∃ n : Nat, (z + 16383) / 16384 = n := ⟨((z + 16383) / 16384).toNat, by omega⟩
    rw [hn] at hc hsz ⊢
    obtain ⟨tr, h1, h2⟩ := requestLoop_ok hE n 0 (by omega) { s with
          metaDataSize := z, metaData := List.replicate n none
          requested := List.replicate n false
          trace := s.trace ++ [.alloc (n * 24)] ++ [.alloc (n * 1)] ++ [.announced z] }
    refine ⟨tr, ?_, ?_⟩
    · unfold handleExtendedMsg
      rw [hid]
      simp only
      rw [if_pos (by decide), hp]
      simp only [PM.bind_apply, PM.lift_ok]
      rw [if_neg (by simp [hex]), hgi]
      simp only [PM.bind_apply, PM.lift_ok, PM.modify_apply, hc, make_ok hE n 24 (by omega), make_ok hE n 1 (by omega), emitP,
        Int.toNat_natCast, h1]
    · simp only [h2, reads_snoc, Nat.add_zero]
  · unfold Dooms handleExtendedMsg
    rw [hid]
    simp only
    rw [if_pos (by decide), hp]
    simp only [PM.bind_apply, PM.lift_ok]
    rw [if_neg (by simp [hex]), hgi]
    simp only [PM.bind_apply, PM.lift_ok, PM.modify_apply]
    by_cases h0 : 0 ≤ z
    · have hc := C42_piece_count z h0
      left
      unfold makeSized
      rw [hc, if_neg (by omega), if_pos (by unfold maxAlloc; omega)]
      exact ⟨_, _, rfl, rfl⟩
    · by_cases h1 : pieceCount z < 0
      · left
        unfold makeSized
        rw [if_pos h1]
        exact ⟨_, _, rfl, rfl⟩
      · have hc : pieceCount z = 0 := by
          unfold pieceCount at *
          simp only at *
          obtain ⟨n, rfl⟩ : ∃ n : Nat, z = -(n : Int) := ⟨(-z).toNat, by omega⟩
          have e1 : Int.tdiv (-(n : Int)) SizeOf16KB ≤ 0 := by
            rw [Int.neg_tdiv, Int.tdiv_eq_ediv_of_nonneg (by omega)]
            simp only [SizeOf16KB]
            omega
          have e2 : ¬ Int.tmod (-(n : Int)) SizeOf16KB > 0 := by
            rw [Int.neg_tmod, Int.tmod_eq_emod_of_nonneg (by omega)]
            simp only [SizeOf16KB]
            omega
          rw [if_neg e2] at *
          omega
        right
        rw [hc]
        simp only [make_ok hE 0 24 (by omega), make_ok hE 0 1 (by omega), show (0 : Int) = ((0 : Nat) : Int) from rfl, Int.toNat_natCast]
        refine ⟨_, rfl, rfl, rfl, rfl, ?_, ?_⟩
        · show z < 0; omega
        · simp only [reads_snoc, Nat.add_zero]

omit hE in
/-- data of a piece: stored, or doom -/
theorem piece_gen {body : Bytes} {i : Int} {d : Bytes} (hm : meaning body = .piece i d) (rb : Slice) (s : PSt)
    (hread : rb.len = body.length) (hlen : s.requested.length ≤ s.metaData.length) :
    (0 ≤ i ∧ i < s.requested.length → ∃ o : Option Slice,
      (d = [] → o = none) ∧ (d ≠ [] → ∃ sl, o = some sl ∧ sl.arr = rb.arr ∧ sl.off + d.length = rb.off + rb.len ∧ sl.len = d.length ∧ d.length ≤ body.length ∧
        d = body.drop (body.length - d.length)) ∧
      handleExtendedMsg E rb body s = .ok () { s with
        metaData := s.metaData.set i.toNat o, requested := s.requested.set i.toNat true, trace := s.trace ++ [.gotPiece i.toNat] }) ∧
    (¬ (0 ≤ i ∧ i < s.requested.length) → Dooms (handleExtendedMsg E rb body) s) := by
  obtain ⟨-, hid, r, hp, ht, hi, hd⟩ := meaning_piece hm
  have hstart : handleExtendedMsg E rb body s =
      (match setAt s.metaData i (r.dataOff.map fun n => { rb with off := rb.off + n, len := rb.len - n, cap := rb.cap - n }) with
        | none => .panic .runtime s
        | some md =>
          match setAt s.requested i true with
          | none => .panic .runtime { s with metaData := md }
          | some rq => .ok () { s with metaData := md, requested := rq, trace := s.trace ++ [.gotPiece i.toNat] }) := by
    unfold handleExtendedMsg
    rw [hid]
    simp only
    rw [if_neg (by decide), if_pos (by decide), hp]
    simp only [PM.bind_apply, PM.lift_ok]
    rw [if_neg (by rw [ht]; decide)]
    simp only [PM.bind_apply, PM.get_apply, hi]
    cases setAt s.metaData i (r.dataOff.map fun n => { rb with off := rb.off + n, len := rb.len - n, cap := rb.cap - n }) with
    | none => rfl
    | some md =>
      simp only [PM.bind_apply, PM.modify_apply]
      cases setAt s.requested i true <;> rfl
  refine ⟨fun h => ⟨r.dataOff.map fun n => { rb with off := rb.off + n, len := rb.len - n, cap := rb.cap - n }, fun h0 => ?_, fun h0 => ?_, ?_⟩, fun h => ?_⟩
  · rw [dataOff_none hp (by rw [hd, h0])]; rfl
  · obtain ⟨n, h1, h2, h3⟩ := dataOff_of_parse hp (by rw [hd]; exact h0)
    have hl : d.length = body.length - n := by rw [← hd, h3, List.length_drop]
    refine ⟨{ rb with off := rb.off + n, len := rb.len - n, cap := rb.cap - n }, by rw [h1]; rfl, rfl, ?_, ?_, by omega, ?_⟩
    · simp only; omega
    · simp only; omega
    · rw [show body.length - d.length = n by omega, ← hd, h3]
  · rw [hstart]
    unfold setAt
    rw [if_pos (by omega)]
    simp only
    rw [if_pos (by omega)]
  · left
    rw [hstart]
    unfold setAt
    rw [if_neg (c := 0 ≤ i ∧ i.toNat < s.requested.length) (by omega)]
    by_cases h1 : 0 ≤ i ∧ i.toNat < s.metaData.length
    · rw [if_pos h1]
      exact ⟨_, _, rfl, rfl⟩
    · rw [if_neg h1]
      exact ⟨_, _, rfl, rfl⟩

/-- one message -/
theorem msg_step {s : PSt} {q : List Slice} {m : Nat} {ws : List Bytes} {g : Received} {body : Bytes} (hT : Tracks s q m ws g) (hlt : body.length < 2 ^ 32)
    (hr : ∀ tr size j c, (wire body)[j]? = some c → reads tr = reads s.trace + j → E.read tr size = (c, false)) :
    (∀ g', g.after ws.length (meaning body) = some g' → ∃ t q', readMetaDataHandler E s = .ok () t ∧
      Tracks t q' m (ws ++ nonEmpty [body]) g' ∧ (body = [] ∧ q' = q ∨ q'.length = max 1 q.length) ∧
      reads t.trace = reads s.trace + (wire body).length) ∧
    (g.after ws.length (meaning body) = none →
      (∃ p t, readMetaDataHandler E s = .panic p t ∧ reads t.trace ≤ reads s.trace + (wire body).length) ∨
      (∃ t, readMetaDataHandler E s = .ok () t ∧ t.requested = [] ∧ t.metaDataSize < 0 ∧ reads t.trace = reads s.trace + (wire body).length)) := by
  by_cases hne : body = []
  · subst hne
    have hmean : meaning [] = .pass := rfl
    rw [hmean]
    refine ⟨fun g' hg' => ?_, fun h => by cases h⟩
    cases hg'
    obtain ⟨t, h1, h2, h3, h4, h5⟩ := keepAlive_ok hE hT.ready (fun tr htr => hr tr 4 0 _ rfl htr)
    refine ⟨t, q, h1, ?_, .inl ⟨rfl, rfl⟩, h5⟩
    rw [show ws ++ nonEmpty [[]] = ws by simp [nonEmpty]]
    refine ⟨h2, by rw [h4.2.1]; exact hT.size, by rw [h4.1]; exact hT.len, by rw [h4.2.2.1]; exact hT.req, hT.bufs, by rw [h4.1]; exact hT.none, fun i j d hd => ?_⟩
    obtain ⟨a1, a2⟩ := hT.got i j d hd
    refine ⟨a1, fun b1 => ?_⟩
    obtain ⟨sl, x, body, rest, c1, c2, c3, c4, c5, c6, c7, c8, c9⟩ := a2 b1
    exact ⟨sl, x, body, rest, by rw [h4.1]; exact c1, c2, c3, c4, c5, c6, c7, c8, by rw [h3 x (List.mem_of_getElem? c8)]; exact c9⟩
  · have hw : wire body = [be32 body.length, body] := by unfold wire; rw [if_neg hne]
    rw [hw] at hr
    have hwl : (wire body).length = 2 := by rw [hw]; rfl
    rw [hwl]
    by_cases hlong : body.length > 32768
    · have hmean : meaning body = .bad := by unfold meaning; rw [if_pos hlong]
      rw [hmean]
      refine ⟨fun g' h => (nomatch h), fun _ => .inl ?_⟩
      obtain ⟨p, t, h1, h2⟩ := tooLong_panics hE hT.ready (n := body.length) ⟨hlong, hlt⟩ (fun tr htr => hr tr 4 0 _ rfl htr)
      exact ⟨p, t, h1, by omega⟩
    · have hle : body.length ≤ 32768 := by omega
      obtain ⟨b, t, hq, hrd, hmem, hf, hreads, hrun, ⟨hoff, ⟨rest0, hbody⟩, hover⟩, hput⟩ := handler_gen hE hT.ready hne hle (fun tr htr => hr tr 4 0 _ rfl htr)
        (fun tr htr => hr tr 32768 1 _ rfl htr)
      have hmax : (q.tail ++ [b]).length = max 1 q.length := by
        simp only [List.length_append, List.length_tail, List.length_cons, List.length_nil]; omega
      -- doom
      have hdoom : body[0]? = some 20 → Dooms (handleExtendedMsg E { b with len := body.length } body) t →
          (∃ p u, readMetaDataHandler E s = .panic p u ∧ reads u.trace ≤ reads s.trace + 2) ∨
          (∃ u, readMetaDataHandler E s = .ok () u ∧ u.requested = [] ∧ u.metaDataSize < 0 ∧ reads u.trace = reads s.trace + 2) := by
        intro h20 hd
        rw [if_pos h20] at hrun
        rcases hd with ⟨p, u, hu, hur⟩ | ⟨u, hu, hup, hum, hu1, hu2, hur⟩
        · left
          obtain ⟨v, hv, hvr⟩ := putBack_ok hE (some { b with len := body.length }) u
          exact ⟨p, v, by rw [hrun]; simp only [PM.deferred, hu, hv], by omega⟩
        · right
          obtain ⟨v, hv, -, -, hfv, hvr⟩ := hput u hup hum
          exact ⟨v, by rw [hrun]; simp only [PM.deferred, hu, hv], by rw [hfv.2.2.1]; exact hu1, by rw [hfv.2.1]; exact hu2, by omega⟩
      -- success
      have hsucc : ∀ (u : PSt) (g' : Received), (if body[0]? = some 20 then handleExtendedMsg E { b with len := body.length } body else pure ()) t = .ok () u →
          u.pool = t.pool → u.mem = t.mem → reads u.trace = reads t.trace →
          u.metaDataSize = g'.size → g'.pieces.length ≤ u.metaData.length → u.requested = g'.pieces.map Option.isSome →
          (∀ i j : Nat, g'.pieces[i]? = some (some (j, [])) → u.metaData[i]? = some none) →
          (∀ (i j : Nat) d, g'.pieces[i]? = some (some (j, d)) → d ≠ [] →
            (g.pieces[i]? = some (some (j, d)) ∧ u.metaData[i]? = s.metaData[i]?) ∨
            (j = ws.length ∧ ∃ sl, u.metaData[i]? = some (some sl) ∧ sl.arr = b.arr ∧ sl.off + d.length = b.off + body.length ∧ sl.len = d.length ∧
              d.length ≤ body.length ∧ d = body.drop (body.length - d.length))) →
          (∀ (i j : Nat) d, g'.pieces[i]? = some (some (j, d)) → j < ws.length + 1) →
          ∃ v q', readMetaDataHandler E s = .ok () v ∧ Tracks v q' m (ws ++ nonEmpty [body]) g' ∧ (body = [] ∧ q' = q ∨ q'.length = max 1 q.length) ∧
            reads v.trace = reads s.trace + 2 := by
        intro u g' hu hup hum hur h1 h2 h3 h4 h5 h6
        obtain ⟨v, hv, hvR, hvm, hfv, hvr⟩ := hput u hup hum
        refine ⟨v, q.tail ++ [b], by rw [hrun]; simp only [PM.deferred, hu, hv], ?_, .inr hmax, by omega⟩
        rw [show ws ++ nonEmpty [body] = ws ++ [body] by simp [nonEmpty, hne]]
        refine ⟨hvR, by rw [hfv.2.1]; exact h1, by rw [hfv.1]; exact h2, by rw [hfv.2.2.1]; exact h3, by rw [hT.bufs]; omega, by rw [hfv.1]; exact h4, fun i j d hd =>
          ⟨by have := h6 i j d hd; simpa using this, fun hdne => ?_⟩⟩
        rcases h5 i j d hd hdne with ⟨e1, e2⟩ | ⟨rfl, sl, e1, e2, e3, e4, e5, e6⟩
        · obtain ⟨a1, a2⟩ := hT.got i j d e1
          obtain ⟨sl, x, bj, rest, c1, c2, c3, c4, c5, c6, c7, c8, c9⟩ := a2 hdne
          obtain ⟨d1, rest', d2⟩ := carry (t := t) (w := body) (m := m) hT.bufs hq hmem hover c8 c9
          refine ⟨sl, x, bj, rest', by rw [hfv.1, e2]; exact c1, by rw [List.getElem?_append_left a1]; exact c2, c3, c4, c5, c6, c7, ?_, ?_⟩
          · rw [bufferNow_snoc body a1]; exact d1
          · rw [bufferNow_snoc body a1, hvm, hum]; exact d2
        · refine ⟨sl, b, body, rest0, by rw [hfv.1]; exact e1, by simp, e5, e6, e2, by omega, e4, ?_, ?_⟩
          · rw [bufferNow_last]
            simp only
            rw [show m - 1 = q.tail.length by have := hT.bufs; rw [List.length_tail]; omega]
            simp
          · rw [bufferNow_last, hvm, hum]; exact hbody
      cases hm : meaning body with
      | pass =>
        refine ⟨fun g' hg' => ?_, fun h => by cases h⟩
        cases hg'
        have hu : (if body[0]? = some 20 then handleExtendedMsg E { b with len := body.length } body else pure ()) t = .ok () t := by
          split
          · rename_i h20; exact pass_ext h20 hle hm _ t
          · rfl
        exact hsucc t g hu rfl rfl rfl (by rw [hf.2.1]; exact hT.size) (by rw [hf.1]; exact hT.len) (by rw [hf.2.2.1]; exact hT.req)
          (by rw [hf.1]; exact hT.none) (fun i j d hd _ => .inl ⟨hd, by rw [hf.1]⟩) (fun i j d hd => by have := (hT.got i j d hd).1; omega)
      | bad =>
        refine ⟨fun g' h => (nomatch h), fun _ => ?_⟩
        obtain ⟨h20, hd⟩ := meaning_bad hle hm { b with len := body.length } t (E := E)
        exact hdoom h20 hd
      | announce z =>
        have h20 := (meaning_announce hm).1
        obtain ⟨ha1, ha2⟩ := announce_gen hE hm { b with len := body.length } t
        refine ⟨fun g' hg' => ?_, fun hg' => ?_⟩
        · simp only [Received.after] at hg'
          split at hg'
          · rename_i hc
            cases hg'
            obtain ⟨tr, h1, h2⟩ := ha1 hc
            refine hsucc { t with
                metaDataSize := z, metaData := List.replicate ((z + 16383) / 16384).toNat none
                requested := List.replicate ((z + 16383) / 16384).toNat false, trace := tr } _ (by rw [if_pos h20]; exact h1) rfl rfl h2 rfl (by simp) (by simp) ?_ ?_ ?_
            · intro i j hd
              simp [List.getElem?_replicate] at hd
            · intro i j d hd
              simp [List.getElem?_replicate] at hd
            · intro i j d hd
              simp [List.getElem?_replicate] at hd
          · cases hg'
        · simp only [Received.after] at hg'
          split at hg'
          · cases hg'
          · rename_i hc
            exact hdoom h20 (ha2 hc)
      | piece i d =>
        have h20 := (meaning_piece hm).1
        have hrl : t.requested.length = g.pieces.length := by rw [hf.2.2.1, hT.req]; simp
        obtain ⟨ha1, ha2⟩ := piece_gen (E := E) hm { b with len := body.length } t rfl (by rw [hrl, hf.1]; exact hT.len)
        rw [hrl] at ha1 ha2
        refine ⟨fun g' hg' => ?_, fun hg' => ?_⟩
        · simp only [Received.after] at hg'
          split at hg'
          · rename_i hc
            cases hg'
            obtain ⟨o, ho1, ho2, h1⟩ := ha1 hc
            have hml : i.toNat < t.metaData.length := by
              have := hT.len
              rw [hf.1]; omega
            refine hsucc { t with
                metaData := t.metaData.set i.toNat o, requested := t.requested.set i.toNat true, trace := t.trace ++ [.gotPiece i.toNat] } _
              (by rw [if_pos h20]; exact h1) rfl rfl (by simp only [reads_snoc, Nat.add_zero]) (by simp only; rw [hf.2.1]; exact hT.size)
              (by simp only [List.length_set]; rw [hf.1]; exact hT.len) ?_ ?_ ?_ ?_
            · simp only
              rw [hf.2.2.1, hT.req, List.map_set]
              rfl
            · intro i' j hd
              simp only at hd ⊢
              by_cases hi : i.toNat = i'
              · subst hi
                rw [List.getElem?_set_self (by omega)] at hd
                cases hd
                rw [List.getElem?_set_self hml, ho1 rfl]
              · rw [List.getElem?_set_ne hi] at hd ⊢
                rw [hf.1]
                exact hT.none i' j hd
            · intro i' j d' hd hdne
              simp only at hd ⊢
              by_cases hi : i.toNat = i'
              · subst hi
                rw [List.getElem?_set_self (by omega)] at hd
                cases hd
                obtain ⟨sl, e1, e2, e3⟩ := ho2 hdne
                exact .inr ⟨rfl, sl, by rw [List.getElem?_set_self hml, e1], e2, e3⟩
              · rw [List.getElem?_set_ne hi] at hd ⊢
                exact .inl ⟨hd, by rw [hf.1]⟩
            · intro i' j d' hd
              simp only at hd
              by_cases hi : i.toNat = i'
              · subst hi
                rw [List.getElem?_set_self (by omega)] at hd
                cases hd
                omega
              · rw [List.getElem?_set_ne hi] at hd
                have := (hT.got i' j d' hd).1
                omega
          · cases hg'
        · simp only [Received.after] at hg'
          split at hg'
          · cases hg'
          · rename_i hc
            exact hdoom h20 (ha2 hc)

/-- a failing read ends the download -/
theorem readErr_panics {s : PSt} {q : List Slice} (H : Ready s q) (hr : ∀ tr, reads tr = reads s.trace → (E.read tr 4).2 = true) :
    ∃ p t, readMetaDataHandler E s = .panic p t := by
  obtain ⟨q4, H0, hq4⟩ := H.pool
  obtain ⟨p, s1, g1, H1, hp1, hm1, -, f1, t1⟩ := get_ok hE H0
  have hrd1 : reads s1.trace = reads s.trace := by simp only [t1, reads_snoc, Nat.add_zero]
  have hrd := hr _ hrd1
  obtain ⟨t, h⟩ : ∃ t, readBytesByPrefixLenMsg E s = .ok (false, none, true) t := by
    unfold readBytesByPrefixLenMsg
    simp only [PM.bind_apply, PrefixLen, g1, connRead, others_calm hE, PM.get_apply, PM.modify_apply, emitP, PM.pure_apply, hp1.2.1, hrd, if_true]
    exact ⟨_, rfl⟩
  refine ⟨.str b!"read prefix length err", t, ?_⟩
  unfold readMetaDataHandler
  rw [PM.bind_apply, h]
  rfl

omit hE in
theorem completed_iff {s : PSt} {q : List Slice} {m : Nat} {ws : List Bytes} {g : Received} (hT : Tracks s q m ws g) : CompledMetaData s = g.all := by
  unfold CompledMetaData Received.all
  rw [hT.req, List.all_map]
  rfl

/-- what the loop does with the messages to come -/
def LoopDoes (E : PEnv) (fuel : Nat) (s : PSt) (m : Nat) (ws : List Bytes) (n : Nat) (bodies : List Bytes) : Verdict → Prop
  | .failed n' => n ≤ n' ∧
    ((∃ p t, readMetaDataLoop E fuel s = .panic p t ∧ reads t.trace ≤ reads s.trace + ((bodies.take (n' + 1 - n)).flatMap wire).length) ∨
    (∃ t, readMetaDataLoop E fuel s = .ok () t ∧ t.requested = [] ∧ t.metaDataSize < 0 ∧
      reads t.trace ≤ reads s.trace + ((bodies.take (n' + 1 - n)).flatMap wire).length))
  | .complete n' k' g' => n ≤ n' ∧ g'.all = true ∧ ∃ t q', readMetaDataLoop E fuel s = .ok () t ∧ Tracks t q' m (ws ++ nonEmpty (bodies.take (n' - n))) g' ∧
      k' = (ws ++ nonEmpty (bodies.take (n' - n))).length ∧
      reads t.trace = reads s.trace + ((bodies.take (n' - n)).flatMap wire).length
  | .waiting => (∀ tr size, reads tr = reads s.trace + (bodies.flatMap wire).length → (E.read tr size).2 = true) →
      ∃ p t, readMetaDataLoop E fuel s = .panic p t

theorem msgs_loop (bodies : List Bytes) : ∀ (n : Nat) (m : Nat) (ws : List Bytes) (g : Received) (s : PSt) (q : List Slice) (fuel : Nat), Tracks s q m ws g →
    (∀ tr size j c, (bodies.flatMap wire)[j]? = some c → reads tr = reads s.trace + j → E.read tr size = (c, false)) →
    (∀ b ∈ bodies, b.length < 2 ^ 32) → bodies.length + 1 ≤ fuel → LoopDoes E fuel s m ws n bodies (verdict n ws.length g bodies) := by
  induction bodies with
  | nil =>
    intro n m ws g s q fuel hT hr hlt hf
    obtain ⟨f, rfl⟩ : ∃ f, fuel = f + 1 := ⟨fuel - 1, by omega⟩
    unfold verdict
    have hc := completed_iff hT
    cases hg : g.all with
    | true =>
      refine ⟨Nat.le_refl _, hg, s, q, ?_, by simpa [nonEmpty] using hT, by simp [nonEmpty], by simp⟩
      unfold readMetaDataLoop
      simp only [PM.bind_apply, PM.get_apply, hc, hg, if_true, PM.pure_apply]
    | false =>
      intro hend
      obtain ⟨p, t, h⟩ := readErr_panics hE (hT.trace (s.trace ++ [.expired false])).ready (fun tr htr => hend tr 4 (by
        simp only [reads_snoc] at htr; simpa using htr))
      refine ⟨p, t, ?_⟩
      unfold readMetaDataLoop
      simp only [PM.bind_apply, PM.get_apply, hc, hg, Bool.false_eq_true, if_false, IsReadLoopExpire, hE.time, emitP, PM.modify_apply,
        PM.pure_apply, h]
  | cons b r ih =>
    intro n m ws g s q fuel hT hr hlt hf
    obtain ⟨f, rfl⟩ : ∃ f, fuel = f + 1 := ⟨fuel - 1, by omega⟩
    unfold verdict
    have hc := completed_iff hT
    cases hg : g.all with
    | true =>
      refine ⟨Nat.le_refl _, hg, s, q, ?_, by simpa [nonEmpty] using hT, by simp [nonEmpty], by simp⟩
      unfold readMetaDataLoop
      simp only [PM.bind_apply, PM.get_apply, hc, hg, if_true, PM.pure_apply]
    | false =>
      simp only [Bool.false_eq_true, if_false]
      have hloop : readMetaDataLoop E (f + 1) s = (readMetaDataHandler E >>= fun _ => readMetaDataLoop E f) { s with trace := s.trace ++ [.expired false] } := by
        rw [readMetaDataLoop]
        simp only [PM.bind_apply, PM.get_apply, hc, hg, Bool.false_eq_true, if_false, IsReadLoopExpire, hE.time, emitP, PM.modify_apply,
          PM.pure_apply]
      have hrd0 : reads (s.trace ++ [.expired false]) = reads s.trace := by simp only [reads_snoc, Nat.add_zero]
      obtain ⟨m1, m2⟩ := msg_step hE (hT.trace (s.trace ++ [.expired false])) (hlt b (by simp)) (fun tr size j c hj htr =>
        hr tr size j c (by
          rw [List.flatMap_cons, List.getElem?_append_left]
          · exact hj
          · rcases Nat.lt_or_ge j (wire b).length with h | h
            · exact h
            · rw [List.getElem?_eq_none h] at hj; cases hj) (by simp only [hrd0] at htr; exact htr))
      simp only [hrd0] at m1 m2
      cases ha : g.after ws.length (meaning b) with
      | none =>
        refine ⟨Nat.le_refl _, ?_⟩
        have htake : ((b :: r).take (n + 1 - n)) = [b] := by rw [show n + 1 - n = 1 by omega]; rfl
        rw [htake, hloop, PM.bind_apply]
        have hw : ([b].flatMap wire).length = (wire b).length := by simp
        rw [hw]
        rcases m2 ha with ⟨p, t, h1, h2⟩ | ⟨t, h1, h2, h3, h4⟩
        · left
          rw [h1]
          exact ⟨p, t, rfl, h2⟩
        · right
          rw [h1]
          refine ⟨t, ?_, h2, h3, Nat.le_of_eq h4⟩
          obtain ⟨f', rfl⟩ : ∃ f', f = f' + 1 := ⟨f - 1, by simp at hf; omega⟩
          simp only
          unfold readMetaDataLoop
          have : CompledMetaData t = true := by unfold CompledMetaData; rw [h2]; rfl
          simp only [PM.bind_apply, PM.get_apply, this, if_true, PM.pure_apply]
      | some g' =>
        obtain ⟨t, q', h1, h2, h3, h4⟩ := m1 g' ha
        simp only
        have hk' : (if b = [] then ws.length else ws.length + 1) = (ws ++ nonEmpty [b]).length := by
          by_cases e : b = []
          · simp [nonEmpty, e]
          · simp [nonEmpty, e]
        have happ : ∀ x, ws ++ nonEmpty [b] ++ nonEmpty x = ws ++ nonEmpty (b :: x) := by
          intro x; simp only [nonEmpty, List.append_assoc]; rw [← List.filter_append]; rfl
        have hr' : ∀ tr size j c, (r.flatMap wire)[j]? = some c → reads tr = reads t.trace + j → E.read tr size = (c, false) := by
          intro tr size j c hj htr
          refine hr tr size ((wire b).length + j) c ?_ (by omega)
          rw [List.flatMap_cons, List.getElem?_append_right (by omega)]
          rw [show (wire b).length + j - (wire b).length = j by omega]
          exact hj
        rw [hk']
        have := ih (n + 1) m _ g' t q' f h2 hr' (fun x hx => hlt x (by simp [hx])) (by simp at hf; omega)
        have hstep : readMetaDataLoop E (f + 1) s = readMetaDataLoop E f t := by rw [hloop, PM.bind_apply, h1]
        revert this
        cases verdict (n + 1) (ws ++ nonEmpty [b]).length g' r with
        | failed n' =>
          rintro ⟨a1, a2⟩
          refine ⟨by omega, ?_⟩
          have htake : (((b :: r).take (n' + 1 - n)).flatMap wire).length = (wire b).length + ((r.take (n' + 1 - (n + 1))).flatMap wire).length := by
            rw [show n' + 1 - n = n' + 1 - (n + 1) + 1 by omega, List.take_succ_cons, List.flatMap_cons, List.length_append]
          rw [hstep, htake]
          rcases a2 with ⟨p, u, b1, b2⟩ | ⟨u, b1, b2, b3, b4⟩
          · exact .inl ⟨p, u, b1, by omega⟩
          · exact .inr ⟨u, b1, b2, b3, by omega⟩
        | complete n' k'' g'' =>
          rintro ⟨a1, a2, u, q'', b1, b2, b3, b5⟩
          have hn : (b :: r).take (n' - n) = b :: r.take (n' - (n + 1)) := by
            rw [show n' - n = n' - (n + 1) + 1 by omega, List.take_succ_cons]
          rw [happ] at b2 b3
          refine ⟨by omega, a2, u, q'', by rw [hstep]; exact b1, by rw [hn]; exact b2, by rw [hn]; exact b3, ?_⟩
          rw [hn, List.flatMap_cons, List.length_append]
          omega
        | waiting =>
          intro hw hend
          rw [hstep]
          refine hw fun tr size htr => hend tr size ?_
          rw [List.flatMap_cons, List.length_append]
          omega

/-- merging pieces, some of which are nil -/
theorem merge_gen {s : PSt} {ps : List (Option (Nat × Bytes))} (f : Nat → Bytes → Bytes) (k : Nat) :
    ∀ i acc, i + k = ps.length →
      (∀ i, i < ps.length → ∃ o j d, s.metaData[i]? = some o ∧ ps[i]? = some (some (j, d)) ∧
        (match o with | some sl => readSlice s.mem sl = f j d | none => f j d = [])) →
      ∃ tr, mergeLoop E k i acc s = .ok (acc ++ (ps.drop i).flatMap fun p => match p with | some (j, d) => f j d | none => []) { s with trace := tr } ∧ reads tr = reads s.trace := by
  induction k generalizing s with
  | zero =>
    intro i acc hi _
    rw [List.drop_of_length_le (by omega)]
    exact ⟨s.trace, by simp [mergeLoop], rfl⟩
  | succ k ih =>
    intro i acc hi h
    obtain ⟨o, j, d, h1, h2, h3⟩ := h i (by omega)
    have hi' : i < ps.length := by omega
    rw [List.getElem?_eq_getElem hi'] at h2
    have h2 := Option.some.inj h2
    rw [List.drop_eq_getElem_cons hi', h2]
    unfold mergeLoop
    cases o with
    | none =>
      simp only at h3
      simp only [PM.bind_apply, PM.get_apply, h1]
      obtain ⟨tr, hm, hr⟩ := ih (i + 1) acc (by omega) h
      refine ⟨tr, ?_, hr⟩
      rw [hm]
      simp [h3]
    | some sl =>
      simp only at h3
      simp only [PM.bind_apply, PM.get_apply, h1, load_ok hE, h3]
      obtain ⟨tr, hm, hr⟩ := ih (s := { s with trace := s.trace ++ [.load] }) (i + 1) (acc ++ f j d) (by omega) h
      refine ⟨tr, ?_, hr.trans (by simp only [reads_snoc, Nat.add_zero])⟩
      rw [hm]
      simp only [List.flatMap_cons, List.append_assoc]

end

theorem verdict_size {bodies : List Bytes} : ∀ {n k n' k' : Nat} {g g' : Received}, 0 ≤ g.size → verdict n k g bodies = .complete n' k' g' → 0 ≤ g'.size := by
  induction bodies with
  | nil =>
    intro n k n' k' g g' h0 h
    unfold verdict at h
    split at h
    · cases h; exact h0
    · cases h
  | cons b r ih =>
    intro n k n' k' g g' h0 h
    unfold verdict at h
    split at h
    · cases h; exact h0
    · simp only at h
      split at h
      · cases h
      · rename_i g1 hg1
        refine ih ?_ h
        cases hm : meaning b <;> rw [hm] at hg1 <;> simp only [Received.after] at hg1
        · cases hg1; exact h0
        · split at hg1
          · cases hg1; rename_i hc; exact hc.1
          · cases hg1
        · split at hg1
          · cases hg1; exact h0
          · cases hg1
        · cases hg1

/-- The setting of the following theorems: nobody else uses the buffers, writes succeed, there are time and memory; the
peer answers the handshake and then sends `bodies`, each as one read for the length prefix and one for the body; `q32` are the
spare 32 KiB buffers in the pool. -/
structure Stream (E : PEnv) (peerId infoHash : Bytes) (mem : Nat → Bytes) (pool : BPool) (q32 : List Slice) (hs : Bytes) (bodies : List Bytes) (fuel : Nat) : Prop where
  calm : Calm E
  ready : Ready (NewPeerConn mem pool) q32
  peer : peerId.length = 20
  info : infoHash.length = 20
  handshake : IsPeerHandshake hs
  delivers : Delivers E (hs :: bodies.flatMap wire)
  lengths : ∀ b ∈ bodies, b.length < 2 ^ 32
  rounds : bodies.length + 1 ≤ fuel

theorem Stream.loop {E : PEnv} {peerId infoHash : Bytes} {mem : Nat → Bytes} {pool : BPool} {q32 : List Slice} {hs : Bytes} {bodies : List Bytes} {fuel : Nat}
    (S : Stream E peerId infoHash mem pool q32 hs bodies fuel) (fold : FoldTable) :
    ∃ s0, handshakePeer E fold peerId infoHash (NewPeerConn mem pool) = .ok () s0 ∧ ∃ s1, initialMessages E s0 = .ok () s1 ∧ reads s1.trace = 1 ∧
      LoopDoes E fuel s1 (max 1 q32.length) [] 0 bodies (verdict 0 0 .start bodies) := by
  have hE := S.calm
  have hready := S.ready
  have hinit : (NewPeerConn mem pool).requested = [false] ∧ reads (NewPeerConn mem pool).trace = 0 ∧ (NewPeerConn mem pool).metaDataSize = 0 ∧
    (NewPeerConn mem pool).metaData.length = 16 := ⟨rfl, rfl, rfl, rfl⟩
  generalize NewPeerConn mem pool = s0 at *
  obtain ⟨tr1, g1, r1⟩ := handshake_ok hE (fold := fold) S.handshake S.peer S.info s0
    (fun tr htr => S.delivers tr 68 _ (by rw [htr, hinit.2.1]; rfl))
  have r1 : reads tr1 = 1 := by rw [r1, hinit.2.1]
  obtain ⟨tr2, g2, r2⟩ := initial_ok hE { s0 with trace := tr1 }
  have r2 : reads tr2 = 1 := by rw [r2]; exact r1
  have hT : Tracks s0 q32 (max 1 q32.length) [] Received.start := by
    refine ⟨hready, hinit.2.2.1, by rw [hinit.2.2.2]; decide, by rw [hinit.1]; rfl, rfl, ?_, ?_⟩
    · intro i j h
      simp only [Received.start] at h
      match i with
      | 0 => simp at h
      | i + 1 => simp at h
    · intro i j d h
      simp only [Received.start] at h
      match i with
      | 0 => simp at h
      | i + 1 => simp at h
  refine ⟨_, g1, _, g2, r2, msgs_loop hE bodies 0 _ [] _ _ q32 fuel (hT.trace tr2) (fun tr size j c hj htr => ?_) S.lengths S.rounds⟩
  refine S.delivers tr size c ?_
  have : reads tr = j + 1 := by rw [htr]; show reads tr2 + j = _; omega
  rw [this, List.getElem?_cons_succ]
  exact hj

/-- A message that breaks the protocol makes the download fail, and nothing is read after it. -/
theorem C70_failed {E : PEnv} {peerId infoHash : Bytes} {mem : Nat → Bytes} {pool : BPool} {q32 : List Slice} {hs : Bytes} {bodies : List Bytes} {fuel : Nat}
    (S : Stream E peerId infoHash mem pool q32 hs bodies fuel) (sha1 : Bytes → Bytes) (fold : FoldTable) (n : Nat)
    (hv : verdict 0 0 .start bodies = .failed n) :
    ∃ s, FetchMetaData E sha1 fold fuel peerId infoHash mem pool = .returned none (some b!"FetchMetaData err") s ∧
      reads s.trace ≤ 1 + ((bodies.take (n + 1)).flatMap wire).length := by
  obtain ⟨s0, g1, s1, g2, r2, hl⟩ := S.loop fold
  rw [hv] at hl
  obtain ⟨-, hl⟩ := hl
  unfold FetchMetaData
  rw [S.calm.dial]
  simp only [Bool.false_eq_true, if_false]
  rcases hl with ⟨p, t, h1, h2⟩ | ⟨t, h1, h2, h3, h4⟩
  · have hb : fetchBody E sha1 fold fuel peerId infoHash (NewPeerConn mem pool) = .panic p t := by
      unfold fetchBody
      simp only [PM.bind_apply, g1, g2, h1]
    rw [hb]
    refine ⟨_, rfl, ?_⟩
    simp only [reads_snoc]
    simpa [r2] using h2
  · have hb : fetchBody E sha1 fold fuel peerId infoHash (NewPeerConn mem pool) = .panic .runtime t := by
      unfold fetchBody
      have : CompledMetaData t = true := by unfold CompledMetaData; rw [h2]; rfl
      simp only [PM.bind_apply, g1, g2, h1, PM.get_apply, this, not_true_eq_false, if_false, makeSized, if_pos h3, PM.panic_apply]
    rw [hb]
    refine ⟨_, rfl, ?_⟩
    simp only [reads_snoc]
    simpa [r2] using h4

/-- While pieces are missing and the peer stops, the download fails. -/
theorem C70_waiting {E : PEnv} {peerId infoHash : Bytes} {mem : Nat → Bytes} {pool : BPool} {q32 : List Slice} {hs : Bytes} {bodies : List Bytes} {fuel : Nat}
    (S : Stream E peerId infoHash mem pool q32 hs bodies fuel) (sha1 : Bytes → Bytes) (fold : FoldTable)
    (hv : verdict 0 0 .start bodies = .waiting)
    (hend : ∀ tr size, reads tr = 1 + (bodies.flatMap wire).length → (E.read tr size).2 = true) :
    ∃ s, FetchMetaData E sha1 fold fuel peerId infoHash mem pool = .returned none (some b!"FetchMetaData err") s := by
  obtain ⟨s0, g1, s1, g2, r2, hl⟩ := S.loop fold
  rw [hv] at hl
  obtain ⟨p, t, h1⟩ := hl (by rw [r2]; exact hend)
  unfold FetchMetaData
  rw [S.calm.dial]
  simp only [Bool.false_eq_true, if_false]
  have hb : fetchBody E sha1 fold fuel peerId infoHash (NewPeerConn mem pool) = .panic p t := by
    unfold fetchBody
    simp only [PM.bind_apply, g1, g2, h1]
  rw [hb]
  exact ⟨_, rfl⟩

/-- the end of a download, and where the pieces come from -/
theorem Stream.ends {E : PEnv} {peerId infoHash : Bytes} {mem : Nat → Bytes} {pool : BPool} {q32 : List Slice} {hs : Bytes} {bodies : List Bytes} {fuel : Nat}
    (S : Stream E peerId infoHash mem pool q32 hs bodies fuel) (sha1 : Bytes → Bytes) (fold : FoldTable) (n k : Nat) (g : Received)
    (hv : verdict 0 0 .start bodies = .complete n k g) (hsz : g.size ≤ 2 ^ 48) :
    (∃ s, FetchMetaData E sha1 fold fuel peerId infoHash mem pool =
        (if sha1 (g.merged (max 1 q32.length) (nonEmpty (bodies.take n))) = infoHash
          then .returned (some (g.merged (max 1 q32.length) (nonEmpty (bodies.take n)))) none s else .returned none (some b!"check sum err") s) ∧
      reads s.trace = 1 + ((bodies.take n).flatMap wire).length) ∧ k = (nonEmpty (bodies.take n)).length ∧
    ∀ (j : Nat) d, some (j, d) ∈ g.pieces → d ≠ [] → ∃ body, (nonEmpty (bodies.take n))[j]? = some body ∧ d.length ≤ body.length ∧ d = body.drop (body.length - d.length) := by
  have hE := S.calm
  obtain ⟨s0, g1, s1, g2, r2, hl⟩ := S.loop fold
  rw [hv] at hl
  obtain ⟨-, hall, t, q', h1, hT, hk, hreads⟩ := hl
  rw [List.nil_append, Nat.sub_zero] at hT hk
  generalize hws : nonEmpty (bodies.take n) = ws at *
  generalize max 1 q32.length = m at *
  have hdone : CompledMetaData t = true := by rw [completed_iff hT]; exact hall
  have hreqlen : t.requested.length = g.pieces.length := by rw [hT.req]; simp
  have h0 : 0 ≤ g.size := verdict_size (by decide) hv
  obtain ⟨sz, hsz'⟩ : ∃ sz : Nat, g.size = sz := ⟨g.size.toNat, by omega⟩
  have hmk := make_ok hE sz 1 (show sz * 1 ≤ 2 ^ 48 by omega) t
  obtain ⟨tr', hmerge, hrm⟩ := merge_gen hE (s := { t with trace := t.trace ++ [.alloc (sz * 1)] }) (ps := g.pieces) (pieceNow m ws) g.pieces.length 0 [] (by omega) (fun i hi => by
    have hmem : g.pieces[i]? = some g.pieces[i] := List.getElem?_eq_getElem hi
    have hsome : (g.pieces[i]).isSome = true := by
      unfold Received.all at hall
      exact List.all_eq_true.1 hall _ (List.getElem_mem hi)
    obtain ⟨⟨j, d⟩, hjd⟩ := Option.isSome_iff_exists.1 hsome
    rw [hjd] at hmem
    by_cases hd : d = []
    · subst hd
      exact ⟨none, j, [], hT.none i j hmem, hmem, by simp [pieceNow]⟩
    · obtain ⟨hj, hgot⟩ := hT.got i j d hmem
      obtain ⟨sl, x, body, rest, c1, c2, c3, c4, c5, c6, c7, c8, c9⟩ := hgot hd
      refine ⟨some sl, j, d, c1, hmem, ?_⟩
      simp only
      unfold readSlice pieceNow
      have hlen : body.length ≤ (bufferNow m ws j).2.length := by
        have := cycle_length m (ws.drop (j + 1)) (m - 1, ws[j]?.getD [])
        rw [c2] at this
        unfold bufferNow
        rw [c2]
        exact this
      rw [c5, c9, c6, c7, c2]
      simp only [Option.getD_some]
      rw [List.drop_append_of_le_length (by omega), List.take_append_of_le_length (by rw [List.length_drop]; omega)])
  rw [hT.size, hsz'] at hmerge
  refine ⟨⟨{ t with trace := tr' ++ [.close] }, ?_, ?_⟩, hk, fun j d hmem hd => ?_⟩
  · unfold FetchMetaData
    rw [hE.dial]
    simp only [Bool.false_eq_true, if_false]
    have hb : fetchBody E sha1 fold fuel peerId infoHash (NewPeerConn mem pool) =
        .ok (if sha1 (g.merged m ws) = infoHash then (some (g.merged m ws), none) else (none, some b!"check sum err"))
          { t with trace := tr' } := by
      unfold fetchBody
      simp only [PM.bind_apply, g1, g2, h1, PM.get_apply, hdone, not_true_eq_false, if_false, hT.size, hsz', hmk, hreqlen, hmerge, List.nil_append,
        List.drop_zero]
      have hcont : (g.pieces.flatMap fun p => match p with | some (j, d) => pieceNow m ws j d | none => []) = g.merged m ws := rfl
      rw [hcont]
      by_cases hs : sha1 (g.merged m ws) = infoHash
      · rw [if_neg (by simp [hs]), if_pos hs]; rfl
      · rw [if_pos (fun h => hs h.symm), if_neg hs]; rfl
    rw [hb]
    by_cases hs : sha1 (g.merged m ws) = infoHash
    · simp only [if_pos hs]; rfl
    · simp only [if_neg hs]; rfl
  · simp only [reads_snoc, Nat.add_zero, hrm]
    rw [hreads, r2]
    simp
  · obtain ⟨i, hi⟩ := List.getElem?_of_mem hmem
    obtain ⟨sl, x, body, rest, c1, c2, c3, c4, -⟩ := (hT.got i j d hi).2 hd
    exact ⟨body, c2, c3, c4⟩

theorem flatMap_same {α β : Type} {f g : α → List β} {l : List α} (h : ∀ p ∈ l, f p = g p) : l.flatMap f = l.flatMap g := by
  induction l with
  | nil => rfl
  | cons p r ih => rw [List.flatMap_cons, List.flatMap_cons, h p (by simp), ih (fun x hx => h x (by simp [hx]))]

theorem cycle_waits (m : Nat) (ws : List Bytes) : ∀ (c : Nat) (cur : Bytes), ws.length ≤ c → ws.foldl (cycle m) (c, cur) = (c - ws.length, cur) := by
  induction ws with
  | nil => intro c cur _; rfl
  | cons w r ih =>
    intro c cur h
    obtain ⟨c, rfl⟩ : ∃ c', c = c' + 1 := ⟨c - 1, by simp at h; omega⟩
    rw [List.foldl_cons]
    simp only [cycle]
    rw [ih c cur (by simp at h; omega)]
    simp

/-- **What any completed download returns.**  `max 1 q32.length` buffers take turns: the data returned (if it has the right hash)
is made of the pieces as they are in those buffers at the end, where later messages were written over earlier ones. -/
theorem C44_any_pieces {E : PEnv} {peerId infoHash : Bytes} {mem : Nat → Bytes} {pool : BPool} {q32 : List Slice} {hs : Bytes} {bodies : List Bytes} {fuel : Nat}
    (S : Stream E peerId infoHash mem pool q32 hs bodies fuel) (sha1 : Bytes → Bytes) (fold : FoldTable) (n k : Nat) (g : Received)
    (hv : verdict 0 0 .start bodies = .complete n k g) (hsz : g.size ≤ 2 ^ 48) :
    ∃ s, FetchMetaData E sha1 fold fuel peerId infoHash mem pool =
        (if sha1 (g.merged (max 1 q32.length) (nonEmpty (bodies.take n))) = infoHash
          then .returned (some (g.merged (max 1 q32.length) (nonEmpty (bodies.take n)))) none s else .returned none (some b!"check sum err") s) ∧
      reads s.trace = 1 + ((bodies.take n).flatMap wire).length :=
  (S.ends sha1 fold n k g hv hsz).1

/-- When all pieces of the metadata last announced were received, nothing more is read, and the result is the concatenation of the data last
received for each piece, provided it has the right hash and no piece is overwritten: fewer messages arrived after each of them
than there are spare buffers. -/
theorem C70_complete {E : PEnv} {peerId infoHash : Bytes} {mem : Nat → Bytes} {pool : BPool} {q32 : List Slice} {hs : Bytes} {bodies : List Bytes} {fuel : Nat}
    (S : Stream E peerId infoHash mem pool q32 hs bodies fuel) (sha1 : Bytes → Bytes) (fold : FoldTable) (n k : Nat) (g : Received)
    (hv : verdict 0 0 .start bodies = .complete n k g) (hsz : g.size ≤ 2 ^ 48)
    (hfresh : ∀ (j : Nat) d, some (j, d) ∈ g.pieces → d ≠ [] → k - j ≤ max 1 q32.length) :
    ∃ s, FetchMetaData E sha1 fold fuel peerId infoHash mem pool =
        (if sha1 g.content = infoHash then .returned (some g.content) none s else .returned none (some b!"check sum err") s) ∧
      reads s.trace = 1 + ((bodies.take n).flatMap wire).length := by
  obtain ⟨h1, hk, h3⟩ := S.ends sha1 fold n k g hv hsz
  have hc : g.merged (max 1 q32.length) (nonEmpty (bodies.take n)) = g.content := by
    unfold Received.merged Received.content
    generalize max 1 q32.length = m at *
    generalize nonEmpty (bodies.take n) = ws at *
    clear h1 hv
    refine flatMap_same fun p hp => ?_
    · match p with
      | none => rfl
      | some (j, d) =>
        by_cases hd : d = []
        · subst hd; simp [pieceNow]
        · obtain ⟨body, e1, e2, e3⟩ := h3 j d hp hd
          have := hfresh j d hp hd
          simp only
          unfold pieceNow bufferNow
          rw [cycle_waits m _ (m - 1) _ (by rw [List.length_drop]; omega), e1]
          simp only [Option.getD_some]
          rw [← e3]
          simp
  rw [hc] at h1
  exact h1

end P2P

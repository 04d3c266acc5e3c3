import Verif.Model.Fetch
import Verif.Props.Peerwire
/-! # C46 (only verified torrents are written) and C47 (which address is dialled) -/
namespace P2P

/-! ## Specification -/

/-- value of a lower-case hex digit -/
def hexVal (c : UInt8) : Option Nat :=
  if 48 ≤ c.toNat ∧ c.toNat ≤ 57 then some (c.toNat - 48)
  else if 97 ≤ c.toNat ∧ c.toNat ≤ 102 then some (c.toNat - 87)
  else none

/-- `h` is `s` written in lower-case hex, two digits per byte, high digit first -/
def IsHexOf (h s : Bytes) : Prop :=
  h.length = 2 * s.length ∧
  ∀ i b, s[i]? = some b → ∃ x y c d, h[2 * i]? = some x ∧ h[2 * i + 1]? = some y ∧ hexVal x = some c ∧ hexVal y = some d ∧
    b.toNat = 16 * c + d

theorem hexVal_hexDigit (n : Nat) (h : n < 16) : hexVal (hexDigit n) = some n := by
  revert n; decide

theorem hexEncode_isHexOf (s : Bytes) : IsHexOf (hexEncode s) s := by
  induction s with
  | nil => exact ⟨rfl, by simp⟩
  | cons b r ih =>
    refine ⟨by simp only [hexEncode, List.length_cons, ih.1]; omega, ?_⟩
    intro i c hc
    cases i with
    | zero =>
      simp at hc; subst hc
      have := b.toNat_lt
      exact ⟨_, _, _, _, rfl, rfl, hexVal_hexDigit _ (by omega), hexVal_hexDigit _ (by omega), by omega⟩
    | succ i =>
      simp at hc
      obtain ⟨x, y, c', d, h1, h2, h3⟩ := ih.2 i c hc
      refine ⟨x, y, c', d, ?_, ?_, h3⟩
      · rw [show 2 * (i + 1) = 2 * i + 1 + 1 by omega]; simpa [hexEncode] using h1
      · rw [show 2 * (i + 1) + 1 = 2 * i + 1 + 1 + 1 by omega]; simpa [hexEncode] using h2

/-- the hex text determines the bytes -/
theorem IsHexOf.unique {h s t : Bytes} (h1 : IsHexOf h s) (h2 : IsHexOf h t) : s = t := by
  have hl : s.length = t.length := by have := h1.1; have := h2.1; omega
  apply List.ext_getElem? 
  intro i
  rcases Nat.lt_or_ge i s.length with hi | hi
  · obtain ⟨x, y, c, d, a1, a2, a3, a4, a5⟩ := h1.2 i s[i] (List.getElem?_eq_getElem hi)
    obtain ⟨x', y', c', d', b1, b2, b3, b4, b5⟩ := h2.2 i t[i] (List.getElem?_eq_getElem (by omega))
    rw [a1] at b1; rw [a2] at b2
    injection b1 with b1; injection b2 with b2
    subst b1; subst b2
    rw [a3] at b3; rw [a4] at b4
    injection b3 with b3; injection b4 with b4
    rw [List.getElem?_eq_getElem hi, List.getElem?_eq_getElem (by omega : i < t.length)]
    congr 1
    exact UInt8.toNat_inj.1 (by omega)
  · rw [List.getElem?_eq_none hi, List.getElem?_eq_none (by omega)]

/-- every character is a hex digit, so neither '/' nor '.' nor NUL -/
theorem IsHexOf.digits {h s : Bytes} (hh : IsHexOf h s) : ∀ c ∈ h, (48 ≤ c.toNat ∧ c.toNat ≤ 57) ∨ (97 ≤ c.toNat ∧ c.toNat ≤ 102) := by
  intro c hc
  obtain ⟨k, hk, rfl⟩ := List.getElem_of_mem hc
  have hl := hh.1
  obtain ⟨x, y, a, b, h1, h2, h3, h4, -⟩ := hh.2 (k / 2) s[k / 2] (List.getElem?_eq_getElem (by omega))
  have hv : ∃ v, hexVal h[k] = some v := by
    rcases Nat.mod_two_eq_zero_or_one k with e | e
    · rw [show 2 * (k / 2) = k by omega, List.getElem?_eq_getElem hk] at h1
      injection h1 with h1; exact ⟨a, by rw [h1]; exact h3⟩
    · rw [show 2 * (k / 2) + 1 = k by omega, List.getElem?_eq_getElem hk] at h2
      injection h2 with h2; exact ⟨b, by rw [h2]; exact h4⟩
  obtain ⟨v, hv⟩ := hv
  unfold hexVal at hv
  by_cases c1 : 48 ≤ h[k].toNat ∧ h[k].toNat ≤ 57
  · exact .inl c1
  · rw [if_neg c1] at hv
    by_cases c2 : 97 ≤ h[k].toNat ∧ h[k].toNat ≤ 102
    · exact .inr c2
    · rw [if_neg c2] at hv; cases hv

theorem torrentPath_inj {a b : Bytes} (h : torrentPath a = torrentPath b) : a = b := by
  unfold torrentPath at h
  rw [List.append_assoc, List.append_assoc] at h
  exact List.append_cancel_right (List.append_cancel_left h)

/-! ## C46: what is flushed -/

/-- A download that delivers data had a 20-byte info hash. -/
theorem fetch_infoHash_length (E : PEnv) (sha1 : Bytes → Bytes) (fold : FoldTable) (fuel : Nat) (peerId infoHash : Bytes)
    (mem : Nat → Bytes) (pool : BPool) (d : Bytes) (err : Option Bytes) (s : PSt)
    (h : FetchMetaData E sha1 fold fuel peerId infoHash mem pool = .returned (some d) err s) : infoHash.length = 20 := by
  by_cases hl : infoHash.length = 20
  · exact hl
  · exfalso
    have hb := C38_build_panics peerId infoHash (.inr hl)
    unfold FetchMetaData at h
    by_cases hd : E.dialFails = true
    · rw [if_pos hd] at h; cases h
    · rw [if_neg hd] at h
      have : ∃ p, fetchBody E sha1 fold fuel peerId infoHash (NewPeerConn mem pool) = .panic p (NewPeerConn mem pool) := by
        unfold fetchBody handshakePeer
        simp only [PM.bind_apply, PM.lift, hb]
        exact ⟨_, rfl⟩
      obtain ⟨p, hp⟩ := this
      rw [hp] at h
      simp [emitP] at h

/-- **Only verified data is flushed**, under the hex name of the announced 20-byte info hash. -/
theorem C46_flush (env : Env) (conn : Bytes → PEnv) (sha1 : Bytes → Bytes) (fuel : Nat) (peerId : Bytes)
    (mem : Nat → Bytes) (pool : BPool) (ctx : Job) (hash data : Bytes)
    (h : fetchHandler env conn sha1 fuel peerId mem pool ctx = .flush hash data) :
    ∃ infoHash, (asMap ctx.req.body).lookup b!"info_hash" = some (.str infoHash) ∧ infoHash.length = 20 ∧
      IsHexOf hash infoHash ∧ sha1 data = infoHash := by
  unfold fetchHandler at h
  simp only [Dict.GetString, Dict.GetVal, dictGet] at h
  cases hlk : (asMap ctx.req.body).lookup b!"info_hash" with
  | none => rw [hlk] at h; cases h
  | some v =>
    rw [hlk] at h
    simp only [Res.bind_ok] at h
    cases hv : v.asStr with
    | none => rw [hv] at h; cases h
    | some ih =>
      rw [hv] at h
      have hv' : v = .str ih := by cases v <;> simp [GoVal.asStr] at hv; rw [hv]
      subst hv'
      simp only [Res.bind_ok] at h
      cases ha : parseFetchAddr env ctx with
      | err e => rw [ha] at h; cases h
      | panic p => rw [ha] at h; cases h
      | diverge => rw [ha] at h; cases h
      | ok laddr =>
        rw [ha] at h
        simp only [Res.bind_ok, Res.pure_eq] at h
        cases hf : FetchMetaData (conn laddr) sha1 env.fold fuel peerId ih mem pool with
        | dialErr => rw [hf] at h; cases h
        | panicked p => rw [hf] at h; cases h
        | fatal p => rw [hf] at h; cases h
        | diverge p => rw [hf] at h; cases h
        | returned ret err s =>
          rw [hf] at h
          rcases C41_authentic _ _ _ _ _ _ _ _ _ _ _ hf with ⟨-, he⟩ | ⟨d, rfl, rfl, hs⟩
          · simp only [if_pos he] at h; cases h
          · simp at h
            obtain ⟨rfl, rfl⟩ := h
            exact ⟨ih, rfl, fetch_infoHash_length _ _ _ _ _ _ _ _ _ _ _ hf, hexEncode_isHexOf ih, hs⟩


/-! ## C46: what ends up in the directory -/

/-- The jobs of a history of announces: job `j` handles `ctx j` in environment `conn j`, with the buffers `mem j`, `pool j`. -/
def fetchJobs (env : Env) (conn : Nat → Bytes → PEnv) (sha1 : Bytes → Bytes) (fuel : Nat) (peerId : Bytes)
    (mem : Nat → Nat → Bytes) (pool : Nat → BPool) (ctx : Nat → Job) : Nat → Option (Bytes × Bytes) := fun j =>
  match fetchHandler env (conn j) sha1 fuel peerId (mem j) (pool j) (ctx j) with
  | .flush hash data => some (hash, data)
  | _ => none

/-- two jobs never bring different data for the same name (no SHA-1 collision among the data fetched) -/
def SameData (jobs : Nat → Option (Bytes × Bytes)) : Prop :=
  ∀ i j hash d d', jobs i = some (hash, d) → jobs j = some (hash, d') → d = d'

theorem writeAt_length (c d : Bytes) (off : Nat) :
    (writeAt c off d).length = max (off + d.length) c.length := by
  unfold writeAt
  simp only [List.length_append, List.length_take, List.length_replicate, List.length_drop]
  omega

theorem writeAt_get (c d : Bytes) (off i : Nat) :
    (writeAt c off d)[i]? =
      if i < off then (if i < c.length then c[i]? else some 0)
      else if i < off + d.length then d[i - off]? else c[i]? := by
  unfold writeAt
  have hlen : ((c ++ List.replicate (off - c.length) 0).take off).length = off := by
    simp only [List.length_take, List.length_append, List.length_replicate]; omega
  by_cases h1 : i < off
  · rw [if_pos h1, List.append_assoc, List.getElem?_append_left (by omega), List.getElem?_take_of_lt h1]
    by_cases h2 : i < c.length
    · rw [if_pos h2, List.getElem?_append_left h2]
    · rw [if_neg h2, List.getElem?_append_right (by omega), List.getElem?_replicate, if_pos (by omega)]
  · rw [if_neg h1]
    by_cases h2 : i < off + d.length
    · rw [if_pos h2, List.append_assoc, List.getElem?_append_right (by omega), hlen, List.getElem?_append_left (by omega)]
    · rw [if_neg h2, List.append_assoc, List.getElem?_append_right (by omega), hlen, List.getElem?_append_right (by omega),
        List.getElem?_drop]
      congr 1; omega

/-- bytes of the data that a job has certainly put into the file it created last -/
def JobPc.offset (len : Nat) : JobPc → Nat
  | .writing off => off
  | .done => len
  | _ => 0

structure FsInv (jobs : Nat → Option (Bytes × Bytes)) (fs0 : Bytes → Option Bytes) (s : FsSt) : Prop where
  untouched : ∀ p, s.owner p = none → s.fs p = fs0 p
  owned : ∀ p j, s.owner p = some j → ∃ hash data c, jobs j = some (hash, data) ∧ p = torrentPath hash ∧ s.fs p = some c ∧
    c.length ≤ data.length ∧ (∀ i : Nat, c[i]? = none ∨ c[i]? = some 0 ∨ c[i]? = data[i]?) ∧
    (∀ i : Nat, i < (s.pc j).offset data.length → c[i]? = data[i]?) ∧ s.pc j ≠ .start
  started : ∀ j hash data, jobs j = some (hash, data) → (s.pc j).offset data.length ≤ data.length ∧
    (s.pc j = .done ∨ (∃ off, s.pc j = .writing off) → s.owner (torrentPath hash) ≠ none)

theorem fs_inv {jobs : Nat → Option (Bytes × Bytes)} (hsame : SameData jobs) {fs0 : Bytes → Option Bytes} {s : FsSt}
    (h : Reach (FsInit fs0) (FsStep jobs) s) : FsInv jobs fs0 s := by
  refine h.inv (FsInv jobs fs0) ?_ ?_
  · rintro s ⟨h1, h2, h3⟩
    refine ⟨fun p _ => by rw [h1], fun p j h => (by rw [h3] at h; cases h), fun j hash data _ => ⟨?_, ?_⟩⟩
    · rw [h2]; exact Nat.zero_le _
    · rintro (h | ⟨off, h⟩) <;> rw [h2] at h <;> cases h
  · intro s t I st
    -- a step that changes only the program counter of `j`, without claiming progress
    have pcOnly : ∀ (j : Nat) (pc' : JobPc), pc' ≠ .start →
        (∀ hash data, jobs j = some (hash, data) → pc'.offset data.length ≤ (s.pc j).offset data.length) →
        ((pc' = .done ∨ ∃ off, pc' = .writing off) → ∃ off, s.pc j = .writing off) →
        FsInv jobs fs0 { s with pc := upd s.pc j pc' } := by
      intro j pc' hns hoff hrun
      refine ⟨I.untouched, ?_, ?_⟩
      · intro p k hk
        obtain ⟨hash, data, c, a1, a2, a3, a4, a5, a6, a7⟩ := I.owned p k hk
        refine ⟨hash, data, c, a1, a2, a3, a4, a5, ?_, ?_⟩
        · intro i hi
          by_cases hkj : k = j
          · subst hkj
            simp only [upd_same] at hi
            exact a6 i (Nat.lt_of_lt_of_le hi (hoff _ _ a1))
          · simp only [upd_ne _ _ hkj] at hi; exact a6 i hi
        · by_cases hkj : k = j
          · subst hkj; simpa only [upd_same] using hns
          · simpa only [upd_ne _ _ hkj] using a7
      · intro k hash data hk
        by_cases hkj : k = j
        · subst hkj
          simp only [upd_same]
          exact ⟨Nat.le_trans (hoff _ _ hk) (I.started k hash data hk).1, fun h => (I.started k hash data hk).2 (.inr (hrun h))⟩
        · simp only [upd_ne _ _ hkj]; exact I.started k hash data hk
    cases st with
    | create j hash data hj hpc =>
      refine ⟨?_, ?_, ?_⟩
      · intro p hp
        by_cases e : p = torrentPath hash
        · subst e; simp at hp
        · simp only [upd_ne _ _ e] at hp ⊢; exact I.untouched p hp
      · intro p k hk
        by_cases e : p = torrentPath hash
        · subst e
          simp only [upd_same, Option.some.injEq] at hk
          subst hk
          refine ⟨hash, data, [], hj, rfl, by simp, by simp, fun i => by simp, fun i hi => ?_, by simp⟩
          simp [JobPc.offset] at hi
        · simp only [upd_ne _ _ e] at hk ⊢
          obtain ⟨hash', data', c, a1, a2, a3, a4, a5, a6, a7⟩ := I.owned p k hk
          have hkj : k ≠ j := by
            intro h; subst h; rw [hj] at a1; injection a1 with a1; injection a1 with a1; subst a1; exact e a2
          simp only [upd_ne _ _ hkj]
          exact ⟨hash', data', c, a1, a2, a3, a4, a5, a6, a7⟩
      · intro k hash' data' hk
        by_cases hkj : k = j
        · subst hkj
          rw [hj] at hk; injection hk with hk; injection hk with h1 h2; subst h1; subst h2
          simp [JobPc.offset]
        · simp only [upd_ne _ _ hkj]
          refine ⟨(I.started k hash' data' hk).1, fun h => ?_⟩
          by_cases e : torrentPath hash' = torrentPath hash
          · rw [e]; simp
          · simp only [upd_ne _ _ e]; exact (I.started k hash' data' hk).2 h
    | createFails j hash data hj hpc =>
      exact pcOnly j .failed (by simp) (fun _ _ _ => Nat.zero_le _) (by rintro (h | ⟨_, h⟩) <;> cases h)
    | writeFails j hash data off hj hpc =>
      exact pcOnly j .failed (by simp) (fun _ _ _ => Nat.zero_le _) (by rintro (h | ⟨_, h⟩) <;> cases h)
    | finish j hash data off hj hpc hoff =>
      refine pcOnly j .done (by simp) ?_ (fun _ => ⟨off, hpc⟩)
      intro hash' data' h'
      rw [hj] at h'; injection h' with h'; injection h' with h1 h2; subst h1; subst h2
      rw [hpc]; exact Nat.le_of_eq hoff.symm
    | write j hash data c off n hj hpc hc hn hle =>
      have hdl : ((data.drop off).take n).length = n := by simp; omega
      refine ⟨?_, ?_, ?_⟩
      · intro p hp
        by_cases e : p = torrentPath hash
        · subst e; exact absurd hp ((I.started j hash data hj).2 (.inr ⟨off, hpc⟩))
        · simp only [upd_ne _ _ e]; exact I.untouched p hp
      · intro p k hk
        obtain ⟨hash', data', c', a1, a2, a3, a4, a5, a6, a7⟩ := I.owned p k hk
        by_cases e : p = torrentPath hash
        · subst e
          have hh := torrentPath_inj a2; subst hh
          have hd := hsame _ _ _ _ _ hj a1; subst hd
          rw [hc] at a3; injection a3 with a3; subst a3
          refine ⟨hash, data, writeAt c off ((data.drop off).take n), a1, rfl, by simp, ?_, ?_, ?_, ?_⟩
          · rw [writeAt_length, hdl]; omega
          · intro i
            rw [writeAt_get, hdl]
            by_cases h1 : i < off
            · rw [if_pos h1]
              by_cases h2 : i < c.length
              · rw [if_pos h2]; exact a5 i
              · rw [if_neg h2]; exact .inr (.inl rfl)
            · rw [if_neg h1]
              by_cases h2 : i < off + n
              · rw [if_pos h2]
                right; right
                rw [List.getElem?_take_of_lt (by omega), List.getElem?_drop]
                congr 1; omega
              · rw [if_neg h2]; exact a5 i
          · intro i hi
            rw [writeAt_get, hdl]
            have hi' : i < (s.pc k).offset data.length ∨ (k = j ∧ i < off + n ∧ (s.pc k).offset data.length = off) := by
              by_cases hkj : k = j
              · subst hkj
                simp only [upd_same, JobPc.offset] at hi
                exact .inr ⟨rfl, hi, by rw [hpc]; rfl⟩
              · simp only [upd_ne _ _ hkj] at hi; exact .inl hi
            have hcov : ∀ m, i < m → m = (s.pc k).offset data.length → c[i]? = data[i]? ∧ i < c.length := by
              intro m hm e
              have := a6 i (by omega)
              refine ⟨this, ?_⟩
              have hlt : i < data.length := by have := (I.started k hash data a1).1; omega
              rw [List.getElem?_eq_getElem hlt] at this
              exact (List.getElem?_eq_some_iff.1 this).1
            by_cases h1 : i < off
            · rw [if_pos h1]
              have : i < (s.pc k).offset data.length := by rcases hi' with h | ⟨-, -, h⟩ <;> omega
              obtain ⟨b1, b2⟩ := hcov _ this rfl
              rw [if_pos b2]; exact b1
            · rw [if_neg h1]
              by_cases h2 : i < off + n
              · rw [if_pos h2, List.getElem?_take_of_lt (by omega), List.getElem?_drop]
                congr 1; omega
              · rw [if_neg h2]
                have : i < (s.pc k).offset data.length := by rcases hi' with h | ⟨-, h, -⟩ <;> omega
                exact (hcov _ this rfl).1
          · by_cases hkj : k = j
            · subst hkj; simp
            · simpa only [upd_ne _ _ hkj] using a7
        · have hkj : k ≠ j := by
            intro h; subst h; rw [hj] at a1; injection a1 with a1; injection a1 with a1; subst a1; exact e a2
          simp only [upd_ne _ _ e, upd_ne _ _ hkj]
          exact ⟨hash', data', c', a1, a2, a3, a4, a5, a6, a7⟩
      · intro k hash' data' hk
        by_cases hkj : k = j
        · subst hkj
          rw [hj] at hk; injection hk with hk; injection hk with h1 h2; subst h1; subst h2
          simp only [upd_same]
          exact ⟨hle, fun _ => (I.started k hash data hj).2 (.inr ⟨off, hpc⟩)⟩
        · simp only [upd_ne _ _ hkj]; exact I.started k hash' data' hk

/-- **Only verified torrents are written, under safe names.** Any number of announces handled at once, any peers, any
failures of the file system: in every reachable state, a file of the directory either is as it was, or its name is
`torrent/<40 hex digits>.torrent` for the 20-byte info hash of some announce whose download delivered data with that
SHA-1, and every byte in it is the byte of that data at that place, or zero (a hole; only if a concurrent download of the
same torrent emptied the file meanwhile). -/
theorem C46_files (env : Env) (conn : Nat → Bytes → PEnv) (sha1 : Bytes → Bytes) (fuel : Nat) (peerId : Bytes)
    (mem : Nat → Nat → Bytes) (pool : Nat → BPool) (ctx : Nat → Job) (fs0 : Bytes → Option Bytes) (s : FsSt)
    (hsame : SameData (fetchJobs env conn sha1 fuel peerId mem pool ctx))
    (h : Reach (FsInit fs0) (FsStep (fetchJobs env conn sha1 fuel peerId mem pool ctx)) s) (p : Bytes) :
    s.fs p = fs0 p ∨
    ∃ j infoHash name data c, (asMap (ctx j).req.body).lookup b!"info_hash" = some (.str infoHash) ∧ infoHash.length = 20 ∧
      IsHexOf name infoHash ∧ p = b!"torrent/" ++ name ++ b!".torrent" ∧ sha1 data = infoHash ∧
      s.fs p = some c ∧ c.length ≤ data.length ∧ ∀ i : Nat, c[i]? = none ∨ c[i]? = some 0 ∨ c[i]? = data[i]? := by
  have I := fs_inv hsame h
  cases ho : s.owner p with
  | none => exact .inl (I.untouched p ho)
  | some j =>
    obtain ⟨hash, data, c, a1, a2, a3, a4, a5, -, -⟩ := I.owned p j ho
    have hfl : fetchHandler env (conn j) sha1 fuel peerId (mem j) (pool j) (ctx j) = .flush hash data := by
      unfold fetchJobs at a1
      cases hf : fetchHandler env (conn j) sha1 fuel peerId (mem j) (pool j) (ctx j) <;> rw [hf] at a1 <;> simp at a1
      rw [a1.1, a1.2]
    obtain ⟨ih, b1, b2, b3, b4⟩ := C46_flush _ _ _ _ _ _ _ _ _ _ hfl
    exact .inr ⟨j, ih, hash, data, c, b1, b2, b3, a2, b4, a3, a4, a5⟩

/-- **A finished file is complete**: once a job for this name is done, and no job for it is being written or has failed,
the file is exactly the data. -/
theorem C46_complete {jobs : Nat → Option (Bytes × Bytes)} (hsame : SameData jobs) {fs0 : Bytes → Option Bytes} {s : FsSt}
    (h : Reach (FsInit fs0) (FsStep jobs) s) (j : Nat) (hash data : Bytes) (hj : jobs j = some (hash, data)) (hd : s.pc j = .done)
    (hq : ∀ k d, jobs k = some (hash, d) → s.pc k = .start ∨ s.pc k = .done) :
    s.fs (torrentPath hash) = some data := by
  have I := fs_inv hsame h
  cases ho : s.owner (torrentPath hash) with
  | none => exact absurd ho ((I.started j hash data hj).2 (.inl hd))
  | some k =>
    obtain ⟨hash', data', c, a1, a2, a3, a4, -, a6, a7⟩ := I.owned _ k ho
    have := torrentPath_inj a2; subst this
    have := hsame _ _ _ _ _ hj a1; subst this
    have hk : s.pc k = .done := (hq k data a1).resolve_left a7
    rw [a3]
    congr 1
    apply List.ext_getElem?
    intro i
    rcases Nat.lt_or_ge i data.length with hi | hi
    · exact a6 i (by rw [hk]; exact hi)
    · rw [List.getElem?_eq_none hi, List.getElem?_eq_none (by omega)]

/-- A failed write leaves a truncated file, even where a complete one was. -/
theorem C46_failed_write_truncates (jobs : Nat → Option (Bytes × Bytes)) (hash : Bytes) (a b : UInt8)
    (h0 : jobs 0 = some (hash, [a, b])) (fs0 : Bytes → Option Bytes) :
    ∃ s, Reach (FsInit fs0) (FsStep jobs) s ∧ s.pc 0 = .failed ∧ s.fs (torrentPath hash) = some [a] := by
  have r0 : Reach (FsInit fs0) (FsStep jobs) { fs := fs0, pc := fun _ => .start, owner := fun _ => none } :=
    .init ⟨rfl, fun _ => rfl, fun _ => rfl⟩
  have r1 := Reach.step r0 (.create 0 hash [a, b] h0 rfl)
  have r2 := Reach.step r1 (.write 0 hash [a, b] [] 0 1 h0 (by simp) (by simp) (by omega) (by simp))
  have r3 := Reach.step r2 (.writeFails 0 hash [a, b] 1 h0 (by simp))
  exact ⟨_, r3, by simp, by simp [writeAt]⟩

/-! ## C47 -/

/-- `parseFetchAddr` of every announce. -/
theorem C47_address (env : Env) (ctx : Job) (port : Int)
    (hport : (asMap ctx.req.body).lookup b!"port" = some (.int port)) :
    (∀ i, (asMap ctx.req.body).lookup b!"implied_port" = some (.int i) → i > 0 →
      parseFetchAddr env ctx = .ok (addrString env ctx.addr)) ∧
    ((∀ v, (asMap ctx.req.body).lookup b!"implied_port" = some v → ∃ i, v = .int i ∧ i ≤ 0) →
      parseFetchAddr env ctx = .ok (IPString env ctx.addr.ip ++ b!":" ++ itoa port)) ∧
    (∀ v, (asMap ctx.req.body).lookup b!"implied_port" = some v → (∀ i, v ≠ .int i) →
      ∃ m, parseFetchAddr env ctx = .panic (.biz m)) := by
  unfold parseFetchAddr
  simp only [Dict.GetInteger, Dict.GetVal, Dict.Exist, dictGet, hport, Res.bind_ok, GoVal.asInt, Res.pure_eq]
  refine ⟨?_, ?_, ?_⟩
  · intro i hi hpos
    simp [hi, GoVal.asInt, hpos]
  · intro h
    by_cases hl : (asMap ctx.req.body).lookup b!"implied_port" = none
    · simp [hl]
    · obtain ⟨v, hl⟩ := Option.ne_none_iff_exists'.1 hl
      obtain ⟨i, rfl, hi⟩ := h v hl
      simp [hl, GoVal.asInt, Int.not_lt.2 hi]
  · intro v hv hne
    cases v <;> simp [hv, GoVal.asInt] at hne ⊢

/-- a missing port or one that is not an integer -/
theorem C47_no_port (env : Env) (ctx : Job) (h : ∀ i, (asMap ctx.req.body).lookup b!"port" ≠ some (.int i)) :
    ∃ m, parseFetchAddr env ctx = .panic (.biz m) := by
  unfold parseFetchAddr
  simp only [Dict.GetInteger, Dict.GetVal, dictGet]
  cases hl : (asMap ctx.req.body).lookup b!"port" with
  | none => exact ⟨_, rfl⟩
  | some v =>
    cases v with
    | int i => exact absurd hl (h i)
    | _ => exact ⟨_, rfl⟩

end P2P

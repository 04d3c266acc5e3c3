import Verif.Spec.Pieces
import Verif.Props.PeerwireMsgs
/-! # C44: what an honest peer's pieces become, for any number of pieces and buffers -/
namespace P2P

/-! ## the messages of an honest peer complete the download -/

theorem verdict_pieces (r msgs : List Bytes) : ∀ (acc : List (Option (Nat × Bytes))) (n k : Nat) (size : Int), acc.all Option.isSome = true →
    msgs.length = r.length →
    (∀ (i : Nat) p b, r[i]? = some p → msgs[i]? = some b → b ≠ [] ∧ meaning b = .piece ((acc.length + i : Nat) : Int) p) →
    verdict n k { size := size, pieces := acc ++ List.replicate r.length none } msgs =
      .complete (n + r.length) (k + r.length) { size := size, pieces := acc ++ (r.zipIdx k).map fun x => some (x.2, x.1) } := by
  induction r generalizing msgs with
  | nil =>
    intro acc n k size hacc hl h
    cases msgs with
    | cons => cases hl
    | nil =>
      unfold verdict
      simp [Received.all, hacc]
  | cons p r ih =>
    intro acc n k size hacc hl h
    cases msgs with
    | nil => cases hl
    | cons b msgs =>
      obtain ⟨hne, hmean⟩ := h 0 p b rfl rfl
      unfold verdict
      rw [if_neg (by simp [Received.all, List.replicate_succ])]
      simp only [hmean, Received.after]
      rw [if_pos ⟨by omega, by simp; omega⟩]
      simp only [if_neg hne]
      have hset : (acc ++ List.replicate (p :: r).length none).set ((acc.length + 0 : Nat) : Int).toNat (some (k, p)) =
          (acc ++ [some (k, p)]) ++ List.replicate r.length none := by
        rw [Int.toNat_natCast, Nat.add_zero, List.set_append_right _ _ (Nat.le_refl _)]
        simp [List.replicate_succ]
      rw [hset, ih msgs (acc ++ [some (k, p)]) (n + 1) (k + 1) size (by simp [hacc]) (by simpa using hl) (fun i p' b' h1 h2 => by
        have := h (i + 1) p' b' h1 h2
        rw [List.length_append, List.length_singleton, show acc.length + 1 + i = acc.length + (i + 1) by omega]
        exact this)]
      simp only [List.length_cons, List.zipIdx_cons, List.map_cons, List.append_assoc, List.singleton_append]
      rw [show n + 1 + r.length = n + (r.length + 1) by omega, show k + 1 + r.length = k + (r.length + 1) by omega]

/-! ## the buffers -/

theorem bufferNow_cons (m : Nat) (w : Bytes) (ws : List Bytes) (j : Nat) : bufferNow m (w :: ws) (j + 1) = bufferNow m ws j := rfl

/-- writing a message over another one with a head of the same length -/
theorem over_heads {a b x y : Bytes} (h : a.length = b.length) : over (a ++ x) (b ++ y) = b ++ over x y := by
  unfold over
  rw [List.append_assoc, List.length_append, ← h, List.drop_append, List.drop_of_length_le (by omega), List.nil_append,
    show a.length + y.length - a.length = y.length by omega]

theorem cycle_heads (m h : Nat) (heads ps : List Bytes) : ∀ (hd : Bytes) (c : Nat × Bytes), hd.length = h → (∀ x ∈ heads, x.length = h) → heads.length = ps.length →
    ∃ hd', hd'.length = h ∧ (List.zipWith (· ++ ·) heads ps).foldl (cycle m) (c.1, hd ++ c.2) =
      ((ps.foldl (cycle m) c).1, hd' ++ (ps.foldl (cycle m) c).2) := by
  induction ps generalizing heads with
  | nil =>
    intro hd c h1 h2 h3
    cases heads with
    | cons => cases h3
    | nil => exact ⟨hd, h1, rfl⟩
  | cons p r ih =>
    rintro hd ⟨c, cur⟩ h1 h2 h3
    cases heads with
    | nil => cases h3
    | cons x heads =>
      simp only [List.zipWith_cons_cons, List.foldl_cons]
      have hx : x.length = h := h2 x (by simp)
      cases c with
      | zero =>
        simp only [cycle, over_heads (h1.trans hx.symm)]
        exact ih heads x (m - 1, over cur p) hx (fun y hy => h2 y (by simp [hy])) (by simpa using h3)
      | succ c =>
        simp only [cycle]
        exact ih heads hd (c, cur) h1 (fun y hy => h2 y (by simp [hy])) (by simpa using h3)

/-- with heads of equal length, the pieces are what counts -/
theorem pieceNow_heads {m h : Nat} {heads ps : List Bytes} {w d : Bytes} {i : Nat} (hh : ∀ x ∈ heads, x.length = h) (hl : heads.length = ps.length)
    (hi : ps[i]? = some d) :
    pieceNow m (w :: List.zipWith (· ++ ·) heads ps) (i + 1) d = (bufferNow m ps i).2.take d.length := by
  obtain ⟨hlt, -⟩ := List.getElem?_eq_some_iff.1 hi
  have hx : heads[i]? = some heads[i] := List.getElem?_eq_getElem (by omega)
  have hxl : heads[i].length = h := hh _ (List.getElem_mem _)
  have hz : (List.zipWith (· ++ ·) heads ps)[i]? = some (heads[i] ++ d) := by
    rw [List.getElem?_zipWith, hx, hi]
  unfold pieceNow
  rw [bufferNow_cons, List.getElem?_cons_succ]
  unfold bufferNow
  rw [hz, hi, List.drop_zipWith]
  simp only [Option.getD_some]
  obtain ⟨hd', e1, e2⟩ := cycle_heads m h (heads.drop (i + 1)) (ps.drop (i + 1)) heads[i] (m - 1, d) hxl
    (fun x hx => hh x (List.mem_of_mem_drop hx)) (by simp [hl])
  simp only at e2
  rw [e2]
  simp only [List.length_append]
  rw [show heads[i].length + d.length - d.length = hd'.length by omega, List.drop_left]

theorem over_same {x y : Bytes} (h : x.length ≤ y.length) : over x y = y := by
  unfold over
  rw [List.drop_of_length_le h, List.append_nil]

theorem div_next {m a : Nat} (hm : 1 ≤ m) :
    (a % m = m - 1 → (a + 1) / m = a / m + 1 ∧ (a + 1) % m = 0) ∧ (a % m ≠ m - 1 → (a + 1) / m = a / m ∧ (a + 1) % m = a % m + 1) := by
  have h1 := Nat.div_add_mod a m
  have h2 := Nat.mod_lt a (show m > 0 by omega)
  constructor
  · intro h
    have e : a + 1 = m * (a / m + 1) := by rw [Nat.mul_add]; omega
    exact ⟨by rw [e, Nat.mul_div_cancel_left _ (by omega)], by rw [e, Nat.mul_mod_right]⟩
  · intro h
    have e : a + 1 = (a % m + 1) + m * (a / m) := by omega
    refine ⟨?_, ?_⟩
    · rw [e, Nat.add_mul_div_left _ _ (by omega), Nat.div_eq_of_lt (by omega)]; omega
    · rw [e, Nat.add_mul_mod_self_left, Nat.mod_eq_of_lt (by omega)]

/-- pieces of equal length: the buffer contains the last piece received into it -/
theorem bufferNow_full {m W : Nat} (hm : 1 ≤ m) (ps : List Bytes) : (∀ p ∈ ps, p.length = W) → ∀ i, i < ps.length →
    bufferNow m ps i = (m - 1 - (ps.length - 1 - i) % m, ps[lastIn m ps.length i]?.getD []) := by
  generalize hn : ps.length = n
  induction n generalizing ps with
  | zero => intro _ i hi; cases hi
  | succ n ih0 =>
    obtain ⟨r, w, rfl⟩ : ∃ r w, ps = r ++ [w] := ⟨ps.dropLast, ps.getLast (by rintro rfl; cases hn), (List.dropLast_concat_getLast _).symm⟩
    rw [← hn]
    have ih := ih0 r (by simpa using hn)
    rw [show n = r.length by simpa using hn.symm] at ih
    clear ih0 hn
    intro hW i hi
    by_cases hlast : i = r.length
    · subst hlast
      rw [bufferNow_last]
      simp [lastIn]
    · have hi' : i < r.length := by simp at hi; omega
      rw [bufferNow_snoc w hi', ih (fun p hp => hW p (by simp [hp])) i hi']
      obtain ⟨d1, d2⟩ := div_next (a := r.length - 1 - i) hm
      have hdm := Nat.div_add_mod (r.length - 1 - i) m
      have hlt := Nat.mod_lt (r.length - 1 - i) (show m > 0 by omega)
      have e : (r ++ [w]).length - 1 - i = r.length - 1 - i + 1 := by simp; omega
      have hL : lastIn m r.length i < r.length := by unfold lastIn; omega
      by_cases hc : (r.length - 1 - i) % m = m - 1
      · obtain ⟨f1, f2⟩ := d1 hc
        rw [show m - 1 - (r.length - 1 - i) % m = 0 by omega]
        have hL' : lastIn m (r ++ [w]).length i = r.length := by
          unfold lastIn
          rw [e, f1, Nat.mul_add]
          omega
        simp only [cycle]
        rw [e, f2, hL', over_same]
        · simp
        · rw [List.getElem?_eq_getElem hL]
          simp only [Option.getD_some]
          rw [hW w (by simp), hW _ (by simp)]
          exact Nat.le_refl _
      · obtain ⟨f1, f2⟩ := d2 hc
        rw [show m - 1 - (r.length - 1 - i) % m = m - 1 - ((r.length - 1 - i) % m + 1) + 1 by omega]
        have hL' : lastIn m (r ++ [w]).length i = lastIn m r.length i := by
          unfold lastIn
          rw [e, f1]
        simp only [cycle]
        rw [e, f2, hL', List.getElem?_append_left hL]

/-- **what is in the place of piece `i`** -/
theorem bufferNow_final {m : Nat} (hm : 1 ≤ m) {ps : List Bytes} (hps : IsPieces ps) {i : Nat} {d : Bytes} (hi : ps[i]? = some d) :
    (bufferNow m ps i).2.take d.length = finalPiece m ps i ∧ (finalPiece m ps i).length = d.length := by
  obtain ⟨r, w, rfl, hr, hw⟩ := hps
  have hlt := (List.getElem?_eq_some_iff.1 hi).1
  by_cases hlast : i = r.length
  · subst hlast
    have hd : d = w := by simpa using hi.symm
    subst hd
    rw [bufferNow_last]
    simp [finalPiece, lastIn]
  · have hi' : i < r.length := by simp at hlt; omega
    rw [List.getElem?_append_left hi'] at hi
    have hdl : d.length = 16384 := hr d (List.mem_of_getElem? hi)
    obtain ⟨d1, d2⟩ := div_next (a := r.length - 1 - i) hm
    have hdm := Nat.div_add_mod (r.length - 1 - i) m
    have hmod := Nat.mod_lt (r.length - 1 - i) (show m > 0 by omega)
    have e : (r ++ [w]).length - 1 - i = r.length - 1 - i + 1 := by simp; omega
    have hL : lastIn m r.length i < r.length := by unfold lastIn; omega
    obtain ⟨x, hx⟩ : ∃ x, r[lastIn m r.length i]? = some x := ⟨_, List.getElem?_eq_getElem hL⟩
    have hxl : x.length = 16384 := hr x (List.mem_of_getElem? hx)
    rw [bufferNow_snoc w hi', bufferNow_full hm r hr i hi', hx]
    by_cases hc : (r.length - 1 - i) % m = m - 1
    · obtain ⟨f1, f2⟩ := d1 hc
      have hL' : lastIn m (r ++ [w]).length i = r.length := by
        unfold lastIn
        rw [e, f1, Nat.mul_add]
        omega
      have hLm : r.length - m = lastIn m r.length i := by
        unfold lastIn
        omega
      unfold finalPiece
      rw [hL', if_neg (by omega), hLm, List.getElem?_append_left hL, hx]
      rw [show m - 1 - (r.length - 1 - i) % m = 0 by omega]
      simp only [cycle, Option.getD_some]
      have hol : (over x w).length = d.length := by unfold over; simp; omega
      refine ⟨?_, ?_⟩
      · rw [List.take_of_length_le (by omega)]; simp
      · simpa using hol
    · obtain ⟨f1, f2⟩ := d2 hc
      have hL' : lastIn m (r ++ [w]).length i = lastIn m r.length i := by
        unfold lastIn
        rw [e, f1]
      have hfin : finalPiece m (r ++ [w]) i = x := by
        unfold finalPiece
        rw [hL']
        split
        · rename_i h
          rw [h] at hx
          rw [List.getElem?_append_left hi', hx]
          rfl
        · rename_i h
          have hle : m ≤ lastIn m r.length i - i := by
            unfold lastIn at h ⊢
            have : 1 ≤ (r.length - 1 - i) / m := by
              rcases Nat.eq_zero_or_pos ((r.length - 1 - i) / m) with h0 | h0
              · rw [h0] at h; simp at h
              · exact h0
            have := Nat.mul_le_mul_left m this
            omega
          rw [List.getElem?_append_left hL, List.getElem?_append_left (by omega), hx, List.getElem?_eq_getElem (by omega)]
          simp only [Option.getD_some]
          exact over_same (by rw [hxl, hr _ (List.getElem_mem _)]; exact Nat.le_refl _)
      rw [hfin, show m - 1 - (r.length - 1 - i) % m = m - 1 - ((r.length - 1 - i) % m + 1) + 1 by omega]
      simp only [cycle, Option.getD_some]
      exact ⟨List.take_of_length_le (by omega), by omega⟩

/-- **An honest peer, any number of pieces, any number of buffers.**  The peer announces the size and sends the pieces `ps` in order, in messages with
heads of equal length; `m = max 1 q32.length` buffers take turns.  The data that is checked has `finalPiece m ps i` in the place of piece `i`. -/
theorem C44_honest_pieces {E : PEnv} {peerId infoHash : Bytes} {mem : Nat → Bytes} {pool : BPool} {q32 : List Slice} {hs ext : Bytes}
    {heads ps : List Bytes} {fuel : Nat} {h : Nat}
    (S : Stream E peerId infoHash mem pool q32 hs (ext :: List.zipWith (· ++ ·) heads ps) fuel) (sha1 : Bytes → Bytes) (fold : FoldTable)
    (hps : IsPieces ps) (hsz : ps.flatten.length ≤ 2 ^ 40) (hext : meaning ext = .announce ps.flatten.length)
    (hheads : heads.length = ps.length ∧ ∀ x ∈ heads, x.length = h)
    (hmsgs : ∀ (i : Nat) hd p, heads[i]? = some hd → ps[i]? = some p → meaning (hd ++ p) = .piece i p) :
    ∃ s, FetchMetaData E sha1 fold fuel peerId infoHash mem pool =
      if sha1 ((List.range ps.length).flatMap (finalPiece (max 1 q32.length) ps)) = infoHash
      then .returned (some ((List.range ps.length).flatMap (finalPiece (max 1 q32.length) ps))) none s
      else .returned none (some b!"check sum err") s := by
  have hzl : (List.zipWith (· ++ ·) heads ps).length = ps.length := by simp [hheads.1]
  have hextne : ext ≠ [] := by rintro rfl; cases hext
  have hcount : ((ps.flatten.length : Int) + 16383) / 16384 = ps.length := by
    obtain ⟨r, w, rfl, hr, hw⟩ := hps
    have : r.flatten.length = 16384 * r.length := by
      clear hmsgs hheads hext S hsz hzl
      induction r with
      | nil => rfl
      | cons p r ih =>
        have := ih (fun p hp => hr p (by simp [hp]))
        rw [List.flatten_cons, List.length_append, this, hr p (by simp), List.length_cons]
        omega
    rw [List.flatten_append, List.length_append, this, List.flatten_singleton, List.length_append, List.length_singleton]
    omega
  have hmsg : ∀ (i : Nat) p b, ps[i]? = some p → (List.zipWith (· ++ ·) heads ps)[i]? = some b → b ≠ [] ∧ meaning b = .piece ((([] : List (Option (Nat × Bytes))).length + i : Nat) : Int) p := by
    intro i p b h1 h2
    have hlt := (List.getElem?_eq_some_iff.1 h1).1
    have hx : heads[i]? = some heads[i] := List.getElem?_eq_getElem (by omega)
    rw [List.getElem?_zipWith, hx, h1] at h2
    have h2 := Option.some.inj h2
    have := hmsgs i _ p hx h1
    rw [← h2]
    refine ⟨?_, by simpa using this⟩
    intro h0
    rw [h0] at this
    cases this
  have hv : verdict 0 0 .start (ext :: List.zipWith (· ++ ·) heads ps) =
      .complete (1 + ps.length) (1 + ps.length) { size := ps.flatten.length, pieces := [] ++ (ps.zipIdx 1).map fun x => some (x.2, x.1) } := by
    unfold verdict
    rw [if_neg (by decide)]
    simp only [hext, Received.after]
    rw [if_pos ⟨by omega, by rw [hcount]; omega⟩, hcount]
    simp only [if_neg hextne, Int.toNat_natCast]
    exact verdict_pieces ps _ [] 1 1 ps.flatten.length rfl hzl hmsg
  obtain ⟨s, h1, -⟩ := C44_any_pieces S sha1 fold _ _ _ hv (by simp only; omega)
  refine ⟨s, ?_⟩
  have hws : nonEmpty ((ext :: List.zipWith (· ++ ·) heads ps).take (1 + ps.length)) = ext :: List.zipWith (· ++ ·) heads ps := by
    rw [List.take_of_length_le (by simp only [List.length_cons, hzl]; omega)]
    unfold nonEmpty
    rw [List.filter_eq_self]
    intro b hb
    rcases List.mem_cons.1 hb with rfl | hb
    · simpa using hextne
    · obtain ⟨i, hi⟩ := List.getElem?_of_mem hb
      have hlt := (List.getElem?_eq_some_iff.1 hi).1
      simpa using (hmsg i _ b (List.getElem?_eq_getElem (by omega)) hi).1
  have hmerged : ∀ m, 1 ≤ m → Received.merged m (ext :: List.zipWith (· ++ ·) heads ps)
      { size := ps.flatten.length, pieces := [] ++ (ps.zipIdx 1).map fun x => some (x.2, x.1) } = (List.range ps.length).flatMap (finalPiece m ps) := by
    intro m hm
    unfold Received.merged
    simp only [List.nil_append, List.flatMap_map]
    have : ps.zipIdx 1 = (List.range ps.length).map fun i => (ps[i]?.getD [], i + 1) := by
      refine List.ext_getElem (by simp) fun i h1 h2 => ?_
      have hi : i < ps.length := by simpa using h1
      simp [List.getElem?_eq_getElem hi, Nat.add_comm]
    rw [this, List.flatMap_map]
    refine flatMap_same fun i hi => ?_
    have hi : i < ps.length := by simpa using hi
    have he : ps[i]? = some ps[i] := List.getElem?_eq_getElem hi
    simp only [he, Option.getD_some]
    rw [pieceNow_heads hheads.2 hheads.1 he, (bufferNow_final hm hps he).1]
  rw [hws, hmerged _ (by omega)] at h1
  exact h1

/-! ## when this is the metadata -/

theorem flatMap_blocks {α β : Type} {f g : α → List β} {l : List α} (h : ∀ x ∈ l, (f x).length = (g x).length) :
    l.flatMap f = l.flatMap g ↔ ∀ x ∈ l, f x = g x := by
  induction l with
  | nil => simp
  | cons a r ih =>
    rw [List.flatMap_cons, List.flatMap_cons]
    constructor
    · intro e
      obtain ⟨e1, e2⟩ := List.append_inj e (h a (by simp))
      intro x hx
      rcases List.mem_cons.1 hx with rfl | hx
      · exact e1
      · exact (ih (fun x hx => h x (by simp [hx]))).1 e2 x hx
    · intro e
      rw [e a (by simp), (ih (fun x hx => h x (by simp [hx]))).2 (fun x hx => e x (by simp [hx]))]

theorem flatten_range (ps : List Bytes) : ps.flatten = (List.range ps.length).flatMap fun i => ps[i]?.getD [] := by
  have : ps = (List.range ps.length).map fun i => ps[i]?.getD [] := by
    refine List.ext_getElem (by simp) fun i h1 h2 => ?_
    simp [List.getElem?_eq_getElem h1]
  conv => lhs; rw [this]
  rw [List.flatMap_def]

theorem lastIn_next {m P i : Nat} (hm : 1 ≤ m) (h : i + m < P) : lastIn m P i = lastIn m P (i + m) := by
  unfold lastIn
  have : P - 1 - i = (P - 1 - (i + m)) + m * 1 := by omega
  rw [this, Nat.add_mul_div_left _ _ (by omega), Nat.mul_add]
  omega

theorem lastIn_ge {m P i : Nat} (hm : 1 ≤ m) (hi : i < P) : lastIn m P i < P ∧ (lastIn m P i ≠ i → i + m ≤ lastIn m P i) := by
  unfold lastIn
  have hdm := Nat.div_add_mod (P - 1 - i) m
  refine ⟨by omega, fun h => ?_⟩
  rcases Nat.eq_zero_or_pos ((P - 1 - i) / m) with h0 | h0
  · rw [h0] at h; simp at h
  · have := Nat.mul_le_mul_left m h0
    omega

theorem lastIn_more {m P i : Nat} (hm : 1 ≤ m) (h : i + m < P) : lastIn m P i ≠ i := by
  rw [lastIn_next hm h]
  unfold lastIn
  omega

theorem over_prefix {x y : Bytes} : over x y = x ↔ y <+: x := by
  unfold over
  constructor
  · intro h; exact ⟨_, h⟩
  · rintro ⟨r, rfl⟩; simp

/-- **When the pieces survive**: the data that is checked is the metadata exactly if every piece is the start of the one `m` before it (for instance
because there are `m` pieces or fewer). -/
theorem C44_intact_iff {m : Nat} (hm : 1 ≤ m) {ps : List Bytes} (hps : IsPieces ps) :
    (List.range ps.length).flatMap (finalPiece m ps) = ps.flatten ↔ Periodic m ps := by
  rw [flatten_range, flatMap_blocks (fun i hi => by
    have hi : i < ps.length := by simpa using hi
    have he : ps[i]? = some ps[i] := List.getElem?_eq_getElem hi
    rw [(bufferNow_final hm hps he).2, he]; rfl)]
  constructor
  · intro h i p p' h1 h2
    have hlt := (List.getElem?_eq_some_iff.1 h2).1
    have hi := h i (by simp; omega)
    have hj := h (i + m) (by simpa using hlt)
    rw [h1, Option.getD_some] at hi
    rw [h2, Option.getD_some] at hj
    unfold finalPiece at hi hj
    rw [if_neg (lastIn_more hm hlt)] at hi
    rw [← lastIn_next hm hlt] at hj
    by_cases hl : lastIn m ps.length i = i + m
    · rw [hl, show i + m - m = i by omega, h1, h2] at hi
      exact over_prefix.1 hi
    · rw [if_neg hl] at hj
      rw [← hi, ← hj]
      exact List.prefix_rfl
  · intro hper i hi
    have hi : i < ps.length := by simpa using hi
    unfold finalPiece
    split
    · rfl
    · rename_i hl
      obtain ⟨g1, g2⟩ := lastIn_ge (m := m) hm hi
      have g2 := g2 hl
      have hfull : ∀ j, j + 1 < ps.length → ∃ p, ps[j]? = some p ∧ p.length = 16384 := by
        intro j hj
        obtain ⟨r, w, rfl, hr, hw⟩ := hps
        have : j < r.length := by simp at hj; omega
        refine ⟨r[j], ?_, hr _ (List.getElem_mem _)⟩
        rw [List.getElem?_append_left this, List.getElem?_eq_getElem this]
      have chain : ∀ t, i + m * t + 1 < ps.length → ps[i + m * t]? = ps[i]? := by
        intro t
        induction t with
        | zero => intro _; simp
        | succ t ih =>
          intro ht
          rw [Nat.mul_add, Nat.mul_one, ← Nat.add_assoc] at ht ⊢
          obtain ⟨p, e1, l1⟩ := hfull (i + m * t) (by omega)
          obtain ⟨p', e2, l2⟩ := hfull (i + m * t + m) ht
          have := (hper _ p p' e1 e2).eq_of_length (by omega)
          rw [← ih (by omega), e1, e2, this]
      have hLm : lastIn m ps.length i - m = i + m * ((ps.length - 1 - i) / m - 1) := by
        unfold lastIn at g2 ⊢
        have : 1 ≤ (ps.length - 1 - i) / m := by
          rcases Nat.eq_zero_or_pos ((ps.length - 1 - i) / m) with h0 | h0
          · rw [h0] at g2; omega
          · exact h0
        obtain ⟨q, hq⟩ : ∃ q, (ps.length - 1 - i) / m = q + 1 := ⟨_, (Nat.sub_add_cancel this).symm⟩
        rw [hq, Nat.mul_add]
        simp only [Nat.mul_one, Nat.add_sub_cancel]
        omega
      have hc := chain ((ps.length - 1 - i) / m - 1) (by omega)
      rw [← hLm] at hc
      rw [hc]
      have he : ps[i]? = some ps[i] := List.getElem?_eq_getElem hi
      have heL : ps[lastIn m ps.length i]? = some (ps[lastIn m ps.length i]'g1) := List.getElem?_eq_getElem g1
      rw [he, heL]
      simp only [Option.getD_some]
      refine over_prefix.2 (hper (lastIn m ps.length i - m) _ _ (hc.trans he) ?_)
      rw [Nat.sub_add_cancel (by omega)]
      exact heL

/-- one buffer (as at start-up), two pieces or more: every place but the last contains the last piece and the rest of the last but one -/
theorem C44_one_buffer {init : List Bytes} {a w : Bytes} :
    (List.range (init ++ [a, w]).length).flatMap (finalPiece 1 (init ++ [a, w])) =
      (List.replicate (init.length + 1) (w ++ a.drop w.length)).flatten ++ w := by
  have hlast : ∀ i, i < init.length + 2 → lastIn 1 (init ++ [a, w]).length i = init.length + 1 := by
    intro i hi
    unfold lastIn
    simp
    omega
  have e : (init ++ [a, w]).length = (init.length + 1) + 1 := by simp
  rw [e, List.range_succ, List.flatMap_append]
  congr 1
  · have : ∀ n, n ≤ init.length + 1 → (List.range n).flatMap (finalPiece 1 (init ++ [a, w])) = (List.replicate n (w ++ a.drop w.length)).flatten := by
      intro n
      induction n with
      | zero => intro _; rfl
      | succ n ih =>
        intro hn
        rw [List.range_succ, List.flatMap_append, ih (by omega), List.replicate_succ', List.flatten_append]
        congr 1
        simp only [List.flatMap_cons, List.flatMap_nil, List.append_nil, List.flatten_cons, List.flatten_nil]
        unfold finalPiece
        rw [hlast n (by omega), if_neg (by omega)]
        simp [over]
    exact this _ (Nat.le_refl _)
  · simp only [List.flatMap_cons, List.flatMap_nil, List.append_nil]
    unfold finalPiece
    rw [hlast _ (by omega), if_pos rfl]
    simp

end P2P

import Verif.Props.PeerwireBuf
import Verif.Props.PeerwireMsgs
/-! # C110: a download among other downloads

C43, C44 and C70 are about a download that has the pool for itself. Here other goroutines use the pool too: they take buffers, write into buffers
they took and give them back. -/
namespace P2P

/-- What others do to memory and pool, while this download holds the arrays `H`: any number of steps. -/
inductive OthersDo (H : List Nat) : (Nat → Bytes) × BPool → (Nat → Bytes) × BPool → Prop where
  | nothing (x) : OthersDo H x x
  /-- somebody takes a buffer; a new one is zeroed -/
  | get {x mem pool} (size : Int) (b : Slice) (pool' : BPool) : OthersDo H x (mem, pool) → pool.GetBySize size = .ok (b, pool') →
      OthersDo H x (if pool'.fresh = pool.fresh then mem else upd mem b.arr (List.replicate b.cap 0), pool')
  /-- somebody gives back a buffer that is neither in the pool nor held by this download -/
  | put {x mem pool} (b : Slice) : OthersDo H x (mem, pool) → b.off = 0 → (mem b.arr).length = b.cap → b.arr < pool.fresh →
      b.arr ∉ pooled pool → b.arr ∉ H → OthersDo H x (mem, pool.Put b)
  /-- somebody writes into a buffer that is neither in the pool nor held by this download -/
  | write {x mem pool} (a : Nat) (data : Bytes) : OthersDo H x (mem, pool) → a ∉ pooled pool → a ∉ H → data.length = (mem a).length →
      OthersDo H x (upd mem a data, pool)

/-- a buffer at full length -/
def FullBuf (mem : Nat → Bytes) (b : Slice) : Prop := b.off = 0 ∧ (mem b.arr).length = b.cap

/-- No buffer is twice in the pool, none is in the pool and held, and all have the size they are filed under. -/
structure Own (H : List Nat) (x : (Nat → Bytes) × BPool) : Prop where
  bufs : ∀ i c, x.2.chan i = some c → ∀ b ∈ c, (b.cap : Int) = i ∧ b.len = b.cap ∧ FullBuf x.1 b
  nodup : (H ++ pooled x.2).Nodup
  old : ∀ a ∈ H ++ pooled x.2, a < x.2.fresh

theorem Own.perm {H H' : List Nat} {x : (Nat → Bytes) × BPool} (h : Own H x) (hp : H.Perm H') : Own H' x :=
  ⟨h.bufs, ((hp.append_right _).nodup_iff).1 h.nodup, fun a ha => h.old a ((hp.append_right _).mem_iff.2 ha)⟩

theorem Own.weaken {a : Nat} {H : List Nat} {x : (Nat → Bytes) × BPool} (h : Own (a :: H) x) : Own H x :=
  ⟨h.bufs, (List.nodup_cons.1 (by simpa using h.nodup)).2, fun b hb => h.old b (by rw [List.cons_append]; exact List.mem_cons_of_mem _ hb)⟩

theorem chan_pooled {p : BPool} {i : Int} {c : List Slice} (h : p.chan i = some c) {b : Slice} (hb : b ∈ c) : b.arr ∈ pooled p := by
  obtain ⟨x, y, h1, -⟩ := flatMap_setChan p.chans i c c h
  unfold pooled
  rw [h1]
  simp only [List.mem_append, List.mem_map]
  exact .inl (.inr ⟨b, hb, rfl⟩)

theorem own_loadOrStore {H : List Nat} {mem : Nat → Bytes} {p : BPool} (h : Own H (mem, p)) (i : Int) : Own H (mem, p.loadOrStore i) := by
  refine ⟨fun j c hc b hb => ?_, by simp only [pooled_loadOrStore]; exact h.nodup, by simp only [pooled_loadOrStore, loadOrStore_fresh]; exact h.old⟩
  simp only [loadOrStore_chan] at hc
  by_cases hj : j = i
  · subst hj
    rw [if_pos rfl, Option.some.injEq] at hc
    subst hc
    cases hp : p.chan j with
    | none => rw [hp] at hb; simp at hb
    | some d => rw [hp] at hb; exact h.bufs j d hp b hb
  · rw [if_neg hj] at hc; exact h.bufs j c hc b hb

/-- somebody takes a buffer -/
theorem own_get {H : List Nat} {mem : Nat → Bytes} {p p' : BPool} {size : Int} {b : Slice} (h : Own H (mem, p)) (hg : p.GetBySize size = .ok (b, p')) :
    Own (b.arr :: H) (if p'.fresh = p.fresh then mem else upd mem b.arr (List.replicate b.cap 0), p') ∧ (b.cap : Int) = size ∧ b.len = b.cap ∧
      FullBuf (if p'.fresh = p.fresh then mem else upd mem b.arr (List.replicate b.cap 0)) b ∧ p.fresh ≤ p'.fresh ∧
      ∀ a, a < p.fresh → (if p'.fresh = p.fresh then mem else upd mem b.arr (List.replicate b.cap 0)) a = mem a := by
  have h1 := own_loadOrStore h size
  have hf : (p.loadOrStore size).fresh = p.fresh := loadOrStore_fresh p size
  unfold BPool.GetBySize at hg
  rw [← hf]
  generalize p.loadOrStore size = q at *
  have hpool := selectGet_pooled hg
  unfold BPool.selectGet at hg
  split at hg
  · rename_i b0 r hc
    simp only [Res.ok.injEq, Prod.mk.injEq] at hg
    obtain ⟨rfl, rfl⟩ := hg
    have hb0 := h1.bufs _ _ hc b0 (by simp)
    have hperm : (pooled { q with chans := setChan q.chans size r }).length + 1 = (pooled q).length := by
      rcases hpool with ⟨hp, -⟩ | ⟨-, -, hp⟩
      · have := hp.length_eq; simpa using this
      · simp at hp
    have hperm : List.Perm (b0.arr :: pooled { q with chans := setChan q.chans size r }) (pooled q) := by
      rcases hpool with ⟨hp, -⟩ | ⟨-, -, hp⟩
      · exact hp
      · simp at hp
    have hpp : (b0.arr :: H ++ pooled { q with chans := setChan q.chans size r }).Perm (H ++ pooled q) :=
      (List.perm_middle.symm).trans (List.Perm.append_left H hperm)
    simp only [if_true]
    refine ⟨⟨fun j c hj x hx => ?_, hpp.nodup_iff.2 h1.nodup, fun a ha => h1.old a (hpp.mem_iff.1 ha)⟩, hb0.1, hb0.2.1, hb0.2.2, Nat.le_refl _, fun a _ => trivial⟩
    simp only [BPool.chan, lookup_setChan] at hj
    by_cases hji : j = size
    · subst hji
      simp only [BPool.chan] at hc
      rw [if_pos rfl, hc] at hj
      simp only [Option.map_some, Option.some.injEq] at hj
      subst hj
      exact h1.bufs j _ hc x (by simp [hx])
    · rw [if_neg hji] at hj
      exact h1.bufs j c hj x hx
  · split at hg
    · cases hg
    · simp only [Res.ok.injEq, Prod.mk.injEq] at hg
      obtain ⟨rfl, rfl⟩ := hg
      have hne : ¬ (q.fresh + 1 = q.fresh) := by omega
      simp only [hne, if_false]
      have hpe : pooled { q with fresh := q.fresh + 1 } = pooled q := rfl
      refine ⟨⟨fun j c hj x hx => ?_, ?_, fun a ha => ?_⟩, by omega, trivial, ⟨rfl, by simp⟩, by omega, fun a ha => upd_ne _ _ (by omega)⟩
      · have hx1 := h1.bufs j c hj x hx
        have hx2 := h1.old x.arr (by simp only [List.mem_append]; exact .inr (chan_pooled hj hx))
        refine ⟨hx1.1, hx1.2.1, hx1.2.2.1, ?_⟩
        simp only at hx2 ⊢
        rw [upd_ne _ _ (by omega)]
        exact hx1.2.2.2
      · simp only [hpe, List.cons_append, List.nodup_cons]
        exact ⟨fun hx => by have := h1.old _ hx; simp only at this; omega, h1.nodup⟩
      · simp only [hpe, List.cons_append, List.mem_cons] at ha
        simp only
        rcases ha with rfl | ha
        · omega
        · have := h1.old _ ha; simp only at this; omega

/-- somebody gives back a buffer -/
theorem own_put {H : List Nat} {mem : Nat → Bytes} {p : BPool} {b : Slice} (h : Own (b.arr :: H) (mem, p)) (hb : FullBuf mem b) :
    Own H (mem, p.Put b) ∧ (p.Put b).fresh = p.fresh := by
  have h1 := own_loadOrStore h b.cap
  have hf : (p.loadOrStore b.cap).fresh = p.fresh := loadOrStore_fresh p b.cap
  unfold BPool.Put
  rw [← hf]
  generalize p.loadOrStore b.cap = q at *
  obtain ⟨g1, g2⟩ := selectPut_pooled q b
  have hsub : ∀ a, a ∈ H ++ pooled (q.selectPut b) → a ∈ b.arr :: H ++ pooled q := by
    intro a ha
    rcases g2 with g2 | g2
    · have := (List.Perm.append_left H g2).mem_iff.1 ha
      simp only [List.mem_append, List.mem_cons, List.cons_append] at this ⊢
      rcases this with h | h | h
      · exact .inr (.inl h)
      · exact .inl h
      · exact .inr (.inr h)
    · rw [g2] at ha
      exact List.mem_cons_of_mem _ ha
  refine ⟨⟨fun j c hj x hx => ?_, ?_, fun a ha => by simp only [g1]; exact h1.old a (hsub a ha)⟩, g1⟩
  · unfold BPool.selectPut at hj
    split at hj
    · rename_i d hd
      split at hj
      · simp only [BPool.chan, lookup_setChan] at hj
        by_cases hji : j = (b.cap : Int)
        · subst hji
          simp only [BPool.chan] at hd
          rw [if_pos rfl, hd] at hj
          simp only [Option.map_some, Option.some.injEq] at hj
          subst hj
          rcases List.mem_append.1 hx with hx | hx
          · exact h1.bufs _ _ hd x hx
          · simp at hx; subst hx; exact ⟨rfl, rfl, hb⟩
        · rw [if_neg hji] at hj
          exact h1.bufs j c hj x hx
      · exact h1.bufs j c hj x hx
    · exact h1.bufs j c hj x hx
  · rcases g2 with g2 | g2
    · refine ((List.Perm.append_left H g2).trans List.perm_middle).nodup_iff.2 ?_
      simpa using h1.nodup
    · simp only [g2]
      have := h1.nodup
      simp only [List.cons_append, List.nodup_cons] at this
      exact this.2

/-- somebody writes into a buffer that is not in the pool -/
theorem own_write {H : List Nat} {mem : Nat → Bytes} {p : BPool} {a : Nat} {data : Bytes} (h : Own H (mem, p)) (ha : a ∉ pooled p) :
    Own H (upd mem a data, p) := by
  refine ⟨fun j c hj x hx => ?_, h.nodup, h.old⟩
  have h1 := h.bufs j c hj x hx
  refine ⟨h1.1, h1.2.1, h1.2.2.1, ?_⟩
  have hne : x.arr ≠ a := fun e => ha (e ▸ chan_pooled hj hx)
  simp only
  rw [upd_ne _ _ hne]
  exact h1.2.2.2

/-- What others do leaves alone the buffers held, and the sizes of all. -/
theorem OthersDo.keeps {H : List Nat} {x y : (Nat → Bytes) × BPool} (h : OthersDo H x y) (hx : Own H x) :
    Own H y ∧ (∀ a ∈ H, y.1 a = x.1 a) ∧ x.2.fresh ≤ y.2.fresh ∧ ∀ a, a < x.2.fresh → (y.1 a).length = (x.1 a).length := by
  induction h with
  | nothing => exact ⟨hx, fun _ _ => rfl, Nat.le_refl _, fun _ _ => rfl⟩
  | get size b pool' _ hg ih =>
    obtain ⟨i1, i2, i3, i4⟩ := ih
    obtain ⟨g1, -, -, -, g5, g6⟩ := own_get i1 hg
    refine ⟨g1.weaken, fun a ha => ?_, Nat.le_trans i3 g5, fun a ha => ?_⟩
    · simp only
      rw [g6 a (i1.old a (List.mem_append_left _ ha))]
      exact i2 a ha
    · simp only at i3 i4 ⊢
      rw [g6 a (by omega)]
      exact i4 a ha
  | put b _ h1 h2 h3 h4 h5 ih =>
    obtain ⟨i1, i2, i3, i4⟩ := ih
    have hown : Own (b.arr :: H) (_, _) := ⟨i1.bufs, by
      simp only [List.cons_append, List.nodup_cons, List.mem_append, not_or]
      exact ⟨⟨h5, h4⟩, i1.nodup⟩, fun a ha => by
      simp only [List.cons_append, List.mem_cons] at ha
      rcases ha with rfl | ha
      · exact h3
      · exact i1.old a ha⟩
    obtain ⟨g1, g2⟩ := own_put hown ⟨h1, h2⟩
    exact ⟨g1, i2, by simp only [g2]; exact i3, i4⟩
  | write a data _ h1 h2 h3 ih =>
    obtain ⟨i1, i2, i3, i4⟩ := ih
    refine ⟨own_write i1 h1, fun b hb => ?_, i3, fun b hb => ?_⟩
    · simp only
      rw [upd_ne _ _ (fun e : b = a => h2 (e ▸ hb))]
      exact i2 b hb
    · simp only at i4 ⊢
      by_cases e : b = a
      · subst e; rw [upd_same, h3]; exact i4 b hb
      · rw [upd_ne _ _ e]; exact i4 b hb

/-- Others use the pool properly, writes succeed, there is time and memory. -/
structure Among (E : PEnv) : Prop where
  dial : E.dialFails = false
  others : ∀ tr x, Own (heldP tr) x → OthersDo (heldP tr) x (E.interfere tr x)
  writes : ∀ tr, E.writeFails tr = false
  time : ∀ tr, E.expired tr = false
  memory : ∀ tr n, E.outOfMemory tr n = false
  order : ∀ tr, OrderOK (E.order tr)

def Fine (s : PSt) : Prop := Own (heldP s.trace) (s.mem, s.pool)

/-- the download's own variables -/
def SameVars (s t : PSt) : Prop := t.metaData = s.metaData ∧ t.metaDataSize = s.metaDataSize ∧ t.requested = s.requested

theorem SameVars.refl (s : PSt) : SameVars s s := ⟨rfl, rfl, rfl⟩
theorem SameVars.trans {s t u : PSt} (h1 : SameVars s t) (h2 : SameVars t u) : SameVars s u :=
  ⟨h2.1.trans h1.1, h2.2.1.trans h1.2.1, h2.2.2.trans h1.2.2⟩

/-- arrays stay as long as they are -/
def StaySized (s t : PSt) : Prop := s.pool.fresh ≤ t.pool.fresh ∧ ∀ a, a < s.pool.fresh → (t.mem a).length = (s.mem a).length

theorem StaySized.refl (s : PSt) : StaySized s s := ⟨Nat.le_refl _, fun _ _ => rfl⟩
theorem StaySized.trans {s t u : PSt} (h1 : StaySized s t) (h2 : StaySized t u) : StaySized s u :=
  ⟨Nat.le_trans h1.1 h2.1, fun a ha => (h2.2 a (Nat.lt_of_lt_of_le ha h1.1)).trans (h1.2 a ha)⟩

/-- time passes for this download, which holds the same buffers and reads nothing -/
structure Along (s t : PSt) : Prop where
  fine : Fine t
  held : heldP t.trace = heldP s.trace
  keep : ∀ a ∈ heldP s.trace, t.mem a = s.mem a
  sized : StaySized s t
  reads : reads t.trace = reads s.trace

theorem Along.trans {s t u : PSt} (h1 : Along s t) (h2 : Along t u) : Along s u :=
  ⟨h2.fine, h2.held.trans h1.held, fun a ha => (h2.keep a (h1.held ▸ ha)).trans (h1.keep a ha), h1.sized.trans h2.sized, h2.reads.trans h1.reads⟩

/-- nothing happened to memory and pool -/
theorem Along.still {s t : PSt} (h : Fine s) (hm : t.mem = s.mem) (hp : t.pool = s.pool) (hh : heldP t.trace = heldP s.trace)
    (hr : P2P.reads t.trace = P2P.reads s.trace) : Along s t := by
  refine ⟨?_, hh, fun a _ => by rw [hm], ⟨by rw [hp]; exact Nat.le_refl _, fun a _ => by rw [hm]⟩, hr⟩
  unfold Fine
  rw [hm, hp, hh]
  exact h

section
variable {E : PEnv} (hE : Among E)
include hE

theorem others_am {s : PSt} (h : Fine s) : ∃ t, others E s = .ok () t ∧ Along s t ∧ SameVars s t ∧ t.trace = s.trace ∧ t.mem = (E.interfere s.trace (s.mem, s.pool)).1 := by
  obtain ⟨h1, h2, h3, h4⟩ := (hE.others s.trace (s.mem, s.pool) h).keeps h
  exact ⟨_, rfl, ⟨h1, rfl, h2, ⟨h3, h4⟩, rfl⟩, ⟨rfl, rfl, rfl⟩, rfl, rfl⟩

theorem get_am {s : PSt} (h : Fine s) (w : Nat) : ∃ b t, poolGet E w s = .ok b t ∧ Fine t ∧ Buf t.mem w b ∧ heldP t.trace = b.arr :: heldP s.trace ∧
    (∀ a ∈ heldP s.trace, t.mem a = s.mem a) ∧ StaySized s t ∧ SameVars s t ∧ b.arr < t.pool.fresh ∧ reads t.trace = reads s.trace := by
  obtain ⟨t, h1, h2, h3, h4, -⟩ := others_am hE h
  have hget : ∃ b p, t.pool.GetBySize w = .ok (b, p) := by
    unfold BPool.GetBySize BPool.selectGet
    split
    · exact ⟨_, _, rfl⟩
    · rw [if_neg (by omega)]; exact ⟨_, _, rfl⟩
  obtain ⟨b, p, hg⟩ := hget
  obtain ⟨g1, g2, g3, g4, g5, g6⟩ := own_get h2.fine hg
  refine ⟨b, { t with
      pool := p, mem := if p.fresh = t.pool.fresh then t.mem else upd t.mem b.arr (List.replicate b.cap 0), trace := t.trace ++ [.get b] }, ?_, ?_, ?_, ?_, ?_, ?_, ?_, ?_, ?_⟩
  · unfold poolGet
    simp only [PM.bind_apply, h1, PM.get_apply, hg, PM.modify_apply, emitP, PM.pure_apply]
  · unfold Fine
    simp only [heldP_snoc]
    exact g1
  · exact ⟨g4.1, by omega, by omega, by have := g4.2; simp only; omega⟩
  · simp only [heldP_snoc, h4]
  · intro a ha
    have ha' : a < t.pool.fresh := h2.fine.old a (List.mem_append_left _ (by rw [h4]; exact ha))
    exact (g6 a ha').trans (h2.keep a ha)
  · exact h2.sized.trans ⟨g5, fun a ha => by simp only; rw [g6 a ha]⟩
  · exact h3
  · exact g1.old b.arr (by simp)
  · simp only [reads_snoc, h4, Nat.add_zero]

theorem put_am {s : PSt} (h : Fine s) {rb : Slice} {H : List Nat} (hh : heldP s.trace = rb.arr :: H) (hb : FullBuf s.mem rb) :
    ∃ t, poolPut E rb s = .ok () t ∧ Fine t ∧ heldP t.trace = H ∧ (∀ a ∈ heldP s.trace, t.mem a = s.mem a) ∧ StaySized s t ∧ SameVars s t ∧
      reads t.trace = reads s.trace ∧ t.trace = s.trace ++ [.put rb] := by
  obtain ⟨t, h1, h2, h3, h4, -⟩ := others_am hE h
  have hf := h2.fine
  unfold Fine at hf
  rw [h4, hh] at hf
  have hk := h2.keep rb.arr (by rw [hh]; simp)
  obtain ⟨g1, g2⟩ := own_put hf ⟨hb.1, by rw [hk]; exact hb.2⟩
  have hheld : heldP (t.trace ++ [.put rb]) = H := by simp only [heldP_snoc, h4, hh, List.erase_cons_head]
  refine ⟨{ t with pool := t.pool.Put rb, trace := t.trace ++ [.put rb] }, ?_, ?_, hheld, h2.keep, ?_, h3, ?_, by rw [h4]⟩
  · unfold poolPut
    simp only [PM.bind_apply, h1, PM.modify_apply, emitP]
  · unfold Fine
    simp only [hheld]
    exact g1
  · exact h2.sized.trans ⟨by simp only [g2]; exact Nat.le_refl _, fun _ _ => rfl⟩
  · simp only [reads_snoc, h4, Nat.add_zero]

theorem read_am {s : PSt} (h : Fine s) {w : Nat} {b : Slice} {d : Bytes} {e : Bool} (hh : b.arr ∈ heldP s.trace) (hb : Buf s.mem w b) (hd : d.length ≤ w)
    (hr : E.read s.trace w = (d, e)) :
    ∃ t, connRead E b s = .ok (d.length, e) t ∧ Fine t ∧ heldP t.trace = heldP s.trace ∧ Buf t.mem w b ∧ t.mem b.arr = d ++ (s.mem b.arr).drop d.length ∧
      (∀ a ∈ heldP s.trace, a ≠ b.arr → t.mem a = s.mem a) ∧ StaySized s t ∧ SameVars s t ∧ reads t.trace = reads s.trace + 1 := by
  obtain ⟨t, h1, h2, h3, h4, -⟩ := others_am hE h
  have htake : d.take w = d := List.take_of_length_le hd
  have hk := h2.keep b.arr hh
  obtain ⟨c1, c2, c3, c4⟩ := hb
  have hmem : writeSlice t.mem b d = upd t.mem b.arr (d ++ (s.mem b.arr).drop d.length) := by
    simp [writeSlice, c1, hk]
  have hl : (d ++ (s.mem b.arr).drop d.length).length = (t.mem b.arr).length := by rw [hk]; simp; omega
  have hnp : b.arr ∉ pooled t.pool := by
    have := h2.fine.nodup
    rw [h4, List.nodup_append] at this
    exact fun hp => this.2.2 _ hh _ hp rfl
  have hheld : heldP (t.trace ++ [.read w d e]) = heldP s.trace := by simp only [heldP_snoc, h4]
  refine ⟨{ t with mem := writeSlice t.mem b d, trace := t.trace ++ [.read w d e] }, ?_, ?_, hheld, ?_, ?_, ?_, ?_, h3, ?_⟩
  · unfold connRead
    simp only [PM.bind_apply, h1, PM.get_apply, PM.modify_apply, emitP, PM.pure_apply, h4, c2, hr, htake]
  · unfold Fine
    simp only [hheld, hmem]
    have := own_write h2.fine hnp (data := d ++ (s.mem b.arr).drop d.length)
    rw [h4] at this
    exact this
  · refine ⟨c1, c2, c3, ?_⟩
    simp only [hmem, upd_same, hl, hk, c4]
  · simp only [hmem, upd_same]
  · intro a ha hne
    simp only [hmem]
    rw [upd_ne _ _ hne]
    exact h2.keep a ha
  · refine h2.sized.trans ⟨Nat.le_refl _, fun a ha => ?_⟩
    simp only [hmem]
    by_cases e : a = b.arr
    · subst e; rw [upd_same, hl]
    · rw [upd_ne _ _ e]
  · simp only [reads_snoc, h4]

theorem load_am {s : PSt} (h : Fine s) {b : Slice} (hh : b.arr ∈ heldP s.trace) :
    ∃ t, loadSlice E b s = .ok (readSlice s.mem b) t ∧ Along s t ∧ SameVars s t := by
  obtain ⟨t, h1, h2, h3, h4, -⟩ := others_am hE h
  refine ⟨{ t with trace := t.trace ++ [.load] }, ?_, h2.trans (.still h2.fine rfl rfl (by simp only [heldP_snoc]) (by simp only [reads_snoc, Nat.add_zero])), h3⟩
  unfold loadSlice
  simp only [PM.bind_apply, h1, PM.get_apply, emitP, PM.modify_apply, PM.pure_apply, readSlice, h2.keep b.arr hh]

theorem write_am {s : PSt} (h : Fine s) (d : Bytes) : ∃ t, connWrite E d s = .ok false t ∧ Along s t ∧ SameVars s t := by
  obtain ⟨t, h1, h2, h3, h4, -⟩ := others_am hE h
  refine ⟨{ t with trace := t.trace ++ [.write d false] }, ?_, h2.trans (.still h2.fine rfl rfl (by simp only [heldP_snoc]) (by simp only [reads_snoc, Nat.add_zero])), h3⟩
  unfold connWrite
  simp only [PM.bind_apply, h1, PM.get_apply, hE.writes, emitP, PM.modify_apply, PM.pure_apply]

theorem requestLoop_am (n i : Nat) (hi : i + n ≤ 2 ^ 63) {s : PSt} (h : Fine s) : ∃ t, requestLoop E n i s = .ok () t ∧ Along s t ∧ SameVars s t := by
  induction n generalizing i s with
  | zero => exact ⟨s, rfl, .still h rfl rfl rfl rfl, .refl s⟩
  | succ n ih =>
    obtain ⟨w, hw, -⟩ := request_ok (E.order s.trace) (hE.order _) i (by omega)
    obtain ⟨t, h1, h2, h3⟩ := write_am hE h w
    obtain ⟨u, h4, h5, h6⟩ := ih (i + 1) (by omega) h2.fine
    refine ⟨u, ?_, h2.trans h5, h3.trans h6⟩
    unfold requestLoop
    simp only [PM.bind_apply, PM.get_apply, hw, PM.lift_ok, h1, Bool.false_eq_true, if_false, h4]

theorem make_am (n w : Nat) (h : n * w ≤ 2 ^ 48) (s : PSt) :
    makeSized E n w s = .ok () { s with trace := s.trace ++ [.alloc (n * w)] } := by
  unfold makeSized
  rw [if_neg (by omega), if_neg (by unfold maxAlloc; simp only [Int.toNat_natCast]; omega)]
  simp only [PM.bind_apply, emitP, PM.modify_apply, PM.get_apply, hE.memory, Int.toNat_natCast, Bool.false_eq_true, if_false, PM.pure_apply]

/-- the first read of a message -/
theorem prefix_am {s : PSt} (h : Fine s) {pre : Bytes} (hpre : pre.length = 4) (hr1 : ∀ tr, reads tr = reads s.trace → E.read tr 4 = (pre, false)) :
    ∃ p t, readBytesByPrefixLenMsg E s = readAfterPrefix E p t ∧ Fine t ∧ Buf t.mem 4 p ∧ readSlice t.mem p = pre ∧ heldP t.trace = p.arr :: heldP s.trace ∧
      StaySized s t ∧ SameVars s t ∧ reads t.trace = reads s.trace + 1 := by
  obtain ⟨p, s1, g1, F1, B1, H1, K1, Z1, V1, -, r1⟩ := get_am hE h 4
  obtain ⟨s2, g2, F2, H2, B2, m2, K2, Z2, V2, r2⟩ := read_am hE F1 (by rw [H1]; simp) B1 (Nat.le_of_eq hpre) (hr1 _ r1)
  refine ⟨p, s2, ?_, F2, B2, ?_, H2.trans H1, Z1.trans Z2, V1.trans V2, by omega⟩
  · unfold readBytesByPrefixLenMsg
    simp only [PM.bind_apply, PrefixLen, g1, g2, Bool.false_eq_true, if_false]
  · have h4 := B1.2.2.2
    unfold readSlice
    rw [m2, B2.1, B2.2.1]
    simp only [List.drop_zero]
    rw [List.take_append_of_le_length (by omega), List.take_of_length_le (by omega)]

/-- a message with a body is received into a buffer that this download now holds -/
theorem readBytes_am {s : PSt} (h : Fine s) {body : Bytes} (hne : body ≠ []) (hle : body.length ≤ 32768)
    (hr1 : ∀ tr, reads tr = reads s.trace → E.read tr 4 = (be32 body.length, false))
    (hr2 : ∀ tr, reads tr = reads s.trace + 1 → E.read tr 32768 = (body, false)) :
    ∃ b t, readBytesByPrefixLenMsg E s = .ok (false, some { b with len := body.length }, false) t ∧ Fine t ∧ Buf t.mem 32768 b ∧
      (∃ rest, t.mem b.arr = body ++ rest) ∧ heldP t.trace = b.arr :: heldP s.trace ∧ StaySized s t ∧ SameVars s t ∧ b.arr < t.pool.fresh ∧
      reads t.trace = reads s.trace + 2 := by
  have hpos : 1 ≤ body.length := by cases body with | nil => exact absurd rfl hne | cons => simp
  have hval : beVal (be32 body.length) = body.length := beVal_be32 (by omega)
  obtain ⟨p, s2, g2, F2, B2, L2, H2, Z2, V2, r2⟩ := prefix_am hE h (pre := be32 body.length) rfl hr1
  obtain ⟨s3, g3, A3, V3⟩ := load_am hE F2 (b := p) (by rw [H2]; simp)
  have hk := A3.keep p.arr (by rw [H2]; simp)
  obtain ⟨s4, g4, F4, H4, K4, Z4, V4, r4, -⟩ := put_am hE A3.fine (rb := p) (H := heldP s.trace) (by rw [A3.held, H2])
    ⟨B2.1, by rw [hk, B2.2.2.2, B2.2.2.1]⟩
  obtain ⟨b, s5, g5, F5, B5, H5, K5, Z5, V5, O5, r5⟩ := get_am hE F4 32768
  obtain ⟨s6, g6, F6, H6, B6, m6, K6, Z6, V6, r6⟩ := read_am hE F5 (by rw [H5]; simp) B5 hle (hr2 _ (by rw [r5, r4, A3.reads, r2]))
  refine ⟨b, s6, ?_, F6, B6, ⟨_, m6⟩, by rw [H6, H5, H4], (((Z2.trans A3.sized).trans Z4).trans Z5).trans Z6, (((V2.trans V3).trans V4).trans V5).trans V6, Nat.lt_of_lt_of_le O5 Z6.1, ?_⟩
  · rw [g2]
    unfold readAfterPrefix
    simp only [PM.bind_apply, g3, L2]
    have e0 : (be32 body.length).take 4 = be32 body.length := rfl
    rw [e0, hval, if_neg (by show ¬ (4 < 4); omega), if_neg (by omega)]
    simp only [PM.bind_apply, g4]
    rw [if_neg (by unfold maxReadLength; omega)]
    simp only [PM.bind_apply, maxReadLength]
    rw [show (32 * 1024 : Nat) = 32768 from rfl, g5]
    simp only [g6, Bool.false_eq_true, if_false, PM.pure_apply]
  · rw [r6, r5, r4, A3.reads, r2]

omit hE in
/-- giving back never fails -/
theorem putBack_any (E : PEnv) (rb : Option Slice) (u : PSt) : ∃ v, putBack E rb u = .ok () v ∧ reads v.trace = reads u.trace ∧ SameVars u v := by
  cases rb with
  | none => exact ⟨u, rfl, rfl, .refl u⟩
  | some rb =>
    unfold putBack
    by_cases h : rb.cap > 0
    · simp only [if_pos h]
      refine ⟨_, rfl, ?_, ⟨rfl, rfl, rfl⟩⟩
      simp only [reads_snoc, Nat.add_zero]
    · simp only [if_neg h]
      exact ⟨u, rfl, rfl, .refl u⟩

/-- a message with a body: the handler runs `handleExtendedMsg` on extended messages and nothing on others, and then gives the buffer back -/
theorem handler_am {s : PSt} (h : Fine s) {body : Bytes} (hne : body ≠ []) (hle : body.length ≤ 32768)
    (hr1 : ∀ tr, reads tr = reads s.trace → E.read tr 4 = (be32 body.length, false))
    (hr2 : ∀ tr, reads tr = reads s.trace + 1 → E.read tr 32768 = (body, false)) :
    ∃ (b : Slice) (t : PSt), readMetaDataHandler E s = PM.deferred
        (if body[0]? = some 20 then handleExtendedMsg E { b with len := body.length } body else pure ())
        (putBack E (some { b with len := body.length })) t ∧ Fine t ∧ b.off = 0 ∧ (t.mem b.arr).length = 32768 ∧ (∃ rest, t.mem b.arr = body ++ rest) ∧
      StaySized s t ∧ SameVars s t ∧ b.arr < t.pool.fresh ∧ reads t.trace = reads s.trace + 2 ∧
      ∀ u, Along t u → ∃ v, putBack E (some { b with len := body.length }) u = .ok () v ∧ Fine v ∧ v.mem b.arr = t.mem b.arr ∧ StaySized u v ∧ SameVars u v ∧
        reads v.trace = reads u.trace ∧ v.trace = u.trace ++ [.put { b with len := body.length }] := by
  obtain ⟨b, s1, g1, F1, B1, ⟨rest, m1⟩, H1, Z1, V1, O1, r1⟩ := readBytes_am hE h hne hle hr1 hr2
  obtain ⟨t, g2, A2, V2⟩ := load_am hE F1 (b := { b with len := body.length }) (by rw [H1]; simp)
  have hpos : 1 ≤ body.length := by cases body with | nil => exact absurd rfl hne | cons => simp
  have hrd : readSlice s1.mem { b with len := body.length } = body := by
    unfold readSlice
    simp only [m1, B1.1, List.drop_zero]
    rw [List.take_append_of_le_length (by omega), List.take_of_length_le (by omega)]
  have hk := A2.keep b.arr (by rw [H1]; simp)
  refine ⟨b, t, ?_, A2.fine, B1.1, by rw [hk]; exact B1.2.2.2, ⟨rest, by rw [hk]; exact m1⟩, Z1.trans A2.sized, V1.trans V2, Nat.lt_of_lt_of_le O1 A2.sized.1,
    by rw [A2.reads, r1], fun u hu => ?_⟩
  · unfold readMetaDataHandler
    rw [PM.bind_apply, g1]
    simp only [PM.deferred, handleMsg, Bool.false_eq_true, if_false, PM.bind_apply, g2, hrd]
    obtain ⟨c, hc⟩ : ∃ c, body[0]? = some c := ⟨body[0], List.getElem?_eq_getElem (by omega)⟩
    simp only [parsePrefixLenMsg, hc, PM.lift_ok]
    by_cases h20 : c = 20
    · subst h20; rfl
    · rw [if_neg (show ¬ (c.toNat = ExtendedPeerMsg) from fun h => h20 (UInt8.toNat_inj.1 h)), if_neg (by simpa using h20)]
  · have hku := hu.keep b.arr (by rw [A2.held, H1]; simp)
    obtain ⟨v, g3, F3, H3, K3, Z3, V3, r3, t3⟩ := put_am hE hu.fine (rb := { b with len := body.length }) (H := heldP s.trace)
      (by rw [hu.held, A2.held, H1]) ⟨B1.1, by simp only; rw [hku, hk, B1.2.2.2, B1.2.2.1]⟩
    refine ⟨v, ?_, F3, ?_, Z3, V3, r3, t3⟩
    · unfold putBack
      simp only
      rw [if_pos (by rw [B1.2.2.1]; omega)]
      exact g3
    · rw [K3 b.arr (by rw [hu.held, A2.held, H1]; simp)]
      exact hku

/-- a keep-alive: nothing changes (its 4-byte buffer is lost) -/
theorem keepAlive_am {s : PSt} (h : Fine s) (hr1 : ∀ tr, reads tr = reads s.trace → E.read tr 4 = (be32 0, false)) :
    ∃ t, readMetaDataHandler E s = .ok () t ∧ Fine t ∧ StaySized s t ∧ SameVars s t ∧ reads t.trace = reads s.trace + 1 := by
  obtain ⟨p, s2, g2, F2, B2, L2, H2, Z2, V2, r2⟩ := prefix_am hE h (pre := be32 0) rfl hr1
  obtain ⟨s3, g3, A3, V3⟩ := load_am hE F2 (b := p) (by rw [H2]; simp)
  refine ⟨s3, ?_, A3.fine, Z2.trans A3.sized, V2.trans V3, by rw [A3.reads, r2]⟩
  have hstart : readBytesByPrefixLenMsg E s = .ok (true, none, false) s3 := by
    rw [g2]
    unfold readAfterPrefix
    simp only [PM.bind_apply, g3, L2]
    rw [if_neg (by decide), if_pos (by decide)]
    rfl
  unfold readMetaDataHandler
  rw [PM.bind_apply, hstart]
  rfl

/-- a length above 32768: the handler panics -/
theorem tooLong_am {s : PSt} (h : Fine s) {n : Nat} (hn : 32768 < n ∧ n < 2 ^ 32)
    (hr1 : ∀ tr, reads tr = reads s.trace → E.read tr 4 = (be32 n, false)) :
    ∃ p t, readMetaDataHandler E s = .panic p t ∧ reads t.trace = reads s.trace + 1 := by
  have hv := beVal_be32 hn.2
  obtain ⟨p, s2, g2, F2, B2, L2, H2, Z2, V2, r2⟩ := prefix_am hE h (pre := be32 n) rfl hr1
  obtain ⟨s3, g3, A3, V3⟩ := load_am hE F2 (b := p) (by rw [H2]; simp)
  have hk := A3.keep p.arr (by rw [H2]; simp)
  obtain ⟨s4, g4, F4, H4, K4, Z4, V4, r4, -⟩ := put_am hE A3.fine (rb := p) (H := heldP s.trace) (by rw [A3.held, H2])
    ⟨B2.1, by rw [hk, B2.2.2.2, B2.2.2.1]⟩
  have hstart : readBytesByPrefixLenMsg E s = .ok (false, none, true) s4 := by
    rw [g2]
    unfold readAfterPrefix
    simp only [PM.bind_apply, g3, L2]
    have e0 : (be32 n).take 4 = be32 n := rfl
    rw [e0, hv, if_neg (by show ¬ (4 < 4); omega), if_neg (by omega)]
    simp only [PM.bind_apply, g4]
    rw [if_pos (by unfold maxReadLength; omega)]
    rfl
  refine ⟨.str b!"read prefix length err", s4, ?_, by rw [r4, A3.reads, r2]⟩
  unfold readMetaDataHandler
  rw [PM.bind_apply, hstart]
  rfl

/-- a failing read ends the download -/
theorem readErr_am {s : PSt} (h : Fine s) (hr : ∀ tr, reads tr = reads s.trace → (E.read tr 4).2 = true) : ∃ p t, readMetaDataHandler E s = .panic p t := by
  obtain ⟨p, s1, g1, F1, B1, H1, K1, Z1, V1, -, r1⟩ := get_am hE h 4
  obtain ⟨s2, g2, -, -, h4, -⟩ := others_am hE F1
  obtain ⟨t, h⟩ : ∃ t, readBytesByPrefixLenMsg E s = .ok (false, none, true) t := by
    have hrd := hr s2.trace (by rw [h4, r1])
    unfold readBytesByPrefixLenMsg
    simp only [PM.bind_apply, PrefixLen, g1, connRead, g2, PM.get_apply, PM.modify_apply, emitP, PM.pure_apply, B1.2.1, hrd, if_true]
    exact ⟨_, rfl⟩
  refine ⟨.str b!"read prefix length err", t, ?_⟩
  unfold readMetaDataHandler
  rw [PM.bind_apply, h]
  rfl

/-- an announcement: the new state, or doom -/
theorem announce_am {body : Bytes} {z : Int} (hm : meaning body = .announce z) (rb : Slice) {s : PSt} (h : Fine s) :
    (0 ≤ z ∧ 24 * ((z + 16383) / 16384) ≤ 2 ^ 48 → ∃ u, handleExtendedMsg E rb body s = .ok () u ∧ Along s u ∧ u.metaDataSize = z ∧
        u.metaData = List.replicate ((z + 16383) / 16384).toNat none ∧ u.requested = List.replicate ((z + 16383) / 16384).toNat false) ∧
    (¬ (0 ≤ z ∧ 24 * ((z + 16383) / 16384) ≤ 2 ^ 48) → Dooms (handleExtendedMsg E rb body) s) := by
  obtain ⟨-, hid, dict, hp, hz⟩ := meaning_announce hm
  have hex : Dict.Exist dict b!"metadata_size" = true := by simp [Dict.Exist, dictGet, hz]
  have hgi : Dict.GetInteger dict b!"metadata_size" = .ok z := by simp [Dict.GetInteger, Dict.GetVal, dictGet, hz, GoVal.asInt]
  refine ⟨fun ⟨h0, hsz⟩ => ?_, fun hbad => ?_⟩
  · have hc := C42_piece_count z h0
    obtain ⟨n, hn⟩ : ∃ n : Nat, (z + 16383) / 16384 = n := ⟨((z + 16383) / 16384).toNat, by omega⟩
    rw [hn] at hc hsz ⊢
    have A1 : Along s { s with
          metaDataSize := z, metaData := List.replicate n none
          requested := List.replicate n false
          trace := s.trace ++ [.alloc (n * 24)] ++ [.alloc (n * 1)] ++ [.announced z] } :=
      .still h rfl rfl (by simp only [heldP_snoc]) (by simp only [reads_snoc, Nat.add_zero])
    obtain ⟨u, h1, h2, h3⟩ := requestLoop_am hE n 0 (by omega) A1.fine
    refine ⟨u, ?_, A1.trans h2, h3.2.1, h3.1, h3.2.2⟩
    unfold handleExtendedMsg
    rw [hid]
    simp only
    rw [if_pos (by decide), hp]
    simp only [PM.bind_apply, PM.lift_ok]
    rw [if_neg (by simp [hex]), hgi]
    simp only [PM.bind_apply, PM.lift_ok, PM.modify_apply, hc, make_am hE n 24 (by omega), make_am hE n 1 (by omega), emitP,
      Int.toNat_natCast, h1]
  · unfold Dooms handleExtendedMsg
    rw [hid]
    simp only
    rw [if_pos (by decide), hp]
    simp only [PM.bind_apply, PM.lift_ok]
    rw [if_neg (by simp [hex]), hgi]
    simp only [PM.bind_apply, PM.lift_ok, PM.modify_apply]
    by_cases h0 : 0 ≤ z
    · have hc := C42_piece_count z h0
      left
      unfold makeSized
      rw [hc, if_neg (by omega), if_pos (by unfold maxAlloc; omega)]
      exact ⟨_, _, rfl, rfl⟩
    · by_cases h1 : pieceCount z < 0
      · left
        unfold makeSized
        rw [if_pos h1]
        exact ⟨_, _, rfl, rfl⟩
      · have hc : pieceCount z = 0 := by
          unfold pieceCount at *
          simp only at *
          obtain ⟨n, rfl⟩ : ∃ n : Nat, z = -(n : Int) := ⟨(-z).toNat, by omega⟩
          have e1 : Int.tdiv (-(n : Int)) SizeOf16KB ≤ 0 := by
            rw [Int.neg_tdiv, Int.tdiv_eq_ediv_of_nonneg (by omega)]
            simp only [SizeOf16KB]
            omega
          have e2 : ¬ Int.tmod (-(n : Int)) SizeOf16KB > 0 := by
            rw [Int.neg_tmod, Int.tmod_eq_emod_of_nonneg (by omega)]
            simp only [SizeOf16KB]
            omega
          rw [if_neg e2] at *
          omega
        right
        rw [hc]
        simp only [make_am hE 0 24 (by omega), make_am hE 0 1 (by omega), show (0 : Int) = ((0 : Nat) : Int) from rfl, Int.toNat_natCast]
        refine ⟨_, rfl, rfl, rfl, rfl, ?_, ?_⟩
        · show z < 0; omega
        · simp only [reads_snoc, Nat.add_zero]

end

end P2P

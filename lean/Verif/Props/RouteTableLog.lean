import Verif.Model.RouteTableLog
import Verif.Props.RouteTableFull
import Verif.Props.DownloadLines
/-! # Property C98: what the route table writes to the console -/
namespace P2P
open RouteTable

/-! ## Specification: the six records -/

/-- an insertion was refused because its bucket is full -/
def bucketFullRec (size : Int) (preLen : Nat) : LogRec :=
  { pfx := b!"rtable", method := .Info, msg := b!"the bucket has full", ctx := some [(b!"tableSize", lint size), (b!"preLen", lint preLen)] }
/-- the table cannot be split any more -/
def tableFullRec (size : Int) : LogRec :=
  { pfx := b!"rtable", method := .Error, msg := b!"the route table has full", ctx := some [(b!"size", lint size)] }
/-- the last bucket was split -/
def splitRec (lastIndex : Nat) (size : Int) : LogRec :=
  { pfx := b!"rtable", method := .Trace, msg := b!"the route table has split new bucket", ctx := some [(b!"lastIndex", lint lastIndex), (b!"size", lint size)] }
/-- the alarm at the end of a split -/
def addFailRec (lastIndex : Nat) (size : Int) : LogRec :=
  { pfx := b!"rtable", method := .Error, msg := b!"the route table add fail", ctx := some [(b!"lastIndex", lint lastIndex), (b!"size", lint size)] }

/-! ## Without its log it is the other model -/

@[simp] theorem RL.bind_res {α β : Type} (m : RL α) (f : α → RL β) : (m >>= f).res = (m.res >>= fun a => (f a).res) := by
  show (RL.bind m f).res = Res.bind m.res fun a => (f a).res
  unfold RL.bind Res.bind
  cases m.res <;> rfl

@[simp] theorem RL.pure_res {α : Type} (a : α) : (pure a : RL α).res = .ok a := rfl
@[simp] theorem RL.pure_log {α : Type} (a : α) : (pure a : RL α).log = [] := rfl
@[simp] theorem RL.quiet_res {α : Type} (r : Res α) : (RL.quiet r).res = r := rfl
@[simp] theorem RL.log1_res (m : LogMethod) (msg : Bytes) (ctx : List (Bytes × LogVal)) : (RL.log1 m msg ctx).res = .ok () := rfl

theorem RL.bind_log {α β : Type} {m : RL α} {a : α} (h : m.res = .ok a) (f : α → RL β) : (m >>= f).log = m.log ++ (f a).log := by
  show (RL.bind m f).log = _
  unfold RL.bind
  rw [h]

theorem RL.ite_res {α : Type} {c : Prop} [Decidable c] (x y : RL α) : (if c then x else y).res = if c then x.res else y.res := by
  split <;> rfl

theorem addNodeWithL_res (env : Env) {splitL : RouteTable → NodeInfo → RL (RouteTable × Option Bytes)} {split : RouteTable → NodeInfo → AddRes}
    (hs : ∀ t n, (splitL t n).res = split t n) (t : RouteTable) (node : NodeInfo) (p : Nat) :
    (addNodeWithL env splitL t node p).res = addNodeWith env split t node p := by
  unfold addNodeWithL addNodeWith
  simp only [RL.bind_res, RL.quiet_res]
  cases t.bucket p with
  | ok b =>
    simp only [Res.bind_ok, RL.ite_res, hs, RL.bind_res, RL.log1_res, RL.pure_res, Res.pure_eq]
    cases b.Add node with
    | mk b' ok => cases ok <;> rfl
  | err e => rfl
  | panic q => rfl
  | diverge => rfl

theorem reAddL_res (env : Env) {splitL : RouteTable → NodeInfo → RL (RouteTable × Option Bytes)} {split : RouteTable → NodeInfo → AddRes}
    (hs : ∀ t n, (splitL t n).res = split t n) (t : RouteTable) (l : List NodeInfo) :
    (reAddL env splitL t l).res = reAdd env split t l := by
  induction l generalizing t with
  | nil => rfl
  | cons n r ih =>
    unfold reAddL reAdd
    simp only [RL.bind_res, addNodeWithL_res env hs, ih]

theorem addSplitL_res (env : Env) (f : Nat) (t : RouteTable) (node : NodeInfo) :
    (addSplitL env f t node).res = addSplit env f t node := by
  induction f generalizing t node with
  | zero => rfl
  | succ f ih =>
    unfold addSplitL addSplit
    by_cases hc : t.last ≥ t.capacity
    · rw [if_pos hc, if_pos hc]; rfl
    · rw [if_neg hc, if_neg hc]
      simp only [RL.bind_res, RL.quiet_res, RL.log1_res, Res.bind_ok, reAddL_res env (fun t n => ih t n), addNodeWithL_res env (fun t n => ih t n),
        RL.pure_res, Res.pure_eq]
      congr 1; funext b
      congr 1; funext t2
      congr 1; funext r
      congr 1; funext c
      split <;> rfl

/-- **C98: logging does not change what an insertion does.** -/
theorem C98_same (env : Env) (t : RouteTable) (node : NodeInfo) (h : NodeInfo) (k c : Nat) :
    (t.AddNodeL env node).res = t.AddNode env node ∧ (RouteTable.newL h k c).res = .ok (RouteTable.new h k c) :=
  ⟨addNodeWithL_res env (fun t n => addSplitL_res env _ t n) t node _, rfl⟩

/-- **C98** Creating a table (at package initialisation, dht/dht.go:20) writes one record, with the size of the buckets. -/
theorem C98_created (h : NodeInfo) (k c : Nat) :
    (RouteTable.newL h k c).log = [⟨b!"rtable", .Info, b!"init route table", some [(b!"k", lint k)]⟩] := rfl

/-! ## The log of one insertion -/

/-- the log of an insertion, by cases -/
theorem addNodeWithL_log {env : Env} {t : RouteTable} (hi : Inv env t) (splitL : RouteTable → NodeInfo → RL (RouteTable × Option Bytes)) (node : NodeInfo) :
    ((t.bucketNodes (t.place node.id)).length < t.k → (addNodeWithL env splitL t node (t.solveMaxPreLen node.id)).log = []) ∧
    ((t.bucketNodes (t.place node.id)).length = t.k → (t.place node.id < t.last ∨ Has env t node) →
      (addNodeWithL env splitL t node (t.solveMaxPreLen node.id)).log = [bucketFullRec t.size (t.place node.id)]) ∧
    ((t.bucketNodes (t.place node.id)).length = t.k → t.place node.id = t.last → ¬ Has env t node →
      (addNodeWithL env splitL t node (t.solveMaxPreLen node.id)).log = (splitL t node).log) := by
  rw [solveMaxPreLen_eq]
  obtain ⟨b, hb⟩ := hi.dom _ (t.place_le node.id)
  have hc := hi.cap _ _ hb
  have hbn := bucketNodes_of hb
  have hle := t.place_le node.id
  have hexi := exist_iff (env := env) hb
  have hq : (RL.quiet (t.bucket (t.place node.id))).res = .ok b := by simp [RouteTable.bucket, hb]
  unfold addNodeWithL
  rw [RL.bind_log hq, hbn]
  refine ⟨fun h => ?_, fun h hx => ?_, fun h hp hn => ?_⟩
  · have hf : b.Full = false := by simp [Bucket.Full]; omega
    simp only [hf, Bool.and_false, Bool.false_eq_true, if_false, Bucket.add_ok (b := b) node (by omega)]
    cases b.Exist env node <;> rfl
  · have hf : b.Full = true := by simp [Bucket.Full]; omega
    have hcond : (decide (t.place node.id ≥ t.last) && !b.Exist env node && b.Full) = false := by
      rcases hx with hx | hx
      · simp [Nat.not_le.2 hx]
      · simp [hexi.2 hx]
    rw [if_neg (by rw [hcond]; simp), if_pos hf]
    rfl
  · have hf : b.Full = true := by simp [Bucket.Full]; omega
    have he : b.Exist env node = false := by
      cases h : b.Exist env node with
      | false => rfl
      | true => exact absurd (hexi.1 h) hn
    rw [if_pos (by simp [hf, he]; omega)]
    rfl

/-- a bucket with room: no record -/
theorem addNodeWithL_room {env : Env} {t : RouteTable} (splitL : RouteTable → NodeInfo → RL (RouteTable × Option Bytes)) (node : NodeInfo) {p : Nat} {b : Bucket}
    (hb : t.bucket p = .ok b) (hf : b.nodes.length < b.cap) : (addNodeWithL env splitL t node p).log = [] := by
  have hq : (RL.quiet (t.bucket p)).res = .ok b := hb
  have hf' : b.Full = false := by simp [Bucket.Full]; omega
  unfold addNodeWithL
  rw [RL.bind_log hq]
  simp only [hf', Bool.and_false, Bool.false_eq_true, if_false, Bucket.add_ok (b := b) node hf]
  cases b.Exist env node <;> rfl

theorem midT_bucket (t : RouteTable) (base : Int) (d : List NodeInfo) (n : NodeInfo) (hlen : d.length < t.k)
    (hpl : t.last ≤ solvePrefixLen n.id t.hnode.id) :
    ∃ b, (midT t base d).bucket ((midT t base d).solveMaxPreLen n.id) = .ok b ∧ b.nodes.length < b.cap := by
  rw [solveMaxPreLen_eq]
  by_cases hp : solvePrefixLen n.id t.hnode.id ≤ t.last
  · have hpl' : (midT t base d).place n.id = t.last := by simp [place, midT, splitT]; omega
    rw [hpl']
    refine ⟨{ nodes := d.filter (fun n => solvePrefixLen n.id t.hnode.id ≤ t.last), cap := t.k }, ?_, ?_⟩
    · simp [RouteTable.bucket, midT, splitT, upd]
    · exact Nat.lt_of_le_of_lt (List.length_filter_le _ _) hlen
  · have hpl' : (midT t base d).place n.id = t.last + 1 := by simp [place, midT, splitT]; omega
    rw [hpl']
    refine ⟨{ nodes := d.filter (fun n => t.last < solvePrefixLen n.id t.hnode.id), cap := t.k }, ?_, ?_⟩
    · simp [RouteTable.bucket, midT, splitT, upd]
    · exact Nat.lt_of_le_of_lt (List.length_filter_le _ _) hlen

theorem reAddL_log {env : Env} {splitL : RouteTable → NodeInfo → RL (RouteTable × Option Bytes)} (t : RouteTable) (base : Int)
    (d r : List NodeInfo) (hlen : (d ++ r).length ≤ t.k)
    (hpl : ∀ n ∈ r, t.last ≤ solvePrefixLen n.id t.hnode.id)
    (hpw : (d ++ r).Pairwise (fun a c => a.Equals env c = false)) :
    (reAddL env splitL (midT t base d) r).log = [] := by
  induction r generalizing d with
  | nil => rfl
  | cons n r ih =>
    unfold reAddL
    have h1 := addNodeWithL_res env (splitL := splitL) (fun _ _ => rfl) (midT t base d) n ((midT t base d).solveMaxPreLen n.id)
    rw [midT_step _ t base d n (by simp at hlen; omega) (hpl n (by simp)) (fun m hm => (List.pairwise_append.mp hpw).2.2 m hm n (by simp))] at h1
    rw [RL.bind_log h1]
    obtain ⟨b, hb, hr⟩ := midT_bucket t base d n (by simp at hlen; omega) (hpl n (by simp))
    rw [addNodeWithL_room splitL n hb hr]
    exact ih (d ++ [n]) (by simpa using hlen) (fun m hm => hpl m (by simp [hm])) (by simpa using hpw)

theorem countLoop_eq (t : RouteTable) (n i : Nat) (h : ∀ j, i ≤ j → j < i + n → ∃ b, t.nodeMap j = some b) :
    countLoop t n i = .ok ((List.range' i n).flatMap t.bucketNodes).length := by
  induction n generalizing i with
  | zero => rfl
  | succ n ih =>
    obtain ⟨b, hb⟩ := h i (by omega) (by omega)
    simp only [countLoop, RouteTable.bucket, hb, Res.bind_ok, ih (i + 1) (fun j h1 h2 => h j (by omega) (by omega)), Res.pure_eq]
    simp [List.range'_succ, Bucket.Size, bucketNodes_of hb]

theorem nodeCount_eq {env : Env} {t : RouteTable} (hi : Inv env t) : t.nodeCount = .ok t.nodes.length := by
  unfold nodeCount
  rw [countLoop_eq t _ _ (fun j _ hj => hi.dom j (by omega)), nodes_range, List.range_eq_range']

/-- the log of one split -/
theorem addSplitL_log {env : Env} {t : RouteTable} (hi : Inv env t) (f : Nat) (node : NodeInfo) (h : t.last < t.capacity)
    (hf : t.capacity - t.last < f + 1) {t3 : RouteTable} {e3 : Option Bytes} (hi3 : Inv env t3)
    (hr : addNodeWith env (addSplit env f) (splitT t (t.bucketNodes t.last)) node ((splitT t (t.bucketNodes t.last)).solveMaxPreLen node.id) = .ok (t3, e3)) :
    (addSplitL env (f + 1) t node).log = splitRec (t.last + 1) (t.size - (t.bucketNodes t.last).length) ::
      ((addNodeWithL env (addSplitL env f) (splitT t (t.bucketNodes t.last)) node ((splitT t (t.bucketNodes t.last)).solveMaxPreLen node.id)).log ++
      if t.size + 1 = t3.nodes.length then [] else [addFailRec t3.last t3.size]) := by
  obtain ⟨b, hb⟩ := hi.dom t.last (Nat.le_refl _)
  have hlen : (([] : List NodeInfo) ++ b.All).length ≤ t.k := by simpa [Bucket.All] using (hi.cap _ _ hb).2
  have hpl : ∀ n ∈ b.All, t.last ≤ solvePrefixLen n.id t.hnode.id := fun n hn => by
    have := hi.placed _ _ hb n hn
    unfold place at this; omega
  have hpw : (([] : List NodeInfo) ++ b.All).Pairwise (fun a c => a.Equals env c = false) := by simpa [Bucket.All] using hi.pw _ _ hb
  have hmid := reAdd_mid (env := env) (fun t n => (addSplitL env f t n).res) t (t.size - b.Size) [] b.All hlen hpl hpw
  have hmidlog := reAddL_log (env := env) (splitL := addSplitL env f) t (t.size - b.Size) [] b.All hlen hpl hpw
  have hfin : midT t (t.size - b.Size) ([] ++ b.All) = splitT t (t.bucketNodes t.last) := by
    rw [bucketNodes_of hb]
    simp [midT, splitT, Bucket.All, Bucket.Size]
  rw [hfin] at hmid
  have hcond : ¬ t.last ≥ t.capacity := by omega
  have hstart : (RouteTable.setBucket
      { RouteTable.setBucket { t with size := t.size - (b.Size : Int) } t.last (Bucket.new t.k) with
        last := t.last + 1 } (t.last + 1) (Bucket.new t.k)) = midT t (t.size - b.Size) [] := by
    simp [midT, splitT, setBucket, Bucket.new]
  have hq : (RL.quiet (t.bucket t.last)).res = .ok b := by simp [RouteTable.bucket, hb]
  conv => lhs; unfold addSplitL
  rw [if_neg hcond, RL.bind_log hq]
  show [] ++ _ = _
  rw [List.nil_append]
  simp only
  rw [show (RouteTable.setBucket { t with size := t.size - (b.Size : Int) } t.last (Bucket.new t.k)).last = t.last from rfl, hstart]
  rw [RL.bind_log (RL.log1_res ..)]
  have hm' := hmid
  rw [← reAddL_res env (splitL := addSplitL env f) (fun _ _ => rfl)] at hm'
  rw [RL.bind_log hm', hmidlog]
  have hr' := hr
  rw [← addNodeWithL_res env (splitL := addSplitL env f) (fun t n => addSplitL_res env f t n)] at hr'
  rw [RL.bind_log hr']
  simp only
  have hcnt : (RL.quiet t3.nodeCount).res = .ok t3.nodes.length := nodeCount_eq hi3
  rw [RL.bind_log hcnt]
  have hlast : (midT t (t.size - (b.Size : Int)) []).last = t.last + 1 := rfl
  have hsize : (midT t (t.size - (b.Size : Int)) []).size = t.size - b.Size := by simp [midT]
  rw [hlast, hsize, bucketNodes_of hb]
  by_cases hc : t.size + 1 = t3.nodes.length
  · rw [if_pos hc, if_neg (by simpa using hc)]
    rfl
  · rw [if_neg hc, if_pos hc]
    rfl

/-- What an insertion of `node` that took the table from `t` to `t'` and returned nil has written: one record per split, with the new index of the last
bucket; one if the node was refused behind the splits; and one alarm per split if the number of nodes is not what the size had promised. -/
def SplitLog (env : Env) (t t' : RouteTable) (node : NodeInfo) (log : List LogRec) : Prop :=
  ∃ refused, log = (List.range (t'.last - t.last)).map (fun i => splitRec (t.last + 1 + i) (t.Size - t.k)) ++ refused ++
      (if t.Size + 1 = t'.nodes.length then [] else List.replicate (t'.last - t.last) (addFailRec t'.last t'.Size)) ∧
    (t'.Has env node → refused = []) ∧
    (¬ t'.Has env node → t'.place node.id < t'.last → refused = [bucketFullRec t.Size (t'.place node.id)]) ∧
    (¬ t'.Has env node → t'.place node.id = t'.last → refused = [tableFullRec t.Size])

theorem add_log {env : Env} (f : Nat) {t : RouteTable} (hi : Inv env t) (node : NodeInfo) (hf : t.capacity - t.last < f)
    {t' : RouteTable} {e : Option Bytes} (hr : addNodeWith env (addSplit env f) t node (t.solveMaxPreLen node.id) = .ok (t', e)) :
    (e = some b!"the bucket is full" → (addNodeWithL env (addSplitL env f) t node (t.solveMaxPreLen node.id)).log = [bucketFullRec t.size (t.place node.id)] ∧
      (t.place node.id < t.last ∨ Has env t node)) ∧
    (e = some b!"full route table" → (addNodeWithL env (addSplitL env f) t node (t.solveMaxPreLen node.id)).log = [tableFullRec t.size] ∧
      t.place node.id = t.last) ∧
    (e = none → SplitLog env t t' node (addNodeWithL env (addSplitL env f) t node (t.solveMaxPreLen node.id)).log) ∧
    (e = none ∨ e = some b!"the bucket is full" ∨ e = some b!"full route table") := by
  induction f generalizing t t' e with
  | zero => omega
  | succ f ih =>
    have hcase := addCase hi (addSplit env (f + 1)) node
    obtain ⟨l1, l2, l3⟩ := addNodeWithL_log hi (addSplitL env (f + 1)) node
    rw [hr] at hcase
    have nosplit : ∀ u : RouteTable, u.last = t.last → Has env u node → SplitLog env t u node [] := by
      intro u hu hh
      refine ⟨[], ?_, fun _ => rfl, fun h => absurd hh h, fun h => absurd hh h⟩
      rw [hu, Nat.sub_self]
      simp
    generalize hw : (Res.ok (t', e) : AddRes) = w at hcase
    cases hcase with
    | store hl hn =>
      cases hw
      rw [l1 hl]
      exact ⟨fun h => (by cases h), fun h => (by cases h), fun _ => nosplit _ rfl (has_storeT (equals_refl _ _)), .inl rfl⟩
    | dup hl hn =>
      cases hw
      rw [l1 hl]
      exact ⟨fun h => (by cases h), fun h => (by cases h), fun _ => nosplit _ rfl hn, .inl rfl⟩
    | full hl hx =>
      cases hw
      rw [l2 hl hx]
      exact ⟨fun _ => ⟨rfl, hx⟩, fun h => absurd (Option.some.inj h) (by decide), fun h => (by cases h), .inr (.inl rfl)⟩
    | split hl hp hn =>
      rw [l3 hl hp hn]
      by_cases hcap : t.capacity ≤ t.last
      · rw [addSplit_full env f t node hcap] at hw
        cases hw
        refine ⟨fun h => absurd (Option.some.inj h) (by decide), fun _ => ⟨?_, hp⟩, fun h => (by cases h), .inr (.inr rfl)⟩
        unfold addSplitL
        rw [if_pos hcap]
        rfl
      · have hlt : t.last < t.capacity := by omega
        have hi2 := splitT_inv hi hlt
        have hf2 : (splitT t (t.bucketNodes t.last)).capacity - (splitT t (t.bucketNodes t.last)).last < f := by
          show t.capacity - (t.last + 1) < f
          omega
        obtain ⟨t3, e3, h3, hs3⟩ := addSpec f hi2 node hf2
        rw [addSplit_step hi f node hlt, h3] at hw
        simp only [Res.bind_ok, nodeCount_eq hs3.inv] at hw
        cases hw
        refine ⟨fun h => (by cases h), fun h => (by cases h), fun _ => ?_, .inl rfl⟩
        rw [addSplitL_log hi f node hlt hf hs3.inv h3]
        obtain ⟨i1, i2, i3, i4⟩ := ih hi2 hf2 h3
        have hk : (t.bucketNodes t.last).length = t.k := by rw [← hp]; exact hl
        have hnot := splitT_not_has hp hn
        rw [hk]
        have refusedCase : ∀ r, (addNodeWithL env (addSplitL env f) (splitT t (t.bucketNodes t.last)) node
            ((splitT t (t.bucketNodes t.last)).solveMaxPreLen node.id)).log = [r] → t' = splitT t (t.bucketNodes t.last) →
            (t'.place node.id < t'.last → r = bucketFullRec t.size (t'.place node.id)) → (t'.place node.id = t'.last → r = tableFullRec t.size) →
            SplitLog env t t' node (splitRec (t.last + 1) (t.size - t.k) :: ((addNodeWithL env (addSplitL env f) (splitT t (t.bucketNodes t.last)) node
              ((splitT t (t.bucketNodes t.last)).solveMaxPreLen node.id)).log ++ if t.size + 1 = t'.nodes.length then [] else [addFailRec t'.last t'.size])) := by
          intro r hlog ht h1 h2
          have hl1 : t'.last - t.last = 1 := by rw [ht]; show t.last + 1 - t.last = 1; omega
          refine ⟨[r], ?_, fun h => absurd (ht ▸ h) hnot, fun _ h => congrArg (fun x => [x]) (h1 h), fun _ h => congrArg (fun x => [x]) (h2 h)⟩
          rw [hl1, hlog]
          simp [RouteTable.Size]
          rfl
        rcases i4 with rfl | rfl | rfl
        · obtain ⟨refused, e1, e2, e3, e4⟩ := i3 rfl
          refine ⟨refused, ?_, e2, e3, e4⟩
          rw [e1]
          have hl2 : (splitT t (t.bucketNodes t.last)).last = t.last + 1 := rfl
          have hlast := hs3.last
          rw [hl2] at hlast ⊢
          obtain ⟨m, hm⟩ : ∃ m, t'.last - (t.last + 1) = m := ⟨_, rfl⟩
          have hm' : t'.last - t.last = m + 1 := by omega
          rw [hm, hm', List.range_succ_eq_map]
          have hsz : (splitT t (t.bucketNodes t.last)).Size = t.Size := rfl
          have hkk : (splitT t (t.bucketNodes t.last)).k = t.k := rfl
          rw [hsz, hkk]
          simp only [List.map_cons, List.map_map, List.cons_append, Nat.add_zero, List.append_assoc]
          refine congrArg (splitRec (t.last + 1) (t.size - t.k) :: ·) ?_
          congr 1
          · apply List.map_congr_left
            intro i _
            simp only [Function.comp]
            congr 1; omega
          · congr 1
            by_cases hc : t.Size + 1 = (t'.nodes.length : Int)
            · rw [if_pos hc, if_pos hc, if_pos (show t.size + 1 = (t'.nodes.length : Int) from hc)]; rfl
            · rw [if_neg hc, if_neg hc, if_neg (show ¬ t.size + 1 = (t'.nodes.length : Int) from hc), List.replicate_succ']; rfl
        · obtain ⟨ht, -, -⟩ := hs3.err (by simp)
          obtain ⟨i5, i6⟩ := i1 rfl
          refine refusedCase _ i5 ht (fun _ => by rw [ht]; rfl) (fun h => ?_)
          rw [ht] at h
          rcases i6 with i6 | i6
          · exact absurd h (Nat.ne_of_lt i6)
          · exact absurd i6 hnot
        · obtain ⟨ht, -, -⟩ := hs3.err (by simp)
          obtain ⟨i5, i6⟩ := i2 rfl
          refine refusedCase _ i5 ht (fun h => ?_) (fun _ => rfl)
          rw [ht] at h
          exact absurd i6 (Nat.ne_of_lt h)

/-- **C98: the complete log of one insertion.** An insertion that is refused writes exactly one record, with the size; one that returns nil without a split
writes nothing; one that splits writes what `SplitLog` says. -/
theorem C98_log {env : Env} {t t' : RouteTable} {node : NodeInfo} {e : Option Bytes} (h : Reachable env t) (hadd : t.AddNode env node = .ok (t', e)) :
    (e = some b!"the bucket is full" → (t.AddNodeL env node).log = [bucketFullRec t.Size (t.place node.id)]) ∧
    (e = some b!"full route table" → (t.AddNodeL env node).log = [tableFullRec t.Size]) ∧
    (e = none → SplitLog env t t' node (t.AddNodeL env node).log) ∧
    (e = none ∨ e = some b!"the bucket is full" ∨ e = some b!"full route table") := by
  obtain ⟨h1, h2, h3, h4⟩ := add_log (t.capacity + 1) h.inv node (by omega) hadd
  exact ⟨fun he => (h1 he).1, fun he => (h2 he).1, h3, h4⟩

/-! ## The alarm -/

theorem split_new {env : Env} {t t' : RouteTable} {node : NodeInfo} {e : Option Bytes} (h : Reachable env t) (hadd : t.AddNode env node = .ok (t', e))
    (hl : t.last < t'.last) : e = none ∧ ¬ t.Has env node := by
  have hc := addNode_case h node
  rw [hadd] at hc
  generalize hw : (Res.ok (t', e) : AddRes) = w at hc
  cases hc with
  | store => cases hw; exact absurd hl (Nat.lt_irrefl _)
  | dup => cases hw; exact absurd hl (Nat.lt_irrefl _)
  | full => cases hw; exact absurd hl (Nat.lt_irrefl _)
  | split h1 h2 h3 =>
    refine ⟨?_, h3⟩
    cases e with
    | none => rfl
    | some m => have := (C21_error h hadd).1; rw [this] at hl; exact absurd hl (Nat.lt_irrefl _)

/-- after a split the node is stored exactly if there is one node more -/
theorem split_count {env : Env} {t t' : RouteTable} {node : NodeInfo} {e : Option Bytes} (h : Reachable env t) (hadd : t.AddNode env node = .ok (t', e))
    (hl : t.last < t'.last) : (t'.Has env node → t'.nodes.length = t.nodes.length + 1) ∧ (¬ t'.Has env node → t'.nodes.length = t.nodes.length) := by
  obtain ⟨t1, e1, h1, hs⟩ := AddNode_spec h.inv node
  rw [h1] at hadd
  cases hadd
  have hno := (split_new h h1 hl).2
  rcases hs.nodes with hp | hp
  · refine ⟨fun hh => absurd ?_ hno, fun _ => hp.length_eq⟩
    obtain ⟨m, hm, he⟩ := hh
    have hm1 : m ∈ t.nodes := hp.mem_iff.1 (mem_nodes.2 ⟨_, place_le _ _, hm⟩)
    have hpl := hs.inv.mem_bucket hm
    refine ⟨m, ?_, he⟩
    have hm2 := h.inv.mem_nodes_iff.1 hm1
    have : t.place m.id = t.place node.id := by
      simp only [place, hs.hnode] at hpl ⊢
      omega
    rwa [this] at hm2
  · refine ⟨fun _ => by simpa using hp.length_eq, fun hn => absurd ?_ hn⟩
    have hm : node ∈ t'.nodes := hp.mem_iff.2 (List.mem_cons_self ..)
    exact ⟨node, hs.inv.mem_nodes_iff.1 hm, equals_refl _ _⟩

/-- **C98: what the alarm is worth.** An insertion that splits the last bucket raises the alarm "the route table add fail" exactly if the node was dropped, or
if some node was ever offered twice and counted twice before: from then on it is raised at every split, whether or not the node is stored. No other insertion
raises it. -/
theorem C98_alarm {env : Env} {h : NodeInfo} {k c : Nat} (hk : 0 < k) {ns : List NodeInfo} {t t' : RouteTable} {es : List (Option Bytes)} {node : NodeInfo}
    {e : Option Bytes} (hrun : (RouteTable.new h k c).addAll env ns = .ok (t, es)) (hadd : t.AddNode env node = .ok (t', e)) :
    (∃ r ∈ (t.AddNodeL env node).log, r.msg = b!"the route table add fail") ↔
      t.last < t'.last ∧ (¬ t'.Has env node ∨ dupCalls env (RouteTable.new h k c) ns ≠ 0) := by
  have hr : Reachable env t := by
    obtain ⟨t0, es0, h1, h2⟩ := C19_runs env h k c ns
    rw [hrun] at h1; cases h1; exact h2
  obtain ⟨c1, c2, c3, c4⟩ := C98_log hr hadd
  have hsz := C22_size hk hrun
  have hbf : ∀ a b, (bucketFullRec a b).msg ≠ b!"the route table add fail" := fun _ _ => by
    show b!"the bucket has full" ≠ _
    decide
  have htf : ∀ a, (tableFullRec a).msg ≠ b!"the route table add fail" := fun _ => by
    show b!"the route table has full" ≠ _
    decide
  have hsp : ∀ a b, (splitRec a b).msg ≠ b!"the route table add fail" := fun _ _ => by
    show b!"the route table has split new bucket" ≠ _
    decide
  have noerr : e ≠ none → ¬ t.last < t'.last := by
    intro he hl
    exact he (split_new hr hadd hl).1
  rcases c4 with rfl | rfl | rfl
  · obtain ⟨refused, hlog, r1, r2, r3⟩ := c3 rfl
    have href : ∀ r ∈ refused, r.msg ≠ b!"the route table add fail" := by
      intro r hr'
      by_cases hh : t'.Has env node
      · rw [r1 hh] at hr'; cases hr'
      · rcases Nat.lt_or_ge (t'.place node.id) t'.last with hp | hp
        · rw [r2 hh hp, List.mem_singleton] at hr'; subst hr'; exact hbf _ _
        · rw [r3 hh (Nat.le_antisymm (place_le _ _) hp), List.mem_singleton] at hr'; subst hr'; exact htf _
    have hlhs : (∃ r ∈ (t.AddNodeL env node).log, r.msg = b!"the route table add fail") ↔ t.last < t'.last ∧ t.Size + 1 ≠ t'.nodes.length := by
      rw [hlog]
      constructor
      · rintro ⟨r, hr', hm⟩
        rcases List.mem_append.1 hr' with hr' | hr'
        · rcases List.mem_append.1 hr' with hr' | hr'
          · obtain ⟨i, -, rfl⟩ := List.mem_map.1 hr'
            exact absurd hm (hsp _ _)
          · exact absurd hm (href r hr')
        · split at hr'
          · cases hr'
          · rename_i hne
            exact ⟨by have := (List.mem_replicate.1 hr').1; omega, hne⟩
      · rintro ⟨h1, h2⟩
        refine ⟨addFailRec t'.last t'.Size, ?_, rfl⟩
        rw [if_neg h2]
        exact List.mem_append_right _ (List.mem_replicate.2 ⟨by omega, rfl⟩)
    rw [hlhs]
    refine and_congr_right fun hl => ?_
    obtain ⟨k1, k2⟩ := split_count hr hadd hl
    by_cases hh : t'.Has env node
    · have := k1 hh
      constructor
      · intro hne; right; omega
      · rintro (h' | h')
        · exact absurd hh h'
        · omega
    · have := k2 hh
      exact ⟨fun _ => .inl hh, fun _ => by omega⟩
  · rw [c1 rfl]
    refine ⟨?_, fun hx => absurd hx.1 (noerr (by simp))⟩
    rintro ⟨r, hr', hm⟩
    rw [List.mem_singleton] at hr'; subst hr'; exact absurd hm (hbf _ _)
  · rw [c2 rfl]
    refine ⟨?_, fun hx => absurd hx.1 (noerr (by simp))⟩
    rintro ⟨r, hr', hm⟩
    rw [List.mem_singleton] at hr'; subst hr'; exact absurd hm (htf _)

/-! ## Histories -/

/-- the log of a history of insertions -/
def historyLog (env : Env) (t : RouteTable) : List NodeInfo → List LogRec
  | [] => []
  | n :: r => (t.AddNodeL env n).log ++
    match t.AddNode env n with
    | .ok (t', _) => historyLog env t' r
    | _ => []

/-- **C98: the log of a history.** The splits are recorded one by one: the records of the splits carry the indices 1, 2, 3, … without gap or repetition, as many
as the table has buckets beyond the first. The table writes at most one record per node offered and two per split: a peer that offers nodes for ever
gets one line each into the log, and no more than that. -/
theorem C98_history {env : Env} {t t' : RouteTable} {ns : List NodeInfo} {es : List (Option Bytes)} (h : Reachable env t)
    (hadd : t.addAll env ns = .ok (t', es)) :
    (∃ sizes : List Int, sizes.length = t'.last - t.last ∧ (historyLog env t ns).filter (fun r => decide (r.method = .Trace)) =
      sizes.zipIdx.map (fun s => splitRec (t.last + 1 + s.2) s.1)) ∧
    (historyLog env t ns).length ≤ ns.length + 2 * (t'.last - t.last) ∧ t.last ≤ t'.last ∧ t'.last ≤ t'.capacity := by
  induction ns generalizing t es with
  | nil =>
    cases hadd
    refine ⟨⟨[], by simp, rfl⟩, by simp [historyLog], Nat.le_refl _, h.inv.lastLe⟩
  | cons m r ih =>
    simp only [addAll] at hadd
    obtain ⟨⟨t1, e⟩, h1, h2⟩ := Res.bind_eq_ok.mp hadd
    obtain ⟨⟨t2, es'⟩, h3, h4⟩ := Res.bind_eq_ok.mp h2
    cases h4
    obtain ⟨⟨sizes, z1, z2⟩, z3, z4, z5⟩ := ih (.add h h1) h3
    obtain ⟨c1, c2, c3, c4⟩ := C98_log h h1
    have hfix : ∀ u : RouteTable, u = t → t1 = u → t1.last = t.last := by rintro u rfl rfl; rfl
    have key : ∃ sz : List Int, sz.length = t1.last - t.last ∧ (t.AddNodeL env m).log.filter (fun r => decide (r.method = .Trace)) =
        sz.zipIdx.map (fun s => splitRec (t.last + 1 + s.2) s.1) ∧ (t.AddNodeL env m).log.length ≤ 1 + 2 * (t1.last - t.last) ∧ t.last ≤ t1.last := by
      rcases c4 with rfl | rfl | rfl
      · obtain ⟨refused, hlog, r1, r2, r3⟩ := c3 rfl
        have hle : t.last ≤ t1.last := by
          obtain ⟨t1', e', h1', hs⟩ := AddNode_spec h.inv m
          rw [h1'] at h1; cases h1; exact hs.last
        have href : refused.filter (fun r => decide (r.method = .Trace)) = [] ∧ refused.length ≤ 1 := by
          by_cases hh : t1.Has env m
          · rw [r1 hh]; simp
          · rcases Nat.lt_or_ge (t1.place m.id) t1.last with hp | hp
            · rw [r2 hh hp]; simp [bucketFullRec]
            · rw [r3 hh (Nat.le_antisymm (place_le _ _) hp)]; simp [tableFullRec]
        refine ⟨List.replicate (t1.last - t.last) (t.Size - t.k), by simp, ?_, ?_, hle⟩
        · rw [hlog, List.filter_append, List.filter_append, href.1]
          have h1 : ((List.range (t1.last - t.last)).map (fun i => splitRec (t.last + 1 + i) (t.Size - t.k))).filter (fun r => decide (r.method = .Trace)) =
              (List.range (t1.last - t.last)).map (fun i => splitRec (t.last + 1 + i) (t.Size - t.k)) := by
            rw [List.filter_eq_self]
            intro a ha
            obtain ⟨i, -, rfl⟩ := List.mem_map.1 ha
            rfl
          have h2 : (if t.Size + 1 = (t1.nodes.length : Int) then [] else List.replicate (t1.last - t.last) (addFailRec t1.last t1.Size)).filter
              (fun r => decide (r.method = .Trace)) = [] := by
            split
            · rfl
            · rw [List.filter_eq_nil_iff]
              intro a ha
              rw [(List.mem_replicate.1 ha).2]
              simp [addFailRec]
          rw [h1, h2, List.append_nil, List.append_nil]
          apply List.ext_getElem
          · simp
          · intro i hi1 hi2
            simp
        · rw [hlog]
          have := href.2
          split <;> simp <;> omega
      · have := (C21_error h h1).1
        subst this
        rw [c1 rfl]
        exact ⟨[], by simp, by simp [bucketFullRec], by simp, Nat.le_refl _⟩
      · have := (C21_error h h1).1
        subst this
        rw [c2 rfl]
        exact ⟨[], by simp, by simp [tableFullRec], by simp, Nat.le_refl _⟩
    obtain ⟨sz, k1, k2, k3, k4⟩ := key
    have hlog : historyLog env t (m :: r) = (t.AddNodeL env m).log ++ historyLog env t1 r := by simp only [historyLog, h1]
    refine ⟨⟨sz ++ sizes, ?_, ?_⟩, ?_, Nat.le_trans k4 z4, z5⟩
    · rw [List.length_append, k1, z1]; omega
    · rw [hlog, List.filter_append, k2, z2, List.zipIdx_append, List.map_append]
      congr 1
      apply List.ext_getElem
      · simp
      · intro i hi1 hi2
        simp [k1]
        congr 1
        omega
    · rw [hlog, List.length_append, List.length_cons]
      omega

/-- **C98: the records of the table** are of four kinds, with fixed texts and numbers only; nothing a peer sends gets into them as text. -/
theorem C98_kinds {env : Env} {t t' : RouteTable} {node : NodeInfo} {e : Option Bytes} (h : Reachable env t) (hadd : t.AddNode env node = .ok (t', e)) :
    ∀ r ∈ (t.AddNodeL env node).log,
      (∃ a b, r = bucketFullRec a b) ∨ (∃ a, r = tableFullRec a) ∨ (∃ a b, r = splitRec a b) ∨ (∃ a b, r = addFailRec a b) := by
  obtain ⟨c1, c2, c3, c4⟩ := C98_log h hadd
  intro r hr
  rcases c4 with rfl | rfl | rfl
  · obtain ⟨refused, hlog, r1, r2, r3⟩ := c3 rfl
    rw [hlog] at hr
    rcases List.mem_append.1 hr with hr | hr
    · rcases List.mem_append.1 hr with hr | hr
      · obtain ⟨i, -, rfl⟩ := List.mem_map.1 hr
        exact .inr (.inr (.inl ⟨_, _, rfl⟩))
      · by_cases hh : t'.Has env node
        · rw [r1 hh] at hr; cases hr
        · rcases Nat.lt_or_ge (t'.place node.id) t'.last with hp | hp
          · rw [r2 hh hp, List.mem_singleton] at hr; exact .inl ⟨_, _, hr⟩
          · rw [r3 hh (Nat.le_antisymm (place_le _ _) hp), List.mem_singleton] at hr; exact .inr (.inl ⟨_, hr⟩)
    · split at hr
      · cases hr
      · exact .inr (.inr (.inr ⟨_, _, (List.mem_replicate.1 hr).2⟩))
  · rw [c1 rfl, List.mem_singleton] at hr; exact .inl ⟨_, _, hr⟩
  · rw [c2 rfl, List.mem_singleton] at hr; exact .inr (.inl ⟨_, hr⟩)

/-- the texts of the records -/
theorem C98_texts (time : Bytes) (a : Int) (b : Nat) :
    (bucketFullRec a b).printed time (bucketFullRec a b).ctx =
      time ++ b!"   Info: [rtable]the bucket has full, tableSize:" ++ itoa a ++ b!"|preLen:" ++ itoa b ++ b!"\r\n" ∧
    (tableFullRec a).printed time (tableFullRec a).ctx = time ++ b!"  Error: [rtable]the route table has full, size:" ++ itoa a ++ b!"\r\n" ∧
    (splitRec b a).printed time (splitRec b a).ctx =
      time ++ b!"  Trace: [rtable]the route table has split new bucket, lastIndex:" ++ itoa b ++ b!"|size:" ++ itoa a ++ b!"\r\n" ∧
    (addFailRec b a).printed time (addFailRec b a).ctx =
      time ++ b!"  Error: [rtable]the route table add fail, lastIndex:" ++ itoa b ++ b!"|size:" ++ itoa a ++ b!"\r\n" := by
  refine ⟨?_, ?_, ?_, ?_⟩ <;>
    simp [LogRec.printed, bucketFullRec, tableFullRec, splitRec, addFailRec, ConsoleLogger.call, LogLevel.num, ConsoleLogger.record, appendCtx, appendLoop,
      padLeft6, LogMethod.levelName, ToString, lint, ljson, List.append_assoc]

/-! ## Concrete histories -/

/-- the texts of a log, for examples -/
def logMsgs (l : List LogRec) : List Bytes := l.map (·.msg)

/-- three splits at once, the node is stored, no alarm -/
example : ∃ t es t', (RouteTable.new (nd 0 1) 2 8).addAll env0 [nd 0x20 1] = .ok (t, es) ∧ t.AddNode env0 (nd 0x10 1) = .ok (t', none) ∧ t'.last = 3 ∧
    t'.Has env0 (nd 0x10 1) ∧ logMsgs (t.AddNodeL env0 (nd 0x10 1)).log =
      [b!"the route table has split new bucket", b!"the route table has split new bucket", b!"the route table has split new bucket"] := by
  refine ⟨_, _, _, rfl, rfl, ?_⟩; decide +kernel

/-- **C98: a false alarm**: after the host itself was offered once, a split raises the alarm although the node is stored. -/
theorem C98_false_alarm : ∃ t es t', (RouteTable.new (nd 0 1) 2 8).addAll env0 [nd 0 1, nd 0x80 1] = .ok (t, es) ∧
    t.AddNode env0 (nd 0x40 1) = .ok (t', none) ∧ t'.Has env0 (nd 0x40 1) ∧ logMsgs (t.AddNodeL env0 (nd 0x40 1)).log =
      [b!"the route table has split new bucket", b!"the route table add fail"] := by
  refine ⟨_, _, _, rfl, rfl, ?_⟩; decide +kernel

/-- a true alarm: the node is dropped -/
example : ∃ t', (RouteTable.new (nd 0 1) 1 1).AddNode env0 (nd 0 2) = .ok (t', none) ∧ ¬ t'.Has env0 (nd 0 2) ∧
    logMsgs ((RouteTable.new (nd 0 1) 1 1).AddNodeL env0 (nd 0 2)).log =
      [b!"the route table has split new bucket", b!"the route table has full", b!"the route table add fail"] := by
  refine ⟨_, rfl, ?_⟩; decide +kernel

/-- refusals: a full bucket and a full table -/
example : ∃ t es, (RouteTable.new (nd 0 1) 1 1).addAll env0 [nd 0x80 1] = .ok (t, es) ∧ logMsgs (t.AddNodeL env0 (nd 0xC0 1)).log = [b!"the bucket has full"] ∧
    logMsgs (t.AddNodeL env0 (nd 0x40 1)).log = [b!"the route table has full"] := by
  refine ⟨_, _, rfl, ?_⟩; decide +kernel

end P2P

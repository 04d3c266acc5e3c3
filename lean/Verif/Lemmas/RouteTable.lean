import Verif.Lemmas.Prefix
namespace P2P
namespace RouteTable

/-- Structural invariant of the table. -/
structure Inv (env : Env) (t : RouteTable) : Prop where
  dom : ∀ i, i ≤ t.last → ∃ b, t.nodeMap i = some b
  dom' : ∀ i, t.last < i → t.nodeMap i = none
  cap : ∀ i b, t.nodeMap i = some b → b.cap = t.k ∧ b.nodes.length ≤ t.k
  lastLe : t.last ≤ t.capacity
  placed : ∀ i b, t.nodeMap i = some b → ∀ n ∈ b.nodes, i = t.place n.id
  pw : ∀ i b, t.nodeMap i = some b → b.nodes.Pairwise (fun a c => a.Equals env c = false)

theorem solveMaxPreLen_eq (t : RouteTable) (id : Bytes) : t.solveMaxPreLen id = t.place id := by
  unfold solveMaxPreLen place
  simp only
  split <;> omega

theorem place_le (t : RouteTable) (id : Bytes) : t.place id ≤ t.last := by unfold place; omega

/-- The table right after the last bucket was split and its nodes were redistributed. -/
def splitT (t : RouteTable) (src : List NodeInfo) : RouteTable :=
  { t with
    last := t.last + 1
    nodeMap := upd (upd t.nodeMap t.last
        (some { nodes := src.filter (fun n => solvePrefixLen n.id t.hnode.id ≤ t.last), cap := t.k }))
      (t.last + 1) (some { nodes := src.filter (fun n => t.last < solvePrefixLen n.id t.hnode.id), cap := t.k }) }

/-- intermediate table: the prefix `d` of the source bucket has been re-added -/
def midT (t : RouteTable) (base : Int) (d : List NodeInfo) : RouteTable :=
  { splitT t d with size := base + d.length }

theorem Bucket.add_ok {b : Bucket} (n : NodeInfo) (h : b.nodes.length < b.cap) :
    b.Add n = ({ b with nodes := b.nodes ++ [n] }, true) := by
  have : b.Full = false := by simp [Bucket.Full]; omega
  simp [Bucket.Add, this]

theorem upd_upd_same {A B : Type} [DecidableEq A] (f : A → B) (a : A) (b c : B) :
    upd (upd f a b) a c = upd f a c := by
  funext x; unfold upd; split <;> rfl

theorem upd_upd_comm {A B : Type} [DecidableEq A] (f : A → B) {a a' : A} (h : a ≠ a') (b c : B) :
    upd (upd f a b) a' c = upd (upd f a' c) a b := by
  funext x; unfold upd
  by_cases h1 : x = a <;> by_cases h2 : x = a' <;> simp_all

theorem midT_step {env : Env} (split : RouteTable → NodeInfo → AddRes) (t : RouteTable) (base : Int)
    (d : List NodeInfo) (n : NodeInfo) (hlen : d.length < t.k)
    (hpl : t.last ≤ solvePrefixLen n.id t.hnode.id)
    (hne : ∀ m ∈ d, m.Equals env n = false) :
    addNodeWith env split (midT t base d) n ((midT t base d).solveMaxPreLen n.id)
      = .ok (midT t base (d ++ [n]), none) := by
  rw [solveMaxPreLen_eq]
  by_cases hp : solvePrefixLen n.id t.hnode.id ≤ t.last
  · have hpl' : (midT t base d).place n.id = t.last := by simp [place, midT, splitT]; omega
    rw [hpl']
    have hb : (midT t base d).bucket t.last = .ok
        { nodes := d.filter (fun n => solvePrefixLen n.id t.hnode.id ≤ t.last), cap := t.k } := by
      simp [RouteTable.bucket, midT, splitT, upd]
    have hlf : (d.filter (fun n => solvePrefixLen n.id t.hnode.id ≤ t.last)).length < t.k :=
      Nat.lt_of_le_of_lt (List.length_filter_le _ _) hlen
    have hex : Bucket.Exist env
        { nodes := d.filter (fun n => solvePrefixLen n.id t.hnode.id ≤ t.last), cap := t.k } n = false := by
      simp only [Bucket.Exist, List.any_eq_false, List.mem_filter, and_imp]
      intro m hm _; simp [hne m hm]
    have hfull : Bucket.Full
        { nodes := d.filter (fun n => solvePrefixLen n.id t.hnode.id ≤ t.last), cap := t.k } = false := by
      simp only [Bucket.Full]; simpa using hlf
    unfold addNodeWith
    rw [hb]
    simp only [Res.bind_ok, hex, hfull, Bool.and_false, Bool.false_eq_true, if_false, Bool.not_false,
      if_true, Bucket.add_ok (b := { nodes := d.filter (fun n => solvePrefixLen n.id t.hnode.id ≤ t.last), cap := t.k }) n hlf,
      Res.pure_eq, Res.ok.injEq, Prod.mk.injEq, and_true]
    have hn2 : ¬ t.last < solvePrefixLen n.id t.hnode.id := by omega
    simp [midT, splitT, setBucket, List.filter_append, hp]
    constructor
    · have h1 : t.last + 1 ≠ t.last := by omega
      rw [upd_upd_comm _ h1, upd_upd_same]
    · omega
  · have hpl' : (midT t base d).place n.id = t.last + 1 := by simp [place, midT, splitT]; omega
    rw [hpl']
    have hb : (midT t base d).bucket (t.last + 1) = .ok
        { nodes := d.filter (fun n => t.last < solvePrefixLen n.id t.hnode.id), cap := t.k } := by
      simp [RouteTable.bucket, midT, splitT, upd]
    have hlf : (d.filter (fun n => t.last < solvePrefixLen n.id t.hnode.id)).length < t.k :=
      Nat.lt_of_le_of_lt (List.length_filter_le _ _) hlen
    have hex : Bucket.Exist env
        { nodes := d.filter (fun n => t.last < solvePrefixLen n.id t.hnode.id), cap := t.k } n = false := by
      simp only [Bucket.Exist, List.any_eq_false, List.mem_filter, and_imp]
      intro m hm _; simp [hne m hm]
    have hfull : Bucket.Full
        { nodes := d.filter (fun n => t.last < solvePrefixLen n.id t.hnode.id), cap := t.k } = false := by
      simp only [Bucket.Full]; simpa using hlf
    unfold addNodeWith
    rw [hb]
    simp only [Res.bind_ok, hex, hfull, Bool.and_false, Bool.false_eq_true, if_false, Bool.not_false,
      if_true, Bucket.add_ok (b := { nodes := d.filter (fun n => t.last < solvePrefixLen n.id t.hnode.id), cap := t.k }) n hlf,
      Res.pure_eq, Res.ok.injEq, Prod.mk.injEq, and_true]
    have hn2 : t.last < solvePrefixLen n.id t.hnode.id := by omega
    simp [midT, splitT, setBucket, List.filter_append, hp, hn2, upd_upd_same]
    omega

theorem reAdd_mid {env : Env} (split : RouteTable → NodeInfo → AddRes) (t : RouteTable) (base : Int)
    (d r : List NodeInfo) (hlen : (d ++ r).length ≤ t.k)
    (hpl : ∀ n ∈ r, t.last ≤ solvePrefixLen n.id t.hnode.id)
    (hpw : (d ++ r).Pairwise (fun a c => a.Equals env c = false)) :
    reAdd env split (midT t base d) r = .ok (midT t base (d ++ r)) := by
  induction r generalizing d with
  | nil => simp [reAdd]
  | cons n r ih =>
    unfold reAdd
    rw [midT_step split t base d n (by simp at hlen; omega) (hpl n (by simp))
      (fun m hm => (List.pairwise_append.mp hpw).2.2 m hm n (by simp))]
    simp only [Res.bind_ok]
    rw [ih (d ++ [n]) (by simpa using hlen) (fun m hm => hpl m (by simp [hm])) (by simpa using hpw)]
    simp

theorem countLoop_ok {t : RouteTable} (n i : Nat) (h : ∀ j, i ≤ j → j < i + n → ∃ b, t.nodeMap j = some b) :
    ∃ c, countLoop t n i = .ok c := by
  induction n generalizing i with
  | zero => exact ⟨0, rfl⟩
  | succ n ih =>
    obtain ⟨b, hb⟩ := h i (by omega) (by omega)
    obtain ⟨c, hc⟩ := ih (i + 1) (fun j h1 h2 => h j (by omega) (by omega))
    exact ⟨b.Size + c, by simp [countLoop, RouteTable.bucket, hb, hc]⟩

theorem Inv.nodeCount_ok {env : Env} {t : RouteTable} (h : Inv env t) : ∃ c, t.nodeCount = .ok c :=
  countLoop_ok _ _ (fun j _ hj => h.dom j (by omega))

theorem bucketNodes_of {t : RouteTable} {i : Nat} {b : Bucket} (h : t.nodeMap i = some b) :
    t.bucketNodes i = b.nodes := by simp [bucketNodes, h]

theorem addSplit_full (env : Env) (f : Nat) (t : RouteTable) (node : NodeInfo) (h : t.capacity ≤ t.last) :
    addSplit env (f + 1) t node = .ok (t, some b!"full route table") := by
  simp [addSplit, h]

/-- what one split does -/
theorem addSplit_step {env : Env} {t : RouteTable} (hi : Inv env t) (f : Nat) (node : NodeInfo)
    (h : t.last < t.capacity) :
    addSplit env (f + 1) t node =
      (do let (t3, _) ← addNodeWith env (addSplit env f) (splitT t (t.bucketNodes t.last)) node
            ((splitT t (t.bucketNodes t.last)).solveMaxPreLen node.id)
          let _ ← t3.nodeCount
          pure (t3, none)) := by
  obtain ⟨b, hb⟩ := hi.dom t.last (Nat.le_refl _)
  have hmid : reAdd env (addSplit env f)
      (midT t (t.size - b.Size) []) b.All = .ok (midT t (t.size - b.Size) b.All) := by
    have := reAdd_mid (env := env) (addSplit env f) t (t.size - b.Size) [] b.All
      (by simpa [Bucket.All] using (hi.cap _ _ hb).2)
      (fun n hn => by
        have := hi.placed _ _ hb n hn
        unfold place at this; omega)
      (by simpa [Bucket.All] using hi.pw _ _ hb)
    simpa using this
  have hfin : midT t (t.size - b.Size) b.All = splitT t (t.bucketNodes t.last) := by
    rw [bucketNodes_of hb]
    simp [midT, splitT, Bucket.All, Bucket.Size]
  have hcond : ¬ t.last ≥ t.capacity := by omega
  conv => lhs; unfold addSplit
  simp only [hcond, if_false, RouteTable.bucket, hb, Res.bind_ok]
  have hstart : (RouteTable.setBucket
      { RouteTable.setBucket { t with size := t.size - (b.Size : Int) } t.last (Bucket.new t.k) with
        last := t.last + 1 } (t.last + 1) (Bucket.new t.k)) = midT t (t.size - b.Size) [] := by
    simp [midT, splitT, setBucket, Bucket.new]
  have hstart' := hstart
  simp only [setBucket] at hstart' ⊢
  rw [hstart', hmid]
  simp only [Res.bind_ok]
  rw [hfin]

theorem filter_length_add {α : Type} (p q : α → Bool) (l : List α) (h : ∀ a ∈ l, q a = !p a) :
    (l.filter p ++ l.filter q).Perm l := by
  have : l.filter q = l.filter (fun a => !p a) := List.filter_congr (fun a ha => h a ha)
  rw [this]
  exact List.filter_append_perm p l

theorem splitT_inv {env : Env} {t : RouteTable} (hi : Inv env t) (h : t.last < t.capacity) :
    Inv env (splitT t (t.bucketNodes t.last)) := by
  obtain ⟨b, hb⟩ := hi.dom t.last (Nat.le_refl _)
  have hc := hi.cap _ _ hb
  have hbn := bucketNodes_of hb
  constructor
  · intro i hle
    simp only [splitT, upd] at hle ⊢
    split
    · exact ⟨_, rfl⟩
    · split
      · exact ⟨_, rfl⟩
      · exact hi.dom i (by omega)
  · intro i hle
    simp only [splitT] at hle
    simp only [splitT, upd, show i ≠ t.last + 1 by omega, show i ≠ t.last by omega, if_false]
    exact hi.dom' i (by omega)
  · intro i b' hb'
    simp only [splitT, upd] at hb'
    split at hb'
    · cases hb'; exact ⟨rfl, Nat.le_trans (List.length_filter_le _ _) (by rw [hbn]; exact hc.2)⟩
    · split at hb'
      · cases hb'; exact ⟨rfl, Nat.le_trans (List.length_filter_le _ _) (by rw [hbn]; exact hc.2)⟩
      · exact hi.cap i b' hb'
  · simp only [splitT]; omega
  · intro i b' hb' n hn
    simp only [splitT, upd] at hb'
    simp only [place, splitT]
    split at hb'
    · cases hb'
      simp only [List.mem_filter, decide_eq_true_eq] at hn
      omega
    · split at hb'
      · cases hb'
        simp only [List.mem_filter, decide_eq_true_eq, hbn] at hn
        have := hi.placed _ _ hb n hn.1
        simp only [place] at this
        omega
      · have h1 := hi.placed i b' hb' n hn
        simp only [place] at h1
        omega
  · intro i b' hb'
    simp only [splitT, upd] at hb'
    split at hb'
    · cases hb'; rw [hbn]; exact (hi.pw _ _ hb).sublist List.filter_sublist
    · split at hb'
      · cases hb'; rw [hbn]; exact (hi.pw _ _ hb).sublist List.filter_sublist
      · exact hi.pw i b' hb'

theorem nodes_range {t : RouteTable} : t.nodes = (List.range (t.last + 1)).flatMap t.bucketNodes := rfl

theorem flatMap_congr' {α β : Type} {l : List α} {f g : α → List β} (h : ∀ a ∈ l, f a = g a) :
    l.flatMap f = l.flatMap g := by
  induction l with
  | nil => rfl
  | cons a r ih => simp [h a (by simp), ih (fun x hx => h x (by simp [hx]))]

theorem splitT_nodes (t : RouteTable) :
    (splitT t (t.bucketNodes t.last)).nodes.Perm t.nodes := by
  unfold nodes
  have hlast : (splitT t (t.bucketNodes t.last)).last = t.last + 1 := rfl
  rw [hlast, List.range_succ, List.range_succ, List.flatMap_append, List.flatMap_append,
    List.flatMap_append, List.append_assoc]
  have h0 : (List.range t.last).flatMap (splitT t (t.bucketNodes t.last)).bucketNodes
      = (List.range t.last).flatMap t.bucketNodes := by
    apply flatMap_congr'
    intro i hi'
    have : i < t.last := by simpa using hi'
    simp [bucketNodes, splitT, upd, show i ≠ t.last + 1 by omega, show i ≠ t.last by omega]
  rw [h0]
  apply List.Perm.append_left
  have e1 : (splitT t (t.bucketNodes t.last)).bucketNodes t.last
      = (t.bucketNodes t.last).filter (fun n => solvePrefixLen n.id t.hnode.id ≤ t.last) := by
    simp [bucketNodes, splitT, upd]
  have e2 : (splitT t (t.bucketNodes t.last)).bucketNodes (t.last + 1)
      = (t.bucketNodes t.last).filter (fun n => t.last < solvePrefixLen n.id t.hnode.id) := by
    simp [bucketNodes, splitT, upd]
  simp only [List.flatMap_singleton, e1, e2]
  apply filter_length_add
  intro a _
  by_cases h : solvePrefixLen a.id t.hnode.id ≤ t.last
  · simp [h]
  · simp [h]; omega

/-- the table after storing `node` in its bucket -/
def storeT (t : RouteTable) (node : NodeInfo) : RouteTable :=
  { t with
    size := t.size + 1
    nodeMap := upd t.nodeMap (t.place node.id)
      (some { nodes := t.bucketNodes (t.place node.id) ++ [node], cap := t.k }) }

theorem storeT_inv {env : Env} {t : RouteTable} (hi : Inv env t) (node : NodeInfo)
    (hfull : (t.bucketNodes (t.place node.id)).length < t.k) (hno : ¬ Has env t node) :
    Inv env (storeT t node) := by
  obtain ⟨b, hb⟩ := hi.dom _ (t.place_le node.id)
  have hbn := bucketNodes_of hb
  constructor
  · intro i hle
    simp only [storeT, upd] at hle ⊢
    split
    · exact ⟨_, rfl⟩
    · exact hi.dom i hle
  · intro i hle
    simp only [storeT] at hle
    have := t.place_le node.id
    simp only [storeT, upd, show i ≠ t.place node.id by omega, if_false]
    exact hi.dom' i hle
  · intro i b' hb'
    simp only [storeT, upd] at hb'
    split at hb'
    · cases hb'; refine ⟨rfl, ?_⟩; simp only [List.length_append, List.length_singleton]; exact hfull
    · exact hi.cap i b' hb'
  · exact hi.lastLe
  · intro i b' hb' n hn
    have hpl : (storeT t node).place n.id = t.place n.id := rfl
    rw [hpl]
    simp only [storeT, upd] at hb'
    split at hb'
    · rename_i heq
      cases hb'
      simp only [hbn, List.mem_append, List.mem_singleton] at hn
      rcases hn with hn | rfl
      · rw [heq]; exact hi.placed _ _ hb n hn
      · exact heq
    · exact hi.placed i b' hb' n hn
  · intro i b' hb'
    simp only [storeT, upd] at hb'
    split at hb'
    · cases hb'
      rw [List.pairwise_append]
      refine ⟨by rw [hbn]; exact hi.pw _ _ hb, by simp, ?_⟩
      intro m hm c hc
      simp only [List.mem_singleton] at hc
      subst hc
      by_cases he : m.Equals env c = true
      · exact absurd ⟨m, hm, he⟩ hno
      · simpa using he
    · exact hi.pw i b' hb'

theorem flatMap_upd_perm {f g : Nat → List NodeInfo} {p N : Nat} {x : NodeInfo} (hp : p < N)
    (hg : g p = f p ++ [x]) (hne : ∀ i, i ≠ p → g i = f i) :
    ((List.range N).flatMap g).Perm (x :: (List.range N).flatMap f) := by
  induction N with
  | zero => omega
  | succ N ih =>
    rw [List.range_succ, List.flatMap_append, List.flatMap_append]
    simp only [List.flatMap_singleton]
    by_cases h : p = N
    · subst h
      have : (List.range p).flatMap g = (List.range p).flatMap f :=
        flatMap_congr' (fun i hi => hne i (by have : i < p := by simpa using hi
                                              omega))
      rw [this, hg, ← List.append_assoc]
      exact List.perm_append_singleton _ _
    · rw [hne N (by omega)]
      exact (ih (by omega)).append_right _

theorem storeT_nodes {t : RouteTable} (node : NodeInfo) : (storeT t node).nodes.Perm (node :: t.nodes) := by
  apply flatMap_upd_perm (p := t.place node.id) (by have := t.place_le node.id; simp only [storeT]; omega)
  · simp [bucketNodes, storeT]
  · intro i h
    simp [bucketNodes, storeT, upd, h]

theorem exist_iff {env : Env} {t : RouteTable} {node : NodeInfo} {b : Bucket}
    (hb : t.nodeMap (t.place node.id) = some b) : b.Exist env node = true ↔ Has env t node := by
  simp [Bucket.Exist, Has, bucketNodes_of hb]

/-- Case analysis of one insertion. -/
inductive AddCase (env : Env) (split : RouteTable → NodeInfo → AddRes) (t : RouteTable) (node : NodeInfo) :
    AddRes → Prop where
  /-- stored -/
  | store : (t.bucketNodes (t.place node.id)).length < t.k → ¬ Has env t node →
      AddCase env split t node (.ok (storeT t node, none))
  /-- already there, room left: only the size changes -/
  | dup : (t.bucketNodes (t.place node.id)).length < t.k → Has env t node →
      AddCase env split t node (.ok ({ t with size := t.size + 1 }, none))
  /-- bucket full -/
  | full : (t.bucketNodes (t.place node.id)).length = t.k → (t.place node.id < t.last ∨ Has env t node) →
      AddCase env split t node (.ok (t, some b!"the bucket is full"))
  /-- the last bucket is split -/
  | split : (t.bucketNodes (t.place node.id)).length = t.k → t.place node.id = t.last → ¬ Has env t node →
      AddCase env split t node (split t node)

theorem addCase {env : Env} {t : RouteTable} (hi : Inv env t) (split : RouteTable → NodeInfo → AddRes)
    (node : NodeInfo) :
    AddCase env split t node (addNodeWith env split t node (t.solveMaxPreLen node.id)) := by
  rw [solveMaxPreLen_eq]
  obtain ⟨b, hb⟩ := hi.dom _ (t.place_le node.id)
  have hc := hi.cap _ _ hb
  have hbn := bucketNodes_of hb
  have hle := t.place_le node.id
  have hexi := exist_iff (env := env) hb
  unfold addNodeWith
  simp only [RouteTable.bucket, hb, Res.bind_ok]
  by_cases hex : b.Exist env node = true
  · have hhas := hexi.mp hex
    simp only [hex, Bool.not_true, Bool.and_false, Bool.false_and, Bool.false_eq_true, if_false]
    by_cases hf : b.Full = true
    · simp only [hf, if_true]
      refine .full ?_ (.inr hhas)
      have : b.nodes.length ≥ b.cap := by simpa [Bucket.Full] using hf
      rw [hbn]; omega
    · simp only [hf, Bool.false_eq_true, if_false]
      refine .dup ?_ hhas
      have : ¬ b.nodes.length ≥ b.cap := by simpa [Bucket.Full] using hf
      rw [hbn]; omega
  · have hhas : ¬ Has env t node := fun h => hex (hexi.mpr h)
    have hex' : b.Exist env node = false := by simpa using hex
    simp only [hex', Bool.not_false, Bool.and_true]
    by_cases hf : b.Full = true
    · have hlen : (t.bucketNodes (t.place node.id)).length = t.k := by
        have : b.nodes.length ≥ b.cap := by simpa [Bucket.Full] using hf
        rw [hbn]; omega
      by_cases hp : t.place node.id ≥ t.last
      · simp only [hf, hp, decide_true, Bool.and_self, if_true]
        exact .split hlen (by omega) hhas
      · simp only [hf, hp, decide_false, Bool.false_and, Bool.false_eq_true, if_false, if_true]
        exact .full hlen (.inl (by omega))
    · have hlt : b.nodes.length < b.cap := by
        have : ¬ b.nodes.length ≥ b.cap := by simpa [Bucket.Full] using hf
        omega
      simp only [hf, Bool.and_false, Bool.false_eq_true, if_false, if_true, Bucket.add_ok node hlt]
      have e : ({ t.setBucket (t.place node.id) { b with nodes := b.nodes ++ [node] } with size := t.size + 1 }
          : RouteTable) = storeT t node := by
        simp [storeT, setBucket, hbn, hc.1]
      simp only [Res.pure_eq, e]
      exact .store (by rw [hbn]; omega) hhas

/-- Everything one insertion guarantees. -/
structure AddSpec (env : Env) (t : RouteTable) (node : NodeInfo) (t' : RouteTable) (e : Option Bytes) : Prop where
  inv : Inv env t'
  hnode : t'.hnode = t.hnode
  k : t'.k = t.k
  capacity : t'.capacity = t.capacity
  last : t.last ≤ t'.last
  nodes : t'.nodes.Perm t.nodes ∨ t'.nodes.Perm (node :: t.nodes)
  size : t'.size - t'.nodes.length = t.size - t.nodes.length + (if e = none ∧ Has env t node then 1 else 0)
  err : e ≠ none → t' = t ∧ (t.bucketNodes (t.place node.id)).length = t.k ∧
    (t.place node.id < t.last ∨ Has env t node ∨ t.last = t.capacity)
  stored : e = none → Has env t' node ∨
    (t.last < t'.last ∧ (t'.bucketNodes (t'.place node.id)).length = t'.k ∧ t'.nodes.Perm t.nodes)
  low : ∀ i, i < t.last → i ≠ t.place node.id → t'.bucketNodes i = t.bucketNodes i

theorem has_storeT {env : Env} {t : RouteTable} {node : NodeInfo} (h : node.Equals env node = true) :
    Has env (storeT t node) node :=
  ⟨node, by have : (storeT t node).place node.id = t.place node.id := rfl
            rw [this]; simp [bucketNodes, storeT], h⟩

theorem equals_refl (env : Env) (n : NodeInfo) : n.Equals env n = true := by
  simp [NodeInfo.Equals, equalFold_refl]

theorem splitT_not_has {env : Env} {t : RouteTable} {node : NodeInfo} (hp : t.place node.id = t.last)
    (h : ¬ Has env t node) : ¬ Has env (splitT t (t.bucketNodes t.last)) node := by
  rintro ⟨m, hm, he⟩
  apply h
  refine ⟨m, ?_, he⟩
  rw [hp]
  simp only [place, splitT] at hm hp
  simp only [bucketNodes, upd] at hm
  by_cases hc : min (solvePrefixLen node.id t.hnode.id) (t.last + 1) = t.last + 1
  · simp only [hc, if_true] at hm
    exact (List.mem_filter.mp hm).1
  · have hc2 : min (solvePrefixLen node.id t.hnode.id) (t.last + 1) = t.last := by omega
    simp only [hc2, show t.last ≠ t.last + 1 by omega, if_false, if_true] at hm
    exact (List.mem_filter.mp hm).1

theorem addSpec {env : Env} (f : Nat) {t : RouteTable} (hi : Inv env t) (node : NodeInfo)
    (hf : t.capacity - t.last < f) :
    ∃ t' e, addNodeWith env (addSplit env f) t node (t.solveMaxPreLen node.id) = .ok (t', e) ∧
      AddSpec env t node t' e := by
  induction f generalizing t with
  | zero => omega
  | succ f ih =>
    have hcase := addCase hi (addSplit env (f + 1)) node
    generalize hr : addNodeWith env (addSplit env (f + 1)) t node (t.solveMaxPreLen node.id) = r at hcase
    cases hcase with
    | store hl hn =>
      refine ⟨_, _, rfl, ?_⟩
      have hperm := storeT_nodes (t := t) node
      constructor
      · exact storeT_inv hi node hl hn
      · rfl
      · rfl
      · rfl
      · exact Nat.le_refl _
      · exact .inr hperm
      · have := hperm.length_eq
        simp only [List.length_cons] at this
        rw [this]
        simp only [hn, and_false, if_false, storeT]
        omega
      · simp
      · intro _; exact .inl (has_storeT (equals_refl _ _))
      · intro i _ hne
        simp [bucketNodes, storeT, upd, hne]
    | dup hl hn =>
      refine ⟨_, _, rfl, ?_⟩
      have hnodes : ({ t with size := t.size + 1 } : RouteTable).nodes = t.nodes := rfl
      constructor
      · exact ⟨hi.dom, hi.dom', hi.cap, hi.lastLe, hi.placed, hi.pw⟩
      · rfl
      · rfl
      · rfl
      · exact Nat.le_refl _
      · rw [hnodes]; exact .inl (List.Perm.refl _)
      · rw [hnodes]; simp only [hn, and_true, if_true]; omega
      · simp
      · intro _; exact .inl hn
      · intro i _ _; rfl
    | full hl hn =>
      refine ⟨_, _, rfl, ?_⟩
      constructor
      · exact hi
      · rfl
      · rfl
      · rfl
      · exact Nat.le_refl _
      · exact .inl (List.Perm.refl _)
      · simp
      · intro _
        refine ⟨rfl, hl, ?_⟩
        rcases hn with h | h
        · exact .inl h
        · exact .inr (.inl h)
      · simp
      · intro i _ _; rfl
    | split hl hp hn =>
      by_cases hcap : t.last < t.capacity
      · rw [addSplit_step hi f node hcap]
        have hsi := splitT_inv hi hcap
        obtain ⟨t3, e3, h3, hs⟩ := ih hsi (by simp only [splitT]; omega)
        rw [h3]
        obtain ⟨c, hc⟩ := hs.inv.nodeCount_ok
        simp only [Res.bind_ok, hc, Res.pure_eq]
        refine ⟨_, _, rfl, ?_⟩
        have hperm := splitT_nodes t
        have hnh := splitT_not_has (env := env) hp hn
        have hlast := hs.last
        simp only [splitT] at hlast
        have hnodes3 : t3.nodes.Perm t.nodes ∨ t3.nodes.Perm (node :: t.nodes) := by
          rcases hs.nodes with h | h
          · exact .inl (h.trans hperm)
          · exact .inr (h.trans (hperm.cons _))
        constructor
        · exact hs.inv
        · exact hs.hnode
        · exact hs.k
        · exact hs.capacity
        · omega
        · exact hnodes3
        · have h1 := hs.size
          simp only [hnh, and_false, if_false] at h1
          have h2 := hperm.length_eq
          rw [h2] at h1
          simp only [hn, and_false, if_false]
          exact h1
        · simp
        · intro _
          by_cases he : e3 = none
          · rcases hs.stored he with h | ⟨_, h2, h3⟩
            · exact .inl h
            · exact .inr ⟨by omega, h2, h3.trans hperm⟩
          · have h1 := hs.err he
            refine .inr ⟨by omega, ?_, ?_⟩
            · rw [h1.1]; exact h1.2.1
            · rw [h1.1]; exact hperm
        · intro i hlt hne
          have h1 := hs.low i (by simp only [splitT]; omega) (by
            simp only [place, splitT]
            simp only [place] at hp
            omega)
          rw [h1]
          simp [bucketNodes, splitT, upd, show i ≠ t.last + 1 by omega, show i ≠ t.last by omega]
      · rw [addSplit_full env f t node (by omega)]
        refine ⟨_, _, rfl, ?_⟩
        constructor
        · exact hi
        · rfl
        · rfl
        · rfl
        · exact Nat.le_refl _
        · exact .inl (List.Perm.refl _)
        · simp
        · intro _; exact ⟨rfl, hl, .inr (.inr (by have := hi.lastLe; omega))⟩
        · simp
        · intro i _ _; rfl

theorem filter_lt_of_mem {α : Type} (p : α → Bool) {l : List α} {a : α} (h : a ∈ l) (hp : p a = false) :
    (l.filter p).length < l.length := by
  induction l with
  | nil => simp at h
  | cons x r ih =>
    rcases List.mem_cons.mp h with rfl | h
    · simp [hp]; have := List.length_filter_le p r; omega
    · have := ih h
      simp only [List.filter_cons]
      split <;> simp only [List.length_cons] <;> omega

/-- With the host node stored and no more buckets than id bits, only a table that has reached its
capacity can drop a node whose insertion reported success. -/
theorem addStored {env : Env} (f : Nat) {t : RouteTable} (hi : Inv env t) (node : NodeInfo)
    (hf : t.capacity - t.last < f) (hh : t.hnode ∈ t.nodes) (hc : t.capacity ≤ 8 * t.hnode.id.length)
    {t' : RouteTable}
    (hr : addNodeWith env (addSplit env f) t node (t.solveMaxPreLen node.id) = .ok (t', none)) :
    Has env t' node ∨ (t'.last = t'.capacity ∧ t'.place node.id = t'.last) := by
  induction f generalizing t with
  | zero => omega
  | succ f ih =>
    have hcase := addCase hi (addSplit env (f + 1)) node
    rw [hr] at hcase
    generalize hr' : (Res.ok (t', none) : AddRes) = r at hcase
    cases hcase with
    | store hl hn => cases hr'; exact .inl (has_storeT (equals_refl _ _))
    | dup hl hn => cases hr'; exact .inl hn
    | full hl hn => cases hr'
    | split hl hp hn =>
      by_cases hcap : t.last < t.capacity
      · rw [addSplit_step hi f node hcap] at hr'
        have hsi := splitT_inv hi hcap
        obtain ⟨t3, e3, h3, hs⟩ := addSpec f hsi node (by simp only [splitT]; omega)
        rw [h3] at hr'
        obtain ⟨c, hcn⟩ := hs.inv.nodeCount_ok
        simp only [Res.bind_ok, hcn, Res.pure_eq] at hr'
        have ht : t' = t3 := by cases hr'; rfl
        subst ht
        have hperm := splitT_nodes t
        have hnh := splitT_not_has (env := env) hp hn
        cases e3 with
        | none =>
          exact ih hsi (by simp only [splitT]; omega) (hperm.mem_iff.mpr hh) hc h3
        | some e =>
          obtain ⟨h1, h2, h3⟩ := hs.err (by simp)
          rw [h1]
          rcases h3 with h3 | h3 | h3
          · exfalso
            have hplace : (splitT t (t.bucketNodes t.last)).place node.id = t.last := by
              simp only [place, splitT] at h3 hp ⊢; omega
            rw [hplace] at h2
            have e1 : (splitT t (t.bucketNodes t.last)).bucketNodes t.last
                = (t.bucketNodes t.last).filter (fun n => solvePrefixLen n.id t.hnode.id ≤ t.last) := by
              simp [bucketNodes, splitT, upd]
            rw [e1] at h2
            have hself : solvePrefixLen t.hnode.id t.hnode.id = 8 * t.hnode.id.length := by
              have := (solvePrefixLen_agree t.hnode.id t.hnode.id)
              apply this.unique
              refine ⟨by simp [commonBits], fun _ _ => rfl, fun h => ?_⟩
              simp [commonBits] at h
            have hmem : t.hnode ∈ t.bucketNodes t.last := by
              obtain ⟨i, hi1, hi2⟩ := List.mem_flatMap.mp hh
              have : i = t.place t.hnode.id := by
                unfold bucketNodes at hi2
                split at hi2
                · rename_i b hb; exact hi.placed i b hb _ hi2
                · simp at hi2
              have h4 : i = t.last := by rw [this]; simp only [place, hself]; omega
              rw [← h4]; exact hi2
            have hlt := filter_lt_of_mem (fun n : NodeInfo => decide (solvePrefixLen n.id t.hnode.id ≤ t.last)) hmem
              (by simp [hself]; omega)
            obtain ⟨b, hb⟩ := hi.dom t.last (Nat.le_refl _)
            have := (hi.cap _ _ hb).2
            rw [bucketNodes_of hb] at hlt h2
            simp only [splitT] at h2
            omega
          · exact absurd h3 hnh
          · by_cases hpl : (splitT t (t.bucketNodes t.last)).place node.id
                = (splitT t (t.bucketNodes t.last)).last
            · exact .inr ⟨h3, hpl⟩
            · exfalso
              have hplace : (splitT t (t.bucketNodes t.last)).place node.id = t.last := by
                simp only [place, splitT] at hpl hp ⊢; omega
              rw [hplace] at h2
              have e1 : (splitT t (t.bucketNodes t.last)).bucketNodes t.last
                  = (t.bucketNodes t.last).filter (fun n => solvePrefixLen n.id t.hnode.id ≤ t.last) := by
                simp [bucketNodes, splitT, upd]
              rw [e1] at h2
              have hself : solvePrefixLen t.hnode.id t.hnode.id = 8 * t.hnode.id.length := by
                have := (solvePrefixLen_agree t.hnode.id t.hnode.id)
                apply this.unique
                refine ⟨by simp [commonBits], fun _ _ => rfl, fun h => ?_⟩
                simp [commonBits] at h
              have hmem : t.hnode ∈ t.bucketNodes t.last := by
                obtain ⟨i, hi1, hi2⟩ := List.mem_flatMap.mp hh
                have : i = t.place t.hnode.id := by
                  unfold bucketNodes at hi2
                  split at hi2
                  · rename_i b hb; exact hi.placed i b hb _ hi2
                  · simp at hi2
                have h4 : i = t.last := by rw [this]; simp only [place, hself]; omega
                rw [← h4]; exact hi2
              have hlt := filter_lt_of_mem (fun n : NodeInfo => decide (solvePrefixLen n.id t.hnode.id ≤ t.last)) hmem
                (by simp [hself]; omega)
              obtain ⟨b, hb⟩ := hi.dom t.last (Nat.le_refl _)
              have := (hi.cap _ _ hb).2
              rw [bucketNodes_of hb] at hlt h2
              simp only [splitT] at h2
              omega
      · rw [addSplit_full env f t node (by omega)] at hr'
        cases hr'

theorem new_inv (env : Env) (h : NodeInfo) (k c : Nat) : Inv env (RouteTable.new h k c) := by
  have hb : ∀ i b, (RouteTable.new h k c).nodeMap i = some b →
      i = 0 ∧ b.cap = k ∧ b.nodes.length ≤ k ∧ b.nodes.length ≤ 1 := by
    intro i b hb
    simp only [RouteTable.new] at hb
    split at hb
    · cases hb
      refine ⟨by assumption, ?_⟩
      by_cases hk : k = 0
      · subst hk; simp [Bucket.new, Bucket.Add, Bucket.Full]
      · have : ¬ (0 : Nat) ≥ k := by omega
        simp [Bucket.new, Bucket.Add, Bucket.Full, hk]; omega
    · cases hb
  constructor
  · intro i hi
    have : i = 0 := by simpa [RouteTable.new] using hi
    subst this
    exact ⟨_, rfl⟩
  · intro i hi
    have : i ≠ 0 := by have : 0 < i := hi
                       omega
    simp [RouteTable.new, this]
  · intro i b h'; exact ⟨(hb i b h').2.1, (hb i b h').2.2.1⟩
  · exact Nat.zero_le _
  · intro i b h' n _
    have := (hb i b h').1
    simp [place, RouteTable.new, this]
  · intro i b h'
    have := (hb i b h').2.2.2
    match hn : b.nodes with
    | [] => simp
    | [a] => simp
    | a :: a' :: r => rw [hn] at this; simp at this

theorem AddNode_spec {env : Env} {t : RouteTable} (hi : Inv env t) (node : NodeInfo) :
    ∃ t' e, t.AddNode env node = .ok (t', e) ∧ AddSpec env t node t' e :=
  addSpec (t.capacity + 1) hi node (by omega)

theorem Reachable.inv {env : Env} {t : RouteTable} (h : Reachable env t) : Inv env t := by
  induction h with
  | new h k c => exact new_inv env h k c
  | @add t t' n e _ he ih =>
    obtain ⟨t1, e1, h1, hs⟩ := AddNode_spec ih n
    rw [h1] at he
    cases he
    exact hs.inv

theorem mem_nodes {t : RouteTable} {n : NodeInfo} :
    n ∈ t.nodes ↔ ∃ i, i ≤ t.last ∧ n ∈ t.bucketNodes i := by
  simp only [nodes, List.mem_flatMap, List.mem_range]
  constructor
  · rintro ⟨i, h1, h2⟩; exact ⟨i, by omega, h2⟩
  · rintro ⟨i, h1, h2⟩; exact ⟨i, by omega, h2⟩

theorem Inv.mem_bucket {env : Env} {t : RouteTable} (hi : Inv env t) {n : NodeInfo} {i : Nat}
    (h : n ∈ t.bucketNodes i) : i = t.place n.id := by
  unfold bucketNodes at h
  split at h
  · rename_i b hb; exact hi.placed i b hb n h
  · simp at h

theorem Inv.mem_nodes_iff {env : Env} {t : RouteTable} (hi : Inv env t) {n : NodeInfo} :
    n ∈ t.nodes ↔ n ∈ t.bucketNodes (t.place n.id) := by
  rw [mem_nodes]
  constructor
  · rintro ⟨i, _, h⟩; rw [← hi.mem_bucket h]; exact h
  · intro h; exact ⟨_, t.place_le _, h⟩

end RouteTable
end P2P

import Verif.Lemmas.RouteTable
/-! # C18–C24: prefix length and route table -/
namespace P2P
open RouteTable

/-! ## C18 -/

/-- C18: the prefix length is the number of leading bits on which the two ids agree. -/
theorem C18_prefix_length (a b : Bytes) (n : Nat) : solvePrefixLen a b = n ↔ AgreeExactly a b n :=
  ⟨fun h => h ▸ solvePrefixLen_agree a b, fun h => (solvePrefixLen_agree a b).unique h⟩

/-- C18: symmetric and bounded. -/
theorem C18_symmetric_bounded (a b : Bytes) :
    solvePrefixLen a b = solvePrefixLen b a ∧ solvePrefixLen a b ≤ 8 * min a.length b.length :=
  ⟨by simp [solvePrefixLen, Xor_comm], (solvePrefixLen_agree a b).1⟩

theorem prefixLoop_all_zero (s : Bytes) : prefixLoop 0 s = 8 * s.length ↔ ∀ v ∈ s, v = 0 := by
  induction s with
  | nil => simp [prefixLoop]
  | cons v r ih =>
    simp only [prefixLoop]
    by_cases hv : v = 0
    · subst hv
      simp only [ne_eq, not_true, if_false]
      rw [prefixLoop_shift]
      simp only [List.length_cons, List.mem_cons, forall_eq_or_imp, true_and]
      rw [← ih]; omega
    · have := (lz_spec v hv).1
      simp only [ne_eq, hv, not_false_eq_true, if_true, List.length_cons, List.mem_cons, forall_eq_or_imp,
        false_and, iff_false]
      omega

theorem Xor_zero_iff (a b : Bytes) : (∀ v ∈ Xor a b, v = 0) ↔ a <+: b ∨ b <+: a := by
  induction a generalizing b with
  | nil => simp [Xor]
  | cons x r ih =>
    cases b with
    | nil => simp [Xor]
    | cons y s =>
      simp only [Xor, List.mem_cons, forall_eq_or_imp, List.cons_prefix_cons, ih, UInt8.xor_eq_zero_iff]
      constructor
      · rintro ⟨rfl, h | h⟩
        · exact .inl ⟨rfl, h⟩
        · exact .inr ⟨rfl, h⟩
      · rintro (⟨rfl, h⟩ | ⟨rfl, h⟩)
        · exact ⟨rfl, .inl h⟩
        · exact ⟨rfl, .inr h⟩

/-- C18: the bound is attained exactly when one id is a prefix of the other. -/
theorem C18_maximal (a b : Bytes) :
    solvePrefixLen a b = 8 * min a.length b.length ↔ a <+: b ∨ b <+: a := by
  rw [← Xor_zero_iff, ← prefixLoop_all_zero, length_Xor]
  exact Iff.rfl

/-- C18: among ids of one length, a longer common prefix with `x` means a strictly smaller XOR distance. -/
theorem C18_closer {a b x : Bytes} (ha : a.length = x.length) (hb : b.length = x.length)
    (h : solvePrefixLen b x < solvePrefixLen a x) : xorDist a x < xorDist b x := by
  rw [← beVal_Xor ha, ← beVal_Xor hb]
  exact beVal_lt_of_prefixLoop (by simp [length_Xor, ha, hb]) h

example : solvePrefixLen [0xA5, 0x10] [0xA5, 0x1F, 7] = 12 := by decide +kernel
example : solvePrefixLen [0xA5, 0x80] [0xA5, 0x00] < solvePrefixLen [0xA5, 0x01] [0xA5, 0x00] ∧
    xorDist [0xA5, 0x01] [0xA5, 0x00] < xorDist [0xA5, 0x80] [0xA5, 0x00] := by decide +kernel

/-! ## concrete tables used by the examples -/

/-- an environment without non-ASCII folding -/
def env0 : Env := { fold := fun _ _ => false, ip6 := id }
/-- a node with a one-byte id on 10.0.0.1 -/
def nd (i : UInt8) (port : Int) : NodeInfo := { id := [i], addr := { ip := [10, 0, 0, 1], port := port } }

/-! ## C19 -/

/-- C19: no sequence of insertions panics or loops forever: every history runs to its end. -/
theorem C19_runs (env : Env) (h : NodeInfo) (k c : Nat) (ns : List NodeInfo) :
    ∃ t es, (RouteTable.new h k c).addAll env ns = .ok (t, es) ∧ Reachable env t := by
  suffices ∀ t, Reachable env t → ∃ t' es, t.addAll env ns = .ok (t', es) ∧ Reachable env t' from
    this _ (.new h k c)
  induction ns with
  | nil => exact fun t ht => ⟨t, [], rfl, ht⟩
  | cons n r ih =>
    intro t ht
    obtain ⟨t1, e, h1, -⟩ := AddNode_spec ht.inv n
    obtain ⟨t2, es, h2, hr⟩ := ih t1 (.add ht h1)
    exact ⟨t2, e :: es, by simp [addAll, h1, h2], hr⟩

/-- C19: on every reachable table no operation panics. -/
theorem C19_no_panic {env : Env} {t : RouteTable} (h : Reachable env t) (n : NodeInfo) (id : Bytes) (k : Nat) :
    (t.AddNode env n).noPanic ∧ (t.Find env id).noPanic ∧ (t.FindClosest id k).noPanic ∧ t.Full.noPanic := by
  have hi := h.inv
  refine ⟨?_, ?_, ?_, ?_⟩
  · obtain ⟨t1, e, h1, -⟩ := AddNode_spec hi n
    rw [h1]; trivial
  · obtain ⟨b, hb⟩ := hi.dom _ (t.place_le id)
    simp [Find, solveMaxPreLen_eq, RouteTable.bucket, hb, Res.noPanic]
  · have hk : ¬ ((k : Int) < 0) := by omega
    simp only [FindClosest, hk, if_false, solveMaxPreLen_eq]
    have : ∀ n acc, n ≤ t.last + 1 → (closestLoop t k n acc).noPanic := by
      intro n
      induction n with
      | zero => intro acc _; trivial
      | succ n ih =>
        intro acc hn
        obtain ⟨b, hb⟩ := hi.dom n (by omega)
        simp only [closestLoop, RouteTable.bucket, hb, Res.bind_ok]
        split
        · exact ih _ (by omega)
        · trivial
    exact this _ _ (by have := t.place_le id; omega)
  · obtain ⟨b, hb⟩ := hi.dom _ (Nat.le_refl _)
    unfold RouteTable.Full
    split
    · simp [RouteTable.bucket, hb, Res.noPanic]
    · trivial

theorem flatMap_nodup {f : Nat → List NodeInfo} (N : Nat) (h1 : ∀ i, (f i).Nodup)
    (h2 : ∀ i j n, n ∈ f i → n ∈ f j → i = j) : ((List.range N).flatMap f).Nodup := by
  induction N with
  | zero => simp
  | succ N ih =>
    rw [List.range_succ, List.flatMap_append, List.nodup_append]
    refine ⟨ih, by simpa using h1 N, ?_⟩
    intro a ha b hb hab
    subst hab
    simp only [List.mem_flatMap, List.mem_range, List.mem_singleton] at ha hb
    obtain ⟨i, hi, ha⟩ := ha
    obtain ⟨j, hj, hb⟩ := hb
    have := h2 i j a ha hb
    omega

/-- C19: structural invariant of every reachable table: the buckets are exactly `0..last` with
`last ≤ capacity`; each holds at most `k` nodes, no two of them Equals; every node sits in the bucket
`min(common prefix with the host id, last)`; no node is stored twice. -/
theorem C19_structure {env : Env} {t : RouteTable} (h : Reachable env t) :
    t.last ≤ t.capacity ∧
    (∀ i, (t.nodeMap i).isSome ↔ i ≤ t.last) ∧
    (∀ i, (t.bucketNodes i).length ≤ t.k) ∧
    (∀ i n, n ∈ t.bucketNodes i → i = min (solvePrefixLen n.id t.hnode.id) t.last) ∧
    (∀ i, (t.bucketNodes i).Pairwise (fun a b => a.Equals env b = false)) ∧
    t.nodes.Nodup ∧ t.nodes.length ≤ t.k * (t.capacity + 1) := by
  have hi := h.inv
  have hlen : ∀ i, (t.bucketNodes i).length ≤ t.k := by
    intro i; unfold bucketNodes; split
    · rename_i b hb; exact (hi.cap i b hb).2
    · simp
  have hpw : ∀ i, (t.bucketNodes i).Pairwise (fun a b => a.Equals env b = false) := by
    intro i; unfold bucketNodes; split
    · rename_i b hb; exact hi.pw i b hb
    · simp
  refine ⟨hi.lastLe, ?_, hlen, fun i n hn => hi.mem_bucket hn, hpw, ?_, ?_⟩
  · intro i
    by_cases hle : i ≤ t.last
    · obtain ⟨b, hb⟩ := hi.dom i hle; simp [hb, hle]
    · have := hi.dom' i (by omega); simp [this, hle]
  · apply flatMap_nodup
    · intro i
      refine (hpw i).imp ?_
      intro a b hab heq
      subst heq
      rw [equals_refl] at hab; cases hab
    · intro i j n h1 h2
      rw [hi.mem_bucket h1, hi.mem_bucket h2]
  · have : ∀ N, ((List.range N).flatMap t.bucketNodes).length ≤ t.k * N := by
      intro N
      induction N with
      | zero => simp
      | succ N ih =>
        rw [List.range_succ, List.flatMap_append, List.length_append]
        simp only [List.flatMap_singleton]
        have := hlen N
        rw [Nat.mul_succ]; omega
    exact Nat.le_trans (this _) (Nat.mul_le_mul_left _ (by have := hi.lastLe; omega))

/-- a history with a split: host 0, then 0x80, 0x40, 0xC0 (on different ports: 0x80 and 0xC0 are EqualFold) with k = 2 -/
def hist1 : Res (RouteTable × List (Option Bytes)) :=
  (RouteTable.new (nd 0 1) 2 8).addAll env0 [nd 0x80 1, nd 0x40 1, nd 0xC0 2]
example : ∃ t es, hist1 = .ok (t, es) ∧ t.last = 1 ∧ t.nodes.length = 4 ∧
    t.bucketNodes 0 = [nd 0x80 1, nd 0xC0 2] ∧ t.bucketNodes 1 = [nd 0 1, nd 0x40 1] := by
  refine ⟨_, _, rfl, ?_⟩; decide +kernel

/-! ## C20 -/

/-- C20: insertion never removes a node, and it adds nothing but the given node. -/
theorem C20_never_evicted {env : Env} {t t' : RouteTable} {node : NodeInfo} {e : Option Bytes}
    (h : Reachable env t) (hadd : t.AddNode env node = .ok (t', e)) :
    (∀ n ∈ t.nodes, n ∈ t'.nodes) ∧ (∀ n ∈ t'.nodes, n = node ∨ n ∈ t.nodes) ∧
    t.nodes.length ≤ t'.nodes.length ∧ t'.nodes.length ≤ t.nodes.length + 1 := by
  obtain ⟨t1, e1, h1, hs⟩ := AddNode_spec h.inv node
  rw [h1] at hadd
  cases hadd
  rcases hs.nodes with hp | hp
  · exact ⟨fun n hn => hp.mem_iff.mpr hn, fun n hn => .inr (hp.mem_iff.mp hn), by rw [hp.length_eq]; omega,
      by rw [hp.length_eq]; omega⟩
  · refine ⟨fun n hn => hp.mem_iff.mpr (by simp [hn]), fun n hn => by simpa using hp.mem_iff.mp hn, ?_, ?_⟩
    · have := hp.length_eq; simp at this; omega
    · have := hp.length_eq; simp at this; omega

/-- C20: whatever is added later, a stored node stays stored. -/
theorem C20_history {env : Env} {t t' : RouteTable} {ns : List NodeInfo} {es : List (Option Bytes)}
    (h : Reachable env t) (hadd : t.addAll env ns = .ok (t', es)) : ∀ n ∈ t.nodes, n ∈ t'.nodes := by
  induction ns generalizing t es with
  | nil => cases hadd; exact fun n hn => hn
  | cons m r ih =>
    simp only [addAll] at hadd
    obtain ⟨⟨t1, e⟩, h1, h2⟩ := Res.bind_eq_ok.mp hadd
    obtain ⟨⟨t2, es'⟩, h3, h4⟩ := Res.bind_eq_ok.mp h2
    cases h4
    intro n hn
    exact ih (.add h h1) h3 n ((C20_never_evicted h h1).1 n hn)

/-- C20: the host node is always stored. -/
theorem C20_host_stored {env : Env} {h : NodeInfo} {k c : Nat} (hk : 0 < k) {ns : List NodeInfo}
    {t : RouteTable} {es : List (Option Bytes)} (hadd : (RouteTable.new h k c).addAll env ns = .ok (t, es)) :
    h ∈ t.nodes := by
  apply C20_history (.new h k c) hadd
  have : ¬ k = 0 := by omega
  simp [nodes, RouteTable.new, bucketNodes, Bucket.new, Bucket.Add, Bucket.Full, this]

example : ∃ t es, hist1 = .ok (t, es) ∧ nd 0 1 ∈ t.nodes ∧ nd 0x80 1 ∈ t.nodes := by
  refine ⟨_, _, rfl, ?_⟩; decide +kernel

/-! ## C21 -/

/-- C21: an error leaves the whole table untouched and means that the node's bucket is full. -/
theorem C21_error {env : Env} {t t' : RouteTable} {node : NodeInfo} {msg : Bytes}
    (h : Reachable env t) (hadd : t.AddNode env node = .ok (t', some msg)) :
    t' = t ∧ (t.bucketNodes (t.place node.id)).length = t.k := by
  obtain ⟨t1, e1, h1, hs⟩ := AddNode_spec h.inv node
  rw [h1] at hadd
  cases hadd
  exact ⟨(hs.err (by simp)).1, (hs.err (by simp)).2.1⟩

/-- C21: after a nil result the node, or one Equals to it, is stored in the node's bucket – except that,
if the call split the last bucket, the node may have been dropped because its bucket is full; then the
stored nodes are unchanged. -/
theorem C21_nil {env : Env} {t t' : RouteTable} {node : NodeInfo}
    (h : Reachable env t) (hadd : t.AddNode env node = .ok (t', none)) :
    t'.Has env node ∨
      (t.last < t'.last ∧ (t'.bucketNodes (t'.place node.id)).length = t'.k ∧ t'.nodes.Perm t.nodes) := by
  obtain ⟨t1, e1, h1, hs⟩ := AddNode_spec h.inv node
  rw [h1] at hadd
  cases hadd
  exact hs.stored rfl

/-- C21: a node whose bucket has room is accepted. -/
theorem C21_room {env : Env} {t : RouteTable} {node : NodeInfo} (h : Reachable env t)
    (hroom : (t.bucketNodes (t.place node.id)).length < t.k) :
    ∃ t', t.AddNode env node = .ok (t', none) ∧ t'.Has env node ∧ t'.last = t.last := by
  have hc := addCase h.inv (addSplit env (t.capacity + 1)) node
  have hr : t.AddNode env node = addNodeWith env (addSplit env (t.capacity + 1)) t node
    (t.solveMaxPreLen node.id) := rfl
  rw [hr]
  generalize addNodeWith env (addSplit env (t.capacity + 1)) t node (t.solveMaxPreLen node.id) = r at hc
  cases hc with
  | store _ _ => exact ⟨_, rfl, has_storeT (equals_refl _ _), rfl⟩
  | dup _ hn => exact ⟨_, rfl, hn, rfl⟩
  | full hl _ => omega
  | split hl _ _ => omega

/-- C21: when the table has at most as many buckets as the host id has bits (as in production: capacity
160, 20-byte ids) and the host is stored, a nil result means stored unless the table has been split up
to its capacity and the node belongs to the very last bucket. -/
theorem C21_nil_stored {env : Env} {t t' : RouteTable} {node : NodeInfo}
    (h : Reachable env t) (hh : t.hnode ∈ t.nodes) (hc : t.capacity ≤ 8 * t.hnode.id.length)
    (hadd : t.AddNode env node = .ok (t', none)) :
    t'.Has env node ∨ (t'.last = t'.capacity ∧ t'.place node.id = t'.last) :=
  addStored (t.capacity + 1) h.inv node (by omega) hh hc hadd

/-- C21: in production a dropped node has the host's own id: with 20-byte ids and capacity 160, an
insertion that returns nil stores the node unless its id is the host's id. -/
theorem C21_nil_stored_production {env : Env} {h : NodeInfo} {k : Nat} {t t' : RouteTable} {ns : List NodeInfo}
    {es : List (Option Bytes)} {node : NodeInfo} (hk : 0 < k) (hid : h.id.length = 20)
    (hnid : node.id.length = 20) (hrun : (RouteTable.new h k 160).addAll env ns = .ok (t, es))
    (hadd : t.AddNode env node = .ok (t', none)) : t'.Has env node ∨ node.id = h.id := by
  have hpres : ∀ (ns : List NodeInfo) (t0 t1 : RouteTable) es, Reachable env t0 →
      t0.addAll env ns = .ok (t1, es) → Reachable env t1 ∧ t1.hnode = t0.hnode ∧ t1.capacity = t0.capacity := by
    intro ns
    induction ns with
    | nil => intro t0 t1 es hr h1; cases h1; exact ⟨hr, rfl, rfl⟩
    | cons m r ih =>
      intro t0 t1 es hr h1
      simp only [addAll] at h1
      obtain ⟨⟨t2, e⟩, h2, h3⟩ := Res.bind_eq_ok.mp h1
      obtain ⟨⟨t3, es'⟩, h4, h5⟩ := Res.bind_eq_ok.mp h3
      cases h5
      obtain ⟨t2', e', h6, hs⟩ := AddNode_spec hr.inv m
      rw [h6] at h2
      cases h2
      have := ih _ _ es' (.add hr h6) h4
      exact ⟨this.1, this.2.1.trans hs.hnode, this.2.2.trans hs.capacity⟩
  obtain ⟨hr, hhost, hcap⟩ := hpres ns _ _ _ (.new h k 160) hrun
  have hhost' : t.hnode = h := hhost
  have hcap' : t.capacity = 160 := hcap
  obtain ⟨t1, e1, h1, hs⟩ := AddNode_spec hr.inv node
  rw [h1] at hadd
  cases hadd
  rcases C21_nil_stored hr (by rw [hhost']; exact C20_host_stored hk hrun)
    (by rw [hhost', hcap', hid]; omega) h1 with h2 | ⟨h2, h3⟩
  · exact .inl h2
  · right
    have hh2 : t'.hnode = h := hs.hnode.trans hhost'
    have hc2 : t'.capacity = 160 := hs.capacity.trans hcap'
    have h4 := (C18_symmetric_bounded node.id h.id).2
    have h5 : solvePrefixLen node.id h.id = 8 * min node.id.length h.id.length := by
      rw [h2, hc2] at h3
      unfold place at h3
      rw [hh2] at h3
      rw [hnid, hid] at h4 ⊢
      omega
    rcases (C18_maximal _ _).mp h5 with h6 | h6
    · exact h6.eq_of_length (by omega)
    · exact (h6.eq_of_length (by omega)).symm

/-- C21: the exception is real: this history (host id 0, one more node with the host's id, k = 1,
capacity 1) returns nil although the node is not stored. -/
theorem C21_nil_but_dropped :
    ∃ t, (RouteTable.new (nd 0 1) 1 1).AddNode env0 (nd 0 2) = .ok (t, none) ∧
      nd 0 2 ∉ t.nodes ∧ t.nodes = [nd 0 1] ∧ t.Size = 1 := by
  refine ⟨_, rfl, ?_⟩; decide +kernel

/-- an error: bucket 0 is full and is not the last bucket -/
example : ∃ t t' es msg, hist1 = .ok (t, es) ∧ t.AddNode env0 (nd 0xE0 3) = .ok (t', some msg) := by
  refine ⟨_, _, _, b!"the bucket is full", rfl, rfl⟩
example : ∃ t es, hist1 = .ok (t, es) ∧ (t.bucketNodes (t.place (nd 0x20 1).id)).length = t.k ∧
    ∃ t', t.AddNode env0 (nd 0x20 1) = .ok (t', none) ∧ t'.Has env0 (nd 0x20 1) ∧ t'.last = 2 := by
  refine ⟨_, _, rfl, by decide +kernel, _, rfl, ?_⟩; decide +kernel

/-! ## C22 -/

/-- Number of calls in a history that returned nil although an Equals node was already stored in the
bucket of the given node. -/
def dupCalls (env : Env) (t : RouteTable) : List NodeInfo → Nat
  | [] => 0
  | n :: r =>
    match t.AddNode env n with
    | .ok (t', e) => (if e = none ∧ t.Has env n then 1 else 0) + dupCalls env t' r
    | _ => 0

theorem size_addAll {env : Env} {t t' : RouteTable} {ns : List NodeInfo} {es : List (Option Bytes)}
    (h : Reachable env t) (hadd : t.addAll env ns = .ok (t', es)) :
    t'.size - t'.nodes.length = t.size - t.nodes.length + dupCalls env t ns := by
  induction ns generalizing t es with
  | nil => cases hadd; simp [dupCalls]
  | cons m r ih =>
    simp only [addAll] at hadd
    obtain ⟨⟨t1, e⟩, h1, h2⟩ := Res.bind_eq_ok.mp hadd
    obtain ⟨⟨t2, es'⟩, h3, h4⟩ := Res.bind_eq_ok.mp h2
    cases h4
    have := ih (.add h h1) h3
    obtain ⟨t1', e', h1', hs⟩ := AddNode_spec h.inv m
    rw [h1'] at h1
    cases h1
    simp only [dupCalls, h1']
    rw [this, hs.size]
    split <;> simp <;> omega

/-- C22: for every history on a table with k ≥ 1, `Size()` is the number of stored nodes plus the number
of duplicate insertions that returned nil. -/
theorem C22_size {env : Env} {h : NodeInfo} {k c : Nat} (hk : 0 < k) {ns : List NodeInfo} {t : RouteTable}
    {es : List (Option Bytes)} (hadd : (RouteTable.new h k c).addAll env ns = .ok (t, es)) :
    t.Size = t.nodes.length + dupCalls env (RouteTable.new h k c) ns := by
  have h1 := size_addAll (.new h k c) hadd
  have hne : ¬ k = 0 := by omega
  have h2 : (RouteTable.new h k c).nodes.length = 1 := by
    simp [nodes, RouteTable.new, bucketNodes, Bucket.new, Bucket.Add, Bucket.Full, hne]
  have h3 : (RouteTable.new h k c).size = 1 := rfl
  rw [h2, h3] at h1
  unfold RouteTable.Size
  omega

theorem dupCalls_zero {env : Env} {t : RouteTable} (ns : List NodeInfo) (h : Reachable env t)
    (h1 : ∀ m ∈ t.nodes, ∀ n ∈ ns, m.Equals env n = false)
    (h2 : ns.Pairwise (fun a b => a.Equals env b = false)) : dupCalls env t ns = 0 := by
  induction ns generalizing t with
  | nil => rfl
  | cons n r ih =>
    obtain ⟨t1, e, ha, hs⟩ := AddNode_spec h.inv n
    have hno : ¬ t.Has env n := by
      rintro ⟨m, hm, he⟩
      have := h1 m (mem_nodes.mpr ⟨_, t.place_le _, hm⟩) n (by simp)
      rw [this] at he; cases he
    simp only [dupCalls, ha, hno, and_false, if_false, Nat.zero_add]
    apply ih (.add h ha)
    · intro m hm x hx
      rcases (C20_never_evicted h ha).2.1 m hm with rfl | hm
      · exact (List.pairwise_cons.mp h2).1 x hx
      · exact h1 m hm x (by simp [hx])
    · exact (List.pairwise_cons.mp h2).2

/-- C22: without duplicates (no node Equals the host or an earlier node) `Size()` is exact. -/
theorem C22_size_exact {env : Env} {h : NodeInfo} {k c : Nat} (hk : 0 < k) {ns : List NodeInfo}
    {t : RouteTable} {es : List (Option Bytes)} (hadd : (RouteTable.new h k c).addAll env ns = .ok (t, es))
    (hd : (h :: ns).Pairwise (fun a b => a.Equals env b = false)) : t.Size = t.nodes.length := by
  rw [C22_size hk hadd, dupCalls_zero ns (.new h k c) ?_ (List.pairwise_cons.mp hd).2]
  · simp
  · intro m hm n hn
    have hne : ¬ k = 0 := by omega
    have : m = h := by
      simpa [nodes, RouteTable.new, bucketNodes, Bucket.new, Bucket.Add, Bucket.Full, hne] using hm
    subst this
    exact (List.pairwise_cons.mp hd).1 n hn

/-- C22: without duplicates every non-error, non-dropping call counts: the size grows by the number of
stored nodes; here a history of five calls, one of them a duplicate, gives size 5 with 4 nodes. -/
example : ∃ t es, (RouteTable.new (nd 0 1) 8 8).addAll env0 [nd 0x80 1, nd 0x40 1, nd 0x80 1, nd 1 1] = .ok (t, es) ∧
    t.Size = 5 ∧ t.nodes.length = 4 ∧
    dupCalls env0 (RouteTable.new (nd 0 1) 8 8) [nd 0x80 1, nd 0x40 1, nd 0x80 1, nd 1 1] = 1 := by
  refine ⟨_, _, rfl, ?_⟩; decide +kernel
example : ([nd 0 1, nd 0x80 1, nd 0x40 1, nd 0x80 2]).Pairwise (fun a b => a.Equals env0 b = false) := by
  decide +kernel

/-! ## C23 -/

/-- C23: `Find` answers with a stored node of that id up to case folding; it answers nil only if the bucket
of `id` holds no node whose id matches up to case folding, in particular only if no stored node has
exactly this id. -/
theorem C23_find {env : Env} {t : RouteTable} (h : Reachable env t) (id : Bytes) :
    ∃ r, t.Find env id = .ok r ∧
      (∀ n, r = some n → n ∈ t.nodes ∧ equalFold env.fold n.id id = true) ∧
      (r = none → ∀ n ∈ t.nodes, t.place n.id = t.place id → equalFold env.fold n.id id = false) ∧
      ((∃ n ∈ t.nodes, n.id = id) → ∃ m, r = some m) := by
  have hi := h.inv
  obtain ⟨b, hb⟩ := hi.dom _ (t.place_le id)
  have hbn := bucketNodes_of hb
  refine ⟨b.All.find? (fun n => equalFold env.fold n.id id), ?_, ?_, ?_, ?_⟩
  · simp [Find, solveMaxPreLen_eq, RouteTable.bucket, hb]
  · intro n hn
    refine ⟨mem_nodes.mpr ⟨_, t.place_le id, ?_⟩, by simpa using List.find?_some hn⟩
    rw [hbn]; exact List.mem_of_find?_eq_some hn
  · intro hn n hmem hp
    have : n ∈ b.All := by
      have := hi.mem_nodes_iff.mp hmem
      rw [hp, hbn] at this; exact this
    simpa using (List.find?_eq_none.mp hn) n this
  · rintro ⟨n, hmem, rfl⟩
    have : n ∈ b.All := by
      have := hi.mem_nodes_iff.mp hmem
      rw [hbn] at this; exact this
    cases hf : b.All.find? (fun m => equalFold env.fold m.id n.id) with
    | some m => exact ⟨m, rfl⟩
    | none =>
      have := (List.find?_eq_none.mp hf) n this
      simp [equalFold_refl] at this

/-- C23: `Find` does not distinguish binary ids that differ in an invalid UTF-8 byte: the id `[0xFE]` is
answered with the node whose id is `[0xFF]`. -/
theorem C23_confusion :
    ∃ t, (RouteTable.new (nd 0 1) 8 8).AddNode env0 (nd 0xFF 7) = .ok (t, none) ∧
      t.Find env0 [0xFE] = .ok (some (nd 0xFF 7)) ∧ (∀ n ∈ t.nodes, n.id ≠ [0xFE]) := by
  refine ⟨_, rfl, ?_⟩; decide +kernel

example : ∃ t es, hist1 = .ok (t, es) ∧ t.Find env0 [0x40] = .ok (some (nd 0x40 1)) ∧
    t.Find env0 [0x20] = .ok none := by
  refine ⟨_, _, rfl, ?_⟩; decide +kernel

/-! ## C24 -/

/-- Buckets `p, p-1, …, q` one after the other. -/
def bucketsDown (t : RouteTable) (p q : Nat) : List NodeInfo :=
  (List.range' q (p + 1 - q)).reverse.flatMap t.bucketNodes

theorem bucketsDown_succ (t : RouteTable) {p q : Nat} (h : q ≤ p + 1) :
    bucketsDown t (p + 1) q = t.bucketNodes (p + 1) ++ bucketsDown t p q := by
  unfold bucketsDown
  have : p + 1 + 1 - q = (p + 1 - q) + 1 := by omega
  rw [this, List.range'_concat]
  simp only [List.reverse_append, List.reverse_cons, List.reverse_nil, List.nil_append, List.flatMap_append,
    List.singleton_append, List.flatMap_cons]
  congr 2
  omega

theorem closestLoop_spec {env : Env} {t : RouteTable} (hi : Inv env t) (k : Nat) (n : Nat)
    (acc : List NodeInfo) (hn : n ≤ t.last + 1) :
    ∃ q, q ≤ n ∧
      closestLoop t k n acc = .ok (acc ++ (if n = 0 then [] else bucketsDown t (n - 1) q)) ∧
      (q = 0 ∨ k < (acc ++ (if n = 0 then [] else bucketsDown t (n - 1) q)).length) ∧
      (∀ q', q < q' → q' ≤ n →
        (acc ++ (if n = 0 then [] else bucketsDown t (n - 1) q')).length ≤ k) := by
  induction n generalizing acc with
  | zero => exact ⟨0, Nat.le_refl _, by simp [closestLoop], .inl rfl, fun q' h1 h2 => by omega⟩
  | succ n ih =>
    obtain ⟨b, hb⟩ := hi.dom n (by omega)
    have hbn := bucketNodes_of hb
    by_cases hle : acc.length ≤ k
    · have hle' : (acc.length : Int) ≤ (k : Int) := by omega
      obtain ⟨q, hq, h1, h2, h3⟩ := ih (acc ++ b.All) (by omega)
      have key : ∀ q, q ≤ n → acc ++ b.All ++ (if n = 0 then [] else bucketsDown t (n - 1) q)
          = acc ++ bucketsDown t n q := by
        intro q hq
        cases n with
        | zero =>
          have : q = 0 := by omega
          subst this
          simp [bucketsDown, hbn, Bucket.All]
        | succ m =>
          simp only [Nat.add_one_ne_zero, if_false, Nat.add_sub_cancel]
          rw [bucketsDown_succ t (by omega), hbn]
          simp [Bucket.All]
      refine ⟨q, by omega, ?_, ?_, ?_⟩
      · simp only [closestLoop, hle', if_true, RouteTable.bucket, hb, Res.bind_ok, h1, key q hq]
        simp
      · simp only [Nat.add_one_ne_zero, if_false, Nat.add_sub_cancel]
        rw [← key q hq]; exact h2
      · intro q' h4 h5
        simp only [Nat.add_one_ne_zero, if_false, Nat.add_sub_cancel]
        by_cases hqn : q' ≤ n
        · rw [← key q' hqn]; exact h3 q' h4 hqn
        · have : n + 1 - q' = 0 := by omega
          simp [bucketsDown, this, hle]
    · have hle' : ¬ (acc.length : Int) ≤ (k : Int) := by omega
      refine ⟨n + 1, Nat.le_refl _, ?_, ?_, ?_⟩
      · simp [closestLoop, hle', bucketsDown]
      · right; simp [bucketsDown]; omega
      · intro q' h4 h5; omega

/-- C24: `FindClosest(id, k)` returns the buckets `p, p-1, …, q` where `p` is the bucket of `id`:
more than `k` nodes, or everything down to bucket 0, and no bucket more than needed. -/
theorem C24_find_closest {env : Env} {t : RouteTable} (h : Reachable env t) (id : Bytes) (k : Nat) :
    ∃ q ns, t.FindClosest id k = .ok ns ∧ q ≤ t.place id + 1 ∧ ns = bucketsDown t (t.place id) q ∧
      (q = 0 ∨ k < ns.length) ∧
      (∀ q', q < q' → q' ≤ t.place id + 1 → (bucketsDown t (t.place id) q').length ≤ k) ∧
      (∀ n ∈ ns, n ∈ t.nodes) := by
  obtain ⟨q, hq, h1, h2, h3⟩ := closestLoop_spec h.inv k (t.place id + 1) []
    (by have := t.place_le id; omega)
  simp only [Nat.add_one_ne_zero, if_false, Nat.add_sub_cancel, List.nil_append] at h1 h2 h3
  refine ⟨q, _, ?_, hq, rfl, h2, h3, ?_⟩
  · have hk : ¬ ((k : Int) < 0) := by omega
    simp only [FindClosest, hk, if_false, solveMaxPreLen_eq]
    exact h1
  · intro n hn
    simp only [bucketsDown, List.mem_flatMap, List.mem_reverse, List.mem_range'_1] at hn
    obtain ⟨i, hi1, hi2⟩ := hn
    exact mem_nodes.mpr ⟨i, by have := t.place_le id; omega, hi2⟩

/-- C24: a negative `k` panics. -/
theorem C24_negative (t : RouteTable) (id : Bytes) (k : Int) (h : k < 0) :
    t.FindClosest id k = .panic .runtime := by simp [FindClosest, h]

/-- C24: if `id` belongs to the last bucket, every returned node is strictly closer to `id` than every
stored node that is not returned. -/
theorem C24_closest {env : Env} {t : RouteTable} (h : Reachable env t) {id : Bytes} {k : Nat}
    {ns : List NodeInfo} (hf : t.FindClosest id k = .ok ns)
    (hlen : id.length = t.hnode.id.length) (hlast : t.place id = t.last)
    {m n : NodeInfo} (hm : m ∈ ns) (hn : n ∈ t.nodes) (hnn : n ∉ ns)
    (hml : m.id.length = id.length) (hnl : n.id.length = id.length) :
    xorDist m.id id < xorDist n.id id := by
  have hi := h.inv
  obtain ⟨q, ns', h1, h2, h3, -, -, h6⟩ := C24_find_closest h id k
  rw [h1] at hf
  cases hf
  subst h3
  have hpm : q ≤ t.place m.id := by
    simp only [bucketsDown, List.mem_flatMap, List.mem_reverse, List.mem_range'_1] at hm
    obtain ⟨i, hi1, hi2⟩ := hm
    rw [← hi.mem_bucket hi2]; exact hi1.1
  have hpn : t.place n.id < q := by
    by_cases hc : t.place n.id < q
    · exact hc
    · exfalso; apply hnn
      simp only [bucketsDown, List.mem_flatMap, List.mem_reverse, List.mem_range'_1]
      exact ⟨t.place n.id, ⟨by omega, by have := t.place_le n.id; omega⟩, hi.mem_nodes_iff.mp hn⟩
  have hpl := t.place_le m.id
  have A := solvePrefixLen_agree m.id t.hnode.id
  have B := solvePrefixLen_agree n.id t.hnode.id
  have C := solvePrefixLen_agree id t.hnode.id
  simp only [place] at hpm hpn hlast hpl h2
  have hB : solvePrefixLen n.id t.hnode.id < commonBits n.id t.hnode.id := by
    have := C.1
    simp only [commonBits, hnl, hlen] at this ⊢
    omega
  apply C18_closer hml hnl
  apply solvePrefixLen_lt_of_bits (i := solvePrefixLen n.id t.hnode.id) hml hnl
  · simp only [commonBits, hnl, hlen] at hB ⊢; omega
  · intro j hj
    rw [A.2.1 j (by omega), C.2.1 j (by omega)]
  · rw [C.2.1 _ (by omega)]
    exact B.2.2 hB

/-- C24: in particular for the host's own id, when the table has at most as many buckets as id bits. -/
theorem C24_closest_host {env : Env} {t : RouteTable} (h : Reachable env t)
    (hc : t.capacity ≤ 8 * t.hnode.id.length) : t.place t.hnode.id = t.last := by
  have : solvePrefixLen t.hnode.id t.hnode.id = 8 * t.hnode.id.length := by
    have := (C18_maximal t.hnode.id t.hnode.id).mpr (.inl (List.prefix_refl _))
    simpa using this
  have := h.inv.lastLe
  unfold place; omega

/-- C24: in general it does not return the closest nodes: for id 0x41 this table answers with 0x80, at
distance 0xC1, and omits the host 0x00, at distance 0x41. -/
theorem C24_not_closest :
    ∃ t es, (RouteTable.new (nd 0 1) 1 8).addAll env0 [nd 0x80 1, nd 0x40 1] = .ok (t, es) ∧
      t.FindClosest [0x41] 1 = .ok [nd 0x40 1, nd 0x80 1] ∧ nd 0 1 ∈ t.nodes ∧
      xorDist (nd 0 1).id [0x41] < xorDist (nd 0x80 1).id [0x41] := by
  refine ⟨_, _, rfl, ?_⟩; decide +kernel

example : ∃ t es, hist1 = .ok (t, es) ∧ t.place [0x41] = t.last ∧
    t.FindClosest [0x41] 1 = .ok [nd 0 1, nd 0x40 1] ∧ nd 0xC0 2 ∈ t.nodes := by
  refine ⟨_, _, rfl, ?_⟩; decide +kernel

end P2P

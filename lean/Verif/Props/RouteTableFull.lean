import Verif.Props.RouteTable
/-! # Property C64: `Full`, the exact result of `AddNode`, and permanence of rejections -/
namespace P2P
open RouteTable

theorem addNode_case {env : Env} {t : RouteTable} (h : Reachable env t) (node : NodeInfo) :
    AddCase env (addSplit env (t.capacity + 1)) t node (t.AddNode env node) := addCase h.inv _ node

/-- C64: `Full` never panics; it answers true exactly if the table has been split up to its capacity and its last bucket
holds `k` nodes. -/
theorem C64_full_iff {env : Env} {t : RouteTable} (h : Reachable env t) :
    t.Full = .ok (decide (t.last = t.capacity ∧ (t.bucketNodes t.last).length = t.k)) := by
  have hi := h.inv
  obtain ⟨b, hb⟩ := hi.dom t.last (Nat.le_refl _)
  have hc := hi.cap _ _ hb
  have hl := hi.lastLe
  rw [bucketNodes_of hb]
  unfold RouteTable.Full
  by_cases hlast : t.last ≥ t.capacity
  · rw [if_pos hlast]
    simp only [RouteTable.bucket, hb, Res.bind_ok, Bucket.Full, hc.1]
    show Res.ok _ = Res.ok _
    congr 1
    have h1 : t.last = t.capacity := by omega
    have h2 : (b.nodes.length ≥ t.k) ↔ (t.last = t.capacity ∧ b.nodes.length = t.k) := by omega
    simp only [h2]
  · rw [if_neg hlast]
    have h1 : ¬ (t.last = t.capacity ∧ b.nodes.length = t.k) := by omega
    simp only [h1, decide_false]
    rfl

/-- C64: the result of `AddNode` in every case: nil if the node's bucket has room; the error "the bucket is full" if it has
none and is not the last bucket or the node is already stored; the error "full route table" if the node is new, belongs to
the last bucket and the table is `Full`; otherwise (the last bucket is full and can be split) nil. After an error the table
is unchanged. -/
theorem C64_result {env : Env} {t : RouteTable} (h : Reachable env t) (node : NodeInfo) :
    ∃ t' e, t.AddNode env node = .ok (t', e) ∧ (e ≠ none → t' = t) ∧
      ((t.bucketNodes (t.place node.id)).length < t.k → e = none) ∧
      ((t.bucketNodes (t.place node.id)).length = t.k → (t.place node.id < t.last ∨ t.Has env node) →
        e = some b!"the bucket is full") ∧
      ((t.bucketNodes (t.place node.id)).length = t.k → t.place node.id = t.last → ¬ t.Has env node →
        (t.last = t.capacity → e = some b!"full route table") ∧ (t.last < t.capacity → e = none)) := by
  have hc := addNode_case h node
  obtain ⟨t1, e1, h1, hs⟩ := AddNode_spec h.inv node
  refine ⟨t1, e1, h1, fun he => (hs.err he).1, ?_⟩
  rw [h1] at hc
  generalize hr : (Res.ok (t1, e1) : AddRes) = r at hc
  cases hc with
  | store hl hn => cases hr; exact ⟨fun _ => rfl, fun h => by omega, fun h => by omega⟩
  | dup hl hn => cases hr; exact ⟨fun _ => rfl, fun h => by omega, fun h => by omega⟩
  | full hl hn =>
    cases hr
    refine ⟨fun h => by omega, fun _ _ => rfl, fun _ hp hh => ?_⟩
    rcases hn with hn | hn
    · omega
    · exact absurd hn hh
  | split hl hp hn =>
    refine ⟨fun h => by omega, fun _ hx => ?_, fun _ _ _ => ⟨fun hlast => ?_, fun hlast => ?_⟩⟩
    · rcases hx with hx | hx
      · omega
      · exact absurd hx hn
    · rw [addSplit_full env _ t node (by omega)] at hr
      cases hr; rfl
    · cases e1 with
      | none => rfl
      | some x =>
        rcases (hs.err (by simp)).2.2 with h | h | h
        · omega
        · exact absurd h hn
        · omega

/-- a full bucket keeps its contents, except the last one while it can still be split -/
theorem full_bucket_fixed {env : Env} {t t' : RouteTable} {m : NodeInfo} {e : Option Bytes} (h : Reachable env t)
    (hadd : t.AddNode env m = .ok (t', e)) {i : Nat} (hf : (t.bucketNodes i).length = t.k)
    (hx : i < t.last ∨ t.last = t.capacity) : t'.bucketNodes i = t.bucketNodes i := by
  have hc := addNode_case h m
  obtain ⟨t1, e1, h1, hs⟩ := AddNode_spec h.inv m
  rw [h1] at hadd
  cases hadd
  rw [h1] at hc
  generalize hr : (Res.ok (t', e) : AddRes) = r at hc
  cases hc with
  | store hl hn =>
    cases hr
    have : i ≠ t.place m.id := fun hh => by subst hh; omega
    simp only [bucketNodes, storeT, upd_ne _ _ this]
  | dup hl hn => cases hr; rfl
  | full hl hn => cases hr; rfl
  | split hl hp hn =>
    by_cases hlast : t.last = t.capacity
    · rw [addSplit_full env _ t m (by omega)] at hr
      cases hr; rfl
    · have hi : i < t.last := by rcases hx with hx | hx <;> omega
      exact hs.low i hi (by omega)

/-- the node's bucket is full for good -/
def Blocked (env : Env) (t : RouteTable) (n : NodeInfo) : Prop :=
  (t.bucketNodes (t.place n.id)).length = t.k ∧
    (t.place n.id < t.last ∨ (t.last = t.capacity ∧ ¬ t.Has env n))

theorem blocked_step {env : Env} {t t' : RouteTable} {m n : NodeInfo} {e : Option Bytes} (h : Reachable env t)
    (hadd : t.AddNode env m = .ok (t', e)) (hb : Blocked env t n) :
    Blocked env t' n ∧ (t.place n.id < t.last ↔ t'.place n.id < t'.last) := by
  obtain ⟨t1, e1, h1, hs⟩ := AddNode_spec h.inv m
  have hfix := full_bucket_fixed h hadd hb.1 (hb.2.imp id And.left)
  rw [h1] at hadd
  cases hadd
  have hll := hs.last
  have hcap := hs.inv.lastLe
  have hcap' := h.inv.lastLe
  have hc := hs.capacity
  have hp : t'.place n.id = t.place n.id := by
    unfold RouteTable.place
    rw [hs.hnode]
    rcases hb.2 with hx | hx
    · unfold RouteTable.place at hx; omega
    · omega
  refine ⟨⟨by rw [hp, hfix, hs.k]; exact hb.1, ?_⟩, ?_⟩
  · rcases hb.2 with hx | ⟨hx, hn⟩
    · left; omega
    · right
      refine ⟨by omega, ?_⟩
      intro ⟨y, hy, hyy⟩
      rw [hp, hfix] at hy
      exact hn ⟨y, hy, hyy⟩
  · rw [hp]
    rcases hb.2 with hx | ⟨hx, -⟩
    · constructor <;> intro <;> omega
    · constructor <;> intro <;> omega

/-- C64: `Full` is permanent: once it answers true it answers true after every further insertion. -/
theorem C64_full_permanent {env : Env} {t t' : RouteTable} {ns : List NodeInfo} {es : List (Option Bytes)}
    (h : Reachable env t) (hf : t.Full = .ok true) (hadd : t.addAll env ns = .ok (t', es)) : t'.Full = .ok true := by
  induction ns generalizing t es with
  | nil => cases hadd; exact hf
  | cons n r ih =>
    obtain ⟨t1, e1, h1, hs⟩ := AddNode_spec h.inv n
    have hr := Reachable.add h h1
    simp only [addAll, h1, Res.bind_ok] at hadd
    cases hr2 : t1.addAll env r with
    | ok x =>
      obtain ⟨t2, es2⟩ := x
      rw [hr2] at hadd
      have e : t2 = t' := by
        have := Res.ok.inj hadd
        exact congrArg Prod.fst this
      subst e
      refine ih hr ?_ hr2
      rw [C64_full_iff h] at hf
      have hf' : t.last = t.capacity ∧ (t.bucketNodes t.last).length = t.k := by simpa using Res.ok.inj hf
      rw [C64_full_iff hr]
      have hlast : t1.last = t.last := by have := hs.last; have := hs.inv.lastLe; have := hs.capacity; omega
      have := full_bucket_fixed h h1 hf'.2 (.inr hf'.1)
      congr 1
      rw [hlast, this, hs.k, hs.capacity]
      simpa using hf'
    | err x => rw [hr2] at hadd; cases hadd
    | panic x => rw [hr2] at hadd; cases hadd
    | diverge => rw [hr2] at hadd; cases hadd

/-- C64: a node refused because its bucket is not the last one, or because the table is full, is refused for ever, with the
same error; only a node refused while it is already stored in the splittable last bucket can be accepted later. -/
theorem C64_refused_for_ever {env : Env} {t t' : RouteTable} {ns : List NodeInfo} {es : List (Option Bytes)} {n : NodeInfo}
    {msg : Bytes} (h : Reachable env t) (href : t.AddNode env n = .ok (t, some msg))
    (hx : t.place n.id < t.last ∨ ¬ t.Has env n) (hadd : t.addAll env ns = .ok (t', es)) :
    t'.AddNode env n = .ok (t', some msg) := by
  have hb : Blocked env t n := by
    obtain ⟨t1, e1, h1, hs⟩ := AddNode_spec h.inv n
    rw [href] at h1
    cases h1
    obtain ⟨-, h2, h3⟩ := hs.err (by simp)
    refine ⟨h2, ?_⟩
    rcases hx with hx | hx
    · exact .inl hx
    · rcases h3 with h3 | h3 | h3
      · exact .inl h3
      · exact absurd h3 hx
      · exact .inr ⟨h3, hx⟩
  have answer : ∀ {s : RouteTable}, Reachable env s → Blocked env s n →
      s.AddNode env n = .ok (s, some (if s.place n.id < s.last then b!"the bucket is full" else b!"full route table")) := by
    intro s hs hbs
    obtain ⟨s', e, h1, h2, -, h4, h5⟩ := C64_result hs n
    rw [h1]
    by_cases hp : s.place n.id < s.last
    · have he := h4 hbs.1 (.inl hp)
      subst he
      rw [if_pos hp, h2 (by simp)]
    · rcases hbs.2 with hx | ⟨hx, hn⟩
      · exact absurd hx hp
      · have he := (h5 hbs.1 (by have := s.place_le n.id; omega) hn).1 hx
        subst he
        rw [if_neg hp, h2 (by simp)]
  have main : ∀ {s : RouteTable} {ns : List NodeInfo} {es : List (Option Bytes)}, Reachable env s → Blocked env s n →
      s.addAll env ns = .ok (t', es) → Reachable env t' ∧ Blocked env t' n ∧
        (s.place n.id < s.last ↔ t'.place n.id < t'.last) := by
    intro s ns
    induction ns generalizing s with
    | nil => intro es hs hbs ha; cases ha; exact ⟨hs, hbs, Iff.rfl⟩
    | cons m r ih =>
      intro es hs hbs ha
      obtain ⟨t1, e1, h1, -⟩ := AddNode_spec hs.inv m
      obtain ⟨hb1, hiff⟩ := blocked_step hs h1 hbs
      simp only [addAll, h1, Res.bind_ok] at ha
      cases hr2 : t1.addAll env r with
      | ok x =>
        obtain ⟨t2, es2⟩ := x
        rw [hr2] at ha
        have e : t2 = t' := congrArg Prod.fst (Res.ok.inj ha)
        subst e
        obtain ⟨a, b, c⟩ := ih (.add hs h1) hb1 hr2
        exact ⟨a, b, hiff.trans c⟩
      | err x => rw [hr2] at ha; cases ha
      | panic x => rw [hr2] at ha; cases ha
      | diverge => rw [hr2] at ha; cases ha
  obtain ⟨hr', hb', hiff⟩ := main h hb hadd
  have a1 := answer h hb
  rw [href] at a1
  rw [answer hr' hb']
  have a2 : msg = (if t.place n.id < t.last then b!"the bucket is full" else b!"full route table") := by
    have := congrArg Prod.snd (Res.ok.inj a1)
    exact Option.some.inj this
  rw [a2]
  by_cases hp : t.place n.id < t.last
  · rw [if_pos hp, if_pos (hiff.1 hp)]
  · rw [if_neg hp, if_neg (fun hh => hp (hiff.2 hh))]

/-- a full table: capacity 1, k = 1; then a new node of the last bucket is refused for ever -/
example : ∃ t, Reachable env0 t ∧ t.Full = .ok true ∧ t.AddNode env0 (nd 0 2) = .ok (t, some b!"full route table") ∧
    ¬ t.Has env0 (nd 0 2) := by
  refine ⟨_, .add (.new (nd 0 1) 1 1) (n := nd 0x80 1) rfl, by decide +kernel, rfl, by decide +kernel⟩

/-- the exception in `C64_refused_for_ever`: a stored node is refused while its bucket, the last one, is full, and accepted
after the bucket was split -/
theorem C64_refused_then_accepted :
    ∃ t t' t'', Reachable env0 t ∧ t.AddNode env0 (nd 0 1) = .ok (t, some b!"the bucket is full") ∧
      t.AddNode env0 (nd 0x80 1) = .ok (t', none) ∧ t'.AddNode env0 (nd 0 1) = .ok (t'', none) := by
  refine ⟨_, _, _, .add (.new (nd 0 1) 2 8) (n := nd 0x80 2) rfl, rfl, rfl, rfl⟩

end P2P

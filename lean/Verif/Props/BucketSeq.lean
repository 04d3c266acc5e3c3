import Verif.Props.RouteTable
import Verif.Props.Register
/-! # C84: one bucket, used by one caller -/
namespace P2P

/-- `NewBucket(capacity)` followed by `Add(n)` for the nodes `n` of the list, one after the other -/
def bucketAfter (capacity : Nat) (ns : List NodeInfo) : Bucket := ns.foldl (fun b n => (b.Add n).1) (Bucket.new capacity)

theorem bucketAfter_nodes (capacity : Nat) (ns : List NodeInfo) :
    (bucketAfter capacity ns).nodes = ns.take capacity ∧ (bucketAfter capacity ns).cap = capacity := by
  have gen : ∀ (ns : List NodeInfo) (b : Bucket), b.nodes.length ≤ b.cap →
      (ns.foldl (fun b n => (b.Add n).1) b).nodes = b.nodes ++ ns.take (b.cap - b.nodes.length) ∧
      (ns.foldl (fun b n => (b.Add n).1) b).cap = b.cap := by
    intro ns
    induction ns with
    | nil => intro b _; simp
    | cons n ns ih =>
      intro b hb
      rw [List.foldl_cons]
      by_cases hf : b.Full = true
      · have : (b.Add n).1 = b := by simp [Bucket.Add, hf]
        rw [this, (ih b hb).1, (ih b hb).2]
        simp only [Bucket.Full, ge_iff_le, decide_eq_true_eq] at hf
        simp [show b.cap - b.nodes.length = 0 by omega]
      · have : (b.Add n).1 = { b with nodes := b.nodes ++ [n] } := by simp [Bucket.Add, hf]
        simp only [Bucket.Full, ge_iff_le, decide_eq_true_eq] at hf
        obtain ⟨h1, h2⟩ := ih { b with nodes := b.nodes ++ [n] } (by simp; omega)
        rw [this, h1, h2]
        simp only [List.length_append, List.length_cons, List.length_nil, List.append_assoc, List.singleton_append, and_true]
        rw [show b.cap - b.nodes.length = (b.cap - (b.nodes.length + 1)) + 1 by omega, List.take_succ_cons]
  have := gen ns (Bucket.new capacity) (by simp [Bucket.new])
  simpa [bucketAfter, Bucket.new] using this

/-- C84: after any calls of `Add` the bucket holds the first `capacity` nodes in the order of the calls, whether or not they are the same;
`Size`, `Full` and `Exist` say so, and the next `Add` succeeds iff fewer than `capacity` calls were made. -/
theorem C84_bucket (env : Env) (capacity : Nat) (ns : List NodeInfo) (x : NodeInfo) :
    (bucketAfter capacity ns).All = ns.take capacity ∧
    (bucketAfter capacity ns).Size = min capacity ns.length ∧
    ((bucketAfter capacity ns).Full = true ↔ capacity ≤ ns.length) ∧
    ((bucketAfter capacity ns).Exist env x = true ↔ ∃ n ∈ ns.take capacity, n.Equals env x = true) ∧
    (((bucketAfter capacity ns).Add x).2 = true ↔ ns.length < capacity) := by
  obtain ⟨h1, h2⟩ := bucketAfter_nodes capacity ns
  refine ⟨h1, by simp [Bucket.Size, h1], ?_, ?_, ?_⟩
  · simp only [Bucket.Full, h1, h2, List.length_take, ge_iff_le, decide_eq_true_eq]; omega
  · simp [Bucket.Exist, h1]
  · by_cases hf : (bucketAfter capacity ns).Full = true
    · have : capacity ≤ ns.length := by
        simp only [Bucket.Full, h1, h2, List.length_take, ge_iff_le, decide_eq_true_eq] at hf; omega
      simp only [Bucket.Add, hf, if_true, Bool.false_eq_true, false_iff]; omega
    · have : ¬ capacity ≤ ns.length := by
        simp only [Bucket.Full, h1, h2, List.length_take, ge_iff_le, decide_eq_true_eq] at hf; omega
      simp only [Bucket.Add, hf, if_false, Bool.false_eq_true, true_iff]; omega

/-- C84: **`Iterator` calls its function `capacity` times**, also for a bucket that is not full: for the i-th slot with the i-th node added, and
with nil if there is none. A function that uses its argument without a test panics on every bucket that is not full. -/
theorem C84_iterator (capacity : Nat) (ns : List NodeInfo) :
    (bucketAfter capacity ns).Iterator = (List.range capacity).map (fun i => ns[i]?) := by
  obtain ⟨h1, h2⟩ := bucketAfter_nodes capacity ns
  rw [Bucket.Iterator, h1, h2]
  apply List.ext_getElem?
  intro i
  rw [List.getElem?_append, List.getElem?_map, List.getElem?_map, List.getElem?_take, List.getElem?_replicate]
  simp only [List.length_map, List.length_take]
  by_cases hi : i < capacity
  · rw [List.getElem?_range hi]
    by_cases hn : i < ns.length
    · simp [hi, hn]; omega
    · rw [if_neg (by omega), if_pos (by omega)]
      simp [List.getElem?_eq_none (Nat.le_of_not_lt hn)]
  · rw [List.getElem?_eq_none (l := List.range capacity) (by simp; omega)]
    rw [if_neg (by omega), if_neg (by omega)]
    rfl

/-- C67: a server on which nothing has been registered refuses every well-formed query of a known type, whatever the type. -/
theorem C67_fresh_server (K : KEnv) (O : Oracle) (addr : UDPAddr) {d a : Entries} {t q id : Bytes} (s : HSt)
    (ht : d.lookup b!"t" = some (.str t)) (hq : d.lookup b!"q" = some (.str q)) (hk : KnownType K.env.fold q)
    (ha : d.lookup b!"a" = some (.dict a)) (hid : a.lookup b!"id" = some (.str id)) (hl : id.length = 20) :
    requestHandle K.env.fold (emptyHandlers K O) O addr d s = .ok (some (WithErr t 203 b!"cannot handle not match handler")) s :=
  (C67_dispatch K.env.fold (emptyHandlers K O) O addr s ht hq hk ha hid hl).1 rfl

/-- a bucket of three slots after one and after four calls -/
example : (bucketAfter 3 [nd 1 1]).Iterator = [some (nd 1 1), none, none] ∧
    (bucketAfter 3 [nd 1 1, nd 1 1, nd 2 2, nd 3 3]).Iterator = [some (nd 1 1), some (nd 1 1), some (nd 2 2)] ∧
    ((bucketAfter 3 [nd 1 1, nd 1 1]).Add (nd 2 2)).2 = true ∧ ((bucketAfter 3 [nd 1 1, nd 1 1, nd 2 2]).Add (nd 3 3)).2 = false := by
  decide +kernel

end P2P

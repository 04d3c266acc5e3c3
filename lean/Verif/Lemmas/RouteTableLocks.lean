import Verif.Model.RouteTableLocks
import Verif.Lemmas.RouteTableConc
/-! # The methods of `RouteTable` over pointers, run alone, compute the functions of `Model/RouteTable`; and their lock discipline -/
namespace P2P

namespace LProg
variable {α β : Type}

/-- the program run without interruption, the locks disregarded -/
def run : LProg α → TMem → Res α × TMem
  | .ret a, m => (.ok a, m)
  | .panic p, m => (.panic p, m)
  | .diverge, m => (.diverge, m)
  | .getConst f, m => (f m.hnode m.k m.capacity).run m
  | .getLast f, m => (f m.last).run m
  | .getSize f, m => (f m.size).run m
  | .getMap i f, m => (f (m.nodeMap i)).run m
  | .setLast n r, m => r.run { m with last := n }
  | .setSize z r, m => r.run { m with size := z }
  | .setMap i a r, m => r.run { m with nodeMap := upd m.nodeMap i (some a) }
  | .alloc k f, m => (f m.next).run { m with heap := upd m.heap m.next (Bucket.new k), next := m.next + 1 }
  | .lock _ _ r, m => r.run m
  | .unlock _ _ r, m => r.run m
  | .readB a f, m => (f (m.heap a)).run m
  | .writeB a b r, m => r.run { m with heap := upd m.heap a b }

/-- number of steps -/
def len : LProg α → TMem → Nat
  | .ret _, _ => 0
  | .panic _, _ => 0
  | .diverge, _ => 0
  | .getConst f, m => (f m.hnode m.k m.capacity).len m + 1
  | .getLast f, m => (f m.last).len m + 1
  | .getSize f, m => (f m.size).len m + 1
  | .getMap i f, m => (f (m.nodeMap i)).len m + 1
  | .setLast n r, m => r.len { m with last := n } + 1
  | .setSize z r, m => r.len { m with size := z } + 1
  | .setMap i a r, m => r.len { m with nodeMap := upd m.nodeMap i (some a) } + 1
  | .alloc k f, m => (f m.next).len { m with heap := upd m.heap m.next (Bucket.new k), next := m.next + 1 } + 1
  | .lock _ _ r, m => r.len m + 1
  | .unlock _ _ r, m => r.len m + 1
  | .readB a f, m => (f (m.heap a)).len m + 1
  | .writeB a b r, m => r.len { m with heap := upd m.heap a b } + 1

theorem run_bind (p : LProg α) (g : α → LProg β) (m : TMem) :
    (p >>= g).run m = match p.run m with
      | (.ok a, m') => (g a).run m'
      | (.panic q, m') => (.panic q, m')
      | (.err e, m') => (.err e, m')
      | (.diverge, m') => (.diverge, m') := by
  show (LProg.bind p g).run m = _
  induction p generalizing m with
  | ret a => rfl
  | panic q => rfl
  | diverge => rfl
  | getConst f ih => exact ih _ _ _ m
  | getLast f ih => exact ih _ m
  | getSize f ih => exact ih _ m
  | getMap i f ih => exact ih _ m
  | setLast n r ih => exact ih _
  | setSize z r ih => exact ih _
  | setMap i a r ih => exact ih _
  | alloc k f ih => exact ih _ _
  | lock a w r ih => exact ih _
  | unlock a w r ih => exact ih _
  | readB a f ih => exact ih _ m
  | writeB a b r ih => exact ih _

theorem run_pure (a : α) (m : TMem) : (pure a : LProg α).run m = (.ok a, m) := rfl

theorem step_run {g : Nat} {p p' : LProg α} {m m' : TMem} {L L' : Nat → RwLock} (h : LStep g p m L p' m' L') : p.run m = p'.run m' := by
  cases h <;> rfl

theorem step_len {g : Nat} {p p' : LProg α} {m m' : TMem} {L L' : Nat → RwLock} (h : LStep g p m L p' m' L') : p.len m = p'.len m' + 1 := by
  cases h <;> rfl

theorem outcome_run {p : LProg α} {r : Res α} (h : p.outcome = some r) (m : TMem) : p.run m = (r, m) := by
  cases p <;> simp only [outcome, Option.some.injEq, reduceCtorEq] at h <;> subst h <;> rfl

/-- The lock discipline: the program, started with the bucket lock `held` (`none`: no lock), acquires a lock only when it holds
none, releases only what it holds, reads a bucket only under its lock and writes it only under its write lock, and ends without a
lock. With `ro` it writes nothing and takes read locks only. -/
def Disc (ro : Bool) : Option (Nat × Bool) → LProg α → Prop
  | h, .ret _ => h = none
  | h, .panic _ => h = none
  | h, .diverge => h = none
  | h, .getConst f => ∀ x y z, (f x y z).Disc ro h
  | h, .getLast f => ∀ n, (f n).Disc ro h
  | h, .getSize f => ∀ n, (f n).Disc ro h
  | h, .getMap _ f => ∀ b, (f b).Disc ro h
  | h, .setLast _ r => ro = false ∧ r.Disc ro h
  | h, .setSize _ r => ro = false ∧ r.Disc ro h
  | h, .setMap _ _ r => ro = false ∧ r.Disc ro h
  | h, .alloc _ f => ro = false ∧ ∀ a, (f a).Disc ro h
  | h, .lock a w r => h = none ∧ (ro = true → w = false) ∧ r.Disc ro (some (a, w))
  | h, .unlock a w r => h = some (a, w) ∧ r.Disc ro none
  | h, .readB a f => (∃ w, h = some (a, w)) ∧ ∀ b, (f b).Disc ro h
  | h, .writeB a _ r => ro = false ∧ h = some (a, true) ∧ r.Disc ro h

theorem Disc.bind {ro : Bool} {h : Option (Nat × Bool)} {p : LProg α} {g : α → LProg β} (hp : p.Disc ro h)
    (hg : ∀ a, (g a).Disc ro none) : (p >>= g).Disc ro h := by
  show (LProg.bind p g).Disc ro h
  induction p generalizing h with
  | ret a => cases hp; exact hg a
  | panic q => exact hp
  | diverge => exact hp
  | getConst f ih => exact fun x y z => ih x y z (hp x y z)
  | getLast f ih => exact fun n => ih n (hp n)
  | getSize f ih => exact fun n => ih n (hp n)
  | getMap i f ih => exact fun b => ih b (hp b)
  | setLast n r ih => exact ⟨hp.1, ih hp.2⟩
  | setSize z r ih => exact ⟨hp.1, ih hp.2⟩
  | setMap i a r ih => exact ⟨hp.1, ih hp.2⟩
  | alloc k f ih => exact ⟨hp.1, fun a => ih a (hp.2 a)⟩
  | lock a w r ih => exact ⟨hp.1, hp.2.1, ih hp.2.2⟩
  | unlock a w r ih => exact ⟨hp.1, ih hp.2⟩
  | readB a f ih => exact ⟨hp.1, fun b => ih b (hp.2 b)⟩
  | writeB a b r ih => exact ⟨hp.1, hp.2.1, ih hp.2.2⟩

end LProg
open LProg

/-! ## lock discipline -/

theorem readMem_disc {α : Type} (ro : Bool) (a : Nat) (f : Bucket → α) :
    (LProg.lock a false (.readB a fun b => .unlock a false (.ret (f b)))).Disc ro none :=
  ⟨rfl, fun _ => rfl, ⟨false, rfl⟩, fun _ => ⟨rfl, rfl⟩⟩

theorem addMem_disc (a : Nat) (n : NodeInfo) : (addMem a n).Disc false none := by
  refine (readMem_disc false a Bucket.Full).bind fun x => ?_
  cases x
  · refine ⟨rfl, fun h => (by cases h), ⟨true, rfl⟩, fun b => ?_⟩
    dsimp only
    split
    · exact ⟨rfl, rfl⟩
    · exact ⟨rfl, rfl, rfl, rfl⟩
  · exact rfl

theorem bucketMem_disc (ro : Bool) (i : Nat) : (bucketMem i).Disc ro none := fun b => by cases b <;> exact rfl

theorem solveMem_disc (ro : Bool) (id : Bytes) : (solveMaxPreLenMem id).Disc ro none := fun x y z n => by
  dsimp only
  split
  · exact rfl
  · exact fun _ => rfl

theorem incSizeMem_disc : incSizeMem.Disc false none := fun _ => ⟨rfl, rfl⟩

theorem addNodeMem_disc {env : Env} {P : NodeInfo → LProg (Option Bytes)} (hP : ∀ n, (P n).Disc false none) (n : NodeInfo) (i : Nat) :
    (addNodeMem env P n i).Disc false none := by
  refine (bucketMem_disc _ i).bind fun b => ?_
  refine LProg.Disc.bind (p := LProg.getLast .ret) (fun _ => rfl) fun last => ?_
  refine LProg.Disc.bind ?_ fun hit => ?_
  · split
    · refine (readMem_disc false b _).bind fun x => ?_
      split
      · exact readMem_disc false b _
      · exact rfl
    · exact rfl
  · split
    · exact hP n
    · refine (readMem_disc false b _).bind fun x => ?_
      split
      · exact rfl
      · refine (readMem_disc false b _).bind fun y => ?_
        split
        · refine (addMem_disc b n).bind fun z => ?_
          split
          · exact rfl
          · exact incSizeMem_disc.bind fun _ => rfl
        · exact incSizeMem_disc.bind fun _ => rfl

theorem reAddMem_disc {env : Env} {P : NodeInfo → LProg (Option Bytes)} (hP : ∀ n, (P n).Disc false none) (l : List NodeInfo) :
    (reAddMem env P l).Disc false none := by
  induction l with
  | nil => exact rfl
  | cons n r ih => exact (solveMem_disc _ _).bind fun i => (addNodeMem_disc hP n i).bind fun _ => ih

theorem countLoopMem_disc (n i : Nat) : (countLoopMem n i).Disc false none := by
  induction n generalizing i with
  | zero => exact rfl
  | succ n ih => exact (bucketMem_disc _ i).bind fun b => (readMem_disc false b _).bind fun z => (ih (i + 1)).bind fun _ => rfl

theorem addSplitMem_disc (env : Env) (fuel : Nat) (n : NodeInfo) : (addSplitMem env fuel n).Disc false none := by
  induction fuel generalizing n with
  | zero => exact rfl
  | succ f ih =>
    intro last x k c
    dsimp only
    split
    · exact rfl
    · have gl : (LProg.getLast .ret : LProg Nat).Disc false none := fun _ => rfl
      have gs : (LProg.getSize .ret : LProg Int).Disc false none := fun _ => rfl
      have al : (LProg.alloc k .ret : LProg Nat).Disc false none := ⟨rfl, fun _ => rfl⟩
      refine gl.bind fun l => (bucketMem_disc _ l).bind fun src => gs.bind fun _ => gs.bind fun z => ?_
      refine (readMem_disc false src _).bind fun m => ?_
      refine LProg.Disc.bind (p := LProg.setSize _ (.ret ())) ⟨rfl, rfl⟩ fun _ => al.bind fun nl => al.bind fun nr => ?_
      refine gl.bind fun l => LProg.Disc.bind (p := LProg.setMap _ _ (.ret ())) ⟨rfl, rfl⟩ fun _ => ?_
      refine gl.bind fun l => LProg.Disc.bind (p := LProg.setLast _ (.ret ())) ⟨rfl, rfl⟩ fun _ => ?_
      refine gl.bind fun l => LProg.Disc.bind (p := LProg.setMap _ _ (.ret ())) ⟨rfl, rfl⟩ fun _ => ?_
      refine (readMem_disc false src _).bind fun sn => (reAddMem_disc ih sn).bind fun _ => (solveMem_disc _ _).bind fun i => ?_
      exact (addNodeMem_disc ih n i).bind fun _ => gl.bind fun l => (countLoopMem_disc _ _).bind fun _ => rfl

theorem closestLoopMem_disc (k : Int) (n : Nat) : ∀ acc, (closestLoopMem k n acc).Disc true none := by
  induction n with
  | zero => exact fun _ => rfl
  | succ n ih =>
    intro acc
    unfold closestLoopMem
    split
    · exact (bucketMem_disc _ n).bind fun b => (readMem_disc true b _).bind fun l => ih _
    · exact rfl

/-- every body follows the discipline, and the bodies under the read lock write nothing -/
theorem progMem_disc (env : Env) (op : RtOp) : (op.progMem env).Disc (!op.writes) none := by
  cases op with
  | add n => exact fun x y z => (solveMem_disc _ _).bind fun i => (addNodeMem_disc (addSplitMem_disc env _) n i).bind fun _ => rfl
  | find id => exact (solveMem_disc _ id).bind fun i => (bucketMem_disc _ i).bind fun b => (readMem_disc _ b _).bind fun _ => rfl
  | closest id k =>
    refine (solveMem_disc _ id).bind fun i => ?_
    split
    · exact rfl
    · exact (closestLoopMem_disc k _ []).bind fun l => rfl
  | size => exact fun _ => rfl
  | full =>
    intro last x k c
    dsimp only
    split
    · exact fun l => (bucketMem_disc _ l).bind fun b => (readMem_disc _ b _).bind fun _ => rfl
    · exact rfl

/-! ## sequential behaviour -/

/-- the table without pointers -/
def TMem.abs (m : TMem) : RouteTable :=
  { hnode := m.hnode, k := m.k, capacity := m.capacity, size := m.size, last := m.last, nodeMap := fun i => (m.nodeMap i).map m.heap }

/-- pointers point to allocated buckets, different keys to different ones -/
structure TMem.Wf (m : TMem) : Prop where
  alloc : ∀ i a, m.nodeMap i = some a → a < m.next
  inj : ∀ i j a, m.nodeMap i = some a → m.nodeMap j = some a → i = j

theorem TMem.new_wf (h : NodeInfo) (k c : Nat) : (TMem.new h k c).Wf := by
  constructor
  · intro i a hi
    simp only [TMem.new] at hi ⊢
    split at hi <;> cases hi
    exact Nat.zero_lt_one
  · intro i j a hi hj
    simp only [TMem.new] at hi hj
    split at hi <;> split at hj <;> simp_all

theorem TMem.new_abs (h : NodeInfo) (k c : Nat) : (TMem.new h k c).abs = RouteTable.new h k c := by
  unfold TMem.abs TMem.new RouteTable.new
  congr 1
  funext i
  by_cases hi : i = 0 <;> simp [hi]

theorem bucketMem_run {m : TMem} {i : Nat} {b : Bucket} (h : m.abs.bucket i = .ok b) :
    ∃ a, m.nodeMap i = some a ∧ m.heap a = b ∧ (bucketMem i).run m = (.ok a, m) := by
  unfold RouteTable.bucket TMem.abs at h
  cases ha : m.nodeMap i with
  | none => simp [ha] at h
  | some a =>
    simp only [ha, Option.map_some] at h
    exact ⟨a, rfl, by cases h; rfl, by simp [bucketMem, LProg.run, ha]⟩

theorem solveMem_run (id : Bytes) (m : TMem) : (solveMaxPreLenMem id).run m = (.ok (m.abs.solveMaxPreLen id), m) := by
  show LProg.run (if solvePrefixLen id m.hnode.id ≤ m.last then .ret (solvePrefixLen id m.hnode.id) else .getLast .ret) m =
    (.ok (if solvePrefixLen id m.hnode.id ≤ m.last then solvePrefixLen id m.hnode.id else m.last), m)
  split <;> rfl

theorem fullMem_run (a : Nat) (m : TMem) : (fullMem a).run m = (.ok (m.heap a).Full, m) := rfl
theorem sizeMem_run (a : Nat) (m : TMem) : (sizeMem a).run m = (.ok (m.heap a).Size, m) := rfl
theorem allMem_run (a : Nat) (m : TMem) : (allMem a).run m = (.ok (m.heap a).All, m) := rfl
theorem existMem_run (env : Env) (a : Nat) (n : NodeInfo) (m : TMem) : (existMem env a n).run m = (.ok ((m.heap a).Exist env n), m) := rfl
theorem incSizeMem_run (m : TMem) : incSizeMem.run m = (.ok (), { m with size := m.size + 1 }) := rfl

theorem addMem_run {a : Nat} {n : NodeInfo} {m : TMem} (hf : (m.heap a).Full = false) :
    (addMem a n).run m = (.ok true, { m with heap := upd m.heap a { m.heap a with nodes := (m.heap a).nodes ++ [n] } }) := by
  unfold addMem
  simp only [LProg.run_bind, fullMem_run, hf, Bool.false_eq_true, if_false, LProg.run]

theorem abs_write {m : TMem} (hw : m.Wf) {i a : Nat} (hi : m.nodeMap i = some a) (b : Bucket) :
    ({ m with heap := upd m.heap a b } : TMem).abs = m.abs.setBucket i b := by
  unfold TMem.abs RouteTable.setBucket
  congr 1
  funext j
  by_cases hj : j = i
  · subst hj; simp [hi]
  · simp only [upd_ne _ _ hj]
    cases hx : m.nodeMap j with
    | none => rfl
    | some a' =>
      have : a' ≠ a := fun e => hj (hw.inj j i a (by rw [hx, e]) hi)
      simp only [Option.map_some, upd_ne _ _ this]

/-- `P` computes `f`, where `f` succeeds -/
def ComputesMem (P : NodeInfo → LProg (Option Bytes)) (f : RouteTable → NodeInfo → RouteTable.AddRes) : Prop :=
  ∀ m n t' e, m.Wf → f m.abs n = .ok (t', e) → ∃ m', (P n).run m = (.ok e, m') ∧ m'.Wf ∧ m'.abs = t'

theorem addNodeMem_run {env : Env} {P : NodeInfo → LProg (Option Bytes)} {f : RouteTable → NodeInfo → RouteTable.AddRes} (hP : ComputesMem P f)
    {m : TMem} {t' : RouteTable} {n : NodeInfo} {i : Nat} {e : Option Bytes} (hw : m.Wf)
    (h : RouteTable.addNodeWith env f m.abs n i = .ok (t', e)) :
    ∃ m', (addNodeMem env P n i).run m = (.ok e, m') ∧ m'.Wf ∧ m'.abs = t' := by
  unfold RouteTable.addNodeWith at h
  cases hb : m.abs.bucket i with
  | ok b =>
    rw [hb] at h
    simp only [Res.bind_ok] at h
    obtain ⟨a, h1, h2, h3⟩ := bucketMem_run hb
    have hlast : m.abs.last = m.last := rfl
    unfold addNodeMem
    simp only [LProg.run_bind, h3, LProg.run]
    -- the end: bucket with room
    have tail : (decide (i ≥ m.abs.last) && !b.Exist env n && b.Full) = false →
        ∃ m', (do
          if ← fullMem a then pure (some b!"the bucket is full")
          else if !(← existMem env a n) then do
            if !(← addMem a n) then pure (some b!"the bucket is full")
            else do
              incSizeMem
              pure none
          else do
            incSizeMem
            pure none : LProg (Option Bytes)).run m = (.ok e, m') ∧ m'.Wf ∧ m'.abs = t' := by
      intro hno
      rw [hno] at h
      simp only [Bool.false_eq_true, if_false] at h
      simp only [LProg.run_bind, fullMem_run, h2]
      by_cases hf : b.Full = true
      · simp only [hf, if_true] at h ⊢
        cases h
        exact ⟨m, rfl, hw, rfl⟩
      · have hf : b.Full = false := by simpa using hf
        simp only [hf, Bool.false_eq_true, if_false, LProg.run_bind, existMem_run, h2] at h ⊢
        by_cases hx : b.Exist env n = true
        · simp only [hx, Bool.not_true, Bool.false_eq_true, if_false, LProg.run_bind, incSizeMem_run] at h ⊢
          cases h
          exact ⟨_, rfl, ⟨hw.alloc, hw.inj⟩, rfl⟩
        · have hx : b.Exist env n = false := by simpa using hx
          have hadd : b.Add n = ({ b with nodes := b.nodes ++ [n] }, true) := by simp [Bucket.Add, hf]
          simp only [hx, Bool.not_false, if_true, LProg.run_bind, addMem_run (h2.symm ▸ hf), hadd, Bool.not_true, Bool.false_eq_true, if_false,
            incSizeMem_run] at h ⊢
          cases h
          refine ⟨_, rfl, ⟨hw.alloc, hw.inj⟩, ?_⟩
          have := abs_write hw h1 { b with nodes := b.nodes ++ [n] }
          rw [← this, h2]
          rfl
    by_cases hl : i ≥ m.last
    · simp only [hl, if_true, LProg.run_bind, existMem_run, h2] at tail ⊢
      by_cases hx : b.Exist env n = true
      · simp only [hx, Bool.not_true, Bool.false_eq_true, if_false, LProg.run_pure] at tail ⊢
        exact tail (by simp)
      · have hx : b.Exist env n = false := by simpa using hx
        by_cases hf : b.Full = true
        · have hd : decide (i ≥ m.abs.last) = true := decide_eq_true hl
          simp only [hx, hf, hd, Bool.not_false, Bool.and_self, if_true, fullMem_run, h2] at h ⊢
          exact hP _ _ _ _ hw h
        · have hf : b.Full = false := by simpa using hf
          simp only [hx, hf, Bool.not_false, Bool.and_false, Bool.false_eq_true, if_true, if_false, LProg.run_bind, fullMem_run, h2] at tail ⊢
          exact tail trivial
    · have hd : decide (i ≥ m.abs.last) = false := decide_eq_false hl
      simp only [hl, hd, Bool.false_and, Bool.false_eq_true, if_false, LProg.run_pure, LProg.run_bind] at tail ⊢
      exact tail trivial
  | err _ => rw [hb] at h; cases h
  | panic _ => rw [hb] at h; cases h
  | diverge => rw [hb] at h; cases h

theorem reAddMem_run {env : Env} {P : NodeInfo → LProg (Option Bytes)} {f : RouteTable → NodeInfo → RouteTable.AddRes} (hP : ComputesMem P f)
    (l : List NodeInfo) {m : TMem} {t' : RouteTable} (hw : m.Wf) (h : RouteTable.reAdd env f m.abs l = .ok t') :
    ∃ m', (reAddMem env P l).run m = (.ok (), m') ∧ m'.Wf ∧ m'.abs = t' := by
  induction l generalizing m with
  | nil => cases h; exact ⟨m, rfl, hw, rfl⟩
  | cons n r ih =>
    unfold RouteTable.reAdd at h
    cases h1 : RouteTable.addNodeWith env f m.abs n (m.abs.solveMaxPreLen n.id) with
    | ok x =>
      obtain ⟨t1, e⟩ := x
      rw [h1] at h
      obtain ⟨m1, a1, a2, a3⟩ := addNodeMem_run hP hw h1
      obtain ⟨m2, b1, b2, b3⟩ := ih a2 (by rw [a3]; exact h)
      exact ⟨m2, by simp only [reAddMem, LProg.run_bind, solveMem_run, a1, b1], b2, b3⟩
    | err _ => rw [h1] at h; cases h
    | panic _ => rw [h1] at h; cases h
    | diverge => rw [h1] at h; cases h

theorem countLoopMem_run (n i : Nat) (m : TMem) {z : Nat} (h : m.abs.countLoop n i = .ok z) : (countLoopMem n i).run m = (.ok z, m) := by
  induction n generalizing i z with
  | zero => cases h; rfl
  | succ n ih =>
    simp only [RouteTable.countLoop] at h
    cases hb : m.abs.bucket i with
    | ok b =>
      rw [hb] at h
      simp only [Res.bind_ok] at h
      obtain ⟨a, h1, h2, h3⟩ := bucketMem_run hb
      cases hc : m.abs.countLoop n (i + 1) with
      | ok c =>
        rw [hc] at h
        cases h
        simp only [countLoopMem, LProg.run_bind, h3, sizeMem_run, ih _ hc, LProg.run_pure, h2]
      | err _ => rw [hc] at h; cases h
      | panic _ => rw [hc] at h; cases h
      | diverge => rw [hc] at h; cases h
    | err _ => rw [hb] at h; cases h
    | panic _ => rw [hb] at h; cases h
    | diverge => rw [hb] at h; cases h

theorem addSplitMem_run (env : Env) (fuel : Nat) : ComputesMem (addSplitMem env fuel) (RouteTable.addSplit env fuel) := by
  induction fuel with
  | zero => intro m n t' e hw h; cases h
  | succ f ih =>
    intro m n t' e hw h
    unfold RouteTable.addSplit at h
    unfold addSplitMem
    simp only [LProg.run]
    have hl : m.abs.last = m.last := rfl
    have hcap : m.abs.capacity = m.capacity := rfl
    split at h
    · rename_i hc
      rw [if_pos (show m.last ≥ m.capacity from hc)]; cases h; exact ⟨m, rfl, hw, rfl⟩
    · rename_i hc
      rw [if_neg (show ¬ m.last ≥ m.capacity from hc)]
      cases hb : m.abs.bucket m.abs.last with
      | ok src =>
        rw [hb] at h
        simp only [Res.bind_ok] at h
        obtain ⟨a, h1, h2, h3⟩ := bucketMem_run hb
        rw [hl] at h1 h3
        simp only [LProg.run_bind, LProg.run, h3, sizeMem_run, allMem_run, h2]
        have ha := hw.alloc _ _ h1
        have e1 : a ≠ m.next := by omega
        have e2 : a ≠ m.next + 1 := by omega
        simp only [upd_ne _ _ e1, upd_ne _ _ e2, h2]
        generalize hT : RouteTable.setBucket _ _ _ = T at h
        generalize hM : TMem.mk _ _ _ _ _ _ _ _ = M
        have hMw : M.Wf := by
          subst hM
          constructor
          · intro i b hi
            simp only [upd] at hi ⊢
            split at hi
            · cases hi; omega
            · split at hi
              · cases hi; omega
              · have := hw.alloc _ _ hi; omega
          · intro i j b hi hj
            simp only [upd] at hi hj
            have lt := fun i' => hw.alloc i' b
            split at hi
            · cases hi
              split at hj
              · omega
              · split at hj
                · have := Option.some.inj hj; omega
                · have := lt _ hj; omega
            · split at hi
              · cases hi
                split at hj
                · have := Option.some.inj hj; omega
                · split at hj
                  · omega
                  · have := lt _ hj; omega
              · split at hj
                · cases hj; have := lt _ hi; omega
                · split at hj
                  · cases hj; have := lt _ hi; omega
                  · exact hw.inj i j b hi hj
        have hMa : M.abs = T := by
          subst hM hT
          unfold TMem.abs RouteTable.setBucket
          simp only
          congr 1
          funext i
          simp only [upd]
          split
          · simp only [Option.map_some]
            rw [upd_ne _ _ (by omega), upd_same]
          · split
            · simp
            · cases hx : m.nodeMap i with
              | none => rfl
              | some b =>
                have := hw.alloc _ _ hx
                simp only [Option.map_some]
                rw [upd_ne _ _ (by omega), upd_ne _ _ (by omega)]
        rw [← hMa] at h
        cases hr : RouteTable.reAdd env (RouteTable.addSplit env f) M.abs src.All with
        | ok t2 =>
          rw [hr] at h
          simp only [Res.bind_ok] at h
          obtain ⟨m2, r1, r2, r3⟩ := reAddMem_run ih _ hMw hr
          simp only [r1, solveMem_run]
          rw [← r3] at h
          cases hA : RouteTable.addNodeWith env (RouteTable.addSplit env f) m2.abs n (m2.abs.solveMaxPreLen n.id) with
          | ok x =>
            obtain ⟨t3, e3⟩ := x
            rw [hA] at h
            simp only [Res.bind_ok] at h
            obtain ⟨m3, s1, s2, s3⟩ := addNodeMem_run ih r2 hA
            unfold RouteTable.nodeCount at h
            cases hc : t3.countLoop (t3.last + 1) 0 with
            | ok z =>
              rw [hc] at h; cases h
              rw [← s3] at hc
              have hc : m3.abs.countLoop (m3.last + 1) 0 = .ok z := hc
              exact ⟨m3, by simp only [s1, countLoopMem_run _ _ _ hc, LProg.run_pure], s2, s3⟩
            | err _ => rw [hc] at h; cases h
            | panic _ => rw [hc] at h; cases h
            | diverge => rw [hc] at h; cases h
          | err _ => rw [hA] at h; cases h
          | panic _ => rw [hA] at h; cases h
          | diverge => rw [hA] at h; cases h
        | err _ => rw [hr] at h; cases h
        | panic _ => rw [hr] at h; cases h
        | diverge => rw [hr] at h; cases h
      | err _ => rw [hb] at h; cases h
      | panic _ => rw [hb] at h; cases h
      | diverge => rw [hb] at h; cases h

theorem bucketMem_none {m : TMem} {i : Nat} : (∃ b, m.abs.bucket i = .ok b) ∨
    (m.abs.bucket i = .panic .runtime ∧ (bucketMem i).run m = (.panic .runtime, m)) := by
  unfold RouteTable.bucket TMem.abs
  cases ha : m.nodeMap i with
  | none => exact .inr ⟨by simp [ha], by simp [bucketMem, LProg.run, ha]⟩
  | some a => exact .inl ⟨m.heap a, by simp only [ha, Option.map_some]⟩

theorem closestLoopMem_run (k : Int) (n : Nat) (acc : List NodeInfo) (m : TMem) :
    (closestLoopMem k n acc).run m = (m.abs.closestLoop k n acc, m) := by
  induction n generalizing acc with
  | zero => rfl
  | succ n ih =>
    simp only [closestLoopMem, RouteTable.closestLoop]
    split
    · simp only [LProg.run_bind]
      rcases bucketMem_none (m := m) (i := n) with ⟨b, hb⟩ | ⟨h1, h2⟩
      · obtain ⟨a, h1, h2, h3⟩ := bucketMem_run hb
        simp only [h3, allMem_run, h2, ih, hb, Res.bind_ok]
      · simp only [h1, h2]; rfl
    · rfl

theorem progMem_add {env : Env} {m : TMem} {t' : RouteTable} {n : NodeInfo} {e : Option Bytes} (hw : m.Wf)
    (h : m.abs.AddNode env n = .ok (t', e)) : ∃ m', ((RtOp.add n).progMem env).run m = (.ok (.err e), m') ∧ m'.Wf ∧ m'.abs = t' := by
  obtain ⟨m', h1, h2, h3⟩ := addNodeMem_run (addSplitMem_run env _) hw h
  refine ⟨m', ?_, h2, h3⟩
  have hc : m.abs.capacity = m.capacity := rfl
  rw [hc] at h1
  simp only [RtOp.progMem, LProg.run, LProg.run_bind, solveMem_run, h1, LProg.run_pure]

theorem progMem_read {env : Env} (m : TMem) (op : RtOp) (h : op.writes = false) :
    (op.progMem env).run m = (op.answer env m.abs, m) := by
  cases op with
  | add n => cases h
  | find id =>
    simp only [RtOp.progMem, RtOp.answer, LProg.run_bind, solveMem_run, RouteTable.Find]
    rcases bucketMem_none (m := m) (i := m.abs.solveMaxPreLen id) with ⟨b, hb⟩ | ⟨h1, h2⟩
    · obtain ⟨a, h1, h2, h3⟩ := bucketMem_run hb
      simp only [h3, allMem_run, h2, hb, Res.bind_ok]; rfl
    · simp only [h1, h2]; rfl
  | closest id k =>
    simp only [RtOp.progMem, RtOp.answer, LProg.run_bind, solveMem_run, RouteTable.FindClosest]
    split
    · rfl
    · simp only [LProg.run_bind, closestLoopMem_run]
      cases m.abs.closestLoop k (m.abs.solveMaxPreLen id + 1) [] <;> rfl
  | size => rfl
  | full =>
    simp only [RtOp.progMem, RtOp.answer, LProg.run, RouteTable.Full]
    by_cases hc : m.last ≥ m.capacity
    · rw [if_pos hc, if_pos (show m.abs.last ≥ m.abs.capacity from hc)]
      simp only [LProg.run, LProg.run_bind]
      rcases bucketMem_none (m := m) (i := m.last) with ⟨b, hb⟩ | ⟨h1, h2⟩
      · obtain ⟨a, h1, h2, h3⟩ := bucketMem_run hb
        have hb : m.abs.bucket m.abs.last = .ok b := hb
        simp only [h3, fullMem_run, h2, hb, Res.bind_ok]; rfl
      · have h1 : m.abs.bucket m.abs.last = .panic .runtime := h1
        simp only [h1, h2]; rfl
    · rw [if_neg hc, if_neg (show ¬ m.abs.last ≥ m.abs.capacity from hc)]
      rfl

end P2P

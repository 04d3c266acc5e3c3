import Verif.Base
/-! # Specification of a concurrent map: linearizability

Independent of the model: operations, observable histories (calls and returns), and what it means that a
history can be explained by a sequential map, every operation taking effect at one moment between its
call and its return. -/
namespace P2P

inductive SmOp (V : Type) where
  | put (k : Bytes) (v : V)
  | get (k : Bytes)
  | del (k : Bytes)

inductive SmRes (V : Type) where
  /-- `Put` and `Del` return nothing -/
  | done
  /-- `Get`: `none` for `ok = false` -/
  | got (v : Option V)

/-- the sequential map -/
def smApply {V : Type} (m : Bytes → Option V) : SmOp V → (Bytes → Option V) × SmRes V
  | .put k v => (fun x => if x = k then some v else m x, .done)
  | .get k => (m, .got (m k))
  | .del k => (fun x => if x = k then none else m x, .done)

/-- An event: call number `c` starts, takes effect, or returns. Only calls and returns are observable. -/
inductive SmEv (V : Type) where
  | call (c : Nat) (op : SmOp V)
  | lin (c : Nat) (op : SmOp V) (r : SmRes V)
  | ret (c : Nat) (r : SmRes V)

def SmEv.id {V : Type} : SmEv V → Nat
  | .call c _ => c
  | .lin c _ _ => c
  | .ret c _ => c

/-- a moment of effect, which nobody sees -/
def SmEv.isLin {V : Type} : SmEv V → Bool
  | .lin _ _ _ => true
  | _ => false

/-- the observable part of a history -/
def smObs {V : Type} (h : List (SmEv V)) : List (SmEv V) := h.filter (fun e => !e.isLin)

/-- The operations that have taken effect, in order, give the map `m` from the map `m0`, and each has the result the
sequential map gives. -/
inductive SmLegal {V : Type} (m0 : Bytes → Option V) : List (SmEv V) → (Bytes → Option V) → Prop where
  | nil : SmLegal m0 [] m0
  | call {h m} (c : Nat) (op : SmOp V) : SmLegal m0 h m → SmLegal m0 (h ++ [.call c op]) m
  | ret {h m} (c : Nat) (r : SmRes V) : SmLegal m0 h m → SmLegal m0 (h ++ [.ret c r]) m
  | lin {h m} (c : Nat) (op : SmOp V) : SmLegal m0 h m → SmLegal m0 (h ++ [.lin c op (smApply m op).2]) (smApply m op).1

/-- what the events of one call look like: called, then (perhaps) effective, then (perhaps) returned with the result it had when
it took effect -/
inductive SmCallOk {V : Type} (c : Nat) : List (SmEv V) → Prop where
  | no : SmCallOk c []
  | called (op : SmOp V) : SmCallOk c [.call c op]
  | effective (op : SmOp V) (r : SmRes V) : SmCallOk c [.call c op, .lin c op r]
  | returned (op : SmOp V) (r : SmRes V) : SmCallOk c [.call c op, .lin c op r, .ret c r]

/-- **Linearizable**: moments of effect can be inserted into the observable history so that each call takes effect exactly once
between its call and its return (if it returns), and the results are those of a sequential map that starts empty. -/
def Linearizable {V : Type} (obs : List (SmEv V)) : Prop :=
  ∃ h m, smObs h = obs ∧ SmLegal (fun _ => none) h m ∧ ∀ c, SmCallOk c (h.filter (fun e => e.id == c))

end P2P

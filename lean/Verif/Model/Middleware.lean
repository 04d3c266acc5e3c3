import Verif.Base
/-! # Model of dht/krpc/middleware.go: the handler chain -/
namespace P2P

/-- Result of running code on a shared state `σ`. -/
inductive Out (σ α : Type) where
  | ok (a : α) (s : σ)
  | panic (p : Panic) (s : σ)
  /-- step budget exhausted (proved not to happen) -/
  | diverge

/-- Code running on a shared state. -/
abbrev GoM (σ α : Type) := σ → Out σ α

namespace GoM
def pure {σ α : Type} (a : α) : GoM σ α := fun s => .ok a s
def bind {σ α β : Type} (m : GoM σ α) (f : α → GoM σ β) : GoM σ β := fun s =>
  match m s with
  | .ok a s' => f a s'
  | .panic p s' => .panic p s'
  | .diverge => .diverge
instance {σ : Type} : Monad (GoM σ) where
  pure := GoM.pure
  bind := GoM.bind
def panic {σ α : Type} (p : Panic) : GoM σ α := fun s => .panic p s
def get {σ : Type} : GoM σ σ := fun s => .ok s s
def modify {σ : Type} (f : σ → σ) : GoM σ Unit := fun s => .ok () (f s)
/-- a call that cannot return an error value (only panics) -/
def lift {σ α : Type} (r : Res α) : GoM σ α := fun s =>
  match r with
  | .ok a => .ok a s
  | .err _ => .panic .runtime s
  | .panic p => .panic p s
  | .diverge => .diverge
/-- `defer func() { if err := recover(); err != nil { ... } }()` around `m` -/
def recoverWith {σ α : Type} (m : GoM σ α) (h : Panic → GoM σ α) : GoM σ α := fun s =>
  match m s with
  | .panic p s' => h p s'
  | r => r

@[simp] theorem bind_apply {σ α β : Type} (m : GoM σ α) (f : α → GoM σ β) (s : σ) :
    (m >>= f) s = (match m s with
      | .ok a s' => f a s'
      | .panic p s' => .panic p s'
      | .diverge => .diverge) := rfl
@[simp] theorem pure_apply {σ α : Type} (a : α) (s : σ) : (Pure.pure a : GoM σ α) s = .ok a s := rfl
@[simp] theorem panic_apply {σ α : Type} (p : Panic) (s : σ) : (GoM.panic p : GoM σ α) s = .panic p s := rfl
@[simp] theorem get_apply {σ : Type} (s : σ) : (GoM.get : GoM σ σ) s = .ok s s := rfl
@[simp] theorem modify_apply {σ : Type} (f : σ → σ) (s : σ) : (GoM.modify f : GoM σ Unit) s = .ok () (f s) := rfl
@[simp] theorem lift_ok {σ α : Type} (a : α) (s : σ) : (GoM.lift (.ok a) : GoM σ α) s = .ok a s := rfl
@[simp] theorem lift_panic {σ α : Type} (p : Panic) (s : σ) :
    (GoM.lift (.panic p : Res α) : GoM σ α) s = .panic p s := rfl
end GoM

/-- A handler: terminating code that works on the shared state `σ` (everything reachable from the context
except `index` and `chain`), may look at it, may panic, and may call `ctx.Next()` at any point, any number
of times. -/
inductive Prog (σ : Type) where
  /-- return -/
  | ret
  /-- some code without a call of `Next`; it may panic -/
  | eff (f : GoM σ Unit) (k : Prog σ)
  /-- branch on the state -/
  | ask (k : σ → Prog σ)
  /-- `ctx.Next()` -/
  | next (k : Prog σ)

/-- dht/krpc/middleware.go:5-11 (`index` and the rest of the context); `started` is a ghost: the chain
positions of the handlers started so far. -/
structure ChainSt (σ : Type) where
  index : Int
  started : List Nat
  s : σ

/-- body of a handler; `nextCall` is the meaning of `ctx.Next()` -/
def runProg {σ : Type} (nextCall : GoM (ChainSt σ) Unit) : Prog σ → GoM (ChainSt σ) Unit
  | .ret => fun c => .ok () c
  | .eff f k => fun c =>
    match f c.s with
    | .ok _ s' => runProg nextCall k { c with s := s' }
    | .panic p s' => .panic p { c with s := s' }
    | .diverge => .diverge
  | .ask k => fun c => runProg nextCall (k c.s) c
  | .next k => fun c =>
    match nextCall c with
    | .ok _ c' => runProg nextCall k c'
    | .panic p c' => .panic p c'
    | .diverge => .diverge

mutual
/-- dht/krpc/middleware.go:23-28. The first argument bounds the recursion depth. -/
def chainNext {σ : Type} (chain : List (Prog σ)) : Nat → GoM (ChainSt σ) Unit
  | 0 => fun _ => .diverge
  | f + 1 => fun c => chainLoop chain f { c with index := c.index + 1 }
/-- the loop dht/krpc/middleware.go:25-27 -/
def chainLoop {σ : Type} (chain : List (Prog σ)) : Nat → GoM (ChainSt σ) Unit
  | 0 => fun _ => .diverge
  | f + 1 => fun c =>
    if c.index < chain.length then
      match chain[c.index.toNat]? with
      | none => .panic .runtime c
      | some h =>
        match runProg (chainNext chain f) h { c with started := c.started ++ [c.index.toNat] } with
        | .ok _ c' => chainLoop chain f { c' with index := c'.index + 1 }
        | .panic p c' => .panic p c'
        | .diverge => .diverge
    else .ok () c
end

/-- `NewReqContext(chain, ...)` followed by `ctx.Next()` (dht/krpc/server.go:65-80, middleware.go:13-21) -/
def runChain {σ : Type} (chain : List (Prog σ)) (s : σ) : Out (ChainSt σ) Unit :=
  chainNext chain (2 * chain.length + 2) { index := -1, started := [], s := s }

end P2P

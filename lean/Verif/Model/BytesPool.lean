import Verif.Base
import Verif.Lts
/-! # Model of misc/bytespool.go -/
namespace P2P

/-- A Go `[]byte` header: the array it points into, where it starts, `len` and `cap`. -/
structure Slice where
  arr : Nat
  off : Nat
  len : Nat
  cap : Nat
deriving DecidableEq, Repr

/-- misc/bytespool.go:7-12. `chans` is the `sync.Map` from widths to channels, each given by its buffered
contents (oldest first); `fresh` stands for Go's allocator: arrays `fresh`, `fresh + 1`, ... are unused. -/
structure BPool where
  chans : List (Int × List Slice)
  defaultWidth : Int
  maxSize : Nat
  fresh : Nat
deriving DecidableEq, Repr

/-- contents of the channel stored for width `i`, `none` if there is no channel -/
def BPool.chan (p : BPool) (i : Int) : Option (List Slice) := p.chans.lookup i

/-- misc/bytespool.go:16-24; a negative channel size makes `make` panic -/
def NewBytesPool (maxSize width : Int) (fresh : Nat) : Res BPool :=
  if maxSize < 0 then .panic .runtime
  else .ok { chans := [(width, [])], defaultWidth := width, maxSize := maxSize.toNat, fresh }

/-- misc/bytespool.go:64-71. Channels are never removed from the map, so `Load` followed by `LoadOrStore`
has the effect of `LoadOrStore` alone. -/
def BPool.loadOrStore (p : BPool) (i : Int) : BPool :=
  match p.chan i with
  | some _ => p
  | none => { p with chans := (i, []) :: p.chans }

/-- replace the contents of an existing channel -/
def setChan : List (Int × List Slice) → Int → List Slice → List (Int × List Slice)
  | [], _, _ => []
  | (j, c) :: r, i, c' => if j = i then (j, c') :: r else (j, c) :: setChan r i c'

/-- the `select` misc/bytespool.go:29-35, 40-46 on the channel for width `size`: receive the oldest buffer,
or allocate one if the channel is empty (`make` panics for a negative size) -/
def BPool.selectGet (p : BPool) (size : Int) : Res (Slice × BPool) :=
  match p.chan size with
  | some (b :: r) => .ok (b, { p with chans := setChan p.chans size r })
  | _ =>
    if size < 0 then .panic .runtime
    else .ok ({ arr := p.fresh, off := 0, len := size.toNat, cap := size.toNat }, { p with fresh := p.fresh + 1 })

/-- misc/bytespool.go:39-48 -/
def BPool.GetBySize (p : BPool) (size : Int) : Res (Slice × BPool) := (p.loadOrStore size).selectGet size

/-- misc/bytespool.go:28-37 -/
def BPool.Get (p : BPool) : Res (Slice × BPool) := p.GetBySize p.defaultWidth

/-- the `select` misc/bytespool.go:54-60: send `b[:cap(b)]`, or drop it if the channel is full -/
def BPool.selectPut (p : BPool) (b : Slice) : BPool :=
  match p.chan b.cap with
  | some c => if c.length < p.maxSize then { p with chans := setChan p.chans b.cap (c ++ [{ b with len := b.cap }]) } else p
  | none => p

/-- misc/bytespool.go:52-61 -/
def BPool.Put (p : BPool) (b : Slice) : BPool := (p.loadOrStore b.cap).selectPut b

/-! ## Several goroutines -/

/-- Where a goroutine is: outside the pool, or between `loadOrStore` and the `select`. -/
inductive PoolPc where
  | idle
  | getting (size : Int)
  | putting (b : Slice)
deriving DecidableEq

/-- A pool used by goroutines. Ghosts: `held` – who got which array and did not give it back or away yet;
`log` – the completed `GetBySize` calls with their results. -/
structure PoolSt where
  pool : BPool
  pc : Nat → PoolPc
  held : List (Nat × Nat)
  log : List (Int × Slice)

/-- a new pool, nobody inside -/
def PoolSt.init (s : PoolSt) : Prop :=
  (∃ maxSize width, NewBytesPool maxSize width 0 = .ok s.pool) ∧ (∀ g, s.pc g = .idle) ∧ s.held = [] ∧ s.log = []

/-- One step of goroutine `g`. `Put` may be called with any slice whatsoever. -/
inductive PoolStep : PoolSt → PoolSt → Prop where
  /-- `GetBySize(size)` (or `Get`, with the default width) up to the channel -/
  | getLoad {s : PoolSt} (g : Nat) (size : Int) : s.pc g = .idle →
      PoolStep s { s with pool := s.pool.loadOrStore size, pc := upd s.pc g (.getting size) }
  | getSelect {s : PoolSt} {g : Nat} {size : Int} {b : Slice} {p : BPool} : s.pc g = .getting size →
      s.pool.selectGet size = .ok (b, p) →
      PoolStep s { s with pool := p, pc := upd s.pc g .idle, held := (g, b.arr) :: s.held, log := s.log ++ [(size, b)] }
  /-- the panic of `make`; the goroutine leaves the pool -/
  | getPanic {s : PoolSt} {g : Nat} {size : Int} : s.pc g = .getting size → s.pool.selectGet size = .panic .runtime →
      PoolStep s { s with pc := upd s.pc g .idle }
  /-- `Put(b)` up to the channel -/
  | putLoad {s : PoolSt} (g : Nat) (b : Slice) : s.pc g = .idle →
      PoolStep s { s with pool := s.pool.loadOrStore b.cap, pc := upd s.pc g (.putting b) }
  | putSelect {s : PoolSt} {g : Nat} {b : Slice} : s.pc g = .putting b →
      PoolStep s { s with pool := s.pool.selectPut b, pc := upd s.pc g .idle, held := s.held.erase (g, b.arr) }
  /-- a goroutine allocates a buffer itself -/
  | alloc {s : PoolSt} (g : Nat) : s.pc g = .idle →
      PoolStep s { s with pool := { s.pool with fresh := s.pool.fresh + 1 }, held := (g, s.pool.fresh) :: s.held }
  /-- a goroutine hands a buffer over to another one -/
  | handOver {s : PoolSt} (g g' arr : Nat) : s.pc g = .idle → (g, arr) ∈ s.held →
      PoolStep s { s with held := (g', arr) :: s.held.erase (g, arr) }

/-- The discipline: a goroutine calls `Put` only with a slice of a buffer it holds. -/
def PutsOwn (s t : PoolSt) : Prop :=
  ∀ g b, s.pc g = .idle → t.pc g = .putting b → (g, b.arr) ∈ s.held

/-- steps of goroutines that respect the discipline -/
def OwnStep (s t : PoolSt) : Prop := PoolStep s t ∧ PutsOwn s t

end P2P

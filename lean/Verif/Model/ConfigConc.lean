import Verif.Model.Config
import Verif.Lts
/-! # Accesses to the configuration by several goroutines

`configMap` (config/config.go:20) is a Go map without a lock; overlapping accesses of which one is a write are a data race that the Go runtime may
answer with the end of the process. Here every access takes time: it begins, looks the section up, and on a miss decodes it with viper (which has no
lock either) and stores it. Which goroutine accesses what, and which goroutines it starts, is given by lists; `crawlerAccesses` are those of the
program. Simplification: what goroutines do between their accesses is left out. -/
namespace P2P

/-- what a goroutine does with the configuration -/
inductive CfgAct where
  | get (k : CfgKey)
  /-- `go f()`: goroutine number `g` is started -/
  | spawn (g : Nat)
deriving DecidableEq

/-- where a goroutine is in `getSubConfig` -/
inductive CfgAt where
  | out
  /-- in the look-up, config/config.go:107 -/
  | reading (k : CfgKey)
  /-- in `viper.UnmarshalKey`, config/config.go:110 -/
  | decoding (k : CfgKey)
  /-- in the assignment, config/config.go:114 -/
  | writing (k : CfgKey)
deriving DecidableEq

structure CcSt where
  cached : CfgKey → Bool
  /-- goroutines that have been started: where they are and what they have still to do -/
  gor : Nat → Option (CfgAt × List CfgAct)
  /-- an error of viper made a goroutine panic (config/config.go:111-112) -/
  dead : Bool

def CcInit (code : Nat → List CfgAct) (s : CcSt) : Prop :=
  (∀ k, s.cached k = false) ∧ s.gor 0 = some (.out, code 0) ∧ (∀ g, g ≠ 0 → s.gor g = none) ∧ s.dead = false

inductive CcStep (code : Nat → List CfgAct) : CcSt → CcSt → Prop where
  /-- config/config.go:105 -/
  | call {s} (g : Nat) (k : CfgKey) (r : List CfgAct) : s.dead = false → s.gor g = some (.out, .get k :: r) →
      CcStep code s { s with gor := upd s.gor g (some (.reading k, r)) }
  /-- config/config.go:107-109 -/
  | hit {s} (g : Nat) (k : CfgKey) (r : List CfgAct) : s.dead = false → s.gor g = some (.reading k, r) → s.cached k = true →
      CcStep code s { s with gor := upd s.gor g (some (.out, r)) }
  | miss {s} (g : Nat) (k : CfgKey) (r : List CfgAct) : s.dead = false → s.gor g = some (.reading k, r) → s.cached k = false →
      CcStep code s { s with gor := upd s.gor g (some (.decoding k, r)) }
  /-- config/config.go:110 -/
  | decoded {s} (g : Nat) (k : CfgKey) (r : List CfgAct) : s.dead = false → s.gor g = some (.decoding k, r) →
      CcStep code s { s with gor := upd s.gor g (some (.writing k, r)) }
  /-- config/config.go:111-112 -/
  | failed {s} (g : Nat) (k : CfgKey) (r : List CfgAct) : s.dead = false → s.gor g = some (.decoding k, r) → CcStep code s { s with dead := true }
  /-- config/config.go:114-115 -/
  | stored {s} (g : Nat) (k : CfgKey) (r : List CfgAct) : s.dead = false → s.gor g = some (.writing k, r) →
      CcStep code s { s with cached := upd s.cached k true, gor := upd s.gor g (some (.out, r)) }
  /-- `go f()` -/
  | go {s} (g h : Nat) (r : List CfgAct) : s.dead = false → s.gor g = some (.out, .spawn h :: r) → s.gor h = none →
      CcStep code s { s with gor := upd (upd s.gor h (some (.out, code h))) g (some (.out, r)) }

/-- the accesses of the crawler. Goroutine 0 initialises the packages (dht/dht.go:12, dht/fetchtorrent.go:14), runs `main` (main.go:10) and the root
command (cmd/root.go:43-50); 1 is `dht.Run` (dht/dht.go:35, dht/krpc/server.go:38); 2 is `fetchTorrent` (dht/fetchtorrent.go:18). No other goroutine
reads the configuration. -/
def crawlerAccesses : Nat → List CfgAct
  | 0 => [.get .dht, .get .fetchTorrent, .get .logger, .get .pprof, .get .dht, .spawn 1]
  | 1 => [.spawn 2, .get .dht]
  | 2 => [.get .fetchTorrent]
  | _ => []

end P2P

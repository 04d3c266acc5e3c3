import Verif.Base
/-! # Model of config/config.go and of the places that read the configuration

The settings viper holds are an opaque value of type `S`; what `viper.UnmarshalKey` makes of a section is the parameter `view`
(`none`: an error). Section values are opaque (`V`); the code returns a pointer to a cached struct that nobody modifies. -/
namespace P2P

/-- config/config.go:14-17 -/
inductive CfgKey where
  | dht
  | fetchTorrent
  | pprof
  | logger
deriving DecidableEq, Repr

/-- what `viper.ReadInConfig` does (config/config.go:73) -/
inductive ReadOut (S : Type) where
  | loaded (s : S)
  /-- `ConfigFileNotFoundError`: the settings stay as they are; does `SafeWriteConfig` (line 81) succeed? -/
  | notFound (writeOk : Bool)
  /-- any other error -/
  | failed

structure CfgSt (S V : Type) where
  settings : S
  /-- `configMap`, config/config.go:20 -/
  cache : CfgKey → Option V

/-- config/config.go:70-87; `none` is a panic -/
def ResetConfig {S V : Type} (r : ReadOut S) (st : CfgSt S V) : Option (CfgSt S V) :=
  match r with
  | .loaded s => some { st with settings := s }
  | .notFound true => some st
  | .notFound false => none
  | .failed => none

/-- config/config.go:105-116; `none` is a panic -/
def getSubConfig {S V : Type} (view : S → CfgKey → Option V) (k : CfgKey) (st : CfgSt S V) : Option (V × CfgSt S V) :=
  match st.cache k with
  | some v => some (v, st)
  | none =>
    match view st.settings k with
    | none => none
    | some v => some (v, { st with cache := fun x => if x = k then some v else st.cache x })

/-- an operation on the package -/
inductive CfgOp (S : Type) where
  /-- `DhtConfig`, `FetchTorrentConfig`, `PProfConfig` or `LoggerConfig`, config/config.go:89-103 -/
  | access (k : CfgKey)
  | reset (r : ReadOut S)

/-- state after an operation; a caller may recover a panic, which leaves the state as it was -/
def cfgAfter {S V : Type} (view : S → CfgKey → Option V) (st : CfgSt S V) : CfgOp S → CfgSt S V
  | .access k => match getSubConfig view k st with
    | some (_, st') => st'
    | none => st
  | .reset r => (ResetConfig r st).getD st

/-- state after a history -/
def cfgRun {S V : Type} (view : S → CfgKey → Option V) (st : CfgSt S V) (h : List (CfgOp S)) : CfgSt S V :=
  h.foldl (cfgAfter view) st

/-- what the program has read when it runs -/
structure Started (V : Type) where
  /-- the port and bootstrap nodes: dht/dht.go:12 and cmd/root.go:47 -/
  port : V
  bootstrap : V
  /-- dht/krpc/server.go:38 -/
  krpcPool : V
  /-- dht/fetchtorrent.go:14 and 18 -/
  queue : V
  fetchPool : V
  /-- cmd/root.go:43 -/
  pprof : V
  /-- main.go:10 -/
  logger : V

/-- cmd/root.go:38-41: the file given with `--config` is loaded if its name is not empty -/
def resetFlag {S V : Type} (flag : Option (ReadOut S)) (st : CfgSt S V) : Option (CfgSt S V) :=
  match flag with
  | some r => ResetConfig r st
  | none => some st

/-- The configuration accesses of a run of the program, in order: package `config` (config/config.go:46-68), package `dht`
(dht/dht.go:12, dht/fetchtorrent.go:14), `main` (main.go:10), the root command (cmd/root.go:37-52; `flag = none` when the
`--config` argument is empty), and the goroutine `dht.Run` (dht/fetchtorrent.go:18, dht/krpc/server.go:38). `none`: the
program panics. -/
def startProgram {S V : Type} (view : S → CfgKey → Option V) (defaults : S) (first : ReadOut S) (flag : Option (ReadOut S)) :
    Option (Started V) := do
  let st ← ResetConfig first { settings := defaults, cache := fun _ => none }
  let (port, st) ← getSubConfig view .dht st
  let (queue, st) ← getSubConfig view .fetchTorrent st
  let (logger, st) ← getSubConfig view .logger st
  let st ← resetFlag flag st
  let (pprof, st) ← getSubConfig view .pprof st
  let (bootstrap, st) ← getSubConfig view .dht st
  let (fetchPool, st) ← getSubConfig view .fetchTorrent st
  let (krpcPool, _) ← getSubConfig view .dht st
  some { port, bootstrap, krpcPool, queue, fetchPool, pprof, logger }

end P2P

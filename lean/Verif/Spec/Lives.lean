import Verif.Lemmas.SystemRefine
/-! # Lives of the program -/
namespace P2P

/-- one life of the process: the outside world, the configured port, and the state in which it ended (in which it was killed, if it was killed) -/
structure Life where
  S : SysEnv
  port : Int
  s : SysSt

/-- `Lives fs0 l fs`: the program has been started, and has ended in whatever way (orderly, by a crash, killed at any moment), once for every entry of `l`, one after the other; `fs0` are the files
before, `fs` those afterwards. Nothing but the files goes from one life to the next: the program reads nothing back at its start (cmd/root.go:36-52). A file holds what
has been given to `write`: a loss of power is not modelled; nobody else changes the directory. -/
inductive Lives (fs0 : Bytes → Option Bytes) : List Life → (Bytes → Option Bytes) → Prop where
  | none : Lives fs0 [] fs0
  | more {l : List Life} {fs : Bytes → Option Bytes} {L : Life} : Lives fs0 l fs → SysReach L.S L.port fs L.s → Lives fs0 (l ++ [L]) L.s.fs.fs

end P2P

import Verif.Model.Pipeline
import Verif.Model.Fetch
/-! # From a received packet to a file: the pipeline and the directory together

`Model/Pipeline` ends where a download ends, `Model/Fetch` begins there. Here the two are one transition system: a worker of the download pool
(misc/workpool.go:42, called on dht/fetchtorrent.go:21-23) runs `fetchHandler` (dht/fetchtorrent.go:27-44), which downloads and then calls
`flushTorrentFile` (dht/fetchtorrent.go:61-73); it is free again when that has returned. The process may be killed at any moment: then the
directory is as it is in the state reached.

Simplification: what a download delivers (`out p`) is fixed in advance; it is a function of the environment of that download, about which nothing is
assumed (`fetchHandler` in `Model/Fetch`). -/
namespace P2P

structure CrSt where
  pl : PlSt
  fs : FsSt

/-- the arguments with which `fetchHandler` calls `flushTorrentFile` for packet `p`, if it does (dht/fetchtorrent.go:39-43) -/
def flushes (out : Nat → HandlerOut) (p : Nat) : Option (Bytes × Bytes) :=
  match out p with
  | .flush hash data => some (hash, data)
  | _ => none

/-- `fetchHandler` for packet `p` has nothing left to do: it returned after the download (dht/fetchtorrent.go:40-42, or its deferred function
recovered), or `flushTorrentFile` has returned (dht/fetchtorrent.go:64-67, 69-73). A download that does not end never returns. -/
def HandlerReturns (out : Nat → HandlerOut) (fs : FsSt) (p : Nat) : Prop :=
  match out p with
  | .nothing => True
  | .flush _ _ => fs.pc p = .done ∨ fs.pc p = .failed
  | .fatal => False
  | .diverge => False

/-- Steps. `dir` says whether the directory `torrent` exists: no code of the program creates it (the only call of `misc.Mkdir` is on
config/config.go:79, for the directory of the configuration), and without it `os.Create` on dht/fetchtorrent.go:62 fails. -/
inductive CrStep (tr : Nat → List Event) (out : Nat → HandlerOut) (dir : Bool) (W1 Q W2 : Nat) : CrSt → CrSt → Prop where
  /-- a step of the pipeline other than the end of a download -/
  | pipe {s : CrSt} {pl : PlSt} : PlStep tr W1 Q W2 s.pl pl → pl.p2.finished = s.pl.p2.finished → CrStep tr out dir W1 Q W2 s { s with pl := pl }
  /-- a step of `flushTorrentFile` called by the worker `i`, which runs the download of packet `p` -/
  | file {s : CrSt} {fs : FsSt} (i p : Nat) : s.pl.p2.workers[i]? = some (.running p) →
      FsStep (fun j => if j = p then flushes out j else none) s.fs fs → (dir = false → fs.pc p = .failed) →
      CrStep tr out dir W1 Q W2 s { s with fs := fs }
  /-- `fetchHandler` returns to the pool (misc/workpool.go:42) -/
  | back {s : CrSt} {pl : PlSt} (p : Nat) : PlStep tr W1 Q W2 s.pl pl → pl.p2.finished = s.pl.p2.finished ++ [p] → HandlerReturns out s.fs p →
      CrStep tr out dir W1 Q W2 s { s with pl := pl }

/-- at first: no packet, and whatever is in the directory -/
def CrInit (fs0 : Bytes → Option Bytes) (W1 W2 : Nat) (s : CrSt) : Prop := PlInit W1 W2 s.pl ∧ FsInit fs0 s.fs

/-! ## Crash and restart -/

/-- One life of the process, from `main` (main.go:9-12, cmd/root.go:36-52) to its end: what it is sent (`tr`), what its downloads lead to (`out`), whether the
directory exists, and the sizes of its pools and its queue (config/config.go:21-30). -/
structure Session where
  tr : Nat → List Event
  out : Nat → HandlerOut
  dir : Bool
  W1 : Nat
  Q : Nat
  W2 : Nat

/-- The files after these lives of the process, in which it was killed (or died) at any moment. Nothing but the files survives: the program reads no
state back at its start (cmd/root.go:36-52), and the route table, the queues and the pending requests are in memory only. What the kernel has been
given with `write` survives the end of a process (a loss of power is not modelled). Nobody else changes the directory. -/
inductive AfterSessions (fs0 : Bytes → Option Bytes) : List Session → (Bytes → Option Bytes) → Prop where
  | none : AfterSessions fs0 [] fs0
  | more {l : List Session} {fs : Bytes → Option Bytes} {S : Session} {s : CrSt} : AfterSessions fs0 l fs →
      Reach (CrInit fs S.W1 S.W2) (CrStep S.tr S.out S.dir S.W1 S.Q S.W2) s → AfterSessions fs0 (l ++ [S]) s.fs.fs

end P2P

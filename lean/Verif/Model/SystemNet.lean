import Verif.Model.System
import Verif.Model.Interleave
/-! # The whole program, its downloads running step by step

In `Model/System` a download is one step up to its file writes, and what it leads to is a function of its connection, fixed in advance, with an arbitrary function for
what the other downloads do to the buffers meanwhile. Here the workers of the download pool run `FetchMetaData` (dht/peerwire/bep9.go:122-159) from one use of the
connection, the pool or a buffer to the next (`Model/Interleave`), in any order, between all other steps of the program, on one memory and one pool
(dht/peerwire/peer.go:22, a package variable). What a download leads to is whatever it has led to in this execution.

Simplifications: as `Model/System`, other than this one. Connecting (bep9.go:122-125) is one step. -/
namespace P2P

structure SysNetSt where
  /-- everything but the downloads -/
  sys : SysSt
  /-- memory and pool of the downloads -/
  shared : Shared
  /-- how far the download for packet `p` is -/
  dl : Nat → Thread

/-- dht/fetchtorrent.go:34-39: info hash and address with which `fetchHandler` calls `FetchMetaData` -/
def fetchArgs (env : Env) (ctx : Job) : Res (Bytes × Bytes) := do
  let infoHash ← Dict.GetString (asMap ctx.req.body) b!"info_hash"
  let laddr ← parseFetchAddr env ctx
  pure (infoHash, laddr)

/-- the call of `FetchMetaData` on dht/fetchtorrent.go:39 for packet `p` -/
def SysEnv.task (S : SysEnv) (p : Nat) (infoHash laddr : Bytes) : Task where
  E := S.conn p laddr
  sha1 := sha1Sum
  fold := S.K.env.fold
  fuel := S.fuel
  peerId := LocalPeerId
  infoHash := infoHash

/-- the call of `FetchMetaData` for the job that the handler of packet `p` has sent, if it has sent one that leads to a call -/
def SysSt.task (S : SysEnv) (s : SysSt) (p : Nat) : Option Task :=
  match enqueued (logOf p s.pl.log) with
  | job :: _ =>
    match fetchArgs S.K.env job with
    | .ok a => some (S.task p a.1 a.2)
    | _ => none
  | [] => none

/-- dht/fetchtorrent.go:39-43: what follows when `FetchMetaData` has returned -/
def afterFetch (infoHash : Bytes) : FetchOut → HandlerOut
  | .dialErr => .nothing
  | .returned ret err _ => if err ≠ none then .nothing else .flush (hexEncode infoHash) (ret.getD [])
  | .panicked _ => .nothing
  | .fatal _ => .fatal
  | .diverge _ => .diverge

/-- dht/fetchtorrent.go:27-44: what the call of `fetchHandler` for packet `p` has led to up to now, if it has come to the file writes, to its return, or to the end of
the process; `none` while the download is under way or not started. -/
def SysNetSt.outcome (S : SysEnv) (s : SysNetSt) (p : Nat) : Option HandlerOut :=
  match enqueued (logOf p s.sys.pl.log) with
  | job :: _ =>
    match fetchArgs S.K.env job with
    | .ok a =>
      if (S.conn p a.2).dialFails then some (afterFetch a.1 .dialErr)
      else
        match s.dl p with
        | .running (.done o) => some (afterFetch a.1 (.of o))
        | _ => none
    | .err _ => some .nothing
    | .panic _ => some .nothing
    | .diverge => some .diverge
  | [] => none

/-- after package initialisation -/
def SysNetInit (S : SysEnv) (port : Int) (fs0 : Bytes → Option Bytes) (s : SysNetSt) : Prop :=
  SysInit S port fs0 s.sys ∧ NewBytesPool 10000 4 0 = .ok s.shared.2 ∧ s.dl = fun _ => .idle

inductive SysNetStep (S : SysEnv) : SysNetSt → SysNetSt → Prop where
  /-- every step of `Model/System` in which no download ends or writes, and the memory does not run out -/
  | rest {s : SysNetSt} {t : SysSt} : SysStep S s.sys t → t.fs = s.sys.fs → t.pl.p2.finished = s.sys.pl.p2.finished → t.oom = s.sys.oom →
      SysNetStep S s { s with sys := t }
  /-- a worker that runs `fetchHandler` for packet `p` calls `FetchMetaData`, which connects (dht/peerwire/bep9.go:122-125) and goes on to its first use of something shared -/
  | start {s : SysNetSt} (i p : Nat) (t : Task) : s.sys.up → s.sys.pl.p2.workers[i]? = some (.running p) → s.sys.task S p = some t → t.E.dialFails = false →
      s.dl p = .idle →
      SysNetStep S s { s with shared := ((t.body s.shared).state.mem, (t.body s.shared).state.pool), dl := upd s.dl p (.running (t.body s.shared)) }
  /-- it goes on to its next use of something shared, or to its end (dht/peerwire/bep9.go:127-159) -/
  | turn {s : SysNetSt} (i p : Nat) (st : PSt) (k : Shared → Step (Option Bytes × Option Bytes)) : s.sys.up → s.sys.pl.p2.workers[i]? = some (.running p) →
      s.dl p = .running (.wait st k) →
      SysNetStep S s { s with shared := ((k s.shared).state.mem, (k s.shared).state.pool), dl := upd s.dl p (.running (k s.shared)) }
  /-- a step of `flushTorrentFile` (dht/fetchtorrent.go:61-73) after this download -/
  | file {s : SysNetSt} {fs : FsSt} (i p : Nat) (out : HandlerOut) : s.sys.up → s.sys.pl.p2.workers[i]? = some (.running p) → s.outcome S p = some out →
      FsStep (fun j => if j = p then flushes (fun _ => out) j else none) s.sys.fs fs → (S.dir = false → fs.pc p = .failed) →
      SysNetStep S s { s with sys := { s.sys with fs := fs } }
  /-- `fetchHandler` returns to the pool (misc/workpool.go:42) -/
  | back {s : SysNetSt} (i p : Nat) (out : HandlerOut) : s.sys.up → s.sys.pl.p2.workers[i]? = some (.running p) → s.outcome S p = some out →
      HandlerReturns (fun _ => out) s.sys.fs p →
      SysNetStep S s { s with sys := { s.sys with pl := { s.sys.pl with p2 := { s.sys.pl.p2 with
        workers := s.sys.pl.p2.workers.set i .select, finished := s.sys.pl.p2.finished ++ [p] } } } }
  /-- the runtime ends the process: this download has asked for more memory than there is -/
  | fatal {s : SysNetSt} (i p : Nat) : s.sys.up → s.sys.pl.p2.workers[i]? = some (.running p) → s.outcome S p = some .fatal →
      SysNetStep S s { s with sys := { s.sys with oom := true } }

end P2P

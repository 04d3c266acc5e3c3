import Verif.Model.Dht
import Verif.Model.Peerwire
/-! # Model of dht/fetchtorrent.go: from an announced info hash to a file -/
namespace P2P

/-- `net.IP.String` (Go standard library): unlike `UDPAddr.String`, a nil IP prints as "<nil>" -/
def IPString (env : Env) (ip : Bytes) : Bytes := if ip = [] then b!"<nil>" else ipString env ip

/-- dht/fetchtorrent.go:46-59 -/
def parseFetchAddr (env : Env) (ctx : Job) : Res Bytes := do
  let body := asMap ctx.req.body
  let port ← Dict.GetInteger body b!"port"
  let useUdpPort ←
    if Dict.Exist body b!"implied_port" then do
      let i ← Dict.GetInteger body b!"implied_port"
      pure (decide (i > 0))
    else pure false
  let laddr := IPString env ctx.addr.ip ++ b!":" ++ itoa port
  pure (if useUdpPort then addrString env ctx.addr else laddr)

/-- What a call of `fetchHandler` leads to. -/
inductive HandlerOut where
  /-- it returned without writing (an error, or a recovered panic) -/
  | nothing
  /-- it called `flushTorrentFile(hash, data)` -/
  | flush (hash data : Bytes)
  | fatal
  | diverge
deriving DecidableEq

/-- dht/fetchtorrent.go:27-44. The connection depends on the address that is dialled: `conn laddr` is the environment of
the download; `mem` and `pool` are the shared buffers at that moment. `peerId` is `peerwire.LocalPeerId`. The deferred
function 29-33 recovers every panic. -/
def fetchHandler (env : Env) (conn : Bytes → PEnv) (sha1 : Bytes → Bytes) (fuel : Nat) (peerId : Bytes)
    (mem : Nat → Bytes) (pool : BPool) (ctx : Job) : HandlerOut :=
  let pre : Res (Bytes × Bytes) := do
    let infoHash ← Dict.GetString (asMap ctx.req.body) b!"info_hash"
    let laddr ← parseFetchAddr env ctx
    pure (infoHash, laddr)
  match pre with
  | .ok (infoHash, laddr) =>
    match FetchMetaData (conn laddr) sha1 env.fold fuel peerId infoHash mem pool with
    | .dialErr => .nothing
    | .returned ret err _ => if err ≠ none then .nothing else .flush (hexEncode infoHash) (ret.getD [])
    | .panicked _ => .nothing
    | .fatal _ => .fatal
    | .diverge _ => .diverge
  | .err _ => .nothing
  | .panic _ => .nothing
  | .diverge => .diverge

/-- the argument of `os.Create` on dht/fetchtorrent.go:62 -/
def torrentPath (fileName : Bytes) : Bytes := b!"torrent/" ++ fileName ++ b!".torrent"

/-! ## Writing the file

`flushTorrentFile` (dht/fetchtorrent.go:61-73) for any number of jobs at once, on a shared directory. `os.Create` empties an
existing file; `file.Write` is a sequence of writes of further parts of the data at the job's own offset (one write unless
the kernel accepts only a part), any of which may fail. -/

/-- where a job is -/
inductive JobPc where
  /-- before `os.Create` -/
  | start
  /-- the file is open, this many bytes have been written -/
  | writing (off : Nat)
  /-- `file.Write` wrote everything -/
  | done
  /-- `os.Create` or `file.Write` failed -/
  | failed
deriving DecidableEq

structure FsSt where
  /-- contents of the files -/
  fs : Bytes → Option Bytes
  pc : Nat → JobPc
  /-- ghost: the job that created (or emptied) the file last -/
  owner : Bytes → Option Nat

/-- effect of a write of `d` at offset `off` on a file's content: a hole is filled with zeros -/
def writeAt (c : Bytes) (off : Nat) (d : Bytes) : Bytes :=
  (c ++ List.replicate (off - c.length) 0).take off ++ d ++ c.drop (off + d.length)

/-- Steps of the jobs; job `j` flushes `jobs j = some (hash, data)`. -/
inductive FsStep (jobs : Nat → Option (Bytes × Bytes)) : FsSt → FsSt → Prop where
  /-- dht/fetchtorrent.go:62 succeeds -/
  | create {s : FsSt} (j : Nat) (hash data : Bytes) : jobs j = some (hash, data) → s.pc j = .start →
      FsStep jobs s { fs := upd s.fs (torrentPath hash) (some []), pc := upd s.pc j (.writing 0),
                      owner := upd s.owner (torrentPath hash) (some j) }
  /-- dht/fetchtorrent.go:62 fails (64-67) -/
  | createFails {s : FsSt} (j : Nat) (hash data : Bytes) : jobs j = some (hash, data) → s.pc j = .start →
      FsStep jobs s { s with pc := upd s.pc j .failed }
  /-- part of dht/fetchtorrent.go:68: the next `n` bytes reach the file -/
  | write {s : FsSt} (j : Nat) (hash data c : Bytes) (off n : Nat) : jobs j = some (hash, data) → s.pc j = .writing off →
      s.fs (torrentPath hash) = some c → 0 < n → off + n ≤ data.length →
      FsStep jobs s { s with fs := upd s.fs (torrentPath hash) (some (writeAt c off ((data.drop off).take n))),
                             pc := upd s.pc j (.writing (off + n)) }
  /-- dht/fetchtorrent.go:68 returns without error -/
  | finish {s : FsSt} (j : Nat) (hash data : Bytes) (off : Nat) : jobs j = some (hash, data) → s.pc j = .writing off →
      off = data.length → FsStep jobs s { s with pc := upd s.pc j .done }
  /-- dht/fetchtorrent.go:68 returns an error (69-72) -/
  | writeFails {s : FsSt} (j : Nat) (hash data : Bytes) (off : Nat) : jobs j = some (hash, data) → s.pc j = .writing off →
      FsStep jobs s { s with pc := upd s.pc j .failed }

/-- at first: whatever is in the directory -/
def FsInit (fs0 : Bytes → Option Bytes) (s : FsSt) : Prop :=
  s.fs = fs0 ∧ (∀ j, s.pc j = .start) ∧ (∀ p, s.owner p = none)

end P2P

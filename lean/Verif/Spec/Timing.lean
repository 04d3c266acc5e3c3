import Verif.Model.Peerwire
/-! # Real time of a download (C75)

dht/peerwire/bep9.go:123-138: `SetReadDeadline(now + 1s)` is called once, `SetWriteDeadline(time.Time{})` means no limit, the timer of
`NewPeerConn` fires after 10 s. Times are milliseconds since then; computing takes no time. -/
namespace P2P

def PEvent.isRead : PEvent → Bool
  | .read .. => true
  | _ => false

def PEvent.isWrite : PEvent → Bool
  | .write .. => true
  | _ => false

/-- `ends tr = some t`: the last interaction of `tr` ends at time `t`; `none`: it, or one before it, never ends. What the documentation of
package `net` says about deadlines, and of package `time` about timers: -/
structure Timed (E : PEnv) (ends : List PEvent → Option Nat) : Prop where
  start : ends [] = some 0
  forward : ∀ tr e t, ends (tr ++ [e]) = some t → ∃ t0, ends tr = some t0 ∧ t0 ≤ t
  /-- a `Read` that begins at or after the deadline fails -/
  late : ∀ tr n t, ends tr = some t → 1000 ≤ t → (E.read tr n).2 = true
  /-- no `Read` blocks beyond the deadline -/
  read : ∀ tr e t, e.isRead = true → ends tr = some t → ∃ t', ends (tr ++ [e]) = some t' ∧ t' ≤ max t 1000
  timer : ∀ tr, E.expired tr = true ↔ ∃ t, ends tr = some t ∧ 10000 ≤ t

/-- bytes written so far -/
def written (tr : List PEvent) : Nat := (tr.map fun e => match e with | .write d _ => d.length | _ => 0).sum

/-- The peer reads nothing, and the buffers between the two programs hold `B` bytes: a `Write` that exceeds them never ends. -/
def PeerReadsNothing (ends : List PEvent → Option Nat) (B : Nat) : Prop :=
  ∀ tr e, e.isWrite = true → B < written (tr ++ [e]) → ends (tr ++ [e]) = none

end P2P

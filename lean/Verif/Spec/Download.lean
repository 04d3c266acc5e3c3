import Verif.Model.PeerMsg
/-! # Specification of a download as a function of the messages received (C70)

Independent of dht/peerwire/bep9.go: no connection, no buffers, no pool. -/
namespace P2P

/-- What a message of a peer means to a downloader. -/
inductive PeerMsg where
  /-- nothing to do -/
  | pass
  /-- extended handshake: the metadata is that many bytes long -/
  | announce (size : Int)
  /-- data of a piece -/
  | piece (i : Int) (d : Bytes)
  /-- the peer does not speak the protocol -/
  | bad
deriving DecidableEq

/-- The meaning of a message body (without its length prefix; `[]` is a keep-alive). -/
def meaning (body : Bytes) : PeerMsg :=
  if body.length > 32768 then .bad
  else
    match body with
    | [] => .pass
    | kind :: rest =>
      if kind ≠ 20 then .pass
      else
        match rest with
        | [] => .bad
        | id :: _ =>
          if id = 0 then
            match parseExtendedHandShake body with
            | .ok d => match d.lookup b!"metadata_size" with
              | some (.int z) => .announce z
              | _ => .bad
            | _ => .bad
          else if id = 1 then
            match parseExtendedFetchMetaMsg body with
            | .ok r => if r.msgType = 1 then .piece r.pieceNum r.data else .pass
            | _ => .bad
          else .pass

/-- What was received: the announced size, and for every piece the last data received for it together with the
number of the message that carried it. -/
structure Received where
  size : Int
  pieces : List (Option (Nat × Bytes))
deriving DecidableEq

/-- before any message: one piece is expected -/
def Received.start : Received := { size := 0, pieces := [none] }

def Received.all (g : Received) : Bool := g.pieces.all Option.isSome

/-- the effect of message number `k`; `none` if the download fails -/
def Received.after (g : Received) (k : Nat) : PeerMsg → Option Received
  | .pass => some g
  | .announce z =>
    if 0 ≤ z ∧ 24 * ((z + 16383) / 16384) ≤ 2 ^ 48 then
      some { size := z, pieces := List.replicate ((z + 16383) / 16384).toNat none }
    else none
  | .piece i d => if 0 ≤ i ∧ i < g.pieces.length then some { g with pieces := g.pieces.set i.toNat (some (k, d)) } else none
  | .bad => none

/-- Outcome of a stream of messages. -/
inductive Verdict where
  /-- message number `n` (from 0, keep-alives included) makes the download fail -/
  | failed (n : Nat)
  /-- after `n` messages, `k` of them no keep-alives, everything was received -/
  | complete (n k : Nat) (g : Received)
  /-- more messages are needed -/
  | waiting
deriving DecidableEq

/-- `n` messages so far, `k` of them no keep-alives. -/
def verdict (n k : Nat) (g : Received) (bodies : List Bytes) : Verdict :=
  if g.all then .complete n k g
  else
    match bodies with
    | [] => .waiting
    | b :: r =>
      match g.after k (meaning b) with
      | none => .failed n
      | some g' => verdict (n + 1) (if b = [] then k else k + 1) g' r

/-- the metadata received -/
def Received.content (g : Received) : Bytes := g.pieces.flatMap fun p => match p with | some (_, d) => d | none => []

/-- writing `new` at the start of a buffer -/
def over (old new : Bytes) : Bytes := new ++ old.drop new.length

/-- One more message with a body `w` arrives while `m` buffers are used in turn: `(c, cur)` says that the buffer contains `cur`
and that `c` messages go to other buffers before its turn. -/
def cycle (m : Nat) : Nat × Bytes → Bytes → Nat × Bytes
  | (0, cur), w => (m - 1, over cur w)
  | (c + 1, cur), _ => (c, cur)

/-- What has become of the buffer message number `j` was received into, after the messages with bodies `ws` (no keep-alives): the messages
`j + m`, `j + 2 m`, … were written over it. -/
def bufferNow (m : Nat) (ws : List Bytes) (j : Nat) : Nat × Bytes := (ws.drop (j + 1)).foldl (cycle m) (m - 1, ws[j]?.getD [])

/-- the data of a piece, the last `d.length` bytes of message number `j`, as it now is in that buffer -/
def pieceNow (m : Nat) (ws : List Bytes) (j : Nat) (d : Bytes) : Bytes :=
  ((bufferNow m ws j).2.drop ((ws[j]?.getD []).length - d.length)).take d.length

/-- what is hashed at the end: the pieces as they now are in the buffers -/
def Received.merged (m : Nat) (ws : List Bytes) (g : Received) : Bytes :=
  g.pieces.flatMap fun p => match p with | some (j, d) => pieceNow m ws j d | none => []

/-- the messages that have a body -/
def nonEmpty (bodies : List Bytes) : List Bytes := bodies.filter (· ≠ [])

/-- how a message is delivered: the length prefix in one read, the body (if any) in another one -/
def wire (body : Bytes) : List Bytes := if body = [] then [be32 0] else [be32 body.length, body]

end P2P

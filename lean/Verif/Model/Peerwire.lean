import Verif.Model.PeerMsg
import Verif.Model.Udp
/-! # Model of the metadata download: dht/peerwire/bep9.go, bep3.go (reading), peer.go

One call of `FetchMetaData` is modelled as the sequence of its interactions with the connection, the shared
buffer pool, the clock and the allocator; each interaction is recorded as a `PEvent`. The answers come from
an arbitrary environment `PEnv`, as a function of everything this call did so far. Array contents are
modelled (`mem`), and before each interaction the environment may change all arrays and the pool
arbitrarily (`interfere`): these are the other downloads. The infohash is a slice of an immutable string and
`result` is a private array, so they are modelled by value. Logging has no modelled effect. -/
namespace P2P

/-- One interaction of a download. -/
inductive PEvent where
  /-- `conn.Read(b)`: what was stored at the beginning of the buffer, and whether an error was returned -/
  | read (size : Nat) (data : Bytes) (err : Bool)
  /-- `conn.Write(data)` and whether an error was returned -/
  | write (data : Bytes) (failed : Bool)
  /-- `conn.Close()` -/
  | close
  /-- `peerBytesPool.GetBySize` returned this buffer -/
  | get (b : Slice)
  /-- `peerBytesPool.Put` of this buffer -/
  | put (b : Slice)
  /-- `IsReadLoopExpire()` and its result -/
  | expired (e : Bool)
  /-- `make` asked for this many bytes, on a size that the peer announced -/
  | alloc (bytes : Nat)
  /-- ghost: an extended handshake announcing this metadata size was accepted -/
  | announced (size : Int)
  /-- ghost: a data message for this piece was stored -/
  | gotPiece (i : Nat)
  /-- ghost: the bytes of a buffer were read; so the trace tells all moments apart at which others may have acted -/
  | load
deriving DecidableEq

/-- The environment of one download. -/
structure PEnv where
  /-- `net.DialTimeout` fails -/
  dialFails : Bool
  /-- `Read` into a buffer of the given length: the bytes the kernel delivers (cut off at the length) and whether an
  error is returned -/
  read : List PEvent → Nat → Bytes × Bool
  writeFails : List PEvent → Bool
  /-- 10 s have passed -/
  expired : List PEvent → Bool
  /-- the process dies when asked for this many bytes ("fatal error: out of memory", not recoverable) -/
  outOfMemory : List PEvent → Nat → Bool
  /-- what the other goroutines do to the arrays and the pool -/
  interfere : List PEvent → (Nat → Bytes) × BPool → (Nat → Bytes) × BPool
  /-- order of map iteration -/
  order : List PEvent → Entries → Entries

/-- dht/peerwire/peer.go:10-20 (`metaData`: `none` is a nil slice), the shared memory and the trace. -/
structure PSt where
  metaData : List (Option Slice)
  metaDataSize : Int
  requested : List Bool
  mem : Nat → Bytes
  pool : BPool
  trace : List PEvent

/-- Outcome of code of a download. -/
inductive POut (α : Type) where
  | ok (a : α) (s : PSt)
  | panic (p : Panic) (s : PSt)
  /-- the whole process dies -/
  | fatal (s : PSt)
  /-- step budget exhausted -/
  | diverge (s : PSt)

abbrev PM (α : Type) := PSt → POut α

namespace PM
def bind {α β : Type} (m : PM α) (f : α → PM β) : PM β := fun s =>
  match m s with
  | .ok a s' => f a s'
  | .panic p s' => .panic p s'
  | .fatal s' => .fatal s'
  | .diverge s' => .diverge s'
instance : Monad PM where
  pure a := fun s => .ok a s
  bind := PM.bind
def panic {α : Type} (p : Panic) : PM α := fun s => .panic p s
def get : PM PSt := fun s => .ok s s
def modify (f : PSt → PSt) : PM Unit := fun s => .ok () (f s)
/-- a call that reports failures by panicking -/
def lift {α : Type} (r : Res α) : PM α := fun s =>
  match r with
  | .ok a => .ok a s
  | .err _ => .panic .runtime s
  | .panic p => .panic p s
  | .diverge => .diverge s
/-- `defer cleanup()` around `m` -/
def deferred {α : Type} (m : PM α) (cleanup : PM Unit) : PM α := fun s =>
  match m s with
  | .ok a s' =>
    match cleanup s' with
    | .ok _ t => .ok a t
    | .panic p t => .panic p t
    | .fatal t => .fatal t
    | .diverge t => .diverge t
  | .panic p s' =>
    match cleanup s' with
    | .ok _ t => .panic p t
    | .panic p' t => .panic p' t
    | .fatal t => .fatal t
    | .diverge t => .diverge t
  | .fatal s' => .fatal s'
  | .diverge s' => .diverge s'

@[simp] theorem bind_apply {α β : Type} (m : PM α) (f : α → PM β) (s : PSt) :
    (m >>= f) s = (match m s with
      | .ok a s' => f a s'
      | .panic p s' => .panic p s'
      | .fatal s' => .fatal s'
      | .diverge s' => .diverge s') := rfl
@[simp] theorem pure_apply {α : Type} (a : α) (s : PSt) : (Pure.pure a : PM α) s = .ok a s := rfl
@[simp] theorem panic_apply {α : Type} (p : Panic) (s : PSt) : (PM.panic p : PM α) s = .panic p s := rfl
@[simp] theorem get_apply (s : PSt) : PM.get s = .ok s s := rfl
@[simp] theorem modify_apply (f : PSt → PSt) (s : PSt) : PM.modify f s = .ok () (f s) := rfl
@[simp] theorem lift_ok {α : Type} (a : α) (s : PSt) : (PM.lift (.ok a) : PM α) s = .ok a s := rfl
@[simp] theorem lift_panic {α : Type} (p : Panic) (s : PSt) : (PM.lift (.panic p : Res α) : PM α) s = .panic p s := rfl
end PM

/-! ## Interactions -/

def emitP (e : PEvent) : PM Unit := PM.modify fun s => { s with trace := s.trace ++ [e] }

/-- the other goroutines run -/
def others (E : PEnv) : PM Unit := PM.modify fun s =>
  { s with mem := (E.interfere s.trace (s.mem, s.pool)).1, pool := (E.interfere s.trace (s.mem, s.pool)).2 }

/-- `peerBytesPool.GetBySize(n)`; a new array is zeroed -/
def poolGet (E : PEnv) (n : Nat) : PM Slice := do
  others E
  let s ← PM.get
  match s.pool.GetBySize n with
  | .ok (b, p) => do
    PM.modify fun s => { s with
      pool := p, mem := if p.fresh = s.pool.fresh then s.mem else upd s.mem b.arr (List.replicate b.cap 0) }
    emitP (.get b)
    pure b
  | .panic p => PM.panic p
  | .err _ => PM.panic .runtime
  | .diverge => PM.panic .runtime

/-- `peerBytesPool.Put(b)` -/
def poolPut (E : PEnv) (b : Slice) : PM Unit := do
  others E
  PM.modify fun s => { s with pool := s.pool.Put b }
  emitP (.put b)

/-- `conn.Read(b)` for a slice `b`: number of bytes and whether an error is returned -/
def connRead (E : PEnv) (b : Slice) : PM (Nat × Bool) := do
  others E
  let s ← PM.get
  let r := E.read s.trace b.len
  PM.modify fun s => { s with mem := writeSlice s.mem b (r.1.take b.len) }
  emitP (.read b.len (r.1.take b.len) r.2)
  pure ((r.1.take b.len).length, r.2)

/-- `conn.Read` into a private array of `n` zero bytes: its contents afterwards and whether an error is returned -/
def connReadNew (E : PEnv) (n : Nat) : PM (Bytes × Bool) := do
  others E
  let s ← PM.get
  let r := E.read s.trace n
  emitP (.read n (r.1.take n) r.2)
  pure (r.1.take n ++ List.replicate (n - (r.1.take n).length) 0, r.2)

/-- `conn.Write(data)`; the result says whether an error is returned -/
def connWrite (E : PEnv) (data : Bytes) : PM Bool := do
  others E
  let s ← PM.get
  let f := E.writeFails s.trace
  emitP (.write data f)
  pure f

/-- the bytes of a slice, now -/
def loadSlice (E : PEnv) (b : Slice) : PM Bytes := do
  others E
  let s ← PM.get
  emitP .load
  pure (readSlice s.mem b)

/-- `runtime.maxAlloc` on 64-bit platforms: `make` of more panics, `make` of less may kill the process -/
def maxAlloc : Nat := 2 ^ 48

/-- `make` of `n` elements of `width` bytes, for an `int` `n` computed from the peer's message -/
def makeSized (E : PEnv) (n : Int) (width : Nat) : PM Unit := do
  if n < 0 then PM.panic .runtime
  else if n.toNat * width > maxAlloc then PM.panic .runtime
  else do
    emitP (.alloc (n.toNat * width))
    let s ← PM.get
    if E.outOfMemory s.trace (n.toNat * width) then (fun s => .fatal s) else pure ()

/-! ## bep3.go and peer.go -/

/-- dht/peerwire/bep3.go:143-158, after the prefix was read into `preLenbytes` -/
def readAfterPrefix (E : PEnv) (preLenbytes : Slice) : PM (Bool × Option Slice × Bool) := do
  let pre ← loadSlice E preLenbytes
  -- `binary.BigEndian.Uint32` reads the first four bytes
  if pre.length < 4 then PM.panic .runtime
  else if beVal (pre.take 4) ≤ 0 then pure (true, none, false)
  else do
    poolPut E preLenbytes
    if beVal (pre.take 4) > maxReadLength then pure (false, none, true)
    else do
      let buf ← poolGet E maxReadLength
      let r ← connRead E buf
      if r.2 then pure (false, none, true)
      else pure (false, some { buf with len := r.1 }, false)

/-- dht/peerwire/bep3.go:137-159: the results are `keepAlive`, the bytes (`none`: nil), the error -/
def readBytesByPrefixLenMsg (E : PEnv) : PM (Bool × Option Slice × Bool) := do
  let preLenbytes ← poolGet E PrefixLen
  let r ← connRead E preLenbytes
  if r.2 then pure (false, none, true)
  else readAfterPrefix E preLenbytes

/-- dht/peerwire/peer.go:37-44 -/
def CompledMetaData (s : PSt) : Bool := s.requested.all id

/-- dht/peerwire/peer.go:46-53 -/
def IsReadLoopExpire (E : PEnv) : PM Bool := do
  let s ← PM.get
  let e := E.expired s.trace
  emitP (.expired e)
  pure e

/-! ## bep9.go -/

/-- `pieceCount` (dht/peerwire/bep9.go:219-222); Go's `/` and `%` truncate towards zero -/
def pieceCount (metaSize : Int) : Int :=
  let n := Int.tdiv metaSize SizeOf16KB
  if Int.tmod metaSize SizeOf16KB > 0 then n + 1 else n

/-- the loop dht/peerwire/bep9.go:225-232 from piece `i` on, `n` pieces left (line 226 repeats what `make` did) -/
def requestLoop (E : PEnv) : Nat → Nat → PM Unit
  | 0, _ => pure ()
  | n + 1, i => do
    let s ← PM.get
    let msg ← PM.lift (withExtendedFetchMetaMsg (E.order s.trace) 1 ExRequest i 0 [])
    let failed ← connWrite E msg
    if failed then PM.lift (logPanic b!"write request piece err")
    else requestLoop E n (i + 1)

/-- `s[i] = v` for a Go slice of values, `none` is out of range -/
def setAt {α : Type} (l : List α) (i : Int) (v : α) : Option (List α) :=
  if 0 ≤ i ∧ i.toNat < l.length then some (l.set i.toNat v) else none

/-- dht/peerwire/bep9.go:199-253; `data` are the bytes of `readBytes`. They are read once here: until the deferred
`Put` nobody else holds this buffer (`C57`). -/
def handleExtendedMsg (E : PEnv) (readBytes : Slice) (data : Bytes) : PM Unit :=
  match data[1]? with
  | none => PM.panic .runtime
  | some msgId =>
    if msgId.toNat = 0 then do
      let dict ← PM.lift (parseExtendedHandShake data)
      if ¬ Dict.Exist dict b!"metadata_size" then PM.lift (logPanic b!"get extended handshake wrong format")
      else do
        let metaSize ← PM.lift (Dict.GetInteger dict b!"metadata_size")
        PM.modify fun s => { s with metaDataSize := metaSize }
        makeSized E (pieceCount metaSize) 24
        PM.modify fun s => { s with metaData := List.replicate (pieceCount metaSize).toNat none }
        makeSized E (pieceCount metaSize) 1
        PM.modify fun s => { s with requested := List.replicate (pieceCount metaSize).toNat false }
        emitP (.announced metaSize)
        requestLoop E (pieceCount metaSize).toNat 0
    else if msgId.toNat = 1 then do
      let resp ← PM.lift (parseExtendedFetchMetaMsg data)
      if ExData ≠ resp.msgType then pure ()
      else do
        let s ← PM.get
        -- `fetchMetaResp.Data()` points into `readBytes`
        let slice : Option Slice := resp.dataOff.map fun n =>
          { readBytes with off := readBytes.off + n, len := readBytes.len - n, cap := readBytes.cap - n }
        match setAt s.metaData resp.pieceNum slice with
        | none => PM.panic .runtime
        | some md => do
          PM.modify fun s => { s with metaData := md }
          match setAt s.requested resp.pieceNum true with
          | none => PM.panic .runtime
          | some rq => do
            PM.modify fun s => { s with requested := rq }
            emitP (.gotPiece resp.pieceNum.toNat)
    else pure ()

/-- dht/peerwire/bep9.go:179-195, on the results of `readBytesByPrefixLenMsg` -/
def handleMsg (E : PEnv) (keepAlive : Bool) (readBytes : Option Slice) (err : Bool) : PM Unit :=
  if keepAlive then pure ()
  else if err then PM.lift (logPanic b!"read prefix length err")
  else
    match readBytes with
    | none => PM.panic .runtime
    | some rb => do
      let data ← loadSlice E rb
      let t ← PM.lift (parsePrefixLenMsg data)
      if t = ExtendedPeerMsg then handleExtendedMsg E rb data else pure ()

/-- the deferred function dht/peerwire/bep9.go:174-178 -/
def putBack (E : PEnv) (readBytes : Option Slice) : PM Unit :=
  match readBytes with
  | some rb => if rb.cap > 0 then poolPut E rb else pure ()
  | none => pure ()

/-- dht/peerwire/bep9.go:170-196 -/
def readMetaDataHandler (E : PEnv) : PM Unit := do
  let r ← readBytesByPrefixLenMsg E
  PM.deferred (handleMsg E r.1 r.2.1 r.2.2) (putBack E r.2.1)

/-- dht/peerwire/bep9.go:163-168; the first argument bounds the number of rounds -/
def readMetaDataLoop (E : PEnv) : Nat → PM Unit
  | 0 => fun s => .diverge s
  | f + 1 => do
    let s ← PM.get
    if CompledMetaData s then pure ()
    else do
      let e ← IsReadLoopExpire E
      if e then pure ()
      else do
        readMetaDataHandler E
        readMetaDataLoop E f

/-- dht/peerwire/bep9.go:256-262 -/
def initialMessages (E : PEnv) : PM Unit := do
  let s ← PM.get
  let msg ← PM.lift (withExtendedhandShake (E.order s.trace) (some [(b!"ut_metadata", .int 1)]) none)
  let failed ← connWrite E msg
  if failed then PM.lift (logPanic b!"write extended handshake err") else pure ()

/-- dht/peerwire/bep9.go:265-284 -/
def handshakePeer (E : PEnv) (fold : FoldTable) (peerId infoHash : Bytes) : PM Unit := do
  let msg ← PM.lift (withHandShakeMsg peerId infoHash)
  let failed ← connWrite E msg
  if failed then PM.lift (logPanic b!"write handshake err")
  else do
    let (readBytes, err) ← connReadNew E handShakeLen
    if err then PM.lift (logPanic b!"get handshake response err")
    else do
      let resp ← PM.lift (parseHandShakeMsg readBytes [])
      if ¬ equalFold fold supportProtocolName resp.protocol then
        PM.lift (logPanic b!"get handshake not support bittoroute protocol")
      else do
        let ext ← PM.lift resp.SupportExtended
        if ¬ ext then PM.lift (logPanic b!"get handshake not support extended protocol") else pure ()

/-- the loop dht/peerwire/bep9.go:148-150: `n` pieces from index `i` on; `metaData[i]` may be out of range -/
def mergeLoop (E : PEnv) : Nat → Nat → Bytes → PM Bytes
  | 0, _, result => pure result
  | n + 1, i, result => do
    let s ← PM.get
    match s.metaData[i]? with
    | none => PM.panic .runtime
    | some none => mergeLoop E n (i + 1) result
    | some (some b) => do
      let d ← loadSlice E b
      mergeLoop E n (i + 1) (result ++ d)

/-- dht/peerwire/bep9.go:136-159 (after `NewPeerConn`): the returned data (`none`: nil) and error (`none`: nil) -/
def fetchBody (E : PEnv) (sha1 : Bytes → Bytes) (fold : FoldTable) (fuel : Nat) (peerId infoHash : Bytes) :
    PM (Option Bytes × Option Bytes) := do
  handshakePeer E fold peerId infoHash
  initialMessages E
  readMetaDataLoop E fuel
  let s ← PM.get
  if ¬ CompledMetaData s then pure (none, some b!"cannot completed download metadata")
  else do
    makeSized E s.metaDataSize 1
    let result ← mergeLoop E s.requested.length 0 []
    if infoHash ≠ sha1 result then pure (none, some b!"check sum err")
    else pure (some result, none)

/-- What a call of `FetchMetaData` does. -/
inductive FetchOut where
  /-- `net.DialTimeout` failed, the error is returned -/
  | dialErr
  /-- returned data (`none`: nil) and error (`none`: nil), and the state afterwards -/
  | returned (ret : Option Bytes) (err : Option Bytes) (s : PSt)
  /-- a panic escapes (proved impossible) -/
  | panicked (p : Panic)
  | fatal (s : PSt)
  | diverge (s : PSt)

/-- dht/peerwire/peer.go:24-35 on shared memory `mem` and pool `pool` -/
def NewPeerConn (mem : Nat → Bytes) (pool : BPool) : PSt :=
  { metaData := List.replicate 16 none, metaDataSize := 0, requested := [false], mem, pool, trace := [] }

/-- dht/peerwire/bep9.go:122-160 with the deferred function 127-134 -/
def FetchMetaData (E : PEnv) (sha1 : Bytes → Bytes) (fold : FoldTable) (fuel : Nat) (peerId infoHash : Bytes)
    (mem : Nat → Bytes) (pool : BPool) : FetchOut :=
  if E.dialFails then .dialErr
  else
    match fetchBody E sha1 fold fuel peerId infoHash (NewPeerConn mem pool) with
    | .ok (ret, err) s =>
      match emitP .close s with
      | .ok _ t => .returned ret err t
      | .panic p _ => .panicked p
      | .fatal t => .fatal t
      | .diverge t => .diverge t
    | .panic _ s =>
      match emitP .close s with
      | .ok _ t => .returned none (some b!"FetchMetaData err") t
      | .panic p _ => .panicked p
      | .fatal t => .fatal t
      | .diverge t => .diverge t
    | .fatal s => .fatal s
    | .diverge s => .diverge s

end P2P

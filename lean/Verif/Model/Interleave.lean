import Verif.Model.Peerwire
/-! # Several downloads at once: dht/peerwire/bep9.go, bep3.go again, stoppable

`Model/Peerwire.lean` runs one call of `FetchMetaData` to its end, with an arbitrary function (`interfere`) for what other goroutines do meanwhile. Here
the same code is written so that it stops before every use of the connection, the pool or a buffer (`Step.wait`) and goes on when it is scheduled.
Between two stops it touches nothing but its own variables. Several downloads run on one memory and one pool, in any order (`TurnStep`).
`Lemmas/Interleave.lean` proves that this code, run to its end, is the code of `Model/Peerwire.lean` (`run_fetchBodyR`), so it is not a second model of
bep9.go to be checked against the text. -/
namespace P2P

/-- memory and pool -/
abbrev Shared := (Nat → Bytes) × BPool

/-- `E` with other interference -/
def PEnv.among (E : PEnv) (f : List PEvent → Shared → Shared) : PEnv := { E with interfere := f }
/-- `E` without interference -/
def PEnv.alone (E : PEnv) : PEnv := E.among fun _ x => x

/-- A goroutine: it ended, or it is about to use something shared, in state `s`; then it goes on with whatever memory and pool are at that time. -/
inductive Step (α : Type) where
  | done (o : POut α)
  | wait (s : PSt) (k : Shared → Step α)

/-- continue after the end, whatever end that is -/
def Step.handle {α β : Type} : Step α → (POut α → Step β) → Step β
  | .done o, g => g o
  | .wait s k, g => .wait s fun x => (k x).handle g

/-- run to the end, where others do what `E` says whenever it waits -/
def Step.run {α : Type} (E : PEnv) : Step α → POut α
  | .done o => o
  | .wait s k => (k (E.interfere s.trace (s.mem, s.pool))).run E

abbrev RM (α : Type) := PSt → Step α

namespace RM
def bind {α β : Type} (m : RM α) (f : α → RM β) : RM β := fun s => (m s).handle fun
  | .ok a s' => f a s'
  | .panic p s' => .done (.panic p s')
  | .fatal s' => .done (.fatal s')
  | .diverge s' => .done (.diverge s')
instance : Monad RM where
  pure a := fun s => .done (.ok a s)
  bind := RM.bind
/-- code that uses nothing shared -/
def now {α : Type} (m : PM α) : RM α := fun s => .done (m s)
/-- code that uses something shared once, namely now -/
def use {α : Type} (m : PM α) : RM α := fun s => .wait s fun x => .done (m { s with mem := x.1, pool := x.2 })
/-- `defer cleanup()` around `m` -/
def deferred {α : Type} (m : RM α) (cleanup : RM Unit) : RM α := fun s => (m s).handle fun
  | .ok a s' => (cleanup s').handle fun
    | .ok _ t => .done (.ok a t)
    | .panic p t => .done (.panic p t)
    | .fatal t => .done (.fatal t)
    | .diverge t => .done (.diverge t)
  | .panic p s' => (cleanup s').handle fun
    | .ok _ t => .done (.panic p t)
    | .panic p' t => .done (.panic p' t)
    | .fatal t => .done (.fatal t)
    | .diverge t => .done (.diverge t)
  | .fatal s' => .done (.fatal s')
  | .diverge s' => .done (.diverge s')
end RM

/-! ## The interactions, as in `Model/Peerwire.lean` -/

/-- `peerBytesPool.GetBySize(n)` -/
def poolGetR (E : PEnv) (n : Nat) : RM Slice := .use (poolGet E.alone n)
/-- `peerBytesPool.Put(b)` -/
def poolPutR (E : PEnv) (b : Slice) : RM Unit := .use (poolPut E.alone b)
/-- `conn.Read(b)` into a buffer of the pool -/
def connReadR (E : PEnv) (b : Slice) : RM (Nat × Bool) := .use (connRead E.alone b)
/-- `conn.Read` into a private array -/
def connReadNewR (E : PEnv) (n : Nat) : RM (Bytes × Bool) := .use (connReadNew E.alone n)
/-- `conn.Write(data)` -/
def connWriteR (E : PEnv) (data : Bytes) : RM Bool := .use (connWrite E.alone data)
/-- reading the bytes of a buffer -/
def loadSliceR (E : PEnv) (b : Slice) : RM Bytes := .use (loadSlice E.alone b)

/-- dht/peerwire/bep3.go:143-158 -/
def readAfterPrefixR (E : PEnv) (preLenbytes : Slice) : RM (Bool × Option Slice × Bool) := do
  let pre ← loadSliceR E preLenbytes
  if pre.length < 4 then .now (PM.panic .runtime)
  else if beVal (pre.take 4) ≤ 0 then pure (true, none, false)
  else do
    poolPutR E preLenbytes
    if beVal (pre.take 4) > maxReadLength then pure (false, none, true)
    else do
      let buf ← poolGetR E maxReadLength
      let r ← connReadR E buf
      if r.2 then pure (false, none, true)
      else pure (false, some { buf with len := r.1 }, false)

/-- dht/peerwire/bep3.go:137-159 -/
def readBytesByPrefixLenMsgR (E : PEnv) : RM (Bool × Option Slice × Bool) := do
  let preLenbytes ← poolGetR E PrefixLen
  let r ← connReadR E preLenbytes
  if r.2 then pure (false, none, true)
  else readAfterPrefixR E preLenbytes

/-- the loop dht/peerwire/bep9.go:225-232 -/
def requestLoopR (E : PEnv) : Nat → Nat → RM Unit
  | 0, _ => pure ()
  | n + 1, i => do
    let s ← RM.now PM.get
    let msg ← RM.now (PM.lift (withExtendedFetchMetaMsg (E.order s.trace) 1 ExRequest i 0 []))
    let failed ← connWriteR E msg
    if failed then .now (PM.lift (logPanic b!"write request piece err"))
    else requestLoopR E n (i + 1)

/-- dht/peerwire/bep9.go:199-253 -/
def handleExtendedMsgR (E : PEnv) (readBytes : Slice) (data : Bytes) : RM Unit :=
  match data[1]? with
  | none => .now (PM.panic .runtime)
  | some msgId =>
    if msgId.toNat = 0 then do
      let dict ← RM.now (PM.lift (parseExtendedHandShake data))
      if ¬ Dict.Exist dict b!"metadata_size" then .now (PM.lift (logPanic b!"get extended handshake wrong format"))
      else do
        let metaSize ← RM.now (PM.lift (Dict.GetInteger dict b!"metadata_size"))
        RM.now (PM.modify fun s => { s with metaDataSize := metaSize })
        RM.now (makeSized E (pieceCount metaSize) 24)
        RM.now (PM.modify fun s => { s with metaData := List.replicate (pieceCount metaSize).toNat none })
        RM.now (makeSized E (pieceCount metaSize) 1)
        RM.now (PM.modify fun s => { s with requested := List.replicate (pieceCount metaSize).toNat false })
        RM.now (emitP (.announced metaSize))
        requestLoopR E (pieceCount metaSize).toNat 0
    else if msgId.toNat = 1 then do
      let resp ← RM.now (PM.lift (parseExtendedFetchMetaMsg data))
      if ExData ≠ resp.msgType then pure ()
      else do
        let s ← RM.now PM.get
        let slice : Option Slice := resp.dataOff.map fun n =>
          { readBytes with off := readBytes.off + n, len := readBytes.len - n, cap := readBytes.cap - n }
        match setAt s.metaData resp.pieceNum slice with
        | none => .now (PM.panic .runtime)
        | some md => do
          RM.now (PM.modify fun s => { s with metaData := md })
          match setAt s.requested resp.pieceNum true with
          | none => .now (PM.panic .runtime)
          | some rq => do
            RM.now (PM.modify fun s => { s with requested := rq })
            RM.now (emitP (.gotPiece resp.pieceNum.toNat))
    else pure ()

/-- dht/peerwire/bep9.go:179-195 -/
def handleMsgR (E : PEnv) (keepAlive : Bool) (readBytes : Option Slice) (err : Bool) : RM Unit :=
  if keepAlive then pure ()
  else if err then .now (PM.lift (logPanic b!"read prefix length err"))
  else
    match readBytes with
    | none => .now (PM.panic .runtime)
    | some rb => do
      let data ← loadSliceR E rb
      let t ← RM.now (PM.lift (parsePrefixLenMsg data))
      if t = ExtendedPeerMsg then handleExtendedMsgR E rb data else pure ()

/-- the deferred function dht/peerwire/bep9.go:174-178 -/
def putBackR (E : PEnv) (readBytes : Option Slice) : RM Unit :=
  match readBytes with
  | some rb => if rb.cap > 0 then poolPutR E rb else pure ()
  | none => pure ()

/-- dht/peerwire/bep9.go:170-196 -/
def readMetaDataHandlerR (E : PEnv) : RM Unit := do
  let r ← readBytesByPrefixLenMsgR E
  RM.deferred (handleMsgR E r.1 r.2.1 r.2.2) (putBackR E r.2.1)

/-- dht/peerwire/bep9.go:163-168; the first argument bounds the number of rounds -/
def readMetaDataLoopR (E : PEnv) : Nat → RM Unit
  | 0 => .now fun s => .diverge s
  | f + 1 => do
    let s ← RM.now PM.get
    if CompledMetaData s then pure ()
    else do
      let e ← RM.now (IsReadLoopExpire E)
      if e then pure ()
      else do
        readMetaDataHandlerR E
        readMetaDataLoopR E f

/-- dht/peerwire/bep9.go:256-262 -/
def initialMessagesR (E : PEnv) : RM Unit := do
  let s ← RM.now PM.get
  let msg ← RM.now (PM.lift (withExtendedhandShake (E.order s.trace) (some [(b!"ut_metadata", .int 1)]) none))
  let failed ← connWriteR E msg
  if failed then .now (PM.lift (logPanic b!"write extended handshake err")) else pure ()

/-- dht/peerwire/bep9.go:265-284 -/
def handshakePeerR (E : PEnv) (fold : FoldTable) (peerId infoHash : Bytes) : RM Unit := do
  let msg ← RM.now (PM.lift (withHandShakeMsg peerId infoHash))
  let failed ← connWriteR E msg
  if failed then .now (PM.lift (logPanic b!"write handshake err"))
  else do
    let r ← connReadNewR E handShakeLen
    if r.2 then .now (PM.lift (logPanic b!"get handshake response err"))
    else do
      let resp ← RM.now (PM.lift (parseHandShakeMsg r.1 []))
      if ¬ equalFold fold supportProtocolName resp.protocol then
        .now (PM.lift (logPanic b!"get handshake not support bittoroute protocol"))
      else do
        let ext ← RM.now (PM.lift resp.SupportExtended)
        if ¬ ext then .now (PM.lift (logPanic b!"get handshake not support extended protocol")) else pure ()

/-- the loop dht/peerwire/bep9.go:148-150 -/
def mergeLoopR (E : PEnv) : Nat → Nat → Bytes → RM Bytes
  | 0, _, result => pure result
  | n + 1, i, result => do
    let s ← RM.now PM.get
    match s.metaData[i]? with
    | none => .now (PM.panic .runtime)
    | some none => mergeLoopR E n (i + 1) result
    | some (some b) => do
      let d ← loadSliceR E b
      mergeLoopR E n (i + 1) (result ++ d)

/-- dht/peerwire/bep9.go:136-159 -/
def fetchBodyR (E : PEnv) (sha1 : Bytes → Bytes) (fold : FoldTable) (fuel : Nat) (peerId infoHash : Bytes) :
    RM (Option Bytes × Option Bytes) := do
  handshakePeerR E fold peerId infoHash
  initialMessagesR E
  readMetaDataLoopR E fuel
  let s ← RM.now PM.get
  if ¬ CompledMetaData s then pure (none, some b!"cannot completed download metadata")
  else do
    RM.now (makeSized E s.metaDataSize 1)
    let result ← mergeLoopR E s.requested.length 0 []
    if infoHash ≠ sha1 result then pure (none, some b!"check sum err")
    else pure (some result, none)

/-- the deferred function dht/peerwire/bep9.go:127-134, and what is returned -/
def FetchOut.of : POut (Option Bytes × Option Bytes) → FetchOut
  | .ok r s => .returned r.1 r.2 { s with trace := s.trace ++ [.close] }
  | .panic _ s => .returned none (some b!"FetchMetaData err") { s with trace := s.trace ++ [.close] }
  | .fatal s => .fatal s
  | .diverge s => .diverge s

/-! ## Many downloads -/

/-- One call of `FetchMetaData`: its connection, clock, memory limit, and arguments (`E.interfere` is not used). -/
structure Task where
  E : PEnv
  sha1 : Bytes → Bytes
  fold : FoldTable
  fuel : Nat
  peerId : Bytes
  infoHash : Bytes

/-- the call of `FetchMetaData` after it has got a connection -/
def Task.body (t : Task) (x : Shared) : Step (Option Bytes × Option Bytes) :=
  fetchBodyR t.E t.sha1 t.fold t.fuel t.peerId t.infoHash (NewPeerConn x.1 x.2)

/-- The goroutine of a download (cmd/root.go:70-80, one goroutine of the work pool each): not started, or how far it is. -/
inductive Thread where
  | idle
  | running (st : Step (Option Bytes × Option Bytes))

/-- its state when it stopped -/
def Step.state {α : Type} : Step α → PSt
  | .done (.ok _ s) => s
  | .done (.panic _ s) => s
  | .done (.fatal s) => s
  | .done (.diverge s) => s
  | .wait s _ => s

/-- All downloads, with the memory and pool (dht/peerwire/peer.go:22, a package variable) they share. -/
structure Net where
  shared : Shared
  threads : List Thread

/-- nothing started -/
def Net.fresh (x : Shared) (tasks : List Task) : Net := { shared := x, threads := tasks.map fun _ => .idle }

/-- One turn of goroutine `i`: up to its next use of something shared. -/
inductive TurnStep (tasks : List Task) (n : Net) (i : Nat) : Net → Prop where
  | start (t : Task) : tasks[i]? = some t → n.threads[i]? = some .idle → t.E.dialFails = false →
      TurnStep tasks n i { shared := ((t.body n.shared).state.mem, (t.body n.shared).state.pool), threads := n.threads.set i (.running (t.body n.shared)) }
  | resume (s : PSt) (k : Shared → Step (Option Bytes × Option Bytes)) : n.threads[i]? = some (.running (.wait s k)) →
      TurnStep tasks n i { shared := ((k n.shared).state.mem, (k n.shared).state.pool), threads := n.threads.set i (.running (k n.shared)) }

/-- Any schedule in which, whenever a download `i` goes on from state `s`, what it finds in memory and pool satisfies `R i s`. -/
def TurnStepIf (R : Nat → PSt → Shared → Prop) (tasks : List Task) (n m : Net) : Prop :=
  ∃ i, TurnStep tasks n i m ∧ ∀ s k, n.threads[i]? = some (.running (.wait s k)) → R i s n.shared

/-- Any schedule. -/
def TurnStepAny (tasks : List Task) (n m : Net) : Prop := ∃ i, TurnStep tasks n i m

end P2P

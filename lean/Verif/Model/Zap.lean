import Verif.Model.LogText
/-! # Model of misc/zap.go

`go.uber.org/zap` (1.14) is not part of the repository; what is assumed of it is written down in `zapCheck`: a record is
written iff its level is at least the core's; `Panic` panics after writing, whether or not the record was written; a level
outside zap's own range has no side effect. The JSON text and the rotation of the file (lumberjack) are left out: a record is
its level, message and fields. -/
namespace P2P

/-- `zapcore.Level`: Debug = -1, Info = 0, Warn = 1, Error = 2, DPanic = 3, Panic = 4, Fatal = 5 -/
abbrev ZapLevel := Int

/-- misc/zap.go:11-13 -/
def traceLevel : ZapLevel := 10

/-- a record in the log file -/
structure ZapRecord where
  level : ZapLevel
  msg : Bytes
  fields : List (Bytes × LogVal)

/-- What a logging call of zap does on a core of level `core`: the records written and the panic, if any. -/
def zapCheck (core lvl : ZapLevel) (msg : Bytes) (fields : List (Bytes × LogVal)) : List ZapRecord × Option Bytes :=
  (if core ≤ lvl then [{ level := lvl, msg, fields }] else [], if lvl = 4 then some msg else none)

/-- misc/zap.go:15-18; of the inner logger only the level of its core and the file matter -/
structure ZapLogger where
  pfx : Bytes
  core : ZapLevel
  file : Bytes
deriving DecidableEq

/-- misc/zap.go:94-107 -/
def parseLogLevel (logLevel : Bytes) : ZapLevel :=
  if logLevel = b!"DEBUG" then -1
  else if logLevel = b!"INFO" then 0
  else if logLevel = b!"ERROR" then 2
  else if logLevel = b!"PANIC" then 4
  else 0

/-- the loop misc/zap.go:115-118: `fs[i] = zap.Any(k, v); i++` over the entries in the order of iteration; `none` is an index
out of range -/
def fieldLoop (fs : List (Option (Bytes × LogVal))) (i : Nat) : List (Bytes × LogVal) → Option (List (Option (Bytes × LogVal)))
  | [] => some fs
  | e :: es => if i < fs.length then fieldLoop (fs.set i (some e)) (i + 1) es else none

/-- misc/zap.go:109-120; `none` is a nil `Dict`. An element that was never assigned is the zero `zap.Field`. -/
def convert2slice (ctx : Option (List (Bytes × LogVal))) : Option (List (Option (Bytes × LogVal))) :=
  match ctx with
  | none => some []
  | some [] => some []
  | some es => fieldLoop (List.replicate es.length none) 0 es

/-- the level of a method of the interface, misc/zap.go:20-60 -/
def LogMethod.zapLevel : LogMethod → ZapLevel
  | .Debug => -1
  | .Info => 0
  | .Warn => 1
  | .Error => 2
  | .Panic => 4
  | .Trace => traceLevel

/-- misc/zap.go:20-60: all six methods have this form (Trace calls `Check(traceLevel, msg).Write`, and `Write` on a nil entry
does nothing); `none` is a panic of `convert2slice`. Zero fields are skipped by zap. -/
def ZapLogger.call (l : ZapLogger) (m : LogMethod) (msg : Bytes) (ctx : Option (List (Bytes × LogVal))) :
    Option (List ZapRecord × Option Bytes) :=
  let msg := if l.pfx ≠ [] then l.pfx ++ msg else msg
  match convert2slice ctx with
  | none => none
  | some fs => some (zapCheck l.core m.zapLevel msg (fs.filterMap id))

/-- misc/zap.go:67-72 -/
def ZapLogger.SetPrefix (l : ZapLogger) (pfx : Bytes) : ZapLogger :=
  { pfx := b!"[" ++ pfx ++ b!"]", core := l.core, file := l.file }

/-- misc/zap.go:74-92 -/
def NewZapLogger (name logLevel : Bytes) : ZapLogger :=
  { pfx := [], core := parseLogLevel logLevel, file := b!"logs/" ++ name ++ b!".log" }

/-- dht/requesthandler.go:9 -/
def infoHashLogger : ZapLogger := NewZapLogger b!"infohash" b!"info"

end P2P

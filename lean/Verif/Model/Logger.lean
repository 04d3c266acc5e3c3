import Verif.Base
/-! # Model of misc/logger.go (console loggers)

A printed line is the level's name, the prefix and the message; its text, with the context and the time stamp, is in
`Model/LogText`. -/
namespace P2P

/-- misc/logger.go:10-19; the values 0 to 5. (A Go caller may convert any `int`; nobody does.) -/
inductive LogLevel where
  | debug
  | info
  | warn
  | error
  | panic
  | trace
deriving DecidableEq, Repr

/-- the number of the level, misc/logger.go:13-18 -/
def LogLevel.num : LogLevel → Nat
  | .debug => 0
  | .info => 1
  | .warn => 2
  | .error => 3
  | .panic => 4
  | .trace => 5

/-- misc/logger.go:134-137 -/
structure ConsoleLogger where
  pfx : Bytes
  level : LogLevel
deriving DecidableEq, Repr

/-- the logging methods of the interface, misc/logger.go:37-42 -/
inductive LogMethod where
  | Debug
  | Info
  | Warn
  | Error
  | Panic
  | Trace
deriving DecidableEq, Repr

structure LogLine where
  level : Bytes
  /-- with its brackets; empty without a prefix -/
  pfx : Bytes
  msg : Bytes
deriving DecidableEq, Repr

/-- misc/logger.go:153-161 -/
def ConsoleLogger.print (c : ConsoleLogger) (level msg : Bytes) : LogLine :=
  if c.pfx.length > 0 then { level, pfx := b!"[" ++ c.pfx ++ b!"]", msg } else { level, pfx := [], msg }

/-- A call of a logging method: the lines it prints and the value it panics with, if it does. -/
def ConsoleLogger.call (c : ConsoleLogger) (m : LogMethod) (msg : Bytes) : List LogLine × Option Bytes :=
  match m with
  /- misc/logger.go:146-151 -/
  | .Debug => if c.level.num > LogLevel.debug.num then ([], none) else ([c.print b!"Debug" msg], none)
  /- misc/logger.go:163-168 -/
  | .Info => if c.level.num > LogLevel.info.num then ([], none) else ([c.print b!"Info" msg], none)
  /- misc/logger.go:170-175 -/
  | .Warn => if c.level.num > LogLevel.warn.num then ([], none) else ([c.print b!"Warn" msg], none)
  /- misc/logger.go:177-182 -/
  | .Error => if c.level.num > LogLevel.error.num then ([], none) else ([c.print b!"Error" msg], none)
  /- misc/logger.go:184-190 -/
  | .Panic => if c.level.num > LogLevel.panic.num then ([], none) else ([c.print b!"Panic" msg], some msg)
  /- misc/logger.go:192-197 -/
  | .Trace => if c.level.num > LogLevel.trace.num then ([], none) else ([c.print b!"Trace" msg], none)

/-- misc/logger.go:139-144 -/
def ConsoleLogger.SetPrefix (c : ConsoleLogger) (pfx : Bytes) : ConsoleLogger := { pfx, level := c.level }

/-- misc/logger.go:46-56; the factory is the console factory (misc/logger.go:58) -/
structure LoggerReg where
  bufferedLoggers : Bytes → Option ConsoleLogger
  level : LogLevel

/-- misc/logger.go:53-56 -/
def LoggerReg.init : LoggerReg := { bufferedLoggers := fun _ => none, level := .info }

/-- misc/logger.go:60-72 with misc/logger.go:127-132 -/
def LoggerReg.mapLogger (b : LoggerReg) (name : Bytes) : ConsoleLogger × LoggerReg :=
  match b.bufferedLoggers name with
  | some v => (v, b)
  | none =>
    let logger : ConsoleLogger := { pfx := [], level := b.level }
    (logger, { b with bufferedLoggers := fun x => if x = name then some logger else b.bufferedLoggers x })

/-- misc/logger.go:99-102; the default name is empty (misc/logger.go:123-125) -/
def loggerName : List Bytes → Bytes
  | [] => []
  | n :: _ => n

/-- misc/logger.go:98-104 -/
def LoggerReg.GetLogger (b : LoggerReg) (names : List Bytes) : ConsoleLogger × LoggerReg := b.mapLogger (loggerName names)

/-- misc/logger.go:106-108 with 81-85 -/
def LoggerReg.SetLevel (b : LoggerReg) (level : LogLevel) : LoggerReg := { b with level }

/-- misc/logger.go:92-95 with the console factory -/
def LoggerReg.InitLogger (b : LoggerReg) (level : LogLevel) : LoggerReg := { b with level }

/-- misc/logger.go:21-28, 87-89. `strings.ToUpper` is the parameter `upper`; a missing key gives the zero value. -/
def TransLogLevel (upper : Bytes → Bytes) (name : Bytes) : LogLevel :=
  let u := upper name
  if u = b!"DEBUG" then .debug
  else if u = b!"INFO" then .info
  else if u = b!"WARN" then .warn
  else if u = b!"ERROR" then .error
  else if u = b!"PANIC" then .panic
  else if u = b!"TRACE" then .trace
  else .debug

/-- an operation on the package -/
inductive LogOp where
  | get (names : List Bytes)
  | setLevel (l : LogLevel)
  | initLogger (l : LogLevel)

/-- state after an operation -/
def LoggerReg.after (b : LoggerReg) : LogOp → LoggerReg
  | .get names => (b.GetLogger names).2
  | .setLevel l => b.SetLevel l
  | .initLogger l => b.InitLogger l

def LoggerReg.run (b : LoggerReg) (h : List LogOp) : LoggerReg := h.foldl LoggerReg.after b

/-- The package variables of the program that hold loggers: every one is `misc.GetLogger().SetPrefix(p)` (misc/shutdown.go:21,
misc/pprof.go:8, misc/workpool.go:10, config/config.go:21, dht/routetable.go:11, dht/peerwire/bep3.go:24,
dht/peerwire/bep9.go:119, dht/krpc/udp.go:11, dht/krpc/server.go:11, dht/dht.go:11). `names` is their list of prefixes in
the order of initialisation. -/
def packageLoggers (b : LoggerReg) : List Bytes → List ConsoleLogger × LoggerReg
  | [] => ([], b)
  | p :: ps =>
    let (l, b) := b.GetLogger []
    let (ls, b) := packageLoggers b ps
    (l.SetPrefix p :: ls, b)

end P2P

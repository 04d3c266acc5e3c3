import Verif.Model.Logger
/-! # Model of the text of log records and errors (misc/logger.go:153-223, misc/strings.go:10-25, misc/errors.go) -/
namespace P2P

/-- A value in a log context, as `ToString` sees it: what the type assertions to `string`, `error` and `fmt.Stringer` give
(with the result of the method), and what `json.Marshal` returns. -/
structure LogVal where
  asString : Option Bytes
  asError : Option Bytes
  asStringer : Option Bytes
  json : Except Bytes Bytes

/-- misc/strings.go:10-25 -/
def ToString (v : LogVal) : Bytes :=
  match v.asString with
  | some vs => vs
  | none =>
    match v.asError with
    | some vs => vs
    | none =>
      match v.asStringer with
      | some vs => vs
      | none =>
        match v.json with
        | .error e => e
        | .ok bytes => bytes

/-- the loop misc/logger.go:213-221; `es` are the entries in the order in which Go iterates over the map, `i` the counter,
`acc` the contents of the builder -/
def appendLoop (acc : Bytes) (i : Nat) : List (Bytes × LogVal) → Bytes
  | [] => acc
  | (k, v) :: es =>
    let acc := if i > 0 then acc ++ b!"|" else acc
    appendLoop (acc ++ k ++ b!":" ++ ToString v) (i + 1) es

/-- misc/logger.go:203-223; `none` is a nil `Dict` -/
def appendCtx (msg : Bytes) (ctx : Option (List (Bytes × LogVal))) : Bytes :=
  match ctx with
  | none => msg
  | some es => appendLoop (msg ++ b!", ") 0 es

/-- the verb `%6s` for an ASCII string -/
def padLeft6 (s : Bytes) : Bytes := List.replicate (6 - s.length) 32 ++ s

/-- misc/logger.go:153-161: what is written to standard output; `time` is the text of the clock -/
def ConsoleLogger.record (c : ConsoleLogger) (time level msg : Bytes) (ctx : Option (List (Bytes × LogVal))) : Bytes :=
  let msg := appendCtx msg ctx
  if c.pfx.length > 0 then time ++ b!" " ++ padLeft6 level ++ b!": [" ++ c.pfx ++ b!"]" ++ msg ++ b!"\r\n"
  else time ++ b!" " ++ padLeft6 level ++ b!": " ++ msg ++ b!"\r\n"

/-! ## misc/errors.go -/

/-- misc/errors.go:18-23 -/
structure MiscErr where
  code : Nat
  msg : Bytes
  /-- `nil` if no parameters were given -/
  context : Option (List LogVal)
  printStack : Bool

/-- the loop misc/errors.go:29-31 -/
def paramsLoop (acc : Bytes) : List LogVal → Bytes
  | [] => acc
  | v :: r => paramsLoop (acc ++ (ToString v ++ b!"|")) r

/-- misc/errors.go:25-35; `itoa` of the code and the stack are parameters -/
def MiscErr.Error (d : MiscErr) (stack : Bytes) : Bytes :=
  let errString := itoa d.code ++ b!": " ++ d.msg
  let errString :=
    match d.context with
    | none => errString
    | some ps => paramsLoop (errString ++ b!", params: ") ps
  errString ++ (b!"\r\nstacks:\r\n" ++ stack)

/-- misc/errors.go:37-44; a variadic call without arguments passes a nil slice -/
def NewError (code : Nat) (msg : Bytes) (printStack : Bool) (params : List LogVal) : MiscErr :=
  { code, msg, context := if params.isEmpty then none else some params, printStack }

/-- misc/errors.go:9-16 -/
def genericErr : Nat := 201

/-- misc/errors.go:46-48: the value it panics with -/
def PanicSysErr (errMsg : Bytes) (params : List LogVal) : MiscErr := NewError genericErr errMsg true params
/-- misc/errors.go:64-66 -/
def PanicBizErr (errMsg : Bytes) (params : List LogVal) : MiscErr := NewError genericErr errMsg false params
/-- misc/errors.go:50-55: `none` means that it returns -/
def PanicSysErrNonNil (err : Option LogVal) (errMsg : Bytes) (params : List LogVal) : Option MiscErr :=
  match err with
  | none => none
  | some e => some (NewError genericErr errMsg true (params ++ [e]))
/-- misc/errors.go:57-62 -/
def PanicBizErrNonNil (err : Option LogVal) (errMsg : Bytes) (params : List LogVal) : Option MiscErr :=
  match err with
  | none => none
  | some e => some (NewError genericErr errMsg false (params ++ [e]))

end P2P

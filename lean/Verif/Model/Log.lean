/-
The package log (/repo/log/log.go).

Not modelled: the formatting of messages by `fmt` (a message is what it formats to), time stamps and prefixes, replacing the loggers, and `Fatal` and `Panic`, which are not used by
the driver and do not look at the level.
-/
import Verif.Model.Messages
namespace Verif

/-- log.go 11-25 `Level`. -/
inductive LogLevel where
  | none | error | info | trace | traceBytes
  deriving DecidableEq, Repr

/-- The constants are numbered by `iota`. -/
def LogLevel.number : LogLevel → Nat
  | .none => 0
  | .error => 1
  | .info => 2
  | .trace => 3
  | .traceBytes => 4

/-- `strings.ToLower`, as far as it yields ASCII characters: those for capital letters, 'i' for U+0130 and 'k' for U+212A.  All other characters that are not ASCII have lower case
letters that are not ASCII either; they are left as they are here. -/
def lowerCase : Bytes → Bytes
  | 0xC4 :: 0xB0 :: b => 0x69 :: lowerCase b
  | 0xE2 :: 0x84 :: 0xAA :: b => 0x6B :: lowerCase b
  | c :: b => (if 0x41 ≤ c && c ≤ 0x5A then c + 0x20 else c) :: lowerCase b
  | [] => []

/-- log.go 40-53 `SetLevel`: the new level. -/
def levelNamed (name : Bytes) : LogLevel :=
  let l := lowerCase name
  if l = ascii "trace-bytes" then .traceBytes
  else if l = ascii "trace" then .trace
  else if l = ascii "info" then .info
  else if l = ascii "error" then .error
  else .none

/-- The digits of `%x`. -/
def hexDigit (n : UInt8) : UInt8 := if n < 10 then 0x30 + n else 0x57 + n

/-- `fmt.Sprintf("%x", b)` of a byte: no leading zero. -/
def hexByte (b : UInt8) : Bytes := if b < 16 then [hexDigit b] else [hexDigit (b / 16), hexDigit (b % 16)]

/-- log.go 62-71: the loop of `sprintByteHex`, from index `i` on. -/
def dumpFrom : Nat → Bytes → Bytes
  | _, [] => []
  | i, b :: bs =>
    hexByte b ++ (if (i + 1) % 16 = 0 then ascii "\n\n\t" else if (i + 1) % 4 = 0 then ascii "  " else ascii " ") ++ dumpFrom (i + 1) bs

/-- log.go 60-75 `sprintByteHex`. -/
def sprintByteHex (b : Bytes) : Bytes := ascii "\n" ++ b ++ ascii "\n\t" ++ dumpFrom 0 b ++ ascii "\n"

/-- log.go 27-37: the loggers. -/
inductive Logger where
  | error | info | trace | bytes
  deriving DecidableEq, Repr

/-- The variable `level`, and what has been printed. -/
structure LogState where
  level : LogLevel
  out : List (Logger × Bytes)

/-- log.go 28: the initial state. -/
def LogState.init : LogState := ⟨.none, []⟩

/-- The calls; `dumpBuffer none` is `TraceBytesFromBuf(nil)`. -/
inductive LogCall where
  | setLevel (name : Bytes)
  | error (msg : Bytes)
  | info (msg : Bytes)
  | trace (msg : Bytes)
  | dump (b : Bytes)
  | dumpBuffer (b : Option Bytes)

/-- log.go 85-91 `TraceBytes`. -/
def traceBytes (b : Bytes) (s : LogState) : LogState :=
  if LogLevel.traceBytes.number ≤ s.level.number then
    { s with out := s.out ++ [(.bytes, ascii "start byte printout"), (.bytes, sprintByteHex b), (.bytes, ascii "end byte printout")] }
  else s

/-- log.go 40-53 `SetLevel`, 77-83 `TraceBytesFromBuf`, 85-91 `TraceBytes`, 94-105 `Trace` and `Tracef`, 108-119 `Info` and `Infof`, 122-133 `Error` and `Errorf`. -/
def LogCall.run : LogCall → LogState → LogState
  | .setLevel name, s => { s with level := levelNamed name }
  | .error msg, s => if LogLevel.error.number ≤ s.level.number then { s with out := s.out ++ [(.error, msg)] } else s
  | .info msg, s => if LogLevel.info.number ≤ s.level.number then { s with out := s.out ++ [(.info, msg)] } else s
  | .trace msg, s => if LogLevel.trace.number ≤ s.level.number then { s with out := s.out ++ [(.trace, msg)] } else s
  | .dump b, s => traceBytes b s
  | .dumpBuffer none, s => s
  | .dumpBuffer (some b), s => traceBytes b s

/-- A sequence of calls. -/
def logRun (calls : List LogCall) (s : LogState) : LogState := calls.foldl (fun s c => c.run s) s

end Verif

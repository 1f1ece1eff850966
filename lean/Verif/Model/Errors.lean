/-
Errors (/repo/errors/errors.go).  The model keeps the chain of wrapped errors; format arguments and stack
traces are dropped, each message is represented by its constant format prefix.
-/
import Verif.Model.Bytes
namespace Verif

/-- Error values that can be returned by the driver.  `χ` is the type of FAILURE metadata
(/repo/structures/messages/responses.go 108-164: a `FailureMessage` is itself an `error`).
* `eof`, `unexpectedEOF`: `io.EOF`, `io.ErrUnexpectedEOF`
* `badConn`: `driver.ErrBadConn`
* `closed`: `errors.ErrClosed`-style sentinel of /repo/errors
* `plain`: errors made by `fmt.Errorf` or another package
* `bolt msg inner`: `*errors.Error` (errors.go 9-15) -/
inductive GoErr (χ : Type) where
  | eof
  | unexpectedEOF
  | badConn
  | failure (md : χ)
  | plain (msg : String)
  | bolt (msg : String) (inner : Option (GoErr χ))
  deriving Repr

namespace GoErr
variable {χ : Type}

/-- errors.go 17-24 `New`. -/
def new (msg : String) : GoErr χ := .bolt msg none

/-- errors.go 26-40 `Wrap` of a non-nil error.  Both branches build the same `msg`/`wrapped` pair; they differ only in
the stack trace, which is not modelled. -/
def wrap (e : GoErr χ) (msg : String) : GoErr χ := .bolt msg (some e)

/-- errors.go 47-50 `Inner` (only `*Error` has the method; `none` is Go `nil`). -/
def inner : GoErr χ → Option (GoErr χ)
  | .bolt _ i => i
  | _ => none

/-- errors.go 52-63 `InnerMost`.  On an error that is not a `*Error` (which has no such method) the model returns the
error itself, as the caller who unwraps by hand would. -/
def innerMost : GoErr χ → GoErr χ
  | .bolt m none => .bolt m none
  | .bolt _ (some e) => innerMost e
  | e => e

/-- `err.(*Error)` (errors.go 28, 58, 68). -/
def isBolt : GoErr χ → Bool
  | .bolt _ _ => true
  | _ => false

/-- errors.go 65-80 `error(level)`, as a list of characters.  `shown e` is `fmt.Sprintf("%T", e)` and `e.Error()` of an error of another package, `stack e` the text of
the stack trace kept in `e` (empty if there is none: errors.go 29-32). -/
def text (shown : GoErr χ → List Char × List Char) (stack : GoErr χ → List Char) : Nat → GoErr χ → List Char
  | level, .bolt msg none => List.replicate level '\t' ++ msg.toList ++ trailer (stack (.bolt msg none))
  | level, .bolt msg (some e) =>
    List.replicate level '\t' ++ msg.toList ++
      (if e.isBolt then '\n' :: text shown stack (level + 1) e
       else "\nInternal Error(".toList ++ (shown e).1 ++ "):".toList ++ (shown e).2) ++ trailer (stack (.bolt msg (some e)))
  | _, e => (shown e).2
where
  /-- errors.go 75-77. -/
  trailer (s : List Char) : List Char := if s = [] then [] else "\n\n Stack Trace:\n\n".toList ++ s

end GoErr
end Verif

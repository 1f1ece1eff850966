/-
The texts of the errors that /repo/connection/connection.go 106-153 gives for a connection string, which `Errors.lean` does not keep.
-/
import Verif.Model.Client
namespace Verif

/-- `fmt` verb `%q` of one byte of a string (`strconv.Quote`): printable ASCII characters as they are, except '"' and '\', which get a '\'.  `esc` is what is shown for the others; characters
that are not ASCII are left to it, too. -/
def quoteByte (esc : UInt8 → Bytes) (b : UInt8) : Bytes :=
  if b = 0x22 ∨ b = 0x5C then [0x5C, b]
  else if 0x20 ≤ b ∧ b ≤ 0x7E then [b]
  else esc b

/-- `fmt` verb `%q` of a string. -/
def quote (esc : UInt8 → Bytes) (s : Bytes) : Bytes := [0x22] ++ s.flatMap (quoteByte esc) ++ [0x22]

/-- url.go `Parse`: the string in the `url.Error`, without the fragment unless the fragment is what is wrong. -/
def parseErrorUrl (rawurl : Bytes) : Bytes :=
  match Url.parseNoFragment (Url.cut 0x23 rawurl).1 with
  | none => (Url.cut 0x23 rawurl).1
  | some _ => rawurl

/-- connection.go 107-138: the text of the error for a connection string, `none` if there is no error.  `why` is the reason `net/url` gives (url.go `Error`: operation, URL in `%q`, reason; before Go 1.14 the URL is not quoted),
`stack` the stack trace in an `errors.Error` (errors.go 75-77). -/
def configErrorText (semi : Bool) (esc : UInt8 → Bytes) (why : Bytes → Bytes) (stack : Bytes) (connStr : Bytes) : Option Bytes :=
  match Url.parse connStr with
  | none => some (ascii "an error occurred parsing bolt URL, parse " ++ quote esc (parseErrorUrl connStr) ++ ascii ": " ++ why connStr)
  | some u =>
    if Url.toLower u.scheme ≠ ascii "bolt" ∧ Url.toLower u.scheme ≠ ascii "bolt+routing" then
      some (ascii "unsupported connection string scheme: " ++ u.scheme ++ ascii ". Driver only supports 'bolt' and 'bolt+routing' scheme")
    else match u.user with
      | some (_, none) => some (ascii "must specify password when passing user" ++ stack)
      | _ =>
        let t := Url.get semi u (ascii "timeout")
        if t = [] then none
        else match Url.atoi t with
          | none => some (ascii "Invalid format for timeout: " ++ t ++ ascii ".  Must be integer")
          | some _ => none

end Verif

/-
The part of Go's standard library that turns a connection string into a configuration: `net/url` (`Parse`, `Userinfo`, `Query().Get`), `strconv.Atoi` and string functions, as used in
/repo/connection/connection.go 106-153 and /repo/client.go 98-200.

`net/url` is not part of /repo; the functions below follow its published source (url.go: `parse`, `getscheme`, `parseAuthority`, `parseHost`, `unescape`, `shouldEscape`, `validUserinfo`,
`parseQuery`).  Paths, opaque parts and fragments are parsed only to find out whether there is an error, since /repo does not use them.
-/
import Verif.Model.Bytes
namespace Verif.Url

/-- `strings.Index(s, c)` and the two parts: before the first `c`, and after it (`none`: no `c`). -/
def cut (c : UInt8) : Bytes → Bytes × Option Bytes
  | [] => ([], none)
  | x :: xs => if x = c then ([], some xs) else (x :: (cut c xs).1, (cut c xs).2)

/-- `strings.LastIndex(s, c)` and the two parts. -/
def lastCut (c : UInt8) : Bytes → Option (Bytes × Bytes)
  | [] => none
  | x :: xs =>
    match lastCut c xs with
    | some (a, b) => some (x :: a, b)
    | none => if x = c then some ([], xs) else none

/-- `strings.Contains(s, t)`. -/
def contains (t : Bytes) : Bytes → Bool
  | [] => t.isEmpty
  | x :: xs => t.isPrefixOf (x :: xs) || contains t xs

/-- `strings.Index(s, t)` and the parts before `t`, and from `t` on. -/
def before (t : Bytes) : Bytes → Option (Bytes × Bytes)
  | [] => if t = [] then some ([], []) else none
  | x :: xs => if t.isPrefixOf (x :: xs) then some ([], x :: xs) else (before t xs).map fun p => (x :: p.1, p.2)

/-- `strings.Split(s, string(c))`. -/
def splitAll (c : UInt8) : Bytes → List Bytes
  | [] => [[]]
  | x :: xs =>
    match splitAll c xs with
    | [] => [[]]
    | p :: ps => if x = c then [] :: p :: ps else (x :: p) :: ps

/-- 'a'-'z' -/
def isLower (b : UInt8) : Bool := 0x61 ≤ b && b ≤ 0x7A
/-- 'A'-'Z' -/
def isUpper (b : UInt8) : Bool := 0x41 ≤ b && b ≤ 0x5A
/-- '0'-'9' -/
def isDigit (b : UInt8) : Bool := 0x30 ≤ b && b ≤ 0x39
/-- Letters and digits. -/
def isAlnum (b : UInt8) : Bool := isLower b || isUpper b || isDigit b

/-- `strings.ToLower` of an ASCII string.  (Other characters never matter: the result is compared with ASCII strings, or tested for the prefix "t".  No other character is lower-cased
to 't'; the Kelvin sign, lower-cased to 'k', cannot occur in a scheme.) -/
def toLower (s : Bytes) : Bytes := s.map fun b => if isUpper b then b + 0x20 else b

/-- url.go `encoding`. -/
inductive Mode where
  | path | user | host | zone | query | fragment
  deriving DecidableEq

/-- url.go `ishex`. -/
def ishex (b : UInt8) : Bool := isDigit b || (0x61 ≤ b && b ≤ 0x66) || (0x41 ≤ b && b ≤ 0x46)

/-- url.go `unhex`. -/
def unhex (b : UInt8) : UInt8 := if isDigit b then b - 0x30 else if 0x61 ≤ b then b - 0x61 + 10 else b - 0x41 + 10

/-- url.go `shouldEscape(c, encodeHost)`, negated: letters, digits, `!$&'()*+,;=:[]<>"` and `-_.~`. -/
def hostChar (b : UInt8) : Bool :=
  isAlnum b || [0x21, 0x24, 0x26, 0x27, 0x28, 0x29, 0x2A, 0x2B, 0x2C, 0x3B, 0x3D, 0x3A, 0x5B, 0x5D, 0x3C, 0x3E, 0x22, 0x2D, 0x5F, 0x2E, 0x7E].contains b

/-- url.go `unescape`; `none`: error. -/
def unescape (m : Mode) : Bytes → Option Bytes
  | [] => some []
  | c :: rest =>
    if c = 0x25 then
      match rest with
      | a :: b :: rest' =>
        if (ishex a && ishex b) = false then none
        else if m = .host ∧ unhex a < 8 ∧ ¬ (a = 0x32 ∧ b = 0x35) then none
        else if m = .zone ∧ ¬ (a = 0x32 ∧ b = 0x35) ∧ unhex a * 16 + unhex b ≠ 0x20 ∧ hostChar (unhex a * 16 + unhex b) = false then none
        else (unescape m rest').map fun r => (unhex a * 16 + unhex b) :: r
      | _ => none
    else if c = 0x2B then (unescape m rest).map fun r => (if m = .query then 0x20 else 0x2B) :: r
    else if (m = .host ∨ m = .zone) ∧ c < 0x80 ∧ hostChar c = false then none
    else (unescape m rest).map fun r => c :: r

/-- url.go `validUserinfo`: letters, digits and `-._:~!$&'()*+,;=%@`.  (Go looks at code points; a byte of 0x80 or more is part of one that is refused.) -/
def validUserinfo (s : Bytes) : Bool :=
  s.all fun b => isAlnum b || [0x2D, 0x2E, 0x5F, 0x3A, 0x7E, 0x21, 0x24, 0x26, 0x27, 0x28, 0x29, 0x2A, 0x2B, 0x2C, 0x3B, 0x3D, 0x25, 0x40].contains b

/-- url.go `validOptionalPort`. -/
def validOptionalPort : Bytes → Bool
  | [] => true
  | c :: ds => c = 0x3A && ds.all isDigit

/-- url.go `parseHost`; `none`: error. -/
def parseHost (host : Bytes) : Option Bytes :=
  match host with
  | 0x5B :: _ =>
    match lastCut 0x5D host with
    | none => none
    | some (inner, colonPort) =>
      if validOptionalPort colonPort = false then none
      else match before [0x25, 0x32, 0x35] inner with
        | some (h1, h2) => do
          let h1 ← unescape .host h1
          let h2 ← unescape .zone h2
          let h3 ← unescape .host (0x5D :: colonPort)
          some (h1 ++ h2 ++ h3)
        | none => unescape .host host
  | _ =>
    match lastCut 0x3A host with
    | some (_, port) => if port.all isDigit then unescape .host host else none
    | none => unescape .host host

/-- `*url.Userinfo`: user name, and the password if there is one. -/
abbrev Userinfo := Option (Bytes × Option Bytes)

/-- url.go `parseAuthority`; `none`: error. -/
def parseAuthority (authority : Bytes) : Option (Userinfo × Bytes) :=
  match lastCut 0x40 authority with
  | none => (parseHost authority).map fun h => (none, h)
  | some (userinfo, host) => do
    let h ← parseHost host
    if validUserinfo userinfo = false then none
    else match cut 0x3A userinfo with
      | (u, none) => do
        let u ← unescape .user u
        some (some (u, none), h)
      | (u, some p) => do
        let u ← unescape .user u
        let p ← unescape .user p
        some (some (u, some p), h)

/-- What /repo uses of a `url.URL`. -/
structure URL where
  scheme : Bytes
  user : Userinfo
  host : Bytes
  rawQuery : Bytes

/-- url.go `getscheme`, from position `i`: the scheme and the rest; `none`: error. -/
def getschemeFrom (whole : Bytes) : (first : Bool) → (acc : Bytes) → Bytes → Option (Bytes × Bytes)
  | _, _, [] => some ([], whole)
  | first, acc, c :: cs =>
    if isLower c || isUpper c then getschemeFrom whole false (acc ++ [c]) cs
    else if isDigit c || c = 0x2B || c = 0x2D || c = 0x2E then
      if first then some ([], whole) else getschemeFrom whole false (acc ++ [c]) cs
    else if c = 0x3A then
      if first then none else some (acc, cs)
    else some ([], whole)

/-- url.go `getscheme`. -/
def getscheme (s : Bytes) : Option (Bytes × Bytes) := getschemeFrom s true [] s

/-- url.go `parse(rawurl, false)`, after the fragment has been removed. -/
def parseNoFragment (rawurl : Bytes) : Option URL := do
  -- stringContainsCTLByte
  if rawurl.any fun b => b < 0x20 || b = 0x7F then none
  else if rawurl = [0x2A] then some ⟨[], none, [], []⟩
  else do
    let (scheme, rest) ← getscheme rawurl
    let scheme := toLower scheme
    -- a single trailing "?" (ForceQuery) also leaves an empty query
    let (rest, q) := cut 0x3F rest
    let query := q.getD []
    if rest.head? ≠ some 0x2F then
      if scheme ≠ [] then some ⟨scheme, none, [], query⟩
      else
        let seg := (cut 0x2F rest).1
        if seg.contains 0x3A then none
        else do
          let _ ← unescape .path rest
          some ⟨scheme, none, [], query⟩
    else if (scheme ≠ [] ∨ ¬ [0x2F, 0x2F, 0x2F].isPrefixOf rest = true) ∧ [0x2F, 0x2F].isPrefixOf rest = true then do
      let (authority, path) := cut 0x2F (rest.drop 2)
      let (user, host) ← parseAuthority authority
      let _ ← unescape .path ((path.map fun p => 0x2F :: p).getD [])
      some ⟨scheme, user, host, query⟩
    else do
      let _ ← unescape .path rest
      some ⟨scheme, none, [], query⟩

/-- url.go `Parse`. -/
def parse (rawurl : Bytes) : Option URL := do
  let (u, frag) := cut 0x23 rawurl
  let url ← parseNoFragment u
  let _ ← unescape .fragment (frag.getD [])
  some url

/-- One `key=value` of url.go `parseQuery`; `none`: skipped because of an error or because it is empty.  `semi`: the Go version is older than 1.17 and separates at ';' too; later
versions skip pairs that contain a ';'. -/
def parsePair (semi : Bool) (s : Bytes) : Option (Bytes × Bytes) :=
  if s = [] then none
  else if semi = false ∧ s.contains 0x3B = true then none
  else
    let (k, v) := cut 0x3D s
    do
      let k ← unescape .query k
      let v ← unescape .query (v.getD [])
      some (k, v)

/-- The pairs of a query, in order (`URL.Query`, ignoring errors). -/
def pairs (semi : Bool) (query : Bytes) : List (Bytes × Bytes) :=
  ((splitAll 0x26 query).flatMap fun s => if semi then splitAll 0x3B s else [s]).filterMap (parsePair semi)

/-- `_url.Query().Get(key)`: the first value, "" if there is none. -/
def get (semi : Bool) (u : URL) (key : Bytes) : Bytes :=
  match (pairs semi u.rawQuery).find? fun p => p.1 = key with
  | some p => p.2
  | none => []

/-- Value of a string of decimal digits. -/
def digitsVal (s : Bytes) : Nat := s.foldl (fun n b => n * 10 + (b.toNat - 0x30)) 0

/-- `strconv.Atoi(s)` and `strconv.ParseInt(s, 10, 64)` on a 64-bit machine; `none`: error. -/
def atoi (s : Bytes) : Option Int :=
  let (neg, ds) := match s with
    | 0x2B :: ds => (false, ds)
    | 0x2D :: ds => (true, ds)
    | ds => (false, ds)
  if ds = [] ∨ ds.all isDigit = false then none
  else
    let n : Int := if neg then - (digitsVal ds : Int) else digitsVal ds
    if n < - 2 ^ 63 ∨ 2 ^ 63 ≤ n then none else some n

/-- `fmt.Sprintf("%v", n)` of a natural number, with at most `fuel` digits. -/
def decimalF : Nat → Nat → Bytes
  | 0, _ => []
  | fuel + 1, n => if n < 10 then [UInt8.ofNat (0x30 + n)] else decimalF fuel (n / 10) ++ [UInt8.ofNat (0x30 + n % 10)]

/-- `fmt.Sprintf("%v", n)` of a natural number. -/
def decimal (n : Nat) : Bytes := decimalF (n + 1) n

/-- `fmt.Sprintf("%t", b)`. -/
def showBool (b : Bool) : Bytes := if b then [0x74, 0x72, 0x75, 0x65] else [0x66, 0x61, 0x6C, 0x73, 0x65]

end Verif.Url

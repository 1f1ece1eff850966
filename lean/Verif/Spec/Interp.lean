/-
What a PackStream tree means as a Go value (independent of the decoder's byte handling).
-/
import Verif.Spec.Tree
namespace Verif.Spec

def isStr : Val → Bool
  | .str _ => true
  | _ => false

def isNode : Val → Bool
  | .struct .node _ => true
  | _ => false

def isURel : Val → Bool
  | .struct .unboundRelationship _ => true
  | _ => false

/-- Sequence numbers of a path have Go type `int`. -/
def toInts : List Val → Option (List Val)
  | [] => some []
  | .int .int64 n :: vs => (toInts vs).map (.int .int n :: ·)
  | _ :: _ => none

/-- Seconds and nanoseconds, normalised so that the nanoseconds are in `[0, 10^9)`. -/
def normalise (sec nsec : Int) : Int × Int :=
  if 0 ≤ nsec ∧ nsec < 1000000000 then (sec, nsec) else (Int.bmod (sec + nsec / 1000000000) (2 ^ 64), nsec % 1000000000)

/-- The date-time that a clock in a zone shows, as seconds and nanoseconds `w`: an instant at which it does.  Around changes of the offset there may be several, or none; nothing is
claimed then (see C21), unless the offset at `w`, read as an instant, leads to one. -/
def zonedTime (off : Int → Int) (w : Int × Int) : Option Val :=
  let t := w.1 - off w.1
  if (-2 ^ 62 ≤ t ∧ t < 2 ^ 62) ∧ t + off t = w.1 then some (.time t w.2 (off t)) else none

/-- The structure types of the protocol: the Go value for a structure with signature `sig` and fields `fs`, if the fields have
the number and types that the structure requires. -/
def structOf (env : Env) (ver : Ver) (sig : UInt8) (fs : List Val) : Option Val :=
  if sig = 0x4E then
    match fs with
    | [.int .int64 id, .list true ls, .map m] =>
      if ls.all isStr then some (.struct .node [.int .int64 id, .list true ls, .map m]) else none
    | _ => none
  else if sig = 0x52 then
    match fs with
    | [.int .int64 a, .int .int64 b, .int .int64 c, .str t, .map m] =>
      some (.struct .relationship [.int .int64 a, .int .int64 b, .int .int64 c, .str t, .map m])
    | _ => none
  else if sig = 0x72 then
    match fs with
    | [.int .int64 a, .str t, .map m] => some (.struct .unboundRelationship [.int .int64 a, .str t, .map m])
    | _ => none
  else if sig = 0x50 then
    match fs with
    | [.list true ns, .list true rs, .list true ss] =>
      if ns.all isNode ∧ rs.all isURel then
        (toInts ss).map fun ss' => .struct .path [.list true ns, .list true rs, .list true ss']
      else none
    | _ => none
  else if sig = 0x71 then
    match fs with
    | [.list true vs] => some (.struct .record [.list true vs])
    | _ => none
  else if sig = 0x7F then
    match fs with
    | [.map m] => some (.struct .failure [.map m])
    | _ => none
  else if sig = 0x70 then
    match fs with
    | [.map m] => some (.struct .success [.map m])
    | _ => none
  else if sig = 0x7E then if fs.isEmpty then some (.struct .ignored []) else none
  else if sig = 0x2F then if fs.isEmpty then some (.struct .discardAll []) else none
  else if sig = 0x3F then if fs.isEmpty then some (.struct .pullAll []) else none
  else if sig = 0x0F then if fs.isEmpty then some (.struct .reset []) else none
  else if ver = .v1 then none
  else if sig = 0x58 then
    match fs with
    | [.int .int64 srid, .float64 x, .float64 y] =>
      some (.struct (.point2D false) [.int .int srid, .float64 x, .float64 y])
    | _ => none
  else if sig = 0x59 then
    match fs with
    | [.int .int64 srid, .float64 x, .float64 y, .float64 z] =>
      some (.struct (.point3D false) [.int .int srid, .float64 x, .float64 y, .float64 z])
    | _ => none
  else if sig = 0x44 then
    match fs with
    | [.int .int64 d] => some (.date d)
    | _ => none
  else if sig = 0x54 then
    match fs with
    | [.int .int64 n, .int .int64 o] => some (.clock n o)
    | _ => none
  else if sig = 0x74 then
    match fs with
    | [.int .int64 n] => some (.localClock n)
    | _ => none
  else if sig = 0x64 then
    match fs with
    | [.int .int64 s, .int .int64 n] => some (.localTime s n)
    | _ => none
  else if sig = 0x46 then
    match fs with
    | [.int .int64 s, .int .int64 n, .int .int64 o] =>
      if (-2 ^ 62 ≤ (normalise s n).1 - o ∧ (normalise s n).1 - o < 2 ^ 62) ∧ -2 ^ 31 ≤ o ∧ o < 2 ^ 31 then some (.time ((normalise s n).1 - o) (normalise s n).2 o)
      else none
    | _ => none
  else if sig = 0x66 then
    match fs with
    | [.int .int64 s, .int .int64 n, .str z] => (env.tz z).bind fun off => zonedTime off (normalise s n)
    | _ => none
  else none

mutual
/-- Meaning of a tree. Repeated keys of a map: the last one wins. -/
def interp (env : Env) (ver : Ver) : PS → Option Val
  | .null => some .nil
  | .bool b => some (.bool b)
  | .int n => some (.int .int64 n)
  | .float w => some (.float64 w)
  | .str s => some (.str s)
  | .list ts => (interpList env ver ts).map (.list true)
  | .map es => (interpEntries env ver es []).map .map
  | .struct sig fs => (interpList env ver fs).bind (structOf env ver sig)

def interpList (env : Env) (ver : Ver) : List PS → Option (List Val)
  | [] => some []
  | t :: ts => (interp env ver t).bind fun v => (interpList env ver ts).map (v :: ·)

/-- `acc` holds the entries read so far. -/
def interpEntries (env : Env) (ver : Ver) : List (Bytes × PS) → Entries → Option Entries
  | [], acc => some acc
  | (k, t) :: es, acc => (interp env ver t).bind fun v => interpEntries env ver es (mapInsert acc k v)
end

end Verif.Spec

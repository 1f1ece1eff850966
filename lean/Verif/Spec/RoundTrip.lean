/-
Which Go values can be decoded again, and what the decoded value looks like.  Independent of encoder and decoder.
-/
import Verif.Spec.Tree
namespace Verif.Spec

/-- An integer as Go type `int`. -/
def asInt : Val → Val
  | .int _ n => .int .int n
  | v => v

/-- The structure types in which integers are Go `int`s after decoding: the sequence of a path, the SRID of a point.  A point pointer is
decoded to a point value. -/
def retype : StructKind → List Val → Val
  | .path, [ns, rs, .list b ss] => .struct .path [ns, rs, .list b (ss.map asInt)]
  | .point2D _, s :: fs => .struct (.point2D false) (asInt s :: fs)
  | .point3D _, s :: fs => .struct (.point3D false) (asInt s :: fs)
  | k, fs => .struct k fs

mutual
/-- The canonical decoded form of a value: integers are `int64`, floats `float64`, slices `[]interface{}`; everything else is
unchanged. -/
def canon (env : Env) : Val → Val
  | .int _ n => .int .int64 n
  | .float32 b => .float64 (env.f32 b)
  | .list _ vs => .list true (canonList env vs)
  | .map es => .map (canonEntries env es)
  | .struct k fs => retype k (canonList env fs)
  | v => v

def canonList (env : Env) : List Val → List Val
  | [] => []
  | v :: vs => canon env v :: canonList env vs

def canonEntries (env : Env) : Entries → Entries
  | [] => []
  | (k, v) :: es => (k, canon env v) :: canonEntries env es
end

/-- Shape of the values that can come back from a peer, as guaranteed by their Go types: the keys of a map are distinct, graph and
response structures have the fields of their Go struct.  Request structures (RUN, BEGIN, ...), durations (C22) and user defined structures
are not decodable. -/
def decodable (ver : Ver) : Val → Prop
  | .map es => (es.map Prod.fst).Nodup
  | .struct .node fs => ∃ id b ls m, fs = [.int .int64 id, .list b ls, .map m] ∧ ∀ l ∈ ls, ∃ s, l = .str s
  | .struct .relationship fs =>
    ∃ id s e t m, fs = [.int .int64 id, .int .int64 s, .int .int64 e, .str t, .map m]
  | .struct .unboundRelationship fs => ∃ id t m, fs = [.int .int64 id, .str t, .map m]
  | .struct .path fs =>
    ∃ b1 ns b2 rs b3 ss, fs = [.list b1 ns, .list b2 rs, .list b3 ss] ∧
      (∀ n ∈ ns, ∃ f, n = .struct .node f) ∧ (∀ r ∈ rs, ∃ f, r = .struct .unboundRelationship f) ∧
      (∀ s ∈ ss, ∃ n, s = .int .int n)
  | .struct .record fs => ∃ b vs, fs = [.list b vs]
  | .struct .success fs => ∃ m, fs = [.map m]
  | .struct .failure fs => ∃ m, fs = [.map m]
  | .struct .ignored fs => fs = []
  | .struct .discardAll fs => fs = []
  | .struct .pullAll fs => fs = []
  | .struct .reset fs => fs = []
  | .struct (.point2D ptr) fs => ver = .v2 ∧ ptr = true ∧ ∃ s x y, fs = [.int .int s, .float64 x, .float64 y]
  | .struct (.point3D ptr) fs =>
    ver = .v2 ∧ ptr = true ∧ ∃ s x y z, fs = [.int .int s, .float64 x, .float64 y, .float64 z]
  | .struct _ _ => False
  | .date _ => ver = .v2
  | .clock _ _ => ver = .v2
  | .localClock _ => ver = .v2
  | .localTime _ _ => ver = .v2
  | .time _ _ _ => ver = .v2
  | .duration _ => False
  | .other => False
  | _ => True

end Verif.Spec

namespace Verif.Spec

/-- Lengths (in bytes, elements, entries) that the decoder can read back (C04), and integers that fit 64 bits. -/
def readable : Val → Prop
  | .int _ n => -2 ^ 63 ≤ n ∧ n < 2 ^ 63
  | .str s => readableLen s.length
  | .list _ vs => readableLen vs.length
  | .map es => readableLen es.length ∧ ∀ e ∈ es, readableLen e.1.length
  | _ => True

/-- No string and no map key is longer than `m` bytes. -/
def strAtMost (m : Nat) : Val → Prop
  | .str s => s.length ≤ m
  | .map es => ∀ e ∈ es, e.1.length ≤ m
  | _ => True

end Verif.Spec

/-
C07  Chunked framing is lossless (messages whose strings fit a chunk; longer strings are the subject of C09).
-/
import Verif.Props.C05
import Verif.Proofs.Writes
namespace Verif
open Spec

/-- For every chunk size from 8 to 65535 and every accepted value whose strings are not longer than a chunk: the bytes written are non-empty
chunks with correct headers, followed by one `00 00`, and the chunks concatenate to the payload. -/
theorem C07_framing (env : Env) (ver : Ver) (cs : Nat) (h8 : 8 ≤ cs) (hcs : cs ≤ 65535) (v : Val) (hs : v.All (strAtMost cs))
    (he : (encode env ver v).2 = none) :
    (encodeMsg env ver cs v).2 = none ∧ Framed (payload env ver v) (encodeMsg env ver cs v).1.flatten :=
  encodeMsg_framed env ver h8 hcs hs he

/-- Every chunk size from 1 to 65535, for every message of at most 65535 bytes. -/
theorem C07_framing_small (env : Env) (ver : Ver) (cs : Nat) (h1 : 1 ≤ cs) (hcs : cs ≤ 65535) (v : Val)
    (hs : (payload env ver v).length ≤ 65535) (he : (encode env ver v).2 = none) :
    (encodeMsg env ver cs v).2 = none ∧ Framed (payload env ver v) (encodeMsg env ver cs v).1.flatten :=
  encodeMsg_framed_small env ver h1 hcs hs he

/-- The chunk boundaries do not fall together with the values: three chunks for a 37-byte message. -/
example (env : Env) : (8 ≤ 16 ∧ 16 ≤ 65535) ∧ (Val.list true [.str [1, 2, 3], .int .int 100000, .float64 5, .float64 6, .float64 7]).All
    (strAtMost 16) ∧ (encode env .v2 (.list true [.str [1, 2, 3], .int .int 100000, .float64 5, .float64 6, .float64 7])).2 = none ∧
    (payload env .v2 (.list true [.str [1, 2, 3], .int .int 100000, .float64 5, .float64 6, .float64 7])).length = 37 := by
  refine ⟨by omega, ?_, rfl, rfl⟩
  simp [Val.All, AllList, strAtMost]

end Verif

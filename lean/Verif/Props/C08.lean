/-
C08  The chunk size never changes what the peer decodes.
-/
import Verif.Props.C07
import Verif.Model.Frame
namespace Verif
open Spec

/-- For every accepted value and any two chunk sizes that its strings fit, the receiver reads the same message from both streams - with
the streams cut into reads in any way, followed by anything. -/
theorem C08_chunk_size_irrelevant (env : Env) (ver ver' : Ver) (c1 c2 : Nat) (h1 : 8 ≤ c1) (h1' : c1 ≤ 65535) (h2 : 8 ≤ c2)
    (h2' : c2 ≤ 65535) (v : Val) (hs1 : v.All (strAtMost c1)) (hs2 : v.All (strAtMost c2)) (he : (encode env ver v).2 = none)
    (fin fin' : StreamEnd) (segs segs' : List Bytes) (rest : Bytes) (hg : segs.flatten = (encodeMsg env ver c1 v).1.flatten ++ rest)
    (hg' : segs'.flatten = (encodeMsg env ver c2 v).1.flatten ++ rest) :
    ∃ p r r', readMsg fin segs = .ok p r ∧ readMsg fin' segs' = .ok p r' ∧ r.flatten = rest ∧ r'.flatten = rest ∧
      ((∃ w, decodeMsg env ver' fin segs = .ok w r ∧ decodeMsg env ver' fin' segs' = .ok w r') ∨
       (∃ e, decodeMsg env ver' fin segs = .err e r ∧ decodeMsg env ver' fin' segs' = .err e r') ∨
       (decodeMsg env ver' fin segs = .panic ∧ decodeMsg env ver' fin' segs' = .panic) ∨
       (decodeMsg env ver' fin segs = .fuel ∧ decodeMsg env ver' fin' segs' = .fuel)) := by
  obtain ⟨_, f1⟩ := C07_framing env ver c1 h1 h1' v hs1 he
  obtain ⟨_, f2⟩ := C07_framing env ver c2 h2 h2' v hs2 he
  obtain ⟨r, g1, g2⟩ := readMsg_framed f1 fin hg
  obtain ⟨r', g3, g4⟩ := readMsg_framed f2 fin' hg'
  refine ⟨payload env ver v, r, r', g1, g3, g2, g4, ?_⟩
  unfold decodeMsg
  rw [g1, g3]
  dsimp only
  cases decode env ver' (payload env ver v) with
  | ok p => exact .inl ⟨p.1, rfl, rfl⟩
  | err e => exact .inr (.inl ⟨e, rfl, rfl⟩)
  | panic => exact .inr (.inr (.inl ⟨rfl, rfl⟩))
  | fuel => exact .inr (.inr (.inr ⟨rfl, rfl⟩))

/-- Chunk sizes 8 and 65535 for a message of several chunks, followed by another byte, read one byte at a time / at once. -/
example (env : Env) : ∃ v : Val, v.All (strAtMost 8) ∧ v.All (strAtMost 65535) ∧ (encode env .v2 v).2 = none ∧
    ((((encodeMsg env .v2 8 v).1.flatten ++ [7]).map fun x => [x]).flatten = (encodeMsg env .v2 8 v).1.flatten ++ [7]) ∧
    (encodeMsg env .v2 8 v).1.flatten.length = 38 ∧ (encodeMsg env .v2 65535 v).1.flatten.length = 32 := by
  refine ⟨.list true [.str [1, 2, 3], .int .int 100000, .float64 5, .float64 6], ?_, ?_, rfl, rfl, ?_, ?_⟩
  · simp [Val.All, AllList, strAtMost]
  · simp [Val.All, AllList, strAtMost]
  · rfl
  · rfl

end Verif

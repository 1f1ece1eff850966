/-
C10  Decoding does not depend on how the network fragments the stream.
-/
import Verif.Proofs.Framing
namespace Verif
open Spec

/-- Outcome of `Decode` with the unread bytes joined. -/
inductive DFlat where
  | ok (v : Val) (rest : Bytes)
  | err (e : Err) (rest : Bytes)
  | panic
  | fuel

def DRes.flat : DRes → DFlat
  | .ok v s => .ok v s.flatten
  | .err e s => .err e s.flatten
  | .panic => .panic
  | .fuel => .fuel

/-- For every byte stream and every two ways of cutting it into reads: `Decode` has the same outcome (value, error with the same chain,
or panic) and leaves the same bytes unread. -/
theorem C10_fragmentation (env : Env) (ver : Ver) (fin : StreamEnd) (segs segs' : List Bytes) (h : segs.flatten = segs'.flatten) :
    (decodeMsg env ver fin segs).flat = (decodeMsg env ver fin segs').flat := by
  have h1 := readMsg_flat fin segs
  have h2 := readMsg_flat fin segs'
  rw [h, ← h2] at h1
  unfold decodeMsg
  cases hr : readMsg fin segs with
  | ok a s =>
    cases hr' : readMsg fin segs' with
    | ok a' s' =>
      rw [hr, hr'] at h1
      simp only [RRes.flat, FRes.ok.injEq] at h1
      obtain ⟨rfl, h1⟩ := h1
      simp only
      cases decode env ver a with
      | ok p => obtain ⟨v, r⟩ := p; simp [DRes.flat, h1]
      | err e => simp [DRes.flat, h1]
      | panic => rfl
      | fuel => rfl
    | err e' s' => rw [hr, hr'] at h1; simp [RRes.flat] at h1
  | err e s =>
    cases hr' : readMsg fin segs' with
    | ok a' s' => rw [hr, hr'] at h1; simp [RRes.flat] at h1
    | err e' s' =>
      rw [hr, hr'] at h1
      simp only [RRes.flat, FRes.err.injEq] at h1
      simp [DRes.flat, h1.1, h1.2]

/-- A message cut inside a chunk header and inside a chunk, with empty reads in between, versus one read. -/
example : ([[0x00], [], [0x02, 0x92], [0x01], [0x00], [0x01, 0x02, 0x00], [0x00, 0x09]] : List Bytes).flatten =
    ([[0x00, 0x02, 0x92, 0x01, 0x00, 0x01, 0x02, 0x00, 0x00, 0x09]] : List Bytes).flatten := rfl

example (env : Env) : decodeMsg env .v2 .eof [[0x00], [], [0x02, 0x92], [0x01], [0x00], [0x01, 0x02, 0x00], [0x00, 0x09]] =
    .ok (.list true [.int .int64 1, .int .int64 2]) [[0x09]] := rfl

end Verif

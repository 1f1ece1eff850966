/-
C01  Marshal/Unmarshal round trip.

Longer strings than a chunk are the subject of C09, unreadable lengths of C04, durations of C22.
-/
import Verif.Proofs.RoundTrip
import Verif.Proofs.Writes
namespace Verif
open Spec

/-- Reading a correctly framed payload decodes the payload. -/
theorem unmarshal_framed (env : Env) (ver : Ver) {p s : Bytes} (h : Framed p s) {v : Val} {rest : Bytes}
    (hd : decode env ver p = .ok (v, rest)) : unmarshal env ver s = .ok v := by
  obtain ⟨segs', h1, _⟩ := readMsg_framed h .eof (segs := [s]) (rest := []) (by simp)
  unfold unmarshal decodeMsg
  rw [h1]
  simp only [hd]

/-- For every decodable value of any size and depth, for both codec versions: `Marshal` succeeds and `Unmarshal` of its output returns the
canonical form of the value.  Maps are quantified as lists of entries, hence over every iteration order. -/
theorem C01_roundtrip (env : Env) (ver : Ver) (v : Val) (hd : v.All (decodable ver)) (hi : v.All intsInRange) (hr : v.All readable)
    (hs : v.All (strAtMost 65535)) :
    (marshal env ver v).2 = none ∧ unmarshal env ver (marshal env ver v).1 = .ok (canon env v) := by
  obtain ⟨h1, h2⟩ := decode_payload' env ver v hd hi hr []
  obtain ⟨h3, h4⟩ := encodeMsg_framed env ver (cs := 65535) (by omega) (by omega) hs h1
  rw [List.append_nil] at h2
  exact ⟨h3, unmarshal_framed env ver h4 h2⟩

/-- A record with a node (two labels, nested property list), an unsigned byte and a date-time. -/
def sampleRecord : Val :=
  .struct .record [.list true [
    .struct .node [.int .int64 (-300), .list true [.str [0x41], .str []],
      .map [([0x6E], .str [0x42, 0x43]), ([0x6C], .list false [.int .uint8 200, .nil, .float32 7])]],
    .int .uint8 255,
    .time 1600000000 5 (-3600)]]

example : sampleRecord.All (decodable .v2) ∧ sampleRecord.All intsInRange ∧ sampleRecord.All readable ∧
    sampleRecord.All (strAtMost 65535) := by
  refine ⟨?_, ?_, ?_, ?_⟩
  · simp [sampleRecord, Val.All, AllList, AllEntries, decodable]
    exact ⟨_, _, ⟨rfl, rfl⟩, by simp⟩
  · simp [sampleRecord, Val.All, AllList, AllEntries, intsInRange, IntKind.InRange]
  · simp [sampleRecord, Val.All, AllList, AllEntries, readable, readableLen]
  · simp [sampleRecord, Val.All, AllList, AllEntries, strAtMost]

/-- What comes back for the sample: same contents, integers as `int64`, slices as `[]interface{}`. -/
example (env : Env) : canon env sampleRecord =
    .struct .record [.list true [
      .struct .node [.int .int64 (-300), .list true [.str [0x41], .str []],
        .map [([0x6E], .str [0x42, 0x43]), ([0x6C], .list true [.int .int64 200, .nil, .float64 (env.f32 7)])]],
      .int .int64 255,
      .time 1600000000 5 (-3600)]] := rfl

end Verif

/-
C05  Marshal output conforms to the PackStream grammar and denotes the value.
-/
import Verif.Proofs.RoundTrip
namespace Verif
open Spec

/-- Whenever the encoder accepts a value (C03's `uint` values above `MaxInt64` excepted), the value has a wire tree and the payload is an
encoding of that tree with unsigned length fields. -/
theorem C05_conforms (env : Env) (ver : Ver) (v : Val) (hi : v.All intsInRange) (hu : v.All uintSafe)
    (he : (encode env ver v).2 = none) :
    ∃ t, tree env ver v = some t ∧ t.Fits ∧ Spec.Enc full t (payload env ver v) := by
  obtain ⟨t, h1, h2⟩ := encode_fits env ver v hi hu he
  exact ⟨t, h1, h2, (encode_conforms env ver full v t h1 (Fits_full h2)).2⟩

/-- A RUN message with parameters. -/
def sampleRun : Val :=
  .struct .run [.str [0x52, 0x45, 0x54], .map [([0x70], .list false [.int .uint16 60000, .str (List.replicate 20 0x61)])]]

example (env : Env) : sampleRun.All intsInRange ∧ sampleRun.All uintSafe ∧ (encode env .v1 sampleRun).2 = none := by
  refine ⟨?_, ?_, ?_⟩
  · simp [sampleRun, Val.All, AllList, AllEntries, intsInRange, IntKind.InRange]
  · simp [sampleRun, Val.All, AllList, AllEntries, uintSafe]
  · rfl

end Verif

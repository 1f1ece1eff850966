/-
C20  time.Time keeps its instant and its offset.
-/
import Verif.Props.C01
import Verif.Proofs.ValEq
namespace Verif
open Spec

/-- Every instant within `2^62` seconds of 1970 and every 32-bit UTC offset. -/
theorem C20_time (env : Env) (s n o : Int) (hs : -2 ^ 62 ≤ s ∧ s < 2 ^ 62) (hn : 0 ≤ n ∧ n < 1000000000) (ho : -2 ^ 31 ≤ o ∧ o < 2 ^ 31) :
    (marshal env .v2 (.time s n o)).2 = none ∧
      unmarshal env .v2 (marshal env .v2 (.time s n o)).1 = .ok (.time s n o) :=
  C01_roundtrip env .v2 (.time s n o) rfl ⟨hs, hn, ho⟩ trivial trivial

/-- What is transmitted is the wall-clock time: the instant plus the offset, as the protocol demands. -/
theorem C20_wire (env : Env) (s n o : Int) (hs : -2 ^ 62 ≤ s ∧ s < 2 ^ 62) (hn : 0 ≤ n ∧ n < 1000000000) (ho : -2 ^ 31 ≤ o ∧ o < 2 ^ 31) :
    Spec.Enc full (.struct 0x46 [.int (s + o), .int n, .int o]) (payload env .v2 (.time s n o)) := by
  refine (encode_conforms env .v2 full (.time s n o) _ (by simp [tree]) ?_).2
  refine ⟨by simp [slenOK, full], ?_, ?_, ?_, trivial⟩ <;> simp only [PS.FitsWith] <;> omega

/-- A time in New York (UTC-4) half a second before 2020-06-01. -/
example : (payload env0 .v2 (.time 1590983999 500000000 (-14400))) =
    [0xB3, 0x46, 0xCA, 0x5E, 0xD4, 0x44, 0xFF, 0xCA, 0x1D, 0xCD, 0x65, 0x00, 0xC9, 0xC7, 0xC0] := by decide +kernel

end Verif

/-
C06  The payload encoding is unambiguous and self-delimiting.
-/
import Verif.Proofs.Parse
import Verif.Props.C05
namespace Verif
open Spec

/-- If the payloads of two values, continued in any way, agree, then the values have the same wire tree, the same payload, and the
continuations agree.  (With empty continuations: equal payloads have equal trees; with one empty: no payload is a proper prefix of
another.) -/
theorem C06_unambiguous (env : Env) (ver ver' : Ver) (v w : Val) (hv : v.All intsInRange) (huv : v.All uintSafe)
    (hw : w.All intsInRange) (huw : w.All uintSafe) (ev : (encode env ver v).2 = none) (ew : (encode env ver' w).2 = none)
    (r r' : Bytes) (h : payload env ver v ++ r = payload env ver' w ++ r') :
    tree env ver v = tree env ver' w ∧ payload env ver v = payload env ver' w ∧ r = r' := by
  obtain ⟨t, h1, _, h2⟩ := C05_conforms env ver v hv huv ev
  obtain ⟨t', h3, _, h4⟩ := C05_conforms env ver' w hw huw ew
  obtain ⟨e1, e2, e3⟩ := Enc_unique h2 h4 h
  exact ⟨by rw [h1, h3, e1], e2, e3⟩

/-- The grammar itself is uniquely readable: concatenated encodings split in only one way. -/
theorem C06_grammar_unique (t t' : PS) (b b' r r' : Bytes) (h : Spec.Enc full t b) (h' : Spec.Enc full t' b')
    (e : b ++ r = b' ++ r') : t = t' ∧ b = b' ∧ r = r' := Enc_unique h h' e

example (env : Env) : sampleRun.All intsInRange ∧ sampleRun.All uintSafe ∧ (encode env .v1 sampleRun).2 = none ∧
    (encode env .v2 sampleRun).2 = none ∧ payload env .v1 sampleRun ++ [1] = payload env .v2 sampleRun ++ [1] := by
  refine ⟨?_, ?_, rfl, rfl, rfl⟩
  · simp [sampleRun, Val.All, AllList, AllEntries, intsInRange, IntKind.InRange]
  · simp [sampleRun, Val.All, AllList, AllEntries, uintSafe]

/-- Two encodings of the same number are both in the grammar (not only the shortest). -/
example : Spec.Enc full (.int 5) [0x05] ∧ Spec.Enc full (.int 5) [0xC9, 0x00, 0x05] := by
  refine ⟨.inl ⟨by decide, by decide, 5, rfl, rfl⟩, .inr ⟨0xC9, 2, [0, 5], by simp, rfl, rfl, by decide⟩⟩

end Verif

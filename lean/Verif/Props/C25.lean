/-
C25  Decoding consumes exactly the bytes of one value.

Holds whenever the input does not end inside a string (in particular whenever bytes are left over); a string cut short by the end of the message depends
on what is missing (`C25_refuted`, the same defect as C14).
-/
import Verif.Proofs.Cut
import Verif.Proofs.ValEq
namespace Verif
open Spec

/-- The property. -/
def C25_statement : Prop := ∀ (env : Env) (ver : Ver) (b r : Bytes) (v : Val), decode env ver b = .ok (v, r) →
  ∃ c, b = c ++ r ∧ ∀ r', decode env ver (c ++ r') = .ok (v, r')

/-- The decoded value depends only on the bytes consumed, and decoding stops exactly after them. -/
theorem C25_local_partial (env : Env) (ver : Ver) (b r : Bytes) (v : Val) (h : decode env ver b = .ok (v, r))
    (hs : r ≠ [] ∨ ¬ EndsInString b) : ∃ c, b = c ++ r ∧ c ≠ [] ∧ ∀ r', decode env ver (c ++ r') = .ok (v, r') := by
  rcases decode_cut env ver h with ⟨c, rfl, g⟩ | ⟨h1, h2⟩
  · refine ⟨c, rfl, ?_, g⟩
    rintro rfl
    have := (decodeF_rel env ver (r.length + 1) (r.length + 1) r (by omega) (by omega)).2.2 v r h
    omega
  · rcases hs with hs | hs
    · exact absurd h1 hs
    · exact absurd h2 hs

/-- Two values decoded from inputs that share their beginning are the same value: encodings accepted by the decoder are prefix-free. -/
theorem C25_prefix_free_partial (env : Env) (ver : Ver) (c r1 r2 : Bytes) (v1 v2 : Val) (e : Bytes)
    (h1 : decode env ver (c ++ r1) = .ok (v1, r1)) (h2 : decode env ver (c ++ e ++ r2) = .ok (v2, r2))
    (hs : r1 ≠ [] ∨ ¬ EndsInString (c ++ r1)) : e = [] ∧ v1 = v2 := by
  obtain ⟨c', hc, _, g⟩ := C25_local_partial env ver _ _ _ h1 hs
  have : c = c' := List.append_cancel_right hc
  subst this
  have h3 := g (e ++ r2)
  rw [← List.append_assoc, h2] at h3
  simp only [Res.ok.injEq, Prod.mk.injEq] at h3
  have := congrArg List.length h3.2
  simp only [List.length_append] at this
  exact ⟨List.eq_nil_of_length_eq_zero (by omega), h3.1.symm⟩

/-- A string cut short: the value depends on what follows. -/
theorem C25_refuted : ¬ C25_statement := by
  intro h
  obtain ⟨c, hc, g⟩ := h env0 .v2 [0x82, 0x61] [] (.str [0x61]) (by decide +kernel)
  rw [List.append_nil] at hc
  subst hc
  have h1 := g [0x62]
  have h2 : decode env0 .v2 ([0x82, 0x61] ++ [0x62]) = .ok (.str [0x61, 0x62], []) := by decide +kernel
  rw [h2] at h1
  simp at h1

example : decode env0 .v2 [0x81, 0x61, 0xC0] = .ok (.str [0x61], [0xC0]) := by decide +kernel

end Verif

/-
C13  Decoding untrusted bytes never panics.

False: lengths with the sign bit set, and graph structures whose ids are not integers, make `Unmarshal` panic (`C13_refuted`, witnesses below).
`C13_panic_sources_partial` bounds the damage: every panicking input contains a string/list header with such a length, or
a node, relationship, unbound relationship or path with something else in the place of one of its integers.
-/
import Verif.Proofs.PanicSrc
import Verif.Proofs.Framing
import Verif.Model.Frame
namespace Verif
open Spec

/-- The property. -/
def C13_statement : Prop := ∀ (env : Env) (ver : Ver) (b : Bytes), (match unmarshal env ver b with | .panic => False | _ => True)

/-- A payload that makes the decoder panic contains one of the patterns of `Spec.Hazard`. -/
theorem C13_panic_sources_partial (env : Env) (ver : Ver) (b : Bytes) (h : decode env ver b = .panic) : Hazard b :=
  ((decodeF_panic env ver _) b).1 h

/-- The same for streams: if no chunked message in `b` de-chunks to a hazardous payload, `Unmarshal` does not panic. -/
theorem C13_unmarshal_partial (env : Env) (ver : Ver) (b : Bytes)
    (h : ∀ p r, readMsg .eof [b] = .ok p r → ¬ Hazard p) : unmarshal env ver b ≠ .panic := by
  unfold unmarshal decodeMsg
  cases h1 : readMsg .eof [b] with
  | err e s => simp
  | ok p s =>
    have h2 := h p s h1
    cases h3 : decode env ver p with
    | ok x => obtain ⟨v, r⟩ := x; simp [h3]
    | err e => simp [h3]
    | panic => exact absurd (C13_panic_sources_partial env ver p h3) h2
    | fuel => simp [h3]

/-- Does the call panic? -/
def panics : Res Val → Bool
  | .panic => true
  | _ => false

/-- A 128-byte string announced by the peer; a list of 128 elements; a node whose id is null. -/
theorem C13_witnesses : ∀ ver : Ver, ∀ b ∈ [[0x00, 0x02, 0xD0, 0x80, 0x00, 0x00], [0x00, 0x02, 0xD4, 0x80, 0x00, 0x00],
    [0x00, 0x03, 0xB3, 0x4E, 0xC0, 0x00, 0x00]],
    panics (unmarshal ⟨fun _ => 0, fun _ => (0, 0, 0), fun _ => none⟩ ver b) = true := by
  intro ver; cases ver <;> decide +kernel

theorem C13_refuted : ¬ C13_statement := by
  intro h
  have h1 := h ⟨fun _ => 0, fun _ => (0, 0, 0), fun _ => none⟩ .v2 [0x00, 0x02, 0xD0, 0x80, 0x00, 0x00]
  have h2 := C13_witnesses .v2 [0x00, 0x02, 0xD0, 0x80, 0x00, 0x00] (by simp)
  cases h3 : unmarshal ⟨fun _ => 0, fun _ => (0, 0, 0), fun _ => none⟩ .v2 [0x00, 0x02, 0xD0, 0x80, 0x00, 0x00] with
  | panic => rw [h3] at h1; exact h1
  | ok v => rw [h3] at h2; simp [panics] at h2
  | err e => rw [h3] at h2; simp [panics] at h2
  | fuel => rw [h3] at h2; simp [panics] at h2

/-- Inputs without hazards exist: every message whose bytes are all below `0x4E`, for instance. -/
theorem not_hazard_small {b : Bytes} (h : ∀ x ∈ b, x.toNat < 0x4E) : ¬ Hazard b := by
  rintro ⟨pre, post, rfl, ⟨m, k, lb, rest, hm, rfl, _, _⟩ | ⟨hd, sig, rest, rfl, _, hs⟩⟩
  · have h1 := h m (by simp)
    simp only [strMarkers, listMarkers, List.cons_append, List.nil_append, List.mem_cons, Prod.mk.injEq, List.not_mem_nil, or_false] at hm
    rcases hm with ⟨rfl, _⟩ | ⟨rfl, _⟩ | ⟨rfl, _⟩ | ⟨rfl, _⟩ | ⟨rfl, _⟩ | ⟨rfl, _⟩ <;> simp at h1
  · have h1 := h sig (by simp)
    rcases hs with ⟨hs, -⟩ | ⟨rfl, -⟩ | ⟨rfl, -⟩
    · simp only [List.mem_cons, List.not_mem_nil, or_false] at hs
      rcases hs with rfl | rfl <;> simp at h1
    · simp at h1
    · simp at h1

example : ¬ Hazard [0x01, 0x02] := not_hazard_small (by decide)

example : decode ⟨fun _ => 0, fun _ => (0, 0, 0), fun _ => none⟩ .v1 [0xD0, 0x80] = .panic := rfl

end Verif

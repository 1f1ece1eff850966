/-
C21  Zoned date-times name the right instant.

False near transitions of the zone: the offset is looked up at the wall-clock number of seconds instead of the instant
(decoderV2.go 494).  `C21_exact` says for which times the result is right.
-/
import Verif.Proofs.DecodeEnc
import Verif.Proofs.ValEq
namespace Verif
open Spec

/-- Bytes of a DateTime structure with zone id. -/
def ZonedEnc (s n : Int) (z : Bytes) (b : Bytes) : Prop :=
  ∃ b1 b2 b3, IntEnc s b1 ∧ IntEnc n b2 ∧ StrEnc signed z b3 ∧ b = [0xB3, 0x66] ++ (b1 ++ (b2 ++ b3))

/-- The property: whenever some instant shows the transmitted wall-clock time `s` in the zone, the decoded instant does. -/
def C21_statement : Prop := ∀ (env : Env) (s n : Int) (z b : Bytes) (off : Int → Int), ZonedEnc s n z b → env.tz z = some off →
  (0 ≤ n ∧ n < 1000000000) → (-2 ^ 62 ≤ s ∧ s < 2 ^ 62) → (∀ t, -2 ^ 31 ≤ off t ∧ off t < 2 ^ 31) → (∃ t, t + off t = s) →
  ∃ t, decode env .v2 b = .ok (.time t n (off t), []) ∧ t + off t = s

/-- What the decoder returns. -/
theorem decode_zoned (env : Env) {s n : Int} {z b : Bytes} {off : Int → Int} (hb : ZonedEnc s n z b) (hz : env.tz z = some off)
    (hn : 0 ≤ n ∧ n < 1000000000) (hs : -2 ^ 62 ≤ s ∧ s < 2 ^ 62) (ho : ∀ t, -2 ^ 31 ≤ off t ∧ off t < 2 ^ 31) :
    decode env .v2 b = .ok (.time (s - off s) n (off (s - off s)), []) := by
  obtain ⟨b1, b2, b3, h1, h2, h3, rfl⟩ := hb
  unfold decode
  show decodeBody env .v2 (decodeF env .v2 _) (0xB3 :: ([0x66] ++ (b1 ++ (b2 ++ b3)))) = _
  rw [decodeBody_cons env .v2 _ _ _ (mk := .tinyStruct 3) (by decide +kernel)]
  simp only [decodeMarker, decodeStruct]
  rw [List.singleton_append, Dec.bind_ok (Dec.wrapErr_ok (readByte_cons _ _))]
  rw [if_neg (by decide), if_neg (by decide), if_neg (by decide), if_neg (by decide), if_neg (by decide), if_neg (by decide), if_neg (by decide),
    if_neg (by decide), if_neg (by decide), if_neg (by decide), if_neg (by decide), if_neg (by decide), if_neg (by decide), if_neg (by decide),
    if_neg (by decide), if_neg (by decide), if_neg (by decide), if_neg (by decide), if_pos (by decide)]
  have hl := Enc_length_pos (lim := signed) (t := .int s) h1
  have hl2 := Enc_length_pos (lim := signed) (t := .int n) h2
  have hl3 := StrEnc_length_pos h3
  generalize hm : ([0xB3, 0x66] ++ (b1 ++ (b2 ++ b3)) : Bytes).length = m
  simp only [List.length_append, List.length_cons, List.length_nil] at hm
  unfold decodeDateTimeZone
  rw [Dec.bind_ok (decodeF_enc env .v2 (.int s) (.int .int64 s) rfl b1 h1 m (by omega) (b2 ++ b3))]
  simp only [needInt64]
  rw [Dec.bind_ok (Dec.pure_apply _ _), Dec.bind_ok (decodeF_enc env .v2 (.int n) (.int .int64 n) rfl b2 h2 m (by omega) b3),
    Dec.bind_ok (Dec.pure_apply _ _)]
  have e3 := decodeF_enc env .v2 (.str z) (.str z) rfl b3 h3 m (by omega) []
  rw [List.append_nil] at e3
  rw [Dec.bind_ok e3]
  simp only [needStr]
  rw [Dec.bind_ok (Dec.pure_apply _ _)]
  simp only [hz, goUnix]
  rw [if_neg (by omega)]
  simp only
  have := ho s
  rw [wrap64_of_range (by omega) (by omega)]
  rfl

/-- The decoded time shows the transmitted wall-clock time exactly when the offset at the decoded instant is the one used to compute it. -/
theorem C21_exact_partial (env : Env) (s n : Int) (z b : Bytes) (off : Int → Int) (hb : ZonedEnc s n z b) (hz : env.tz z = some off)
    (hn : 0 ≤ n ∧ n < 1000000000) (hs : -2 ^ 62 ≤ s ∧ s < 2 ^ 62) (ho : ∀ t, -2 ^ 31 ≤ off t ∧ off t < 2 ^ 31) :
    ∃ t, decode env .v2 b = .ok (.time t n (off t), []) ∧ (t + off t = s ↔ off (s - off s) = off s) :=
  ⟨s - off s, decode_zoned env hb hz hn hs ho, by omega⟩

/-- In particular in a zone without transitions within `w` seconds of the time, `w` at least the offset. -/
theorem C21_stable_partial (env : Env) (s n : Int) (z b : Bytes) (off : Int → Int) (w : Int) (hb : ZonedEnc s n z b) (hz : env.tz z = some off)
    (hn : 0 ≤ n ∧ n < 1000000000) (hs : -2 ^ 62 ≤ s ∧ s < 2 ^ 62) (ho : ∀ t, -2 ^ 31 ≤ off t ∧ off t < 2 ^ 31)
    (hw : -w ≤ off s ∧ off s ≤ w) (hst : ∀ t, s - w ≤ t → t ≤ s + w → off t = off s) :
    ∃ t, decode env .v2 b = .ok (.time t n (off t), []) ∧ t + off t = s := by
  refine ⟨s - off s, decode_zoned env hb hz hn hs ho, ?_⟩
  have := hst (s - off s) (by omega) (by omega)
  omega

/-- A zone like New York: UTC-5 before instant 0, UTC-4 from then on.  The wall-clock time 10000 s before 1970 occurs 4400 s after it; the decoder
returns the instant 8000, an hour late. -/
theorem C21_refuted : ¬ C21_statement := by
  intro h
  let off : Int → Int := fun t => if t < 0 then -18000 else -14400
  let env : Env := ⟨fun _ => 0, fun _ => (0, 0, 0), fun _ => some off⟩
  have hb : ZonedEnc (-10000) 0 [0x5A] [0xB3, 0x66, 0xC9, 0xD8, 0xF0, 0x00, 0x81, 0x5A] :=
    ⟨[0xC9, 0xD8, 0xF0], [0x00], [0x81, 0x5A], .inr ⟨0xC9, 2, [0xD8, 0xF0], by simp, rfl, rfl, by decide +kernel⟩,
      .inl ⟨by omega, by omega, 0x00, rfl, by decide +kernel⟩, ⟨[0x81], .inl ⟨by decide, rfl⟩, rfl⟩, rfl⟩
  have ho : ∀ t, -2 ^ 31 ≤ off t ∧ off t < 2 ^ 31 := by intro t; simp only [off]; split <;> omega
  obtain ⟨t, h1, h2⟩ := h env (-10000) 0 [0x5A] _ off hb rfl (by omega) (by omega) ho ⟨4400, by decide⟩
  have h3 := decode_zoned env hb (off := off) rfl (by omega) (by omega) ho
  rw [h3] at h1
  simp only [Res.ok.injEq, Prod.mk.injEq, Val.time.injEq] at h1
  obtain ⟨⟨rfl, -, -⟩, -⟩ := h1
  revert h2
  decide

/-- The hypotheses of the exact characterisation hold for a zone with a fixed offset. -/
example : ZonedEnc 100 5 [0x5A] [0xB3, 0x66, 0x64, 0x05, 0x81, 0x5A] :=
  ⟨[0x64], [0x05], [0x81, 0x5A], .inl ⟨by omega, by omega, 0x64, rfl, by decide +kernel⟩, .inl ⟨by omega, by omega, 0x05, rfl, by decide +kernel⟩,
    ⟨[0x81], .inl ⟨by decide, rfl⟩, rfl⟩, rfl⟩

end Verif

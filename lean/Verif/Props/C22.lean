/-
C22  Durations round trip.

False of every duration: the encoder writes months, days and seconds as floats, which the decoder refuses; and the decoder multiplies the four
components of a duration instead of adding them up.
-/
import Verif.Proofs.DecodeEnc
import Verif.Proofs.Writes
import Verif.Props.C01
import Verif.Proofs.ValEq
namespace Verif
open Spec

/-- The property. -/
def C22_statement : Prop := ∀ (env : Env) (d : Int), -2 ^ 63 ≤ d → d < 2 ^ 63 →
  unmarshal env .v2 (marshal env .v2 (.duration d)).1 = .ok (.duration d)

/-- No duration at all survives the round trip: encoding succeeds, decoding always fails. -/
theorem C22_never (env : Env) (d : Int) (h1 : -2 ^ 63 ≤ d) (h2 : d < 2 ^ 63) :
    (marshal env .v2 (.duration d)).2 = none ∧
      unmarshal env .v2 (marshal env .v2 (.duration d)).1 = .err (.plain "unable to cast to [int64]") := by
  have ht : tree env .v2 (.duration d) =
      some (.struct 0x45 [.float (env.dur d).1, .float (env.dur d).2.1, .float (env.dur d).2.2, .int d]) := by simp [tree]
  obtain ⟨he, hc⟩ := encode_conforms env .v2 signed (.duration d) _ ht (by
    refine ⟨by simp [slenOK, signed], trivial, trivial, trivial, ?_, trivial⟩
    simp only [PS.FitsWith]; omega)
  obtain ⟨h3, h4⟩ := encodeMsg_framed env .v2 (cs := 65535) (by omega) (by omega) (v := .duration d) trivial he
  obtain ⟨segs', h5, -⟩ := readMsg_framed h4 .eof (segs := [(marshal env .v2 (.duration d)).1]) (rest := []) (by simp [marshal])
  refine ⟨h3, ?_⟩
  unfold unmarshal decodeMsg
  rw [h5]
  have hd : decode env .v2 (payload env .v2 (.duration d)) = .err (.plain "unable to cast to [int64]") := by
    have hp : ∃ b1 r, payload env .v2 (.duration d) = 0xB4 :: 0x45 :: (b1 ++ r) ∧ Spec.Enc signed (.float (env.dur d).1) b1 := by
      refine ⟨0xC1 :: be 8 (env.dur d).1.toNat, (payload env .v2 (.duration d)).drop 11, ?_, ?_⟩
      · simp only [payload, encode, encodeDuration, encodeFloat, Enc.seq, Enc.ok]
        simp
      · exact ⟨_, rfl, by simp, by rw [bigEndian_eq, ofBE_be]; exact Nat.mod_eq_of_lt (env.dur d).1.toNat_lt⟩
    obtain ⟨b1, r, hp, hb⟩ := hp
    rw [hp]
    unfold decode
    show decodeBody env .v2 (decodeF env .v2 _) _ = _
    rw [decodeBody_cons env .v2 _ _ _ (mk := .tinyStruct 4) (by decide +kernel)]
    simp only [decodeMarker, decodeStruct]
    rw [Dec.bind_ok (Dec.wrapErr_ok (readByte_cons _ _))]
    rw [if_neg (by decide), if_neg (by decide), if_neg (by decide), if_neg (by decide), if_neg (by decide), if_neg (by decide), if_neg (by decide),
      if_neg (by decide), if_neg (by decide), if_neg (by decide), if_neg (by decide), if_neg (by decide), if_neg (by decide), if_neg (by decide),
      if_neg (by decide), if_neg (by decide), if_neg (by decide), if_neg (by decide), if_neg (by decide), if_pos (by decide)]
    unfold decodeDuration
    rw [Dec.bind_ok (decodeF_enc env .v2 (.float _) (.float64 _) rfl b1 hb _ (by simp; omega) r)]
    rfl
  simp only [hd]

theorem C22_refuted : ¬ C22_statement := by
  intro h
  have h1 := h env0 0 (by omega) (by omega)
  rw [(C22_never env0 0 (by omega) (by omega)).2] at h1
  cases h1

/-- Durations sent by a server: the result is the product of months, days, seconds and nanoseconds. -/
theorem C22_server_product (env : Env) (m d s n : Int) (b1 b2 b3 b4 : Bytes) (h1 : IntEnc m b1) (h2 : IntEnc d b2) (h3 : IntEnc s b3)
    (h4 : IntEnc n b4) : decode env .v2 ([0xB4, 0x45] ++ (b1 ++ (b2 ++ (b3 ++ b4)))) =
      .ok (.duration (wrap64 (wrap64 (wrap64 (m * d) * s) * n)), []) := by
  unfold decode
  have e4 : ∀ k, b4.length ≤ k → decodeF env .v2 k b4 = .ok (.int .int64 n, []) := by
    intro k hk
    have := decodeF_enc env .v2 (.int n) (.int .int64 n) rfl b4 h4 k hk []
    rwa [List.append_nil] at this
  show decodeBody env .v2 (decodeF env .v2 _) (0xB4 :: 0x45 :: (b1 ++ (b2 ++ (b3 ++ b4)))) = _
  generalize hm : ([0xB4, 0x45] ++ (b1 ++ (b2 ++ (b3 ++ b4))) : Bytes).length = k
  simp only [List.length_append, List.length_cons, List.length_nil] at hm
  rw [decodeBody_cons env .v2 _ _ _ (mk := .tinyStruct 4) (by decide +kernel)]
  simp only [decodeMarker, decodeStruct]
  rw [Dec.bind_ok (Dec.wrapErr_ok (readByte_cons _ _))]
  rw [if_neg (by decide), if_neg (by decide), if_neg (by decide), if_neg (by decide), if_neg (by decide), if_neg (by decide), if_neg (by decide),
    if_neg (by decide), if_neg (by decide), if_neg (by decide), if_neg (by decide), if_neg (by decide), if_neg (by decide), if_neg (by decide),
    if_neg (by decide), if_neg (by decide), if_neg (by decide), if_neg (by decide), if_neg (by decide), if_pos (by decide)]
  unfold decodeDuration
  rw [Dec.bind_ok (decodeF_enc env .v2 (.int m) (.int .int64 m) rfl b1 h1 k (by omega) _)]
  simp only [needInt64]
  rw [Dec.bind_ok (Dec.pure_apply _ _), Dec.bind_ok (decodeF_enc env .v2 (.int d) (.int .int64 d) rfl b2 h2 k (by omega) _),
    Dec.bind_ok (Dec.pure_apply _ _), Dec.bind_ok (decodeF_enc env .v2 (.int s) (.int .int64 s) rfl b3 h3 k (by omega) _),
    Dec.bind_ok (Dec.pure_apply _ _), Dec.bind_ok (e4 k (by omega)), Dec.bind_ok (Dec.pure_apply _ _)]
  rfl

/-- Hence every server duration with a zero component (for example: five seconds) is read as zero. -/
theorem C22_server_zero (env : Env) (d s n : Int) (b1 b2 b3 b4 : Bytes) (h1 : IntEnc 0 b1) (h2 : IntEnc d b2) (h3 : IntEnc s b3)
    (h4 : IntEnc n b4) : decode env .v2 ([0xB4, 0x45] ++ (b1 ++ (b2 ++ (b3 ++ b4)))) = .ok (.duration 0, []) := by
  rw [C22_server_product env 0 d s n b1 b2 b3 b4 h1 h2 h3 h4]
  simp [wrap64]

example : decode env0 .v2 [0xB4, 0x45, 0x00, 0x00, 0x05, 0x00] = .ok (.duration 0, []) := by decide +kernel

end Verif

import Verif.Spec.Supported
import Verif.Proofs.EncodeConforms
namespace Verif
open Spec

theorem unrecognized_ne : unrecognized.2 ≠ none := by simp [unrecognized]

mutual
/-- The encoder accepts exactly the supported values. -/
theorem encode_none_iff (env : Env) (ver : Ver) : (v : Val) → v.All intsInRange → ((encode env ver v).2 = none ↔ Supported ver v)
  | .nil, _ => by simp [encode, Supported]
  | .bool b, _ => by cases b <;> simp [encode, Supported]
  | .float32 b, _ => by simp [encode, encodeFloat, Supported]
  | .float64 b, _ => by simp [encode, encodeFloat, Supported]
  | .int k n, h => by
    simp only [Val.All, intsInRange] at h
    cases k <;> simp only [encode, Supported, IntKind.InRange, iff_true] at h ⊢
    case uint => exact encodeInt_none.mpr (wrap64_range n)
    case uint64 =>
      split
      · simp; omega
      · rw [encodeInt_none]; omega
    all_goals exact encodeInt_none.mpr (by omega)
  | .str s, _ => by simp only [encode, Supported]; exact encodeString_none
  | .list i vs, h => by
    simp only [Val.All] at h
    simp only [encode, Supported, Enc.seq_none, sliceHeader_none, encodeItems_none_iff env ver vs h.2]
  | .map es, h => by
    simp only [Val.All] at h
    simp only [encode, Supported, Enc.seq_none, mapHeader_none, encodeEntries_none_iff env ver es h.2]
  | .struct k fs, h => by
    simp only [Val.All] at h
    have ih := encodeFields_none_iff env ver fs h.2
    by_cases hd : k = .discard
    · subst hd; simp [encode, Supported, structHeader]; rfl
    · by_cases hk : k.isStructure = true
      · rw [encode_struct_eq env ver k fs hd hk]
        simp only [Supported, Enc.seq_none, structHeader_none, ih, hd, false_or, Enc.ok_snd, and_true]
        constructor
        · intro h; refine ⟨?_, ?_, h⟩ <;> (rintro rfl; exact absurd hk (by decide))
        · intro h; exact h.2.2
      · have e : encode env ver (.struct k fs) = unrecognized := by
          cases k <;> first | exact absurd rfl hd | (simp only [encode]; rw [if_neg hk])
        rw [e]
        constructor
        · intro h; exact absurd h unrecognized_ne
        · intro h
          simp only [Supported] at h
          cases k with
          | point2D ptr =>
            cases ptr with
            | false => exact absurd rfl h.1
            | true => exact absurd rfl hk
          | point3D ptr =>
            cases ptr with
            | false => exact absurd rfl h.2.1
            | true => exact absurd rfl hk
          | _ => exact absurd rfl hk
  | .date d, h => by
    simp only [Val.All, intsInRange] at h
    cases ver <;> simp only [encode, Supported]
    · simp [unrecognized]
    · simp [encodeDate, Enc.seq_none, encodeInt_none]; omega
  | .clock n o, h => by
    simp only [Val.All, intsInRange] at h
    cases ver <;> simp only [encode, Supported]
    · simp [unrecognized]
    · simp [encodeClock, Enc.seq_none, encodeInt_none]; omega
  | .localClock d, h => by
    simp only [Val.All, intsInRange] at h
    cases ver <;> simp only [encode, Supported]
    · simp [unrecognized]
    · simp [encodeLocalClock, Enc.seq_none, encodeInt_none]; omega
  | .localTime s n, h => by
    simp only [Val.All, intsInRange] at h
    cases ver <;> simp only [encode, Supported]
    · simp [unrecognized]
    · simp [encodeLocalTime, Enc.seq_none, encodeInt_none]; omega
  | .time s n o, h => by
    simp only [Val.All, intsInRange] at h
    have := wrap64_range (s + o)
    cases ver <;> simp only [encode, Supported]
    · simp [unrecognized]
    · simp [encodeTime, Enc.seq_none, encodeInt_none]; omega
  | .duration d, h => by
    simp only [Val.All, intsInRange] at h
    cases ver <;> simp only [encode, Supported]
    · simp [unrecognized]
    · simp [encodeDuration, Enc.seq_none, encodeInt_none, encodeFloat]; omega
  | .other, _ => by simp [encode, Supported, unrecognized]

theorem encodeItems_none_iff (env : Env) (ver : Ver) : (vs : List Val) → AllList intsInRange vs →
    ((encodeItems env ver vs).2 = none ↔ SupportedList ver vs)
  | [], _ => by simp [encodeItems, SupportedList]
  | v :: vs, h => by
    simp only [AllList] at h
    simp only [encodeItems, SupportedList, Enc.seq_none, encode_none_iff env ver v h.1, encodeItems_none_iff env ver vs h.2]

theorem encodeEntries_none_iff (env : Env) (ver : Ver) : (es : Entries) → AllEntries intsInRange es →
    ((encodeEntries env ver es).2 = none ↔ SupportedEntries ver es)
  | [], _ => by simp [encodeEntries, SupportedEntries]
  | (k, v) :: es, h => by
    simp only [AllEntries] at h
    simp only [encodeEntries, SupportedEntries, Enc.seq_none, encode_none_iff env ver v h.1, encodeEntries_none_iff env ver es h.2,
      encodeString_none, and_assoc]

theorem encodeFields_none_iff (env : Env) (ver : Ver) : (vs : List Val) → AllList intsInRange vs →
    ((encodeFields env ver vs).2 = none ↔ SupportedList ver vs)
  | [], _ => by simp [encodeFields, SupportedList]
  | v :: vs, h => by
    simp only [AllList] at h
    simp only [encodeFields, SupportedList, Enc.seq_none, wrapField_none, encode_none_iff env ver v h.1, encodeFields_none_iff env ver vs h.2]
end

end Verif

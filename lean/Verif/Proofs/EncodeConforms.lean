/- The encoder writes PackStream encodings of the tree of the value. -/
import Verif.Model.Chunk
import Verif.Spec.Tree
import Verif.Proofs.Bytes
namespace Verif
open Spec

theorem Enc.seq_ok {a b : Enc} (h : a.2 = none) : a.seq b = (a.1 ++ b.1, b.2) := by
  unfold Enc.seq; rw [h]

theorem Enc.seq_none {a b : Enc} : (a.seq b).2 = none ↔ a.2 = none ∧ b.2 = none := by
  unfold Enc.seq
  cases h : a.2 <;> simp

theorem Enc.seq_flatten {a b : Enc} (h : a.2 = none) :
    (a.seq b).1.flatten = a.1.flatten ++ b.1.flatten := by
  rw [Enc.seq_ok h]; simp

@[simp] theorem Enc.ok_fst (ws : List Bytes) : (Enc.ok ws).1 = ws := rfl
@[simp] theorem Enc.ok_snd (ws : List Bytes) : (Enc.ok ws).2 = none := rfl

theorem wrapField_none {r : Enc} : (wrapField r).2 = none ↔ r.2 = none := by
  simp [wrapField]

@[simp] theorem wrapField_fst (r : Enc) : (wrapField r).1 = r.1 := rfl

/-- Integers in range are encoded, and the encoding denotes them. -/
theorem encodeInt_conforms {n : Int} (h1 : -2 ^ 63 ≤ n) (h2 : n < 2 ^ 63) :
    (encodeInt n).2 = none ∧ IntEnc n (encodeInt n).1.flatten := by
  unfold encodeInt
  split
  · refine ⟨rfl, Or.inr ⟨0xCB, 8, beInt 8 n, by simp, by simp, by simp, ?_⟩⟩
    exact twosComplement_beInt 8 (by omega) n (by omega) (by omega)
  split
  · refine ⟨rfl, Or.inr ⟨0xCA, 4, beInt 4 n, by simp, by simp, by simp, ?_⟩⟩
    exact twosComplement_beInt 4 (by omega) n (by omega) (by omega)
  split
  · refine ⟨rfl, Or.inr ⟨0xC9, 2, beInt 2 n, by simp, by simp, by simp, ?_⟩⟩
    exact twosComplement_beInt 2 (by omega) n (by omega) (by omega)
  split
  · refine ⟨rfl, Or.inr ⟨0xC8, 1, beInt 1 n, by simp, by simp, by simp, ?_⟩⟩
    exact twosComplement_beInt 1 (by omega) n (by omega) (by omega)
  split
  · refine ⟨rfl, Or.inl ⟨by omega, by omega, ?_⟩⟩
    have ht := twosComplement_beInt 1 (by omega) n (by omega) (by omega)
    simp only [beInt, be] at ht ⊢
    exact ⟨_, by simp, ht⟩
  split
  · refine ⟨rfl, Or.inr ⟨0xC9, 2, beInt 2 n, by simp, by simp, by simp, ?_⟩⟩
    exact twosComplement_beInt 2 (by omega) n (by omega) (by omega)
  split
  · refine ⟨rfl, Or.inr ⟨0xCA, 4, beInt 4 n, by simp, by simp, by simp, ?_⟩⟩
    exact twosComplement_beInt 4 (by omega) n (by omega) (by omega)
  split
  · refine ⟨rfl, Or.inr ⟨0xCB, 8, beInt 8 n, by simp, by simp, by simp, ?_⟩⟩
    exact twosComplement_beInt 8 (by omega) n (by omega) (by omega)
  · omega

theorem encodeInt_none {n : Int} : (encodeInt n).2 = none ↔ -2 ^ 63 ≤ n ∧ n < 2 ^ 63 := by
  constructor
  · intro h
    unfold encodeInt at h
    repeat' split at h
    all_goals first | omega | simp at h
  · intro h; exact (encodeInt_conforms h.1 h.2).1

theorem encodeFloat_conforms (w : UInt64) :
    (encodeFloat w).2 = none ∧ Spec.Enc lim (.float w) (encodeFloat w).1.flatten := by
  refine ⟨rfl, be 8 w.toNat, by simp [encodeFloat], by simp, ?_⟩
  rw [bigEndian_eq, ofBE_be]
  exact Nat.mod_eq_of_lt (by have := w.toNat_lt; omega)

/-- A length field read back. -/
theorem bigEndian_be {k n : Nat} (h : n < 256 ^ k) : bigEndian (be k n) = n := by
  rw [bigEndian_eq, ofBE_be, Nat.mod_eq_of_lt h]

/-- The length field that the encoder chooses for `n` is legal under `lim`. -/
def lenOK (lim : Limit) (n : Nat) : Prop :=
  n ≤ 15 ∨ (15 < n ∧ n ≤ 255 ∧ n < lim 1) ∨ (255 < n ∧ n ≤ 65535 ∧ n < lim 2) ∨ (65535 < n ∧ n < 2 ^ 32 ∧ n < lim 4)

/-- The same for structures. -/
def slenOK (lim : Limit) (n : Nat) : Prop :=
  n ≤ 15 ∨ (15 < n ∧ n ≤ 255 ∧ n < lim 1) ∨ (255 < n ∧ n ≤ 65535 ∧ n < lim 2)

theorem lenOK_full {n : Nat} : lenOK full n ↔ n < 2 ^ 32 := by
  simp only [lenOK, full]; omega

theorem slenOK_full {n : Nat} : slenOK full n ↔ n < 2 ^ 16 := by
  simp only [slenOK, full]; omega

theorem lenOK_signed {n : Nat} : lenOK signed n ↔ readableLen n := by
  simp only [lenOK, signed, readableLen]; omega

theorem slenOK_signed {n : Nat} (h : n < 2 ^ 7) : slenOK signed n := by
  simp only [slenOK, signed]; omega

theorem encodeString_conforms {lim : Limit} {s : Bytes} (h : lenOK lim s.length) :
    (encodeString s).2 = none ∧ StrEnc lim s (encodeString s).1.flatten := by
  simp only [lenOK] at h
  unfold encodeString
  dsimp only
  split
  · exact ⟨rfl, _, Or.inl ⟨by omega, rfl⟩, by simp [byteOf]⟩
  split
  · exact ⟨rfl, 0xD0 :: be 1 s.length, Or.inr ⟨0xD0, 1, be 1 s.length, by simp [strMarkers], by omega, rfl, by simp,
      bigEndian_be (by omega)⟩, by simp⟩
  split
  · exact ⟨rfl, 0xD1 :: be 2 s.length, Or.inr ⟨0xD1, 2, be 2 s.length, by simp [strMarkers], by omega, rfl, by simp,
      bigEndian_be (by omega)⟩, by simp⟩
  split
  · exact ⟨rfl, 0xD2 :: be 4 s.length, Or.inr ⟨0xD2, 4, be 4 s.length, by simp [strMarkers], by omega, rfl, by simp,
      bigEndian_be (by omega)⟩, by simp⟩
  · omega

theorem encodeString_none {s : Bytes} : (encodeString s).2 = none ↔ s.length < 2 ^ 32 := by
  constructor
  · intro h
    unfold encodeString at h
    dsimp only at h
    repeat' split at h
    all_goals first | omega | simp at h
  · intro h; exact (encodeString_conforms (lim := full) (lenOK_full.mpr h)).1

theorem sliceHeader_conforms {lim : Limit} {n : Nat} (h : lenOK lim n) :
    (sliceHeader n).2 = none ∧ Header lim 0x90 listMarkers n (sliceHeader n).1.flatten := by
  simp only [lenOK] at h
  unfold sliceHeader
  split
  · exact ⟨rfl, Or.inl ⟨by omega, by simp [byteOf]⟩⟩
  split
  · exact ⟨rfl, Or.inr ⟨0xD4, 1, be 1 n, by simp [listMarkers], by omega, by simp, by simp, bigEndian_be (by omega)⟩⟩
  split
  · exact ⟨rfl, Or.inr ⟨0xD5, 2, be 2 n, by simp [listMarkers], by omega, by simp, by simp, bigEndian_be (by omega)⟩⟩
  split
  · exact ⟨rfl, Or.inr ⟨0xD6, 4, be 4 n, by simp [listMarkers], by omega, by simp, by simp, bigEndian_be (by omega)⟩⟩
  · omega

theorem sliceHeader_none {n : Nat} : (sliceHeader n).2 = none ↔ n < 2 ^ 32 := by
  constructor
  · intro h
    unfold sliceHeader at h
    repeat' split at h
    all_goals first | omega | simp at h
  · intro h; exact (sliceHeader_conforms (lim := full) (lenOK_full.mpr h)).1

theorem mapHeader_conforms {lim : Limit} {n : Nat} (h : lenOK lim n) :
    (mapHeader n).2 = none ∧ Header lim 0xA0 mapMarkers n (mapHeader n).1.flatten := by
  simp only [lenOK] at h
  unfold mapHeader
  split
  · exact ⟨rfl, Or.inl ⟨by omega, by simp [byteOf]⟩⟩
  split
  · exact ⟨rfl, Or.inr ⟨0xD8, 1, be 1 n, by simp [mapMarkers], by omega, by simp, by simp, bigEndian_be (by omega)⟩⟩
  split
  · exact ⟨rfl, Or.inr ⟨0xD9, 2, be 2 n, by simp [mapMarkers], by omega, by simp, by simp, bigEndian_be (by omega)⟩⟩
  split
  · exact ⟨rfl, Or.inr ⟨0xDA, 4, be 4 n, by simp [mapMarkers], by omega, by simp, by simp, bigEndian_be (by omega)⟩⟩
  · omega

theorem mapHeader_none {n : Nat} : (mapHeader n).2 = none ↔ n < 2 ^ 32 := by
  constructor
  · intro h
    unfold mapHeader at h
    repeat' split at h
    all_goals first | omega | simp at h
  · intro h; exact (mapHeader_conforms (lim := full) (lenOK_full.mpr h)).1

theorem structHeader_conforms {lim : Limit} {n : Nat} (h : slenOK lim n) :
    (structHeader n).2 = none ∧ Header lim 0xB0 structMarkers n (structHeader n).1.flatten := by
  simp only [slenOK] at h
  unfold structHeader
  split
  · exact ⟨rfl, Or.inl ⟨by omega, by simp [byteOf]⟩⟩
  split
  · exact ⟨rfl, Or.inr ⟨0xDC, 1, be 1 n, by simp [structMarkers], by omega, by simp, by simp, bigEndian_be (by omega)⟩⟩
  split
  · exact ⟨rfl, Or.inr ⟨0xDD, 2, be 2 n, by simp [structMarkers], by omega, by simp, by simp, bigEndian_be (by omega)⟩⟩
  · omega

theorem structHeader_none {n : Nat} : (structHeader n).2 = none ↔ n < 2 ^ 16 := by
  constructor
  · intro h
    unfold structHeader at h
    repeat' split at h
    all_goals first | omega | simp at h
  · intro h; exact (structHeader_conforms (lim := full) (slenOK_full.mpr h)).1

/-- Lengths legal for the encoder under `lim`, as a condition on trees. -/
abbrev FitsLim (lim : Limit) (t : PS) : Prop := t.FitsWith (lenOK lim) (slenOK lim)

theorem tree_struct (env : Env) (ver : Ver) (k : StructKind) (fs : List Val) :
    tree env ver (.struct k fs) = if k.isStructure then (match k with | .discard => some (.struct k.sig []) | _ => (trees env ver fs).map (.struct k.sig)) else none := by
  cases k with
  | point2D b => cases b <;> simp [tree, StructKind.isStructure, tag, StructKind.sig]
  | point3D b => cases b <;> simp [tree, StructKind.isStructure, tag, StructKind.sig]
  | _ => simp [tree, StructKind.isStructure, tag, StructKind.sig]

mutual
theorem encode_conforms (env : Env) (ver : Ver) (lim : Limit) : (v : Val) → (t : PS) → tree env ver v = some t → FitsLim lim t →
    (encode env ver v).2 = none ∧ Spec.Enc lim t (encode env ver v).1.flatten
  | .nil, t, h, _ => by
    simp only [tree, Option.some.injEq] at h; subst h; simp [encode, Spec.Enc]
  | .bool b, t, h, _ => by
    simp only [tree, Option.some.injEq] at h; subst h; cases b <;> simp [encode, Spec.Enc]
  | .int k n, t, h, hf => by
    simp only [tree, Option.some.injEq] at h; subst h
    simp only [PS.FitsWith] at hf
    have hi := encodeInt_conforms hf.1 hf.2
    cases k <;> simp only [encode, Spec.Enc]
    case uint => rw [wrap64_of_range hf.1 hf.2]; exact hi
    case uint64 => rw [if_neg (by omega)]; exact hi
    all_goals exact hi
  | .float32 b, t, h, _ => by
    simp only [tree, Option.some.injEq] at h; subst h; exact encodeFloat_conforms _
  | .float64 b, t, h, _ => by
    simp only [tree, Option.some.injEq] at h; subst h; exact encodeFloat_conforms _
  | .str s, t, h, hf => by
    simp only [tree, Option.some.injEq] at h; subst h
    exact encodeString_conforms hf
  | .list _ vs, t, h, hf => by
    simp only [tree, Option.map_eq_some_iff] at h
    obtain ⟨ts, hts, rfl⟩ := h
    simp only [PS.FitsWith] at hf
    have hi := encodeItems_conforms env ver lim vs ts hts hf.2
    have hh := sliceHeader_conforms hf.1
    rw [← hi.2.2] at hh
    simp only [encode, Spec.Enc]
    exact ⟨Enc.seq_none.mpr ⟨hh.1, hi.1⟩, _, _, hi.2.2 ▸ hh.2, hi.2.1, Enc.seq_flatten hh.1⟩
  | .map es, t, h, hf => by
    simp only [tree, Option.map_eq_some_iff] at h
    obtain ⟨ts, hts, rfl⟩ := h
    simp only [PS.FitsWith] at hf
    have hi := encodeEntries_conforms env ver lim es ts hts hf.2
    have hh := mapHeader_conforms hf.1
    rw [← hi.2.2] at hh
    simp only [encode, Spec.Enc]
    exact ⟨Enc.seq_none.mpr ⟨hh.1, hi.1⟩, _, _, hi.2.2 ▸ hh.2, hi.2.1, Enc.seq_flatten hh.1⟩
  | .struct k fs, t, h, hf => by
    rw [tree_struct] at h
    by_cases hk : k.isStructure
    · rw [if_pos hk] at h
      by_cases hd : k = .discard
      · subst hd
        simp only [Option.some.injEq] at h
        subst h
        have hh := structHeader_conforms (lim := lim) (n := 0) (Or.inl (by omega))
        simp only [encode, Spec.Enc, EncList]
        refine ⟨Enc.seq_none.mpr ⟨hh.1, rfl⟩, _, [], hh.2, rfl, ?_⟩
        rw [Enc.seq_flatten hh.1]; rfl
      · have h' : (trees env ver fs).map (.struct k.sig) = some t := by
          cases k <;> first | exact h | exact absurd rfl hd
        simp only [Option.map_eq_some_iff] at h'
        obtain ⟨ts, hts, rfl⟩ := h'
        simp only [PS.FitsWith] at hf
        have hi := encodeFields_conforms env ver lim fs ts hts hf.2
        have hh := structHeader_conforms hf.1
        rw [← hi.2.2] at hh
        have he : encode env ver (.struct k fs) =
            ((structHeader fs.length).seq (.ok [[k.sig]])).seq (encodeFields env ver fs) := by
          cases k <;> first | exact absurd rfl hd | (simp only [encode]; rw [if_pos hk])
        have hs : ((structHeader fs.length).seq (Enc.ok [[k.sig]])).2 = none := Enc.seq_none.mpr ⟨hh.1, rfl⟩
        rw [he]
        simp only [Spec.Enc]
        refine ⟨Enc.seq_none.mpr ⟨hs, hi.1⟩, _, _, hi.2.2 ▸ hh.2, hi.2.1, ?_⟩
        rw [Enc.seq_flatten hs, Enc.seq_flatten hh.1, hi.2.2]
        simp
    · rw [if_neg hk] at h; cases h
  | .date d, t, h, hf => by
    cases ver <;> simp [tree] at h
    subst h
    simp only [PS.FitsWith, FitsList] at hf
    have h1 := encodeInt_conforms hf.2.1.1 hf.2.1.2
    simp only [encode, encodeDate, Spec.Enc, EncList]
    refine ⟨Enc.seq_none.mpr ⟨rfl, h1.1⟩, [0xB1], _, Or.inl ⟨by simp, rfl⟩, ⟨_, _, h1.2, rfl, rfl⟩, ?_⟩
    rw [Enc.seq_flatten rfl]; simp
  | .clock n o, t, h, hf => by
    cases ver <;> simp [tree] at h
    subst h
    simp only [PS.FitsWith, FitsList] at hf
    have h1 := encodeInt_conforms hf.2.1.1 hf.2.1.2
    have h2 := encodeInt_conforms hf.2.2.1.1 hf.2.2.1.2
    have s1 : ((Enc.ok [[0xB2], [0x54]]).seq (encodeInt n)).2 = none := Enc.seq_none.mpr ⟨rfl, h1.1⟩
    simp only [encode, encodeClock, Spec.Enc, EncList]
    refine ⟨Enc.seq_none.mpr ⟨s1, h2.1⟩, [0xB2], _, Or.inl ⟨by simp, rfl⟩, ⟨_, _, h1.2, ⟨_, _, h2.2, rfl, rfl⟩, rfl⟩, ?_⟩
    rw [Enc.seq_flatten s1, Enc.seq_flatten rfl]; simp
  | .localClock n, t, h, hf => by
    cases ver <;> simp [tree] at h
    subst h
    simp only [PS.FitsWith, FitsList] at hf
    have h1 := encodeInt_conforms hf.2.1.1 hf.2.1.2
    simp only [encode, encodeLocalClock, Spec.Enc, EncList]
    refine ⟨Enc.seq_none.mpr ⟨rfl, h1.1⟩, [0xB1], _, Or.inl ⟨by simp, rfl⟩, ⟨_, _, h1.2, rfl, rfl⟩, ?_⟩
    rw [Enc.seq_flatten rfl]; simp
  | .localTime s n, t, h, hf => by
    cases ver <;> simp [tree] at h
    subst h
    simp only [PS.FitsWith, FitsList] at hf
    have h1 := encodeInt_conforms hf.2.1.1 hf.2.1.2
    have h2 := encodeInt_conforms hf.2.2.1.1 hf.2.2.1.2
    have s1 : ((Enc.ok [[0xB2], [0x64]]).seq (encodeInt s)).2 = none := Enc.seq_none.mpr ⟨rfl, h1.1⟩
    simp only [encode, encodeLocalTime, Spec.Enc, EncList]
    refine ⟨Enc.seq_none.mpr ⟨s1, h2.1⟩, [0xB2], _, Or.inl ⟨by simp, rfl⟩, ⟨_, _, h1.2, ⟨_, _, h2.2, rfl, rfl⟩, rfl⟩, ?_⟩
    rw [Enc.seq_flatten s1, Enc.seq_flatten rfl]; simp
  | .time s n o, t, h, hf => by
    cases ver <;> simp [tree] at h
    subst h
    simp only [PS.FitsWith, FitsList] at hf
    have h1 := encodeInt_conforms hf.2.1.1 hf.2.1.2
    have h2 := encodeInt_conforms hf.2.2.1.1 hf.2.2.1.2
    have h3 := encodeInt_conforms hf.2.2.2.1.1 hf.2.2.2.1.2
    have s1 : ((Enc.ok [[0xB3], [0x46]]).seq (encodeInt (s + o))).2 = none := Enc.seq_none.mpr ⟨rfl, h1.1⟩
    have s2 : (((Enc.ok [[0xB3], [0x46]]).seq (encodeInt (s + o))).seq (encodeInt n)).2 = none :=
      Enc.seq_none.mpr ⟨s1, h2.1⟩
    simp only [encode, encodeTime, Spec.Enc, EncList, wrap64_of_range hf.2.1.1 hf.2.1.2]
    refine ⟨Enc.seq_none.mpr ⟨s2, h3.1⟩, [0xB3], _, Or.inl ⟨by simp, rfl⟩,
      ⟨_, _, h1.2, ⟨_, _, h2.2, ⟨_, _, h3.2, rfl, rfl⟩, rfl⟩, rfl⟩, ?_⟩
    rw [Enc.seq_flatten s2, Enc.seq_flatten s1, Enc.seq_flatten rfl]; simp
  | .duration d, t, h, hf => by
    cases ver <;> simp [tree] at h
    subst h
    simp only [PS.FitsWith, FitsList] at hf
    have h1 := encodeFloat_conforms (lim := lim) (env.dur d).1
    have h2 := encodeFloat_conforms (lim := lim) (env.dur d).2.1
    have h3 := encodeFloat_conforms (lim := lim) (env.dur d).2.2
    have h4 := encodeInt_conforms hf.2.2.2.2.1.1 hf.2.2.2.2.1.2
    simp only [Spec.Enc] at h1 h2 h3
    simp only [encode, encodeDuration, Spec.Enc, EncList]
    refine ⟨?_, [0xB4], _, Or.inl ⟨by simp, rfl⟩,
      ⟨_, _, h1.2, ⟨_, _, h2.2, ⟨_, _, h3.2, ⟨_, _, h4.2, rfl, rfl⟩, rfl⟩, rfl⟩, rfl⟩, ?_⟩
    · simp [Enc.seq_none, h1.1, h2.1, h3.1, h4.1]
    · simp [Enc.seq, Enc.ok, encodeFloat]
  | .other, t, h, _ => by simp [tree] at h

theorem encodeItems_conforms (env : Env) (ver : Ver) (lim : Limit) : (vs : List Val) → (ts : List PS) → trees env ver vs = some ts →
    FitsList (lenOK lim) (slenOK lim) ts →
    (encodeItems env ver vs).2 = none ∧ EncList lim ts (encodeItems env ver vs).1.flatten ∧ vs.length = ts.length
  | [], ts, h, _ => by
    simp only [trees, Option.some.injEq] at h; subst h; simp [encodeItems, EncList]
  | v :: vs, ts, h, hf => by
    simp only [trees] at h
    split at h
    case h_2 => cases h
    rename_i t ts' ht hts
    simp only [Option.some.injEq] at h; subst h
    simp only [FitsList] at hf
    have h1 := encode_conforms env ver lim v t ht hf.1
    have h2 := encodeItems_conforms env ver lim vs ts' hts hf.2
    simp only [encodeItems, EncList]
    exact ⟨Enc.seq_none.mpr ⟨h1.1, h2.1⟩, ⟨_, _, h1.2, h2.2.1, Enc.seq_flatten h1.1⟩, by simp [h2.2.2]⟩

theorem encodeEntries_conforms (env : Env) (ver : Ver) (lim : Limit) : (es : List (Bytes × Val)) → (ts : List (Bytes × PS)) →
    treeEntries env ver es = some ts → FitsEntries (lenOK lim) (slenOK lim) ts →
    (encodeEntries env ver es).2 = none ∧ EncEntries lim ts (encodeEntries env ver es).1.flatten ∧ es.length = ts.length
  | [], ts, h, _ => by
    simp only [treeEntries, Option.some.injEq] at h; subst h; simp [encodeEntries, EncEntries]
  | (k, v) :: es, ts, h, hf => by
    simp only [treeEntries] at h
    split at h
    case h_2 => cases h
    rename_i t ts' ht hts
    simp only [Option.some.injEq] at h; subst h
    simp only [FitsEntries] at hf
    have h0 := encodeString_conforms hf.1
    have h1 := encode_conforms env ver lim v t ht hf.2.1
    have h2 := encodeEntries_conforms env ver lim es ts' hts hf.2.2
    have s1 : ((encodeString k).seq (encode env ver v)).2 = none := Enc.seq_none.mpr ⟨h0.1, h1.1⟩
    simp only [encodeEntries, EncEntries]
    refine ⟨Enc.seq_none.mpr ⟨s1, h2.1⟩, ⟨_, _, _, h0.2, h1.2, h2.2.1, ?_⟩, by simp [h2.2.2]⟩
    rw [Enc.seq_flatten s1, Enc.seq_flatten h0.1, List.append_assoc]

theorem encodeFields_conforms (env : Env) (ver : Ver) (lim : Limit) : (vs : List Val) → (ts : List PS) → trees env ver vs = some ts →
    FitsList (lenOK lim) (slenOK lim) ts →
    (encodeFields env ver vs).2 = none ∧ EncList lim ts (encodeFields env ver vs).1.flatten ∧ vs.length = ts.length
  | [], ts, h, _ => by
    simp only [trees, Option.some.injEq] at h; subst h; simp [encodeFields, EncList]
  | v :: vs, ts, h, hf => by
    simp only [trees] at h
    split at h
    case h_2 => cases h
    rename_i t ts' ht hts
    simp only [Option.some.injEq] at h; subst h
    simp only [FitsList] at hf
    have h1 := encode_conforms env ver lim v t ht hf.1
    have h2 := encodeFields_conforms env ver lim vs ts' hts hf.2
    have hw : (wrapField (encode env ver v)).2 = none := wrapField_none.mpr h1.1
    simp only [encodeFields, EncList]
    exact ⟨Enc.seq_none.mpr ⟨hw, h2.1⟩, ⟨_, _, h1.2, h2.2.1, Enc.seq_flatten hw⟩, by simp [h2.2.2]⟩
end

theorem encode_struct_eq (env : Env) (ver : Ver) (k : StructKind) (fs : List Val) (hd : k ≠ .discard) (hk : k.isStructure = true) :
    encode env ver (.struct k fs) = ((structHeader fs.length).seq (.ok [[k.sig]])).seq (encodeFields env ver fs) := by
  cases k <;> first | exact absurd rfl hd | (simp only [encode]; rw [if_pos hk])

theorem tree_struct_eq (env : Env) (ver : Ver) (k : StructKind) (fs : List Val) (hd : k ≠ .discard) (hk : k.isStructure = true) :
    tree env ver (.struct k fs) = (trees env ver fs).map (.struct k.sig) := by
  rw [tree_struct, if_pos hk]
  cases k <;> first | exact absurd rfl hd | rfl

mutual
/-- Conversely: a value that the encoder accepts has a tree that fits. -/
theorem encode_fits (env : Env) (ver : Ver) : (v : Val) → v.All intsInRange → v.All uintSafe → (encode env ver v).2 = none →
    ∃ t, tree env ver v = some t ∧ t.Fits
  | .nil, _, _, _ => ⟨_, rfl, trivial⟩
  | .bool b, _, _, _ => ⟨_, rfl, trivial⟩
  | .int k n, hr, hu, h => by
    refine ⟨_, rfl, ?_⟩
    simp only [Val.All, intsInRange] at hr
    simp only [PS.Fits, PS.FitsWith]
    cases k <;> simp only [encode, IntKind.InRange] at h hr
    case uint => simp only [Val.All, uintSafe] at hu; omega
    case uint64 =>
      split at h
      · simp at h
      · omega
    all_goals omega
  | .float32 b, _, _, _ => ⟨_, rfl, trivial⟩
  | .float64 b, _, _, _ => ⟨_, rfl, trivial⟩
  | .str s, _, _, h => ⟨_, rfl, encodeString_none.mp h⟩
  | .list i vs, hr, hu, h => by
    simp only [encode, Enc.seq_none] at h
    simp only [Val.All] at hr hu
    obtain ⟨ts, h1, h2, h3⟩ := encodeItems_fits env ver vs hr.2 hu.2 h.2
    refine ⟨.list ts, by simp [tree, h1], ?_⟩
    simp only [PS.Fits, PS.FitsWith]
    exact ⟨h3 ▸ sliceHeader_none.mp h.1, h2⟩
  | .map es, hr, hu, h => by
    simp only [encode, Enc.seq_none] at h
    simp only [Val.All] at hr hu
    obtain ⟨ts, h1, h2, h3⟩ := encodeEntries_fits env ver es hr.2 hu.2 h.2
    refine ⟨.map ts, by simp [tree, h1], ?_⟩
    simp only [PS.Fits, PS.FitsWith]
    exact ⟨h3 ▸ mapHeader_none.mp h.1, h2⟩
  | .struct k fs, hr, hu, h => by
    by_cases hd : k = .discard
    · subst hd
      exact ⟨.struct 0x2F [], rfl, by simp [PS.Fits, PS.FitsWith, FitsList]⟩
    by_cases hk : k.isStructure
    · rw [encode_struct_eq env ver k fs hd hk] at h
      simp only [Enc.seq_none] at h
      simp only [Val.All] at hr hu
      obtain ⟨ts, h1, h2, h3⟩ := encodeFields_fits env ver fs hr.2 hu.2 h.2
      refine ⟨.struct k.sig ts, by rw [tree_struct_eq env ver k fs hd hk, h1]; rfl, ?_⟩
      simp only [PS.Fits, PS.FitsWith]
      exact ⟨h3 ▸ structHeader_none.mp h.1.1, h2⟩
    · exfalso
      cases k <;> first | exact absurd rfl hd | exact hk rfl | (simp only [encode] at h; rw [if_neg hk] at h; simp [unrecognized] at h)
  | .date d, hr, _, h => by
    cases ver <;> simp [encode, unrecognized] at h
    refine ⟨_, rfl, ?_⟩
    simp only [Val.All, intsInRange] at hr
    simp only [PS.Fits, PS.FitsWith, FitsList, List.length_cons, List.length_nil, and_true, true_and]; omega
  | .clock n o, hr, _, h => by
    cases ver <;> simp [encode, unrecognized] at h
    refine ⟨_, rfl, ?_⟩
    simp only [Val.All, intsInRange] at hr
    simp only [PS.Fits, PS.FitsWith, FitsList, List.length_cons, List.length_nil, and_true, true_and]; omega
  | .localClock n, hr, _, h => by
    cases ver <;> simp [encode, unrecognized] at h
    refine ⟨_, rfl, ?_⟩
    simp only [Val.All, intsInRange] at hr
    simp only [PS.Fits, PS.FitsWith, FitsList, List.length_cons, List.length_nil, and_true, true_and]; omega
  | .localTime s n, hr, _, h => by
    cases ver <;> simp [encode, unrecognized] at h
    refine ⟨_, rfl, ?_⟩
    simp only [Val.All, intsInRange] at hr
    simp only [PS.Fits, PS.FitsWith, FitsList, List.length_cons, List.length_nil, and_true, true_and]; omega
  | .time s n o, hr, _, h => by
    cases ver <;> simp [encode, unrecognized] at h
    refine ⟨_, rfl, ?_⟩
    simp only [Val.All, intsInRange] at hr
    simp only [PS.Fits, PS.FitsWith, FitsList, List.length_cons, List.length_nil, and_true, true_and]; omega
  | .duration d, hr, _, h => by
    cases ver <;> simp [encode, unrecognized] at h
    refine ⟨_, rfl, ?_⟩
    simp only [Val.All, intsInRange] at hr
    simp only [PS.Fits, PS.FitsWith, FitsList, List.length_cons, List.length_nil, and_true, true_and]; omega
  | .other, _, _, h => by simp [encode, unrecognized] at h

theorem encodeItems_fits (env : Env) (ver : Ver) : (vs : List Val) → AllList intsInRange vs → AllList uintSafe vs →
    (encodeItems env ver vs).2 = none →
    ∃ ts, trees env ver vs = some ts ∧ FitsList (· < 2 ^ 32) (· < 2 ^ 16) ts ∧ vs.length = ts.length
  | [], _, _, _ => ⟨[], rfl, trivial, rfl⟩
  | v :: vs, hr, hu, h => by
    simp only [encodeItems, Enc.seq_none] at h
    simp only [AllList] at hr hu
    obtain ⟨t, h1, h2⟩ := encode_fits env ver v hr.1 hu.1 h.1
    obtain ⟨ts, h3, h4, h5⟩ := encodeItems_fits env ver vs hr.2 hu.2 h.2
    exact ⟨t :: ts, by simp [trees, h1, h3], ⟨h2, h4⟩, by simp [h5]⟩

theorem encodeEntries_fits (env : Env) (ver : Ver) : (es : List (Bytes × Val)) → AllEntries intsInRange es → AllEntries uintSafe es →
    (encodeEntries env ver es).2 = none →
    ∃ ts, treeEntries env ver es = some ts ∧ FitsEntries (· < 2 ^ 32) (· < 2 ^ 16) ts ∧ es.length = ts.length
  | [], _, _, _ => ⟨[], rfl, trivial, rfl⟩
  | (k, v) :: es, hr, hu, h => by
    simp only [encodeEntries, Enc.seq_none] at h
    simp only [AllEntries] at hr hu
    obtain ⟨t, h1, h2⟩ := encode_fits env ver v hr.1 hu.1 h.1.2
    obtain ⟨ts, h3, h4, h5⟩ := encodeEntries_fits env ver es hr.2 hu.2 h.2
    exact ⟨(k, t) :: ts, by simp [treeEntries, h1, h3], ⟨encodeString_none.mp h.1.1, h2, h4⟩, by simp [h5]⟩

theorem encodeFields_fits (env : Env) (ver : Ver) : (vs : List Val) → AllList intsInRange vs → AllList uintSafe vs →
    (encodeFields env ver vs).2 = none →
    ∃ ts, trees env ver vs = some ts ∧ FitsList (· < 2 ^ 32) (· < 2 ^ 16) ts ∧ vs.length = ts.length
  | [], _, _, _ => ⟨[], rfl, trivial, rfl⟩
  | v :: vs, hr, hu, h => by
    simp only [encodeFields, Enc.seq_none, wrapField_none] at h
    simp only [AllList] at hr hu
    obtain ⟨t, h1, h2⟩ := encode_fits env ver v hr.1 hu.1 h.1
    obtain ⟨ts, h3, h4, h5⟩ := encodeFields_fits env ver vs hr.2 hu.2 h.2
    exact ⟨t :: ts, by simp [trees, h1, h3], ⟨h2, h4⟩, by simp [h5]⟩
end

mutual
theorem FitsWith_mono {l1 l2 s1 s2 : Nat → Prop} (hl : ∀ n, l1 n → l2 n) (hs : ∀ n, s1 n → s2 n) :
    (t : PS) → t.FitsWith l1 s1 → t.FitsWith l2 s2
  | .null, _ => trivial
  | .bool _, _ => trivial
  | .int _, h => h
  | .float _, _ => trivial
  | .str _, h => hl _ h
  | .list ts, h => ⟨hl _ h.1, FitsList_mono hl hs ts h.2⟩
  | .map es, h => ⟨hl _ h.1, FitsEntries_mono hl hs es h.2⟩
  | .struct _ fs, h => ⟨hs _ h.1, FitsList_mono hl hs fs h.2⟩
theorem FitsList_mono {l1 l2 s1 s2 : Nat → Prop} (hl : ∀ n, l1 n → l2 n) (hs : ∀ n, s1 n → s2 n) :
    (ts : List PS) → FitsList l1 s1 ts → FitsList l2 s2 ts
  | [], _ => trivial
  | t :: ts, h => ⟨FitsWith_mono hl hs t h.1, FitsList_mono hl hs ts h.2⟩
theorem FitsEntries_mono {l1 l2 s1 s2 : Nat → Prop} (hl : ∀ n, l1 n → l2 n) (hs : ∀ n, s1 n → s2 n) :
    (es : List (Bytes × PS)) → FitsEntries l1 s1 es → FitsEntries l2 s2 es
  | [], _ => trivial
  | (_, t) :: es, h => ⟨hl _ h.1, FitsWith_mono hl hs t h.2.1, FitsEntries_mono hl hs es h.2.2⟩
end

theorem Fits_full {t : PS} (h : t.Fits) : FitsLim full t :=
  FitsWith_mono (fun _ => lenOK_full.mpr) (fun _ => slenOK_full.mpr) t h

theorem Readable_signed {t : PS} (h : t.Readable) : FitsLim signed t :=
  FitsWith_mono (fun _ => lenOK_signed.mpr) (fun _ => slenOK_signed) t h

theorem Readable_fits {t : PS} (h : t.Readable) : t.Fits :=
  FitsWith_mono (fun _ h => by simp only [readableLen] at h; omega) (fun _ h => by omega) t h

end Verif

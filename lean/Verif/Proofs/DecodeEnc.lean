/- The decoder inverts the PackStream grammar (with readable lengths). -/
import Verif.Spec.Levels
import Verif.Model.Decode
import Verif.Spec.Interp
import Verif.Proofs.Bytes
namespace Verif
open Spec

theorem Dec.bind_apply {α β : Type} (m : Dec α) (f : α → Dec β) (b : Bytes) :
    (m >>= f) b = match m b with
      | .ok (a, b') => f a b'
      | .err e => .err e
      | .panic => .panic
      | .fuel => .fuel := rfl

theorem Dec.bind_ok {α β : Type} {m : Dec α} {f : α → Dec β} {b b' : Bytes} {a : α} (h : m b = .ok (a, b')) :
    (m >>= f) b = f a b' := by rw [Dec.bind_apply, h]

@[simp] theorem Dec.pure_apply {α : Type} (a : α) (b : Bytes) : (Pure.pure a : Dec α) b = .ok (a, b) := rfl

theorem Dec.wrapErr_ok {α : Type} {m : Dec α} {b b' : Bytes} {a : α} {msg : String} (h : m b = .ok (a, b')) :
    Dec.wrapErr msg m b = .ok (a, b') := by unfold Dec.wrapErr; rw [h]

theorem readByte_cons (x : UInt8) (r : Bytes) : readByte (x :: r) = .ok (x, r) := rfl

theorem readUnsigned_append {k : Nat} (hk : 0 < k) {lb : Bytes} (h : lb.length = k) (r : Bytes) :
    readUnsigned k (lb ++ r) = .ok (ofBE lb, r) := by
  unfold readUnsigned
  rw [if_neg (by rw [List.length_append]; omega), if_neg (by rw [List.length_append]; omega)]
  subst h; simp

theorem readSigned_append {k : Nat} (hk : 0 < k) {lb : Bytes} (h : lb.length = k) (r : Bytes) :
    readSigned k (lb ++ r) = .ok (toSigned k (ofBE lb), r) := by
  unfold readSigned
  rw [Dec.bind_ok (readUnsigned_append hk h r)]; rfl

theorem next_append (s r : Bytes) : next s.length (s ++ r) = .ok (s, r) := by
  unfold next
  rw [if_neg (by omega)]; simp

theorem decodeN_succ (dec : Dec Val) (n : Nat) (b : Bytes) : decodeN dec (n + 1) b =
    (dec >>= fun item => decodeN dec n >>= fun rest => pure (item :: rest)) b := rfl

theorem decodeN_cons_ok {dec : Dec Val} {n : Nat} {b r : Bytes} {vs : List Val} (h : decodeN dec (n + 1) b = .ok (vs, r)) :
    ∃ v vs' b1, vs = v :: vs' ∧ dec b = .ok (v, b1) ∧ decodeN dec n b1 = .ok (vs', r) := by
  rw [decodeN_succ, Dec.bind_apply] at h
  cases h1 : dec b with
  | ok p =>
    obtain ⟨v, b1⟩ := p
    rw [h1] at h
    dsimp only at h
    rw [Dec.bind_apply] at h
    cases h2 : decodeN dec n b1 with
    | ok q =>
      obtain ⟨vs', b2⟩ := q
      rw [h2] at h
      simp only [Dec.pure_apply, Res.ok.injEq, Prod.mk.injEq] at h
      obtain ⟨rfl, rfl⟩ := h
      exact ⟨v, vs', b1, rfl, rfl, h2⟩
    | err e => rw [h2] at h; cases h
    | panic => rw [h2] at h; cases h
    | fuel => rw [h2] at h; cases h
  | err e => rw [h1] at h; cases h
  | panic => rw [h1] at h; cases h
  | fuel => rw [h1] at h; cases h

theorem decodeN_nil_ok {dec : Dec Val} {b r : Bytes} {vs : List Val} (h : decodeN dec 0 b = .ok (vs, r)) : vs = [] ∧ b = r := by
  simp only [decodeN, Dec.pure_apply, Res.ok.injEq, Prod.mk.injEq] at h
  exact ⟨h.1.symm, h.2⟩

/-- One field decoded. -/
theorem decodeN_one {dec : Dec Val} {b r : Bytes} {v : Val} (h : decodeN dec 1 b = .ok ([v], r)) : dec b = .ok (v, r) := by
  obtain ⟨v1, l1, b1, e1, d1, h⟩ := decodeN_cons_ok h
  obtain ⟨e, rfl⟩ := decodeN_nil_ok h
  subst e; cases e1; exact d1

theorem decodeN_two {dec : Dec Val} {b r : Bytes} {v w : Val} (h : decodeN dec 2 b = .ok ([v, w], r)) :
    ∃ b1, dec b = .ok (v, b1) ∧ dec b1 = .ok (w, r) := by
  obtain ⟨v1, l1, b1, e1, d1, h⟩ := decodeN_cons_ok h
  cases e1
  exact ⟨b1, d1, decodeN_one h⟩

theorem decodeN_three {dec : Dec Val} {b r : Bytes} {v w x : Val} (h : decodeN dec 3 b = .ok ([v, w, x], r)) :
    ∃ b1 b2, dec b = .ok (v, b1) ∧ dec b1 = .ok (w, b2) ∧ dec b2 = .ok (x, r) := by
  obtain ⟨v1, l1, b1, e1, d1, h⟩ := decodeN_cons_ok h
  cases e1
  obtain ⟨b2, d2, d3⟩ := decodeN_two h
  exact ⟨b1, b2, d1, d2, d3⟩

theorem decodeN_four {dec : Dec Val} {b r : Bytes} {v w x y : Val} (h : decodeN dec 4 b = .ok ([v, w, x, y], r)) :
    ∃ b1 b2 b3, dec b = .ok (v, b1) ∧ dec b1 = .ok (w, b2) ∧ dec b2 = .ok (x, b3) ∧ dec b3 = .ok (y, r) := by
  obtain ⟨v1, l1, b1, e1, d1, h⟩ := decodeN_cons_ok h
  cases e1
  obtain ⟨b2, b3, d2, d3, d4⟩ := decodeN_three h
  exact ⟨b1, b2, b3, d1, d2, d3, d4⟩

theorem decodeN_five {dec : Dec Val} {b r : Bytes} {v w x y z : Val} (h : decodeN dec 5 b = .ok ([v, w, x, y, z], r)) :
    ∃ b1 b2 b3 b4, dec b = .ok (v, b1) ∧ dec b1 = .ok (w, b2) ∧ dec b2 = .ok (x, b3) ∧ dec b3 = .ok (y, b4) ∧
      dec b4 = .ok (z, r) := by
  obtain ⟨v1, l1, b1, e1, d1, h⟩ := decodeN_cons_ok h
  cases e1
  obtain ⟨b2, b3, b4, d2, d3, d4, d5⟩ := decodeN_four h
  exact ⟨b1, b2, b3, b4, d1, d2, d3, d4, d5⟩

theorem sliceToString_ok {ls : List Val} (h : ls.all isStr = true) (b : Bytes) : sliceToString ls b = .ok (ls, b) := by
  induction ls with
  | nil => rfl
  | cons v vs ih =>
    simp only [List.all_cons, Bool.and_eq_true] at h
    obtain ⟨h1, h2⟩ := h
    cases v <;> simp [isStr] at h1
    simp only [sliceToString, Dec.bind_apply, ih h2]; rfl

theorem sliceToNode_ok {ls : List Val} (h : ls.all isNode = true) (b : Bytes) : sliceToNode ls b = .ok (ls, b) := by
  induction ls with
  | nil => rfl
  | cons v vs ih =>
    simp only [List.all_cons, Bool.and_eq_true] at h
    obtain ⟨h1, h2⟩ := h
    cases v <;> simp [isNode] at h1
    rename_i k fs
    cases k <;> simp at h1
    simp only [sliceToNode, Dec.bind_apply, ih h2]; rfl

theorem sliceToURel_ok {ls : List Val} (h : ls.all isURel = true) (b : Bytes) : sliceToURel ls b = .ok (ls, b) := by
  induction ls with
  | nil => rfl
  | cons v vs ih =>
    simp only [List.all_cons, Bool.and_eq_true] at h
    obtain ⟨h1, h2⟩ := h
    cases v <;> simp [isURel] at h1
    rename_i k fs
    cases k <;> simp at h1
    simp only [sliceToURel, Dec.bind_apply, ih h2]; rfl

theorem sliceToInt_ok {ls ls' : List Val} (h : toInts ls = some ls') (b : Bytes) : sliceToInt ls b = .ok (ls', b) := by
  induction ls generalizing ls' with
  | nil => simp only [toInts, Option.some.injEq] at h; subst h; rfl
  | cons v vs ih =>
    unfold toInts at h
    split at h
    · rename_i h'; cases h'
    · rename_i h' ; cases h'
      simp only [Option.map_eq_some_iff] at h
      obtain ⟨l, hl, rfl⟩ := h
      simp only [sliceToInt, Dec.bind_apply, ih hl]; rfl
    · cases h

theorem normalise_eq (s n : Int) : normalise s n = goUnix s n := by
  unfold normalise goUnix
  by_cases h : 0 ≤ n ∧ n < 1000000000
  · rw [if_pos h, if_neg (by omega)]
  · rw [if_neg h, if_pos (by omega)]
    rfl

/-- Decoding a structure whose fields decode to `fs`. -/
theorem decodeStruct_ok (env : Env) (ver : Ver) {dec : Dec Val} {sig : UInt8} {fs : List Val} {b r : Bytes} {v : Val}
    (hd : decodeN dec fs.length b = .ok (fs, r)) (hs : structOf env ver sig fs = some v) :
    decodeStruct env ver dec (sig :: b) = .ok (v, r) := by
  unfold structOf at hs
  by_cases e : sig = 0x4E
  · subst e; rw [if_pos rfl] at hs
    rw [show decodeStruct env ver dec (0x4E :: b) = decodeNode dec b from by cases ver <;> rfl]
    split at hs <;> try (cases hs)
    rename_i id ls m
    split at hs <;> cases hs
    rename_i hall
    obtain ⟨b1, b2, d1, d2, d3⟩ := decodeN_three hd
    simp [decodeNode, Dec.bind_apply, d1, d2, d3, mustInt64, needList, needMap, sliceToString_ok hall]
  rw [if_neg e] at hs; clear e
  by_cases e : sig = 0x52
  · subst e; rw [if_pos rfl] at hs
    rw [show decodeStruct env ver dec (0x52 :: b) = decodeRelationship dec b from by cases ver <;> rfl]
    split at hs <;> cases hs
    obtain ⟨b1, b2, b3, b4, d1, d2, d3, d4, d5⟩ := decodeN_five hd
    simp [decodeRelationship, Dec.bind_apply, d1, d2, d3, d4, d5, mustInt64, needStr, needMap]
  rw [if_neg e] at hs; clear e
  by_cases e : sig = 0x72
  · subst e; rw [if_pos rfl] at hs
    rw [show decodeStruct env ver dec (0x72 :: b) = decodeUnboundRelationship dec b from by cases ver <;> rfl]
    split at hs <;> cases hs
    obtain ⟨b1, b2, d1, d2, d3⟩ := decodeN_three hd
    simp [decodeUnboundRelationship, Dec.bind_apply, d1, d2, d3, mustInt64, needStr, needMap]
  rw [if_neg e] at hs; clear e
  by_cases e : sig = 0x50
  · subst e; rw [if_pos rfl] at hs
    rw [show decodeStruct env ver dec (0x50 :: b) = decodePath dec b from by cases ver <;> rfl]
    split at hs <;> try (cases hs)
    rename_i ns rs ss
    split at hs <;> try (cases hs)
    rename_i hall
    simp only [Option.map_eq_some_iff] at hs
    obtain ⟨ss', hss, rfl⟩ := hs
    obtain ⟨b1, b2, d1, d2, d3⟩ := decodeN_three hd
    simp [decodePath, Dec.bind_apply, d1, d2, d3, needList, sliceToNode_ok hall.1, sliceToURel_ok hall.2, sliceToInt_ok hss]
  rw [if_neg e] at hs; clear e
  by_cases e : sig = 0x71
  · subst e; rw [if_pos rfl] at hs
    rw [show decodeStruct env ver dec (0x71 :: b) = decodeRecord dec b from by cases ver <;> rfl]
    split at hs <;> cases hs
    have d1 := decodeN_one hd
    simp [decodeRecord, Dec.bind_apply, d1, needList]
  rw [if_neg e] at hs; clear e
  by_cases e : sig = 0x7F
  · subst e; rw [if_pos rfl] at hs
    rw [show decodeStruct env ver dec (0x7F :: b) = decodeFailure dec b from by cases ver <;> rfl]
    split at hs <;> cases hs
    have d1 := decodeN_one hd
    simp [decodeFailure, Dec.bind_apply, d1, needMap]
  rw [if_neg e] at hs; clear e
  by_cases e : sig = 0x70
  · subst e; rw [if_pos rfl] at hs
    rw [show decodeStruct env ver dec (0x70 :: b) = decodeSuccess dec b from by cases ver <;> rfl]
    split at hs <;> cases hs
    have d1 := decodeN_one hd
    simp [decodeSuccess, Dec.bind_apply, d1, needMap]
  rw [if_neg e] at hs; clear e
  by_cases e : sig = 0x7E
  · subst e; rw [if_pos rfl] at hs
    rw [show decodeStruct env ver dec (0x7E :: b) = .ok (.struct .ignored [], b) from by cases ver <;> rfl]
    split at hs <;> cases hs
    rename_i hemp
    rw [List.isEmpty_iff.mp hemp] at hd
    rw [(decodeN_nil_ok hd).2]
  rw [if_neg e] at hs; clear e
  by_cases e : sig = 0x2F
  · subst e; rw [if_pos rfl] at hs
    rw [show decodeStruct env ver dec (0x2F :: b) = .ok (.struct .discardAll [], b) from by cases ver <;> rfl]
    split at hs <;> cases hs
    rename_i hemp
    rw [List.isEmpty_iff.mp hemp] at hd
    rw [(decodeN_nil_ok hd).2]
  rw [if_neg e] at hs; clear e
  by_cases e : sig = 0x3F
  · subst e; rw [if_pos rfl] at hs
    rw [show decodeStruct env ver dec (0x3F :: b) = .ok (.struct .pullAll [], b) from by cases ver <;> rfl]
    split at hs <;> cases hs
    rename_i hemp
    rw [List.isEmpty_iff.mp hemp] at hd
    rw [(decodeN_nil_ok hd).2]
  rw [if_neg e] at hs; clear e
  by_cases e : sig = 0x0F
  · subst e; rw [if_pos rfl] at hs
    rw [show decodeStruct env ver dec (0x0F :: b) = .ok (.struct .reset [], b) from by cases ver <;> rfl]
    split at hs <;> cases hs
    rename_i hemp
    rw [List.isEmpty_iff.mp hemp] at hd
    rw [(decodeN_nil_ok hd).2]
  rw [if_neg e] at hs; clear e
  by_cases e : ver = .v1
  · rw [if_pos e] at hs; cases hs
  have e2 : ver = .v2 := by
    cases ver with
    | v1 => exact absurd rfl e
    | v2 => rfl
  rw [if_neg e] at hs; clear e; subst e2
  by_cases e : sig = 0x58
  · subst e; rw [if_pos rfl] at hs
    rw [show decodeStruct env .v2 dec (0x58 :: b) = decodePoint2D dec b from rfl]
    split at hs <;> cases hs
    obtain ⟨b1, b2, d1, d2, d3⟩ := decodeN_three hd
    simp [decodePoint2D, Dec.bind_apply, d1, d2, d3, needInt64, needFloat]
  rw [if_neg e] at hs; clear e
  by_cases e : sig = 0x59
  · subst e; rw [if_pos rfl] at hs
    rw [show decodeStruct env .v2 dec (0x59 :: b) = decodePoint3D dec b from rfl]
    split at hs <;> cases hs
    obtain ⟨b1, b2, b3, d1, d2, d3, d4⟩ := decodeN_four hd
    simp [decodePoint3D, Dec.bind_apply, d1, d2, d3, d4, needInt64, needFloat]
  rw [if_neg e] at hs; clear e
  by_cases e : sig = 0x44
  · subst e; rw [if_pos rfl] at hs
    rw [show decodeStruct env .v2 dec (0x44 :: b) = decodeDate dec b from rfl]
    split at hs <;> cases hs
    have d1 := decodeN_one hd
    simp [decodeDate, Dec.bind_apply, d1, needInt64]
  rw [if_neg e] at hs; clear e
  by_cases e : sig = 0x54
  · subst e; rw [if_pos rfl] at hs
    rw [show decodeStruct env .v2 dec (0x54 :: b) = decodeClock dec b from rfl]
    split at hs <;> cases hs
    obtain ⟨b1, d1, d2⟩ := decodeN_two hd
    simp [decodeClock, Dec.bind_apply, d1, d2, needInt64]
  rw [if_neg e] at hs; clear e
  by_cases e : sig = 0x74
  · subst e; rw [if_pos rfl] at hs
    rw [show decodeStruct env .v2 dec (0x74 :: b) = decodeLocalClock dec b from rfl]
    split at hs <;> cases hs
    have d1 := decodeN_one hd
    simp [decodeLocalClock, Dec.bind_apply, d1, needInt64]
  rw [if_neg e] at hs; clear e
  by_cases e : sig = 0x64
  · subst e; rw [if_pos rfl] at hs
    rw [show decodeStruct env .v2 dec (0x64 :: b) = decodeLocalTime dec b from rfl]
    split at hs <;> cases hs
    obtain ⟨b1, d1, d2⟩ := decodeN_two hd
    simp [decodeLocalTime, Dec.bind_apply, d1, d2, needInt64]
  rw [if_neg e] at hs; clear e
  by_cases e : sig = 0x46
  · subst e; rw [if_pos rfl] at hs
    rw [show decodeStruct env .v2 dec (0x46 :: b) = decodeDateTimeOffset dec b from rfl]
    split at hs
    · rename_i s n o
      obtain ⟨b1, b2, d1, d2, d3⟩ := decodeN_three hd
      split at hs <;> cases hs
      rename_i hr
      have hw := wrap64_of_range (z := (normalise s n).1 - o) (by omega) (by omega)
      rw [normalise_eq] at hw
      simp [decodeDateTimeOffset, Dec.bind_apply, d1, d2, d3, needInt64, normalise_eq, hw]
    · cases hs
  rw [if_neg e] at hs; clear e
  by_cases e : sig = 0x66
  · subst e; rw [if_pos rfl] at hs
    rw [show decodeStruct env .v2 dec (0x66 :: b) = decodeDateTimeZone env dec b from rfl]
    split at hs
    · rename_i s n z
      obtain ⟨b1, b2, d1, d2, d3⟩ := decodeN_three hd
      rw [Option.bind_eq_some_iff] at hs
      obtain ⟨off, hz, hs⟩ := hs
      unfold zonedTime at hs
      simp only at hs
      split at hs <;> cases hs
      rename_i hr
      have hw := wrap64_of_range (z := (normalise s n).1 - off (normalise s n).1) (by omega) (by omega)
      rw [normalise_eq] at hw
      simp [decodeDateTimeZone, Dec.bind_apply, d1, d2, d3, needInt64, needStr, normalise_eq, hz, hw]
    · cases hs
  rw [if_neg e] at hs; clear e
  cases hs

theorem toSigned_small {k n : Nat} (h : n < 2 ^ (8 * k - 1)) : toSigned k n = n := by
  unfold toSigned; rw [if_pos h]

theorem classify_tinyStr : ∀ n ≤ 15, classify (UInt8.ofNat (0x80 + n)) = .tinyStr n := by decide
theorem classify_tinyList : ∀ n ≤ 15, classify (UInt8.ofNat (0x90 + n)) = .tinyList n := by decide
theorem classify_tinyMap : ∀ n ≤ 15, classify (UInt8.ofNat (0xA0 + n)) = .tinyMap n := by decide
theorem classify_tinyStruct : ∀ n ≤ 15, classify (UInt8.ofNat (0xB0 + n)) = .tinyStruct n := by decide

theorem classify_tinyInt_nat : ∀ n < 256, toSigned 1 n ≥ -16 → toSigned 1 n ≤ 127 →
    classify (UInt8.ofNat n) = .tinyInt (toSigned 1 n) := by decide +kernel

theorem classify_tinyInt {b : UInt8} (h1 : toSigned 1 b.toNat ≥ -16) (h2 : toSigned 1 b.toNat ≤ 127) :
    classify b = .tinyInt (toSigned 1 b.toNat) := by
  have := classify_tinyInt_nat b.toNat (UInt8_lt b) h1 h2
  rwa [UInt8.ofNat_toNat] at this

/-- First step of `decode`. -/
theorem decodeBody_cons (env : Env) (ver : Ver) (dec : Dec Val) (m : UInt8) (b : Bytes) {mk : Marker} (h : classify m = mk) :
    decodeBody env ver dec (m :: b) = decodeMarker env ver dec mk b := by
  unfold decodeBody
  rw [Dec.bind_ok (Dec.wrapErr_ok (show readByte (m :: b) = .ok (m, b) from rfl)), h]

/-- A readable length field. -/
theorem readSigned_len {k n : Nat} (hk : 0 < k) {lb : Bytes} (hl : lb.length = k) (hb : bigEndian lb = n) (hn : n < signed k) (r : Bytes)
    (msg : String) : Dec.wrapErr msg (readSigned k) (lb ++ r) = .ok ((n : Int), r) := by
  apply Dec.wrapErr_ok
  rw [readSigned_append hk hl, ← hb, bigEndian_eq]
  rw [← hb, bigEndian_eq] at hn
  rw [toSigned_small hn]

theorem decode_int {env : Env} {ver : Ver} {dec : Dec Val} {n : Int} {bs : Bytes} (h : IntEnc n bs) (rest : Bytes) :
    decodeBody env ver dec (bs ++ rest) = .ok (.int .int64 n, rest) := by
  rcases h with ⟨h1, h2, b, rfl, hb⟩ | ⟨m, k, lb, hm, rfl, hl, hb⟩
  · have e : toSigned 1 b.toNat = n := by
      rw [twosComplement_eq _ (by simp)] at hb
      simpa [ofBE] using hb
    have hc := classify_tinyInt (b := b) (by omega) (by omega)
    rw [List.singleton_append, decodeBody_cons _ _ _ _ _ hc, e]; rfl
  · have hne : lb ≠ [] := by
      intro e; subst e
      simp only [List.length_nil] at hl; subst hl
      simp at hm
    rw [twosComplement_eq _ hne, hl] at hb
    have hk : 0 < k := by have := List.length_pos_iff.mpr hne; omega
    have hc : classify m = .int k := by
      simp only [List.mem_cons, Prod.mk.injEq, List.not_mem_nil, or_false] at hm
      rcases hm with ⟨rfl, rfl⟩ | ⟨rfl, rfl⟩ | ⟨rfl, rfl⟩ | ⟨rfl, rfl⟩ <;> rfl
    rw [List.cons_append, decodeBody_cons _ _ _ _ _ hc]
    simp only [decodeMarker]
    rw [Dec.bind_ok (readSigned_append hk hl rest), hb]; rfl

theorem decode_str {env : Env} {ver : Ver} {dec : Dec Val} {s bs : Bytes} (h : StrEnc signed s bs) (rest : Bytes) :
    decodeBody env ver dec (bs ++ rest) = .ok (.str s, rest) := by
  obtain ⟨hd, hh, rfl⟩ := h
  rcases hh with ⟨hn, rfl⟩ | ⟨m, k, lb, hm, hlim, rfl, hl, hb⟩
  · rw [List.append_assoc, List.singleton_append, decodeBody_cons _ _ _ _ _ (classify_tinyStr _ hn)]
    simp only [decodeMarker]
    split
    · rename_i h0
      have : s = [] := List.length_eq_zero_iff.mp h0
      subst this; rfl
    · rw [Dec.bind_ok (next_append s rest)]; rfl
  · have hc : classify m = .str k ∧ 0 < k := by
      simp only [strMarkers, List.mem_cons, Prod.mk.injEq, List.not_mem_nil, or_false] at hm
      rcases hm with ⟨rfl, rfl⟩ | ⟨rfl, rfl⟩ | ⟨rfl, rfl⟩ <;> exact ⟨rfl, by omega⟩
    rw [List.append_assoc, List.cons_append, decodeBody_cons _ _ _ _ _ hc.1]
    simp only [decodeMarker]
    rw [Dec.bind_ok (readSigned_len hc.2 hl hb hlim _ _), Dec.bind_ok (next_append s rest)]; rfl

theorem Header_length_pos {lim : Limit} {tiny : Nat} {ms : List (UInt8 × Nat)} {n : Nat} {h : Bytes} (hh : Header lim tiny ms n h) :
    0 < h.length := by
  rcases hh with ⟨_, rfl⟩ | ⟨m, k, lb, _, _, rfl, _, _⟩ <;> simp

theorem Enc_length_pos {lim : Limit} {t : PS} {bs : Bytes} (h : Spec.Enc lim t bs) : 0 < bs.length := by
  cases t <;> simp only [Spec.Enc] at h
  · subst h; simp
  · subst h; simp
  · rcases h with ⟨_, _, b, rfl, _⟩ | ⟨m, k, lb, _, rfl, _, _⟩ <;> simp
  · obtain ⟨lb, rfl, _, _⟩ := h; simp
  · obtain ⟨hd, hh, rfl⟩ := h
    have := Header_length_pos hh; simp; omega
  · obtain ⟨hd, body, hh, _, rfl⟩ := h
    have := Header_length_pos hh; simp; omega
  · obtain ⟨hd, body, hh, _, rfl⟩ := h
    have := Header_length_pos hh; simp; omega
  · obtain ⟨hd, body, hh, _, rfl⟩ := h
    have := Header_length_pos hh; simp; omega

theorem StrEnc_length_pos {lim : Limit} {s : Bytes} {bs : Bytes} (h : StrEnc lim s bs) : 0 < bs.length := by
  obtain ⟨hd, hh, rfl⟩ := h
  have := Header_length_pos hh; simp; omega

theorem interpList_length {env : Env} {ver : Ver} : (ts : List PS) → (vs : List Val) → interpList env ver ts = some vs → vs.length = ts.length
  | [], vs, h => by simp only [interpList, Option.some.injEq] at h; subst h; rfl
  | t :: ts, vs, h => by
    simp only [interpList, Option.bind_eq_some_iff, Option.map_eq_some_iff] at h
    obtain ⟨v, _, vs', h2, rfl⟩ := h
    simp [interpList_length ts vs' h2]

mutual
/-- Every level of a tree takes a byte. -/
theorem levels_le_length {lim : Limit} : (t : PS) → (bs : Bytes) → Spec.Enc lim t bs → t.levels ≤ bs.length
  | .null, bs, h => Enc_length_pos h
  | .bool b, bs, h => Enc_length_pos h
  | .int i, bs, h => Enc_length_pos h
  | .float w, bs, h => Enc_length_pos h
  | .str s, bs, h => Enc_length_pos h
  | .list ts, bs, h => by
    simp only [Spec.Enc] at h
    obtain ⟨hd, body, hh, hb, rfl⟩ := h
    have h1 := Header_length_pos hh
    have h2 := levelsList_le_length ts body hb
    simp only [PS.levels, List.length_append]; omega
  | .map es, bs, h => by
    simp only [Spec.Enc] at h
    obtain ⟨hd, body, hh, hb, rfl⟩ := h
    have h1 := Header_length_pos hh
    have h2 := levelsEntries_le_length es body hb
    simp only [PS.levels, List.length_append]; omega
  | .struct sig fs, bs, h => by
    simp only [Spec.Enc] at h
    obtain ⟨hd, body, hh, hb, rfl⟩ := h
    have h1 := Header_length_pos hh
    have h2 := levelsList_le_length fs body hb
    simp only [PS.levels, List.length_append, List.length_cons]; omega

theorem levelsList_le_length {lim : Limit} : (ts : List PS) → (bs : Bytes) → EncList lim ts bs → levelsList ts ≤ bs.length
  | [], bs, _ => Nat.zero_le _
  | t :: ts, bs, h => by
    simp only [EncList] at h
    obtain ⟨b1, b2, e1, e2, rfl⟩ := h
    have h1 := levels_le_length t b1 e1
    have h2 := levelsList_le_length ts b2 e2
    simp only [levelsList, List.length_append]; omega

theorem levelsEntries_le_length {lim : Limit} : (es : List (Bytes × PS)) → (bs : Bytes) → EncEntries lim es bs → levelsEntries es ≤ bs.length
  | [], bs, _ => Nat.zero_le _
  | (k, t) :: es, bs, h => by
    simp only [EncEntries] at h
    obtain ⟨b0, b1, b2, _, e1, e2, rfl⟩ := h
    have h1 := levels_le_length t b1 e1
    have h2 := levelsEntries_le_length es b2 e2
    simp only [levelsEntries, List.length_append]; omega
end

mutual
theorem decodeF_enc_levels (env : Env) (ver : Ver) : (t : PS) → (v : Val) → interp env ver t = some v → (bs : Bytes) → Spec.Enc signed t bs →
    (n : Nat) → t.levels ≤ n → (rest : Bytes) → decodeF env ver n (bs ++ rest) = .ok (v, rest)
  | t, v, hv, bs, he, 0, hn, rest => by
    have := t.levels_pos; omega
  | .null, v, hv, bs, he, n + 1, hn, rest => by
    simp only [interp, Option.some.injEq] at hv; subst hv
    simp only [Spec.Enc] at he; subst he; rfl
  | .bool b, v, hv, bs, he, n + 1, hn, rest => by
    simp only [interp, Option.some.injEq] at hv; subst hv
    simp only [Spec.Enc] at he; subst he
    cases b <;> rfl
  | .int i, v, hv, bs, he, n + 1, hn, rest => by
    simp only [interp, Option.some.injEq] at hv; subst hv
    exact decode_int he rest
  | .float w, v, hv, bs, he, n + 1, hn, rest => by
    simp only [interp, Option.some.injEq] at hv; subst hv
    simp only [Spec.Enc] at he
    obtain ⟨lb, rfl, hl, hb⟩ := he
    have hc : classify 0xC1 = .float := rfl
    rw [decodeF, List.cons_append, decodeBody_cons _ _ _ _ _ hc]
    simp only [decodeMarker]
    rw [Dec.bind_ok (readUnsigned_append (by omega) hl rest), ← bigEndian_eq, hb, UInt64.ofNat_toNat]; rfl
  | .str s, v, hv, bs, he, n + 1, hn, rest => by
    simp only [interp, Option.some.injEq] at hv; subst hv
    exact decode_str he rest
  | .list ts, v, hv, bs, he, n + 1, hn, rest => by
    simp only [interp, Option.map_eq_some_iff] at hv
    obtain ⟨vs, hvs, rfl⟩ := hv
    simp only [Spec.Enc] at he
    obtain ⟨h, body, hh, hb, rfl⟩ := he
    have hi := decodeN_enc_levels env ver ts vs hvs body hb n (by simp only [PS.levels] at hn; omega) rest
    have hs : decodeSlice (decodeF env ver n) ts.length (body ++ rest) = .ok (.list true vs, rest) := by
      unfold decodeSlice
      rw [if_neg (by omega), Int.toNat_natCast, Dec.bind_ok hi]; rfl
    rw [decodeF, List.append_assoc]
    rcases hh with ⟨h15, rfl⟩ | ⟨m, k, lb, hm, hlim, rfl, hl, hbe⟩
    · rw [List.singleton_append, decodeBody_cons _ _ _ _ _ (classify_tinyList _ h15)]; exact hs
    · have hc : classify m = .list k ∧ 0 < k := by
        simp only [listMarkers, List.mem_cons, Prod.mk.injEq, List.not_mem_nil, or_false] at hm
        rcases hm with ⟨rfl, rfl⟩ | ⟨rfl, rfl⟩ | ⟨rfl, rfl⟩ <;> exact ⟨rfl, by omega⟩
      rw [List.cons_append, decodeBody_cons _ _ _ _ _ hc.1]
      simp only [decodeMarker]
      rw [Dec.bind_ok (readSigned_len hc.2 hl hbe hlim _ _)]; exact hs
  | .map es, v, hv, bs, he, n + 1, hn, rest => by
    simp only [interp, Option.map_eq_some_iff] at hv
    obtain ⟨vs, hvs, rfl⟩ := hv
    simp only [Spec.Enc] at he
    obtain ⟨h, body, hh, hb, rfl⟩ := he
    have hi := decodeEntries_enc_levels env ver es [] vs hvs body hb n (by simp only [PS.levels] at hn; omega) rest
    have hs : decodeMap (decodeF env ver n) es.length (body ++ rest) = .ok (.map vs, rest) := by
      unfold decodeMap
      rw [Int.toNat_natCast, Dec.bind_ok hi]; rfl
    rw [decodeF, List.append_assoc]
    rcases hh with ⟨h15, rfl⟩ | ⟨m, k, lb, hm, hlim, rfl, hl, hbe⟩
    · rw [List.singleton_append, decodeBody_cons _ _ _ _ _ (classify_tinyMap _ h15)]; exact hs
    · have hc : classify m = .map k ∧ 0 < k := by
        simp only [mapMarkers, List.mem_cons, Prod.mk.injEq, List.not_mem_nil, or_false] at hm
        rcases hm with ⟨rfl, rfl⟩ | ⟨rfl, rfl⟩ | ⟨rfl, rfl⟩ <;> exact ⟨rfl, by omega⟩
      rw [List.cons_append, decodeBody_cons _ _ _ _ _ hc.1]
      simp only [decodeMarker]
      rw [Dec.bind_ok (readSigned_len hc.2 hl hbe hlim _ _)]; exact hs
  | .struct sig fs, v, hv, bs, he, n + 1, hn, rest => by
    simp only [interp, Option.bind_eq_some_iff] at hv
    obtain ⟨vs, hvs, hso⟩ := hv
    simp only [Spec.Enc] at he
    obtain ⟨h, body, hh, hb, rfl⟩ := he
    have hi := decodeN_enc_levels env ver fs vs hvs body hb n (by simp only [PS.levels] at hn; omega) rest
    rw [← interpList_length fs vs hvs] at hi
    have hs := decodeStruct_ok env ver hi hso
    rw [decodeF, List.append_assoc]
    rcases hh with ⟨h15, rfl⟩ | ⟨m, k, lb, hm, hlim, rfl, hl, hbe⟩
    · rw [List.singleton_append, decodeBody_cons _ _ _ _ _ (classify_tinyStruct _ h15)]; exact hs
    · have hc : classify m = .struct k ∧ 0 < k := by
        simp only [structMarkers, List.mem_cons, Prod.mk.injEq, List.not_mem_nil, or_false] at hm
        rcases hm with ⟨rfl, rfl⟩ | ⟨rfl, rfl⟩ <;> exact ⟨rfl, by omega⟩
      rw [List.cons_append, decodeBody_cons _ _ _ _ _ hc.1]
      simp only [decodeMarker]
      rw [Dec.bind_ok (readSigned_len hc.2 hl hbe hlim _ _)]; exact hs

theorem decodeN_enc_levels (env : Env) (ver : Ver) : (ts : List PS) → (vs : List Val) → interpList env ver ts = some vs → (body : Bytes) →
    EncList signed ts body → (n : Nat) → levelsList ts ≤ n → (rest : Bytes) →
    decodeN (decodeF env ver n) ts.length (body ++ rest) = .ok (vs, rest)
  | [], vs, hv, body, he, n, hn, rest => by
    simp only [interpList, Option.some.injEq] at hv; subst hv
    simp only [EncList] at he; subst he; rfl
  | t :: ts, vs, hv, body, he, n, hn, rest => by
    simp only [interpList, Option.bind_eq_some_iff, Option.map_eq_some_iff] at hv
    obtain ⟨v, h1, vs', h2, rfl⟩ := hv
    simp only [EncList] at he
    obtain ⟨b1, b2, e1, e2, rfl⟩ := he
    simp only [levelsList] at hn
    rw [List.length_cons, decodeN_succ, List.append_assoc,
      Dec.bind_ok (decodeF_enc_levels env ver t v h1 b1 e1 n (by omega) (b2 ++ rest)),
      Dec.bind_ok (decodeN_enc_levels env ver ts vs' h2 b2 e2 n (by omega) rest)]
    rfl

theorem decodeEntries_enc_levels (env : Env) (ver : Ver) : (es : List (Bytes × PS)) → (acc vs : Entries) →
    interpEntries env ver es acc = some vs → (body : Bytes) →
    EncEntries signed es body → (n : Nat) → levelsEntries es ≤ n → (rest : Bytes) →
    decodeEntries (decodeF env ver n) es.length acc (body ++ rest) = .ok (vs, rest)
  | [], acc, vs, hv, body, he, n, hn, rest => by
    simp only [interpEntries, Option.some.injEq] at hv; subst hv
    simp only [EncEntries] at he; subst he; rfl
  | (k, t) :: es, acc, vs, hv, body, he, n, hn, rest => by
    simp only [interpEntries, Option.bind_eq_some_iff] at hv
    obtain ⟨v, h1, h2⟩ := hv
    simp only [EncEntries] at he
    obtain ⟨b0, b1, b2, e0, e1, e2, rfl⟩ := he
    simp only [levelsEntries] at hn
    have hp := t.levels_pos
    have hk : decodeF env ver n (b0 ++ (b1 ++ (b2 ++ rest))) = .ok (.str k, b1 ++ (b2 ++ rest)) := by
      match n, hn with
      | 0, hn => omega
      | n + 1, _ => exact decode_str e0 _
    rw [List.length_cons, List.append_assoc, List.append_assoc]
    unfold decodeEntries
    rw [Dec.bind_ok hk, Dec.bind_ok (decodeF_enc_levels env ver t v h1 b1 e1 n (by omega) (b2 ++ rest))]
    exact decodeEntries_enc_levels env ver es (mapInsert acc k v) vs h2 b2 e2 n (by omega) rest
end

theorem decodeF_enc (env : Env) (ver : Ver) (t : PS) (v : Val) (hv : interp env ver t = some v) (bs : Bytes) (he : Spec.Enc signed t bs)
    (n : Nat) (hn : bs.length ≤ n) (rest : Bytes) : decodeF env ver n (bs ++ rest) = .ok (v, rest) :=
  decodeF_enc_levels env ver t v hv bs he n (Nat.le_trans (levels_le_length t bs he) hn) rest

theorem decodeN_enc (env : Env) (ver : Ver) (ts : List PS) (vs : List Val) (hv : interpList env ver ts = some vs) (body : Bytes)
    (he : EncList signed ts body) (n : Nat) (hn : body.length ≤ n) (rest : Bytes) :
    decodeN (decodeF env ver n) ts.length (body ++ rest) = .ok (vs, rest) :=
  decodeN_enc_levels env ver ts vs hv body he n (Nat.le_trans (levelsList_le_length ts body he) hn) rest

theorem decodeEntries_enc (env : Env) (ver : Ver) (es : List (Bytes × PS)) (acc vs : Entries) (hv : interpEntries env ver es acc = some vs)
    (body : Bytes) (he : EncEntries signed es body) (n : Nat) (hn : body.length ≤ n) (rest : Bytes) :
    decodeEntries (decodeF env ver n) es.length acc (body ++ rest) = .ok (vs, rest) :=
  decodeEntries_enc_levels env ver es acc vs hv body he n (Nat.le_trans (levelsEntries_le_length es body he) hn) rest

/-- The decoder reads back every tree with readable lengths, from any of its encodings. -/
theorem decode_enc (env : Env) (ver : Ver) {t : PS} {v : Val} (hv : interp env ver t = some v) {bs : Bytes} (he : Spec.Enc signed t bs)
    (rest : Bytes) : decode env ver (bs ++ rest) = .ok (v, rest) := by
  unfold decode
  exact decodeF_enc env ver t v hv bs he _ (by simp; omega) rest

end Verif

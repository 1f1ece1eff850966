/-
C127  Every value is sent in the fewest bytes the format allows.

C02 says it for integers; here for whole values, with all the lengths in them, and for the messages with their chunks.
-/
import Verif.Props.C02
import Verif.Proofs.Writes
import Verif.Proofs.ValEq
namespace Verif
open Spec

section
variable {env : Env} {ver : Ver}

theorem header_pos {tiny : Nat} {ms : List (UInt8 × Nat)} {n : Nat} {h : Bytes} (hh : Header full tiny ms n h) : 1 ≤ h.length := by
  rcases hh with ⟨_, rfl⟩ | ⟨m, k, lb, _, _, rfl, _⟩ <;> simp

/-- The shortest header of one of the kinds that have length fields of 1, 2 and 4 bytes. -/
theorem header_least {tiny : Nat} {m₁ m₂ m₃ : UInt8} {n : Nat} {h : Bytes} (hh : Header full tiny [(m₁, 1), (m₂, 2), (m₃, 4)] n h) :
    (if n ≤ 15 then 1 else if n ≤ 255 then 2 else if n ≤ 65535 then 3 else 5) ≤ h.length := by
  rcases hh with ⟨h1, rfl⟩ | ⟨m, k, lb, hm, hn, rfl, hl, _⟩
  · rw [if_pos h1]; simp
  · simp only [List.mem_cons, Prod.mk.injEq, List.not_mem_nil, or_false] at hm
    rw [List.length_cons, hl]
    rcases hm with ⟨-, rfl⟩ | ⟨-, rfl⟩ | ⟨-, rfl⟩ <;> simp only [full] at hn <;> (repeat' split) <;> omega

theorem sheader_least {tiny : Nat} {m₁ m₂ : UInt8} {n : Nat} {h : Bytes} (hh : Header full tiny [(m₁, 1), (m₂, 2)] n h) :
    (if n ≤ 15 then 1 else if n ≤ 255 then 2 else 3) ≤ h.length := by
  rcases hh with ⟨h1, rfl⟩ | ⟨m, k, lb, hm, hn, rfl, hl, _⟩
  · rw [if_pos h1]; simp
  · simp only [List.mem_cons, Prod.mk.injEq, List.not_mem_nil, or_false] at hm
    rw [List.length_cons, hl]
    rcases hm with ⟨-, rfl⟩ | ⟨-, rfl⟩ <;> simp only [full] at hn <;> (repeat' split) <;> omega

theorem sliceHeader_least {n : Nat} {h : Bytes} (hh : Header full 0x90 listMarkers n h) : (sliceHeader n).1.flatten.length ≤ h.length := by
  refine Nat.le_trans ?_ (header_least hh)
  unfold sliceHeader
  (repeat' split) <;> simp [Enc.ok] <;> omega

theorem mapHeader_least {n : Nat} {h : Bytes} (hh : Header full 0xA0 mapMarkers n h) : (mapHeader n).1.flatten.length ≤ h.length := by
  refine Nat.le_trans ?_ (header_least hh)
  unfold mapHeader
  (repeat' split) <;> simp [Enc.ok] <;> omega

theorem structHeader_least {n : Nat} {h : Bytes} (hh : Header full 0xB0 structMarkers n h) : (structHeader n).1.flatten.length ≤ h.length := by
  refine Nat.le_trans ?_ (sheader_least hh)
  unfold structHeader
  (repeat' split) <;> simp [Enc.ok] <;> omega

theorem encodeString_least {s bs : Bytes} (h : StrEnc full s bs) : (encodeString s).1.flatten.length ≤ bs.length := by
  obtain ⟨hd, hh, rfl⟩ := h
  have := header_least hh
  unfold encodeString
  rw [List.length_append]
  dsimp only
  (repeat' split) <;> simp [Enc.ok] <;> (repeat' split at this) <;> omega

theorem seq_length (a b : Enc) : (a.seq b).1.flatten.length ≤ a.1.flatten.length + b.1.flatten.length := by
  unfold Enc.seq
  split <;> simp

mutual
/-- Any encoding of the value's tree is at least as long as the one the encoder makes. -/
theorem encode_least (env : Env) (ver : Ver) : (v : Val) → (t : PS) → (bs : Bytes) → tree env ver v = some t → t.Fits → Spec.Enc full t bs →
    (encode env ver v).1.flatten.length ≤ bs.length
  | .nil, t, bs, h, _, hb => by cases h; cases hb; simp [encode, Enc.ok]
  | .bool b, t, bs, h, _, hb => by cases h; cases hb; cases b <;> simp [encode, Enc.ok]
  | .int k n, t, bs, h, hf, hb => by
    cases h
    have hf : -2 ^ 63 ≤ n ∧ n < 2 ^ 63 := hf
    have hi := IntEnc_length hb
    cases k <;> simp only [encode]
    case uint => rw [wrap64_of_range hf.1 hf.2]; exact hi
    case uint64 => rw [if_neg (by omega)]; exact hi
    all_goals exact hi
  | .float32 b, t, bs, h, _, hb => by
    cases h
    obtain ⟨lb, rfl, hl, _⟩ := hb
    simp [encode, encodeFloat, Enc.ok, hl]
  | .float64 b, t, bs, h, _, hb => by
    cases h
    obtain ⟨lb, rfl, hl, _⟩ := hb
    simp [encode, encodeFloat, Enc.ok, hl]
  | .str s, t, bs, h, _, hb => by cases h; exact encodeString_least hb
  | .list _ vs, t, bs, h, hf, hb => by
    simp only [tree, Option.map_eq_some_iff] at h
    obtain ⟨ts, hts, rfl⟩ := h
    obtain ⟨hd, body, hh, hb, rfl⟩ := hb
    obtain ⟨h1, h2⟩ := items_least env ver vs ts body hts hf.2 hb
    have := sliceHeader_least hh
    rw [← h1] at this
    rw [List.length_append]
    exact Nat.le_trans (seq_length _ _) (Nat.add_le_add this h2)
  | .map es, t, bs, h, hf, hb => by
    simp only [tree, Option.map_eq_some_iff] at h
    obtain ⟨ts, hts, rfl⟩ := h
    obtain ⟨hd, body, hh, hb, rfl⟩ := hb
    obtain ⟨h1, h2⟩ := entries_least env ver es ts body hts hf.2 hb
    have := mapHeader_least hh
    rw [← h1] at this
    rw [List.length_append]
    exact Nat.le_trans (seq_length _ _) (Nat.add_le_add this h2)
  | .struct k fs, t, bs, h, hf, hb => by
    by_cases hk : k.isStructure
    · by_cases hd : k = .discard
      · subst hd
        cases h
        obtain ⟨hd, body, hh, hb, rfl⟩ := hb
        have := structHeader_least hh
        refine Nat.le_trans (seq_length _ _) ?_
        simp only [List.length_append, List.length_cons, Enc.ok, List.flatten_cons, List.flatten_nil, List.length_nil] at this ⊢
        omega
      · rw [tree_struct_eq env ver k fs hd hk, Option.map_eq_some_iff] at h
        obtain ⟨ts, hts, rfl⟩ := h
        obtain ⟨hd', body, hh, hb, rfl⟩ := hb
        obtain ⟨h1, h2⟩ := fields_least env ver fs ts body hts hf.2 hb
        have := structHeader_least hh
        rw [← h1] at this
        rw [encode_struct_eq env ver k fs hd hk]
        refine Nat.le_trans (seq_length _ _) ?_
        have h3 := seq_length (structHeader fs.length) (.ok [[k.sig]])
        simp only [List.length_append, List.length_cons, Enc.ok, List.flatten_cons, List.flatten_nil, List.length_nil] at h3 ⊢
        omega
    · rw [tree_struct, if_neg hk] at h; cases h
  | .date d, t, bs, h, hf, hb => by
    cases ver <;> simp [tree] at h
    subst h
    obtain ⟨hd, body, hh, ⟨b1, b2, e1, rfl, rfl⟩, rfl⟩ := hb
    have := header_pos hh
    have := IntEnc_length e1
    have := seq_length (Enc.ok [[0xB1], [0x44]]) (encodeInt d)
    simp only [encode, encodeDate, Enc.ok, List.flatten_cons, List.flatten_nil, List.length_append, List.length_cons, List.length_nil] at this ⊢
    omega
  | .clock n o, t, bs, h, hf, hb => by
    cases ver <;> simp [tree] at h
    subst h
    obtain ⟨hd, body, hh, ⟨b1, _, e1, ⟨b2, _, e2, rfl, rfl⟩, rfl⟩, rfl⟩ := hb
    have := header_pos hh
    have := IntEnc_length e1
    have := IntEnc_length e2
    have h1 := seq_length (Enc.ok [[0xB2], [0x54]]) (encodeInt n)
    have h2 := seq_length ((Enc.ok [[0xB2], [0x54]]).seq (encodeInt n)) (encodeInt o)
    simp only [encode, encodeClock, Enc.ok, List.flatten_cons, List.flatten_nil, List.length_append, List.length_cons, List.length_nil] at h1 h2 ⊢
    omega
  | .localClock n, t, bs, h, hf, hb => by
    cases ver <;> simp [tree] at h
    subst h
    obtain ⟨hd, body, hh, ⟨b1, b2, e1, rfl, rfl⟩, rfl⟩ := hb
    have := header_pos hh
    have := IntEnc_length e1
    have := seq_length (Enc.ok [[0xB1], [0x74]]) (encodeInt n)
    simp only [encode, encodeLocalClock, Enc.ok, List.flatten_cons, List.flatten_nil, List.length_append, List.length_cons, List.length_nil] at this ⊢
    omega
  | .localTime s n, t, bs, h, hf, hb => by
    cases ver <;> simp [tree] at h
    subst h
    obtain ⟨hd, body, hh, ⟨b1, _, e1, ⟨b2, _, e2, rfl, rfl⟩, rfl⟩, rfl⟩ := hb
    have := header_pos hh
    have := IntEnc_length e1
    have := IntEnc_length e2
    have h1 := seq_length (Enc.ok [[0xB2], [0x64]]) (encodeInt s)
    have h2 := seq_length ((Enc.ok [[0xB2], [0x64]]).seq (encodeInt s)) (encodeInt n)
    simp only [encode, encodeLocalTime, Enc.ok, List.flatten_cons, List.flatten_nil, List.length_append, List.length_cons, List.length_nil] at h1 h2 ⊢
    omega
  | .time s n o, t, bs, h, hf, hb => by
    cases ver <;> simp [tree] at h
    subst h
    have hr : -2 ^ 63 ≤ s + o ∧ s + o < 2 ^ 63 := hf.2.1
    obtain ⟨hd, body, hh, ⟨b1, _, e1, ⟨b2, _, e2, ⟨b3, _, e3, rfl, rfl⟩, rfl⟩, rfl⟩, rfl⟩ := hb
    have := header_pos hh
    have := IntEnc_length e1
    have := IntEnc_length e2
    have := IntEnc_length e3
    have h1 := seq_length (Enc.ok [[0xB3], [0x46]]) (encodeInt (s + o))
    have h2 := seq_length ((Enc.ok [[0xB3], [0x46]]).seq (encodeInt (s + o))) (encodeInt n)
    have h3 := seq_length (((Enc.ok [[0xB3], [0x46]]).seq (encodeInt (s + o))).seq (encodeInt n)) (encodeInt o)
    simp only [encode, encodeTime, wrap64_of_range hr.1 hr.2, Enc.ok, List.flatten_cons, List.flatten_nil, List.length_append, List.length_cons, List.length_nil] at h1 h2 h3 ⊢
    omega
  | .duration d, t, bs, h, hf, hb => by
    cases ver <;> simp [tree] at h
    subst h
    obtain ⟨hd, body, hh, ⟨b1, _, ⟨l1, rfl, e1, _⟩, ⟨b2, _, ⟨l2, rfl, e2, _⟩, ⟨b3, _, ⟨l3, rfl, e3, _⟩, ⟨b4, _, e4, rfl, rfl⟩, rfl⟩, rfl⟩, rfl⟩, rfl⟩ := hb
    have := header_pos hh
    have := IntEnc_length e4
    simp [encode, encodeDuration, encodeFloat, Enc.seq, Enc.ok] at this ⊢
    omega
  | .other, t, bs, h, _, _ => by simp [tree] at h

theorem items_least (env : Env) (ver : Ver) : (vs : List Val) → (ts : List PS) → (bs : Bytes) → trees env ver vs = some ts → FitsList (· < 2 ^ 32) (· < 2 ^ 16) ts →
    EncList full ts bs → vs.length = ts.length ∧ (encodeItems env ver vs).1.flatten.length ≤ bs.length
  | [], ts, bs, h, _, hb => by cases h; cases hb; simp [encodeItems, Enc.ok]
  | v :: vs, ts, bs, h, hf, hb => by
    simp only [trees] at h
    split at h
    case h_2 => cases h
    rename_i t ts' ht hts
    cases h
    obtain ⟨b1, b2, e1, e2, rfl⟩ := hb
    obtain ⟨h1, h2⟩ := items_least env ver vs ts' b2 hts hf.2 e2
    have h3 := encode_least env ver v t b1 ht hf.1 e1
    rw [List.length_append]
    exact ⟨by simp [h1], Nat.le_trans (seq_length _ _) (Nat.add_le_add h3 h2)⟩

theorem entries_least (env : Env) (ver : Ver) : (es : List (Bytes × Val)) → (ts : List (Bytes × PS)) → (bs : Bytes) → treeEntries env ver es = some ts →
    FitsEntries (· < 2 ^ 32) (· < 2 ^ 16) ts → EncEntries full ts bs → es.length = ts.length ∧ (encodeEntries env ver es).1.flatten.length ≤ bs.length
  | [], ts, bs, h, _, hb => by cases h; cases hb; simp [encodeEntries, Enc.ok]
  | (k, v) :: es, ts, bs, h, hf, hb => by
    simp only [treeEntries] at h
    split at h
    case h_2 => cases h
    rename_i t ts' ht hts
    cases h
    obtain ⟨b0, b1, b2, e0, e1, e2, rfl⟩ := hb
    obtain ⟨h1, h2⟩ := entries_least env ver es ts' b2 hts hf.2.2 e2
    have h3 := encode_least env ver v t b1 ht hf.2.1 e1
    have h4 := encodeString_least e0
    refine ⟨by simp [h1], Nat.le_trans (seq_length _ _) ?_⟩
    have := seq_length (encodeString k) (encode env ver v)
    simp only [List.length_append]
    omega

theorem fields_least (env : Env) (ver : Ver) : (vs : List Val) → (ts : List PS) → (bs : Bytes) → trees env ver vs = some ts → FitsList (· < 2 ^ 32) (· < 2 ^ 16) ts →
    EncList full ts bs → vs.length = ts.length ∧ (encodeFields env ver vs).1.flatten.length ≤ bs.length
  | [], ts, bs, h, _, hb => by cases h; cases hb; simp [encodeFields, Enc.ok]
  | v :: vs, ts, bs, h, hf, hb => by
    simp only [trees] at h
    split at h
    case h_2 => cases h
    rename_i t ts' ht hts
    cases h
    obtain ⟨b1, b2, e1, e2, rfl⟩ := hb
    obtain ⟨h1, h2⟩ := fields_least env ver vs ts' b2 hts hf.2 e2
    have h3 := encode_least env ver v t b1 ht hf.1 e1
    rw [List.length_append]
    exact ⟨by simp [h1], Nat.le_trans (seq_length _ _) (Nat.add_le_add h3 h2)⟩
end

end

/-- C127: whenever a value is encoded without error, no bytes that encode the same contents are fewer. -/
theorem C127 (env : Env) (ver : Ver) (v : Val) (hi : v.All intsInRange) (hu : v.All uintSafe) (he : (encode env ver v).2 = none) :
    ∃ t, tree env ver v = some t ∧ Spec.Enc full t (payload env ver v) ∧ ∀ bs, Spec.Enc full t bs → (payload env ver v).length ≤ bs.length := by
  obtain ⟨t, ht, hf⟩ := encode_fits env ver v hi hu he
  exact ⟨t, ht, (encode_conforms env ver full v t ht (Fits_full hf)).2, fun bs hb => encode_least env ver v t bs ht hf hb⟩

/-- The bytes that chunks of contents `c` each of at most `cs` bytes take at least. -/
theorem frame_length (cks : List Bytes) : (frame cks).length = cks.flatten.length + 2 * cks.length + 2 := by
  unfold frame
  rw [List.length_append]
  have : (cks.map chunk).flatten.length = cks.flatten.length + 2 * cks.length := by
    induction cks with
    | nil => rfl
    | cons c cks ih => simp only [List.map_cons, List.flatten_cons, List.length_append, ih, chunk, List.length_cons]; omega
  rw [this]
  rfl

theorem chunks_least {cs : Nat} {cks : List Bytes} (h : ∀ c ∈ cks, c.length ≤ cs) : cks.flatten.length ≤ cs * cks.length := by
  induction cks with
  | nil => simp
  | cons c cks ih =>
    have h1 := h c (by simp)
    have h2 := ih fun d hd => h d (by simp [hd])
    simp only [List.flatten_cons, List.length_append, List.length_cons, Nat.mul_add, Nat.mul_one]
    omega

theorem chunks_exact {cs : Nat} {cks : List Bytes} (h : ∀ c ∈ cks, c.length = cs) : cks.flatten.length = cs * cks.length := by
  induction cks with
  | nil => simp
  | cons c cks ih =>
    have h1 := h c (by simp)
    have h2 := ih fun d hd => h d (by simp [hd])
    simp only [List.flatten_cons, List.length_append, List.length_cons, Nat.mul_add, Nat.mul_one]
    omega

theorem map_chunk_length (cks : List Bytes) : (cks.map chunk).flatten.length = cks.flatten.length + 2 * cks.length := by
  have := frame_length cks
  unfold frame at this
  rw [List.length_append] at this
  simp only [List.length_cons, List.length_nil] at this
  omega

/-- How many bytes a message takes: two for every chunk of `cs` bytes that has been started, and two at the end. -/
theorem C127_length (env : Env) (ver : Ver) {cs : Nat} (h8 : 8 ≤ cs) (hcs : cs ≤ 65535) {v : Val} (hs : v.All (strAtMost cs)) (he : (encode env ver v).2 = none) :
    (encodeMsg env ver cs v).1.flatten.length = (payload env ver v).length + 2 * (((payload env ver v).length + (cs - 1)) / cs) + 2 := by
  have hb := chunkWrites_buf (by omega) _ (encode_writes env ver h8 v hs) ⟨[], []⟩ (by simp; omega)
  obtain ⟨⟨cks, hsize, hout, hall⟩⟩ := chunkWrites_inv hcs (encode env ver v).1 (chunkInv_init cs)
  rw [encodeMsg_ok he]
  have hp : payload env ver v = (encode env ver v).1.flatten := rfl
  generalize hst : chunkWrites cs ⟨[], []⟩ (encode env ver v).1 = st at *
  rw [List.nil_append, ← hp] at hall
  have hl : (payload env ver v).length = cs * cks.length + st.buf.length := by rw [← hall, List.length_append, chunks_exact hsize]
  have ho : st.out.flatten.length = cs * cks.length + 2 * cks.length := by rw [hout, map_chunk_length, chunks_exact hsize]
  have hq : ((payload env ver v).length + (cs - 1)) / cs = cks.length + (if st.buf.length > 0 then 1 else 0) := by
    rw [hl, Nat.add_assoc, Nat.mul_add_div (by omega)]
    congr 1
    split
    · have : st.buf.length + (cs - 1) = cs * 1 + (st.buf.length - 1) := by omega
      rw [this, Nat.mul_add_div (by omega), Nat.div_eq_of_lt (by omega)]
    · exact Nat.div_eq_of_lt (by omega)
  rw [hq, hl]
  unfold flush
  dsimp only
  split
  · simp only [List.flatten_append, List.length_append, ho, List.flatten_cons, List.flatten_nil, length_be, List.length_nil, List.length_cons]
    omega
  · simp only [List.flatten_append, List.length_append, ho, List.flatten_cons, List.flatten_nil, List.length_nil, List.length_cons]
    omega

/-- What `Marshal` returns for a value whose strings fit a chunk: no message with the same contents is shorter. -/
theorem C127_message (env : Env) (ver : Ver) (v : Val) (hi : v.All intsInRange) (hu : v.All uintSafe) (hs : v.All (strAtMost 65535)) (he : (marshal env ver v).2 = none) :
    ∃ t p, tree env ver v = some t ∧ Spec.Enc full t p ∧ Framed p (marshal env ver v).1 ∧
      ∀ p' s, Spec.Enc full t p' → Framed p' s → (marshal env ver v).1.length ≤ s.length := by
  have he' : (encode env ver v).2 = none := by
    unfold marshal encodeMsg at he
    dsimp only at he
    cases hr : (encode env ver v).2 <;> simp_all
  obtain ⟨t, ht, h1, h2⟩ := C127 env ver v hi hu he'
  refine ⟨t, _, ht, h1, (encodeMsg_framed env ver (by omega) (by omega) hs he').2, ?_⟩
  rintro p' s hp ⟨cks, hg, rfl, rfl⟩
  have hl := C127_length env ver (cs := 65535) (by omega) (by omega) hs he'
  have h3 := chunks_least (cs := 65535) fun c hc => (hg c hc).2
  have h4 := h2 _ hp
  have e : (marshal env ver v).1.length = (encodeMsg env ver 65535 v).1.flatten.length := rfl
  rw [e, hl, frame_length]
  have : ((payload env ver v).length + (65535 - 1)) / 65535 ≤ cks.length := by
    rw [Nat.div_le_iff_le_mul_add_pred (by omega)]
    omega
  omega

/-- The hypotheses hold of a map with an integer, a list and a string. -/
example : let v := Val.map [([0x61], .int .int64 300), ([0x62], .list true [.nil, .bool true]), ([0x63], .str [0x78])]
    v.All intsInRange ∧ v.All uintSafe ∧ v.All (strAtMost 65535) ∧ (marshal env0 .v2 v).2 = none ∧ (marshal env0 .v2 v).1.length = 19 := by
  refine ⟨?_, ?_, ?_, by decide +kernel, by decide +kernel⟩ <;> simp [Val.All, AllList, AllEntries, intsInRange, uintSafe, strAtMost, IntKind.InRange]

end Verif

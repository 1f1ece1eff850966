import Verif.Proofs.BodyInv
namespace Verif
open Spec

/-- A panic is caused by a hazardous pattern in the input. -/
def PSrc {α : Type} (m : Dec α) : Prop := ∀ b, (m b = .panic → Hazard b) ∧ ∀ a r, m b = .ok (a, r) → ∃ c, b = c ++ r

theorem Hazard.prepend {b : Bytes} (h : Hazard b) (c : Bytes) : Hazard (c ++ b) := by
  obtain ⟨pre, post, rfl, h⟩ := h
  exact ⟨c ++ pre, post, by simp, h⟩

theorem Dec.bind_eq_panic {α β : Type} {m : Dec α} {f : α → Dec β} {b : Bytes} (h : (m >>= f) b = .panic) :
    m b = .panic ∨ ∃ a b', m b = .ok (a, b') ∧ f a b' = .panic := by
  rw [Dec.bind_apply] at h
  cases h1 : m b with
  | ok p => obtain ⟨a, b'⟩ := p; rw [h1] at h; exact .inr ⟨a, b', rfl, h⟩
  | err e => rw [h1] at h; cases h
  | panic => exact .inl rfl
  | fuel => rw [h1] at h; cases h

theorem readByte_panic {b : Bytes} : readByte b ≠ .panic := by cases b <;> simp [readByte]

theorem readUnsigned_panic {k : Nat} {b : Bytes} : readUnsigned k b ≠ .panic := by
  unfold readUnsigned; split
  · simp
  split <;> simp

theorem readSigned_panic {k : Nat} {b : Bytes} : readSigned k b ≠ .panic := by
  intro h
  rcases Dec.bind_eq_panic h with h | ⟨a, b', _, h⟩
  · exact readUnsigned_panic h
  · cases h

theorem wrapErr_panic {α : Type} {msg : String} {m : Dec α} {b : Bytes} : Dec.wrapErr msg m b = .panic ↔ m b = .panic := by
  unfold Dec.wrapErr; cases m b <;> simp

theorem PSrc.closed : Closed @PSrc where
  pure a := fun b => ⟨fun h => (by cases h), fun a r h => ⟨[], (Dec.pure_eq_ok.mp h).2⟩⟩
  bind := by
    intro α β m f hm hf b
    refine ⟨fun h => ?_, fun x r h => ?_⟩
    · rcases Dec.bind_eq_panic h with h | ⟨a, b', h1, h2⟩
      · exact (hm b).1 h
      · obtain ⟨c, rfl⟩ := (hm b).2 a b' h1
        exact Hazard.prepend ((hf a b').1 h2) c
    · rw [Dec.bind_eq_ok] at h
      obtain ⟨a, b1, h1, h2⟩ := h
      obtain ⟨c1, rfl⟩ := (hm b).2 a b1 h1
      obtain ⟨c2, rfl⟩ := (hf a b1).2 x r h2
      exact ⟨c1 ++ c2, by simp⟩
  fail e := fun b => ⟨fun h => (by cases h), fun a r h => by cases h⟩
  wrapErr := by
    intro α msg m hm b
    refine ⟨fun h => (hm b).1 (wrapErr_panic.mp h), fun a r h => (hm b).2 a r (Dec.wrapErr_eq_ok.mp h)⟩
  readByte := fun b => ⟨fun h => absurd h readByte_panic, fun a r h => ⟨[a], readByte_eq_ok.mp h⟩⟩
  readUnsigned := fun k hk b => ⟨fun h => absurd h readUnsigned_panic, fun a r h => (Cut.closed.readUnsigned k hk).suffix h⟩

theorem PSrc.of_cut {α : Type} {m : Dec α} (h1 : Cut m) (h2 : ∀ b, m b = .panic → Hazard b) : PSrc m :=
  fun b => ⟨h2 b, fun _ _ h => h1.suffix h⟩

/-- An integer is read from the bytes of an integer, anything else from other bytes. -/
def IntFirst (dec : Dec Val) : Prop := ∀ b v r, dec b = .ok (v, r) →
  (∃ n c, v = .int .int64 n ∧ b = c ++ r ∧ IntEnc n c) ∨ ((∀ n, v ≠ .int .int64 n) ∧ NotInt b)

/-- A list is read from its header and its elements. -/
def ListFirst (dec : Dec Val) : Prop := ∀ b vs r, dec b = .ok (.list true vs, r) →
  ∃ lh b' dec', b = lh ++ b' ∧ Header signed 0x90 listMarkers vs.length lh ∧ IntFirst dec' ∧ decodeN dec' vs.length b' = .ok (vs, r)

theorem mustInt64_panic {v : Val} {b : Bytes} (h : mustInt64 v b = .panic) : ∀ n, v ≠ .int .int64 n := by
  rintro n rfl
  simp [mustInt64, Dec.pure_apply] at h

theorem IntFirst.not {dec : Dec Val} (hd : IntFirst dec) {b r : Bytes} {v : Val} (h : dec b = .ok (v, r)) (hv : ∀ n, v ≠ .int .int64 n) : NotInt b := by
  rcases hd b v r h with ⟨n, c, rfl, -, -⟩ | ⟨-, h⟩
  · exact absurd rfl (hv n)
  · exact h

theorem IntFirst.int {dec : Dec Val} (hd : IntFirst dec) {b r : Bytes} {n : Int} (h : dec b = .ok (.int .int64 n, r)) : ∃ c, b = c ++ r ∧ IntEnc n c := by
  rcases hd b _ r h with ⟨n, c, h1, h2, h3⟩ | ⟨h, -⟩
  · cases h1; exact ⟨c, h2, h3⟩
  · exact absurd rfl (h n)

/-- Reading an integer panics if something else is there. -/
theorem mustInt_panic {α : Type} {dec : Dec Val} (hdec : PSrc dec) (hi : IntFirst dec) {f : Int → Dec α} {b : Bytes}
    (h : (do let v ← dec; let n ← mustInt64 v; f n : Dec α) b = .panic) :
    Hazard b ∨ NotInt b ∨ ∃ n c r, b = c ++ r ∧ IntEnc n c ∧ f n r = .panic := by
  replace h := Dec.bind_eq_panic h
  rcases h with h | ⟨v, r, h1, h⟩
  · exact .inl ((hdec b).1 h)
  · replace h := Dec.bind_eq_panic h
    rcases h with h | ⟨n, r', h2, h⟩
    · exact .inr (.inl (hi.not h1 (mustInt64_panic h)))
    · obtain ⟨rfl, rfl⟩ := mustInt64_eq_ok.mp h2
      obtain ⟨c, h3, h4⟩ := hi.int h1
      exact .inr (.inr ⟨n, c, r, h3, h4, h⟩)

theorem sliceToInt_panic : (vs : List Val) → (b : Bytes) → sliceToInt vs b = .panic → ∃ (ns : List Int) (v : Val) (vs' : List Val), vs = ns.map (Val.int .int64) ++ v :: vs' ∧ ∀ n, v ≠ .int .int64 n
  | [], b, h => by cases h
  | v :: vs, b, h => by
    by_cases hv : ∃ n, v = .int .int64 n
    · obtain ⟨n, rfl⟩ := hv
      simp only [sliceToInt] at h
      replace h := Dec.bind_eq_panic h
      rcases h with h | ⟨_, _, _, h⟩
      · obtain ⟨ns, v, vs', rfl, h2⟩ := sliceToInt_panic vs b h
        exact ⟨n :: ns, v, vs', rfl, h2⟩
      · cases h
    · exact ⟨[], v, vs, rfl, fun n hn => hv ⟨n, hn⟩⟩

theorem decodeN_intsThenNot {dec : Dec Val} (hi : IntFirst dec) : (ns : List Int) → (v : Val) → (vs : List Val) → (b r : Bytes) → (∀ n, v ≠ .int .int64 n) →
    decodeN dec (ns.map (Val.int .int64) ++ v :: vs).length b = .ok (ns.map (Val.int .int64) ++ v :: vs, r) → ∃ bs r', b = bs ++ r' ∧ EncList signed (ns.map PS.int) bs ∧ NotInt r'
  | [], v, vs, b, r, hv, h => by
    simp only [List.map_nil, List.nil_append, List.length_cons, decodeN, Dec.bind_eq_ok, Dec.pure_eq_ok] at h
    obtain ⟨x, b', h1, ys, b2, h2, h3, rfl⟩ := h
    cases h3
    exact ⟨[], b, rfl, rfl, hi.not h1 hv⟩
  | n :: ns, v, vs, b, r, hv, h => by
    simp only [List.map_cons, List.cons_append, List.length_cons, decodeN, Dec.bind_eq_ok, Dec.pure_eq_ok] at h
    obtain ⟨x, b', h1, ys, b2, h2, h3, rfl⟩ := h
    cases h3
    obtain ⟨c, rfl, hc⟩ := hi.int h1
    obtain ⟨bs, r', rfl, h4, h5⟩ := decodeN_intsThenNot hi ns v vs b' _ hv h2
    exact ⟨c ++ bs, r', by simp, ⟨c, bs, hc, h4, rfl⟩, h5⟩

theorem Dec.bind_psrc_panic {α β : Type} {m : Dec α} (hm : PSrc m) {f : α → Dec β} {b : Bytes} (h : (m >>= f) b = .panic) :
    Hazard b ∨ ∃ a c b', m b = .ok (a, b') ∧ b = c ++ b' ∧ f a b' = .panic := by
  rcases Dec.bind_eq_panic h with h | ⟨a, b', h1, h2⟩
  · exact .inl ((hm b).1 h)
  · obtain ⟨c, hc⟩ := (hm b).2 a b' h1
    exact .inr ⟨a, c, b', h1, hc, h2⟩

/-- What the classes of markers say about the marker, as far as integers and lists are concerned. -/
def Marker.first (m : Nat) : Marker → Bool
  | .tinyInt x => decide (x = toSigned 1 m ∧ -16 ≤ x ∧ x ≤ 127)
  | .int k => (m == 0xC8 && k == 1) || (m == 0xC9 && k == 2) || (m == 0xCA && k == 4) || (m == 0xCB && k == 8)
  | .tinyList k => decide (m = 0x90 + k ∧ k ≤ 15 ∧ 0x80 ≤ m ∧ m < 0xC8)
  | _ => decide (0x80 ≤ m ∧ m < 0xF0 ∧ m ≠ 0xC8 ∧ m ≠ 0xC9 ∧ m ≠ 0xCA ∧ m ≠ 0xCB)

theorem classify_first_nat : ∀ n < 256, (classify (UInt8.ofNat n)).first n = true := by decide +kernel

theorem classify_first (m : UInt8) : (classify m).first m.toNat = true := by
  have := classify_first_nat m.toNat (UInt8_lt m)
  rwa [UInt8.ofNat_toNat] at this

theorem NotInt.of_marker {m : UInt8} {r : Bytes} (h : 0x80 ≤ m.toNat ∧ m.toNat < 0xF0 ∧ m.toNat ≠ 0xC8 ∧ m.toNat ≠ 0xC9 ∧ m.toNat ≠ 0xCA ∧ m.toNat ≠ 0xCB) : NotInt (m :: r) := by
  refine ⟨m, r, rfl, ?_⟩
  rintro (h1 | h1 | h1)
  · omega
  · omega
  · simp only [List.mem_cons, List.not_mem_nil, or_false] at h1
    rcases h1 with rfl | rfl | rfl | rfl <;> revert h <;> decide

theorem decodeN_length {dec : Dec Val} : {n : Nat} → {b r : Bytes} → {vs : List Val} → decodeN dec n b = .ok (vs, r) → vs.length = n
  | 0, b, r, vs, h => by rw [decodeN, Dec.pure_eq_ok] at h; rw [← h.1]; rfl
  | n + 1, b, r, vs, h => by
    simp only [decodeN, Dec.bind_eq_ok, Dec.pure_eq_ok] at h
    obtain ⟨x, b', _, ys, b2, h2, rfl, rfl⟩ := h
    rw [List.length_cons, decodeN_length h2]

theorem decodeSlice_eq_ok {dec : Dec Val} {n : Int} {b r : Bytes} {v : Val} (h : decodeSlice dec n b = .ok (v, r)) :
    0 ≤ n ∧ ∃ vs, v = .list true vs ∧ vs.length = n.toNat ∧ decodeN dec vs.length b = .ok (vs, r) := by
  unfold decodeSlice at h
  split at h
  · cases h
  · rw [Dec.bind_eq_ok] at h
    obtain ⟨vs, b', h1, h2⟩ := h
    rw [Dec.pure_eq_ok] at h2
    obtain ⟨rfl, rfl⟩ := h2
    exact ⟨by omega, vs, rfl, decodeN_length h1, by rw [decodeN_length h1]; exact h1⟩

theorem decodeMap_eq_ok {dec : Dec Val} {n : Int} {b r : Bytes} {v : Val} (h : decodeMap dec n b = .ok (v, r)) : ∃ es, v = .map es := by
  unfold decodeMap at h
  rw [Dec.bind_eq_ok] at h
  obtain ⟨vs, b', h1, h2⟩ := h
  rw [Dec.pure_eq_ok] at h2
  exact ⟨_, h2.1.symm⟩

/-- Integers and lists are read from what begins like an integer or list, everything else from other bytes. -/
theorem decodeBody_first (env : Env) (ver : Ver) {dec : Dec Val} {b : Bytes} {v : Val} {r : Bytes} (h : decodeBody env ver dec b = .ok (v, r)) :
    (∃ n c, v = .int .int64 n ∧ b = c ++ r ∧ IntEnc n c) ∨
    (NotInt b ∧ ((∃ vs lh b', v = .list true vs ∧ b = lh ++ b' ∧ Header signed 0x90 listMarkers vs.length lh ∧ decodeN dec vs.length b' = .ok (vs, r)) ∨
      ((∀ n, v ≠ .int .int64 n) ∧ ∀ vs, v ≠ .list true vs))) := by
  unfold decodeBody at h
  rw [Dec.bind_eq_ok] at h
  obtain ⟨m, b1, h1, h⟩ := h
  rw [Dec.wrapErr_eq_ok, readByte_eq_ok] at h1
  subst h1
  have hf := classify_first m
  have hS : ∀ {b : Bytes}, decodeStruct env ver dec b = .ok (v, r) → (∀ n, v ≠ .int .int64 n) ∧ ∀ vs, v ≠ .list true vs := by
    intro b h
    obtain ⟨-, -, fs, -, -, hb⟩ := decodeStruct_builtFrom env ver h
    cases hb <;> exact ⟨fun n => by simp, fun vs => by simp⟩
  cases hc : classify m with
  | nil => rw [hc] at h hf; cases h; exact .inr ⟨NotInt.of_marker (by simpa [Marker.first] using hf), .inr ⟨fun n => by simp, fun vs => by simp⟩⟩
  | bool x => rw [hc] at h hf; cases h; exact .inr ⟨NotInt.of_marker (by simpa [Marker.first] using hf), .inr ⟨fun n => by simp, fun vs => by simp⟩⟩
  | tinyInt x =>
    rw [hc] at h hf; cases h
    simp only [Marker.first, decide_eq_true_eq] at hf
    refine .inl ⟨x, [m], rfl, rfl, .inl ⟨hf.2.1, hf.2.2, m, rfl, ?_⟩⟩
    rw [twosComplement_eq _ (by simp), hf.1]
    simp [ofBE]
  | int k =>
    rw [hc] at h hf
    simp only [decodeMarker] at h
    rw [Dec.bind_eq_ok] at h
    obtain ⟨n, b', h1, h2⟩ := h
    rw [Dec.pure_eq_ok] at h2
    obtain ⟨rfl, rfl⟩ := h2
    obtain ⟨lb, rfl, hl, rfl⟩ := readSigned_inv h1
    have e : m = UInt8.ofNat m.toNat := UInt8.ofNat_toNat.symm
    simp only [Marker.first, Bool.or_eq_true, Bool.and_eq_true, beq_iff_eq] at hf
    refine .inl ⟨_, m :: lb, rfl, rfl, .inr ⟨m, k, lb, ?_, rfl, hl, ?_⟩⟩
    · rcases hf with ((⟨hf, rfl⟩ | ⟨hf, rfl⟩) | ⟨hf, rfl⟩) | ⟨hf, rfl⟩ <;> (rw [e, hf]; simp)
    · rw [twosComplement_eq, hl]
      rintro rfl
      simp only [List.length_nil] at hl
      omega
  | float =>
    rw [hc] at h hf
    simp only [decodeMarker] at h
    rw [Dec.bind_eq_ok] at h
    obtain ⟨n, b', h1, h2⟩ := h
    rw [Dec.pure_eq_ok] at h2
    obtain ⟨rfl, rfl⟩ := h2
    exact .inr ⟨NotInt.of_marker (by simpa [Marker.first] using hf), .inr ⟨fun n => by simp, fun vs => by simp⟩⟩
  | tinyStr n =>
    rw [hc] at h hf
    refine .inr ⟨NotInt.of_marker (by simpa [Marker.first] using hf), .inr ?_⟩
    simp only [decodeMarker] at h
    split at h
    · cases h; exact ⟨fun n => by simp, fun vs => by simp⟩
    · rw [Dec.bind_eq_ok] at h
      obtain ⟨s, b', h1, h2⟩ := h
      rw [Dec.pure_eq_ok] at h2
      obtain ⟨rfl, rfl⟩ := h2
      exact ⟨fun n => by simp, fun vs => by simp⟩
  | str k =>
    rw [hc] at h hf
    refine .inr ⟨NotInt.of_marker (by simpa [Marker.first] using hf), .inr ?_⟩
    simp only [decodeMarker] at h
    rw [Dec.bind_eq_ok] at h
    obtain ⟨n, b2, h0, h⟩ := h
    rw [Dec.bind_eq_ok] at h
    obtain ⟨s, b', h1, h2⟩ := h
    rw [Dec.pure_eq_ok] at h2
    obtain ⟨rfl, rfl⟩ := h2
    exact ⟨fun n => by simp, fun vs => by simp⟩
  | tinyList n =>
    rw [hc] at h hf
    simp only [Marker.first, decide_eq_true_eq] at hf
    refine .inr ⟨NotInt.of_marker (by omega), .inl ?_⟩
    obtain ⟨-, vs, rfl, hl, hN⟩ := decodeSlice_eq_ok h
    simp only [Int.toNat_natCast] at hl
    refine ⟨vs, [m], b1, rfl, rfl, .inl ⟨by omega, ?_⟩, hN⟩
    rw [hl, ← hf.1, UInt8.ofNat_toNat]
  | list k =>
    rw [hc] at h hf
    refine .inr ⟨NotInt.of_marker (by simpa [Marker.first] using hf), .inl ?_⟩
    simp only [decodeMarker] at h
    rw [Dec.bind_eq_ok] at h
    obtain ⟨n, b2, h0, h⟩ := h
    obtain ⟨lb, rfl, hl, rfl⟩ := readSigned_inv (Dec.wrapErr_eq_ok.mp h0)
    obtain ⟨hn, vs, rfl, hv, hN⟩ := decodeSlice_eq_ok h
    have hs : ofBE lb < 2 ^ (8 * k - 1) := by
      unfold toSigned at hn
      split at hn
      · assumption
      · have h2 : ofBE lb < 256 ^ k := by rw [← hl]; exact ofBE_lt lb
        have h3 : (256 : Nat) ^ k = 2 ^ (8 * k) := by rw [Nat.pow_mul]
        have h4 : ((2 ^ (8 * k) : Nat) : Int) = 2 ^ (8 * k) := by simp
        omega
    rw [toSigned_small hs] at hv
    refine ⟨vs, m :: lb, b2, rfl, rfl, .inr ⟨m, k, lb, classify_list_inv hc, ?_, rfl, hl, ?_⟩, hN⟩
    · simp only [Int.toNat_natCast] at hv
      rw [hv]; exact hs
    · simp only [Int.toNat_natCast] at hv
      rw [bigEndian_eq, hv]
  | tinyMap n =>
    rw [hc] at h hf
    refine .inr ⟨NotInt.of_marker (by simpa [Marker.first] using hf), .inr ?_⟩
    obtain ⟨es, rfl⟩ := decodeMap_eq_ok h
    exact ⟨fun n => by simp, fun vs => by simp⟩
  | map k =>
    rw [hc] at h hf
    refine .inr ⟨NotInt.of_marker (by simpa [Marker.first] using hf), .inr ?_⟩
    simp only [decodeMarker] at h
    rw [Dec.bind_eq_ok] at h
    obtain ⟨n, b2, h0, h⟩ := h
    obtain ⟨es, rfl⟩ := decodeMap_eq_ok h
    exact ⟨fun n => by simp, fun vs => by simp⟩
  | tinyStruct n =>
    rw [hc] at h hf
    exact .inr ⟨NotInt.of_marker (by simpa [Marker.first] using hf), .inr (hS h)⟩
  | struct k =>
    rw [hc] at h hf
    refine .inr ⟨NotInt.of_marker (by simpa [Marker.first] using hf), .inr ?_⟩
    simp only [decodeMarker] at h
    rw [Dec.bind_eq_ok] at h
    obtain ⟨n, b2, h0, h⟩ := h
    exact hS h
  | unknown => rw [hc] at h; cases h

theorem decodeF_intFirst (env : Env) (ver : Ver) : (n : Nat) → IntFirst (decodeF env ver n)
  | 0 => fun _ _ _ h => by cases h
  | n + 1 => fun b v r h => by
    rcases decodeBody_first env ver h with h | ⟨h1, ⟨vs, lh, b', rfl, -⟩ | ⟨h2, -⟩⟩
    · exact .inl h
    · exact .inr ⟨fun n => by simp, h1⟩
    · exact .inr ⟨h2, h1⟩

theorem decodeF_listFirst (env : Env) (ver : Ver) : (n : Nat) → ListFirst (decodeF env ver n)
  | 0 => fun _ _ _ h => by cases h
  | n + 1 => fun b vs r h => by
    rcases decodeBody_first env ver h with ⟨n, c, h, -⟩ | ⟨h1, ⟨vs, lh, b', h, hb, hh, hN⟩ | ⟨-, h2⟩⟩
    · cases h
    · cases h; exact ⟨lh, b', _, hb, hh, decodeF_intFirst env ver n, hN⟩
    · exact absurd rfl (h2 vs)

/-- A panic while decoding a structure. -/
theorem decodeStruct_panic (env : Env) (ver : Ver) {dec : Dec Val} (hdec : PSrc dec) (hi : IntFirst dec) (hl : ListFirst dec) {b : Bytes} (h : decodeStruct env ver dec b = .panic) :
    Hazard b ∨ ∃ sig rest, b = sig :: rest ∧ ((sig ∈ [(0x4E : UInt8), 0x72] ∧ NotInt rest) ∨ (sig = 0x52 ∧ IntsThenNot 2 rest) ∨
     (sig = 0x50 ∧ ∃ pre lh n r, rest = pre ++ (lh ++ r) ∧ Header signed 0x90 listMarkers (n + 1) lh ∧ IntsThenNot n r)) := by
  unfold decodeStruct at h
  replace h := Dec.bind_eq_panic h
  rcases h with h | ⟨sig, b', h1, h2⟩
  · exact absurd (wrapErr_panic.mp h) readByte_panic
  rw [Dec.wrapErr_eq_ok, readByte_eq_ok] at h1
  subst h1
  by_cases g1 : sig = 0x4E
  · subst g1
    rw [if_pos rfl] at h2
    rcases mustInt_panic hdec hi h2 with h | h | ⟨n, c, r, rfl, -, h⟩
    · exact .inl (Hazard.prepend h [_])
    · exact .inr ⟨_, _, rfl, .inl ⟨by simp, h⟩⟩
    · left
      have : PSrc (do let labelsV ← dec; let labelsI ← needList labelsV; let labels ← sliceToString labelsI; let propsV ← dec; let props ← needMap propsV
                      pure (.struct .node [.int .int64 n, .list true labels, .map props]) : Dec Val) :=
        PSrc.closed.bind hdec fun v => PSrc.closed.bind (PSrc.closed.needList v) fun l => PSrc.closed.bind (PSrc.closed.sliceToString l) fun _ =>
          PSrc.closed.bind hdec fun v => PSrc.closed.bind (PSrc.closed.needMap v) fun _ => PSrc.closed.pure _
      have := Hazard.prepend ((this r).1 h) (0x4E :: c)
      simpa using this
  by_cases g2 : sig = 0x52
  · subst g2
    rw [if_neg g1, if_pos rfl] at h2
    rcases mustInt_panic hdec hi h2 with h | h | ⟨n, c, r, rfl, hc, h⟩
    · exact .inl (Hazard.prepend h [_])
    · exact .inr ⟨_, _, rfl, .inr (.inl ⟨rfl, [], [], _, rfl, by simp, rfl, h⟩)⟩
    rcases mustInt_panic hdec hi h with h | h | ⟨n2, c2, r, rfl, hc2, h⟩
    · exact .inl (by simpa using Hazard.prepend h (0x52 :: c))
    · exact .inr ⟨_, _, rfl, .inr (.inl ⟨rfl, [n], c, _, rfl, by simp, ⟨c, [], hc, rfl, by simp⟩, h⟩)⟩
    rcases mustInt_panic hdec hi h with h | h | ⟨n3, c3, r, rfl, hc3, h⟩
    · exact .inl (by simpa using Hazard.prepend h (0x52 :: (c ++ c2)))
    · exact .inr ⟨_, _, rfl, .inr (.inl ⟨rfl, [n, n2], c ++ c2, _, by simp, by simp, ⟨c, c2, hc, ⟨c2, [], hc2, rfl, by simp⟩, rfl⟩, h⟩)⟩
    · left
      have : PSrc (do let typV ← dec; let typ ← needStr typV; let propsV ← dec; let props ← needMap propsV
                      pure (.struct .relationship [.int .int64 n, .int .int64 n2, .int .int64 n3, .str typ, .map props]) : Dec Val) :=
        PSrc.closed.bind hdec fun v => PSrc.closed.bind (PSrc.closed.needStr v) fun _ =>
          PSrc.closed.bind hdec fun v => PSrc.closed.bind (PSrc.closed.needMap v) fun _ => PSrc.closed.pure _
      have := Hazard.prepend ((this r).1 h) (0x52 :: (c ++ (c2 ++ c3)))
      simpa using this
  by_cases g3 : sig = 0x50
  · subst g3
    rw [if_neg g1, if_neg g2, if_pos rfl] at h2
    unfold decodePath at h2
    replace h2 := Dec.bind_psrc_panic hdec h2
    rcases h2 with h | ⟨v, c, r, -, rfl, h⟩
    · exact .inl (Hazard.prepend h [_])
    replace h := Dec.bind_psrc_panic (PSrc.closed.needList v) h
    rcases h with h | ⟨l, c1, r1, -, rfl, h⟩
    · exact .inl (by simpa using Hazard.prepend h (0x50 :: c))
    replace h := Dec.bind_psrc_panic (PSrc.closed.sliceToNode l) h
    rcases h with h | ⟨l', c2, r2, -, rfl, h⟩
    · exact .inl (by simpa using Hazard.prepend h (0x50 :: (c ++ c1)))
    replace h := Dec.bind_psrc_panic hdec h
    rcases h with h | ⟨v', c3, r3, -, rfl, h⟩
    · exact .inl (by simpa using Hazard.prepend h (0x50 :: (c ++ (c1 ++ c2))))
    replace h := Dec.bind_psrc_panic (PSrc.closed.needList v') h
    rcases h with h | ⟨m, c4, r4, -, rfl, h⟩
    · exact .inl (by simpa using Hazard.prepend h (0x50 :: (c ++ (c1 ++ (c2 ++ c3)))))
    replace h := Dec.bind_psrc_panic (PSrc.closed.sliceToURel m) h
    rcases h with h | ⟨m', c5, r5, -, rfl, h⟩
    · exact .inl (by simpa using Hazard.prepend h (0x50 :: (c ++ (c1 ++ (c2 ++ (c3 ++ c4))))))
    replace h := Dec.bind_psrc_panic hdec h
    rcases h with h | ⟨w, c6, r6, hw, hr, h⟩
    · exact .inl (by simpa using Hazard.prepend h (0x50 :: (c ++ (c1 ++ (c2 ++ (c3 ++ (c4 ++ c5)))))))
    replace h := Dec.bind_eq_panic h
    rcases h with h | ⟨ss, r7, hss, h⟩
    · exact absurd h (by unfold needList; split <;> simp [Dec.pure_apply, Dec.fail])
    obtain ⟨rfl, rfl⟩ := needList_eq_ok.mp hss
    replace h := Dec.bind_eq_panic h
    rcases h with h | ⟨_, _, _, h⟩
    · obtain ⟨ns, x, xs, rfl, hx⟩ := sliceToInt_panic _ _ h
      obtain ⟨lh, b', dec', rfl, hh, hi', hN⟩ := hl _ _ _ hw
      obtain ⟨bs, r', rfl, he, hn⟩ := decodeN_intsThenNot hi' ns x xs b' _ hx hN
      refine .inr ⟨_, _, rfl, .inr (.inr ⟨rfl, c ++ (c1 ++ (c2 ++ (c3 ++ (c4 ++ c5)))), lh, ns.length + xs.length, bs ++ r', by simp, ?_, ns, bs, r', rfl, by omega, he, hn⟩)⟩
      have e : (ns.map (Val.int .int64) ++ x :: xs).length = ns.length + xs.length + 1 := by simp; omega
      rw [← e]; exact hh
    · cases h
  by_cases g4 : sig = 0x72
  · subst g4
    rw [if_neg g1, if_neg g2, if_neg g3, if_pos rfl] at h2
    rcases mustInt_panic hdec hi h2 with h | h | ⟨n, c, r, rfl, -, h⟩
    · exact .inl (Hazard.prepend h [_])
    · exact .inr ⟨_, _, rfl, .inl ⟨by simp, h⟩⟩
    · left
      have : PSrc (do let typV ← dec; let typ ← needStr typV; let propsV ← dec; let props ← needMap propsV
                      pure (.struct .unboundRelationship [.int .int64 n, .str typ, .map props]) : Dec Val) :=
        PSrc.closed.bind hdec fun v => PSrc.closed.bind (PSrc.closed.needStr v) fun _ =>
          PSrc.closed.bind hdec fun v => PSrc.closed.bind (PSrc.closed.needMap v) fun _ => PSrc.closed.pure _
      have := Hazard.prepend ((this r).1 h) (0x72 :: c)
      simpa using this
  left
  have := PSrc.closed.decodeStructBody hdec env ver sig (fun h => absurd h g1) (fun h => absurd h g2) (fun h => absurd h g3) (fun h => absurd h g4)
  exact Hazard.prepend ((this b').1 h2) [sig]

theorem decodeSlice_panic {dec : Dec Val} (hdec : PSrc dec) {n : Int} {b : Bytes} (h : decodeSlice dec n b = .panic) : n < 0 ∨ Hazard b := by
  by_cases hn : n < 0
  · exact .inl hn
  · right
    obtain ⟨k, rfl⟩ : ∃ k : Nat, n = k := ⟨n.toNat, by omega⟩
    exact (PSrc.closed.decodeSlice hdec k b).1 h

theorem toSigned_neg {k : Nat} {lb : Bytes} (h : toSigned k (ofBE lb) < 0) : signed k ≤ bigEndian lb := by
  unfold toSigned at h
  split at h
  · omega
  · rw [bigEndian_eq]; unfold signed; omega

theorem decodeBody_panic (env : Env) (ver : Ver) {dec : Dec Val} (hdec : PSrc dec) (hi : IntFirst dec) (hL : ListFirst dec) {b : Bytes} (h : decodeBody env ver dec b = .panic) :
    Hazard b := by
  unfold decodeBody at h
  replace h := Dec.bind_eq_panic h
  rcases h with h | ⟨m, b1, h1, h⟩
  · exact absurd (wrapErr_panic.mp h) readByte_panic
  rw [Dec.wrapErr_eq_ok, readByte_eq_ok] at h1
  subst h1
  have hnext : ∀ {n : Int} {b : Bytes}, next n b = .panic → n < 0 := by
    intro n b h
    unfold next at h
    split at h
    · assumption
    · cases h
  cases hc : classify m with
  | nil => rw [hc] at h; cases h
  | bool x => rw [hc] at h; cases h
  | tinyInt x => rw [hc] at h; cases h
  | int k =>
    rw [hc] at h
    replace h := Dec.bind_eq_panic h
    rcases h with h | ⟨a, b', _, h⟩
    · exact absurd h readSigned_panic
    · cases h
  | float =>
    rw [hc] at h
    replace h := Dec.bind_eq_panic h
    rcases h with h | ⟨a, b', _, h⟩
    · exact absurd h readUnsigned_panic
    · cases h
  | tinyStr n =>
    rw [hc] at h
    simp only [decodeMarker] at h
    split at h
    · cases h
    · replace h := Dec.bind_eq_panic h
      rcases h with h | ⟨a, b', _, h⟩
      · have := hnext h; omega
      · cases h
  | str k =>
    rw [hc] at h
    replace h := Dec.bind_eq_panic h
    rcases h with h | ⟨a, b', h1, h⟩
    · exact absurd (wrapErr_panic.mp h) readSigned_panic
    · replace h := Dec.bind_eq_panic h
      rcases h with h | ⟨a, b', _, h⟩
      · obtain ⟨lb, rfl, hl, rfl⟩ := readSigned_inv (Dec.wrapErr_eq_ok.mp h1)
        exact ⟨[], _, rfl, .inl ⟨m, k, lb, b', List.mem_append_left _ (classify_str_inv hc), rfl, hl, toSigned_neg (hnext h)⟩⟩
      · cases h
  | tinyList n =>
    rw [hc] at h
    rcases decodeSlice_panic hdec h with h | h
    · omega
    · exact Hazard.prepend h [m]
  | list k =>
    rw [hc] at h
    replace h := Dec.bind_eq_panic h
    rcases h with h | ⟨a, b', h1, h⟩
    · exact absurd (wrapErr_panic.mp h) readSigned_panic
    · obtain ⟨lb, rfl, hl, rfl⟩ := readSigned_inv (Dec.wrapErr_eq_ok.mp h1)
      rcases decodeSlice_panic hdec h with h | h
      · exact ⟨[], _, rfl, .inl ⟨m, k, lb, b', List.mem_append_right _ (classify_list_inv hc), rfl, hl, toSigned_neg h⟩⟩
      · exact Hazard.prepend h (m :: lb)
  | tinyMap n =>
    rw [hc] at h
    exact Hazard.prepend ((PSrc.closed.decodeMap hdec _ b1).1 h) [m]
  | map k =>
    rw [hc] at h
    have := PSrc.closed.bind (PSrc.closed.wrapErr "An error occurred reading map size" (PSrc.closed.readSigned k
      (by have := classify_widthPos m; rw [hc] at this; exact this))) (fun n => PSrc.closed.decodeMap hdec n)
    exact Hazard.prepend ((this b1).1 h) [m]
  | tinyStruct n =>
    rw [hc] at h
    rcases decodeStruct_panic env ver hdec hi hL h with h | ⟨sig, rest, rfl, hg⟩
    · exact Hazard.prepend h [m]
    · obtain ⟨h1, h2⟩ := classify_tinyStruct_inv hc
      exact ⟨[], _, rfl, .inr ⟨[m], sig, rest, rfl, .inl ⟨n, by rw [h1], h2⟩, hg⟩⟩
  | struct k =>
    rw [hc] at h
    replace h := Dec.bind_eq_panic h
    rcases h with h | ⟨a, b', h1, h⟩
    · exact absurd (wrapErr_panic.mp h) readSigned_panic
    · obtain ⟨lb, rfl, hl, rfl⟩ := readSigned_inv (Dec.wrapErr_eq_ok.mp h1)
      rcases decodeStruct_panic env ver hdec hi hL h with h | ⟨sig, rest, rfl, hg⟩
      · exact Hazard.prepend h (m :: lb)
      · refine ⟨[], _, rfl, .inr ⟨m :: lb, sig, rest, rfl, .inr ?_, hg⟩⟩
        rcases classify_struct_inv hc with ⟨rfl, rfl⟩ | ⟨rfl, rfl⟩
        · left
          match lb, hl with
          | [x], _ => exact ⟨x, rfl⟩
        · right
          match lb, hl with
          | [x, y], _ => exact ⟨x, y, rfl⟩
  | unknown => rw [hc] at h; cases h

theorem decodeF_panic (env : Env) (ver : Ver) : (n : Nat) → PSrc (decodeF env ver n)
  | 0 => fun b => ⟨fun h => (by cases h), fun a r h => by cases h⟩
  | n + 1 => PSrc.of_cut (decodeF_cut env ver (n + 1)) fun _ h => decodeBody_panic env ver (decodeF_panic env ver n) (decodeF_intFirst env ver n) (decodeF_listFirst env ver n) h

end Verif

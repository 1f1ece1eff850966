import Verif.Proofs.Closed
import Verif.Spec.Hazards
namespace Verif
open Spec

/-- The result is determined by the consumed bytes, or the input ended inside a string. -/
def Cut {α : Type} (m : Dec α) : Prop :=
  ∀ b a r, m b = .ok (a, r) → (∃ c, b = c ++ r ∧ ∀ r', m (c ++ r') = .ok (a, r')) ∨ (r = [] ∧ EndsInString b)

theorem EndsInString.prepend {b : Bytes} (h : EndsInString b) (c : Bytes) : EndsInString (c ++ b) := by
  obtain ⟨pre, hd, s, n, rfl, h1, h2⟩ := h
  exact ⟨c ++ pre, hd, s, n, by simp, h1, h2⟩

theorem Cut.suffix {α : Type} {m : Dec α} (hm : Cut m) {b r : Bytes} {a : α} (h : m b = .ok (a, r)) : ∃ c, b = c ++ r := by
  rcases hm b a r h with ⟨c, h1, _⟩ | ⟨rfl, _⟩
  · exact ⟨c, h1⟩
  · exact ⟨b, by simp⟩

theorem Cut.closed : Closed @Cut where
  pure a := by
    intro b a' r h
    rw [Dec.pure_eq_ok] at h; obtain ⟨rfl, rfl⟩ := h
    exact .inl ⟨[], rfl, fun _ => rfl⟩
  bind := by
    intro α β m f hm hf b x r h
    rw [Dec.bind_eq_ok] at h
    obtain ⟨a, b1, h1, h2⟩ := h
    obtain ⟨c2, hc2⟩ := (hf a).suffix h2
    rcases hm b a b1 h1 with ⟨c1, rfl, g1⟩ | ⟨rfl, ht⟩
    · rcases hf a b1 x r h2 with ⟨c2, rfl, g2⟩ | ⟨rfl, ht⟩
      · left
        refine ⟨c1 ++ c2, by simp, fun r' => ?_⟩
        rw [Dec.bind_eq_ok]
        exact ⟨a, c2 ++ r', by rw [List.append_assoc]; exact g1 _, g2 r'⟩
      · exact .inr ⟨rfl, EndsInString.prepend ht c1⟩
    · right
      have : r = [] := by
        have := congrArg List.length hc2
        simp only [List.length_nil, List.length_append] at this
        exact List.eq_nil_of_length_eq_zero (by omega)
      exact ⟨this, ht⟩
  fail e := by intro b a r h; simp [Dec.fail] at h
  wrapErr := by
    intro α msg m hm b a r h
    rw [Dec.wrapErr_eq_ok] at h
    rcases hm b a r h with ⟨c, h1, h2⟩ | h'
    · exact .inl ⟨c, h1, fun r' => Dec.wrapErr_eq_ok.mpr (h2 r')⟩
    · exact .inr h'
  readByte := by
    intro b a r h
    rw [readByte_eq_ok] at h; subst h
    exact .inl ⟨[a], rfl, fun r' => rfl⟩
  readUnsigned := by
    intro k hk b a r h
    left
    have h0 := h
    unfold Verif.readUnsigned at h
    split at h
    · cases h
    split at h
    · cases h
    · rename_i h1 h2
      simp only [Res.ok.injEq, Prod.mk.injEq] at h
      obtain ⟨rfl, rfl⟩ := h
      refine ⟨b.take k, by simp, fun r' => ?_⟩
      have hl : (b.take k).length = k := by rw [List.length_take]; omega
      exact readUnsigned_append hk hl r'

theorem Cut.panic {α : Type} : Cut (Dec.panic : Dec α) := by intro b a r h; simp [Dec.panic] at h

theorem next_cut {n : Nat} {b s r : Bytes} (h : next n b = .ok (s, r)) :
    (b = s ++ r ∧ s.length = n) ∨ (r = [] ∧ s = b ∧ b.length < n) := by
  unfold next at h
  rw [if_neg (by omega)] at h
  simp only [Res.ok.injEq, Prod.mk.injEq] at h
  obtain ⟨rfl, rfl⟩ := h
  rw [Int.toNat_natCast]
  by_cases hl : b.length < n
  · right; exact ⟨List.drop_of_length_le (by omega), List.take_of_length_le (by omega), hl⟩
  · left; exact ⟨by simp, by rw [List.length_take]; omega⟩

theorem readSigned_inv {k : Nat} {z : Int} {b r : Bytes} (h : readSigned k b = .ok (z, r)) :
    ∃ lb, b = lb ++ r ∧ lb.length = k ∧ z = toSigned k (ofBE lb) := by
  unfold readSigned at h
  rw [Dec.bind_eq_ok] at h
  obtain ⟨n, b', h1, h2⟩ := h
  rw [Dec.pure_eq_ok] at h2
  obtain ⟨rfl, rfl⟩ := h2
  unfold readUnsigned at h1
  split at h1
  · cases h1
  split at h1
  · cases h1
  · rename_i h2 h3
    simp only [Res.ok.injEq, Prod.mk.injEq] at h1
    obtain ⟨rfl, rfl⟩ := h1
    exact ⟨b.take k, by simp, by rw [List.length_take]; omega, rfl⟩

/-- The markers of strings. -/
def markerOK (n : Nat) : Marker → Bool
  | .str k => (n == 0xD0 && k == 1) || (n == 0xD1 && k == 2) || (n == 0xD2 && k == 4)
  | .list k => (n == 0xD4 && k == 1) || (n == 0xD5 && k == 2) || (n == 0xD6 && k == 4)
  | .tinyStruct k => n == 0xB0 + k && decide (k ≤ 15)
  | .struct k => (n == 0xDC && k == 1) || (n == 0xDD && k == 2)
  | _ => true

theorem classify_ok_nat : ∀ n < 256, markerOK n (classify (UInt8.ofNat n)) = true := by decide +kernel

theorem classify_ok (m : UInt8) : markerOK m.toNat (classify m) = true := by
  have := classify_ok_nat m.toNat (UInt8_lt m)
  rwa [UInt8.ofNat_toNat] at this

theorem classify_tinyStr_nat : ∀ m < 256, ∀ n ≤ 15, classify (UInt8.ofNat m) = .tinyStr n →
    n ≤ 15 ∧ UInt8.ofNat m = UInt8.ofNat (0x80 + n) := by decide +kernel

/-- The numbers in markers are small. -/
def Marker.small : Marker → Prop
  | .int k | .str k | .list k | .map k | .struct k => k ≤ 8
  | .tinyStr n | .tinyList n | .tinyMap n | .tinyStruct n => n ≤ 15
  | _ => True

instance (m : Marker) : Decidable m.small := by cases m <;> unfold Marker.small <;> infer_instance

theorem classify_small_nat : ∀ n < 256, (classify (UInt8.ofNat n)).small := by decide +kernel

theorem classify_small (m : UInt8) : (classify m).small := by
  have := classify_small_nat m.toNat (UInt8_lt m)
  rwa [UInt8.ofNat_toNat] at this

theorem classify_str_inv {m : UInt8} {k : Nat} (h : classify m = .str k) : (m, k) ∈ strMarkers := by
  have h1 := classify_ok m
  rw [h] at h1
  have e : m = UInt8.ofNat m.toNat := UInt8.ofNat_toNat.symm
  simp only [markerOK, Bool.or_eq_true, Bool.and_eq_true, beq_iff_eq] at h1
  rcases h1 with (⟨h1, rfl⟩ | ⟨h1, rfl⟩) | ⟨h1, rfl⟩ <;> (rw [e, h1]; simp [strMarkers])

theorem classify_list_inv {m : UInt8} {k : Nat} (h : classify m = .list k) : (m, k) ∈ listMarkers := by
  have h1 := classify_ok m
  rw [h] at h1
  have e : m = UInt8.ofNat m.toNat := UInt8.ofNat_toNat.symm
  simp only [markerOK, Bool.or_eq_true, Bool.and_eq_true, beq_iff_eq] at h1
  rcases h1 with (⟨h1, rfl⟩ | ⟨h1, rfl⟩) | ⟨h1, rfl⟩ <;> (rw [e, h1]; simp [listMarkers])

theorem classify_tinyStruct_inv {m : UInt8} {k : Nat} (h : classify m = .tinyStruct k) : m = UInt8.ofNat (0xB0 + k) ∧ k ≤ 15 := by
  have h1 := classify_ok m
  rw [h] at h1
  have e : m = UInt8.ofNat m.toNat := UInt8.ofNat_toNat.symm
  simp only [markerOK, Bool.and_eq_true, beq_iff_eq, decide_eq_true_eq] at h1
  exact ⟨by rw [e, h1.1], h1.2⟩

theorem classify_struct_inv {m : UInt8} {k : Nat} (h : classify m = .struct k) : (m = 0xDC ∧ k = 1) ∨ (m = 0xDD ∧ k = 2) := by
  have h1 := classify_ok m
  rw [h] at h1
  have e : m = UInt8.ofNat m.toNat := UInt8.ofNat_toNat.symm
  simp only [markerOK, Bool.or_eq_true, Bool.and_eq_true, beq_iff_eq] at h1
  rcases h1 with ⟨h1, rfl⟩ | ⟨h1, rfl⟩
  · left; exact ⟨by rw [e, h1]; rfl, rfl⟩
  · right; exact ⟨by rw [e, h1]; rfl, rfl⟩

theorem classify_tinyStr_inv {m : UInt8} {n : Nat} (h : classify m = .tinyStr n) : n ≤ 15 ∧ m = UInt8.ofNat (0x80 + n) := by
  have h1 := classify_small m
  rw [h] at h1
  have := classify_tinyStr_nat m.toNat (UInt8_lt m) n h1
  rw [UInt8.ofNat_toNat] at this
  exact this h

theorem next_full {n : Nat} {s : Bytes} (h : s.length = n) (r : Bytes) : next n (s ++ r) = .ok (s, r) := by
  subst h; exact next_append s r

theorem decodeBody_cut (env : Env) (ver : Ver) {dec : Dec Val} (hdec : Cut dec) : Cut (decodeBody env ver dec) := by
  intro b v r h
  have h0 := h
  unfold decodeBody at h
  rw [Dec.bind_eq_ok] at h
  obtain ⟨m, b1, h1, h⟩ := h
  rw [Dec.wrapErr_eq_ok, readByte_eq_ok] at h1
  subst h1
  by_cases hs : ∃ n, classify m = .tinyStr n
  · obtain ⟨n, hc⟩ := hs
    obtain ⟨hn, hm⟩ := classify_tinyStr_inv hc
    rw [hc] at h
    simp only [decodeMarker] at h
    split at h
    · rename_i hz
      rw [Dec.pure_eq_ok] at h; obtain ⟨rfl, rfl⟩ := h
      refine .inl ⟨[m], rfl, fun r' => ?_⟩
      show decodeBody env ver dec (m :: r') = _
      rw [decodeBody_cons env ver dec m r' hc]
      simp only [decodeMarker, if_pos hz]; rfl
    · rename_i hz
      rw [Dec.bind_eq_ok] at h
      obtain ⟨s, b2, h1, h2⟩ := h
      rw [Dec.pure_eq_ok] at h2; obtain ⟨rfl, rfl⟩ := h2
      rcases next_cut h1 with ⟨rfl, hl⟩ | ⟨rfl, rfl, hl⟩
      · refine .inl ⟨m :: s, rfl, fun r' => ?_⟩
        show decodeBody env ver dec (m :: (s ++ r')) = _
        rw [decodeBody_cons env ver dec m _ hc]
        simp only [decodeMarker, if_neg hz]
        rw [Dec.bind_ok (next_full hl r')]; rfl
      · exact .inr ⟨rfl, [], [m], s, n, rfl, .inl ⟨hn, by rw [hm]⟩, hl⟩
  by_cases hs' : ∃ k, classify m = .str k
  · obtain ⟨k, hc⟩ := hs'
    have hmk := classify_str_inv hc
    rw [hc] at h
    simp only [decodeMarker] at h
    rw [Dec.bind_eq_ok] at h
    obtain ⟨z, b2, h1, h2⟩ := h
    rw [Dec.wrapErr_eq_ok] at h1
    obtain ⟨lb, rfl, hl, rfl⟩ := readSigned_inv h1
    rw [Dec.bind_eq_ok] at h2
    obtain ⟨s, b3, h2, h3⟩ := h2
    rw [Dec.pure_eq_ok] at h3; obtain ⟨rfl, rfl⟩ := h3
    have hk : 0 < k := by have := classify_widthPos m; rw [hc] at this; exact this
    by_cases hz : ofBE lb < 2 ^ (8 * k - 1)
    · rw [toSigned_small hz] at h2 h1
      rcases next_cut h2 with ⟨rfl, hl2⟩ | ⟨rfl, rfl, hl2⟩
      · refine .inl ⟨m :: (lb ++ s), by simp, fun r' => ?_⟩
        show decodeBody env ver dec (m :: (lb ++ s ++ r')) = _
        rw [decodeBody_cons env ver dec m _ hc, List.append_assoc]
        simp only [decodeMarker]
        have hr := readSigned_append hk hl (s ++ r')
        rw [toSigned_small hz] at hr
        rw [Dec.bind_ok (Dec.wrapErr_ok hr), Dec.bind_ok (next_full hl2 r')]; rfl
      · refine .inr ⟨rfl, [], m :: lb, s, ofBE lb, rfl, .inr ⟨m, k, lb, hmk, hz, rfl, hl, ?_⟩, hl2⟩
        exact bigEndian_eq lb
    · exfalso
      unfold next at h2
      rw [if_pos] at h2
      · cases h2
      · unfold toSigned; rw [if_neg hz]
        have := ofBE_lt lb
        rw [hl] at this
        have e3 : ((256 ^ k : Nat) : Int) = (2 : Int) ^ (8 * k) := by
          rw [pow256, Int.natCast_pow]; rfl
        omega
  · have hcl : Cut (decodeMarker env ver dec (classify m)) :=
      Cut.closed.decodeMarker Cut.panic hdec env ver (classify_widthPos m) (fun n hn => hs ⟨n, hn⟩) (fun k hk => hs' ⟨k, hk⟩)
    rcases hcl b1 v r h with ⟨c, rfl, g⟩ | ⟨rfl, ht⟩
    · refine .inl ⟨m :: c, rfl, fun r' => ?_⟩
      show decodeBody env ver dec (m :: (c ++ r')) = _
      rw [decodeBody_cons env ver dec m _ rfl]; exact g r'
    · exact .inr ⟨rfl, EndsInString.prepend ht [m]⟩

theorem decodeF_cut (env : Env) (ver : Ver) : (n : Nat) → Cut (decodeF env ver n)
  | 0 => by intro b a r h; cases h
  | n + 1 => decodeBody_cut env ver (decodeF_cut env ver n)

theorem decode_cut (env : Env) (ver : Ver) {b r : Bytes} {v : Val} (h : decode env ver b = .ok (v, r)) :
    (∃ c, b = c ++ r ∧ ∀ r', decode env ver (c ++ r') = .ok (v, r')) ∨ (r = [] ∧ EndsInString b) := by
  by_cases hr : r = [] ∧ EndsInString b
  · exact .inr hr
  rcases decodeF_cut env ver _ b v r h with ⟨c, rfl, g⟩ | h'
  · refine .inl ⟨c, rfl, fun r' => ?_⟩
    have h1 : decodeF env ver (c.length + r.length + r'.length + 1) (c ++ r) = .ok (v, r) := by
      rw [← decode_eq_decodeF env ver (by simp only [List.length_append]; omega)]; exact h
    rcases decodeF_cut env ver _ _ v r h1 with ⟨c', hc, g'⟩ | h2
    · have : c' = c := List.append_cancel_right hc.symm
      subst this
      rw [decode_eq_decodeF env ver (n := c'.length + r.length + r'.length + 1) (by simp only [List.length_append]; omega)]
      exact g' r'
    · exact absurd h2 hr
  · exact absurd h' hr

end Verif

/-
C123  How deeply decoding recurses.

Every list, map and structure in a message is read by calls of `decode` made from within the call that read its marker (decoderV2.go 246-257,
259-279, 281-332; the same in decoderV1.go), and Go ends the whole process when the stack of a goroutine exceeds its limit; no caller can recover
from that.  `decodeF n` is `decode` with at most `n` nested calls.
-/
import Verif.Proofs.Levels
namespace Verif
open Spec

/-- Reading `b` takes exactly `n` nested calls: with `n` allowed the decoder ends, with fewer it does not. -/
def NestedCalls (env : Env) (ver : Ver) (b : Bytes) (n : Nat) : Prop :=
  decodeF env ver n b ≠ .fuel ∧ ∀ m, m < n → decodeF env ver m b = .fuel

/-- The claim: there is a limit on the nesting that no input exceeds. -/
def C123_statement : Prop := ∀ (env : Env) (ver : Ver), ∃ limit, ∀ b n, NestedCalls env ver b n → n ≤ limit

/-- A message with a meaning takes as many nested calls as it has levels, from any of its encodings, whatever follows. -/
theorem C123_exact (env : Env) (ver : Ver) {t : PS} {v : Val} (hv : interp env ver t = some v) {bs : Bytes} (he : Spec.Enc signed t bs) (rest : Bytes) :
    NestedCalls env ver (bs ++ rest) t.levels := by
  refine ⟨?_, fun m hm => ?_⟩
  · rw [decodeF_enc_levels env ver t v hv bs he _ (Nat.le_refl _) rest]; simp
  · apply Classical.byContradiction
    intro hne
    have h := decodeF_of_ne_fuel env ver hne
    rw [decode_enc env ver hv he rest] at h
    have := levels_le env ver t v hv bs he m rest h
    omega

/-- The number is determined by the input. -/
theorem C123_unique (env : Env) (ver : Ver) {b : Bytes} {n m : Nat} (hn : NestedCalls env ver b n) (hm : NestedCalls env ver b m) : n = m := by
  have h1 : ¬ n < m := fun h => hn.1 (hm.2 n h)
  have h2 : ¬ m < n := fun h => hm.1 (hn.2 m h)
  omega

theorem least_of_bound {p : Nat → Prop} : (n : Nat) → p n → ∃ k, k ≤ n ∧ p k ∧ ∀ m, m < k → ¬ p m
  | 0, h => ⟨0, Nat.le_refl _, h, fun m hm => absurd hm (Nat.not_lt_zero _)⟩
  | n + 1, h => by
    by_cases hex : ∃ m, m ≤ n ∧ p m
    · obtain ⟨m, hm, hp⟩ := hex
      obtain ⟨k, hk, h1, h2⟩ := least_of_bound m hp
      exact ⟨k, by omega, h1, h2⟩
    · exact ⟨n + 1, Nat.le_refl _, h, fun m hm hp => hex ⟨m, by omega, hp⟩⟩
termination_by n => n
decreasing_by omega

/-- What holds: every input, valid or not, takes at most one nested call more than it has bytes.  Missing for the claim: a limit that does not
depend on the input; there is none (`C123_refuted`). -/
theorem C123_partial (env : Env) (ver : Ver) (b : Bytes) : ∃ n, n ≤ b.length + 1 ∧ NestedCalls env ver b n := by
  have h : decodeF env ver (b.length + 1) b ≠ .fuel := (decodeF_rel env ver _ _ b (Nat.lt_succ_self _) (Nat.lt_succ_self _)).2.1
  obtain ⟨k, h1, h2, h3⟩ := least_of_bound (p := fun n => decodeF env ver n b ≠ .fuel) (b.length + 1) h
  exact ⟨k, h1, h2, fun m hm => Classical.byContradiction fun hne => h3 m hm hne⟩

/-- An empty list inside `k` lists. -/
def nested : Nat → PS
  | 0 => .list []
  | k + 1 => .list [nested k]

theorem nested_levels : (k : Nat) → (nested k).levels = k + 1
  | 0 => rfl
  | k + 1 => by simp only [nested, PS.levels, levelsList, nested_levels k]; omega

theorem nested_interp (env : Env) (ver : Ver) : (k : Nat) → ∃ vs, interp env ver (nested k) = some (.list true vs)
  | 0 => ⟨[], rfl⟩
  | k + 1 => by
    obtain ⟨vs, h⟩ := nested_interp env ver k
    exact ⟨[.list true vs], by simp only [nested, interp, interpList, h]; rfl⟩

theorem nested_enc : (k : Nat) → Spec.Enc signed (nested k) (List.replicate k 0x91 ++ [0x90])
  | 0 => ⟨[0x90], [], .inl ⟨by decide, rfl⟩, rfl, rfl⟩
  | k + 1 => ⟨[0x91], List.replicate k 0x91 ++ [0x90], .inl ⟨by simp, rfl⟩, ⟨_, [], nested_enc k, rfl, (List.append_nil _).symm⟩, rfl⟩

/-- The record with one field, which is a list of lists … of lists. -/
def deepRecord (k : Nat) : Bytes := [0xB1, 0x71, 0x91] ++ (List.replicate k 0x91 ++ [0x90])

/-- A well-formed record of `k + 4` bytes takes `k + 3` nested calls. -/
theorem C123_record (env : Env) (ver : Ver) (k : Nat) :
    (deepRecord k).length = k + 4 ∧ (∃ fields, decode env ver (deepRecord k) = .ok (.struct .record [.list true fields], [])) ∧
      NestedCalls env ver (deepRecord k) (k + 3) := by
  obtain ⟨vs, hv⟩ := nested_interp env ver k
  have hi : interp env ver (.struct 0x71 [.list [nested k]]) = some (.struct .record [.list true [.list true vs]]) := by
    simp only [interp, interpList, hv]; rfl
  have he : Spec.Enc signed (.struct 0x71 [.list [nested k]]) (deepRecord k) :=
    ⟨[0xB1], [0x91] ++ (List.replicate k 0x91 ++ [0x90]), .inl ⟨by simp, rfl⟩,
      ⟨_, [], ⟨[0x91], _, .inl ⟨by simp, rfl⟩, ⟨_, [], nested_enc k, rfl, (List.append_nil _).symm⟩, rfl⟩, rfl, (List.append_nil _).symm⟩, rfl⟩
  have h1 := C123_exact env ver hi he []
  have h2 := decode_enc env ver hi he []
  rw [List.append_nil] at h1 h2
  refine ⟨by simp [deepRecord], ⟨_, h2⟩, ?_⟩
  have hl : (PS.struct 0x71 [.list [nested k]]).levels = k + 3 := by
    simp only [PS.levels, levelsList, nested_levels]; omega
  rw [hl] at h1
  exact h1

/-- A prefix of nothing but list markers takes a nested call for every byte, and one more. -/
theorem C123_markers (env : Env) (ver : Ver) (k : Nat) : NestedCalls env ver (List.replicate k 0x91) (k + 1) := by
  have hF : ∀ k m, m ≤ k → decodeF env ver m (List.replicate k 0x91) = .fuel := by
    intro k
    induction k with
    | zero => intro m hm; rw [Nat.le_zero.mp hm]; rfl
    | succ k ih =>
      intro m hm
      match m, hm with
      | 0, _ => rfl
      | m + 1, hm =>
        rw [decodeF, List.replicate_succ, decodeBody_cons _ _ _ _ _ (show classify 0x91 = .tinyList 1 from rfl)]
        simp only [decodeMarker, decodeSlice]
        rw [if_neg (by decide), Dec.bind_apply, show ((1 : Nat) : Int).toNat = 0 + 1 from rfl, decodeN_succ, Dec.bind_apply, ih m (by omega)]
  refine ⟨?_, fun m hm => hF k m (by omega)⟩
  exact (decodeF_rel env ver _ _ _ (by simp) (by simp : (List.replicate k (0x91 : UInt8)).length < k + 1)).2.1

/-- The claim is false of this code: whatever the limit, a record exceeds it. -/
theorem C123_refuted : ¬ C123_statement := by
  intro h
  obtain ⟨limit, hl⟩ := h ⟨fun _ => 0, fun _ => (0, 0, 0), fun _ => none⟩ .v2
  have := hl _ _ (C123_record ⟨fun _ => 0, fun _ => (0, 0, 0), fun _ => none⟩ .v2 limit).2.2
  omega

/-- The map `{a: [1]}` has three levels, and takes three nested calls. -/
example (env : Env) : NestedCalls env .v1 [0xA1, 0x81, 0x61, 0x91, 0x01, 0x05] 3 :=
  C123_exact env .v1 (t := .map [([0x61], .list [.int 1])]) rfl (bs := [0xA1, 0x81, 0x61, 0x91, 0x01])
    ⟨[0xA1], [0x81, 0x61, 0x91, 0x01], .inl ⟨by decide, rfl⟩,
      ⟨[0x81, 0x61], [0x91, 0x01], [], ⟨[0x81], .inl ⟨by decide, rfl⟩, rfl⟩,
        ⟨[0x91], [0x01], .inl ⟨by decide, rfl⟩, ⟨[0x01], [], .inl ⟨by decide, by decide, 1, rfl, by decide⟩, rfl, rfl⟩, rfl⟩, rfl, rfl⟩, rfl⟩ [0x05]

end Verif

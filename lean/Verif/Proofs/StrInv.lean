/-
What the bytes of a decoded string look like, and how many bytes a message takes on the stream.
-/
import Verif.Proofs.BodyInv
import Verif.Proofs.Framing
namespace Verif
open Spec

theorem next_inv {n : Int} {b s r : Bytes} (h : next n b = .ok (s, r)) : b = s ++ r ∧ (s.length : Int) ≤ n := by
  unfold next at h
  split at h
  · cases h
  · simp only [Res.ok.injEq, Prod.mk.injEq] at h
    obtain ⟨rfl, rfl⟩ := h
    refine ⟨(List.take_append_drop _ _).symm, ?_⟩
    rw [List.length_take]; omega

theorem toSigned_lt (k n : Nat) (hk : k = 1 ∨ k = 2 ∨ k = 4) (hn : n < 256 ^ k) : toSigned k n < 2 ^ (8 * k - 1) := by
  unfold toSigned
  rcases hk with rfl | rfl | rfl <;> split <;> simp at * <;> omega

/-- A decoded string was preceded by a header whose width bounds its length. -/
theorem decodeBody_str_inv (env : Env) (ver : Ver) {dec : Dec Val} {b s r : Bytes} (h : decodeBody env ver dec b = .ok (.str s, r)) :
    ∃ hd, b = hd ++ (s ++ r) ∧ ((hd.length = 1 ∧ s.length ≤ 15) ∨ ∃ k, (k = 1 ∨ k = 2 ∨ k = 4) ∧ hd.length = 1 + k ∧ s.length < 2 ^ (8 * k - 1)) := by
  have h0 := h
  unfold decodeBody at h
  rw [Dec.bind_eq_ok] at h
  obtain ⟨m, b1, h1, h⟩ := h
  rw [Dec.wrapErr_eq_ok, readByte_eq_ok] at h1
  subst h1
  have hS : ∀ {n : Int} {b : Bytes}, ¬ decodeSlice dec n b = .ok (.str s, r) := by
    intro n b h
    unfold decodeSlice at h
    split at h
    · cases h
    · rw [Dec.bind_eq_ok] at h
      obtain ⟨vs, b', h1, h2⟩ := h
      rw [Dec.pure_eq_ok] at h2
      cases h2.1
  have hM : ∀ {n : Int} {b : Bytes}, ¬ decodeMap dec n b = .ok (.str s, r) := by
    intro n b h
    unfold decodeMap at h
    rw [Dec.bind_eq_ok] at h
    obtain ⟨vs, b', h1, h2⟩ := h
    rw [Dec.pure_eq_ok] at h2
    cases h2.1
  have hT : ∀ {b : Bytes}, ¬ decodeStruct env ver dec b = .ok (.str s, r) := by
    intro b h
    obtain ⟨_, _, _, _, _, hb⟩ := decodeStruct_builtFrom env ver h
    cases hb
  cases hc : classify m with
  | nil => rw [hc] at h; cases h
  | bool x => rw [hc] at h; cases h
  | tinyInt x => rw [hc] at h; cases h
  | int k =>
    rw [hc] at h
    simp only [decodeMarker] at h
    rw [Dec.bind_eq_ok] at h
    obtain ⟨n, b', h1, h2⟩ := h
    rw [Dec.pure_eq_ok] at h2
    cases h2.1
  | float =>
    rw [hc] at h
    simp only [decodeMarker] at h
    rw [Dec.bind_eq_ok] at h
    obtain ⟨n, b', h1, h2⟩ := h
    rw [Dec.pure_eq_ok] at h2
    cases h2.1
  | tinyStr n =>
    have hn : n ≤ 15 := (classify_tinyStr_inv hc).1
    rw [hc] at h
    simp only [decodeMarker] at h
    split at h
    · cases h; exact ⟨[m], rfl, .inl ⟨rfl, by simp⟩⟩
    · rw [Dec.bind_eq_ok] at h
      obtain ⟨s', b', h1, h2⟩ := h
      rw [Dec.pure_eq_ok] at h2
      obtain ⟨h2, rfl⟩ := h2
      cases h2
      obtain ⟨rfl, hl⟩ := next_inv h1
      exact ⟨[m], rfl, .inl ⟨rfl, by omega⟩⟩
  | str k =>
    have hk := classify_str_inv hc
    rw [hc] at h
    simp only [decodeMarker] at h
    rw [Dec.bind_eq_ok] at h
    obtain ⟨n, b2, h0, h⟩ := h
    obtain ⟨lb, rfl, hlb, hn⟩ := readSigned_inv (Dec.wrapErr_eq_ok.mp h0)
    rw [Dec.bind_eq_ok] at h
    obtain ⟨s', b', h1, h2⟩ := h
    rw [Dec.pure_eq_ok] at h2
    obtain ⟨h2, rfl⟩ := h2
    cases h2
    obtain ⟨rfl, hl⟩ := next_inv h1
    have hk' : k = 1 ∨ k = 2 ∨ k = 4 := by
      simp only [strMarkers, List.mem_cons, Prod.mk.injEq, List.not_mem_nil, or_false] at hk
      rcases hk with ⟨_, h⟩ | ⟨_, h⟩ | ⟨_, h⟩ <;> simp [h]
    refine ⟨m :: lb, by simp, .inr ⟨k, hk', by simp [hlb]; omega, ?_⟩⟩
    have := toSigned_lt k (ofBE lb) hk' (by rw [← hlb]; exact ofBE_lt lb)
    rw [← hn] at this
    have h3 : ((2 ^ (8 * k - 1) : Nat) : Int) = 2 ^ (8 * k - 1) := by simp
    omega
  | tinyList n => rw [hc] at h; exact absurd h hS
  | list k =>
    rw [hc] at h
    simp only [decodeMarker] at h
    rw [Dec.bind_eq_ok] at h
    obtain ⟨n, b2, h0, h⟩ := h
    exact absurd h hS
  | tinyMap n => rw [hc] at h; exact absurd h hM
  | map k =>
    rw [hc] at h
    simp only [decodeMarker] at h
    rw [Dec.bind_eq_ok] at h
    obtain ⟨n, b2, h0, h⟩ := h
    exact absurd h hM
  | tinyStruct n => rw [hc] at h; exact absurd h hT
  | struct k =>
    rw [hc] at h
    simp only [decodeMarker] at h
    rw [Dec.bind_eq_ok] at h
    obtain ⟨n, b2, h0, h⟩ := h
    exact absurd h hT
  | unknown => rw [hc] at h; cases h

/-- A message read from a stream of `s` bytes in `k` chunks: two bytes of header per chunk and two for the end. -/
theorem readFlat_count (fin : StreamEnd) : (fuel : Nat) → (out s p r : Bytes) → readFlat fin fuel out s = .ok p r → s.length < fuel →
    ∃ k, p.length ≤ out.length + 65535 * k ∧ p.length + 2 * k + 2 + r.length = out.length + s.length
  | 0, out, s, p, r, h, hf => by omega
  | fuel + 1, out, s, p, r, h, hf => by
    unfold readFlat at h
    split at h
    · cases h
    split at h
    · simp only [FRes.ok.injEq] at h
      obtain ⟨rfl, rfl⟩ := h
      refine ⟨0, by omega, ?_⟩
      simp only [List.length_drop]; omega
    split at h
    · have hlt := ofBE_lt (s.take 2)
      rw [List.length_take, Nat.min_eq_left (by omega)] at hlt
      obtain ⟨k, h1, h2⟩ := readFlat_count fin fuel _ _ p r h (by simp only [List.length_drop]; omega)
      simp only [List.length_append, List.length_take, List.length_drop] at h1 h2
      refine ⟨k + 1, ?_, ?_⟩
      · omega
      · omega
    · cases h

theorem unmarshal_inv {env : Env} {ver : Ver} {b : Bytes} {v : Val} (h : unmarshal env ver b = .ok v) :
    ∃ p r q, readFlat .eof (b.length + 1) [] b = .ok p r ∧ decode env ver p = .ok (v, q) := by
  have hf := readMsg_flat .eof [b]
  unfold unmarshal decodeMsg at h
  cases hr : readMsg .eof [b] with
  | err e s => rw [hr] at h; simp at h
  | ok p s =>
    rw [hr] at h hf
    simp only [RRes.flat, List.flatten_cons, List.flatten_nil, List.append_nil] at hf
    cases hd : decode env ver p with
    | ok x =>
      obtain ⟨w, q⟩ := x
      simp only [hd, Res.ok.injEq] at h
      subst h
      exact ⟨p, _, q, hf.symm, hd⟩
    | err e => simp [hd] at h
    | panic => simp [hd] at h
    | fuel => simp [hd] at h

end Verif

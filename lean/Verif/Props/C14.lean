/-
C14  Truncated messages are rejected.

False for payloads cut inside a string: `buffer.Next(n)` returns fewer than `n` bytes without an error, so the string is silently shortened
(`C14_refuted`).  What holds: a stream cut anywhere before its end marker is always an error (`C14_stream_cut_partial`), and a payload whose cut
end is not inside a string is never accepted (`C14_payload_cut_partial`).
-/
import Verif.Proofs.Cut
import Verif.Proofs.ValEq
import Verif.Props.C01
namespace Verif
open Spec

/-- The property for payloads: a proper prefix of the payload of a value is not accepted with another value. -/
def C14_statement : Prop := ∀ (env : Env) (ver : Ver) (v : Val) (c d : Bytes) (w : Val) (r : Bytes), v.All (decodable ver) → v.All intsInRange →
  v.All readable → payload env ver v = c ++ d → d ≠ [] → decode env ver c = .ok (w, r) → w = canon env v

/-- A prefix that cuts into the value itself is accepted only if it ends inside a string.  `b = c ++ d` is any decodable input, `rest` what follows
its first value. -/
theorem C14_prefix_partial (env : Env) (ver : Ver) (c d : Bytes) (v : Val) (rest : Bytes) (h : decode env ver (c ++ d) = .ok (v, rest))
    (hcut : rest.length < d.length) (hs : ¬ EndsInString c) (w : Val) (r : Bytes) : decode env ver c ≠ .ok (w, r) := by
  intro h1
  rcases decode_cut env ver h1 with ⟨c', rfl, g⟩ | ⟨_, ht⟩
  · have h2 := g (r ++ d)
    rw [← List.append_assoc, h] at h2
    simp only [Res.ok.injEq, Prod.mk.injEq] at h2
    have := congrArg List.length h2.2
    simp only [List.length_append] at this
    omega
  · exact hs ht

/-- Instance for encoded values: no proper prefix of the payload is accepted unless it ends inside a string. -/
theorem C14_payload_cut_partial (env : Env) (ver : Ver) (v : Val) (hd : v.All (decodable ver)) (hi : v.All intsInRange)
    (hr : v.All readable) (c d : Bytes) (hp : payload env ver v = c ++ d) (hne : d ≠ []) (hs : ¬ EndsInString c) (w : Val) (r : Bytes) :
    decode env ver c ≠ .ok (w, r) := by
  have h := (decode_payload' env ver v hd hi hr []).2
  rw [List.append_nil, hp] at h
  exact C14_prefix_partial env ver c d _ _ h (List.length_pos_iff.mpr hne) hs w r

theorem readFlat_prefix (fin : StreamEnd) (cks : List Bytes) : (fuel : Nat) → (out s d : Bytes) → GoodChunks cks → s.length < fuel →
    frame cks = s ++ d → d ≠ [] → ∃ e r, readFlat fin fuel out s = .err e r := by
  induction cks with
  | nil =>
    intro fuel out s d _ hf h hd
    obtain ⟨f, rfl⟩ : ∃ f, fuel = f + 1 := ⟨fuel - 1, by omega⟩
    have hl := congrArg List.length h
    have := List.length_pos_iff.mpr hd
    simp only [frame, List.map_nil, List.flatten_nil, List.nil_append, List.length_cons, List.length_nil, List.length_append] at hl
    unfold readFlat
    rw [if_pos (by omega)]
    exact ⟨_, _, rfl⟩
  | cons c cks ih =>
    intro fuel out s d hg hf h hd
    obtain ⟨f, rfl⟩ : ∃ f, fuel = f + 1 := ⟨fuel - 1, by omega⟩
    have hc := hg c (by simp)
    have hpos : 0 < c.length := List.length_pos_iff.mpr hc.1
    have hfr : frame (c :: cks) = chunk c ++ frame cks := by simp [frame]
    unfold readFlat
    by_cases h2 : s.length < 2
    · rw [if_pos h2]; exact ⟨_, _, rfl⟩
    rw [if_neg h2]
    rw [hfr] at h
    have k : ofBE (s.take 2) = c.length := by
      have := (chunk_header hc.2 (frame cks)).1
      rw [h, List.take_append_of_le_length (by omega)] at this
      exact this
    have k2 : s.drop 2 ++ d = c ++ frame cks := by
      have := (chunk_header hc.2 (frame cks)).2
      rw [h, List.drop_append_of_le_length (by omega)] at this
      exact this
    rw [k, if_neg (by omega)]
    by_cases h3 : c.length ≤ (s.drop 2).length
    · rw [if_pos h3]
      have e2 : (s.drop 2).drop c.length ++ d = frame cks := by
        have := congrArg (List.drop c.length) k2
        rwa [List.drop_append_of_le_length h3, List.drop_left] at this
      exact ih f _ _ d (fun x hx => hg x (by simp [hx])) (by simp only [List.length_drop]; omega) e2.symm hd
    · rw [if_neg h3]; exact ⟨_, _, rfl⟩

/-- Any proper prefix of a framed message is an error, however it is split into reads and however the stream ends. -/
theorem C14_stream_cut_partial (env : Env) (ver : Ver) (p s s' d : Bytes) (hf : Framed p s) (hs : s = s' ++ d) (hd : d ≠ []) (fin : StreamEnd)
    (segs : List Bytes) (hg : segs.flatten = s') : ∃ e r, decodeMsg env ver fin segs = .err e r := by
  obtain ⟨cks, hgood, rfl, rfl⟩ := hf
  have h1 := readMsg_flat fin segs
  obtain ⟨e, r, he⟩ := readFlat_prefix fin cks (segs.flatten.length + 1) [] segs.flatten d hgood (by omega) (by rw [hs, hg]) hd
  rw [he] at h1
  unfold decodeMsg
  cases hr : readMsg fin segs with
  | ok a s' => rw [hr] at h1; simp [RRes.flat] at h1
  | err e' s' => exact ⟨e', s', rfl⟩

/-- Cutting the last byte of the string "ab" yields the string "a". -/
theorem C14_refuted : ¬ C14_statement := by
  intro h
  have := h env0 .v2 (.str [0x61, 0x62]) [0x82, 0x61] [0x62] (.str [0x61]) [] trivial trivial
    (by simp [Val.All, readable, readableLen]) (by decide +kernel) (by simp) (by decide +kernel)
  simp [canon] at this

/-- `EndsInString` is not always true: a payload cut after the marker of an integer. -/
example : ¬ EndsInString [0x92, 0x01, 0xC9] := by
  rintro ⟨pre, h, s, n, hb, hh, hl⟩
  obtain ⟨x, hx, hm⟩ : ∃ x, x ∈ h ∧ (x = 0xD0 ∨ x = 0xD1 ∨ x = 0xD2 ∨ ∃ n ≤ 15, x = UInt8.ofNat (0x80 + n)) := by
    rcases hh with ⟨hn, rfl⟩ | ⟨m, k, lb, hm, _, rfl, _, _⟩
    · exact ⟨_, List.mem_singleton.mpr rfl, .inr (.inr (.inr ⟨n, hn, rfl⟩))⟩
    · refine ⟨m, by simp, ?_⟩
      simp only [strMarkers, List.mem_cons, Prod.mk.injEq, List.not_mem_nil, or_false] at hm
      rcases hm with ⟨rfl, _⟩ | ⟨rfl, _⟩ | ⟨rfl, _⟩ <;> simp
  have hx' : x ∈ ([0x92, 0x01, 0xC9] : Bytes) := by rw [hb]; simp [hx]
  have hno : ∀ n ≤ 15, UInt8.ofNat (0x80 + n) ∉ ([0x92, 0x01, 0xC9] : Bytes) := by decide
  rcases hm with rfl | rfl | rfl | ⟨n, hn, rfl⟩
  · simp at hx'
  · simp at hx'
  · simp at hx'
  · exact hno n hn hx'

example : Framed [0xC0] ([0x00, 0x01, 0xC0] ++ [0x00, 0x00]) := ⟨[[0xC0]], by intro c hc; simp at hc; subst hc; simp, rfl, rfl⟩

end Verif

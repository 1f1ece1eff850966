/-
C16  A failed Encode leaves no partial message on the wire.

False as stated: complete chunks have already been sent when a later part of the value turns out to be unencodable (`C16_refuted`, with the
default chunk size).  What holds exactly: nothing is sent iff fewer bytes than one chunk were produced before the error.
-/
import Verif.Proofs.Writes
namespace Verif

/-- The property. -/
def C16_statement : Prop := ∀ (env : Env) (ver : Ver) (cs : Nat) (v : Val), 0 < cs → cs ≤ 65535 →
  (encodeMsg env ver cs v).2 ≠ none → (encodeMsg env ver cs v).1.flatten = []

theorem chunkWrites_out_mono {cs : Nat} (ps : List Bytes) : (st : ChunkSt) → st.out ≠ [] → (chunkWrites cs st ps).out ≠ [] := by
  induction ps with
  | nil => intro st h; exact h
  | cons p ps ih =>
    intro st h
    refine ih _ ?_
    unfold chunkWrite
    dsimp only
    split
    · simp
    · exact h

theorem chunkWrites_out_nil {cs : Nat} (ps : List Bytes) : (st : ChunkSt) → st.out = [] →
    ((chunkWrites cs st ps).out = [] ↔ ps = [] ∨ st.buf.length + ps.flatten.length < cs) := by
  induction ps with
  | nil => intro st h; simpa [chunkWrites] using h
  | cons p ps ih =>
    intro st h
    simp only [List.flatten_cons, List.length_append, reduceCtorEq, false_or]
    by_cases hp : st.buf.length + p.length ≥ cs
    · constructor
      · intro h2
        refine absurd h2 (chunkWrites_out_mono ps _ ?_)
        unfold chunkWrite
        dsimp only
        rw [List.length_append, if_pos hp]; simp
      · omega
    · have e : chunkWrite cs st p = ⟨st.buf ++ p, st.out⟩ := by
        unfold chunkWrite
        dsimp only
        rw [List.length_append, if_neg hp]
      have := ih (chunkWrite cs st p) (by rw [e]; exact h)
      show (chunkWrites cs (chunkWrite cs st p) ps).out = [] ↔ _
      rw [this, e]
      simp only [List.length_append]
      cases ps with
      | nil => simp; omega
      | cons q qs => simp; omega

theorem chunkWrites_out_flatten {cs : Nat} (ps : List Bytes) : (st : ChunkSt) → (st.out.flatten = [] → st.out = []) →
    (chunkWrites cs st ps).out.flatten = [] → (chunkWrites cs st ps).out = [] := by
  induction ps with
  | nil => intro st h; exact h
  | cons p ps ih =>
    intro st h
    refine ih _ ?_
    unfold chunkWrite
    dsimp only
    split
    · intro h2; simp [be] at h2
    · exact h

theorem out_flatten_nil {cs : Nat} (ps : List Bytes) :
    (chunkWrites cs ⟨[], []⟩ ps).out.flatten = [] ↔ (chunkWrites cs ⟨[], []⟩ ps).out = [] :=
  ⟨chunkWrites_out_flatten ps _ fun _ => rfl, fun h => by rw [h]; rfl⟩

/-- After an encoding error, nothing has been sent exactly if the bytes produced before the error are fewer than one chunk (or there are
none). -/
theorem C16_nothing_sent_partial (env : Env) (ver : Ver) (cs : Nat) (v : Val) (h : (encodeMsg env ver cs v).2 ≠ none) :
    (encodeMsg env ver cs v).1.flatten = [] ↔ (encode env ver v).1 = [] ∨ (encode env ver v).1.flatten.length < cs := by
  have e : (encodeMsg env ver cs v).1 = (chunkWrites cs ⟨[], []⟩ (encode env ver v).1).out := by
    cases h1 : (encode env ver v).2 with
    | none => rw [encodeMsg_ok h1] at h; exact absurd rfl h
    | some e => rw [encodeMsg_err h1]
  rw [e, out_flatten_nil, chunkWrites_out_nil _ _ rfl]
  simp

/-- A parameter list with a long string before an unsupported value: one chunk is already on the wire, with the default chunk size. -/
theorem C16_refuted : ¬ C16_statement := by
  intro h
  obtain ⟨s, hs⟩ : ∃ s : Bytes, s.length = 65535 := ⟨List.replicate 65535 0x61, List.length_replicate⟩
  let env : Env := ⟨fun _ => 0, fun _ => (0, 0, 0), fun _ => none⟩
  have he : (encode env .v2 (.list true [.str s, .other])).2 ≠ none := by
    intro h1
    simp only [encode, encodeItems, Enc.seq_none, unrecognized] at h1
    exact absurd h1.2.2.1 (by simp)
  have he' : (encodeMsg env .v2 65535 (.list true [.str s, .other])).2 ≠ none := by
    cases h1 : (encode env .v2 (.list true [.str s, .other])).2 with
    | none => exact absurd h1 he
    | some e => rw [encodeMsg_err h1]; simp
  have h2 := (C16_nothing_sent_partial env .v2 65535 _ he').mp (h env .v2 65535 _ (by omega) (by omega) he')
  have h3 : (encode env .v2 (.list true [.str s, .other])).1 = [[0x92], [0xD1], be 2 s.length, s] := by
    simp only [encode, encodeItems, encodeString, hs, unrecognized]
    rfl
  rw [h3] at h2
  simp [hs] at h2

example : (encodeMsg ⟨fun _ => 0, fun _ => (0, 0, 0), fun _ => none⟩ .v2 2 (.list true [.int .int 1, .other])).2 ≠ none := by
  simp [encodeMsg, encode, encodeItems, Enc.seq, sliceHeader, unrecognized, Enc.ok, encodeInt]

end Verif

import Verif.Spec.Framing
import Verif.Model.Chunk
import Verif.Model.Frame
import Verif.Proofs.Bytes
namespace Verif
open Spec

/-! ### Sender -/

theorem be_two {n : Nat} (h : n ≤ 65535) : be 2 n = [UInt8.ofNat (n / 256), UInt8.ofNat (n % 256)] := by
  have h1 : (be 2 n).length = 2 := length_be 2 n
  apply ofBE_inj (by simp)
  rw [ofBE_be]
  simp [ofBE, UInt8.toNat_ofNat]
  omega

theorem chunk_eq {c : Bytes} (h : c.length ≤ 65535) : chunk c = be 2 c.length ++ c := by
  rw [be_two h]; rfl

/-- Invariant of the chunk writer. -/
structure ChunkInv (cs : Nat) (done : Bytes) (st : ChunkSt) where
  cks : List Bytes
  size : ∀ c ∈ cks, c.length = cs
  out : st.out.flatten = (cks.map chunk).flatten
  all : cks.flatten ++ st.buf = done

theorem chunkWrite_inv {cs : Nat} (hcs : cs ≤ 65535) {done : Bytes} {st : ChunkSt} (p : Bytes) (h : ChunkInv cs done st) :
    ∃ h' : ChunkInv cs (done ++ p) (chunkWrite cs st p),
      (chunkWrite cs st p).buf.length = if st.buf.length + p.length ≥ cs then st.buf.length + p.length - cs else st.buf.length + p.length := by
  obtain ⟨cks, hsize, hout, hall⟩ := h
  unfold chunkWrite
  by_cases hb : (st.buf ++ p).length ≥ cs
  · have hl : ((st.buf ++ p).take cs).length = cs := by rw [List.length_take]; omega
    refine ⟨⟨cks ++ [(st.buf ++ p).take cs], ?_, ?_, ?_⟩, ?_⟩
    · intro c hc
      rw [List.mem_append, List.mem_singleton] at hc
      rcases hc with hc | rfl
      · exact hsize c hc
      · exact hl
    · simp only [ge_iff_le] at hb
      simp only [ge_iff_le, hb, if_true, List.flatten_append, hout, List.map_append, List.map_cons, List.map_nil, List.flatten_cons,
        List.flatten_nil, List.append_nil]
      rw [chunk_eq (by rw [hl]; exact hcs), hl]
    · simp only [ge_iff_le] at hb
      simp only [ge_iff_le, hb, if_true, List.flatten_append, List.flatten_cons, List.flatten_nil, List.append_nil]
      rw [List.append_assoc, List.take_append_drop, ← List.append_assoc, hall]
    · simp only [ge_iff_le, List.length_append] at hb ⊢
      simp [hb]
  · refine ⟨⟨cks, hsize, ?_, ?_⟩, ?_⟩
    · simp only [ge_iff_le] at hb
      simp only [ge_iff_le, hb, if_false, hout]
    · simp only [ge_iff_le] at hb
      simp only [ge_iff_le, hb, if_false]
      rw [← List.append_assoc, hall]
    · simp only [ge_iff_le, List.length_append] at hb ⊢
      simp [hb]

theorem chunkWrites_inv {cs : Nat} (hcs : cs ≤ 65535) (ps : List Bytes) : {done : Bytes} → {st : ChunkSt} → ChunkInv cs done st →
    Nonempty (ChunkInv cs (done ++ ps.flatten) (chunkWrites cs st ps)) := by
  induction ps with
  | nil => intro done st h; simpa [chunkWrites] using ⟨h⟩
  | cons p ps ih =>
    intro done st h
    obtain ⟨h', _⟩ := chunkWrite_inv hcs p h
    have := ih h'
    simpa [chunkWrites, List.append_assoc] using this

theorem chunkWrites_buf {cs : Nat} (hcs : 0 < cs) (ps : List Bytes) (hp : ∀ p ∈ ps, p.length ≤ cs) : (st : ChunkSt) → st.buf.length < cs →
    (chunkWrites cs st ps).buf.length < cs := by
  induction ps with
  | nil => intro st h; exact h
  | cons p ps ih =>
    intro st h
    apply ih (fun q hq => hp q (by simp [hq]))
    have hpl := hp p (by simp)
    unfold chunkWrite
    simp only [ge_iff_le, List.length_append]
    split
    · simp only [List.length_drop, List.length_append]; omega
    · simp only [List.length_append]; omega

def chunkInv_init (cs : Nat) : ChunkInv cs [] ⟨[], []⟩ := ⟨[], by simp, rfl, rfl⟩

/-- The stream produced from a list of writes is a frame whenever the residue fits a chunk header. -/
theorem flush_framed {cs : Nat} (hcs : 0 < cs) (hcs' : cs ≤ 65535) (ps : List Bytes)
    (hb : (chunkWrites cs ⟨[], []⟩ ps).buf.length ≤ 65535) :
    Framed ps.flatten (flush (chunkWrites cs ⟨[], []⟩ ps)).flatten := by
  obtain ⟨⟨cks, hsize, hout, hall⟩⟩ := chunkWrites_inv hcs' ps (chunkInv_init cs)
  generalize hst : chunkWrites cs ⟨[], []⟩ ps = st at *
  rw [List.nil_append] at hall
  have hg : GoodChunks cks := by
    intro c hc
    have := hsize c hc
    exact ⟨by intro e; subst e; simp at this; omega, by omega⟩
  unfold flush
  by_cases h0 : st.buf.length > 0
  · refine ⟨cks ++ [st.buf], ?_, ?_, ?_⟩
    · intro c hc
      rw [List.mem_append, List.mem_singleton] at hc
      rcases hc with hc | rfl
      · exact hg c hc
      · exact ⟨List.length_pos_iff.mp h0, hb⟩
    · simp [hall]
    · rw [if_pos h0]
      simp only [List.flatten_append, hout, frame, List.map_append, List.map_cons, List.map_nil, List.flatten_cons, List.flatten_nil,
        List.append_nil, chunk_eq hb]
  · refine ⟨cks, hg, ?_, ?_⟩
    · rw [← hall, List.length_eq_zero_iff.mp (by omega : st.buf.length = 0), List.append_nil]
    · rw [if_neg h0]
      simp [frame, hout]

/-! ### Receiver -/

theorem readOnce_none {n : Nat} {segs : List Bytes} : readOnce n segs = none ↔ segs.flatten = [] := by
  induction segs with
  | nil => simp [readOnce]
  | cons s segs ih =>
    unfold readOnce
    by_cases h : s = []
    · subst h; simpa using ih
    · rw [if_neg h]
      split <;> simp [h]

theorem readOnce_some {n : Nat} (hn : 0 < n) {segs segs' : List Bytes} {got : Bytes} (h : readOnce n segs = some (got, segs')) :
    got ≠ [] ∧ got.length ≤ n ∧ got ++ segs'.flatten = segs.flatten := by
  induction segs with
  | nil => simp [readOnce] at h
  | cons s segs ih =>
    unfold readOnce at h
    by_cases hs : s = []
    · subst hs; simp only [if_true] at h
      simpa using ih h
    · rw [if_neg hs] at h
      split at h
      · rename_i hl
        simp only [Option.some.injEq, Prod.mk.injEq] at h
        obtain ⟨rfl, rfl⟩ := h
        exact ⟨hs, hl, by simp⟩
      · rename_i hl
        simp only [Option.some.injEq, Prod.mk.injEq] at h
        obtain ⟨rfl, rfl⟩ := h
        refine ⟨?_, ?_, ?_⟩
        · intro e
          have := congrArg List.length e
          rw [List.length_take, List.length_nil] at this; omega
        · rw [List.length_take]; omega
        · rw [List.flatten_cons, List.flatten_cons, ← List.append_assoc, List.take_append_drop]

theorem readFull_flat : (fuel n : Nat) → (segs : List Bytes) → n ≤ fuel →
    (readFull fuel n segs).1 = segs.flatten.take n ∧ (readFull fuel n segs).2.flatten = segs.flatten.drop n
  | 0, n, segs, h => by
    have : n = 0 := by omega
    subst this; simp [readFull]
  | fuel + 1, n, segs, h => by
    unfold readFull
    by_cases h0 : n = 0
    · subst h0; simp
    · rw [if_neg h0]
      cases hr : readOnce n segs with
      | none =>
        have := readOnce_none.mp hr
        simp [this]
      | some p =>
        obtain ⟨got, segs'⟩ := p
        obtain ⟨g1, g2, g3⟩ := readOnce_some (by omega) hr
        have gp : 0 < got.length := List.length_pos_iff.mpr g1
        obtain ⟨i1, i2⟩ := readFull_flat fuel (n - got.length) segs' (by omega)
        simp only
        rw [i1, i2, ← g3]
        constructor
        · rw [List.take_append]
          rw [List.take_of_length_le g2]
        · rw [List.drop_append, List.drop_of_length_le g2, List.nil_append]

theorem readDataLoop_flat (fin : StreamEnd) (len : Nat) : (fuel total : Nat) → (out : Bytes) → (segs : List Bytes) → len - total < fuel →
    total ≤ len → out.length = len →
    (if len - total ≤ segs.flatten.length then
      ∃ segs', readDataLoop fin len fuel total out segs = .ok (out.take total ++ segs.flatten.take (len - total)) segs' ∧
        segs'.flatten = segs.flatten.drop (len - total)
    else readDataLoop fin len fuel total out segs = .err (fin.err.wrap "An error occurred reading from stream") [])
  | 0, total, out, segs, hf, ht, ho => by omega
  | fuel + 1, total, out, segs, hf, ht, ho => by
    unfold readDataLoop
    by_cases hlt : total < len
    · rw [if_pos hlt]
      cases hr : readOnce (len - total) segs with
      | none =>
        have he := readOnce_none.mp hr
        rw [if_neg (by rw [he]; simp; omega)]
      | some p =>
        obtain ⟨got, segs'⟩ := p
        obtain ⟨g1, g2, g3⟩ := readOnce_some (by omega) hr
        have gp : 0 < got.length := List.length_pos_iff.mpr g1
        have hdl : (List.take total out ++ (got ++ List.replicate (len - total - got.length) 0)).length = len := by
          simp only [List.length_append, List.length_take, List.length_replicate]; omega
        have ih := readDataLoop_flat fin len fuel (total + got.length)
          (out.take total ++ (got ++ List.replicate (len - total - got.length) 0)) segs' (by omega) (by omega) hdl
        have hsub : len - (total + got.length) = len - total - got.length := by omega
        rw [hsub] at ih
        have hfl : segs.flatten.length = got.length + segs'.flatten.length := by rw [← g3, List.length_append]
        have htk : List.take (total + got.length) (out.take total ++ (got ++ List.replicate (len - total - got.length) 0)) =
            out.take total ++ got := by
          rw [← List.append_assoc]
          apply List.take_left'
          simp only [List.length_append, List.length_take]; omega
        by_cases hc : len - total ≤ segs.flatten.length
        · rw [if_pos hc]
          rw [if_pos (by omega)] at ih
          obtain ⟨s2, e1, e2⟩ := ih
          refine ⟨s2, ?_, ?_⟩
          · simp only
            rw [e1, htk, ← g3, List.take_append, List.take_of_length_le g2, List.append_assoc]
          · rw [e2, ← g3, List.drop_append, List.drop_of_length_le g2, List.nil_append]
        · rw [if_neg hc]
          rw [if_neg (by omega)] at ih
          exact ih
    · rw [if_neg hlt]
      have h0 : len - total = 0 := by omega
      rw [h0, if_pos (Nat.zero_le _)]
      refine ⟨segs, ?_, by simp⟩
      rw [List.take_zero, List.append_nil, List.take_of_length_le (by omega)]

theorem readData_flat (fin : StreamEnd) (len : Nat) (segs : List Bytes) :
    (if len ≤ segs.flatten.length then
      ∃ segs', readData fin len segs = .ok (segs.flatten.take len) segs' ∧ segs'.flatten = segs.flatten.drop len
    else readData fin len segs = .err (fin.err.wrap "An error occurred reading from stream") []) := by
  have := readDataLoop_flat fin len (len + 1) 0 (List.replicate len 0) segs (by omega) (by omega) (by simp)
  simpa [readData] using this

/-- Outcome of reading one message from an unsegmented stream. -/
inductive FRes where
  | ok (p : Bytes) (rest : Bytes)
  | err (e : Err) (rest : Bytes)

/-- `read` on the unsegmented stream. -/
def readFlat (fin : StreamEnd) : Nat → Bytes → Bytes → FRes
  | 0, out, s => .ok out s
  | fuel + 1, out, s =>
    if s.length < 2 then
      .err ((if fin = .eof ∧ s.length > 0 then .unexpectedEOF else fin.err : Err).wrap "Couldn't read expected bytes for message length") []
    else if ofBE (s.take 2) = 0 then .ok out (s.drop 2)
    else if ofBE (s.take 2) ≤ (s.drop 2).length then
      readFlat fin fuel (out ++ (s.drop 2).take (ofBE (s.take 2))) ((s.drop 2).drop (ofBE (s.take 2)))
    else .err ((fin.err.wrap "An error occurred reading from stream").wrap "An error occurred reading message data") []

/-- Forget the segmentation of the rest. -/
def RRes.flat : RRes Bytes → FRes
  | .ok a segs => .ok a segs.flatten
  | .err e segs => .err e segs.flatten

theorem readMsgF_flat (fin : StreamEnd) : (fuel : Nat) → (out : Bytes) → (segs : List Bytes) →
    (readMsgF fin fuel out segs).flat = readFlat fin fuel out segs.flatten
  | 0, out, segs => rfl
  | fuel + 1, out, segs => by
    obtain ⟨h1, h2⟩ := readFull_flat 2 2 segs (Nat.le_refl 2)
    unfold readMsgF readFlat
    simp only [h1]
    by_cases hl : segs.flatten.length < 2
    · have e1 : List.take 2 segs.flatten = segs.flatten := List.take_of_length_le (by omega)
      rw [if_pos hl, e1, if_pos (by omega)]
      simp only [RRes.flat, h2]
      rw [List.drop_of_length_le (by omega)]
    · have e1 : (List.take 2 segs.flatten).length = 2 := by rw [List.length_take]; omega
      rw [if_neg hl, if_neg (by omega)]
      by_cases h0 : ofBE (List.take 2 segs.flatten) = 0
      · rw [if_pos h0, if_pos h0]; simp only [RRes.flat, h2]
      · rw [if_neg h0, if_neg h0]
        have hd := readData_flat fin (ofBE (List.take 2 segs.flatten)) (readFull 2 2 segs).2
        rw [h2] at hd
        by_cases hc : ofBE (List.take 2 segs.flatten) ≤ (List.drop 2 segs.flatten).length
        · rw [if_pos hc]
          rw [if_pos hc] at hd
          obtain ⟨s2, e2, e3⟩ := hd
          rw [e2]
          simp only
          rw [readMsgF_flat fin fuel _ s2, e3]
        · rw [if_neg hc]
          rw [if_neg hc] at hd
          rw [hd]; rfl

theorem streamLen_eq (segs : List Bytes) : streamLen segs = segs.flatten.length := by
  simp [streamLen, List.length_flatten]

theorem readMsg_flat (fin : StreamEnd) (segs : List Bytes) :
    (readMsg fin segs).flat = readFlat fin (segs.flatten.length + 1) [] segs.flatten := by
  rw [← streamLen_eq]; exact readMsgF_flat fin _ _ _

theorem chunk_header {c : Bytes} (h : c.length ≤ 65535) (r : Bytes) :
    ofBE ((chunk c ++ r).take 2) = c.length ∧ (chunk c ++ r).drop 2 = c ++ r := by
  constructor
  · simp [chunk, ofBE, UInt8.toNat_ofNat]; omega
  · simp [chunk]

theorem readFlat_frame (fin : StreamEnd) (cks : List Bytes) : (fuel : Nat) → (out rest : Bytes) → GoodChunks cks → cks.length < fuel →
    readFlat fin fuel out (frame cks ++ rest) = .ok (out ++ cks.flatten) rest := by
  induction cks with
  | nil =>
    intro fuel out rest _ hf
    obtain ⟨f, rfl⟩ : ∃ f, fuel = f + 1 := ⟨fuel - 1, by simp at hf; omega⟩
    unfold readFlat frame
    simp [ofBE]
  | cons c cks ih =>
    intro fuel out rest hg hf
    simp only [List.length_cons] at hf
    obtain ⟨f, rfl⟩ : ∃ f, fuel = f + 1 := ⟨fuel - 1, by omega⟩
    have hc := hg c (by simp)
    have hpos : 0 < c.length := List.length_pos_iff.mpr hc.1
    have hfr : frame (c :: cks) ++ rest = chunk c ++ (frame cks ++ rest) := by
      simp [frame]
    obtain ⟨k1, k2⟩ := chunk_header hc.2 (frame cks ++ rest)
    unfold readFlat
    rw [hfr, k1, k2, if_neg (by simp [chunk]), if_neg (by omega), if_pos (by simp), List.take_left, List.drop_left,
      ih f (out ++ c) rest (fun d hd => hg d (by simp [hd])) (by omega)]
    simp

theorem length_frame (cks : List Bytes) : cks.length < (frame cks).length + 1 := by
  induction cks with
  | nil => simp
  | cons c cks ih =>
    simp only [frame, List.map_cons, List.flatten_cons, List.length_append, List.length_cons, chunk] at ih ⊢
    omega

/-- The receiver recovers the contents of a framed message from any segmentation, and leaves exactly what follows it. -/
theorem readMsg_framed {p s rest : Bytes} (h : Framed p s) (fin : StreamEnd) {segs : List Bytes} (hs : segs.flatten = s ++ rest) :
    ∃ segs', readMsg fin segs = .ok p segs' ∧ segs'.flatten = rest := by
  obtain ⟨cks, hg, rfl, rfl⟩ := h
  have h1 := readMsg_flat fin segs
  rw [hs, readFlat_frame fin cks _ [] rest hg (by have := length_frame cks; simp; omega)] at h1
  cases hr : readMsg fin segs with
  | ok a s' =>
    rw [hr] at h1
    simp only [RRes.flat, FRes.ok.injEq, List.nil_append] at h1
    exact ⟨s', by rw [h1.1], h1.2⟩
  | err e s' => rw [hr] at h1; simp [RRes.flat] at h1

end Verif

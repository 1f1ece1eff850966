/-
Sizes of the `Write` calls made by the encoder.
-/
import Verif.Spec.RoundTrip
import Verif.Proofs.EncodeConforms
import Verif.Proofs.Framing
namespace Verif
open Spec

/-- Every write is at most `m` bytes. -/
def WLe (m : Nat) (e : Enc) : Prop := ∀ p ∈ e.1, p.length ≤ m

theorem WLe.ok {m : Nat} {ws : List Bytes} (h : ∀ p ∈ ws, p.length ≤ m) : WLe m (.ok ws) := h

theorem WLe.seq {m : Nat} {a b : Enc} (ha : WLe m a) (hb : WLe m b) : WLe m (a.seq b) := by
  unfold Enc.seq
  split
  · exact ha
  · intro p hp
    rw [List.mem_append] at hp
    exact hp.elim (ha p) (hb p)

theorem WLe.err {m : Nat} {e : Err} : WLe m ([], some e) := by intro p hp; cases hp

theorem WLe.encodeInt {m : Nat} (hm : 8 ≤ m) (n : Int) : WLe m (encodeInt n) := by
  unfold Verif.encodeInt
  repeat' split
  all_goals first
    | exact WLe.err
    | (intro p hp; simp [Enc.ok] at hp; rcases hp with rfl | rfl <;> simp <;> omega)
    | (intro p hp; simp [Enc.ok] at hp; subst hp; simp; omega)

theorem WLe.encodeFloat {m : Nat} (hm : 8 ≤ m) (b : UInt64) : WLe m (encodeFloat b) := by
  intro p hp; simp [Verif.encodeFloat, Enc.ok] at hp; rcases hp with rfl | rfl <;> simp <;> omega

theorem WLe.encodeString {m : Nat} (hm : 8 ≤ m) {s : Bytes} (hs : s.length ≤ m) : WLe m (encodeString s) := by
  unfold Verif.encodeString
  simp only
  repeat' split
  all_goals first
    | exact WLe.err
    | (intro p hp; simp [Enc.ok] at hp; rcases hp with rfl | rfl <;> (try simp) <;> omega)
    | (intro p hp; simp [Enc.ok] at hp; rcases hp with rfl | rfl | rfl <;> (try simp) <;> omega)

theorem WLe.sliceHeader {m : Nat} (hm : 8 ≤ m) (n : Nat) : WLe m (sliceHeader n) := by
  unfold Verif.sliceHeader
  repeat' split
  all_goals first
    | exact WLe.err
    | (intro p hp; simp [Enc.ok] at hp; rcases hp with rfl | rfl <;> simp <;> omega)
    | (intro p hp; simp [Enc.ok] at hp; subst hp; simp; omega)

theorem WLe.mapHeader {m : Nat} (hm : 8 ≤ m) (n : Nat) : WLe m (mapHeader n) := by
  unfold Verif.mapHeader
  repeat' split
  all_goals first
    | exact WLe.err
    | (intro p hp; simp [Enc.ok] at hp; rcases hp with rfl | rfl <;> simp <;> omega)
    | (intro p hp; simp [Enc.ok] at hp; subst hp; simp; omega)

theorem WLe.structHeader {m : Nat} (hm : 8 ≤ m) (n : Nat) : WLe m (structHeader n) := by
  unfold Verif.structHeader
  repeat' split
  all_goals first
    | exact WLe.err
    | (intro p hp; simp [Enc.ok] at hp; rcases hp with rfl | rfl <;> simp <;> omega)
    | (intro p hp; simp [Enc.ok] at hp; subst hp; simp; omega)

theorem WLe.one {m : Nat} (hm : 8 ≤ m) (x : UInt8) : WLe m (.ok [[x]]) := by
  intro p hp; simp [Enc.ok] at hp; subst hp; simp; omega

theorem WLe.two {m : Nat} (hm : 8 ≤ m) (x y : UInt8) : WLe m (.ok [[x], [y]]) := by
  intro p hp; simp [Enc.ok] at hp; rcases hp with rfl | rfl <;> simp <;> omega

theorem WLe.wrapField {m : Nat} {e : Enc} (h : WLe m e) : WLe m (wrapField e) := h

mutual
theorem encode_writes (env : Env) (ver : Ver) {m : Nat} (hm : 8 ≤ m) : (v : Val) → v.All (strAtMost m) → WLe m (encode env ver v)
  | .nil, _ => WLe.one hm _
  | .bool true, _ => WLe.one hm _
  | .bool false, _ => WLe.one hm _
  | .int k n, _ => by
    cases k <;> simp only [encode] <;> first
      | exact WLe.encodeInt hm _
      | (split
         · exact WLe.err
         · exact WLe.encodeInt hm _)
  | .float32 b, _ => WLe.encodeFloat hm _
  | .float64 b, _ => WLe.encodeFloat hm _
  | .str s, h => WLe.encodeString hm h
  | .list i vs, h => by
    simp only [Val.All] at h
    simp only [encode]
    exact WLe.seq (WLe.sliceHeader hm _) (encodeItems_writes env ver hm vs h.2)
  | .map es, h => by
    simp only [Val.All, strAtMost] at h
    simp only [encode]
    exact WLe.seq (WLe.mapHeader hm _) (encodeEntries_writes env ver hm es h.1 h.2)
  | .struct k fs, h => by
    simp only [Val.All] at h
    have hf := encodeFields_writes env ver hm fs h.2
    have hg : WLe m (if k.isStructure then ((structHeader fs.length).seq (.ok [[k.sig]])).seq (encodeFields env ver fs) else unrecognized) := by
      split
      · exact WLe.seq (WLe.seq (WLe.structHeader hm _) (WLe.one hm _)) hf
      · exact WLe.err
    cases k
    case discard => exact WLe.seq (WLe.structHeader hm _) (WLe.one hm _)
    all_goals exact hg
  | .date d, _ => by
    cases ver
    · exact WLe.err
    · exact WLe.seq (WLe.two hm _ _) (WLe.encodeInt hm _)
  | .clock n o, _ => by
    cases ver
    · exact WLe.err
    · exact WLe.seq (WLe.seq (WLe.two hm _ _) (WLe.encodeInt hm _)) (WLe.encodeInt hm _)
  | .localClock n, _ => by
    cases ver
    · exact WLe.err
    · exact WLe.seq (WLe.two hm _ _) (WLe.encodeInt hm _)
  | .localTime s n, _ => by
    cases ver
    · exact WLe.err
    · exact WLe.seq (WLe.seq (WLe.two hm _ _) (WLe.encodeInt hm _)) (WLe.encodeInt hm _)
  | .time s n o, _ => by
    cases ver
    · exact WLe.err
    · exact WLe.seq (WLe.seq (WLe.seq (WLe.two hm _ _) (WLe.encodeInt hm _)) (WLe.encodeInt hm _)) (WLe.encodeInt hm _)
  | .duration d, _ => by
    cases ver
    · exact WLe.err
    · exact WLe.seq (WLe.seq (WLe.seq (WLe.seq (WLe.two hm _ _) (WLe.encodeFloat hm _)) (WLe.encodeFloat hm _)) (WLe.encodeFloat hm _))
        (WLe.encodeInt hm _)
  | .other, _ => WLe.err

theorem encodeItems_writes (env : Env) (ver : Ver) {m : Nat} (hm : 8 ≤ m) : (vs : List Val) → AllList (strAtMost m) vs →
    WLe m (encodeItems env ver vs)
  | [], _ => by intro p hp; simp [encodeItems, Enc.ok] at hp
  | v :: vs, h => by
    simp only [AllList] at h
    exact WLe.seq (encode_writes env ver hm v h.1) (encodeItems_writes env ver hm vs h.2)

theorem encodeEntries_writes (env : Env) (ver : Ver) {m : Nat} (hm : 8 ≤ m) : (es : Entries) → (∀ e ∈ es, e.1.length ≤ m) →
    AllEntries (strAtMost m) es → WLe m (encodeEntries env ver es)
  | [], _, _ => by intro p hp; simp [encodeEntries, Enc.ok] at hp
  | (k, v) :: es, hk, h => by
    simp only [AllEntries] at h
    exact WLe.seq (WLe.seq (WLe.encodeString hm (hk (k, v) (by simp))) (encode_writes env ver hm v h.1))
      (encodeEntries_writes env ver hm es (fun e he => hk e (by simp [he])) h.2)

theorem encodeFields_writes (env : Env) (ver : Ver) {m : Nat} (hm : 8 ≤ m) : (vs : List Val) → AllList (strAtMost m) vs →
    WLe m (encodeFields env ver vs)
  | [], _ => by intro p hp; simp [encodeFields, Enc.ok] at hp
  | v :: vs, h => by
    simp only [AllList] at h
    exact WLe.seq (WLe.wrapField (encode_writes env ver hm v h.1)) (encodeFields_writes env ver hm vs h.2)
end

/-- Messages whose strings are not longer than a chunk are framed correctly. -/
theorem encodeMsg_framed (env : Env) (ver : Ver) {cs : Nat} (h8 : 8 ≤ cs) (hcs : cs ≤ 65535) {v : Val} (hs : v.All (strAtMost cs))
    (he : (encode env ver v).2 = none) :
    (encodeMsg env ver cs v).2 = none ∧ Framed (payload env ver v) (encodeMsg env ver cs v).1.flatten := by
  have hb := chunkWrites_buf (by omega) _ (encode_writes env ver h8 v hs) ⟨[], []⟩ (by simp; omega)
  unfold encodeMsg
  simp only [he]
  exact ⟨trivial, flush_framed (by omega) hcs _ (by omega)⟩

theorem chunkWrites_small {cs : Nat} (ps : List Bytes) : (st : ChunkSt) →
    (chunkWrites cs st ps).buf.length ≤ st.buf.length + ps.flatten.length := by
  induction ps with
  | nil => intro st; simp [chunkWrites]
  | cons p ps ih =>
    intro st
    have h1 := ih (chunkWrite cs st p)
    have h2 : (chunkWrite cs st p).buf.length ≤ st.buf.length + p.length := by
      unfold chunkWrite
      simp only [ge_iff_le, List.length_append]
      split
      · simp only [List.length_drop, List.length_append]; omega
      · simp only [List.length_append]; omega
    simp only [chunkWrites, List.foldl_cons, List.flatten_cons, List.length_append] at h1 ⊢
    omega

/-- Messages of at most 65535 bytes are framed correctly with every chunk size. -/
theorem encodeMsg_framed_small (env : Env) (ver : Ver) {cs : Nat} (h1 : 1 ≤ cs) (hcs : cs ≤ 65535) {v : Val}
    (hs : (payload env ver v).length ≤ 65535) (he : (encode env ver v).2 = none) :
    (encodeMsg env ver cs v).2 = none ∧ Framed (payload env ver v) (encodeMsg env ver cs v).1.flatten := by
  have hb := chunkWrites_small (cs := cs) (encode env ver v).1 ⟨[], []⟩
  unfold encodeMsg
  simp only [he]
  refine ⟨trivial, flush_framed (by omega) hcs _ ?_⟩
  have : (payload env ver v).length = (encode env ver v).1.flatten.length := rfl
  simp only [List.length_nil, Nat.zero_add] at hb
  omega

theorem encodeMsg_err {env : Env} {ver : Ver} {cs : Nat} {v : Val} {e : Err} (h : (encode env ver v).2 = some e) :
    encodeMsg env ver cs v = ((chunkWrites cs ⟨[], []⟩ (encode env ver v).1).out, some e) := by
  unfold encodeMsg
  dsimp only
  rw [h]

theorem encodeMsg_ok {env : Env} {ver : Ver} {cs : Nat} {v : Val} (h : (encode env ver v).2 = none) :
    encodeMsg env ver cs v = (flush (chunkWrites cs ⟨[], []⟩ (encode env ver v).1), none) := by
  unfold encodeMsg
  dsimp only
  rw [h]

end Verif

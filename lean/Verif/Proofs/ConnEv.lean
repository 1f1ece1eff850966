/-
What a successful send or receive means for the network.
-/
import Verif.Proofs.ConnInv
import Verif.Proofs.Framing
import Verif.Proofs.Writes
namespace Verif
open Spec

/-- A message that was read is a correctly framed prefix of the stream. -/
theorem readFlat_ok (fin : StreamEnd) : (fuel : Nat) → (out s p rest : Bytes) → s.length < fuel → readFlat fin fuel out s = .ok p rest →
    ∃ cks, GoodChunks cks ∧ p = out ++ cks.flatten ∧ s = frame cks ++ rest
  | 0, _, _, _, _, hf, _ => absurd hf (Nat.not_lt_zero _)
  | fuel + 1, out, s, p, rest, hf, h => by
    unfold readFlat at h
    split at h
    · cases h
    · rename_i hl
      obtain ⟨a, b, r, rfl⟩ : ∃ a b r, s = a :: b :: r := by
        match s, hl with
        | [], h => simp at h
        | [_], h => simp at h
        | a :: b :: r, _ => exact ⟨a, b, r, rfl⟩
      have ha := a.toNat_lt
      have hb := b.toNat_lt
      have hv : ofBE ((a :: b :: r).take 2) = a.toNat * 256 + b.toNat := by simp [ofBE]
      rw [hv] at h
      split at h
      · rename_i h0
        have ha0 : a = 0 := UInt8.toNat_inj.mp (by simp; omega)
        have hb0 : b = 0 := UInt8.toNat_inj.mp (by simp; omega)
        cases h
        subst ha0 hb0
        refine ⟨[], ?_, by simp, by simp [frame]⟩
        intro c hc; cases hc
      · rename_i h0
        split at h
        · rename_i hlen
          simp only [List.drop_succ_cons, List.drop_zero, List.length_cons] at h hlen hf
          obtain ⟨cks, g1, g2, g3⟩ := readFlat_ok fin fuel _ _ p rest (by simp only [List.length_drop]; omega) h
          refine ⟨r.take (a.toNat * 256 + b.toNat) :: cks, ?_, ?_, ?_⟩
          · intro c hc
            rcases List.mem_cons.mp hc with rfl | hc
            · constructor
              · intro h; have := congrArg List.length h; simp only [List.length_take, List.length_nil] at this; omega
              · rw [List.length_take]; omega
            · exact g1 c hc
          · rw [g2]; simp
          · have hc : chunk (r.take (a.toNat * 256 + b.toNat)) = a :: b :: r.take (a.toNat * 256 + b.toNat) := by
              have hl2 : (r.take (a.toNat * 256 + b.toNat)).length = a.toNat * 256 + b.toNat := by rw [List.length_take]; omega
              unfold chunk
              rw [hl2]
              congr 1
              · exact UInt8.toNat_inj.mp (by simp; omega)
              · congr 1
                exact UInt8.toNat_inj.mp (by simp)
            simp only [frame, List.map_cons, List.flatten_cons, hc, List.cons_append, List.append_assoc]
            simp only [frame, List.append_assoc, List.cons_append, List.nil_append] at g3
            simp only [List.nil_append]
            rw [← g3, List.take_append_drop]
        · cases h

theorem readMsg_ok {fin : StreamEnd} {segs segs' : List Bytes} {p : Bytes} (h : readMsg fin segs = .ok p segs') :
    ∃ s, Framed p s ∧ segs.flatten = s ++ segs'.flatten := by
  have h1 := readMsg_flat fin segs
  rw [h] at h1
  obtain ⟨cks, g1, g2, g3⟩ := readFlat_ok fin _ [] segs.flatten p segs'.flatten (by omega) h1.symm
  exact ⟨frame cks, ⟨cks, g1, by simpa using g2.symm, rfl⟩, g3⟩

section
variable {σ : Type} (env : Env) (W : World σ)

/-- The next message in the incoming stream is `v`: `s` is a correctly framed message whose contents decode to `v`, followed by `rest`. -/
def NextMsg (c : Conn σ) (v : Val) (rest : Bytes) : Prop :=
  ∃ p s r, c.segs.flatten = s ++ rest ∧ Framed p s ∧ decode env c.proto.codec p = .ok (v, r)

theorem receive_ok {c c' : Conn σ} {v : Val} (h : receive env c = (.ok v, c')) :
    c.sock = true ∧ NextMsg env c v c'.segs.flatten ∧ c' = { c with segs := c'.segs, trace := c.trace ++ [.recv v] } := by
  unfold receive at h
  split at h
  · cases h
  · rename_i hs
    split at h
    · cases h
    · rename_i b s hm
      split at h
      · rename_i v' r hd
        cases h
        obtain ⟨s', g1, g2⟩ := readMsg_ok hm
        exact ⟨by simpa using hs, ⟨b, s', r, g2, g1, hd⟩, rfl⟩
      · cases h
      · cases h
      · cases h

/-- The other direction: if the next message decodes, it is received. -/
theorem receive_next {c : Conn σ} {v : Val} {rest : Bytes} (hs : c.sock = true) (h : NextMsg env c v rest) :
    ∃ segs', segs'.flatten = rest ∧ receive env c = (.ok v, { c with segs := segs', trace := c.trace ++ [.recv v] }) := by
  obtain ⟨p, s, r, h1, h2, h3⟩ := h
  obtain ⟨segs', g1, g2⟩ := readMsg_framed h2 c.fin h1
  refine ⟨segs', g2, ?_⟩
  unfold receive
  rw [if_neg (by simp [hs]), g1]
  simp only [h3]

/-- The state after the message `v` was written. -/
def Conn.sent (c : Conn σ) (v : Val) : Conn σ :=
  let ws := (encodeMsg env c.proto.codec c.chunkSize v).1
  let o := W.onSend c.world ws
  { c with world := o.st, segs := c.segs ++ o.segs, fin := o.fin, trace := c.trace ++ [.sent ws] }

theorem encodeMsg_ne_nil {ver : Ver} {cs : Nat} {v : Val} (h : (encodeMsg env ver cs v).2 = none) : (encodeMsg env ver cs v).1 ≠ [] := by
  unfold encodeMsg at h ⊢
  dsimp only at h ⊢
  split at h
  · cases h
  · rename_i he
    simp only [he]
    unfold flush
    simp

theorem sendMessage_ok {v : Val} {c c' : Conn σ} (h : sendMessage env W v c = (.ok (), c')) :
    c.sock = true ∧ (encodeMsg env c.proto.codec c.chunkSize v).2 = none ∧
    (W.onSend c.world (encodeMsg env c.proto.codec c.chunkSize v).1).ok = true ∧ c' = c.sent env W v := by
  unfold sendMessage writeAll at h
  dsimp only at h
  have hne := fun (h : (encodeMsg env c.proto.codec c.chunkSize v).2 = none) => encodeMsg_ne_nil env h
  split at h
  · rename_i hnil
    split at h
    · rename_i he; exact absurd hnil (hne he)
    · cases h
  · split at h
    · cases h
    · rename_i hs
      split at h
      · rename_i hok
        split at h
        · rename_i he
          cases h
          exact ⟨by simpa using hs, he, hok, rfl⟩
        · cases h
      · cases h

theorem sendMessage_good {v : Val} {c : Conn σ} (hs : c.sock = true) (he : (encodeMsg env c.proto.codec c.chunkSize v).2 = none)
    (hok : (W.onSend c.world (encodeMsg env c.proto.codec c.chunkSize v).1).ok = true) : sendMessage env W v c = (.ok (), c.sent env W v) := by
  unfold sendMessage writeAll
  dsimp only
  rw [if_neg (encodeMsg_ne_nil env he), if_neg (by simp [hs]), if_pos hok, he]
  rfl

end
end Verif

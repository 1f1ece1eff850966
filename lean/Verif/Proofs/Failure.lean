/-
What happens after the server reported a FAILURE.
-/
import Verif.Proofs.Stream
import Verif.Proofs.Requests
namespace Verif
open Spec

def ignoredV : Val := .struct .ignored []

section
variable {σ : Type} (env : Env) (W : World σ)

/-- The end of `consume` after FAILURE with metadata `md`. -/
def failTail {α : Type} (reset : CM σ Unit) (md : Entries) : CM σ α :=
  CM.bind (CM.mapErr (fun _ => (GoErr.failure md).wrap "reset failed") reset) fun _ =>
    CM.fail ((GoErr.failure md).wrap "Neo4J reported a failure for the runQuery")

theorem failTail_apply {α : Type} (reset : CM σ Unit) (md : Entries) (c : Conn σ) :
    (failTail reset md : CM σ α) c = match reset c with
      | (.ok _, c') => (.err ((GoErr.failure md).wrap "Neo4J reported a failure for the runQuery"), c')
      | (.err _, c') => (.err ((GoErr.failure md).wrap "reset failed"), c')
      | (.panic, c') => (.panic, c')
      | (.fuel, c') => (.fuel, c') := by
  unfold failTail CM.bind CM.mapErr CM.fail
  match reset c with
  | (.ok _, _) => rfl
  | (.err _, _) => rfl
  | (.panic, _) => rfl
  | (.fuel, _) => rfl

/-- Nothing after a `failTail` is executed. -/
theorem failTail_bind {α β : Type} {m : CM σ α} {reset : CM σ Unit} {md : Entries} {c c1 : Conn σ} (h : m c = failTail reset md c1) (f : α → CM σ β) :
    (m >>= f) c = failTail reset md c1 := by
  rw [CM.bind_apply, h, failTail_apply, failTail_apply]
  match reset c1 with
  | (.ok _, _) => rfl
  | (.err _, _) => rfl
  | (.panic, _) => rfl
  | (.fuel, _) => rfl

theorem resetLoop_ignored {close : CM σ Unit} : (k n : Nat) → (c : Conn σ) → (md : Entries) → (vs : List Val) → (rest : Bytes) → c.sock = true → k < n →
    Reads env c.proto.codec (List.replicate k ignoredV ++ successV md :: vs) c.segs.flatten rest →
    ∃ segs', resetLoop env close n c = (.ok (), c.got (List.replicate k ignoredV ++ [successV md]) segs') ∧
      Reads env c.proto.codec vs segs'.flatten rest
  | 0, n + 1, c, md, vs, rest, hs, _, h => by
    obtain ⟨segs', g1, g2⟩ := receive_reads env hs h
    refine ⟨segs', ?_, g2⟩
    unfold resetLoop
    rw [CM.bind_ok (CM.mapErr_eq_ok.mpr g1)]
    rfl
  | k + 1, n + 1, c, md, vs, rest, hs, hn, h => by
    obtain ⟨segs', g1, g2⟩ := receive_reads env hs h
    obtain ⟨segs'', j1, j2⟩ := resetLoop_ignored (close := close) k n (c.got [ignoredV] segs') md vs rest hs (by omega) g2
    refine ⟨segs'', ?_, j2⟩
    unfold resetLoop
    rw [CM.bind_ok (CM.mapErr_eq_ok.mpr g1)]
    show resetLoop env close n (c.got [ignoredV] segs') = _
    rw [j1, got_got]
    simp [List.replicate_succ]
  | _, 0, _, _, _, _, _, hn, _ => absurd hn (Nat.not_lt_zero _)

theorem reset_enc (ver : Ver) (cs : Nat) : (encodeMsg env ver cs newResetMessage).2 = none := by
  have : (encode env ver newResetMessage).2 = none := by cases ver <;> rfl
  rw [encodeMsg_ok this]

/-- A reset that the server accepts, after any number of IGNORED. -/
theorem reset_works (fuel : Nat) {c : Conn σ} (hs : c.sock = true)
    (hok : (W.onSend c.world (encodeMsg env c.proto.codec c.chunkSize newResetMessage).1).ok = true) {k : Nat} {md : Entries} {vs : List Val} {rest : Bytes}
    (h : Reads env c.proto.codec (List.replicate k ignoredV ++ successV md :: vs)
      (c.segs.flatten ++ (W.onSend c.world (encodeMsg env c.proto.codec c.chunkSize newResetMessage).1).segs.flatten) rest) :
    ∃ segs', reset env W (fuel + 1) c = (.ok (), (c.sent env W newResetMessage).got (List.replicate k ignoredV ++ [successV md]) segs') ∧
      Reads env c.proto.codec vs segs'.flatten rest := by
  have s1 := sendMessage_good env W hs (reset_enc env _ _) hok
  have hfl : (c.sent env W newResetMessage).segs.flatten = c.segs.flatten ++
      (W.onSend c.world (encodeMsg env c.proto.codec c.chunkSize newResetMessage).1).segs.flatten := by simp [Conn.sent]
  rw [← hfl] at h
  have hlen := Reads.length env h
  obtain ⟨segs', g1, g2⟩ := resetLoop_ignored env (close := closeWith env W (rollbackWith env W (consumeWith env (reset env W fuel)))) k
    (streamLen (c.sent env W newResetMessage).segs + 1) (c.sent env W newResetMessage) md vs rest hs (by
      rw [streamLen_eq]
      simp only [List.length_append, List.length_replicate, List.length_cons] at hlen
      omega) h
  refine ⟨segs', ?_, g2⟩
  unfold reset resetWith
  exact (CM.bind_ok (CM.mapErr_eq_ok.mpr s1)).trans g1

end
end Verif

/-
C77  ValidateOpen notices a dead connection.
-/
import Verif.Props.C38
namespace Verif

section
variable {σ : Type} (env : Env) (W : World σ)

/-- The full claim: a connection that was closed, or on which the server has closed its side and nothing is left to read, is reported as not open; and any other one as
open; and asking changes nothing. -/
def C77_statement : Prop := ∀ (σ : Type) (env : Env) (W : World σ) (c : Conn σ), InUse env W c →
  (validateOpen W c = (.ok (!(c.closed || (c.segs.flatten.isEmpty && c.fin == .eof))), c))

/-- What Go's net package does when a read deadline has passed: `Read` fails with a timeout before it looks at the connection.  (`SetReadDeadline(time.Now())` sets such a
deadline: internal/poll.setDeadlineImpl, runtime.netpollcheckerr.) -/
def Spec.DeadlineFirst : Prop := ∀ w, W.probe w = .other

/-- ValidateOpen with any network: false exactly for a connection that was closed or when the probing read returns EOF.  It never fails. -/
theorem C77_exact (c : Conn σ) : ∃ b c', validateOpen W c = (.ok b, c') ∧ (b = false ↔ c.closed = true ∨ W.probe c.world = .eof) ∧
    c'.closed = c.closed ∧ c'.trace = c.trace ∧ (W.probe c.world ≠ .data → c' = c) := by
  unfold validateOpen
  cases hc : c.closed with
  | true => exact ⟨false, c, rfl, by simp, hc, rfl, fun _ => rfl⟩
  | false =>
    simp only [Bool.false_eq_true, if_false]
    cases hp : W.probe c.world with
    | eof => exact ⟨false, c, rfl, by simp, hc, rfl, fun _ => rfl⟩
    | other => exact ⟨true, c, rfl, by simp, hc, rfl, fun _ => rfl⟩
    | data =>
      dsimp only
      cases readOnce 1 c.segs with
      | none => exact ⟨true, c, rfl, by simp, hc, rfl, fun h => absurd rfl h⟩
      | some r => exact ⟨true, { c with segs := r.2, closed := false }, rfl, by simp, rfl, rfl, fun h => absurd rfl h⟩

/-- With Go's net package ValidateOpen only tells whether Close was called, and changes nothing. -/
theorem C77_go_partial (hd : Spec.DeadlineFirst W) (c : Conn σ) : validateOpen W c = (.ok (!c.closed), c) := by
  unfold validateOpen
  rw [hd]
  cases c.closed <;> rfl

/-- The server that closes its side after the session was opened (the stream ends with EOF). -/
def C77.world : World (List (List Bytes)) :=
  { scripted with onSend := fun s ws => { scripted.onSend s ws with fin := .eof }, probe := fun _ => .other }

/-- A connection on which the server has closed its side. -/
def C77.conn : Conn (List (List Bytes)) := (createBoltConn env0 C77.world 3 [] [] sOpen4).2

/-- False: the connection is dead, and reported as open. -/
theorem C77_refuted : ¬ C77_statement := by
  intro h
  have hk : (createBoltConn env0 C77.world 3 [] [] sOpen4).1.kind = 0 := by decide +kernel
  have hu : InUse env0 C77.world C77.conn := by
    exact ⟨3, [], [], sOpen4, C77.conn, [], CRes.kind_ok hk, rfl⟩
  have := h _ env0 C77.world C77.conn hu
  rw [C77_go_partial C77.world (fun _ => rfl)] at this
  have h2 : C77.conn.closed = false ∧ C77.conn.segs.flatten = [] ∧ C77.conn.fin = .eof := by decide +kernel
  rw [h2.1, h2.2.1, h2.2.2] at this
  simp at this

end
end Verif

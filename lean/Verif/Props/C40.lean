/-
C40  A finished transaction handle cannot run queries.
-/
import Verif.Props.C38
namespace Verif

section
variable {σ : Type} (env : Env) (W : World σ)

/-- C40: a query through a handle that is not open fails and sends nothing. -/
def C40_statement : Prop := ∀ (σ : Type) (env : Env) (W : World σ) (c : Conn σ), InUse env W c →
  ∀ h fuel q ps db, c.txs[h]? = some true → ∃ e c', txQueryWithDb env W fuel h q ps db c = (.err e, c') ∧ c'.trace = c.trace

/-- The handle plays no role at all: queries through a finished handle do exactly what queries through any other handle do. -/
theorem C40_handle_ignored (fuel h h' : Nat) (q : Bytes) (ps : Entries) (db : Bytes) (c : Conn σ) :
    txQueryWithDb env W fuel h q ps db c = txQueryWithDb env W fuel h' q ps db c ∧
    txExecWithDb env W fuel h q ps db c = txExecWithDb env W fuel h' q ps db c ∧
    txExec env W fuel h q ps c = txExec env W fuel h' q ps c := ⟨rfl, rfl, rfl⟩

/-- They do fail and send nothing once the connection itself is closed. -/
theorem C40_closed_partial {c : Conn σ} (hc : InUse env W c) (hcl : c.closed = true) (fuel h : Nat) (q : Bytes) (ps : Entries) (db : Bytes) :
    (∃ e, step env W fuel (.txQuery h q ps db) c = (.err e, c)) ∧ (∃ e, step env W fuel (.txExec h q ps) c = (.err e, c)) :=
  ⟨closed_fails env W fuel hc.inv hcl _ rfl, closed_fails env W fuel hc.inv hcl _ rfl⟩

/-- A connection whose transaction 0 has been committed. -/
def committed : Conn (List (List Bytes)) :=
  run env0 scripted 3 [.begin_ [], .commit 0] (opened (sOpen4 ++ [sSuccess, sSuccess, sSuccess, sOneRow])).2

/-- After a successful commit, a query through the handle is sent to the server and succeeds (outside of any transaction). -/
theorem C40_refuted : ¬ C40_statement := by
  intro h
  obtain ⟨e, c', h1, h2⟩ := h _ env0 scripted committed (opened_inUse (by decide +kernel) _) 0 3 [0x58] [] [] (by decide +kernel)
  have hk : (txQueryWithDb env0 scripted 3 0 [0x58] [] [] committed).1.kind = 0 := by decide +kernel
  rw [h1] at hk
  cases hk

example : committed.txs = [true] ∧ committed.cur = none ∧
    (txQueryWithDb env0 scripted 3 0 [0x58] [] [] committed).2.trace.length = committed.trace.length + 5 := by decide +kernel

end
end Verif

/-
Histories of API calls on one connection, with what they write to the log.
-/
import Verif.Model.ConnLog
import Verif.Spec.History
namespace Verif

/-- What an application does: a call on the connection, or a change of the log level. -/
inductive LogOp where
  | call (op : Op)
  | setLevel (name : Bytes)

section
variable {σ : Type} (env : Env) (W : World σ) (L : LogEnv)

/-- Forget the value a call returns. -/
def LM.void {α : Type} (m : LM σ α) : LM σ Unit := m >>= fun _ => Pure.pure ()

/-- Perform a call. -/
def logStep (fuel : Nat) : Op → LM σ Unit
  | .query q ps db => (logQueryWithDb env W L fuel q ps db false).void
  | .exec q ps db => (logQueryWithDb env W L fuel q ps db false).void
  | .begin_ db => (logBegin env W L fuel db).void
  | .commit h => logCommit env W L fuel h
  | .rollback h => logRollback env W L fuel h
  | .txQuery _ q ps db => (logQueryWithDb env W L fuel q ps db true).void
  | .txExec _ q ps => (logQueryWithDb env W L fuel q ps [] false).void
  | .txExecDb _ q ps db => (logQueryWithDb env W L fuel q ps db true).void
  | .close => logClose env W L fuel
  | .makeIdle => logMakeIdle env W L fuel
  | .validateOpen => (LM.lift (validateOpen W)).void
  | .setChunkSize n => LM.lift (setChunkSize n)

/-- The connection after a sequence of calls, and the calls into the log. -/
def logHistory (fuel : Nat) : List LogOp → Conn σ → Conn σ × List LogCall
  | [], c => (c, [])
  | .call op :: ops, c =>
    let r := logStep env W L fuel op c
    let r' := logHistory fuel ops r.2.1
    (r'.1, r.2.2 ++ r'.2)
  | .setLevel name :: ops, c =>
    let r' := logHistory fuel ops c
    (r'.1, .setLevel name :: r'.2)

/-- Creating a connection, whatever the outcome, and then these calls if it was created. -/
def logSession (fuel : Nat) (user password : Bytes) (ops : List LogOp) (w : σ) : Conn σ × List LogCall :=
  match logCreate env W L fuel user password w with
  | (.ok _, c, l) =>
    let r := logHistory env W L fuel ops c
    (r.1, l ++ r.2)
  | (_, c, l) => (c, l)

end

/-- The calls on the connection. -/
def LogOp.calls : List LogOp → List Op
  | [] => []
  | .call op :: ops => op :: calls ops
  | .setLevel _ :: ops => calls ops

end Verif

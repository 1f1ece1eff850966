/-
Histories of API calls on one connection.
-/
import Verif.Model.Conn
namespace Verif

/-- A call on a connection or on one of its transaction handles. -/
inductive Op where
  | query (q : Bytes) (params : Entries) (db : Bytes)
  | exec (q : Bytes) (params : Entries) (db : Bytes)
  | begin_ (db : Bytes)
  | commit (h : Nat)
  | rollback (h : Nat)
  | txQuery (h : Nat) (q : Bytes) (params : Entries) (db : Bytes)
  | txExec (h : Nat) (q : Bytes) (params : Entries)
  | txExecDb (h : Nat) (q : Bytes) (params : Entries) (db : Bytes)
  | close
  | makeIdle
  | validateOpen
  | setChunkSize (n : UInt16)

section
variable {σ : Type} (env : Env) (W : World σ)

/-- Forget the value a call returns. -/
def CM.void {α : Type} (m : CM σ α) : CM σ Unit := m >>= fun _ => Pure.pure ()

/-- Perform a call; `fuel` bounds the recursion of `reset`. -/
def step (fuel : Nat) : Op → CM σ Unit
  | .query q ps db => (queryWithDb env W fuel q ps db).void
  | .exec q ps db => (execWithDb env W fuel q ps db).void
  | .begin_ db => (beginWithDatabase env W fuel db).void
  | .commit h => commit env W fuel h
  | .rollback h => rollback env W fuel h
  | .txQuery h q ps db => (txQueryWithDb env W fuel h q ps db).void
  | .txExec h q ps => (txExec env W fuel h q ps).void
  | .txExecDb h q ps db => (txExecWithDb env W fuel h q ps db).void
  | .close => close env W fuel
  | .makeIdle => makeIdle env W fuel
  | .validateOpen => (validateOpen W).void
  | .setChunkSize n => setChunkSize n

/-- The connection after a sequence of calls, whatever each of them returned. -/
def run (fuel : Nat) (ops : List Op) (c : Conn σ) : Conn σ := ops.foldl (fun c op => (step env W fuel op c).2) c

/-- States of a connection in use: successfully created, then any calls. -/
def InUse (c : Conn σ) : Prop :=
  ∃ fuel user password w c0 ops, createBoltConn env W fuel user password w = (.ok (), c0) ∧ run env W fuel ops c0 = c

end
end Verif

/-
Operations on the network and the time they take.
-/
import Verif.Model.ConnNet
import Verif.Spec.History
namespace Verif

section
variable {σ : Type} (env : Env) (W : World σ) (N : NetEnv)

/-- Forget the value a call returns. -/
def NM.void {α : Type} (m : NM σ α) : NM σ Unit := m >>= fun _ => Pure.pure ()

/-- Perform a call. -/
def netStep (fuel : Nat) : Op → NM σ Unit
  | .query q ps db => (netQueryWithDb env W N fuel q ps db false).void
  | .exec q ps db => (netQueryWithDb env W N fuel q ps db false).void
  | .begin_ db => (netBegin env W N fuel db).void
  | .commit h => netCommit env W N fuel h
  | .rollback h => netRollback env W N fuel h
  | .txQuery _ q ps db => (netQueryWithDb env W N fuel q ps db true).void
  | .txExec _ q ps => (netQueryWithDb env W N fuel q ps [] false).void
  | .txExecDb _ q ps db => (netQueryWithDb env W N fuel q ps db true).void
  | .close => netClose env W N fuel
  | .makeIdle => netMakeIdle env W N fuel
  | .validateOpen => (netValidateOpen W).void
  | .setChunkSize n => NM.lift (setChunkSize n)

end

namespace Spec

/-- The operation succeeded; a `Read` that meets the end of the stream has not. -/
def OpOk : NetOp → Prop
  | .dial _ ok => ok = true
  | .write _ _ ok => ok = true
  | .read _ _ got => ∃ b, got = some b
  | .close ok => ok = true

/-- How long an operation can take: at most until its deadline.  Without a deadline it can take any time.  Closing the socket is not counted. -/
def CanTake : NetOp → Nat → Prop
  | .dial (some t) _, d => d ≤ t.toNat
  | .dial none _, _ => True
  | .write (some t) _ _, d => d ≤ t.toNat
  | .write none _ _, _ => True
  | .read (some t) _ _, d => d ≤ t.toNat
  | .read none _ _, _ => True
  | .close _, d => d = 0

/-- How long a sequence of operations can take. -/
inductive Lasts : List NetOp → Nat → Prop
  | nil : Lasts [] 0
  | cons {op : NetOp} {ops : List NetOp} {d t : Nat} : CanTake op d → Lasts ops t → Lasts (op :: ops) (d + t)

/-- The bytes of the `Write` calls, one after another. -/
def writes : List NetOp → List Bytes
  | [] => []
  | .write _ b _ :: ops => b :: writes ops
  | _ :: ops => writes ops

/-- The bytes delivered by the `Read` calls. -/
def bytesRead : List NetOp → Bytes
  | [] => []
  | .read _ _ (some b) :: ops => b ++ bytesRead ops
  | _ :: ops => bytesRead ops

/-- The writes recorded in a trace. -/
def traceWrites : List Ev → List Bytes
  | [] => []
  | .sent ws :: evs => ws ++ traceWrites evs
  | _ :: evs => traceWrites evs

/-- The state of the world after the events of a trace: it changes only when something is sent. -/
def worldAfter {σ : Type} (W : World σ) : σ → List Ev → σ
  | w, [] => w
  | w, .sent ws :: evs => worldAfter W (W.onSend w ws).st evs
  | w, _ :: evs => worldAfter W w evs

/-- The bytes that the server sends in the course of the events of a trace. -/
def delivered {σ : Type} (W : World σ) : σ → List Ev → Bytes
  | _, [] => []
  | w, .sent ws :: evs => (W.onSend w ws).segs.flatten ++ delivered W (W.onSend w ws).st evs
  | w, _ :: evs => delivered W w evs

end Spec
end Verif

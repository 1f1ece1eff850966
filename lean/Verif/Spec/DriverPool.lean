/-
Histories of the pool without routing.
-/
import Verif.Model.DriverPool
import Verif.Spec.History
namespace Verif

/-- For examples: there are no files. -/
def noFiles {σ : Type} (reach : Nat → Endpoint → σ) : Net σ := ⟨⟨fun _ => none, fun _ => [], fun _ _ => none⟩, reach⟩

/-- Something that happens to a pool.
* `open calls answer`: `Open`, during which the library makes the calls and then returns the answer (an object of any content) or an error.
* `reclaim r calls answer`: `Reclaim` of connection `r` (`none`: nil), during which the library makes the calls; then it returns an error or nil.
* `close calls`: `Close`.
* `evict calls`: the library makes calls of its own accord.
* `user r op`: somebody makes a call of connection `r`. -/
inductive DMove where
  | open (calls : List FCall) (answer : Except Err PObj)
  | reclaim (r : Option Nat) (calls : List FCall) (answer : Option Err)
  | close (calls : List FCall)
  | evict (calls : List FCall)
  | user (r : Nat) (op : Op)

/-- Who has a connection: it lies in the pool, ready for the next user; a user has it; it has been given back, but has not been passivated yet. -/
inductive Spec.Custody where
  | ready | user | returned
  deriving DecidableEq

/-- How an event changes who has connection `r`. -/
def Spec.Custody.after (r : Nat) : Spec.Custody → DEv → Spec.Custody
  | c, .opened r' => if r' = r then .user else c
  | c, .reclaimed r' => if r' = r then .returned else c
  | .returned, .passivated r' true => if r' = r then .ready else .returned
  | c, .passivated _ _ => c

/-- Who has connection `r` after these events. -/
def Spec.custody (log : List DEv) (r : Nat) : Spec.Custody := log.foldl (Spec.Custody.after r) .ready

section
variable {σ : Type} (env : Env) (W : World σ) (semi : Bool) (fuel : Nat) (net : Net σ)

/-- The result of `BorrowObject`. -/
def borrowed (calls : List FCall) (answer : Except Err PObj) : DM σ PObj := fun s =>
  (match answer with
    | .ok x => .ok x
    | .error e => .err e, library env W semi fuel net calls s)

/-- The result of `ReturnObject`. -/
def givenBack (calls : List FCall) (answer : Option Err) : DM σ Unit := fun s =>
  (match answer with
    | none => .ok ()
    | some e => .err e, library env W semi fuel net calls s)

/-- The effect of a move. -/
def DMove.run : DMove → DPool σ → DPool σ
  | .open calls answer, s => (dOpen W (borrowed env W semi fuel net calls answer) s).2
  | .reclaim r calls answer, s => (dReclaim (fun _ => givenBack env W semi fuel net calls answer) r s).2
  | .close calls, s => (dClose (library env W semi fuel net calls) s).2
  | .evict calls, s => library env W semi fuel net calls s
  | .user r op, s => (onConn r (step env W fuel op) s).2

/-- The effect of a sequence of moves. -/
def dRun (ms : List DMove) (s : DPool σ) : DPool σ := ms.foldl (fun s m => m.run env W semi fuel net s) s

/-- What users and the library owe each other.  A user calls and gives back only connections it has.  The library returns from `BorrowObject` only connections that are ready: not lent
already, and passivated successfully since they were given back. -/
def Spec.Proper (s : DPool σ) : DMove → Prop
  | .open calls (.ok (.conn r)) => s.closed = false → Spec.custody (library env W semi fuel net calls s).log r = .ready
  | .open _ _ => True
  | .reclaim (some r) _ _ => Spec.custody s.log r = .user
  | .reclaim none _ _ => True
  | .close _ => True
  | .evict _ => True
  | .user r _ => Spec.custody s.log r = .user

/-- Every move of a history is proper. -/
def Spec.AllProper : DPool σ → List DMove → Prop
  | _, [] => True
  | s, m :: ms => Spec.Proper env W semi fuel net s m ∧ Spec.AllProper (m.run env W semi fuel net s) ms

end
end Verif

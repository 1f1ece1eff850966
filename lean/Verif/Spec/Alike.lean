/-
Two networks that differ in how they divide what they transport.
-/
import Verif.Spec.History
import Verif.Spec.Framing
namespace Verif.Spec

/-- Two networks and servers do the same up to the division of the bytes received by the driver: related states give related states, the same bytes in
possibly different segments, and the same success of every operation.  `wr` relates the writes they are given. -/
structure SameBytes {σ τ : Type} (rel : σ → τ → Prop) (wr : List Bytes → List Bytes → Prop) (W : World σ) (V : World τ) : Prop where
  dial : ∀ w v, rel w v → rel (W.dial w).1 (V.dial v).1 ∧ (W.dial w).2 = (V.dial v).2
  send : ∀ w v ws ws', rel w v → wr ws ws' → rel (W.onSend w ws).st (V.onSend v ws').st ∧ (W.onSend w ws).ok = (V.onSend v ws').ok ∧
    (W.onSend w ws).segs.flatten = (V.onSend v ws').segs.flatten ∧ (W.onSend w ws).fin = (V.onSend v ws').fin
  close : ∀ w v, rel w v → W.onClose w = V.onClose v
  probe : ∀ w v, rel w v → W.probe w = V.probe v

/-- The writes are correctly framed messages with the same contents. -/
def SameContents (ws ws' : List Bytes) : Prop := ∃ p, Framed p ws.flatten ∧ Framed p ws'.flatten

/-- The events are the same, up to the division of the messages sent. -/
inductive SameEvents (wr : List Bytes → List Bytes → Prop) : List Ev → List Ev → Prop
  | refl (l : List Ev) : SameEvents wr l l
  | snoc {l l' : List Ev} (e : Ev) : SameEvents wr l l' → SameEvents wr (l ++ [e]) (l' ++ [e])
  | sent {l l' : List Ev} {ws ws' : List Bytes} : SameEvents wr l l' → wr ws ws' → SameEvents wr (l ++ [.sent ws]) (l' ++ [.sent ws'])

/-- What a call returns. -/
inductive Ret where
  | rows (r : List (List Val)) (md : Entries)
  | summary (md : Entries)
  | handle (h : Nat)
  | flag (b : Bool)
  | done

/-- The value of a call. -/
def toRet {α : Type} (f : α → Ret) : CRes α → CRes Ret
  | .ok a => .ok (f a)
  | .err e => .err e
  | .panic => .panic
  | .fuel => .fuel

/-- The result of a call on a connection. -/
def yields {σ : Type} (env : Env) (W : World σ) (fuel : Nat) (op : Op) (c : Conn σ) : CRes Ret :=
  match op with
  | .query q ps db => toRet (fun r => .rows r.1 r.2) (queryWithDb env W fuel q ps db c).1
  | .exec q ps db => toRet .summary (execWithDb env W fuel q ps db c).1
  | .begin_ db => toRet .handle (beginWithDatabase env W fuel db c).1
  | .commit h => toRet (fun _ => .done) (commit env W fuel h c).1
  | .rollback h => toRet (fun _ => .done) (rollback env W fuel h c).1
  | .txQuery h q ps db => toRet (fun r => .rows r.1 r.2) (txQueryWithDb env W fuel h q ps db c).1
  | .txExec h q ps => toRet .summary (txExec env W fuel h q ps c).1
  | .txExecDb h q ps db => toRet .summary (txExecWithDb env W fuel h q ps db c).1
  | .close => toRet (fun _ => .done) (close env W fuel c).1
  | .makeIdle => toRet (fun _ => .done) (makeIdle env W fuel c).1
  | .validateOpen => toRet .flag (validateOpen W c).1
  | .setChunkSize n => toRet (fun _ => .done) (setChunkSize n c).1

/-- The histories differ only in calls of SetChunkSize. -/
inductive Resized : List Op → List Op → Prop
  | nil : Resized [] []
  | left (n : UInt16) {l l' : List Op} : Resized l l' → Resized (.setChunkSize n :: l) l'
  | right (n : UInt16) {l l' : List Op} : Resized l l' → Resized l (.setChunkSize n :: l')
  | call (op : Op) {l l' : List Op} : Resized l l' → Resized (op :: l) (op :: l')

end Verif.Spec

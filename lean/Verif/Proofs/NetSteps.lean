/-
A relation between states, operations on the network and outcomes that every primitive action respects is respected by every call.
-/
import Verif.Spec.NetTime
import Verif.Proofs.ConnNet
namespace Verif

/-- The call returned without an error. -/
def CRes.good {α : Type} : CRes α → Bool
  | .ok _ => true
  | _ => false

section
variable {σ α β : Type} (env : Env) (W : World σ) (N : NetEnv)

/-- Running `m` leads, with its operations, to a related state; the flag tells whether it returned without an error. -/
def NSteps (R : Bool → Conn σ → List NetOp → Conn σ → Prop) (m : NM σ α) : Prop := ∀ c, R (m c).1.good c (m c).2.2 (m c).2.1

/-- The primitive actions respect `R`. -/
structure NPrim (R : Bool → Conn σ → List NetOp → Conn σ → Prop) : Prop where
  refl : ∀ b c, R b c [] c
  trans : ∀ {b : Bool} {c c' c'' : Conn σ} {l l' : List NetOp}, R true c l c' → R b c' l' c'' → R b c (l ++ l') c''
  weaken : ∀ {c c' : Conn σ} {l : List NetOp}, R true c l c' → R false c l c'
  send : ∀ v, NSteps R (netSend env W N v)
  recv : NSteps R (netReceive env N : NM σ Val)
  sock : NSteps R (netCloseSock W : NM σ Unit)
  endTx : ∀ h c, R true c [] (c.endTx h)
  newTx : ∀ (c : Conn σ) (h : Nat), R true c [] { c with txs := c.txs ++ [false], cur := some h }
  chunk : ∀ (c : Conn σ) (n : UInt16), R true c [] { c with chunkSize := n.toNat }

namespace NPrim
variable {env W N} {R : Bool → Conn σ → List NetOp → Conn σ → Prop} (P : NPrim env W N R)
include P

theorem bind {m : NM σ α} {f : α → NM σ β} (hm : NSteps R m) (hf : ∀ a, NSteps R (f a)) : NSteps R (m >>= f) := by
  intro c
  have h1 := hm c
  show R (NM.bind m f c).1.good c (NM.bind m f c).2.2 (NM.bind m f c).2.1
  unfold NM.bind
  match h : m c with
  | (.ok a, c', l) => rw [h] at h1; exact P.trans h1 (hf a c')
  | (.err e, c', l) => rw [h] at h1; exact h1
  | (.panic, c', l) => rw [h] at h1; exact h1
  | (.fuel, c', l) => rw [h] at h1; exact h1

theorem pure (a : α) : NSteps R (Pure.pure a : NM σ α) := P.refl true

theorem fail (e : Err) : NSteps R (NM.fail e : NM σ α) := P.refl false

theorem get : NSteps R (NM.get : NM σ (Conn σ)) := P.refl true

theorem fuel : NSteps R (NM.lift fun c => (.fuel, c) : NM σ α) := P.refl false

theorem ite {p : Prop} [Decidable p] {m m' : NM σ α} (h : NSteps R m) (h' : NSteps R m') : NSteps R (if p then m else m') := by
  split
  · exact h
  · exact h'

theorem mapErr {m : NM σ α} (f : Err → Err) (h : NSteps R m) : NSteps R (NM.mapErr f m) := by
  intro c
  have h1 := h c
  unfold NM.mapErr
  match h : m c with
  | (.ok a, c', l) => rw [h] at h1; exact h1
  | (.err e, c', l) => rw [h] at h1; exact h1
  | (.panic, c', l) => rw [h] at h1; exact h1
  | (.fuel, c', l) => rw [h] at h1; exact h1

theorem thenFail {m : NM σ α} (e : Err) (h : NSteps R m) : NSteps R (NM.thenFail m e : NM σ β) := by
  intro c
  have h1 := h c
  unfold NM.thenFail
  match h : m c with
  | (.ok a, c', l) => rw [h] at h1; exact P.weaken h1
  | (.err e', c', l) => rw [h] at h1; exact h1
  | (.panic, c', l) => rw [h] at h1; exact h1
  | (.fuel, c', l) => rw [h] at h1; exact h1

theorem consumeWith {reset : NM σ Unit} (h : NSteps R reset) : NSteps R (netConsumeWith env N reset) := by
  unfold netConsumeWith
  refine P.bind P.recv fun v => ?_
  cases asFailure v with
  | none => exact P.pure _
  | some md => exact P.bind (P.mapErr _ h) fun _ => P.fail _

theorem resetLoop {close : NM σ Unit} (h : NSteps R close) (n : Nat) : NSteps R (netResetLoop env N close n) := by
  induction n with
  | zero => exact P.fuel
  | succ n ih =>
    unfold netResetLoop
    refine P.bind (P.mapErr _ P.recv) fun v => ?_
    refine P.ite ih ?_
    cases asSuccess v with
    | some md => exact P.pure _
    | none =>
      cases asFailure v with
      | some md => exact P.thenFail _ h
      | none => exact P.thenFail _ h

theorem resetWith {close : NM σ Unit} (h : NSteps R close) : NSteps R (netResetWith env W N close) := by
  unfold netResetWith
  refine P.bind (P.mapErr _ (P.send _)) fun _ => ?_
  exact fun c => P.resetLoop h _ c

theorem txExchange {consume : NM σ Val} (h : NSteps R consume) (msg : Val) (what : String) : NSteps R (netTxExchange env W N consume msg what) := by
  unfold netTxExchange
  refine P.bind (P.send _) fun _ => ?_
  refine P.ite ?_ ?_
  · refine P.bind h fun run => ?_
    cases asSuccess run with
    | none => exact P.fail _
    | some _ => exact P.pure _
  · refine P.bind P.get fun c => ?_
    refine P.bind (P.send _) fun _ => ?_
    refine P.bind h fun run => ?_
    refine P.bind h fun pull => ?_
    cases asSuccess run with
    | none => exact P.fail _
    | some _ =>
      cases asSuccess pull with
      | none => exact P.fail _
      | some _ => exact P.pure _

theorem endTxStep (h : Nat) : NSteps R (NM.lift (CM.modify (·.endTx h)) : NM σ Unit) := fun c => P.endTx h c

theorem rollbackWith {consume : NM σ Val} (h : NSteps R consume) (n : Nat) : NSteps R (netRollbackWith env W N consume n) := by
  unfold netRollbackWith
  refine P.bind P.get fun c => ?_
  refine P.ite (P.fail _) ?_
  refine P.bind P.get fun c => ?_
  exact P.bind (P.txExchange h _ _) fun _ => P.endTxStep n

theorem commitWith {consume : NM σ Val} (h : NSteps R consume) (n : Nat) : NSteps R (netCommitWith env W N consume n) := by
  unfold netCommitWith
  refine P.bind P.get fun c => ?_
  refine P.ite (P.fail _) ?_
  refine P.bind P.get fun c => ?_
  exact P.bind (P.txExchange h _ _) fun _ => P.endTxStep n

theorem closeWith {rollback : Nat → NM σ Unit} (h : ∀ n, NSteps R (rollback n)) : NSteps R (netCloseWith env W N rollback) := by
  unfold netCloseWith
  refine P.bind P.get fun c => ?_
  refine P.ite (P.fail _) ?_
  refine P.bind P.get fun c => ?_
  have hend : NSteps R (do
      match (← NM.get).proto.closeMessage with
      | some m => netSend env W N m
      | none => Pure.pure ()
      netCloseSock W : NM σ Unit) := by
    refine P.bind P.get fun c => ?_
    cases c.proto.closeMessage with
    | none => exact P.sock
    | some m => exact P.bind (P.send _) fun _ => P.sock
  cases c.cur with
  | none => exact hend
  | some n => exact P.bind (h n) fun _ => hend

theorem reset (fuel : Nat) : NSteps R (netReset env W N fuel) := by
  induction fuel with
  | zero => exact P.fuel
  | succ n ih => exact P.resetWith (P.closeWith (P.rollbackWith (P.consumeWith ih)))

theorem consume (fuel : Nat) : NSteps R (netConsume env W N fuel) := P.consumeWith (P.reset fuel)

theorem rollback (fuel h : Nat) : NSteps R (netRollback env W N fuel h) := P.rollbackWith (P.consume fuel) h

theorem commit (fuel h : Nat) : NSteps R (netCommit env W N fuel h) := P.commitWith (P.consume fuel) h

theorem close (fuel : Nat) : NSteps R (netClose env W N fuel) := P.closeWith (P.rollback fuel)

theorem makeIdle (fuel : Nat) : NSteps R (netMakeIdle env W N fuel) := by
  unfold netMakeIdle
  refine P.bind P.get fun c => ?_
  cases c.cur with
  | none => exact P.pure _
  | some h => exact P.rollback fuel h

theorem begin_ (fuel : Nat) (db : Bytes) : NSteps R (netBegin env W N fuel db) := by
  unfold netBegin
  refine P.bind P.get fun c => ?_
  refine P.ite (P.fail _) ?_
  refine P.bind P.get fun c => ?_
  refine P.ite (P.fail _) ?_
  refine P.bind P.get fun c => ?_
  refine P.bind (P.txExchange (P.consume fuel) _ _) fun _ => ?_
  refine P.bind P.get fun c => ?_
  exact P.bind (fun c' => P.newTx c' _) fun _ => P.pure _

theorem rowsLoop {consume : NM σ Val} (h : NSteps R consume) (n : Nat) (out : List (List Val)) : NSteps R (netRowsLoop consume n out) := by
  induction n generalizing out with
  | zero => exact P.fuel
  | succ n ih =>
    unfold netRowsLoop
    refine P.bind h fun v => ?_
    cases asSuccess v with
    | some md => exact P.pure _
    | none =>
      cases asRecord v with
      | some fs => exact ih _
      | none => exact P.fail _

theorem runQuery (fuel : Nat) (q : Bytes) (ps : Entries) (db : Bytes) (inTx : Bool) : NSteps R (netRunQuery env W N fuel q ps db inTx) := by
  unfold netRunQuery
  refine P.bind P.get fun c => ?_
  refine P.ite (P.fail _) ?_
  refine P.bind P.get fun c => ?_
  refine P.bind (P.send _) fun _ => ?_
  refine P.bind (P.send _) fun _ => ?_
  refine P.bind (P.consume fuel) fun v => ?_
  cases asSuccess v with
  | none => exact P.fail _
  | some _ => exact fun c => P.rowsLoop (P.consume fuel) _ _ c

theorem checkDb (db : Bytes) : NSteps R (NM.lift (Verif.checkDb db) : NM σ Unit) := by
  intro c
  show R (Verif.checkDb db c).1.good c [] (Verif.checkDb db c).2
  show R ((if c.proto.supportsMultiDatabase = false ∧ db ≠ [] then CM.fail _ else Pure.pure () : CM σ Unit) c).1.good c [] _
  have : (Verif.checkDb db c).2 = c := by
    show ((if c.proto.supportsMultiDatabase = false ∧ db ≠ [] then CM.fail _ else Pure.pure () : CM σ Unit) c).2 = c
    split <;> rfl
  rw [this]
  exact P.refl _ c

theorem queryWithDb (fuel : Nat) (q : Bytes) (ps : Entries) (db : Bytes) (inTx : Bool) : NSteps R (netQueryWithDb env W N fuel q ps db inTx) :=
  P.bind (P.checkDb db) fun _ => P.runQuery fuel q ps db inTx

theorem void {m : NM σ α} (h : NSteps R m) : NSteps R m.void := P.bind h fun _ => P.pure _

theorem sendInit (fuel : Nat) (m : Val) : NSteps R (netSendInit env W N fuel m) := by
  unfold netSendInit
  refine P.bind (P.send _) fun _ => ?_
  refine P.bind (P.consume fuel) fun v => ?_
  cases asSuccess v with
  | none => exact P.close fuel
  | some _ => exact P.pure _

/-- Every call but `ValidateOpen`, whose `Read` is meant to fail. -/
theorem step (fuel : Nat) (op : Op) (hv : op ≠ .validateOpen) : NSteps R (netStep env W N fuel op) := by
  cases op with
  | query q ps db => exact P.void (P.queryWithDb fuel q ps db false)
  | exec q ps db => exact P.void (P.queryWithDb fuel q ps db false)
  | begin_ db => exact P.void (P.begin_ fuel db)
  | commit h => exact P.commit fuel h
  | rollback h => exact P.rollback fuel h
  | txQuery h q ps db => exact P.void (P.queryWithDb fuel q ps db true)
  | txExec h q ps => exact P.void (P.queryWithDb fuel q ps [] false)
  | txExecDb h q ps db => exact P.void (P.queryWithDb fuel q ps db true)
  | close => exact P.close fuel
  | makeIdle => exact P.makeIdle fuel
  | validateOpen => exact absurd rfl hv
  | setChunkSize n => exact fun c => P.chunk c n

end NPrim

/-- The calls of `netStep` are those of `step`. -/
theorem nerase_step (fuel : Nat) (op : Op) : (netStep env W N fuel op).erase = step env W fuel op := by
  have hv : ∀ {α : Type} (m : NM σ α), m.void.erase = m.erase.void := fun m => by
    unfold NM.void CM.void; rw [NM.erase_bind]; rfl
  have hx : ∀ (q : Bytes) (ps : Entries) (db : Bytes) (b : Bool),
      (checkDb db >>= fun _ => runQuery env W fuel q ps db b : CM σ _).void = (checkDb db >>= fun _ => runQuery env W fuel q ps db b >>= fun r => Pure.pure r.2 : CM σ _).void := by
    intro q ps db b
    funext c
    show CM.bind (CM.bind (checkDb db) _) _ c = CM.bind (CM.bind (checkDb db) fun _ => CM.bind (runQuery env W fuel q ps db b) _) _ c
    simp only [CM.bind]
    rcases checkDb db c with ⟨_ | _ | _ | _, c'⟩
    · dsimp only
      rcases runQuery env W fuel q ps db b c' with ⟨_ | _ | _ | _, c''⟩ <;> rfl
    all_goals rfl
  cases op with
  | query q ps db => simp only [netStep, hv, nerase_queryWithDb]; rfl
  | exec q ps db => simp only [netStep, hv, nerase_queryWithDb, hx]; rfl
  | begin_ db => simp only [netStep, hv, nerase_begin]; rfl
  | commit h => exact nerase_commit env W N fuel h
  | rollback h => exact nerase_rollback env W N fuel h
  | txQuery h q ps db => simp only [netStep, hv, nerase_queryWithDb]; rfl
  | txExec h q ps => simp only [netStep, hv, nerase_queryWithDb, hx]; rfl
  | txExecDb h q ps db => simp only [netStep, hv, nerase_queryWithDb, hx]; rfl
  | close => exact nerase_close env W N fuel
  | makeIdle => exact nerase_makeIdle env W N fuel
  | validateOpen => simp only [netStep, hv, nerase_validateOpen]; rfl
  | setChunkSize n => rfl

end
end Verif

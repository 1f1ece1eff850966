/-
Writing to the log does not change what a connection does.
-/
import Verif.Model.ConnLog
import Verif.Spec.History
namespace Verif
namespace LM
variable {σ α β : Type}

theorem erase_apply (m : LM σ α) (c : Conn σ) : m.erase c = ((m c).1, (m c).2.1) := rfl

theorem erase_bind (m : LM σ α) (f : α → LM σ β) : (m >>= f).erase = m.erase >>= fun a => (f a).erase := by
  funext c
  show erase (LM.bind m f) c = CM.bind m.erase (fun a => (f a).erase) c
  simp only [erase, LM.bind, CM.bind]
  rcases m c with ⟨_ | _ | _ | _, c', l⟩ <;> rfl

theorem erase_bind' (m : LM σ α) (f : α → LM σ β) : (LM.bind m f).erase = CM.bind m.erase fun a => (f a).erase := erase_bind m f

theorem erase_pure (a : α) : (Pure.pure a : LM σ α).erase = Pure.pure a := rfl

theorem erase_lift (m : CM σ α) : (lift m).erase = m := rfl

theorem erase_say (l : LogCall) : (say l : LM σ Unit).erase = Pure.pure () := rfl

theorem erase_fail (e : Err) : (fail e : LM σ α).erase = CM.fail e := rfl

theorem erase_get : (get : LM σ (Conn σ)).erase = CM.get := rfl

theorem erase_mapErr (f : Err → Err) (m : LM σ α) : (mapErr f m).erase = CM.mapErr f m.erase := by
  funext c
  simp only [erase, mapErr, CM.mapErr]
  rcases m c with ⟨_ | _ | _ | _, c', l⟩ <;> rfl

theorem erase_thenFail (m : LM σ α) (log : Err → List LogCall) (e : Err) : (thenFail m log e : LM σ β).erase = CM.thenFail m.erase e := by
  funext c
  simp only [erase, thenFail, CM.thenFail]
  rcases m c with ⟨_ | _ | _ | _, c', l⟩ <;> rfl

theorem cm_pure_bind (a : α) (f : α → CM σ β) : (Pure.pure a : CM σ α) >>= f = f a := rfl

theorem erase_ite {p : Prop} [Decidable p] (a b : LM σ α) : (if p then a else b).erase = if p then a.erase else b.erase := by
  split <;> rfl

end LM

section
variable {σ : Type} (env : Env) (W : World σ) (L : LogEnv)
open LM

theorem erase_send (v : Val) : (logSend env W L v).erase = sendMessage env W v := rfl

theorem erase_consumeWith (reset : LM σ Unit) : (logConsumeWith env L reset).erase = consumeWith env reset.erase := by
  simp only [logConsumeWith, consumeWith, erase_bind, erase_say, cm_pure_bind, erase_lift]
  congr 1; funext v
  cases asFailure v with
  | none => rfl
  | some md => simp only [erase_bind, erase_say, cm_pure_bind, erase_bind', erase_mapErr, erase_fail]

theorem erase_resetLoop (close : LM σ Unit) (n : Nat) : (logResetLoop env L close n).erase = resetLoop env close.erase n := by
  induction n with
  | zero => rfl
  | succ n ih =>
    simp only [logResetLoop, resetLoop, erase_bind, erase_mapErr, erase_lift]
    congr 1; funext v
    simp only [erase_ite, erase_bind, erase_say, cm_pure_bind, ih]
    congr 1
    cases asSuccess v with
    | some _ => rfl
    | none =>
      cases asFailure v with
      | some md => simp only [erase_bind, erase_say, cm_pure_bind, erase_thenFail]
      | none => simp only [erase_bind, erase_say, cm_pure_bind, erase_thenFail]

theorem erase_resetWith (close : LM σ Unit) : (logResetWith env W L close).erase = resetWith env W close.erase := by
  let k : LM σ Unit := fun c => logResetLoop env L close (streamLen c.segs + 1) c
  have hk : k.erase = fun c => resetLoop env close.erase (streamLen c.segs + 1) c := by
    funext c
    rw [← erase_resetLoop env L close]; rfl
  have h : logResetWith env W L close = (LM.say (.trace (ascii "Resetting session")) >>= fun _ =>
      LM.mapErr (fun e => e.wrap "An error occurred encoding reset message") (logSend env W L newResetMessage) >>= fun _ => k) := rfl
  rw [h, erase_bind, erase_say, cm_pure_bind, erase_bind, erase_mapErr, erase_send, hk]
  rfl

theorem erase_txExchange (consume : LM σ Val) (msg : Val) (what : String) (said : Option String) :
    (logTxExchange env W L consume msg what said).erase = txExchange env W consume.erase msg what := by
  simp only [logTxExchange, txExchange, erase_bind, erase_send, erase_ite, erase_get]
  congr 1; funext _; congr 1
  · congr 1; funext run
    cases asSuccess run with
    | none => rfl
    | some _ => cases said <;> rfl
  · congr 1; funext c; congr 1; funext _; congr 1; funext run; congr 1; funext pull
    cases asSuccess run with
    | none => rfl
    | some _ =>
      cases said with
      | none => cases asSuccess pull <;> rfl
      | some f =>
        simp only [erase_bind, erase_say, cm_pure_bind]
        cases asSuccess pull <;> rfl

theorem erase_rollbackWith (consume : LM σ Val) (h : Nat) : (logRollbackWith env W L consume h).erase = rollbackWith env W consume.erase h := by
  simp only [logRollbackWith, rollbackWith, erase_bind, erase_get, erase_ite, erase_txExchange, erase_lift, erase_fail]

theorem erase_commitWith (consume : LM σ Val) (h : Nat) : (logCommitWith env W L consume h).erase = commitWith env W consume.erase h := by
  simp only [logCommitWith, commitWith, erase_bind, erase_get, erase_ite, erase_txExchange, erase_lift, erase_fail]

theorem erase_closeWith (rollback : Nat → LM σ Unit) : (logCloseWith env W L rollback).erase = closeWith env W (fun h => (rollback h).erase) := by
  simp only [logCloseWith, closeWith, erase_bind, erase_get, erase_ite, erase_lift, erase_fail]
  congr 1; funext c; congr 1; congr 1; funext c'
  cases c'.cur with
  | none =>
    simp only [erase_bind, erase_get]
    congr 1; funext c2
    cases c2.proto.closeMessage <;> simp only [erase_bind, erase_send, erase_lift]
  | some h =>
    simp only [erase_bind, erase_get]
    congr 1; funext _; congr 1; funext c2
    cases c2.proto.closeMessage <;> simp only [erase_bind, erase_send, erase_lift]

theorem erase_reset (fuel : Nat) : (logReset env W L fuel).erase = reset env W fuel := by
  induction fuel with
  | zero => rfl
  | succ n ih =>
    simp only [logReset, reset, erase_resetWith, erase_closeWith, erase_rollbackWith, erase_consumeWith, ih]

theorem erase_consume (fuel : Nat) : (logConsume env W L fuel).erase = consume env W fuel := by
  simp only [logConsume, consume, erase_consumeWith, erase_reset]

theorem erase_rollback (fuel h : Nat) : (logRollback env W L fuel h).erase = rollback env W fuel h := by
  simp only [logRollback, rollback, erase_rollbackWith, erase_consume]

theorem erase_commit (fuel h : Nat) : (logCommit env W L fuel h).erase = commit env W fuel h := by
  simp only [logCommit, commit, erase_commitWith, erase_consume]

theorem erase_close (fuel : Nat) : (logClose env W L fuel).erase = close env W fuel := by
  simp only [logClose, close, erase_closeWith, erase_rollback]

theorem erase_makeIdle (fuel : Nat) : (logMakeIdle env W L fuel).erase = makeIdle env W fuel := by
  simp only [logMakeIdle, makeIdle, erase_bind, erase_get]
  congr 1; funext c
  cases c.cur with
  | none => rfl
  | some h => exact erase_rollback env W L fuel h

theorem erase_begin (fuel : Nat) (db : Bytes) : (logBegin env W L fuel db).erase = beginWithDatabase env W fuel db := by
  simp only [logBegin, beginWithDatabase, erase_bind, erase_get, erase_ite, erase_txExchange, erase_lift, erase_fail, erase_consume, erase_pure]

theorem erase_rowsLoop (consume : LM σ Val) (n : Nat) (out : List (List Val)) :
    (logRowsLoop L consume n out).erase = rowsLoop consume.erase n out := by
  induction n generalizing out with
  | zero => rfl
  | succ n ih =>
    simp only [logRowsLoop, rowsLoop, erase_bind]
    congr 1; funext v
    cases asSuccess v with
    | some md => rfl
    | none =>
      cases asRecord v with
      | some fs => simp only [erase_bind, erase_say, cm_pure_bind, ih]
      | none => rfl

theorem erase_runQuery (fuel : Nat) (q : Bytes) (ps : Entries) (db : Bytes) (inTx : Bool) :
    (logRunQuery env W L fuel q ps db inTx).erase = runQuery env W fuel q ps db inTx := by
  simp only [logRunQuery, runQuery, erase_bind, erase_get, erase_ite, erase_fail, erase_say, cm_pure_bind, erase_send, erase_consume]
  congr 1; funext c; congr 1; congr 1; funext c1; congr 1; funext _; congr 1; funext _; congr 1; funext v
  cases asSuccess v with
  | none => rfl
  | some _ =>
    funext c2
    show LM.erase (fun c => logRowsLoop L (logConsume env W L fuel) (streamLen c.segs + 1) [] c) c2 = rowsLoop (consume env W fuel) (streamLen c2.segs + 1) [] c2
    rw [← erase_consume env W L fuel, ← erase_rowsLoop]; rfl

theorem erase_queryWithDb (fuel : Nat) (q : Bytes) (ps : Entries) (db : Bytes) (inTx : Bool) :
    (logQueryWithDb env W L fuel q ps db inTx).erase = (checkDb db >>= fun _ => runQuery env W fuel q ps db inTx) := by
  simp only [logQueryWithDb, erase_bind, erase_lift, erase_runQuery]

theorem erase_sendInit (fuel : Nat) (m : Val) : (logSendInit env W L fuel m).erase = sendInit env W fuel m := by
  simp only [logSendInit, sendInit, erase_bind, erase_send, erase_consume]
  congr 1; funext _; congr 1; funext v
  cases asSuccess v with
  | some _ => rfl
  | none => simp only [erase_bind, erase_say, cm_pure_bind, erase_close]

theorem erase_init (fuel : Nat) (user password : Bytes) : (logInit env W L fuel user password).erase = initConn env W fuel user password := by
  simp only [logInit, initConn, erase_bind, erase_lift, erase_mapErr]
  congr 1; funext _; congr 1; funext v
  rcases getProtocol v with ⟨_ | p, n, _ | e⟩
  · rfl
  · rfl
  · simp only [erase_bind, erase_say, cm_pure_bind, erase_lift, erase_sendInit]
  · simp only [erase_bind, erase_say, cm_pure_bind, erase_lift, erase_sendInit]

end
end Verif

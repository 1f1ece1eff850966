/-
The functions of `ConnNet.lean` are those of `Conn.lean`, with the operations on the network.
-/
import Verif.Model.ConnNet
import Verif.Spec.History
namespace Verif
namespace NM
variable {σ α β : Type}

theorem erase_apply (m : NM σ α) (c : Conn σ) : m.erase c = ((m c).1, (m c).2.1) := rfl

theorem erase_bind (m : NM σ α) (f : α → NM σ β) : (m >>= f).erase = m.erase >>= fun a => (f a).erase := by
  funext c
  show erase (NM.bind m f) c = CM.bind m.erase (fun a => (f a).erase) c
  simp only [erase, NM.bind, CM.bind]
  rcases m c with ⟨_ | _ | _ | _, c', l⟩ <;> rfl

theorem erase_bind' (m : NM σ α) (f : α → NM σ β) : (NM.bind m f).erase = CM.bind m.erase fun a => (f a).erase := erase_bind m f

theorem erase_pure (a : α) : (Pure.pure a : NM σ α).erase = Pure.pure a := rfl

theorem erase_lift (m : CM σ α) : (lift m).erase = m := rfl

theorem erase_fail (e : Err) : (fail e : NM σ α).erase = CM.fail e := rfl

theorem erase_get : (get : NM σ (Conn σ)).erase = CM.get := rfl

theorem erase_mapErr (f : Err → Err) (m : NM σ α) : (mapErr f m).erase = CM.mapErr f m.erase := by
  funext c
  simp only [erase, mapErr, CM.mapErr]
  rcases m c with ⟨_ | _ | _ | _, c', l⟩ <;> rfl

theorem erase_thenFail (m : NM σ α) (e : Err) : (thenFail m e : NM σ β).erase = CM.thenFail m.erase e := by
  funext c
  simp only [erase, thenFail, CM.thenFail]
  rcases m c with ⟨_ | _ | _ | _, c', l⟩ <;> rfl

theorem erase_ite {p : Prop} [Decidable p] (a b : NM σ α) : (if p then a else b).erase = if p then a.erase else b.erase := by
  split <;> rfl

end NM

section
variable {σ : Type} (env : Env) (W : World σ) (N : NetEnv)
open NM

theorem nerase_send (v : Val) : (netSend env W N v).erase = sendMessage env W v := rfl

theorem nerase_receive : (netReceive env N : NM σ Val).erase = receive env := rfl

theorem nerase_consumeWith (reset : NM σ Unit) : (netConsumeWith env N reset).erase = consumeWith env reset.erase := by
  simp only [netConsumeWith, consumeWith, erase_bind, nerase_receive]
  congr 1; funext v
  cases asFailure v with
  | none => rfl
  | some md => simp only [erase_bind', erase_mapErr, erase_fail]

theorem nerase_resetLoop (close : NM σ Unit) (n : Nat) : (netResetLoop env N close n).erase = resetLoop env close.erase n := by
  induction n with
  | zero => rfl
  | succ n ih =>
    simp only [netResetLoop, resetLoop, erase_bind, erase_mapErr, nerase_receive]
    congr 1; funext v
    simp only [erase_ite, ih]
    congr 1
    cases asSuccess v with
    | some _ => rfl
    | none => cases asFailure v <;> simp only [erase_thenFail]

theorem nerase_resetWith (close : NM σ Unit) : (netResetWith env W N close).erase = resetWith env W close.erase := by
  let k : NM σ Unit := fun c => netResetLoop env N close (streamLen c.segs + 1) c
  have hk : k.erase = fun c => resetLoop env close.erase (streamLen c.segs + 1) c := by
    funext c
    rw [← nerase_resetLoop env N close]; rfl
  have h : netResetWith env W N close =
      (NM.mapErr (fun e => e.wrap "An error occurred encoding reset message") (netSend env W N newResetMessage) >>= fun _ => k) := rfl
  rw [h, erase_bind, erase_mapErr, nerase_send, hk]
  rfl

theorem nerase_txExchange (consume : NM σ Val) (msg : Val) (what : String) :
    (netTxExchange env W N consume msg what).erase = txExchange env W consume.erase msg what := by
  simp only [netTxExchange, txExchange, erase_bind, nerase_send, erase_ite, erase_get]
  congr 1; funext _; congr 1
  · congr 1; funext run
    cases asSuccess run <;> rfl
  · congr 1; funext c; congr 1; funext _; congr 1; funext run; congr 1; funext pull
    cases asSuccess run with
    | none => rfl
    | some _ => cases asSuccess pull <;> rfl

theorem nerase_rollbackWith (consume : NM σ Val) (h : Nat) : (netRollbackWith env W N consume h).erase = rollbackWith env W consume.erase h := by
  simp only [netRollbackWith, rollbackWith, erase_bind, erase_get, erase_ite, nerase_txExchange, erase_lift, erase_fail]

theorem nerase_commitWith (consume : NM σ Val) (h : Nat) : (netCommitWith env W N consume h).erase = commitWith env W consume.erase h := by
  simp only [netCommitWith, commitWith, erase_bind, erase_get, erase_ite, nerase_txExchange, erase_lift, erase_fail]

theorem nerase_closeSock : (netCloseSock W : NM σ Unit).erase = closeSock W := rfl

theorem nerase_closeWith (rollback : Nat → NM σ Unit) : (netCloseWith env W N rollback).erase = closeWith env W (fun h => (rollback h).erase) := by
  simp only [netCloseWith, closeWith, erase_bind, erase_get, erase_ite, erase_fail]
  congr 1; funext c; congr 1; congr 1; funext c'
  cases c'.cur with
  | none =>
    simp only [erase_bind, erase_get]
    congr 1; funext c2
    cases c2.proto.closeMessage <;> simp only [erase_bind, nerase_send, nerase_closeSock]
  | some h =>
    simp only [erase_bind, erase_get]
    congr 1; funext _; congr 1; funext c2
    cases c2.proto.closeMessage <;> simp only [erase_bind, nerase_send, nerase_closeSock]

theorem nerase_reset (fuel : Nat) : (netReset env W N fuel).erase = reset env W fuel := by
  induction fuel with
  | zero => rfl
  | succ n ih =>
    simp only [netReset, reset, nerase_resetWith, nerase_closeWith, nerase_rollbackWith, nerase_consumeWith, ih]

theorem nerase_consume (fuel : Nat) : (netConsume env W N fuel).erase = consume env W fuel := by
  simp only [netConsume, consume, nerase_consumeWith, nerase_reset]

theorem nerase_rollback (fuel h : Nat) : (netRollback env W N fuel h).erase = rollback env W fuel h := by
  simp only [netRollback, rollback, nerase_rollbackWith, nerase_consume]

theorem nerase_commit (fuel h : Nat) : (netCommit env W N fuel h).erase = commit env W fuel h := by
  simp only [netCommit, commit, nerase_commitWith, nerase_consume]

theorem nerase_close (fuel : Nat) : (netClose env W N fuel).erase = close env W fuel := by
  simp only [netClose, close, nerase_closeWith, nerase_rollback]

theorem nerase_makeIdle (fuel : Nat) : (netMakeIdle env W N fuel).erase = makeIdle env W fuel := by
  simp only [netMakeIdle, makeIdle, erase_bind, erase_get]
  congr 1; funext c
  cases c.cur with
  | none => rfl
  | some h => exact nerase_rollback env W N fuel h

theorem nerase_begin (fuel : Nat) (db : Bytes) : (netBegin env W N fuel db).erase = beginWithDatabase env W fuel db := by
  simp only [netBegin, beginWithDatabase, erase_bind, erase_get, erase_ite, nerase_txExchange, erase_lift, erase_fail, nerase_consume, erase_pure]

theorem nerase_rowsLoop (consume : NM σ Val) (n : Nat) (out : List (List Val)) :
    (netRowsLoop consume n out).erase = rowsLoop consume.erase n out := by
  induction n generalizing out with
  | zero => rfl
  | succ n ih =>
    simp only [netRowsLoop, rowsLoop, erase_bind]
    congr 1; funext v
    cases asSuccess v with
    | some md => rfl
    | none =>
      cases asRecord v with
      | some fs => simp only [ih]
      | none => rfl

theorem nerase_runQuery (fuel : Nat) (q : Bytes) (ps : Entries) (db : Bytes) (inTx : Bool) :
    (netRunQuery env W N fuel q ps db inTx).erase = runQuery env W fuel q ps db inTx := by
  simp only [netRunQuery, runQuery, erase_bind, erase_get, erase_ite, erase_fail, nerase_send, nerase_consume]
  congr 1; funext c; congr 1; congr 1; funext c1; congr 1; funext _; congr 1; funext _; congr 1; funext v
  cases asSuccess v with
  | none => rfl
  | some _ =>
    funext c2
    show NM.erase (fun c => netRowsLoop (netConsume env W N fuel) (streamLen c.segs + 1) [] c) c2 = rowsLoop (consume env W fuel) (streamLen c2.segs + 1) [] c2
    rw [← nerase_consume env W N fuel, ← nerase_rowsLoop]; rfl

theorem nerase_queryWithDb (fuel : Nat) (q : Bytes) (ps : Entries) (db : Bytes) (inTx : Bool) :
    (netQueryWithDb env W N fuel q ps db inTx).erase = (checkDb db >>= fun _ => runQuery env W fuel q ps db inTx) := by
  simp only [netQueryWithDb, erase_bind, erase_lift, nerase_runQuery]

theorem nerase_validateOpen : (netValidateOpen W : NM σ Bool).erase = validateOpen W := rfl

theorem nerase_sendInit (fuel : Nat) (m : Val) : (netSendInit env W N fuel m).erase = sendInit env W fuel m := by
  simp only [netSendInit, sendInit, erase_bind, nerase_send, nerase_consume]
  congr 1; funext _; congr 1; funext v
  cases asSuccess v with
  | some _ => rfl
  | none => exact nerase_close env W N fuel

theorem nerase_init (fuel : Nat) (user password : Bytes) : (netInit env W N fuel user password).erase = initConn env W fuel user password := by
  have h1 : (netDial W N : NM σ Unit).erase = createConnection W := rfl
  have h2 : (netHandshake W N : NM σ Bytes).erase = handshake W := rfl
  simp only [netInit, initConn, erase_bind, erase_mapErr, h1, h2]
  congr 1; funext _; congr 1; funext v
  rcases getProtocol v with ⟨_ | p, n, _ | e⟩
  · rfl
  · rfl
  · simp only [erase_bind, erase_lift, nerase_sendInit]
  · simp only [erase_bind, erase_lift, nerase_sendInit]

end
end Verif

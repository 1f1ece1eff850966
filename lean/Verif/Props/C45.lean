/-
C45  API calls terminate on every finite server stream.
-/
import Verif.Proofs.Terminates
import Verif.Proofs.FuelMono
import Verif.Proofs.Failure
import Verif.Spec.Scripted
namespace Verif
open Spec

section
variable {σ : Type} (env : Env) (W : World σ)

/-- Whatever is written to it, the server sends at most `n` bytes in all. -/
def SendsAtMost (w : σ) (n : Nat) : Prop := ∀ wss, (feed W w wss).2.length ≤ n

theorem handshake_noFuel (n : Nat) : NoFuel W n (handshake (σ := σ) W) := by
  intro c _
  unfold handshake
  dsimp only
  split
  · simp
  · split
    · simp
    · split
      · simp
      · split <;> simp

theorem handshake_spends : Steps (Spends W) (handshake (σ := σ) W) := by
  intro c
  have key : ∀ (c' : Conn σ), c'.world = (W.onSend c.world [handShake]).st →
      c'.segs.flatten.length ≤ (c.segs ++ (W.onSend c.world [handShake]).segs).flatten.length → Spends W c c' := by
    intro c' h1 h2 n h wss
    have := h ([handShake] :: wss)
    rw [h1]
    simp only [feed, List.length_append, List.flatten_append] at this h2 ⊢
    omega
  unfold handshake
  dsimp only
  split
  · exact key _ rfl (Nat.le_refl _)
  · split
    · exact key _ rfl (by simp)
    · rename_i version s hr
      obtain ⟨_, _, h3⟩ := readOnce_some (by omega) hr
      have hl : s.flatten.length ≤ (c.segs ++ (W.onSend c.world [handShake]).segs).flatten.length := by rw [← h3]; simp
      split
      · exact key _ rfl hl
      · split <;> exact key _ rfl hl

theorem sendInit_noFuel {fuel n : Nat} (hf : n < fuel) (m : Val) : NoFuel W n (sendInit env W fuel m) := by
  unfold sendInit
  have S := spends env W
  refine NoFuel.bind W (send_noFuel env W _ n) (S.send _) fun _ => NoFuel.bind W (consume_noFuel env W hf) (S.consume env W fuel) fun v => ?_
  split
  · exact NoFuel.pure W _
  · exact close_noFuel env W hf

theorem dialled_budget {w : σ} {n : Nat} (h : SendsAtMost W (W.dial w).1 n) :
    Budget W { Conn.fresh w with world := (W.dial w).1, sock := true, closed := false } n := by
  intro wss
  have := h wss
  simpa [Conn.fresh] using this

theorem afterDial (fuel : Nat) (user password : Bytes) (w : σ) :
    createBoltConn env W fuel user password w =
      if (W.dial w).2 then
        (CM.mapErr (fun e => e.wrap "handshake failed") (handshake W) >>= fun versionBytes =>
          match getProtocol versionBytes with
          | (some p, version, _) => (CM.modify fun c => { c with proto := p, version := version, versionBytes := versionBytes }) >>= fun _ =>
              sendInit env W fuel (p.initMessage clientID (buildAuthTokenBasic user password))
          | (none, _, some e) => CM.fail e
          | (none, _, none) => CM.fail (.plain "unreachable")) { Conn.fresh w with world := (W.dial w).1, sock := true, closed := false }
      else (.err (.plain "dial"), { Conn.fresh w with world := (W.dial w).1 }) := by
  unfold createBoltConn initConn
  split
  · rename_i hd
    have hcreate : createConnection W (Conn.fresh w) = (.ok (), { Conn.fresh w with world := (W.dial w).1, sock := true, closed := false }) := by
      unfold createConnection
      dsimp only
      rw [show (Conn.fresh w).world = w from rfl, if_pos hd]
    exact CM.bind_ok hcreate
  · rename_i hd
    have hcreate : createConnection W (Conn.fresh w) = (.err (.plain "dial"), { Conn.fresh w with world := (W.dial w).1 }) := by
      unfold createConnection
      dsimp only
      rw [show (Conn.fresh w).world = w from rfl, if_neg hd]
    exact CM.bind_err hcreate

/-- CreateBoltConn ends: `fuel` bounds the depth of the recursion through `reset`, and a bound above the number of bytes the server sends is never
reached.  The connection has no more than `n` bytes to read afterwards. -/
theorem C45_create {fuel n : Nat} {w : σ} (h : SendsAtMost W (W.dial w).1 n) (hf : n < fuel) (user password : Bytes) :
    (createBoltConn env W fuel user password w).1 ≠ .fuel ∧
    ∀ c, createBoltConn env W fuel user password w = (.ok (), c) → Budget W c n := by
  rw [afterDial]
  have S := spends env W
  split
  · have hb := dialled_budget W h
    refine ⟨?_, ?_⟩
    · refine NoFuel.bind W (n := n) (NoFuel.mapErr W (handshake_noFuel W n)) (Steps.mapErr (handshake_spends W)) (fun vb => ?_) _ hb
      split
      · exact NoFuel.bind W (fun c _ h => by cases h) (fun c n h => h) fun _ => sendInit_noFuel env W hf _
      · exact NoFuel.fail W _
      · exact NoFuel.fail W _
    · intro c hc
      have hst : Steps (Spends W) (CM.mapErr (fun e => e.wrap "handshake failed") (handshake W) >>= fun versionBytes =>
          match getProtocol versionBytes with
          | (some p, version, _) => (CM.modify fun c => { c with proto := p, version := version, versionBytes := versionBytes }) >>= fun _ =>
              sendInit env W fuel (p.initMessage clientID (buildAuthTokenBasic user password))
          | (none, _, some e) => CM.fail e
          | (none, _, none) => CM.fail (.plain "unreachable")) := by
        refine Steps.bind S.toStepRel (Steps.mapErr (handshake_spends W)) fun vb => ?_
        split
        · exact Steps.bind S.toStepRel (fun c n h => h) fun _ => S.sendInit env W fuel _
        · exact Steps.fail S.toStepRel _
        · exact Steps.fail S.toStepRel _
      have := hst _ n hb
      rw [hc] at this
      exact this
  · exact ⟨by simp, fun c hc => by cases hc⟩

theorem run_spends (fuel : Nat) (ops : List Op) (c : Conn σ) : Spends W c (run env W fuel ops c) := by
  induction ops generalizing c with
  | nil => exact fun n h => h
  | cons op ops ih =>
    intro n h
    exact ih _ n ((spends env W).step env W fuel op c n h)

/-- C45.  Let the server send at most `n` bytes in all, in whatever segments and with whatever end of the stream.  Then creating a connection ends, and
after any history of calls every further call ends. -/
theorem C45_calls {fuel n : Nat} {w : σ} (h : SendsAtMost W (W.dial w).1 n) (hf : n < fuel) {user password : Bytes} {c : Conn σ}
    (hc : createBoltConn env W fuel user password w = (.ok (), c)) (ops : List Op) (op : Op) :
    (step env W fuel op (run env W fuel ops c)).1 ≠ .fuel :=
  step_noFuel env W hf op _ (run_spends env W fuel ops c n ((C45_create env W h hf user password).2 c hc))

theorem step_more {n : Nat} (op : Op) {c : Conn σ} (h : Budget W c n) : (k : Nat) → step env W (n + 1 + k) op c = step env W (n + 1) op c
  | 0 => rfl
  | k + 1 => by
    rw [← step_more op h k]
    exact step_extends env W (n + 1 + k) op c (step_noFuel env W (by omega) op c h)

theorem run_more {n : Nat} (k : Nat) (ops : List Op) : {c : Conn σ} → (h : Budget W c n) → run env W (n + 1 + k) ops c = run env W (n + 1) ops c := by
  induction ops with
  | nil => intro c h; simp only [run, List.foldl]
  | cons op ops ih =>
    intro c h
    show run env W (n + 1 + k) ops (step env W (n + 1 + k) op c).2 = run env W (n + 1) ops (step env W (n + 1) op c).2
    rw [step_more env W op h k]
    exact ih ((spends env W).step env W (n + 1) op c n h)

/-- The results do not depend on the bound: it is only a device to define the recursion. -/
theorem C45_bound_irrelevant {n : Nat} {w : σ} (h : SendsAtMost W (W.dial w).1 n) {user password : Bytes} {c : Conn σ}
    (hc : createBoltConn env W (n + 1) user password w = (.ok (), c)) (ops : List Op) (k : Nat) :
    createBoltConn env W (n + 1 + k) user password w = (.ok (), c) ∧ run env W (n + 1 + k) ops c = run env W (n + 1) ops c := by
  refine ⟨?_, run_more env W k ops ((C45_create env W h (by omega) user password).2 c hc)⟩
  induction k with
  | zero => exact hc
  | succ k ih =>
    have h1 := initConn_extends env W (n + 1 + k) user password (Conn.fresh w)
    have h2 : initConn env W (n + 1 + k) user password (Conn.fresh w) = (.ok (), c) := ih
    rw [h2] at h1
    exact h1 (by simp)

end

theorem feed_scripted (s : List (List Bytes)) : (wss : List (List Bytes)) → (feed scripted s wss).2.length ≤ (s.map fun r => r.flatten.length).sum
  | [] => Nat.zero_le _
  | ws :: wss => by
    cases s with
    | nil => have := feed_scripted [] wss; simpa [feed, scripted] using this
    | cons r rs =>
      have := feed_scripted rs wss
      simp only [feed, List.length_append, List.map_cons, List.sum_cons]
      show r.flatten.length + (feed scripted rs wss).2.length ≤ _
      omega

/-- Every scripted server satisfies the hypothesis. -/
example (s : List (List Bytes)) : SendsAtMost scripted (scripted.dial s).1 (s.map fun r => r.flatten.length).sum := feed_scripted s

/-- A server that answers every RESET with FAILURE, ten times over: the calls end. -/
example : (step env0 scripted 100 .close (run env0 scripted 100 [.begin_ [], .query [0x71] [] []]
    (createBoltConn env0 scripted 100 [0x75] [0x70] (sOpen4 ++ [sSuccess] ++ List.replicate 10 sFailure)).2)).1.kind = 1 := by decide +kernel

/-- A server that answers everything with FAILURE, for ever. -/
def alwaysFailing : World Unit where
  dial _ := ((), true)
  onSend _ _ := ⟨(), true, sFailure, .broken⟩
  onClose _ := true
  probe _ := .other

section
variable (env : Env)

theorem reads_sFailure (ver : Ver) (k : Nat) : Reads env ver (List.replicate k (failureV [])) (List.replicate k sFailure).flatten.flatten [] := by
  induction k with
  | zero => rfl
  | succ k ih =>
    refine ⟨[0xB1, 0x7F, 0xA0], sFailure.flatten, (List.replicate k sFailure).flatten.flatten, [], by simp [List.replicate_succ], ?_, ?_, ih⟩
    · exact ⟨[[0xB1, 0x7F, 0xA0]], by intro c hc; simp at hc; subst hc; decide, rfl, rfl⟩
    · cases ver <;> rfl

theorem reads_append (ver : Ver) : {vs ws : List Val} → {s t r : Bytes} → Reads env ver vs s [] → Reads env ver ws t r → Reads env ver (vs ++ ws) (s ++ t) r
  | [], _, s, t, r, h, h' => by have : s = [] := h; subst this; exact h'
  | v :: vs, ws, s, t, r, ⟨p, f, s', q, h1, h2, h3, h4⟩, h' => ⟨p, f, s' ++ t, q, by rw [h1, List.append_assoc], h2, h3, reads_append ver h4 h'⟩

/-- The connection is open with transaction `h`, and all unread messages, `k` of them, are FAILURE. -/
structure Doomed (h k : Nat) (c : Conn Unit) : Prop where
  closed : c.closed = false
  sock : c.sock = true
  cur : c.cur = some h
  open_ : c.txClosed h = false
  ver : c.proto = .v3 ∨ c.proto = .v4
  reads : Reads env c.proto.codec (List.replicate k (failureV [])) c.segs.flatten []

theorem Doomed.sent {h k : Nat} {c : Conn Unit} (d : Doomed env h k c) (v : Val) : Doomed env h (k + 1) (c.sent env alwaysFailing v) :=
  ⟨d.closed, d.sock, d.cur, d.open_, d.ver, by
    have h1 := reads_append env c.proto.codec d.reads (reads_sFailure env c.proto.codec 1)
    rw [List.replicate_succ']
    have h2 : (c.sent env alwaysFailing v).segs.flatten = c.segs.flatten ++ (List.replicate 1 sFailure).flatten.flatten := by
      simp [Conn.sent, alwaysFailing]
    show Reads env c.proto.codec _ (c.sent env alwaysFailing v).segs.flatten []
    rw [h2]; exact h1⟩

theorem Doomed.receive {h k : Nat} {c : Conn Unit} (d : Doomed env h (k + 1) c) : ∃ c', Verif.receive env c = (.ok (failureV []), c') ∧ Doomed env h k c' := by
  obtain ⟨segs', h1, h2⟩ := receive_reads env d.sock d.reads
  exact ⟨_, h1, d.closed, d.sock, d.cur, d.open_, d.ver, h2⟩

theorem rollback_sendable {c : Conn Unit} (h : c.proto = .v3 ∨ c.proto = .v4) :
    isTxMsg c.proto.txRollbackMessage = true ∧ (encodeMsg env c.proto.codec c.chunkSize c.proto.txRollbackMessage).2 = none := by
  rcases h with h | h <;> rw [h] <;> exact ⟨rfl, by rw [encodeMsg_ok (by rfl)]⟩

/-- The hypothesis is needed: with a server that answers everything with FAILURE, on a connection of version 3 or 4 with an open transaction, `reset`
recurses for ever. -/
theorem C45_diverges (h : Nat) : (fuel k : Nat) → (c : Conn Unit) → Doomed env h k c → (reset env alwaysFailing fuel c).1 = .fuel
  | 0, _, _, _ => rfl
  | fuel + 1, k, c, d => by
    have s1 := sendMessage_good env alwaysFailing (v := newResetMessage) d.sock (reset_enc env _ _) rfl
    obtain ⟨c2, h2, d2⟩ := (d.sent env newResetMessage).receive env
    obtain ⟨e1, e2⟩ := rollback_sendable env d2.ver
    have s3 := sendMessage_good env alwaysFailing d2.sock e2 rfl
    obtain ⟨c4, h4, d4⟩ := (d2.sent env c2.proto.txRollbackMessage).receive env
    have ih := C45_diverges h fuel k c4 d4
    have hcons : (consumeWith env (reset env alwaysFailing fuel) (c2.sent env alwaysFailing c2.proto.txRollbackMessage)).1 = .fuel := by
      rw [show consumeWith env (reset env alwaysFailing fuel) (c2.sent env alwaysFailing c2.proto.txRollbackMessage) =
        failTail (reset env alwaysFailing fuel) [] c4 from CM.bind_ok h4, failTail_apply]
      match hr : reset env alwaysFailing fuel c4 with
      | (.ok _, _) => rw [hr] at ih; cases ih
      | (.err _, _) => rw [hr] at ih; cases ih
      | (.panic, _) => rw [hr] at ih; cases ih
      | (.fuel, _) => rfl
    have bindFuel : ∀ {α β : Type} {m : CM Unit α} {c : Conn Unit} (f : α → CM Unit β), (m c).1 = .fuel → ((m >>= f) c).1 = .fuel := by
      intro α β m c f hm
      rw [CM.bind_apply]
      match hr : m c with
      | (.ok _, _) => rw [hr] at hm; cases hm
      | (.err _, _) => rw [hr] at hm; cases hm
      | (.panic, _) => rw [hr] at hm; cases hm
      | (.fuel, _) => rfl
    have htx : (txExchange env alwaysFailing (consumeWith env (reset env alwaysFailing fuel)) c2.proto.txRollbackMessage
        "Unrecognized response type rolling back transaction" c2).1 = .fuel := by
      unfold txExchange
      rw [CM.bind_ok s3, if_pos e1]
      exact bindFuel _ hcons
    have hclose : (closeWith env alwaysFailing (rollbackWith env alwaysFailing (consumeWith env (reset env alwaysFailing fuel))) c2).1 = .fuel := by
      rw [closeWith_apply, d2.closed]
      simp only [Bool.false_eq_true, if_false]
      refine bindFuel _ ?_
      rw [endCur_apply, d2.cur]
      show (endWith env alwaysFailing (consumeWith env (reset env alwaysFailing fuel)) Proto.txRollbackMessage "Unrecognized response type rolling back transaction" h c2).1 = _
      rw [endWith_apply, d2.open_]
      exact bindFuel _ htx
    unfold reset resetWith
    have hl : (resetLoop env (closeWith env alwaysFailing (rollbackWith env alwaysFailing (consumeWith env (reset env alwaysFailing fuel))))
        (streamLen (c.sent env alwaysFailing newResetMessage).segs + 1) (c.sent env alwaysFailing newResetMessage)).1 = .fuel := by
      unfold resetLoop
      rw [CM.bind_ok (CM.mapErr_eq_ok.mpr h2)]
      show (CM.thenFail (closeWith env alwaysFailing (rollbackWith env alwaysFailing (consumeWith env (reset env alwaysFailing fuel)))) _ c2).1 = .fuel
      unfold CM.thenFail
      match hr : closeWith env alwaysFailing (rollbackWith env alwaysFailing (consumeWith env (reset env alwaysFailing fuel))) c2 with
      | (.ok _, _) => rw [hr] at hclose; cases hclose
      | (.err _, _) => rw [hr] at hclose; cases hclose
      | (.panic, _) => rw [hr] at hclose; cases hclose
      | (.fuel, _) => rfl
    exact (congrArg Prod.fst (CM.bind_ok (CM.mapErr_eq_ok.mpr s1))).trans hl

/-- Such a connection. -/
example : Doomed env0 0 0 { Conn.fresh () with proto := .v4, sock := true, txs := [false], cur := some 0 } :=
  ⟨rfl, rfl, rfl, rfl, .inr rfl, rfl⟩

end
end Verif

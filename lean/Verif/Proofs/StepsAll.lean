/-
A relation between states that every primitive action respects is respected by every call.
-/
import Verif.Proofs.ConnInv
namespace Verif

section
variable {σ : Type} (env : Env) (W : World σ)

/-- The primitive actions respect `R`, apart from recording a new transaction. -/
structure Prim₀ (R : Conn σ → Conn σ → Prop) : Prop extends StepRel R where
  send : ∀ v, Steps R (sendMessage env W v)
  recv : Steps R (receive env)
  endTx : ∀ h c, R c (c.endTx h)
  sock : Steps R (closeSock W)
  probe : Steps R (validateOpen W)
  chunk : ∀ n, Steps R (setChunkSize (σ := σ) n)

/-- The primitive actions respect `R`. -/
structure Prim (R : Conn σ → Conn σ → Prop) : Prop extends Prim₀ env W R where
  addTx : Steps R (addTx (σ := σ))

namespace Prim₀
variable {R : Conn σ → Conn σ → Prop} (P : Prim₀ env W R)
include P

theorem consumeWith {reset : CM σ Unit} (hr : Steps R reset) : Steps R (consumeWith env reset) := by
  unfold Verif.consumeWith
  refine Steps.bind P.toStepRel P.recv fun v => ?_
  split
  · exact Steps.bind P.toStepRel hr.mapErr fun _ => Steps.fail P.toStepRel _
  · exact Steps.pure P.toStepRel _

theorem resetLoop {close : CM σ Unit} (hc : Steps R close) : (n : Nat) → Steps R (resetLoop env close n)
  | 0 => fun c => P.refl c
  | n + 1 => by
    unfold Verif.resetLoop
    refine Steps.bind P.toStepRel (Steps.mapErr P.recv) fun v => ?_
    split
    · exact resetLoop hc n
    · split
      · exact Steps.pure P.toStepRel _
      · split
        · exact Steps.thenFail hc _
        · exact Steps.thenFail hc _

theorem resetWith {close : CM σ Unit} (hc : Steps R close) : Steps R (resetWith env W close) := by
  unfold Verif.resetWith
  refine Steps.bind P.toStepRel (Steps.mapErr (P.send _)) fun _ => ?_
  intro c
  exact P.resetLoop env W hc _ c

theorem txExchange {consume : CM σ Val} (hc : Steps R consume) (msg : Val) (what : String) : Steps R (txExchange env W consume msg what) := by
  unfold Verif.txExchange
  refine Steps.bind P.toStepRel (P.send _) fun _ => ?_
  split
  · refine Steps.bind P.toStepRel hc fun v => ?_
    split
    · exact Steps.fail P.toStepRel _
    · exact Steps.pure P.toStepRel _
  · refine Steps.bind P.toStepRel (Steps.get P.toStepRel) fun c => ?_
    refine Steps.bind P.toStepRel (P.send _) fun _ => ?_
    refine Steps.bind P.toStepRel hc fun v => ?_
    refine Steps.bind P.toStepRel hc fun v' => ?_
    split
    · exact Steps.fail P.toStepRel _
    · split
      · exact Steps.fail P.toStepRel _
      · exact Steps.pure P.toStepRel _

theorem endWith {consume : CM σ Val} (hc : Steps R consume) (m : Proto → Val) (what : String) (h : Nat) :
    Steps R (endWith env W consume m what h) := by
  unfold Verif.endWith
  refine Steps.bind P.toStepRel (Steps.get P.toStepRel) fun c => ?_
  split
  · exact Steps.fail P.toStepRel _
  · refine Steps.bind P.toStepRel (Steps.get P.toStepRel) fun c => ?_
    exact Steps.bind P.toStepRel (P.txExchange env W hc _ _) fun _ => fun c => P.endTx h c

theorem closeWith {rollback : Nat → CM σ Unit} (hr : ∀ h, Steps R (rollback h)) : Steps R (closeWith env W rollback) := by
  unfold Verif.closeWith
  refine Steps.bind P.toStepRel (Steps.get P.toStepRel) fun c => ?_
  have hgo : ∀ c : Conn σ, Steps R (match c.proto.closeMessage with
      | some m => do
        sendMessage env W m
        closeSock W
      | none => closeSock W) := by
    intro c
    split
    · exact Steps.bind P.toStepRel (P.send _) fun _ => P.sock
    · exact P.sock
  split
  · exact Steps.fail P.toStepRel _
  · refine Steps.bind P.toStepRel (Steps.get P.toStepRel) fun c => ?_
    split
    · refine Steps.bind P.toStepRel (hr _) fun _ => ?_
      exact Steps.bind P.toStepRel (Steps.get P.toStepRel) hgo
    · exact Steps.bind P.toStepRel (Steps.get P.toStepRel) hgo

theorem reset : (fuel : Nat) → Steps R (reset env W fuel)
  | 0 => fun c => P.refl c
  | fuel + 1 => P.resetWith env W (P.closeWith env W fun h => P.endWith env W (P.consumeWith env W (reset fuel)) _ _ h)

theorem consume (fuel : Nat) : Steps R (consume env W fuel) := P.consumeWith env W (P.reset env W fuel)
theorem rollback (fuel h : Nat) : Steps R (rollback env W fuel h) := P.endWith env W (P.consume env W fuel) _ _ h
theorem commit (fuel h : Nat) : Steps R (commit env W fuel h) := P.endWith env W (P.consume env W fuel) _ _ h
theorem close (fuel : Nat) : Steps R (close env W fuel) := P.closeWith env W fun h => P.rollback env W fuel h

theorem makeIdle (fuel : Nat) : Steps R (makeIdle env W fuel) := by
  unfold Verif.makeIdle
  refine Steps.bind P.toStepRel (Steps.get P.toStepRel) fun c => ?_
  split
  · exact P.rollback env W fuel _
  · exact Steps.pure P.toStepRel _

theorem rowsLoop {consume : CM σ Val} (hc : Steps R consume) : (n : Nat) → (out : List (List Val)) → Steps R (rowsLoop consume n out)
  | 0, _ => fun c => P.refl c
  | n + 1, out => by
    unfold Verif.rowsLoop
    refine Steps.bind P.toStepRel hc fun v => ?_
    split
    · exact Steps.pure P.toStepRel _
    · split
      · exact rowsLoop hc n _
      · exact Steps.fail P.toStepRel _

theorem runQuery (fuel : Nat) (q : Bytes) (ps : Entries) (db : Bytes) (inTx : Bool) : Steps R (runQuery env W fuel q ps db inTx) := by
  unfold Verif.runQuery
  refine Steps.bind P.toStepRel (Steps.get P.toStepRel) fun c => ?_
  split
  · exact Steps.fail P.toStepRel _
  · refine Steps.bind P.toStepRel (Steps.get P.toStepRel) fun c => ?_
    refine Steps.bind P.toStepRel (P.send _) fun _ => ?_
    refine Steps.bind P.toStepRel (P.send _) fun _ => ?_
    refine Steps.bind P.toStepRel (P.consume env W fuel) fun v => ?_
    split
    · exact Steps.fail P.toStepRel _
    · intro c; exact P.rowsLoop env W (P.consume env W fuel) _ _ c

theorem checkDb (db : Bytes) : Steps R (checkDb (σ := σ) db) := by
  intro c; rw [checkDb_snd]; exact P.refl c

theorem void {α : Type} {m : CM σ α} (h : Steps R m) : Steps R m.void := Steps.bind P.toStepRel h fun _ => Steps.pure P.toStepRel _

theorem sendInit (fuel : Nat) (m : Val) : Steps R (sendInit env W fuel m) := by
  unfold Verif.sendInit
  refine Steps.bind P.toStepRel (P.send _) fun _ => ?_
  refine Steps.bind P.toStepRel (P.consume env W fuel) fun v => ?_
  split
  · exact Steps.pure P.toStepRel _
  · exact P.close env W fuel

end Prim₀

namespace Prim
variable {R : Conn σ → Conn σ → Prop} (P : Prim env W R)
include P

theorem begin (fuel : Nat) (db : Bytes) : Steps R (beginWithDatabase env W fuel db) := by
  intro c
  rw [begin_apply]
  split
  · exact P.refl c
  · split
    · exact P.refl c
    · exact Steps.bind P.toStepRel (P.txExchange env W (P.consume env W fuel) _ _) (fun _ => P.addTx) c

theorem step (fuel : Nat) (op : Op) : Steps R (step env W fuel op) := by
  have T := P.toStepRel
  cases op with
  | query q ps db => exact P.void env W (Steps.bind T (P.checkDb env W db) fun _ => P.runQuery env W fuel q ps db false)
  | exec q ps db => exact P.void env W (Steps.bind T (P.checkDb env W db) fun _ =>
      Steps.bind T (P.runQuery env W fuel q ps db false) fun _ => Steps.pure T _)
  | begin_ db => exact P.void env W (P.begin env W fuel db)
  | commit h => exact P.commit env W fuel h
  | rollback h => exact P.rollback env W fuel h
  | txQuery h q ps db => exact P.void env W (Steps.bind T (P.checkDb env W db) fun _ => P.runQuery env W fuel q ps db true)
  | txExec h q ps => exact P.void env W (Steps.bind T (P.checkDb env W _) fun _ =>
      Steps.bind T (P.runQuery env W fuel q ps _ false) fun _ => Steps.pure T _)
  | txExecDb h q ps db => exact P.void env W (Steps.bind T (P.checkDb env W db) fun _ =>
      Steps.bind T (P.runQuery env W fuel q ps db true) fun _ => Steps.pure T _)
  | close => exact P.close env W fuel
  | makeIdle => exact P.makeIdle env W fuel
  | validateOpen => exact P.void env W P.probe
  | setChunkSize n => exact P.chunk n

theorem run (fuel : Nat) (ops : List Op) : (c : Conn σ) → R c (run env W fuel ops c) := by
  induction ops with
  | nil => intro c; exact P.refl c
  | cons op ops ih => intro c; exact P.trans (P.step env W fuel op c) (ih _)

end Prim

/-- Events are only ever appended to the trace. -/
theorem grows : Prim env W (fun (c c' : Conn σ) => c.trace <+: c'.trace) where
  refl c := List.prefix_rfl
  trans h1 h2 := h1.trans h2
  send v c := by
    unfold sendMessage writeAll
    dsimp only
    split
    · split <;> exact List.prefix_rfl
    · split
      · exact List.prefix_rfl
      · split
        · split <;> exact List.prefix_append _ _
        · exact List.prefix_append _ _
  recv c := by
    unfold receive
    split
    · exact List.prefix_rfl
    · split
      · exact List.prefix_rfl
      · split
        · exact List.prefix_append _ _
        · exact List.prefix_rfl
        · exact List.prefix_rfl
        · exact List.prefix_rfl
  endTx h c := List.prefix_rfl
  sock c := by
    unfold closeSock
    dsimp only
    split <;> exact List.prefix_append _ _
  addTx c := List.prefix_rfl
  probe c := by
    unfold validateOpen
    split
    · exact List.prefix_rfl
    · split
      · exact List.prefix_rfl
      · exact List.prefix_rfl
      · split <;> exact List.prefix_rfl
  chunk n c := List.prefix_rfl

/-- No call changes the protocol or the access mode. -/
theorem sameProto : Prim env W (fun (c c' : Conn σ) => c'.proto = c.proto ∧ c'.mode = c.mode) where
  refl c := ⟨rfl, rfl⟩
  trans h1 h2 := ⟨h2.1.trans h1.1, h2.2.trans h1.2⟩
  send v c := ⟨congrArg Core.proto (sendMessage_core env W v c), congrArg Core.mode (sendMessage_core env W v c)⟩
  recv c := ⟨congrArg Core.proto (receive_core env c), congrArg Core.mode (receive_core env c)⟩
  endTx h c := ⟨rfl, rfl⟩
  sock c := ⟨by have := congrArg Core.proto (closeSock_core W c); exact this, by have := congrArg Core.mode (closeSock_core W c); exact this⟩
  addTx c := ⟨rfl, rfl⟩
  probe c := by
    unfold validateOpen
    split
    · exact ⟨rfl, rfl⟩
    · split
      · exact ⟨rfl, rfl⟩
      · exact ⟨rfl, rfl⟩
      · split <;> exact ⟨rfl, rfl⟩
  chunk n c := ⟨rfl, rfl⟩

end
end Verif

/-
Like `Proofs/StepsAll.lean`, for relations that also say whether the call panicked.
-/
import Verif.Proofs.StepsAll
namespace Verif

/-- Did the call panic? -/
def CRes.panicked {α : Type} : CRes α → Bool
  | .panic => true
  | _ => false

/-- A relation between the connection before a call, whether it panicked, and the connection afterwards, that every call respects if its parts do. -/
structure EndRel {σ : Type} (Q : Conn σ → Bool → Conn σ → Prop) : Prop where
  refl : ∀ c, Q c false c
  trans : ∀ {a b c x}, Q a false b → Q b x c → Q a x c

/-- Every outcome of `m` respects `Q`. -/
def EndsAs {σ α : Type} (Q : Conn σ → Bool → Conn σ → Prop) (m : CM σ α) : Prop := ∀ c, Q c (m c).1.panicked (m c).2

namespace EndsAs
variable {σ α β : Type} {Q : Conn σ → Bool → Conn σ → Prop}

theorem pure (hQ : EndRel Q) (a : α) : EndsAs Q (Pure.pure a : CM σ α) := fun c => hQ.refl c
theorem fail (hQ : EndRel Q) (e : Err) : EndsAs Q (CM.fail e : CM σ α) := fun c => hQ.refl c
theorem get (hQ : EndRel Q) : EndsAs Q (CM.get : CM σ (Conn σ)) := fun c => hQ.refl c

theorem bind (hQ : EndRel Q) {m : CM σ α} {f : α → CM σ β} (hm : EndsAs Q m) (hf : ∀ a, EndsAs Q (f a)) : EndsAs Q (m >>= f) := by
  intro c
  rw [CM.bind_apply]
  have := hm c
  match h : m c with
  | (.ok a, c1) => rw [h] at this; exact hQ.trans this (hf a c1)
  | (.err e, c1) => rw [h] at this; exact this
  | (.panic, c1) => rw [h] at this; exact this
  | (.fuel, c1) => rw [h] at this; exact this

theorem mapErr {f : Err → Err} {m : CM σ α} (hm : EndsAs Q m) : EndsAs Q (CM.mapErr f m) := by
  intro c
  have := hm c
  unfold CM.mapErr
  match h : m c with
  | (.ok a, c1) => rw [h] at this; exact this
  | (.err e, c1) => rw [h] at this; exact this
  | (.panic, c1) => rw [h] at this; exact this
  | (.fuel, c1) => rw [h] at this; exact this

theorem thenFail {m : CM σ α} (hm : EndsAs Q m) (e : Err) : EndsAs Q (CM.thenFail m e : CM σ β) := by
  intro c
  have := hm c
  unfold CM.thenFail
  match h : m c with
  | (.ok a, c1) => rw [h] at this; exact this
  | (.err e, c1) => rw [h] at this; exact this
  | (.panic, c1) => rw [h] at this; exact this
  | (.fuel, c1) => rw [h] at this; exact this

end EndsAs

section
variable {σ : Type} (env : Env) (W : World σ)

/-- The primitive actions respect `Q`, apart from recording a new transaction. -/
structure EPrim₀ (Q : Conn σ → Bool → Conn σ → Prop) : Prop extends EndRel Q where
  send : ∀ v, EndsAs Q (sendMessage env W v)
  recv : EndsAs Q (receive env)
  endTx : ∀ h c, Q c false (c.endTx h)
  sock : EndsAs Q (closeSock W)
  probe : EndsAs Q (validateOpen W)
  chunk : ∀ n, EndsAs Q (setChunkSize (σ := σ) n)

/-- The primitive actions respect `Q`. -/
structure EPrim (Q : Conn σ → Bool → Conn σ → Prop) : Prop extends EPrim₀ env W Q where
  addTx : EndsAs Q (addTx (σ := σ))

namespace EPrim₀
variable {Q : Conn σ → Bool → Conn σ → Prop} (P : EPrim₀ env W Q)
include P

theorem consumeWith {reset : CM σ Unit} (hr : EndsAs Q reset) : EndsAs Q (consumeWith env reset) := by
  unfold Verif.consumeWith
  refine EndsAs.bind P.toEndRel P.recv fun v => ?_
  split
  · exact EndsAs.bind P.toEndRel hr.mapErr fun _ => EndsAs.fail P.toEndRel _
  · exact EndsAs.pure P.toEndRel _

theorem resetLoop {close : CM σ Unit} (hc : EndsAs Q close) : (n : Nat) → EndsAs Q (resetLoop env close n)
  | 0 => fun c => P.refl c
  | n + 1 => by
    unfold Verif.resetLoop
    refine EndsAs.bind P.toEndRel (EndsAs.mapErr P.recv) fun v => ?_
    split
    · exact resetLoop hc n
    · split
      · exact EndsAs.pure P.toEndRel _
      · split
        · exact EndsAs.thenFail hc _
        · exact EndsAs.thenFail hc _

theorem resetWith {close : CM σ Unit} (hc : EndsAs Q close) : EndsAs Q (resetWith env W close) := by
  unfold Verif.resetWith
  refine EndsAs.bind P.toEndRel (EndsAs.mapErr (P.send _)) fun _ => ?_
  intro c
  exact P.resetLoop env W hc _ c

theorem txExchange {consume : CM σ Val} (hc : EndsAs Q consume) (msg : Val) (what : String) : EndsAs Q (txExchange env W consume msg what) := by
  unfold Verif.txExchange
  refine EndsAs.bind P.toEndRel (P.send _) fun _ => ?_
  split
  · refine EndsAs.bind P.toEndRel hc fun v => ?_
    split
    · exact EndsAs.fail P.toEndRel _
    · exact EndsAs.pure P.toEndRel _
  · refine EndsAs.bind P.toEndRel (EndsAs.get P.toEndRel) fun c => ?_
    refine EndsAs.bind P.toEndRel (P.send _) fun _ => ?_
    refine EndsAs.bind P.toEndRel hc fun v => ?_
    refine EndsAs.bind P.toEndRel hc fun v' => ?_
    split
    · exact EndsAs.fail P.toEndRel _
    · split
      · exact EndsAs.fail P.toEndRel _
      · exact EndsAs.pure P.toEndRel _

theorem endWith {consume : CM σ Val} (hc : EndsAs Q consume) (m : Proto → Val) (what : String) (h : Nat) :
    EndsAs Q (endWith env W consume m what h) := by
  unfold Verif.endWith
  refine EndsAs.bind P.toEndRel (EndsAs.get P.toEndRel) fun c => ?_
  split
  · exact EndsAs.fail P.toEndRel _
  · refine EndsAs.bind P.toEndRel (EndsAs.get P.toEndRel) fun c => ?_
    exact EndsAs.bind P.toEndRel (P.txExchange env W hc _ _) fun _ => fun c => P.endTx h c

theorem closeWith {rollback : Nat → CM σ Unit} (hr : ∀ h, EndsAs Q (rollback h)) : EndsAs Q (closeWith env W rollback) := by
  unfold Verif.closeWith
  refine EndsAs.bind P.toEndRel (EndsAs.get P.toEndRel) fun c => ?_
  have hgo : ∀ c : Conn σ, EndsAs Q (match c.proto.closeMessage with
      | some m => do
        sendMessage env W m
        closeSock W
      | none => closeSock W) := by
    intro c
    split
    · exact EndsAs.bind P.toEndRel (P.send _) fun _ => P.sock
    · exact P.sock
  split
  · exact EndsAs.fail P.toEndRel _
  · refine EndsAs.bind P.toEndRel (EndsAs.get P.toEndRel) fun c => ?_
    split
    · refine EndsAs.bind P.toEndRel (hr _) fun _ => ?_
      exact EndsAs.bind P.toEndRel (EndsAs.get P.toEndRel) hgo
    · exact EndsAs.bind P.toEndRel (EndsAs.get P.toEndRel) hgo

theorem reset : (fuel : Nat) → EndsAs Q (reset env W fuel)
  | 0 => fun c => P.refl c
  | fuel + 1 => P.resetWith env W (P.closeWith env W fun h => P.endWith env W (P.consumeWith env W (reset fuel)) _ _ h)

theorem consume (fuel : Nat) : EndsAs Q (consume env W fuel) := P.consumeWith env W (P.reset env W fuel)
theorem rollback (fuel h : Nat) : EndsAs Q (rollback env W fuel h) := P.endWith env W (P.consume env W fuel) _ _ h
theorem commit (fuel h : Nat) : EndsAs Q (commit env W fuel h) := P.endWith env W (P.consume env W fuel) _ _ h
theorem close (fuel : Nat) : EndsAs Q (close env W fuel) := P.closeWith env W fun h => P.rollback env W fuel h

theorem makeIdle (fuel : Nat) : EndsAs Q (makeIdle env W fuel) := by
  unfold Verif.makeIdle
  refine EndsAs.bind P.toEndRel (EndsAs.get P.toEndRel) fun c => ?_
  split
  · exact P.rollback env W fuel _
  · exact EndsAs.pure P.toEndRel _

theorem rowsLoop {consume : CM σ Val} (hc : EndsAs Q consume) : (n : Nat) → (out : List (List Val)) → EndsAs Q (rowsLoop consume n out)
  | 0, _ => fun c => P.refl c
  | n + 1, out => by
    unfold Verif.rowsLoop
    refine EndsAs.bind P.toEndRel hc fun v => ?_
    split
    · exact EndsAs.pure P.toEndRel _
    · split
      · exact rowsLoop hc n _
      · exact EndsAs.fail P.toEndRel _

theorem runQuery (fuel : Nat) (q : Bytes) (ps : Entries) (db : Bytes) (inTx : Bool) : EndsAs Q (runQuery env W fuel q ps db inTx) := by
  unfold Verif.runQuery
  refine EndsAs.bind P.toEndRel (EndsAs.get P.toEndRel) fun c => ?_
  split
  · exact EndsAs.fail P.toEndRel _
  · refine EndsAs.bind P.toEndRel (EndsAs.get P.toEndRel) fun c => ?_
    refine EndsAs.bind P.toEndRel (P.send _) fun _ => ?_
    refine EndsAs.bind P.toEndRel (P.send _) fun _ => ?_
    refine EndsAs.bind P.toEndRel (P.consume env W fuel) fun v => ?_
    split
    · exact EndsAs.fail P.toEndRel _
    · intro c; exact P.rowsLoop env W (P.consume env W fuel) _ _ c

theorem checkDb (db : Bytes) : EndsAs Q (checkDb (σ := σ) db) := by
  intro c
  unfold Verif.checkDb
  rw [CM.get_bind]
  split <;> exact P.refl c

theorem void {α : Type} {m : CM σ α} (h : EndsAs Q m) : EndsAs Q m.void := EndsAs.bind P.toEndRel h fun _ => EndsAs.pure P.toEndRel _

theorem sendInit (fuel : Nat) (m : Val) : EndsAs Q (sendInit env W fuel m) := by
  unfold Verif.sendInit
  refine EndsAs.bind P.toEndRel (P.send _) fun _ => ?_
  refine EndsAs.bind P.toEndRel (P.consume env W fuel) fun v => ?_
  split
  · exact EndsAs.pure P.toEndRel _
  · exact P.close env W fuel

end EPrim₀

namespace EPrim
variable {Q : Conn σ → Bool → Conn σ → Prop} (P : EPrim env W Q)
include P

theorem begin (fuel : Nat) (db : Bytes) : EndsAs Q (beginWithDatabase env W fuel db) := by
  intro c
  rw [begin_apply]
  split
  · exact P.refl c
  · split
    · exact P.refl c
    · exact EndsAs.bind P.toEndRel (P.txExchange env W (P.consume env W fuel) _ _) (fun _ => P.addTx) c

theorem step (fuel : Nat) (op : Op) : EndsAs Q (step env W fuel op) := by
  have T := P.toEndRel
  cases op with
  | query q ps db => exact P.void env W (EndsAs.bind T (P.checkDb env W db) fun _ => P.runQuery env W fuel q ps db false)
  | exec q ps db => exact P.void env W (EndsAs.bind T (P.checkDb env W db) fun _ =>
      EndsAs.bind T (P.runQuery env W fuel q ps db false) fun _ => EndsAs.pure T _)
  | begin_ db => exact P.void env W (P.begin env W fuel db)
  | commit h => exact P.commit env W fuel h
  | rollback h => exact P.rollback env W fuel h
  | txQuery h q ps db => exact P.void env W (EndsAs.bind T (P.checkDb env W db) fun _ => P.runQuery env W fuel q ps db true)
  | txExec h q ps => exact P.void env W (EndsAs.bind T (P.checkDb env W _) fun _ =>
      EndsAs.bind T (P.runQuery env W fuel q ps _ false) fun _ => EndsAs.pure T _)
  | txExecDb h q ps db => exact P.void env W (EndsAs.bind T (P.checkDb env W db) fun _ =>
      EndsAs.bind T (P.runQuery env W fuel q ps db true) fun _ => EndsAs.pure T _)
  | close => exact P.close env W fuel
  | makeIdle => exact P.makeIdle env W fuel
  | validateOpen => exact P.void env W P.probe
  | setChunkSize n => exact P.chunk n

end EPrim

end
end Verif

/-
C107  At the level trace the log is a transcript of what the server answered; at the level error it shows every FAILURE, and nothing else unless something went wrong.
-/
import Verif.Props.C98
import Verif.Props.C104
namespace Verif

namespace Spec

/-- Each element of the first list has an element of the second, in the same order. -/
inductive InOrder {α β : Type} (R : α → β → Prop) : List α → List β → Prop where
  | nil : InOrder R [] []
  | skip {as : List α} {b : β} {bs : List β} : InOrder R as bs → InOrder R as (b :: bs)
  | take {a : α} {as : List α} {b : β} {bs : List β} : R a b → InOrder R as bs → InOrder R (a :: as) (b :: bs)

/-- The messages that came from the server. -/
def answers : List Ev → List Val
  | [] => []
  | .recv v :: t => v :: answers t
  | _ :: t => answers t

/-- The FAILURE messages that came from the server. -/
def failureMessages : List Ev → List Val
  | [] => []
  | .recv (.struct .failure [.map md]) :: t => .struct .failure [.map md] :: failureMessages t
  | _ :: t => failureMessages t

/-- The line shows the message; a FAILURE is shown as an error. -/
def Shows (L : LogEnv) (v : Val) (line : Logger × Bytes) : Prop := (∃ format, line.2 = L.text format v) ∧ (IsFailure v → line.1 = .error)

/-- The line shows the message as an error. -/
def ShowsError (L : LogEnv) (v : Val) (line : Logger × Bytes) : Prop := line.1 = .error ∧ ∃ format, line.2 = L.text format v

/-- The level is never below: neither at the beginning nor afterwards. -/
def Always (P : LogLevel → Prop) (s : LogState) (ops : List LogOp) : Prop := P s.level ∧ ∀ name, .setLevel name ∈ ops → ∀ l, Means name l → P l

end Spec

namespace C107
open Spec

theorem InOrder.append {α β : Type} {R : α → β → Prop} {as as' : List α} {bs bs' : List β} (h : InOrder R as bs) (h' : InOrder R as' bs') :
    InOrder R (as ++ as') (bs ++ bs') := by
  induction h with
  | nil => exact h'
  | skip _ ih => exact .skip ih
  | take hr _ ih => exact .take hr ih

theorem InOrder.skips {α β : Type} {R : α → β → Prop} {as : List α} (bs' : List β) {bs : List β} (h : InOrder R as bs) : InOrder R as (bs' ++ bs) := by
  induction bs' with
  | nil => exact h
  | cons b bs' ih => exact .skip ih

theorem InOrder.none {α β : Type} {R : α → β → Prop} (bs : List β) : InOrder R [] bs := by
  induction bs with
  | nil => exact .nil
  | cons b bs ih => exact .skip ih

theorem answers_append (t t' : List Ev) : answers (t ++ t') = answers t ++ answers t' := by
  induction t with
  | nil => rfl
  | cons e t ih => cases e <;> simp only [List.cons_append, answers, ih]

/-- The call into the log shows the message. -/
def Says (L : LogEnv) (v : Val) : LogCall → Prop
  | .trace m => (∃ f, m = L.text f v) ∧ ¬ IsFailure v
  | .error m => ∃ f, m = L.text f v
  | _ => False

variable {σ : Type} (env : Env) (W : World σ) (L : LogEnv) {α β : Type}

/-- The call writes to the log what it receives, and these messages before. -/
def Writes (pend : List Val) (m : LM σ α) : Prop :=
  ∀ c, ∃ evs, (m c).2.1.trace = c.trace ++ evs ∧ InOrder (Says L) (pend ++ answers evs) (m c).2.2

variable {env W L}

theorem Writes.bind {pend : List Val} {m : LM σ α} {f : α → LM σ β} (hm : Writes L pend m) (hf : ∀ a, Writes L [] (f a)) : Writes L pend (m >>= f) := by
  intro c
  obtain ⟨evs, h1, h2⟩ := hm c
  show ∃ evs, (LM.bind m f c).2.1.trace = c.trace ++ evs ∧ InOrder (Says L) (pend ++ answers evs) (LM.bind m f c).2.2
  unfold LM.bind
  match h : m c with
  | (.ok a, c', l) =>
    rw [h] at h1 h2
    obtain ⟨evs', g1, g2⟩ := hf a c'
    refine ⟨evs ++ evs', ?_, ?_⟩
    · show (f a c').2.1.trace = _
      rw [g1, show c'.trace = _ from h1, List.append_assoc]
    · rw [answers_append, ← List.append_assoc]
      exact InOrder.append h2 g2
  | (.err e, c', l) => rw [h] at h1 h2; exact ⟨evs, h1, h2⟩
  | (.panic, c', l) => rw [h] at h1 h2; exact ⟨evs, h1, h2⟩
  | (.fuel, c', l) => rw [h] at h1 h2; exact ⟨evs, h1, h2⟩

theorem Writes.pure (a : α) : Writes L [] (Pure.pure a : LM σ α) := fun c => ⟨[], (List.append_nil _).symm, .nil⟩

/-- A function that receives nothing. -/
def Deaf (m : CM σ α) : Prop := ∀ c, ∃ evs, (m c).2.trace = c.trace ++ evs ∧ answers evs = []

theorem Writes.lift {m : CM σ α} (h : Deaf m) : Writes L [] (LM.lift m) := fun c => by
  obtain ⟨evs, h1, h2⟩ := h c
  exact ⟨evs, h1, by rw [h2]; exact .nil⟩

theorem Writes.say (l : LogCall) : Writes L [] (LM.say l : LM σ Unit) := fun c => ⟨[], (List.append_nil _).symm, .skip .nil⟩

/-- The first call into the log does not count. -/
theorem Writes.skip {pend : List Val} (l : LogCall) {f : Unit → LM σ β} (h : Writes L pend (f ())) : Writes L pend (LM.say l >>= f) := fun c => by
  obtain ⟨evs, h1, h2⟩ := h c
  exact ⟨evs, h1, .skip h2⟩

/-- The first call into the log shows the message. -/
theorem Writes.take {v : Val} {l : LogCall} {f : Unit → LM σ β} (hl : Says L v l) (h : Writes L [] (f ())) : Writes L [v] (LM.say l >>= f) := fun c => by
  obtain ⟨evs, h1, h2⟩ := h c
  exact ⟨evs, h1, .take hl h2⟩

theorem Writes.last {v : Val} {l : LogCall} (hl : Says L v l) : Writes L [v] (LM.say l : LM σ Unit) := fun c => ⟨[], (List.append_nil _).symm, .take hl .nil⟩

theorem Writes.fail (e : Err) : Writes L [] (LM.fail e : LM σ α) := Writes.lift fun _ => ⟨[], (List.append_nil _).symm, rfl⟩

theorem Writes.get : Writes L [] (LM.get : LM σ (Conn σ)) := Writes.lift fun _ => ⟨[], (List.append_nil _).symm, rfl⟩

theorem Writes.fuel : Writes L [] (LM.lift fun c => (.fuel, c) : LM σ α) := Writes.lift fun _ => ⟨[], (List.append_nil _).symm, rfl⟩

theorem Writes.mapErr {pend : List Val} {m : LM σ α} (f : Err → Err) (h : Writes L pend m) : Writes L pend (LM.mapErr f m) := by
  intro c
  obtain ⟨evs, h1, h2⟩ := h c
  unfold LM.mapErr
  match h : m c with
  | (.ok a, c', l) => rw [h] at h1 h2; exact ⟨evs, h1, h2⟩
  | (.err e, c', l) => rw [h] at h1 h2; exact ⟨evs, h1, h2⟩
  | (.panic, c', l) => rw [h] at h1 h2; exact ⟨evs, h1, h2⟩
  | (.fuel, c', l) => rw [h] at h1 h2; exact ⟨evs, h1, h2⟩

theorem Writes.thenFail {pend : List Val} {m : LM σ α} {log : Err → List LogCall} (e : Err) (h : Writes L pend m) : Writes L pend (LM.thenFail m log e : LM σ β) := by
  intro c
  obtain ⟨evs, h1, h2⟩ := h c
  unfold LM.thenFail
  match h : m c with
  | (.ok a, c', l) => rw [h] at h1 h2; exact ⟨evs, h1, h2⟩
  | (.err e, c', l) =>
    rw [h] at h1 h2
    refine ⟨evs, h1, ?_⟩
    have := InOrder.append h2 (InOrder.none (R := Says L) (log e))
    rwa [List.append_nil] at this
  | (.panic, c', l) => rw [h] at h1 h2; exact ⟨evs, h1, h2⟩
  | (.fuel, c', l) => rw [h] at h1 h2; exact ⟨evs, h1, h2⟩

theorem Writes.ite {p : Prop} [Decidable p] {pend : List Val} {a b : LM σ α} (ha : Writes L pend a) (hb : Writes L pend b) : Writes L pend (if p then a else b) := by
  split
  · exact ha
  · exact hb

theorem Writes.of_apply {pend : List Val} {m : Conn σ → LM σ α} (h : ∀ c, Writes L pend (m c)) : Writes L pend (fun c => m c c) := fun c => h c c

/-- What `receive` adds. -/
theorem receive_adds (c : Conn σ) : (∃ v, (receive env c).1 = .ok v ∧ (receive env c).2.trace = c.trace ++ [.recv v]) ∨
    ((∀ v, (receive env c).1 ≠ .ok v) ∧ (receive env c).2.trace = c.trace) := by
  unfold receive
  split
  · exact .inr ⟨fun _ h => by (cases h), rfl⟩
  · split
    · exact .inr ⟨fun _ h => by (cases h), rfl⟩
    · split
      · exact .inl ⟨_, rfl, rfl⟩
      all_goals exact .inr ⟨fun _ h => by (cases h), rfl⟩

/-- What is received is to be written next. -/
theorem Writes.receive {g : Err → Err} {f : Val → LM σ β} (h : ∀ v, Writes L [v] (f v)) : Writes L [] (LM.mapErr g (LM.lift (receive env)) >>= f) := by
  intro c
  show ∃ evs, (LM.bind (LM.mapErr g (LM.lift (Verif.receive env))) f c).2.1.trace = c.trace ++ evs ∧ _
  have hx := receive_adds (env := env) c
  match hr : Verif.receive env c with
  | (.ok v, c') =>
    rw [hr] at hx
    rcases hx with ⟨w, h1, h2⟩ | ⟨h1, -⟩
    · cases h1
      obtain ⟨evs, g1, g2⟩ := h v c'
      have hm : (LM.mapErr g (LM.lift (Verif.receive env)) >>= f) c = ((f v c').1, (f v c').2.1, [] ++ (f v c').2.2) := by
        show LM.bind _ f c = _
        simp only [LM.bind, LM.mapErr, LM.lift, hr]
      refine ⟨.recv v :: evs, ?_, ?_⟩
      · show ((LM.mapErr g (LM.lift (Verif.receive env)) >>= f) c).2.1.trace = _
        rw [hm]
        show (f v c').2.1.trace = _
        rw [g1, show c'.trace = _ from h2, List.append_assoc]; rfl
      · rw [hm]
        exact g2
    · exact absurd rfl (h1 v)
  | (.err e, c') =>
    rw [hr] at hx
    rcases hx with ⟨w, h1, h2⟩ | ⟨-, h2⟩
    · cases h1
    · have hm : (LM.mapErr g (LM.lift (Verif.receive env)) >>= f) c = (.err (g e), c', []) := by
        show LM.bind _ f c = _
        simp only [LM.bind, LM.mapErr, LM.lift, hr]
      refine ⟨[], ?_, ?_⟩
      · show ((LM.mapErr g (LM.lift (Verif.receive env)) >>= f) c).2.1.trace = _
        rw [hm, List.append_nil]; exact h2
      · rw [hm]; exact .nil
  | (.panic, c') =>
    rw [hr] at hx
    rcases hx with ⟨w, h1, h2⟩ | ⟨-, h2⟩
    · cases h1
    · have hm : (LM.mapErr g (LM.lift (Verif.receive env)) >>= f) c = (.panic, c', []) := by
        show LM.bind _ f c = _
        simp only [LM.bind, LM.mapErr, LM.lift, hr]
      refine ⟨[], ?_, ?_⟩
      · show ((LM.mapErr g (LM.lift (Verif.receive env)) >>= f) c).2.1.trace = _
        rw [hm, List.append_nil]; exact h2
      · rw [hm]; exact .nil
  | (.fuel, c') =>
    rw [hr] at hx
    rcases hx with ⟨w, h1, h2⟩ | ⟨-, h2⟩
    · cases h1
    · have hm : (LM.mapErr g (LM.lift (Verif.receive env)) >>= f) c = (.fuel, c', []) := by
        show LM.bind _ f c = _
        simp only [LM.bind, LM.mapErr, LM.lift, hr]
      refine ⟨[], ?_, ?_⟩
      · show ((LM.mapErr g (LM.lift (Verif.receive env)) >>= f) c).2.1.trace = _
        rw [hm, List.append_nil]; exact h2
      · rw [hm]; exact .nil

theorem mapErr_id (m : LM σ α) : LM.mapErr id m = m := by
  funext c
  unfold LM.mapErr
  match m c with
  | (.ok _, _, _) => rfl
  | (.err _, _, _) => rfl
  | (.panic, _, _) => rfl
  | (.fuel, _, _) => rfl

theorem Writes.receive' {f : Val → LM σ β} (h : ∀ v, Writes L [v] (f v)) : Writes L [] (LM.lift (Verif.receive env) >>= f) := by
  have := Writes.receive (env := env) (g := id) h
  rwa [mapErr_id] at this

theorem deaf_writeAll (ws : List Bytes) (e : Option Err) : Deaf (writeAll W ws e : CM σ Unit) := by
  intro c
  unfold writeAll
  split
  · split <;> exact ⟨[], (List.append_nil _).symm, rfl⟩
  · split
    · exact ⟨[], (List.append_nil _).symm, rfl⟩
    · dsimp only
      split
      · split <;> exact ⟨[_], rfl, rfl⟩
      · exact ⟨[_], rfl, rfl⟩

theorem writes_send (v : Val) : Writes L [] (logSend env W L v : LM σ Unit) := fun c => by
  obtain ⟨evs, h1, h2⟩ := deaf_writeAll (W := W) (encodeMsg env c.proto.codec c.chunkSize v).1 (encodeMsg env c.proto.codec c.chunkSize v).2 c
  exact ⟨evs, h1, by rw [h2]; exact InOrder.none _⟩

theorem writes_consumeWith {reset : LM σ Unit} (h : Writes L [] reset) : Writes L [] (logConsumeWith env L reset) := by
  unfold logConsumeWith
  refine Writes.skip _ ?_
  refine Writes.receive' fun v => ?_
  cases hf : asFailure v with
  | none =>
    refine Writes.take ⟨⟨_, rfl⟩, fun hv => ?_⟩ (Writes.pure v)
    obtain ⟨md, he⟩ := (C98.isFailure_iff v).1 hv
    rw [hf] at he; cases he
  | some md =>
    refine Writes.skip _ ?_
    refine Writes.take ⟨_, rfl⟩ ?_
    exact Writes.bind (Writes.mapErr _ h) fun _ => Writes.fail _

theorem not_failure_of_success {v : Val} {md : Entries} (h : asSuccess v = some md) : ¬ IsFailure v := by
  rintro ⟨_, rfl⟩; cases h

theorem not_failure_of_ignored {v : Val} (h : isIgnored v = true) : ¬ IsFailure v := by
  rintro ⟨_, rfl⟩; cases h

theorem writes_resetLoop {close : LM σ Unit} (h : Writes L [] close) (n : Nat) : Writes L [] (logResetLoop env L close n) := by
  induction n with
  | zero => exact Writes.fuel
  | succ n ih =>
    unfold logResetLoop
    refine Writes.receive fun v => ?_
    by_cases hi : isIgnored v = true
    · rw [if_pos hi]
      exact Writes.take ⟨⟨_, rfl⟩, not_failure_of_ignored hi⟩ ih
    · rw [if_neg hi]
      cases hs : asSuccess v with
      | some md => exact Writes.last ⟨⟨_, rfl⟩, not_failure_of_success hs⟩
      | none =>
        cases asFailure v with
        | some md => exact Writes.take ⟨_, rfl⟩ (Writes.thenFail _ h)
        | none => exact Writes.take ⟨_, rfl⟩ (Writes.thenFail _ h)

theorem writes_resetWith {close : LM σ Unit} (h : Writes L [] close) : Writes L [] (logResetWith env W L close) := by
  unfold logResetWith
  refine Writes.skip _ ?_
  refine Writes.bind (Writes.mapErr _ (writes_send _)) fun _ => ?_
  exact Writes.of_apply (m := fun c => logResetLoop env L close (streamLen c.segs + 1)) fun c => writes_resetLoop h _

theorem writes_txExchange {consume : LM σ Val} (h : Writes L [] consume) (msg : Val) (what : String) (said : Option String) :
    Writes L [] (logTxExchange env W L consume msg what said) := by
  unfold logTxExchange
  refine Writes.bind (writes_send _) fun _ => ?_
  refine Writes.ite ?_ ?_
  · refine Writes.bind h fun run => ?_
    cases asSuccess run with
    | none => exact Writes.fail _
    | some _ =>
      cases said with
      | none => exact Writes.pure _
      | some f => exact Writes.say _
  · refine Writes.bind Writes.get fun c => ?_
    refine Writes.bind (writes_send _) fun _ => ?_
    refine Writes.bind h fun run => ?_
    refine Writes.bind h fun pull => ?_
    cases asSuccess run with
    | none => exact Writes.fail _
    | some _ =>
      cases said with
      | none =>
        cases asSuccess pull with
        | none => exact Writes.fail _
        | some _ => exact Writes.pure _
      | some f =>
        refine Writes.bind (Writes.say _) fun _ => ?_
        cases asSuccess pull with
        | none => exact Writes.fail _
        | some _ => exact Writes.say _

theorem writes_modify {f : Conn σ → Conn σ} (h : ∀ c, (f c).trace = c.trace) : Writes L [] (LM.lift (CM.modify f)) :=
  Writes.lift fun c => ⟨[], by rw [List.append_nil]; exact h c, rfl⟩

theorem writes_rollbackWith {consume : LM σ Val} (h : Writes L [] consume) (hd : Nat) : Writes L [] (logRollbackWith env W L consume hd) := by
  unfold logRollbackWith
  refine Writes.bind Writes.get fun c => Writes.ite (Writes.fail _) ?_
  refine Writes.bind Writes.get fun c => ?_
  exact Writes.bind (writes_txExchange h _ _ _) fun _ => writes_modify fun _ => rfl

theorem writes_commitWith {consume : LM σ Val} (h : Writes L [] consume) (hd : Nat) : Writes L [] (logCommitWith env W L consume hd) := by
  unfold logCommitWith
  refine Writes.bind Writes.get fun c => Writes.ite (Writes.fail _) ?_
  refine Writes.bind Writes.get fun c => ?_
  exact Writes.bind (writes_txExchange h _ _ _) fun _ => writes_modify fun _ => rfl

theorem writes_closeSock : Writes L [] (LM.lift (closeSock W)) := by
  refine Writes.lift fun c => ?_
  unfold closeSock
  dsimp only
  split <;> exact ⟨[.closed], rfl, rfl⟩

theorem writes_closeWith {rollback : Nat → LM σ Unit} (h : ∀ hd, Writes L [] (rollback hd)) : Writes L [] (logCloseWith env W L rollback) := by
  unfold logCloseWith
  refine Writes.bind Writes.get fun c => Writes.ite (Writes.fail _) ?_
  refine Writes.bind Writes.get fun c => ?_
  have hk : Writes L [] (do
      match (← LM.get).proto.closeMessage with
      | some m => logSend env W L m
      | none => Pure.pure ()
      LM.lift (closeSock W)) := by
    refine Writes.bind Writes.get fun c => ?_
    cases c.proto.closeMessage with
    | none => exact writes_closeSock
    | some m => exact Writes.bind (writes_send _) fun _ => writes_closeSock
  cases c.cur with
  | none => exact hk
  | some hd => exact Writes.bind (h hd) fun _ => hk

theorem writes_reset (fuel : Nat) : Writes L [] (logReset env W L fuel) := by
  induction fuel with
  | zero => exact Writes.fuel
  | succ n ih =>
    unfold logReset
    exact writes_resetWith (writes_closeWith fun hd => writes_rollbackWith (writes_consumeWith ih) hd)

theorem writes_consume (fuel : Nat) : Writes L [] (logConsume env W L fuel) := writes_consumeWith (writes_reset fuel)

theorem writes_rollback (fuel hd : Nat) : Writes L [] (logRollback env W L fuel hd) := writes_rollbackWith (writes_consume fuel) hd

theorem writes_commit (fuel hd : Nat) : Writes L [] (logCommit env W L fuel hd) := writes_commitWith (writes_consume fuel) hd

theorem writes_close (fuel : Nat) : Writes L [] (logClose env W L fuel) := writes_closeWith fun hd => writes_rollback fuel hd

theorem writes_makeIdle (fuel : Nat) : Writes L [] (logMakeIdle env W L fuel) := by
  unfold logMakeIdle
  refine Writes.bind Writes.get fun c => ?_
  cases c.cur with
  | none => exact Writes.pure _
  | some hd => exact writes_rollback fuel hd

theorem writes_begin (fuel : Nat) (db : Bytes) : Writes L [] (logBegin env W L fuel db) := by
  unfold logBegin
  refine Writes.bind Writes.get fun c => Writes.ite (Writes.fail _) ?_
  refine Writes.bind Writes.get fun c => Writes.ite (Writes.fail _) ?_
  refine Writes.bind Writes.get fun c => ?_
  refine Writes.bind (writes_txExchange (writes_consume fuel) _ _ _) fun _ => ?_
  refine Writes.bind Writes.get fun c => ?_
  exact Writes.bind (writes_modify fun _ => rfl) fun _ => Writes.pure _

theorem writes_rowsLoop (fuel : Nat) (n : Nat) (out : List (List Val)) : Writes L [] (logRowsLoop L (logConsume env W L fuel) n out) := by
  induction n generalizing out with
  | zero => exact Writes.fuel
  | succ n ih =>
    unfold logRowsLoop
    refine Writes.bind (writes_consume fuel) fun v => ?_
    cases asSuccess v with
    | some md => exact Writes.bind (Writes.say _) fun _ => Writes.pure _
    | none =>
      cases asRecord v with
      | some fs => exact Writes.bind (Writes.say _) fun _ => ih _
      | none => exact Writes.fail _

theorem checkDb_same (db : Bytes) (c : Conn σ) : (checkDb db c).2 = c := by
  unfold checkDb
  show ((if c.proto.supportsMultiDatabase = false ∧ db ≠ [] then _ else _ : CM σ Unit) c).2 = c
  split <;> rfl

theorem writes_query (fuel : Nat) (q : Bytes) (ps : Entries) (db : Bytes) (inTx : Bool) : Writes L [] (logQueryWithDb env W L fuel q ps db inTx) := by
  unfold logQueryWithDb
  refine Writes.bind (Writes.lift fun c => ⟨[], by rw [checkDb_same, List.append_nil], rfl⟩) fun _ => ?_
  unfold logRunQuery
  refine Writes.bind Writes.get fun c => Writes.ite (Writes.fail _) ?_
  refine Writes.bind Writes.get fun c => ?_
  refine Writes.bind (Writes.say _) fun _ => ?_
  refine Writes.bind (writes_send _) fun _ => ?_
  refine Writes.bind (Writes.say _) fun _ => ?_
  refine Writes.bind (writes_send _) fun _ => ?_
  refine Writes.bind (writes_consume fuel) fun v => ?_
  refine Writes.bind (Writes.say _) fun _ => ?_
  cases asSuccess v with
  | none => exact Writes.fail _
  | some _ => exact Writes.of_apply (m := fun c => logRowsLoop L (logConsume env W L fuel) (streamLen c.segs + 1) []) fun c => writes_rowsLoop fuel _ _

theorem writes_void {m : LM σ α} (h : Writes L [] m) : Writes L [] m.void := Writes.bind h fun _ => Writes.pure _

theorem writes_step (fuel : Nat) (op : Op) : Writes L [] (logStep env W L fuel op) := by
  cases op with
  | query q ps db => exact writes_void (writes_query fuel q ps db false)
  | exec q ps db => exact writes_void (writes_query fuel q ps db false)
  | begin_ db => exact writes_void (writes_begin fuel db)
  | commit h => exact writes_commit fuel h
  | rollback h => exact writes_rollback fuel h
  | txQuery h q ps db => exact writes_void (writes_query fuel q ps db true)
  | txExec h q ps => exact writes_void (writes_query fuel q ps [] false)
  | txExecDb h q ps db => exact writes_void (writes_query fuel q ps db true)
  | close => exact writes_close fuel
  | makeIdle => exact writes_makeIdle fuel
  | validateOpen =>
    refine writes_void (Writes.lift fun c => ⟨[], ?_, rfl⟩)
    rw [List.append_nil]
    unfold validateOpen
    split
    · rfl
    · split
      · rfl
      · rfl
      · split <;> rfl
  | setChunkSize n => exact writes_modify fun _ => rfl

theorem writes_init (fuel : Nat) (user password : Bytes) : Writes L [] (logInit env W L fuel user password) := by
  unfold logInit
  refine Writes.bind (Writes.lift fun c => ⟨[], ?_, rfl⟩) fun _ => ?_
  · rw [List.append_nil]
    unfold createConnection
    dsimp only
    split <;> rfl
  refine Writes.bind (Writes.mapErr _ (Writes.lift fun c => ⟨[.sent [handShake]], ?_, rfl⟩)) fun v => ?_
  · unfold handshake
    dsimp only
    split
    · rfl
    · split
      · rfl
      · split
        · rfl
        · split <;> rfl
  rcases getProtocol v with ⟨_ | p, n, _ | e⟩
  · exact Writes.fail _
  · exact Writes.fail _
  all_goals
    refine Writes.bind (Writes.say _) fun _ => ?_
    refine Writes.bind (writes_modify fun _ => rfl) fun _ => ?_
    unfold logSendInit
    refine Writes.bind (writes_send _) fun _ => ?_
    refine Writes.bind (writes_consume fuel) fun v => ?_
    cases asSuccess v with
    | some _ => exact Writes.say _
    | none => exact Writes.bind (Writes.say _) fun _ => writes_close fuel

theorem history_writes (fuel : Nat) (ops : List LogOp) (c : Conn σ) :
    ∃ evs, (logHistory env W L fuel ops c).1.trace = c.trace ++ evs ∧ InOrder (Says L) (answers evs) (logHistory env W L fuel ops c).2 := by
  induction ops generalizing c with
  | nil => exact ⟨[], (List.append_nil _).symm, .nil⟩
  | cons op ops ih =>
    cases op with
    | call op =>
      obtain ⟨evs, h1, h2⟩ := writes_step (env := env) (W := W) (L := L) fuel op c
      obtain ⟨evs', g1, g2⟩ := ih (logStep env W L fuel op c).2.1
      refine ⟨evs ++ evs', ?_, ?_⟩
      · show (logHistory env W L fuel ops (logStep env W L fuel op c).2.1).1.trace = _
        rw [g1, h1, List.append_assoc]
      · rw [answers_append]
        exact InOrder.append h2 g2
    | setLevel name =>
      obtain ⟨evs, g1, g2⟩ := ih c
      exact ⟨evs, g1, .skip g2⟩

theorem session_writes (fuel : Nat) (user password : Bytes) (ops : List LogOp) (w : σ) :
    InOrder (Says L) (answers (logSession env W L fuel user password ops w).1.trace) (logSession env W L fuel user password ops w).2 := by
  obtain ⟨evs, h1, h2⟩ := writes_init (env := env) (W := W) (L := L) fuel user password (Conn.fresh w)
  unfold logSession logCreate
  match h : logInit env W L fuel user password (Conn.fresh w) with
  | (.ok _, c, l) =>
    rw [h] at h1 h2
    obtain ⟨evs', g1, g2⟩ := history_writes (env := env) (W := W) (L := L) fuel ops c
    show InOrder _ (answers (logHistory env W L fuel ops c).1.trace) (l ++ (logHistory env W L fuel ops c).2)
    rw [g1, show c.trace = [] ++ evs from h1, answers_append]
    exact InOrder.append h2 g2
  | (.err e, c, l) => rw [h] at h1 h2; rw [show c.trace = [] ++ evs from h1]; exact h2
  | (.panic, c, l) => rw [h] at h1 h2; rw [show c.trace = [] ++ evs from h1]; exact h2
  | (.fuel, c, l) => rw [h] at h1 h2; rw [show c.trace = [] ++ evs from h1]; exact h2

/-- The level is kept by everything but `SetLevel`. -/
theorem run_level {P : LogLevel → Prop} {l : LogCall} {s : LogState} (hs : P s.level) (hl : ∀ name, l = .setLevel name → P (levelNamed name)) : P (l.run s).level := by
  rw [C93.level_run]
  cases l with
  | setLevel name => exact hl name rfl
  | _ => exact hs

/-- A call into the log only adds lines. -/
theorem run_adds (l : LogCall) (s : LogState) : ∃ new, (l.run s).out = s.out ++ new := by
  have tb : ∀ b, ∃ new, (traceBytes b s).out = s.out ++ new := by
    intro b
    unfold traceBytes
    split
    · exact ⟨_, rfl⟩
    · exact ⟨[], (List.append_nil _).symm⟩
  cases l with
  | setLevel name => exact ⟨[], (List.append_nil _).symm⟩
  | error m => unfold LogCall.run; dsimp only; split; exact ⟨_, rfl⟩; exact ⟨[], (List.append_nil _).symm⟩
  | info m => unfold LogCall.run; dsimp only; split; exact ⟨_, rfl⟩; exact ⟨[], (List.append_nil _).symm⟩
  | trace m => unfold LogCall.run; dsimp only; split; exact ⟨_, rfl⟩; exact ⟨[], (List.append_nil _).symm⟩
  | dump b => exact tb b
  | dumpBuffer b =>
    cases b with
    | none => exact ⟨[], (List.append_nil _).symm⟩
    | some b => exact tb b

/-- What is printed keeps the order. -/
theorem printed {γ : Type} {P : LogLevel → Prop} {S : γ → LogCall → Prop} {R : γ → Logger × Bytes → Prop}
    (hS : ∀ v l s, S v l → P s.level → ∃ line, (l.run s).out = s.out ++ [line] ∧ R v line) {vs : List γ} {calls : List LogCall} (h : InOrder S vs calls) (s : LogState)
    (hs : P s.level) (hl : ∀ name, .setLevel name ∈ calls → P (levelNamed name)) : ∃ new, (logRun calls s).out = s.out ++ new ∧ InOrder R vs new := by
  induction h generalizing s with
  | nil => exact ⟨[], (List.append_nil _).symm, .nil⟩
  | @skip as l ls h ih =>
    obtain ⟨new, hn⟩ := run_adds l s
    obtain ⟨new', h1, h2⟩ := ih (l.run s) (run_level hs fun name e => hl name (e ▸ List.mem_cons_self)) fun name hm => hl name (List.mem_cons_of_mem _ hm)
    refine ⟨new ++ new', ?_, InOrder.skips new h2⟩
    show (logRun ls (l.run s)).out = _
    rw [h1, hn, List.append_assoc]
  | @take v as l ls hr h ih =>
    obtain ⟨line, hn, hR⟩ := hS v l s hr hs
    obtain ⟨new', h1, h2⟩ := ih (l.run s) (run_level hs fun name e => hl name (e ▸ List.mem_cons_self)) fun name hm => hl name (List.mem_cons_of_mem _ hm)
    refine ⟨line :: new', ?_, .take hR h2⟩
    show (logRun ls (l.run s)).out = _
    rw [h1, hn, List.append_assoc]; rfl

theorem says_shows {L : LogEnv} (v : Val) (l : LogCall) (s : LogState) (h : Says L v l) (hs : s.level = .trace ∨ s.level = .traceBytes) :
    ∃ line, (l.run s).out = s.out ++ [line] ∧ Shows L v line := by
  cases l with
  | trace m =>
    refine ⟨(.trace, m), ?_, h.1, fun hv => absurd hv h.2⟩
    rcases hs with hs | hs <;> simp [LogCall.run, hs, LogLevel.number]
  | error m =>
    refine ⟨(.error, m), ?_, h, fun _ => rfl⟩
    rcases hs with hs | hs <;> simp [LogCall.run, hs, LogLevel.number]
  | _ => exact absurd h id

/-- The call into the log shows the message as an error. -/
def SaysError (L : LogEnv) (v : Val) : LogCall → Prop
  | .error m => ∃ f, m = L.text f v
  | _ => False

theorem saysError_shows {L : LogEnv} (v : Val) (l : LogCall) (s : LogState) (h : SaysError L v l) (hs : s.level ≠ .none) :
    ∃ line, (l.run s).out = s.out ++ [line] ∧ ShowsError L v line := by
  cases l with
  | error m =>
    refine ⟨(.error, m), ?_, rfl, h⟩
    cases hl : s.level <;> simp [LogCall.run, hl, LogLevel.number] at hs ⊢
  | _ => exact absurd h id

theorem failureMessages_eq (t : List Ev) : failureMessages t = (answers t).filter fun v => (asFailure v).isSome := by
  fun_induction failureMessages t with
  | case1 => rfl
  | case2 md t ih => simp [answers, asFailure, ih]
  | case3 e t hn ih =>
    cases e with
    | recv v =>
      rw [ih, answers]
      have : (asFailure v).isSome = false := by
        unfold asFailure
        split
        · exact absurd rfl (hn _)
        · rfl
      rw [List.filter_cons, this]; rfl
    | _ => exact ih

theorem errors_of_says {vs : List Val} {calls : List LogCall} (h : InOrder (Says L) vs calls) :
    InOrder (SaysError L) (vs.filter fun v => (asFailure v).isSome) calls := by
  induction h with
  | nil => exact .nil
  | skip _ ih => exact .skip ih
  | @take v as l ls hr _ ih =>
    rw [List.filter_cons]
    split
    · rename_i hv
      cases l with
      | error m => exact .take hr ih
      | trace m => exact absurd ((C98.isFailure_iff v).2 (Option.isSome_iff_exists.1 hv)) hr.2
      | _ => exact absurd hr id
    · exact .skip ih

theorem session_levels {P : LogLevel → Prop} {fuel : Nat} {user password : Bytes} {ops : List LogOp} {w : σ} {s : LogState} (h : Always P s ops) :
    ∀ name, .setLevel name ∈ (logSession env W L fuel user password ops w).2 → P (levelNamed name) := by
  intro name hn
  rcases C98.session_tells (env := env) (W := W) (L := L) fuel user password ops w _ hn with h' | ⟨name', he, hm⟩
  · exact absurd h' id
  · cases he
    exact h.2 name hm _ ((C93.means_iff name _).2 rfl)

/-- A line that fits its logger. -/
def Fits (env : Env) (W : World σ) (L : LogEnv) (t : List Ev) (line : Logger × Bytes) : Prop :=
  (line.1 = .error → Trouble env W L t line.2) ∧ (line.1 = .info → ∃ format v, .recv v ∈ t ∧ IsSuccess v ∧ line.2 = L.text format v)

theorem printed_fits {t : List Ev} (calls : List LogCall) (s : LogState) (h : ∀ l ∈ calls, C98.Tells env W L t l ∨ ∃ name, l = .setLevel name)
    (ho : ∀ p ∈ s.out, Fits env W L t p) : ∀ p ∈ (logRun calls s).out, Fits env W L t p := by
  induction calls generalizing s with
  | nil => exact ho
  | cons l calls ih =>
    refine ih (l.run s) (fun x hx => h x (List.mem_cons_of_mem _ hx)) ?_
    have snoc : ∀ line, Fits env W L t line → ∀ p ∈ s.out ++ [line], Fits env W L t p := by
      intro line hm p hp
      rcases List.mem_append.1 hp with hp | hp
      · exact ho p hp
      · rw [List.mem_singleton.1 hp]; exact hm
    have tb : ∀ b, ∀ p ∈ (traceBytes b s).out, Fits env W L t p := by
      intro b
      unfold traceBytes
      split
      · intro p hp
        rcases List.mem_append.1 hp with hp | hp
        · exact ho p hp
        · have : p.1 = .bytes := by
            simp only [List.mem_cons, List.not_mem_nil, or_false] at hp
            rcases hp with rfl | rfl | rfl <;> rfl
          exact ⟨fun h => by (rw [this] at h; cases h), fun h => by (rw [this] at h; cases h)⟩
      · exact ho
    have hl := h l List.mem_cons_self
    cases l with
    | setLevel => exact ho
    | error m =>
      rcases hl with hl | ⟨_, hl⟩
      · unfold LogCall.run; dsimp only; split
        · exact snoc _ ⟨fun _ => hl, fun h => by (cases h)⟩
        · exact ho
      · cases hl
    | info m =>
      rcases hl with hl | ⟨_, hl⟩
      · unfold LogCall.run; dsimp only; split
        · exact snoc _ ⟨fun h => by (cases h), fun _ => hl⟩
        · exact ho
      · cases hl
    | trace m =>
      unfold LogCall.run; dsimp only; split
      · exact snoc _ ⟨fun h => by (cases h), fun h => by (cases h)⟩
      · exact ho
    | dump b => exact tb b
    | dumpBuffer b =>
      cases b with
      | none => exact ho
      | some b => exact tb b

theorem bind_eq_ok {m : LM σ α} {f : α → LM σ β} {c c' : Conn σ} {b : β} {l : List LogCall} (h : (m >>= f) c = (.ok b, c', l)) :
    ∃ a c1 l1 l2, l = l1 ++ l2 ∧ m c = (.ok a, c1, l1) ∧ f a c1 = (.ok b, c', l2) := by
  have h : LM.bind m f c = (.ok b, c', l) := h
  unfold LM.bind at h
  split at h
  · rename_i a c1 l1 hm
    have e1 := congrArg (fun r => r.1) h
    have e2 := congrArg (fun r => r.2.1) h
    have e3 := congrArg (fun r => r.2.2) h
    dsimp only at e1 e2 e3
    exact ⟨a, c1, l1, (f a c1).2.2, e3.symm, hm, by rw [← e1, ← e2]⟩
  · cases h
  · cases h
  · cases h

theorem say_eq_ok {l : LogCall} {c c' : Conn σ} {u : Unit} {ls : List LogCall} (h : (LM.say l : LM σ Unit) c = (.ok u, c', ls)) : c' = c ∧ ls = [l] := by
  cases h; exact ⟨rfl, rfl⟩

theorem get_eq_ok {c c' x : Conn σ} {ls : List LogCall} (h : (LM.get : LM σ (Conn σ)) c = (.ok x, c', ls)) : c' = c ∧ x = c ∧ ls = [] := by
  cases h; exact ⟨rfl, rfl, rfl⟩

theorem pure_eq_ok {a b : α} {c c' : Conn σ} {ls : List LogCall} (h : (Pure.pure a : LM σ α) c = (.ok b, c', ls)) : c' = c ∧ b = a ∧ ls = [] := by
  cases h; exact ⟨rfl, rfl, rfl⟩

theorem fail_ne_ok {e : Err} {b : α} {c c' : Conn σ} {ls : List LogCall} (h : (LM.fail e : LM σ α) c = (.ok b, c', ls)) : False := by
  cases h

/-- A successful `consume` adds the message to the trace. -/
theorem consume_adds {fuel : Nat} {c c' : Conn σ} {v : Val} {l : List LogCall} (h : logConsume env W L fuel c = (.ok v, c', l)) : c'.trace = c.trace ++ [.recv v] := by
  have he : consume env W fuel c = (.ok v, c') := by
    rw [← erase_consume env W L fuel, LM.erase_apply, h]
  have hr := (consumeWith_ok env he).1
  rcases receive_adds (env := env) c with ⟨w, h1, h2⟩ | ⟨h1, -⟩
  · rw [hr] at h1 h2
    cases h1; exact h2
  · exact absurd (by rw [hr]) (h1 v)

theorem send_adds {v : Val} {c c' : Conn σ} {u : Unit} {l : List LogCall} (h : logSend env W L v c = (.ok u, c', l)) : ∃ evs, c'.trace = c.trace ++ evs := by
  obtain ⟨evs, h1, -⟩ := deaf_writeAll (W := W) (encodeMsg env c.proto.codec c.chunkSize v).1 (encodeMsg env c.proto.codec c.chunkSize v).2 c
  have : (logSend env W L v c).2.1.trace = c.trace ++ evs := h1
  rw [h] at this
  exact ⟨evs, this⟩

/-- A successful exchange is in the log. -/
theorem txExchange_said {fuel : Nat} {msg : Val} {what said : String} {c c' : Conn σ} {u : Unit} {l : List LogCall}
    (h : logTxExchange env W L (logConsume env W L fuel) msg what (some said) c = (.ok u, c', l)) :
    ∃ evs v, c'.trace = c.trace ++ evs ∧ .recv v ∈ evs ∧ IsSuccess v ∧ .trace (L.text said v) ∈ l := by
  unfold logTxExchange at h
  replace h := bind_eq_ok h
  obtain ⟨_, c1, l1, l2, rfl, h1, h⟩ := h
  obtain ⟨e1, g1⟩ := send_adds h1
  split at h
  · replace h := bind_eq_ok h
    obtain ⟨v, c2, l3, l4, rfl, h2, h⟩ := h
    cases hs : asSuccess v with
    | none => rw [hs] at h; exact (fail_ne_ok h).elim
    | some md =>
      rw [hs] at h
      obtain ⟨rfl, rfl⟩ := say_eq_ok h
      refine ⟨e1 ++ [.recv v], v, ?_, List.mem_append_right _ (List.mem_singleton_self _), (C98.isSuccess_iff v).2 ⟨md, hs⟩, ?_⟩
      · rw [consume_adds h2, g1, List.append_assoc]
      · exact List.mem_append_right _ (List.mem_append_right _ (List.mem_singleton_self _))
  · replace h := bind_eq_ok h
    obtain ⟨_, c2, l3, l4, rfl, h2, h⟩ := h
    obtain ⟨rfl, rfl, rfl⟩ := get_eq_ok h2
    replace h := bind_eq_ok h
    obtain ⟨_, c3, l5, l6, rfl, h3, h⟩ := h
    obtain ⟨e3, g3⟩ := send_adds h3
    replace h := bind_eq_ok h
    obtain ⟨v, c4, l7, l8, rfl, h4, h⟩ := h
    replace h := bind_eq_ok h
    obtain ⟨v', c5, l9, l10, rfl, h5, h⟩ := h
    cases hs : asSuccess v with
    | none => rw [hs] at h; exact (fail_ne_ok h).elim
    | some md =>
      rw [hs] at h
      replace h := bind_eq_ok h
      obtain ⟨_, c6, l11, l12, rfl, h6, h⟩ := h
      obtain ⟨rfl, rfl⟩ := say_eq_ok h6
      have hc : c' = c6 := by
        cases hs' : asSuccess v' with
        | none => rw [hs'] at h; exact (fail_ne_ok h).elim
        | some md' => rw [hs'] at h; exact (say_eq_ok h).1
      subst hc
      refine ⟨e1 ++ e3 ++ [.recv v] ++ [.recv v'], v, ?_, by simp, (C98.isSuccess_iff v).2 ⟨md, hs⟩, by simp⟩
      rw [consume_adds h5, consume_adds h4, g3, g1]
      simp only [List.append_assoc]

theorem commit_said {fuel hd : Nat} {c c' : Conn σ} {u : Unit} {l : List LogCall} (h : logCommit env W L fuel hd c = (.ok u, c', l)) :
    ∃ evs v, c'.trace = c.trace ++ evs ∧ .recv v ∈ evs ∧ IsSuccess v ∧ .trace (L.text "Got success message committing transaction: %#v" v) ∈ l := by
  unfold logCommit logCommitWith at h
  replace h := bind_eq_ok h
  obtain ⟨_, c1, l1, l2, rfl, h1, h⟩ := h
  obtain ⟨rfl, rfl, rfl⟩ := get_eq_ok h1
  split at h
  · exact (fail_ne_ok h).elim
  · replace h := bind_eq_ok h
    obtain ⟨_, c2, l3, l4, rfl, h2, h⟩ := h
    obtain ⟨rfl, rfl, rfl⟩ := get_eq_ok h2
    replace h := bind_eq_ok h
    obtain ⟨_, c3, l5, l6, rfl, h3, h⟩ := h
    obtain ⟨evs, v, g1, g2, g3, g4⟩ := txExchange_said h3
    cases h
    exact ⟨evs, v, g1, g2, g3, by simpa using g4⟩

theorem rollback_said {fuel hd : Nat} {c c' : Conn σ} {u : Unit} {l : List LogCall} (h : logRollback env W L fuel hd c = (.ok u, c', l)) :
    ∃ evs v, c'.trace = c.trace ++ evs ∧ .recv v ∈ evs ∧ IsSuccess v ∧ .trace (L.text "Got success message rolling back transaction: %#v" v) ∈ l := by
  unfold logRollback logRollbackWith at h
  replace h := bind_eq_ok h
  obtain ⟨_, c1, l1, l2, rfl, h1, h⟩ := h
  obtain ⟨rfl, rfl, rfl⟩ := get_eq_ok h1
  split at h
  · exact (fail_ne_ok h).elim
  · replace h := bind_eq_ok h
    obtain ⟨_, c2, l3, l4, rfl, h2, h⟩ := h
    obtain ⟨rfl, rfl, rfl⟩ := get_eq_ok h2
    replace h := bind_eq_ok h
    obtain ⟨_, c3, l5, l6, rfl, h3, h⟩ := h
    obtain ⟨evs, v, g1, g2, g3, g4⟩ := txExchange_said h3
    cases h
    exact ⟨evs, v, g1, g2, g3, by simpa using g4⟩

/-- The call into the log shows a record with these fields. -/
def SaysRow (L : LogEnv) (row : List Val) (l : LogCall) : Prop := ∃ k, l = .trace (L.text "Got record message: %#v" (.struct .record [.list k row]))

theorem asRecord_eq {v : Val} {fs : List Val} (h : asRecord v = some fs) : ∃ k, v = .struct .record [.list k fs] := by
  unfold asRecord at h
  split at h
  · cases h; exact ⟨_, rfl⟩
  · cases h

theorem rowsLoop_said {fuel n : Nat} {out : List (List Val)} {c c' : Conn σ} {rows : List (List Val)} {md : Entries} {l : List LogCall}
    (h : logRowsLoop L (logConsume env W L fuel) n out c = (.ok (rows, md), c', l)) :
    ∃ new, rows = out ++ new ∧ InOrder (SaysRow L) new l ∧ .trace (L.text "Got success message: %#v" (.struct .success [.map md])) ∈ l := by
  induction n generalizing out c l with
  | zero => cases h
  | succ n ih =>
    unfold logRowsLoop at h
    replace h := bind_eq_ok h
    obtain ⟨v, c1, l1, l2, rfl, h1, h⟩ := h
    cases hs : asSuccess v with
    | some md' =>
      rw [hs] at h
      replace h := bind_eq_ok h
      obtain ⟨_, c2, l3, l4, rfl, h2, h⟩ := h
      obtain ⟨rfl, rfl⟩ := say_eq_ok h2
      obtain ⟨rfl, he, rfl⟩ := pure_eq_ok h
      cases he
      have hv : v = .struct .success [.map md] := by
        obtain ⟨md', rfl⟩ := (C98.isSuccess_iff v).2 ⟨md, hs⟩
        cases hs; rfl
      subst hv
      exact ⟨[], (List.append_nil _).symm, InOrder.none _, by simp⟩
    | none =>
      rw [hs] at h
      cases hr : asRecord v with
      | none => rw [hr] at h; exact (fail_ne_ok h).elim
      | some fs =>
        rw [hr] at h
        replace h := bind_eq_ok h
        obtain ⟨_, c2, l3, l4, rfl, h2, h⟩ := h
        obtain ⟨rfl, rfl⟩ := say_eq_ok h2
        obtain ⟨new, rfl, g2, g3⟩ := ih h
        obtain ⟨k, rfl⟩ := asRecord_eq hr
        refine ⟨fs :: new, by simp, InOrder.skips _ (.take ⟨k, rfl⟩ g2), ?_⟩
        exact List.mem_append_right _ (List.mem_append_right _ g3)

theorem query_said {fuel : Nat} {q : Bytes} {ps : Entries} {db : Bytes} {inTx : Bool} {c c' : Conn σ} {rows : List (List Val)} {md : Entries} {l : List LogCall}
    (h : logQueryWithDb env W L fuel q ps db inTx c = (.ok (rows, md), c', l)) :
    InOrder (SaysRow L) rows l ∧ .trace (L.text "Got success message: %#v" (.struct .success [.map md])) ∈ l := by
  unfold logQueryWithDb at h
  replace h := bind_eq_ok h
  obtain ⟨_, c1, l1, l2, rfl, h1, h⟩ := h
  unfold logRunQuery at h
  replace h := bind_eq_ok h
  obtain ⟨_, c2, l3, l4, rfl, h2, h⟩ := h
  split at h
  · exact (fail_ne_ok h).elim
  · replace h := bind_eq_ok h
    obtain ⟨_, c3, l5, l6, rfl, h3, h⟩ := h
    replace h := bind_eq_ok h
    obtain ⟨_, c4, l7, l8, rfl, h4, h⟩ := h
    replace h := bind_eq_ok h
    obtain ⟨_, c5, l9, l10, rfl, h5, h⟩ := h
    replace h := bind_eq_ok h
    obtain ⟨_, c6, l11, l12, rfl, h6, h⟩ := h
    replace h := bind_eq_ok h
    obtain ⟨_, c7, l13, l14, rfl, h7, h⟩ := h
    replace h := bind_eq_ok h
    obtain ⟨v, c8, l15, l16, rfl, h8, h⟩ := h
    replace h := bind_eq_ok h
    obtain ⟨_, c9, l17, l18, rfl, h9, h⟩ := h
    cases hs : asSuccess v with
    | none => rw [hs] at h; exact (fail_ne_ok h).elim
    | some md' =>
      rw [hs] at h
      obtain ⟨new, g1, g2, g3⟩ := rowsLoop_said h
      rw [List.nil_append] at g1
      subst g1
      refine ⟨?_, by simp [g3]⟩
      iterate 9 refine InOrder.skips _ ?_
      exact g2

theorem close_closes {fuel : Nat} {c c' : Conn σ} {u : Unit} {l : List LogCall} (h : logClose env W L fuel c = (.ok u, c', l)) : c'.closed = true := by
  unfold logClose logCloseWith at h
  have key : ∀ {c c' : Conn σ} {u : Unit} {l : List LogCall}, LM.lift (closeSock W) c = (.ok u, c', l) → c'.closed = true := by
    intro c c' u l h
    have : (closeSock W c).2 = c' := by
      have := congrArg (fun r => r.2.1) h
      exact this
    rw [← this]
    unfold closeSock
    dsimp only
    split <;> rfl
  replace h := bind_eq_ok h
  obtain ⟨_, c1, l1, l2, rfl, h1, h⟩ := h
  obtain ⟨rfl, rfl, rfl⟩ := get_eq_ok h1
  split at h
  · exact (fail_ne_ok h).elim
  · replace h := bind_eq_ok h
    obtain ⟨_, c2, l3, l4, rfl, h2, h⟩ := h
    obtain ⟨rfl, rfl, rfl⟩ := get_eq_ok h2
    rename_i x _
    cases hx : x.cur with
    | some hd =>
      rw [hx] at h
      replace h := bind_eq_ok h
      obtain ⟨_, c3, l5, l6, rfl, h3, h⟩ := h
      replace h := bind_eq_ok h
      obtain ⟨_, c4, l7, l8, rfl, h4, h⟩ := h
      obtain ⟨rfl, rfl, rfl⟩ := get_eq_ok h4
      rename_i y
      cases hm : y.proto.closeMessage with
      | some m =>
        rw [hm] at h
        replace h := bind_eq_ok h
        obtain ⟨_, c5, l9, l10, rfl, h5, h⟩ := h
        exact key h
      | none =>
        rw [hm] at h
        exact key h
    | none =>
      rw [hx] at h
      replace h := bind_eq_ok h
      obtain ⟨_, c4, l7, l8, rfl, h4, h⟩ := h
      obtain ⟨rfl, rfl, rfl⟩ := get_eq_ok h4
      rename_i y _
      cases hm : y.proto.closeMessage with
      | some m =>
        rw [hm] at h
        replace h := bind_eq_ok h
        obtain ⟨_, c5, l9, l10, rfl, h5, h⟩ := h
        exact key h
      | none =>
        rw [hm] at h
        exact key h

theorem lift_eq {m : CM σ α} {c c' : Conn σ} {r : CRes α} {l : List LogCall} (h : LM.lift m c = (r, c', l)) : m c = (r, c') ∧ l = [] := by
  cases h; exact ⟨rfl, rfl⟩

theorem create_said {fuel : Nat} {user password : Bytes} {w : σ} {c : Conn σ} {l : List LogCall} (h : logCreate env W L fuel user password w = (.ok (), c, l)) :
    ∃ p l', c.version = p.number ∧ l = .trace (versionText p) :: l' ∧
      (c.closed = false → ∃ v, .recv v ∈ c.trace ∧ IsSuccess v ∧ .info (L.text "Successfully initiated Bolt connection: %+v" v) ∈ l') := by
  unfold logCreate logInit at h
  replace h := bind_eq_ok h
  obtain ⟨_, c1, l1, l2, rfl, h1, h⟩ := h
  obtain ⟨-, rfl⟩ := lift_eq h1
  replace h := bind_eq_ok h
  obtain ⟨vb, c2, l3, l4, rfl, h2, h⟩ := h
  have hl3 : l3 = [] := by
    unfold LM.mapErr LM.lift at h2
    split at h2
    · cases h2
    · exact (congrArg (fun r => r.2.2) h2).symm
  subst hl3
  match hg : getProtocol vb with
  | (none, _, some e) => rw [hg] at h; exact (fail_ne_ok h).elim
  | (none, _, none) => rw [hg] at h; exact (fail_ne_ok h).elim
  | (some p, n, e) =>
    rw [hg] at h
    replace h := bind_eq_ok h
    obtain ⟨_, c3, l5, l6, rfl, h3, h⟩ := h
    obtain ⟨rfl, rfl⟩ := say_eq_ok h3
    replace h := bind_eq_ok h
    obtain ⟨_, c4, l7, l8, rfl, h4, h⟩ := h
    obtain ⟨h4, rfl⟩ := lift_eq h4
    have hver : c4.version = p.number := by
      cases h4
      exact getProtocol_number hg
    refine ⟨p, l8, ?_, rfl, ?_⟩
    · have hr := (C104.version_rel env W).sendInit env W fuel (p.initMessage clientID (buildAuthTokenBasic user password)) c4
      rw [← erase_sendInit env W L, LM.erase_apply, h] at hr
      rw [hr.2.1, hver]
    · intro hc
      unfold logSendInit at h
      replace h := bind_eq_ok h
      obtain ⟨_, c5, l9, l10, rfl, h5, h⟩ := h
      replace h := bind_eq_ok h
      obtain ⟨v, c6, l11, l12, rfl, h6, h⟩ := h
      cases hs : asSuccess v with
      | none =>
        rw [hs] at h
        replace h := bind_eq_ok h
        obtain ⟨_, c7, l13, l14, rfl, h7, h⟩ := h
        rw [close_closes h] at hc; cases hc
      | some md =>
        rw [hs] at h
        obtain ⟨rfl, rfl⟩ := say_eq_ok h
        refine ⟨v, ?_, (C98.isSuccess_iff v).2 ⟨md, hs⟩, by simp⟩
        rw [consume_adds h6]
        exact List.mem_append_right _ (List.mem_singleton_self _)

/-- What a quiet call writes to the log does not change the level. -/
theorem quiet_levels {pre : List Ev → Prop} {m : LM σ α} {post : List Ev → α → Prop} (h : C98.Quiet env W L pre m post) {c : Conn σ} (hp : pre c.trace) (name : Bytes) :
    .setLevel name ∉ (m c).2.2 := fun hm => (h c hp).2.1 _ hm

theorem InOrder.one {α β : Type} {R : α → β → Prop} {a : α} {b : β} {bs : List β} (hb : b ∈ bs) (h : R a b) : InOrder R [a] bs := by
  induction bs with
  | nil => exact absurd hb List.not_mem_nil
  | cons x bs ih =>
    rcases List.mem_cons.1 hb with rfl | hb
    · exact .take h (InOrder.none _)
    · exact .skip (ih hb)

theorem InOrder.mem {α β : Type} {R : α → β → Prop} {as : List α} {bs : List β} (h : InOrder R as bs) {a : α} (ha : a ∈ as) : ∃ b ∈ bs, R a b := by
  induction h with
  | nil => exact absurd ha List.not_mem_nil
  | skip _ ih => obtain ⟨b, h1, h2⟩ := ih ha; exact ⟨b, List.mem_cons_of_mem _ h1, h2⟩
  | take hr _ ih =>
    rcases List.mem_cons.1 ha with rfl | ha
    · exact ⟨_, List.mem_cons_self, hr⟩
    · obtain ⟨b, h1, h2⟩ := ih ha; exact ⟨b, List.mem_cons_of_mem _ h1, h2⟩

/-- A trace message is printed at the level trace. -/
theorem printed_trace {m : Bytes} {calls : List LogCall} (h : .trace m ∈ calls) (hn : ∀ name, .setLevel name ∉ calls) (s : LogState) (hs : s.level = .trace ∨ s.level = .traceBytes) :
    (.trace, m) ∈ (logRun calls s).out := by
  obtain ⟨new, h1, h2⟩ := printed (γ := Unit) (P := fun l => l = .trace ∨ l = .traceBytes) (S := fun _ l => l = .trace m) (R := fun _ line => line = (.trace, m))
    (fun _ l s hl hs => by subst hl; refine ⟨_, ?_, rfl⟩; rcases hs with hs | hs <;> simp [LogCall.run, hs, LogLevel.number])
    (InOrder.one (a := ()) h rfl) s hs (fun name hm => absurd hm (hn name))
  obtain ⟨b, g1, rfl⟩ := InOrder.mem h2 List.mem_cons_self
  rw [h1]
  exact List.mem_append_right _ g1

/-- An information is printed at the level info and above. -/
theorem printed_info {m : Bytes} {calls : List LogCall} (h : .info m ∈ calls) (hn : ∀ name, .setLevel name ∉ calls) (s : LogState)
    (hs : s.level = .info ∨ s.level = .trace ∨ s.level = .traceBytes) : (.info, m) ∈ (logRun calls s).out := by
  obtain ⟨new, h1, h2⟩ := printed (γ := Unit) (P := fun l => l = .info ∨ l = .trace ∨ l = .traceBytes) (S := fun _ l => l = .info m) (R := fun _ line => line = (.info, m))
    (fun _ l s hl hs => by subst hl; refine ⟨_, ?_, rfl⟩; rcases hs with hs | hs | hs <;> simp [LogCall.run, hs, LogLevel.number])
    (InOrder.one (a := ()) h rfl) s hs (fun name hm => absurd hm (hn name))
  obtain ⟨b, g1, rfl⟩ := InOrder.mem h2 List.mem_cons_self
  rw [h1]
  exact List.mem_append_right _ g1

end C107

open Spec

section
variable {σ : Type} (env : Env) (W : World σ) (L : LogEnv)

/-- At the level trace, or above it, every message from the server is in the log, in order; a FAILURE is there as an error. -/
theorem C107_answers (fuel : Nat) (user password : Bytes) (ops : List LogOp) (w : σ) (s : LogState) (h0 : s.out = []) (h : Always (fun l => l = .trace ∨ l = .traceBytes) s ops) :
    InOrder (Shows L) (answers (logSession env W L fuel user password ops w).1.trace) (logRun (logSession env W L fuel user password ops w).2 s).out := by
  obtain ⟨new, h1, h2⟩ := C107.printed (P := fun l => l = .trace ∨ l = .traceBytes) (R := Shows L) (fun v l s hr hs => C107.says_shows v l s hr hs)
    (C107.session_writes (env := env) (W := W) (L := L) fuel user password ops w) s h.1 (C107.session_levels h)
  rw [h1, h0]
  exact h2

/-- At every level but none, every FAILURE from the server is in the log as an error, in order. -/
theorem C107_failures (fuel : Nat) (user password : Bytes) (ops : List LogOp) (w : σ) (s : LogState) (h0 : s.out = []) (h : Always (· ≠ .none) s ops) :
    InOrder (ShowsError L) (failureMessages (logSession env W L fuel user password ops w).1.trace) (logRun (logSession env W L fuel user password ops w).2 s).out := by
  obtain ⟨new, h1, h2⟩ := C107.printed (P := (· ≠ .none)) (R := ShowsError L) (fun v l s hr hs => C107.saysError_shows v l s hr hs)
    (C107.errors_of_says (C107.session_writes (env := env) (W := W) (L := L) fuel user password ops w)) s h.1 (C107.session_levels h)
  rw [h1, h0, C107.failureMessages_eq]
  exact h2

/-- At every level: what is printed as an error shows a message from the server that is not a SUCCESS, or an error of closing the connection after a FAILURE; what is printed as
information shows a SUCCESS from the server. -/
theorem C107_nothing_else (fuel : Nat) (user password : Bytes) (ops : List LogOp) (w : σ) (s : LogState) (h0 : s.out = []) :
    ∀ line ∈ (logRun (logSession env W L fuel user password ops w).2 s).out,
      (line.1 = .error → Trouble env W L (logSession env W L fuel user password ops w).1.trace line.2) ∧
      (line.1 = .info → ∃ format v, .recv v ∈ (logSession env W L fuel user password ops w).1.trace ∧ IsSuccess v ∧ line.2 = L.text format v) := by
  refine C107.printed_fits _ s ?_ (by rw [h0]; exact fun _ h => absurd h List.not_mem_nil)
  intro l hl
  rcases C98.session_tells (env := env) (W := W) (L := L) fuel user password ops w l hl with h | ⟨name, rfl, -⟩
  · exact .inl h
  · exact .inr ⟨name, rfl⟩

/-- A connection that was opened has written to the log, at the level trace, the version it reports; if it is still open it has written, at the level info, the SUCCESS it was opened
with. -/
theorem C107_open {fuel : Nat} {user password : Bytes} {w : σ} {c : Conn σ} {l : List LogCall} (h : logCreate env W L fuel user password w = (.ok (), c, l)) (s : LogState) :
    (s.level = .trace ∨ s.level = .traceBytes → ∃ n, (getProtocolVersionNumber c).1 = .ok n ∧ (.trace, ascii s!"Using protocol version {n}") ∈ (logRun l s).out) ∧
    (c.closed = false → s.level = .info ∨ s.level = .trace ∨ s.level = .traceBytes →
      ∃ v, .recv v ∈ c.trace ∧ IsSuccess v ∧ (.info, L.text "Successfully initiated Bolt connection: %+v" v) ∈ (logRun l s).out) := by
  have hn : ∀ name, .setLevel name ∉ l := by
    intro name hm
    refine C107.quiet_levels (C98.quiet_init (env := env) (W := W) (L := L) fuel user password (pre := fun _ => True)) (c := Conn.fresh w) trivial name ?_
    have : logInit env W L fuel user password (Conn.fresh w) = (.ok (), c, l) := h
    rw [this]; exact hm
  obtain ⟨p, l', h1, h2, h3⟩ := C107.create_said h
  constructor
  · intro hs
    refine ⟨p.number, by rw [← h1]; rfl, C107.printed_trace ?_ hn s hs⟩
    have : versionText p = ascii s!"Using protocol version {p.number}" := by cases p <;> decide +kernel
    rw [h2, ← this]
    exact List.mem_cons_self
  · intro hc hs
    obtain ⟨v, g1, g2, g3⟩ := h3 hc
    exact ⟨v, g1, g2, C107.printed_info (by rw [h2]; exact List.mem_cons_of_mem _ g3) hn s hs⟩

/-- A transaction that was committed has written to the log, at the level trace, the SUCCESS that says so. -/
theorem C107_commit {fuel hd : Nat} {c c' : Conn σ} {l : List LogCall} (h : logCommit env W L fuel hd c = (.ok (), c', l)) (s : LogState)
    (hs : s.level = .trace ∨ s.level = .traceBytes) :
    ∃ evs v, c'.trace = c.trace ++ evs ∧ .recv v ∈ evs ∧ IsSuccess v ∧ (.trace, L.text "Got success message committing transaction: %#v" v) ∈ (logRun l s).out := by
  obtain ⟨evs, v, h1, h2, h3, h4⟩ := C107.commit_said h
  refine ⟨evs, v, h1, h2, h3, C107.printed_trace h4 (fun name hm => ?_) s hs⟩
  exact C107.quiet_levels (C98.quiet_commit (env := env) (W := W) (L := L) fuel hd (pre := fun _ => True)) (c := c) trivial name (by rw [h]; exact hm)

/-- The same for one that was rolled back. -/
theorem C107_rollback {fuel hd : Nat} {c c' : Conn σ} {l : List LogCall} (h : logRollback env W L fuel hd c = (.ok (), c', l)) (s : LogState)
    (hs : s.level = .trace ∨ s.level = .traceBytes) :
    ∃ evs v, c'.trace = c.trace ++ evs ∧ .recv v ∈ evs ∧ IsSuccess v ∧ (.trace, L.text "Got success message rolling back transaction: %#v" v) ∈ (logRun l s).out := by
  obtain ⟨evs, v, h1, h2, h3, h4⟩ := C107.rollback_said h
  refine ⟨evs, v, h1, h2, h3, C107.printed_trace h4 (fun name hm => ?_) s hs⟩
  exact C107.quiet_levels (C98.quiet_rollback (env := env) (W := W) (L := L) fuel hd (pre := fun _ => True)) (c := c) trivial name (by rw [h]; exact hm)

/-- A query that returned rows has written each of them to the log, at the level trace and in order, and the metadata it returned. -/
theorem C107_rows {fuel : Nat} {q : Bytes} {ps : Entries} {db : Bytes} {inTx : Bool} {c c' : Conn σ} {rows : List (List Val)} {md : Entries} {l : List LogCall}
    (h : logQueryWithDb env W L fuel q ps db inTx c = (.ok (rows, md), c', l)) (s : LogState) (h0 : s.out = []) (hs : s.level = .trace ∨ s.level = .traceBytes) :
    InOrder (fun row line => ∃ k, line = (.trace, L.text "Got record message: %#v" (.struct .record [.list k row]))) rows (logRun l s).out ∧
    (.trace, L.text "Got success message: %#v" (.struct .success [.map md])) ∈ (logRun l s).out := by
  have hn : ∀ name, .setLevel name ∉ l := fun name hm =>
    C107.quiet_levels (C98.quiet_query (env := env) (W := W) (L := L) fuel q ps db inTx (pre := fun _ => True)) (c := c) trivial name (by rw [h]; exact hm)
  obtain ⟨h1, h2⟩ := C107.query_said h
  refine ⟨?_, C107.printed_trace h2 hn s hs⟩
  obtain ⟨new, g1, g2⟩ := C107.printed (γ := List Val) (P := fun l => l = .trace ∨ l = .traceBytes)
    (R := fun row line => ∃ k, line = (.trace, L.text "Got record message: %#v" (.struct .record [.list k row])))
    (fun row l s hl hs => by obtain ⟨k, rfl⟩ := hl; refine ⟨_, ?_, k, rfl⟩; rcases hs with hs | hs <;> simp [LogCall.run, hs, LogLevel.number])
    h1 s hs (fun name hm => absurd hm (hn name))
  rw [g1, h0]
  exact g2

end

/-- A session that queries one row, and then gets a FAILURE: the trace. -/
example :
    let ops : List LogOp := [.setLevel (ascii "Trace"), .call (.query (ascii "RETURN 1") [] []), .call (.query (ascii "RETURN") [] [])]
    let r := logSession env0 scripted C98.shortTexts 3 (ascii "neo4j") C98.secret ops (sOpen4 ++ [[], sSuccess ++ sOneRow, [], sFailure ++ sSuccess])
    Spec.Always (fun l => l = .trace ∨ l = .traceBytes) ⟨.trace, []⟩ ops ∧ (Spec.answers r.1.trace).length = 6 ∧ (Spec.failureMessages r.1.trace).length = 1 ∧
      ((logRun r.2 ⟨.trace, []⟩).out.filter (·.1 = .error)).length = 1 := by
  refine ⟨⟨.inl rfl, ?_⟩, ?_⟩
  · intro name hn l hm
    have : name = ascii "Trace" := by simpa using hn
    rw [C93.means_iff, this] at hm
    exact .inl (by rw [← hm]; decide +kernel)
  · decide +kernel

/-- Opening a connection succeeds, and so do a query with one row, and committing and rolling back a transaction. -/
example :
    let r := logCreate env0 scripted C98.shortTexts 3 [] [] (sOpen4 ++ [[], sSuccess ++ sOneRow, sSuccess, sSuccess, sSuccess, sSuccess])
    let q := logQueryWithDb env0 scripted C98.shortTexts 3 (ascii "RETURN 1") [] [] false r.2.1
    let b := logBegin env0 scripted C98.shortTexts 3 [] q.2.1
    let m := logCommit env0 scripted C98.shortTexts 3 0 b.2.1
    let b' := logBegin env0 scripted C98.shortTexts 3 [] m.2.1
    let k := logRollback env0 scripted C98.shortTexts 3 1 b'.2.1
    [r.1.kind, q.1.kind, b.1.kind, m.1.kind, b'.1.kind, k.1.kind] = [0, 0, 0, 0, 0, 0] ∧ r.2.1.closed = false := by decide +kernel

end Verif

/-
The programs of Model/Threads execute the functions of Model/Conn, action by action.
-/
import Verif.Model.Threads
import Verif.Proofs.StepsAll
namespace Verif
namespace Prog
variable {σ α β : Type}

theorem run_done (r : CRes α) (c : Conn σ) : (done r : Prog σ α).run c = (r, c) := rfl
theorem run_act (t : List Touch) (g : Conn σ → Conn σ) (k : Conn σ → Prog σ α) (c : Conn σ) : (act t g k).run c = (k c).run (g c) := rfl
theorem run_prim (t : List Touch) (m : CM σ α) : (prim t m).run = m := rfl
theorem run_pure (a : α) : (Pure.pure a : Prog σ α).run = Pure.pure a := rfl
theorem run_fail (e : Err) : (Prog.fail e : Prog σ α).run = CM.fail e := rfl

theorem run_bind' (p : Prog σ α) (f : α → Prog σ β) : (Prog.bind p f).run = CM.bind p.run fun a => (f a).run := by
  funext c
  induction p generalizing c with
  | done r => cases r <;> rfl
  | act t g k ih => exact ih c (g c)

theorem run_bind (p : Prog σ α) (f : α → Prog σ β) : (p >>= f).run = p.run >>= fun a => (f a).run := run_bind' p f

theorem run_mapErr (f : Err → Err) (p : Prog σ α) : (Prog.mapErr f p).run = CM.mapErr f p.run := by
  funext c
  induction p generalizing c with
  | done r => cases r <;> rfl
  | act t g k ih => exact ih c (g c)

theorem run_thenFail (p : Prog σ α) (e : Err) : (Prog.thenFail p e : Prog σ β).run = CM.thenFail p.run e := by
  funext c
  induction p generalizing c with
  | done r => cases r <;> rfl
  | act t g k ih => exact ih c (g c)

/-- Every action of the program is related by `R` to the connection before it. -/
def Each (R : Conn σ → Conn σ → Prop) : Prog σ α → Prop
  | done _ => True
  | act _ g k => ∀ c, R c (g c) ∧ (k c).Each R

theorem Each.prim {R : Conn σ → Conn σ → Prop} {t : List Touch} {m : CM σ α} (h : Steps R m) : (prim t m).Each R := fun c => ⟨h c, trivial⟩

theorem Each.bind {R : Conn σ → Conn σ → Prop} {p : Prog σ α} {f : α → Prog σ β} (hp : p.Each R) (hf : ∀ a, (f a).Each R) :
    (Prog.bind p f).Each R := by
  induction p with
  | done r =>
    cases r with
    | ok a => exact hf a
    | _ => trivial
  | act t g k ih => exact fun c => ⟨(hp c).1, ih c (hp c).2⟩

theorem Each.mapErr {R : Conn σ → Conn σ → Prop} {f : Err → Err} {p : Prog σ α} (hp : p.Each R) : (Prog.mapErr f p).Each R := by
  induction p with
  | done r => cases r <;> trivial
  | act t g k ih => exact fun c => ⟨(hp c).1, ih c (hp c).2⟩

theorem Each.thenFail {R : Conn σ → Conn σ → Prop} {p : Prog σ α} (hp : p.Each R) (e : Err) : (Prog.thenFail p e : Prog σ β).Each R := by
  induction p with
  | done r => cases r <;> trivial
  | act t g k ih => exact fun c => ⟨(hp c).1, ih c (hp c).2⟩

theorem Each.mono {R S : Conn σ → Conn σ → Prop} (h : ∀ c c', R c c' → S c c') {p : Prog σ α} (hp : p.Each R) : p.Each S := by
  induction p with
  | done r => trivial
  | act t g k ih => exact fun c => ⟨h _ _ (hp c).1, ih c (hp c).2⟩

theorem Each.run {R : Conn σ → Conn σ → Prop} (hR : StepRel R) {p : Prog σ α} (hp : p.Each R) (c : Conn σ) : R c (p.run c).2 := by
  induction p generalizing c with
  | done r => exact hR.refl c
  | act t g k ih => exact hR.trans (hp c).1 (ih c (hp c).2 (g c))

section
variable (env : Env) (W : World σ)

theorem run_consumeWith (p : Prog σ Unit) : (consumeWith env p).run = Verif.consumeWith env p.run := by
  unfold consumeWith Verif.consumeWith
  rw [run_bind, run_prim]
  congr 1
  funext v
  cases asFailure v with
  | none => rfl
  | some md => rw [run_bind', run_mapErr]; rfl

theorem run_resetLoop (p : Prog σ Unit) : (n : Nat) → (resetLoop env p n).run = Verif.resetLoop env p.run n
  | 0 => rfl
  | n + 1 => by
    unfold resetLoop Verif.resetLoop
    rw [run_bind, run_mapErr, run_prim]
    congr 1
    funext v
    cases isIgnored v with
    | true => exact run_resetLoop p n
    | false =>
      cases asSuccess v with
      | some md => rfl
      | none =>
        cases asFailure v with
        | some md => exact run_thenFail _ _
        | none => exact run_thenFail _ _

theorem run_resetWith (p : Prog σ Unit) : (resetWith env W p).run = Verif.resetWith env W p.run := by
  unfold resetWith Verif.resetWith
  rw [run_bind, run_mapErr, run_prim]
  congr 1
  funext _ c
  rw [run_act, run_resetLoop]
  rfl

theorem run_txExchange (p : Prog σ Val) (msg : Val) (what : String) :
    (txExchange env W p msg what).run = Verif.txExchange env W p.run msg what := by
  unfold txExchange Verif.txExchange
  rw [run_bind, run_prim]
  congr 1
  funext _
  cases isTxMsg msg with
  | true =>
    simp only [if_true]
    rw [run_bind]
    congr 1
    funext v
    cases asSuccess v <;> rfl
  | false =>
    simp only [Bool.false_eq_true, if_false]
    rw [run_bind, run_prim]
    congr 1
    funext c
    rw [run_bind, run_prim]
    congr 1
    funext _
    rw [run_bind]
    congr 1
    funext v
    rw [run_bind]
    congr 1
    funext v'
    cases asSuccess v <;> cases asSuccess v' <;> rfl

theorem run_rollbackWith (p : Prog σ Val) (h : Nat) : (rollbackWith env W p h).run = Verif.rollbackWith env W p.run h := by
  unfold rollbackWith Verif.rollbackWith
  rw [run_bind, run_prim]
  congr 1
  funext c
  cases c.txClosed h with
  | true => rfl
  | false =>
    simp only [Bool.false_eq_true, if_false]
    rw [run_bind, run_prim]
    congr 1
    funext c
    rw [run_bind, run_txExchange]
    rfl

theorem run_rollbackCurrent (p : Nat → Prog σ Unit) (c : Conn σ) : (rollbackCurrent p).run c = (match c.cur with | some h => (p h).run | none => Pure.pure () : CM σ Unit) c := by
  unfold rollbackCurrent
  rw [run_bind, run_prim]
  show (if c.cur.isSome then (prim [.rd .transaction] CM.get >>= fun c => match c.cur with | some h => p h | none => .done .panic : Prog σ Unit) else Pure.pure ()).run c = _
  cases hc : c.cur with
  | none => rfl
  | some h =>
    show (match c.cur with | some h => p h | none => .done .panic : Prog σ Unit).run c = _
    rw [hc]

theorem run_closeWith (p : Nat → Prog σ Unit) : (closeWith env W p).run = Verif.closeWith env W fun h => (p h).run := by
  unfold closeWith Verif.closeWith
  rw [run_bind, run_prim]
  congr 1
  funext c
  cases c.closed with
  | true => rfl
  | false =>
    simp only [Bool.false_eq_true, if_false]
    have key : ∀ c : Conn σ, (match c.proto.closeMessage with
        | some m => do
          send env W m
          prim [.wr .closed] (closeSock W)
        | none => do
          Pure.pure PUnit.unit
          prim [.wr .closed] (closeSock W) : Prog σ Unit).run = (match c.proto.closeMessage with
        | some m => do
          sendMessage env W m
          closeSock W
        | none => do
          Pure.pure PUnit.unit
          closeSock W) := by
      intro c
      cases c.proto.closeMessage with
      | none => rfl
      | some m => rw [run_bind]; rfl
    have rest : (prim [] CM.get >>= fun c => match c.proto.closeMessage with
        | some m => do
          send env W m
          prim [.wr .closed] (closeSock W)
        | none => do
          Pure.pure PUnit.unit
          prim [.wr .closed] (closeSock W) : Prog σ Unit).run = (CM.get >>= fun c => match c.proto.closeMessage with
        | some m => do
          sendMessage env W m
          closeSock W
        | none => do
          Pure.pure PUnit.unit
          closeSock W) := by
      rw [run_bind, run_prim]
      congr 1
      funext c
      exact key c
    rw [run_bind]
    funext c0
    have e : ∀ (m n : CM σ Unit) (f : Unit → CM σ Unit), m c0 = n c0 → CM.bind m f c0 = CM.bind n f c0 := by
      intro m n f h
      unfold CM.bind
      rw [h]
    refine (e _ _ _ (run_rollbackCurrent p c0)).trans ?_
    show _ = (match c0.cur with | some h => _ | none => _ : CM σ Unit) c0
    cases c0.cur with
    | none => exact congrFun rest c0
    | some h => exact congrFun (congrArg (CM.bind _) (funext fun _ => rest)) c0

theorem run_reset : (fuel : Nat) → (reset env W fuel).run = Verif.reset env W fuel
  | 0 => rfl
  | fuel + 1 => by
    unfold reset Verif.reset
    rw [run_resetWith, run_closeWith]
    congr 2
    funext h
    rw [run_rollbackWith, run_consumeWith, run_reset fuel]

theorem run_consume (fuel : Nat) : (consume env W fuel).run = Verif.consume env W fuel := by
  unfold consume Verif.consume
  rw [run_consumeWith, run_reset]

theorem run_rowsLoop (p : Prog σ Val) : (n : Nat) → (out : List (List Val)) → (rowsLoop p n out).run = Verif.rowsLoop p.run n out
  | 0, _ => rfl
  | n + 1, out => by
    unfold rowsLoop Verif.rowsLoop
    rw [run_bind]
    congr 1
    funext v
    cases asSuccess v with
    | some md => rfl
    | none =>
      cases asRecord v with
      | some fs => exact run_rowsLoop p n _
      | none => rfl

/-- The program of `runQuery`, executed without interruption, is `runQuery`. -/
theorem run_runQuery (fuel : Nat) (q : Bytes) (ps : Entries) (db : Bytes) (inTx : Bool) :
    (runQuery env W fuel q ps db inTx).run = Verif.runQuery env W fuel q ps db inTx := by
  unfold runQuery Verif.runQuery
  rw [run_bind, run_prim]
  congr 1
  funext c
  cases c.closed with
  | true => rfl
  | false =>
    simp only [Bool.false_eq_true, if_false]
    rw [run_bind, run_prim]
    congr 1
    funext c
    rw [run_bind, run_prim]
    congr 1
    funext _
    rw [run_bind, run_prim]
    congr 1
    funext _
    rw [run_bind, run_consume]
    congr 1
    funext v
    cases asSuccess v with
    | none => rfl
    | some md =>
      funext c
      simp only [run_act, run_rowsLoop, run_consume]
      rfl

theorem run_begin (fuel : Nat) (db : Bytes) : (beginWithDatabase env W fuel db).run = Verif.beginWithDatabase env W fuel db := by
  unfold beginWithDatabase Verif.beginWithDatabase
  rw [run_bind, run_prim]
  congr 1
  funext c
  cases c.cur.isSome with
  | true => rfl
  | false =>
    simp only [Bool.false_eq_true, if_false]
    rw [run_bind, run_prim]
    congr 1
    funext c
    cases c.closed with
    | true => rfl
    | false =>
      simp only [Bool.false_eq_true, if_false]
      rw [run_bind, run_prim]
      congr 1
      funext c
      rw [run_bind, run_txExchange, run_consume]
      congr 1

theorem run_rollback (fuel : Nat) (h : Nat) : (rollback env W fuel h).run = Verif.rollback env W fuel h := by
  unfold rollback Verif.rollback
  rw [run_rollbackWith, run_consume]

theorem run_commit (fuel : Nat) (h : Nat) : (commit env W fuel h).run = Verif.commit env W fuel h := by
  unfold commit Verif.commit commitWith
  rw [run_bind, run_prim]
  congr 1
  funext c
  cases c.txClosed h with
  | true => rfl
  | false =>
    simp only [Bool.false_eq_true, if_false]
    rw [run_bind, run_prim]
    congr 1
    funext c
    rw [run_bind, run_txExchange, run_consume]
    rfl

theorem run_close (fuel : Nat) : (close env W fuel).run = Verif.close env W fuel := by
  unfold close Verif.close
  rw [run_closeWith]
  congr 1
  funext h
  exact run_rollback env W fuel h

theorem run_makeIdle (fuel : Nat) : (makeIdle env W fuel).run = Verif.makeIdle env W fuel := by
  funext c
  unfold makeIdle Verif.makeIdle
  rw [run_rollbackCurrent]
  show _ = (match c.cur with | some h => Verif.rollback env W fuel h | none => Pure.pure () : CM σ Unit) c
  cases c.cur with
  | none => rfl
  | some h => exact congrFun (run_rollback env W fuel h) c

variable {R : Conn σ → Conn σ → Prop}

/-- What each primitive action does. -/
structure Acts (R : Conn σ → Conn σ → Prop) : Prop where
  same : ∀ c, R c c
  send : ∀ v, Steps R (sendMessage env W v)
  recv : Steps R (receive env)
  endTx : ∀ h c, R c (c.endTx h)
  sock : Steps R (closeSock W)

section
variable {env : Env} {W : World σ} (A : Acts env W R)
include A

theorem Acts.consumeWith {p : Prog σ Unit} (hp : p.Each R) : (consumeWith env p).Each R := by
  unfold Prog.consumeWith
  refine Each.bind (Each.prim A.recv) fun v => ?_
  cases asFailure v with
  | none => trivial
  | some md => exact Each.bind hp.mapErr fun _ => trivial

theorem Acts.resetLoop {p : Prog σ Unit} (hp : p.Each R) : (n : Nat) → (resetLoop env p n).Each R
  | 0 => trivial
  | n + 1 => by
    unfold Prog.resetLoop
    refine Each.bind (Each.mapErr (Each.prim A.recv)) fun v => ?_
    cases isIgnored v with
    | true => exact Acts.resetLoop hp n
    | false =>
      cases asSuccess v with
      | some md => trivial
      | none =>
        cases asFailure v with
        | some md => exact hp.thenFail _
        | none => exact hp.thenFail _

theorem Acts.resetWith {p : Prog σ Unit} (hp : p.Each R) : (resetWith env W p).Each R := by
  unfold Prog.resetWith
  refine Each.bind (Each.mapErr (Each.prim (A.send _))) fun _ => ?_
  exact fun c => ⟨A.same c, A.resetLoop hp _⟩

theorem Acts.get (t : List Touch) : (prim t (CM.get : CM σ (Conn σ))).Each R := Each.prim fun c => A.same c

theorem Acts.txExchange {p : Prog σ Val} (hp : p.Each R) (msg : Val) (what : String) : (txExchange env W p msg what).Each R := by
  unfold Prog.txExchange
  refine Each.bind (Each.prim (A.send _)) fun _ => ?_
  cases isTxMsg msg with
  | true =>
    refine Each.bind hp fun v => ?_
    cases asSuccess v <;> trivial
  | false =>
    refine Each.bind (A.get _) fun c => ?_
    refine Each.bind (Each.prim (A.send _)) fun _ => ?_
    refine Each.bind hp fun v => ?_
    refine Each.bind hp fun v' => ?_
    cases asSuccess v <;> cases asSuccess v' <;> trivial

theorem Acts.rollbackWith {p : Prog σ Val} (hp : p.Each R) (h : Nat) : (rollbackWith env W p h).Each R := by
  unfold Prog.rollbackWith
  refine Each.bind (A.get _) fun c => ?_
  cases c.txClosed h with
  | true => trivial
  | false =>
    refine Each.bind (A.get _) fun c => ?_
    refine Each.bind (A.txExchange hp _ _) fun _ => ?_
    exact Each.prim fun c => A.endTx h c

theorem Acts.rollbackCurrent {p : Nat → Prog σ Unit} (hp : ∀ h, (p h).Each R) : (rollbackCurrent p).Each R := by
  unfold Prog.rollbackCurrent
  refine Each.bind (A.get _) fun c => ?_
  split
  · refine Each.bind (A.get _) fun c => ?_
    cases c.cur with
    | none => trivial
    | some h => exact hp h
  · trivial

theorem Acts.closeWith {p : Nat → Prog σ Unit} (hp : ∀ h, (p h).Each R) : (closeWith env W p).Each R := by
  unfold Prog.closeWith
  refine Each.bind (A.get _) fun c => ?_
  cases c.closed with
  | true => trivial
  | false =>
    have key : ∀ c : Conn σ, (match c.proto.closeMessage with
        | some m => do
          Prog.send env W m
          prim [.wr .closed] (closeSock W)
        | none => do
          Pure.pure PUnit.unit
          prim [.wr .closed] (closeSock W) : Prog σ Unit).Each R := by
      intro c
      cases c.proto.closeMessage with
      | none => exact Each.bind (p := Pure.pure PUnit.unit) trivial fun _ => Each.prim A.sock
      | some m => exact Each.bind (Each.prim (A.send _)) fun _ => Each.prim A.sock
    exact Each.bind (A.rollbackCurrent hp) fun _ => Each.bind (A.get _) key

theorem Acts.reset : (fuel : Nat) → (reset env W fuel).Each R
  | 0 => trivial
  | fuel + 1 => A.resetWith (A.closeWith fun h => A.rollbackWith (A.consumeWith (Acts.reset fuel)) h)

theorem Acts.consume (fuel : Nat) : (consume env W fuel).Each R := A.consumeWith (A.reset fuel)

theorem Acts.rowsLoop {p : Prog σ Val} (hp : p.Each R) : (n : Nat) → (out : List (List Val)) → (rowsLoop p n out).Each R
  | 0, _ => trivial
  | n + 1, out => by
    unfold Prog.rowsLoop
    refine Each.bind hp fun v => ?_
    cases asSuccess v with
    | some md => trivial
    | none =>
      cases asRecord v with
      | some fs => exact Acts.rowsLoop hp n _
      | none => trivial

theorem Acts.runQuery (fuel : Nat) (q : Bytes) (ps : Entries) (db : Bytes) (inTx : Bool) : (runQuery env W fuel q ps db inTx).Each R := by
  unfold Prog.runQuery
  refine Each.bind (A.get _) fun c => ?_
  cases c.closed with
  | true => trivial
  | false =>
    refine Each.bind (A.get _) fun c => ?_
    refine Each.bind (Each.prim (A.send _)) fun _ => ?_
    refine Each.bind (Each.prim (A.send _)) fun _ => ?_
    refine Each.bind (A.consume fuel) fun v => ?_
    cases asSuccess v with
    | none => trivial
    | some md => exact fun c => ⟨A.same c, A.rowsLoop (A.consume fuel) _ _⟩

theorem Acts.rollback (fuel h : Nat) : (rollback env W fuel h).Each R := A.rollbackWith (A.consume fuel) h

theorem Acts.commit (fuel h : Nat) : (commit env W fuel h).Each R := by
  unfold Prog.commit
  refine Each.bind (A.get _) fun c => ?_
  cases c.txClosed h with
  | true => trivial
  | false =>
    refine Each.bind (A.get _) fun c => ?_
    refine Each.bind (A.txExchange (A.consume fuel) _ _) fun _ => ?_
    exact Each.prim fun c => A.endTx h c

theorem Acts.close (fuel : Nat) : (close env W fuel).Each R := A.closeWith fun h => A.rollback fuel h

theorem Acts.makeIdle (fuel : Nat) : (makeIdle env W fuel).Each R := A.rollbackCurrent fun h => A.rollback fuel h

theorem Acts.begin_ (hb : ∀ c, R c { c with txs := c.txs ++ [false], cur := some c.txs.length }) (fuel : Nat) (db : Bytes) : (beginWithDatabase env W fuel db).Each R := by
  unfold Prog.beginWithDatabase
  refine Each.bind (A.get _) fun c => ?_
  cases c.cur.isSome with
  | true => trivial
  | false =>
    refine Each.bind (A.get _) fun c => ?_
    cases c.closed with
    | true => trivial
    | false =>
      refine Each.bind (A.get _) fun c => ?_
      refine Each.bind (A.txExchange (A.consume fuel) _ _) fun _ => ?_
      exact Each.bind (Each.prim fun c => hb c) fun _ => Each.bind (A.get _) fun _ => trivial

end
end
end Prog
end Verif

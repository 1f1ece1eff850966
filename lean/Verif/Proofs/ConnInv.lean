/-
Invariant of a connection over all histories and all servers.
-/
import Verif.Spec.History
import Verif.Proofs.CM
namespace Verif

/-- At most one transaction handle is open, it is the one the connection refers to, a closed connection has none, and the connection is
closed exactly when its socket is. -/
structure Core.Inv (k : Core) : Prop where
  open_iff : ∀ h, k.txs[h]? = some false ↔ k.cur = some h
  closed_cur : k.closed = true → k.cur = none
  sock : k.closed = !k.sock

/-- The core after `endTx`. -/
def Core.endTx (k : Core) (h : Nat) : Core := { k with cur := none, txs := k.txs.set h true }

theorem core_endTx {σ : Type} (c : Conn σ) (h : Nat) : (c.endTx h).core = c.core.endTx h := rfl

theorem txClosed_false {σ : Type} {c : Conn σ} {h : Nat} : c.txClosed h = false ↔ c.txs[h]? = some false := by
  unfold Conn.txClosed
  rw [List.getD_eq_getElem?_getD]
  cases c.txs[h]? with
  | none => simp
  | some b => simp

theorem Core.Inv.endTx {k : Core} (hk : k.Inv) {h : Nat} (ho : k.txs[h]? = some false) : (k.endTx h).Inv := by
  refine ⟨fun h' => ?_, fun _ => rfl, hk.sock⟩
  simp only [Core.endTx, List.getElem?_set]
  have hc := (hk.open_iff h).mp ho
  by_cases he : h = h'
  · subst he
    obtain ⟨hl, _⟩ := List.getElem?_eq_some_iff.mp ho
    simp [hl]
  · simp only [he, if_false, reduceCtorEq, iff_false]
    intro h2
    have := (hk.open_iff h').mp h2
    rw [hc] at this
    exact he (Option.some.inj this)

section
variable {σ : Type} (env : Env) (W : World σ)

/-- The invariant is kept by `m`, whatever it returns. -/
def Keeps {α : Type} (m : CM σ α) : Prop := Steps (fun c c' => c.core.Inv → c'.core.Inv) m

theorem keepsRel : StepRel (fun (c c' : Conn σ) => c.core.Inv → c'.core.Inv) := ⟨fun _ h => h, fun h1 h2 h => h2 (h1 h)⟩

theorem Keeps.of_core {α : Type} {m : CM σ α} (h : ∀ c, (m c).2.core = c.core) : Keeps m := by
  intro c hi; rw [h c]; exact hi

theorem Keeps.send (v : Val) : Keeps (sendMessage env W v) := .of_core (sendMessage_core env W v)

theorem Keeps.receive : Keeps (receive (σ := σ) env) := .of_core (receive_core env)

theorem Keeps.consumeWith {reset : CM σ Unit} (hr : Keeps reset) : Keeps (consumeWith env reset) := by
  unfold Verif.consumeWith
  refine Steps.bind keepsRel (Keeps.receive env) fun v => ?_
  split
  · exact Steps.bind keepsRel hr.mapErr fun _ => Steps.fail keepsRel _
  · exact Steps.pure keepsRel _

theorem Keeps.resetLoop {close : CM σ Unit} (hc : Keeps close) : (n : Nat) → Keeps (resetLoop env close n)
  | 0 => fun _ h => h
  | n + 1 => by
    unfold Verif.resetLoop
    refine Steps.bind keepsRel (Steps.mapErr (Keeps.receive env)) fun v => ?_
    split
    · exact Keeps.resetLoop hc n
    · split
      · exact Steps.pure keepsRel _
      · split
        · exact Steps.thenFail hc _
        · exact Steps.thenFail hc _

theorem Keeps.resetWith {close : CM σ Unit} (hc : Keeps close) : Keeps (resetWith env W close) := by
  unfold Verif.resetWith
  refine Steps.bind keepsRel (Steps.mapErr (Keeps.send env W _)) fun _ => ?_
  intro c
  exact Keeps.resetLoop env hc _ c

theorem Keeps.txExchange {consume : CM σ Val} (hc : Keeps consume) (msg : Val) (what : String) : Keeps (txExchange env W consume msg what) := by
  unfold Verif.txExchange
  refine Steps.bind keepsRel (Keeps.send env W _) fun _ => ?_
  split
  · refine Steps.bind keepsRel hc fun v => ?_
    split
    · exact Steps.fail keepsRel _
    · exact Steps.pure keepsRel _
  · refine Steps.bind keepsRel (Steps.get keepsRel) fun c => ?_
    refine Steps.bind keepsRel (Keeps.send env W _) fun _ => ?_
    refine Steps.bind keepsRel hc fun v => ?_
    refine Steps.bind keepsRel hc fun v' => ?_
    split
    · exact Steps.fail keepsRel _
    · split
      · exact Steps.fail keepsRel _
      · exact Steps.pure keepsRel _

/-- Exchange a transaction message, then mark handle `h` as closed: the common shape of `Commit` and `Rollback`. -/
def endWith (consume : CM σ Val) (m : Proto → Val) (what : String) (h : Nat) : CM σ Unit := do
  if (← CM.get).txClosed h then CM.fail (.new "Transaction already closed")
  else do
    Verif.txExchange env W consume (m (← CM.get).proto) what
    CM.modify (·.endTx h)

theorem rollbackWith_eq (consume : CM σ Val) (h : Nat) :
    rollbackWith env W consume h = endWith env W consume Proto.txRollbackMessage "Unrecognized response type rolling back transaction" h := rfl

theorem commitWith_eq (consume : CM σ Val) (h : Nat) :
    commitWith env W consume h = endWith env W consume Proto.txCommitMessage "Unrecognized response type committing transaction" h := rfl

theorem endWith_apply (consume : CM σ Val) (m : Proto → Val) (what : String) (h : Nat) (c : Conn σ) :
    endWith env W consume m what h c =
      if c.txClosed h then (.err (.new "Transaction already closed"), c)
      else (Verif.txExchange env W consume (m c.proto) what >>= fun _ => CM.modify (·.endTx h)) c := by
  unfold endWith
  rw [CM.get_bind]
  cases c.txClosed h <;> rfl

theorem endWith_ok {reset : CM σ Unit} {m : Proto → Val} {what : String} {h : Nat} {c c' : Conn σ}
    (hok : endWith env W (Verif.consumeWith env reset) m what h c = (.ok (), c')) :
    c.txClosed h = false ∧ ∃ c1, Verif.txExchange env W (Verif.consumeWith env reset) (m c.proto) what c = (.ok (), c1) ∧ c' = c1.endTx h := by
  rw [endWith_apply] at hok
  cases hcl : c.txClosed h with
  | true => rw [hcl, if_pos rfl] at hok; cases hok
  | false =>
    rw [hcl, if_neg (by simp)] at hok
    obtain ⟨_, c1, h1, h2⟩ := CM.bind_eq_ok.mp hok
    rw [CM.modify_apply] at h2
    cases h2
    exact ⟨rfl, c1, h1, rfl⟩

theorem endWith_ok_core {reset : CM σ Unit} {m : Proto → Val} {what : String} {h : Nat} {c c' : Conn σ}
    (hok : endWith env W (Verif.consumeWith env reset) m what h c = (.ok (), c')) :
    c.txClosed h = false ∧ c'.core = c.core.endTx h := by
  obtain ⟨h1, c1, h2, rfl⟩ := endWith_ok env W hok
  refine ⟨h1, ?_⟩
  rw [core_endTx, txExchange_ok_core env W h2]

theorem Keeps.endWith {reset : CM σ Unit} (hr : Keeps reset) (m : Proto → Val) (what : String) (h : Nat) :
    Keeps (Verif.endWith env W (Verif.consumeWith env reset) m what h) := by
  intro c hi
  have hx := Keeps.txExchange env W (Keeps.consumeWith env hr) (m c.proto) what c hi
  cases hcl : c.txClosed h with
  | true => rw [endWith_apply, hcl, if_pos rfl]; exact hi
  | false =>
    match hxx : Verif.txExchange env W (Verif.consumeWith env reset) (m c.proto) what c with
    | (.ok (), c1) =>
      rw [endWith_apply, hcl, if_neg (by simp), CM.bind_ok hxx, CM.modify_apply, core_endTx, txExchange_ok_core env W hxx]
      exact hi.endTx (txClosed_false.mp hcl)
    | (.err e, c1) => rw [endWith_apply, hcl, if_neg (by simp), CM.bind_err hxx]; rw [hxx] at hx; exact hx
    | (.panic, c1) => rw [endWith_apply, hcl, if_neg (by simp), CM.bind_panic hxx]; rw [hxx] at hx; exact hx
    | (.fuel, c1) => rw [endWith_apply, hcl, if_neg (by simp), CM.bind_fuel hxx]; rw [hxx] at hx; exact hx

/-- Send the closing message and close the socket: connection.go 441-459. -/
def goodbye : CM σ Unit := do
  match (← CM.get).proto.closeMessage with
  | some m => sendMessage env W m
  | none => Pure.pure ()
  closeSock W

/-- The transaction, if any, is rolled back first: connection.go 431-439. -/
def endCur (rollback : Nat → CM σ Unit) : CM σ Unit := do
  match (← CM.get).cur with
  | some h => rollback h
  | none => Pure.pure ()

theorem closeWith_apply (rollback : Nat → CM σ Unit) (c : Conn σ) : closeWith env W rollback c =
    if c.closed then (.err errClosed, c) else (endCur rollback >>= fun _ => goodbye env W) c := by
  unfold closeWith endCur goodbye
  rw [CM.get_bind]
  cases c.closed with
  | true => rfl
  | false =>
    simp only [Bool.false_eq_true, if_false, CM.bind_apply, CM.get_apply]
    cases hc : c.cur with
    | none => simp only [CM.pure_apply, CM.bind_apply, CM.get_apply]; rfl
    | some h => simp only [CM.bind_apply, CM.get_apply]; rfl

theorem endCur_apply (rollback : Nat → CM σ Unit) (c : Conn σ) : endCur rollback c =
    match c.cur with
    | some h => rollback h c
    | none => (.ok (), c) := by
  unfold endCur
  rw [CM.get_bind]
  cases c.cur <;> rfl

/-- `closeSock` in terms of the core. -/
theorem closeSock_core (c : Conn σ) : (closeSock W c).2.core = { c.core with sock := false, closed := true } := by
  unfold closeSock
  dsimp only
  split <;> rfl

theorem goodbye_apply (c : Conn σ) : goodbye env W c =
    match c.proto.closeMessage with
    | some m => (sendMessage env W m >>= fun _ => closeSock W) c
    | none => closeSock W c := by
  unfold goodbye
  rw [CM.get_bind]
  cases c.proto.closeMessage <;> rfl

theorem keeps_closeSock {c : Conn σ} (hi : c.core.Inv) (hc : c.cur = none) : (closeSock W c).2.core.Inv := by
  rw [closeSock_core]
  refine ⟨hi.open_iff, fun _ => hc, rfl⟩

theorem keeps_goodbye {c : Conn σ} (hi : c.core.Inv) (hc : c.cur = none) : (goodbye env W c).2.core.Inv := by
  rw [goodbye_apply]
  cases c.proto.closeMessage with
  | none => exact keeps_closeSock W hi hc
  | some m =>
    have hk := sendMessage_core env W m c
    show ((sendMessage env W m >>= fun _ => closeSock W) c).2.core.Inv
    match hs : sendMessage env W m c with
    | (.ok (), c1) =>
      rw [hs] at hk
      rw [CM.bind_ok hs]
      exact keeps_closeSock W (show c1.core.Inv by rw [hk]; exact hi) (show c1.core.cur = none by rw [hk]; exact hc)
    | (.err e, c1) => rw [CM.bind_err hs]; rw [hs] at hk; show c1.core.Inv; rw [hk]; exact hi
    | (.panic, c1) => rw [CM.bind_panic hs]; rw [hs] at hk; show c1.core.Inv; rw [hk]; exact hi
    | (.fuel, c1) => rw [CM.bind_fuel hs]; rw [hs] at hk; show c1.core.Inv; rw [hk]; exact hi

/-- After a successful roll-back of the current transaction there is none. -/
theorem endCur_ok_cur {reset : CM σ Unit} {c c' : Conn σ}
    (h : endCur (rollbackWith env W (Verif.consumeWith env reset)) c = (.ok (), c')) : c'.cur = none := by
  rw [endCur_apply] at h
  cases hc : c.cur with
  | none => simp only [hc] at h; cases h; exact hc
  | some n =>
    simp only [hc, rollbackWith_eq] at h
    have := (endWith_ok_core env W h).2
    exact congrArg Core.cur this

theorem Keeps.closeWith {reset : CM σ Unit} (hr : Keeps reset) :
    Keeps (closeWith env W (rollbackWith env W (Verif.consumeWith env reset))) := by
  intro c hi
  rw [closeWith_apply]
  cases hcl : c.closed with
  | true => exact hi
  | false =>
    rw [if_neg (by simp)]
    have he : Keeps (endCur (rollbackWith env W (Verif.consumeWith env reset))) := by
      intro c hi
      rw [endCur_apply]
      cases c.cur with
      | none => exact hi
      | some h => exact Keeps.endWith env W hr _ _ h c hi
    have hi2 := he c hi
    match h : endCur (rollbackWith env W (Verif.consumeWith env reset)) c with
    | (.ok (), c1) =>
      rw [CM.bind_ok h]; rw [h] at hi2
      exact keeps_goodbye env W hi2 (endCur_ok_cur env W h)
    | (.err e, c1) => rw [CM.bind_err h]; rw [h] at hi2; exact hi2
    | (.panic, c1) => rw [CM.bind_panic h]; rw [h] at hi2; exact hi2
    | (.fuel, c1) => rw [CM.bind_fuel h]; rw [h] at hi2; exact hi2

theorem Keeps.reset : (fuel : Nat) → Keeps (reset env W fuel)
  | 0 => fun _ h => h
  | fuel + 1 => Keeps.resetWith env W (Keeps.closeWith env W (Keeps.reset fuel))

theorem Keeps.consume (fuel : Nat) : Keeps (consume env W fuel) := Keeps.consumeWith env (Keeps.reset env W fuel)

theorem Keeps.rollback (fuel h : Nat) : Keeps (rollback env W fuel h) := Keeps.endWith env W (Keeps.reset env W fuel) _ _ h

theorem Keeps.commit (fuel h : Nat) : Keeps (commit env W fuel h) := Keeps.endWith env W (Keeps.reset env W fuel) _ _ h

theorem Keeps.close (fuel : Nat) : Keeps (close env W fuel) := Keeps.closeWith env W (Keeps.reset env W fuel)

theorem makeIdle_eq (fuel : Nat) : makeIdle env W fuel = endCur (rollback env W fuel) := rfl

theorem Keeps.makeIdle (fuel : Nat) : Keeps (makeIdle env W fuel) := by
  intro c hi
  rw [makeIdle_eq, endCur_apply]
  cases c.cur with
  | none => exact hi
  | some h => exact Keeps.rollback env W fuel h c hi

/-- A new transaction handle: connection.go 521-526. -/
def addTx : CM σ Nat := fun c => (.ok c.txs.length, { c with txs := c.txs ++ [false], cur := some c.txs.length })

/-- `Begin` case by case. -/
theorem begin_apply (fuel : Nat) (db : Bytes) (c : Conn σ) : beginWithDatabase env W fuel db c =
    if c.cur.isSome then (.err (.new "transaction already open"), c)
    else if c.closed then (.err (.new "can not open transaction on closed connection"), c)
    else (Verif.txExchange env W (Verif.consume env W fuel) (c.proto.txBeginMessage db c.mode) "Unrecognized response type beginning transaction" >>=
      fun _ => addTx) c := by
  unfold beginWithDatabase
  rw [CM.get_bind]
  cases c.cur.isSome with
  | true => rfl
  | false =>
    simp only [Bool.false_eq_true, if_false, CM.get_bind]
    cases c.closed with
    | true => rfl
    | false => rfl

theorem Core.Inv.addTx {k : Core} (hk : k.Inv) (hcur : k.cur = none) (hcl : k.closed = false) :
    Core.Inv { k with txs := k.txs ++ [false], cur := some k.txs.length } := by
  refine ⟨fun h' => ?_, fun h => by simp [hcl] at h, hk.sock⟩
  simp only [Option.some.injEq]
  by_cases hl : h' < k.txs.length
  · rw [List.getElem?_append_left hl, hk.open_iff h', hcur]
    simp; omega
  · rw [List.getElem?_append_right (by omega)]
    by_cases he : h' = k.txs.length
    · subst he; simp
    · have : h' - k.txs.length ≠ 0 := by omega
      obtain ⟨n, hn⟩ := Nat.exists_eq_succ_of_ne_zero this
      simp [hn]; omega

theorem Keeps.begin (fuel : Nat) (db : Bytes) : Keeps (beginWithDatabase env W fuel db) := by
  intro c hi
  rw [begin_apply]
  have hx := Keeps.txExchange env W (Keeps.consume env W fuel) (c.proto.txBeginMessage db c.mode)
    "Unrecognized response type beginning transaction" c hi
  split
  · exact hi
  · split
    · exact hi
    · rename_i h1 h2
      match hxx : Verif.txExchange env W (Verif.consume env W fuel) (c.proto.txBeginMessage db c.mode)
          "Unrecognized response type beginning transaction" c with
      | (.ok (), c1) =>
        rw [CM.bind_ok hxx]
        have hk := txExchange_ok_core env W hxx
        rw [hxx] at hx
        have h3 : c1.core.cur = none := by rw [hk]; show c.cur = none; cases hc : c.cur <;> simp_all
        have h4 : c1.core.closed = false := by rw [hk]; show c.closed = false; simpa using h2
        exact hx.addTx h3 h4
      | (.err e, c1) => rw [CM.bind_err hxx]; rw [hxx] at hx; exact hx
      | (.panic, c1) => rw [CM.bind_panic hxx]; rw [hxx] at hx; exact hx
      | (.fuel, c1) => rw [CM.bind_fuel hxx]; rw [hxx] at hx; exact hx

theorem Keeps.rowsLoop {consume : CM σ Val} (hc : Keeps consume) : (n : Nat) → (out : List (List Val)) → Keeps (rowsLoop consume n out)
  | 0, _ => fun _ h => h
  | n + 1, out => by
    unfold Verif.rowsLoop
    refine Steps.bind keepsRel hc fun v => ?_
    split
    · exact Steps.pure keepsRel _
    · split
      · exact Keeps.rowsLoop hc n _
      · exact Steps.fail keepsRel _

theorem Keeps.runQuery (fuel : Nat) (q : Bytes) (ps : Entries) (db : Bytes) (inTx : Bool) : Keeps (runQuery env W fuel q ps db inTx) := by
  unfold Verif.runQuery
  refine Steps.bind keepsRel (Steps.get keepsRel) fun c => ?_
  split
  · exact Steps.fail keepsRel _
  · refine Steps.bind keepsRel (Steps.get keepsRel) fun c => ?_
    refine Steps.bind keepsRel (Keeps.send env W _) fun _ => ?_
    refine Steps.bind keepsRel (Keeps.send env W _) fun _ => ?_
    refine Steps.bind keepsRel (Keeps.consume env W fuel) fun v => ?_
    split
    · exact Steps.fail keepsRel _
    · intro c; exact Keeps.rowsLoop (Keeps.consume env W fuel) _ _ c

theorem checkDb_snd (db : Bytes) (c : Conn σ) : (checkDb db c).2 = c := by
  unfold checkDb
  rw [CM.get_bind]
  split <;> rfl

theorem Keeps.checkDb (db : Bytes) : Keeps (checkDb (σ := σ) db) := by
  intro c hi; rw [checkDb_snd]; exact hi

theorem Keeps.void {α : Type} {m : CM σ α} (h : Keeps m) : Keeps m.void := Steps.bind keepsRel h fun _ => Steps.pure keepsRel _

theorem Keeps.validateOpen : Keeps (validateOpen W) := by
  refine .of_core fun c => ?_
  unfold Verif.validateOpen
  split
  · rfl
  · split
    · rfl
    · rfl
    · split <;> rfl

theorem Keeps.step (fuel : Nat) (op : Op) : Keeps (step env W fuel op) := by
  cases op with
  | query q ps db => exact Keeps.void (Steps.bind keepsRel (Keeps.checkDb db) fun _ => Keeps.runQuery env W fuel q ps db false)
  | exec q ps db => exact Keeps.void (Steps.bind keepsRel (Keeps.checkDb db) fun _ =>
      Steps.bind keepsRel (Keeps.runQuery env W fuel q ps db false) fun _ => Steps.pure keepsRel _)
  | begin_ db => exact Keeps.void (Keeps.begin env W fuel db)
  | commit h => exact Keeps.commit env W fuel h
  | rollback h => exact Keeps.rollback env W fuel h
  | txQuery h q ps db => exact Keeps.void (Steps.bind keepsRel (Keeps.checkDb db) fun _ => Keeps.runQuery env W fuel q ps db true)
  | txExec h q ps => exact Keeps.void (Steps.bind keepsRel (Keeps.checkDb _) fun _ =>
      Steps.bind keepsRel (Keeps.runQuery env W fuel q ps _ false) fun _ => Steps.pure keepsRel _)
  | txExecDb h q ps db => exact Keeps.void (Steps.bind keepsRel (Keeps.checkDb db) fun _ =>
      Steps.bind keepsRel (Keeps.runQuery env W fuel q ps db true) fun _ => Steps.pure keepsRel _)
  | close => exact Keeps.close env W fuel
  | makeIdle => exact Keeps.makeIdle env W fuel
  | validateOpen => exact Keeps.void (Keeps.validateOpen W)
  | setChunkSize n => exact fun c hi => ⟨hi.open_iff, hi.closed_cur, hi.sock⟩

theorem run_inv (fuel : Nat) (ops : List Op) : (c : Conn σ) → c.core.Inv → (run env W fuel ops c).core.Inv := by
  induction ops with
  | nil => intro c h; exact h
  | cons op ops ih => intro c h; exact ih _ (Keeps.step env W fuel op c h)

theorem handshake_core (c : Conn σ) : (handshake W c).2.core = c.core := by
  unfold handshake
  dsimp only
  split
  · rfl
  · split
    · rfl
    · split
      · rfl
      · split <;> rfl

theorem Keeps.sendInit (fuel : Nat) (m : Val) : Keeps (sendInit env W fuel m) := by
  unfold Verif.sendInit
  refine Steps.bind keepsRel (Keeps.send env W _) fun _ => ?_
  refine Steps.bind keepsRel (Keeps.consume env W fuel) fun v => ?_
  split
  · exact Steps.pure keepsRel _
  · exact Keeps.close env W fuel

/-- `CreateBoltConn` step by step. -/
theorem initConn_ok {fuel : Nat} {user password : Bytes} {c c' : Conn σ} (h : initConn env W fuel user password c = (.ok (), c')) :
    ∃ c1 vb c2 p n, createConnection W c = (.ok (), c1) ∧ handshake W c1 = (.ok vb, c2) ∧ (getProtocol vb).1 = some p ∧ (getProtocol vb).2.1 = n ∧
      sendInit env W fuel (p.initMessage clientID (buildAuthTokenBasic user password)) { c2 with proto := p, version := n, versionBytes := vb } = (.ok (), c') := by
  unfold initConn at h
  obtain ⟨_, c1, h1, h⟩ := CM.bind_eq_ok.mp h
  obtain ⟨vb, c2, h2, h⟩ := CM.bind_eq_ok.mp h
  rw [CM.mapErr_eq_ok] at h2
  match hp : getProtocol vb with
  | (some p, n, e) =>
    simp only [hp] at h
    obtain ⟨_, c3, h3, h⟩ := CM.bind_eq_ok.mp h
    rw [CM.modify_apply] at h3
    cases h3
    exact ⟨c1, vb, c2, p, n, h1, h2, by rw [hp], by rw [hp], h⟩
  | (none, n, some e) => simp [hp, CM.fail] at h
  | (none, n, none) => simp [hp, CM.fail] at h

theorem createConnection_ok {c c' : Conn σ} (h : createConnection W c = (.ok (), c')) :
    (W.dial c.world).2 = true ∧ c' = { c with world := (W.dial c.world).1, sock := true, closed := false } := by
  unfold createConnection at h
  dsimp only at h
  split at h
  · rename_i hd; cases h; exact ⟨hd, rfl⟩
  · cases h

theorem create_inv {fuel : Nat} {user password : Bytes} {w : σ} {c : Conn σ} (h : createBoltConn env W fuel user password w = (.ok (), c)) :
    c.core.Inv := by
  obtain ⟨c1, vb, c2, p, n, h1, h2, h3, _, h4⟩ := initConn_ok env W h
  obtain ⟨_, rfl⟩ := createConnection_ok W h1
  have hk := handshake_core W { Conn.fresh w with world := (W.dial w).1, sock := true, closed := false }
  rw [show (Conn.fresh w).world = w from rfl] at h2
  rw [h2] at hk
  have hi : c2.core.Inv := by
    rw [hk]
    exact ⟨fun h => by simp [Conn.core, Conn.fresh], fun h => rfl, rfl⟩
  have hi2 : ({ c2 with proto := p, version := n, versionBytes := vb } : Conn σ).core.Inv := ⟨hi.open_iff, hi.closed_cur, hi.sock⟩
  have := Keeps.sendInit env W fuel (p.initMessage clientID (buildAuthTokenBasic user password)) { c2 with proto := p, version := n, versionBytes := vb } hi2
  rw [h4] at this
  exact this

theorem InUse.inv {c : Conn σ} (h : InUse env W c) : c.core.Inv := by
  obtain ⟨fuel, user, password, w, c0, ops, h1, rfl⟩ := h
  exact run_inv env W fuel ops c0 (create_inv env W h1)

end
end Verif

/-
C38  A closed connection stays closed and silent.
-/
import Verif.Props.C37
namespace Verif

/-- Calls that need the server. -/
def Op.needsServer : Op → Bool
  | .makeIdle | .validateOpen | .setChunkSize _ => false
  | _ => true

section
variable {σ : Type} (env : Env) (W : World σ)

theorem runQuery_closed (fuel : Nat) (q : Bytes) (ps : Entries) (db : Bytes) (inTx : Bool) {c : Conn σ} (h : c.closed = true) :
    runQuery env W fuel q ps db inTx c = (.err (.new "connection already closed"), c) := by
  unfold runQuery
  rw [CM.get_bind, h]
  rfl

theorem checkDb_apply (db : Bytes) (c : Conn σ) : checkDb db c =
    if c.proto.supportsMultiDatabase = false ∧ db ≠ [] then (.err (.plain "bolt protocol version does not have multi database support"), c)
    else (.ok (), c) := by
  unfold checkDb
  rw [CM.get_bind]
  split <;> rfl

theorem checked_closed {α : Type} (db : Bytes) {m : CM σ α} {c : Conn σ} {e : Err} (h : m c = (.err e, c)) :
    ∃ e, (checkDb db >>= fun _ => m) c = (.err e, c) := by
  by_cases hd : c.proto.supportsMultiDatabase = false ∧ db ≠ []
  · exact ⟨_, CM.bind_err (by rw [checkDb_apply, if_pos hd])⟩
  · exact ⟨e, (CM.bind_ok (by rw [checkDb_apply, if_neg hd])).trans h⟩

theorem void_err {α : Type} {m : CM σ α} {c c' : Conn σ} {e : Err} (h : m c = (.err e, c')) : m.void c = (.err e, c') := CM.bind_err h

/-- A call that needs the server, on a closed connection: an error, and nothing changes. -/
theorem closed_fails (fuel : Nat) {c : Conn σ} (hi : c.core.Inv) (hc : c.closed = true) (op : Op) (ho : op.needsServer = true) :
    ∃ e, step env W fuel op c = (.err e, c) := by
  have hno : ∀ h, ¬ c.isOpen h := by
    intro h h1
    have := (hi.open_iff h).mp h1
    rw [hi.closed_cur hc] at this
    cases this
  have hq := fun q ps db inTx => runQuery_closed env W fuel q ps db inTx hc
  have hq2 : ∀ q ps db inTx, (runQuery env W fuel q ps db inTx >>= fun r => (Pure.pure r.2 : CM σ Entries)) c =
      (.err (.new "connection already closed"), c) := fun q ps db inTx => CM.bind_err (hq q ps db inTx)
  cases op with
  | query q ps db => obtain ⟨e, h⟩ := checked_closed db (hq q ps db false); exact ⟨e, void_err h⟩
  | exec q ps db => obtain ⟨e, h⟩ := checked_closed db (hq2 q ps db false); exact ⟨e, void_err h⟩
  | begin_ db =>
    refine ⟨.new "can not open transaction on closed connection", void_err ?_⟩
    rw [begin_apply, show c.cur = none from hi.closed_cur hc, hc]; rfl
  | commit h => exact ⟨_, (C37_closed_handle env W fuel h c (hno h)).1⟩
  | rollback h => exact ⟨_, (C37_closed_handle env W fuel h c (hno h)).2⟩
  | txQuery h q ps db => obtain ⟨e, h⟩ := checked_closed db (hq q ps db true); exact ⟨e, void_err h⟩
  | txExec h q ps => obtain ⟨e, h⟩ := checked_closed [] (hq2 q ps [] false); exact ⟨e, void_err h⟩
  | txExecDb h q ps db => obtain ⟨e, h⟩ := checked_closed db (hq2 q ps db true); exact ⟨e, void_err h⟩
  | close => exact ⟨errClosed, by show closeWith env W _ c = _; rw [closeWith_apply, hc]; rfl⟩
  | makeIdle => cases ho
  | validateOpen => cases ho
  | setChunkSize n => cases ho

theorem closed_step (fuel : Nat) {c : Conn σ} (hi : c.core.Inv) (hc : c.closed = true) (op : Op) :
    (step env W fuel op c).2.trace = c.trace ∧ (step env W fuel op c).2.closed = true := by
  cases hn : op.needsServer with
  | true => obtain ⟨e, h⟩ := closed_fails env W fuel hi hc op hn; rw [h]; exact ⟨rfl, hc⟩
  | false =>
    cases op <;> first | cases hn | skip
    · show (makeIdle env W fuel c).2.trace = _ ∧ (makeIdle env W fuel c).2.closed = true
      rw [makeIdle_eq, endCur_apply, show c.cur = none from hi.closed_cur hc]; exact ⟨rfl, hc⟩
    · show ((validateOpen W).void c).2.trace = _ ∧ ((validateOpen W).void c).2.closed = true
      unfold CM.void
      rw [CM.bind_apply]
      unfold validateOpen
      rw [if_pos hc]
      exact ⟨rfl, hc⟩
    · exact ⟨rfl, hc⟩

theorem closed_run (fuel : Nat) (ops : List Op) : {c : Conn σ} → c.core.Inv → c.closed = true →
    (run env W fuel ops c).trace = c.trace ∧ (run env W fuel ops c).closed = true := by
  induction ops with
  | nil => intro c _ hc; exact ⟨rfl, hc⟩
  | cons op ops ih =>
    intro c hi hc
    obtain ⟨h1, h2⟩ := closed_step env W fuel hi hc op
    obtain ⟨h3, h4⟩ := ih (Keeps.step env W fuel op c hi) h2
    exact ⟨h3.trans h1, h4⟩

/-- A successful `Close` closes the socket as its last action. -/
theorem close_ok {fuel : Nat} {c c' : Conn σ} (h : close env W fuel c = (.ok (), c')) :
    c'.closed = true ∧ c'.sock = false ∧ ∃ t, c'.trace = c.trace ++ t ++ [.closed] := by
  have hgrow : ∃ t c1, (goodbye env W c1 = (.ok (), c') ∧ c1.trace = c.trace ++ t) := by
    change closeWith env W _ c = _ at h
    rw [closeWith_apply] at h
    split at h
    · cases h
    · obtain ⟨_, c1, h1, h2⟩ := CM.bind_eq_ok.mp h
      rw [endCur_apply] at h1
      cases hc : c.cur with
      | none => simp only [hc] at h1; cases h1; exact ⟨[], c, h2, by simp⟩
      | some n =>
        simp only [hc] at h1
        obtain ⟨_, c2, h4, h5⟩ := endWith_ok env W (show endWith env W _ _ _ n c = _ from h1)
        subst h5
        obtain ⟨rs, x, _⟩ := txExchange_exchanged env W h4
        exact ⟨_, _, h2, by show c2.trace = _; rw [x.trace, List.append_assoc]⟩
  obtain ⟨t, c1, h1, h2⟩ := hgrow
  rw [goodbye_apply] at h1
  have hcs : ∀ {c2 : Conn σ}, closeSock W c2 = (.ok (), c') → c'.closed = true ∧ c'.sock = false ∧ c'.trace = c2.trace ++ [.closed] := by
    intro c2 h
    unfold closeSock at h
    dsimp only at h
    split at h
    · cases h; exact ⟨rfl, rfl, rfl⟩
    · cases h
  cases hm : c1.proto.closeMessage with
  | none =>
    simp only [hm] at h1
    obtain ⟨g1, g2, g3⟩ := hcs h1
    exact ⟨g1, g2, t, by rw [g3, h2]⟩
  | some m =>
    simp only [hm] at h1
    obtain ⟨_, c2, h3, h4⟩ := CM.bind_eq_ok.mp h1
    obtain ⟨_, _, _, rfl⟩ := sendMessage_ok env W h3
    obtain ⟨g1, g2, g3⟩ := hcs h4
    refine ⟨g1, g2, t ++ [.sent (encodeMsg env c1.proto.codec c1.chunkSize m).1], ?_⟩
    rw [g3]
    simp [Conn.sent, h2]

/-- For every server, every history before `Close`, and every history after a successful `Close`: nothing more is written or read, every further
`Close` returns `ErrClosed`, and every call that needs the server returns an error. -/
theorem C38_silent {c c1 : Conn σ} (hc : InUse env W c) {fuel : Nat} (hclose : close env W fuel c = (.ok (), c1)) (fuel' : Nat) (ops : List Op) :
    let c2 := run env W fuel' ops c1
    c2.trace = c1.trace ∧ c2.closed = true ∧ close env W fuel' c2 = (.err errClosed, c2) ∧
    ∀ op, op.needsServer = true → ∃ e, step env W fuel' op c2 = (.err e, c2) := by
  have hi := Keeps.close env W fuel c hc.inv
  rw [hclose] at hi
  obtain ⟨h1, h2⟩ := closed_run env W fuel' ops hi (close_ok env W hclose).1
  refine ⟨h1, h2, ?_, fun op ho => closed_fails env W fuel' (run_inv env W fuel' ops _ hi) h2 op ho⟩
  show closeWith env W _ _ = _
  rw [closeWith_apply, h2]; rfl

/-- A successful `Close` closes the socket, and that is the last thing that happens on the network. -/
theorem C38_closes {c c1 : Conn σ} {fuel : Nat} (hclose : close env W fuel c = (.ok (), c1)) :
    c1.sock = false ∧ ∃ t, c1.trace = c.trace ++ t ++ [.closed] := (close_ok env W hclose).2

end

/-- Close with an open transaction, then calls on the closed connection. -/
example : (close env0 scripted 3 (run env0 scripted 3 [.begin_ []] (opened (sOpen4 ++ [sSuccess, sSuccess])).2)).1.kind = 0 := by decide +kernel

end Verif

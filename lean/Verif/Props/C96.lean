/-
C70 for goroutines that share the pool without routing.
C96  Closing the pool without routing does not wait for its users.
-/
import Verif.Model.DriverPoolSys
namespace Verif

namespace Spec

/-- The library has been asked some times, and not been closed. -/
def Running (log : List ShEv) : Prop := ∃ n, log = List.replicate n .asked

/-- The library has been asked some times, then closed once, and left alone since. -/
def ShutDown (log : List ShEv) : Prop := ∃ n, log = List.replicate n .asked ++ [.shut]

/-- The number of calls of `Open` that have returned a connection. -/
def opened (returned : List (ShReq × CRes (Option Nat))) : Nat := returned.countP fun c => match c with | (.open, .ok _) => true | _ => false

/-- The number of calls of `Open` in progress. -/
def opening {Λ : Type} (s : ShSys Λ) : Nat := s.calls.countP fun c => c.1 = .open

end Spec

namespace C96
section
variable {Λ : Type} (L : PoolLib Λ)

/-- Where a call is. -/
inductive Stage where
  | waiting | looking | asking | checking | shutting | closing | leaving (ok : Bool) | returning (ok : Bool) | giving
  deriving DecidableEq

/-- Whether the call holds the lock. -/
def Stage.holds : Stage → Bool
  | .looking | .asking | .checking | .shutting | .closing | .leaving _ => true
  | _ => false

/-- What is left of `Open`. -/
def askPart : SP Λ (Option Nat) := do
  match ← shBorrow L with
  | .error e => PProg.fail e
  | .ok r => if ← shAlive L r then pure (some r) else PProg.fail (.new "pool returned dead connection")
def checkPart (r : Nat) : SP Λ (Option Nat) := do
  if ← shAlive L r then pure (some r) else PProg.fail (.new "pool returned dead connection")
def openPart : SP Λ (Option Nat) := do
  if ← shClosed then PProg.fail (.new "Driver pool has been closed") else askPart L

/-- What is left of `Close`. -/
def setPart : SP Λ (Option Nat) := do
  PProg.prim [] fun s => ((), { s with closed := true })
  pure none
def shutPart : SP Λ (Option Nat) := do
  PProg.prim [] fun s => ((), { s with lib := L.shut s.lib, log := s.log ++ [.shut] })
  setPart
def closePart : SP Λ (Option Nat) := do
  if ← shClosed then PProg.fail (errClosed.wrap "internalDriver pool is already closed") else shutPart L

/-- The end of a call that holds the lock. -/
def leave (r : CRes (Option Nat)) : SP Λ (Option Nat) := .act [] (fun _ => true) shUnlock fun _ => .done r

/-- A call that is somewhere. -/
inductive At : ShReq → Stage → SP Λ (Option Nat) → Prop where
  | openWaiting : At .open .waiting (shOpen L)
  | openLooking : At .open .looking (PProg.deferred shUnlock (openPart L))
  | asking : At .open .asking (PProg.deferred shUnlock (askPart L))
  | checking (r : Nat) : At .open .checking (PProg.deferred shUnlock (checkPart L r))
  | openLeaving (r : CRes (Option Nat)) : At .open (.leaving r.isOk) (leave r)
  | openReturning (r : CRes (Option Nat)) : At .open (.returning r.isOk) (.done r)
  | closeWaiting : At .close .waiting (shClose L)
  | closeLooking : At .close .looking (PProg.deferred shUnlock (closePart L))
  | shutting : At .close .shutting (PProg.deferred shUnlock (shutPart L))
  | closing : At .close .closing (PProg.deferred shUnlock setPart)
  | closeLeaving (r : CRes (Option Nat)) : At .close (.leaving r.isOk) (leave r)
  | closeReturning (r : CRes (Option Nat)) : At .close (.returning r.isOk) (.done r)
  | giving (n : Nat) : At (.reclaim n) .giving (shReclaim L n)
  | given (n : Nat) (r : CRes (Option Nat)) (b : Bool) : At (.reclaim n) (.returning b) (.done r)

/-- What is known at a stage. -/
def Knows (s : Shared Λ) : Stage → Prop
  | .looking => s.closed = false → Spec.Running s.log
  | .asking => s.closed = false ∧ Spec.Running s.log
  | .checking => s.closed = false ∧ Spec.Running s.log
  | .shutting => s.closed = false ∧ Spec.Running s.log
  | .closing => s.closed = false ∧ Spec.ShutDown s.log
  | .leaving _ => s.closed = false → Spec.Running s.log
  | _ => True

/-- A step of a call: where it gets, and what it does. -/
inductive Step (s : Shared Λ) (r : ShReq) : Stage → Shared Λ → Stage → Prop where
  | enter : s.locked = false → Step s r .waiting { s with locked := true } .looking
  | refused : s.closed = true → Step s r .looking s (.leaving false)
  | ask : r = .open → s.closed = false → Step s r .looking s .asking
  | failed {v : Λ} : Step s r .asking { s with lib := v, log := s.log ++ [.asked] } (.leaving false)
  | got {v : Λ} : Step s r .asking { s with lib := v, log := s.log ++ [.asked] } .checking
  | checked {v : Λ} {b : Bool} : r = .open → Step s r .checking { s with lib := v } (.leaving b)
  | shut : r = .close → s.closed = false → Step s r .looking s .shutting
  | shutDone {v : Λ} : Step s r .shutting { s with lib := v, log := s.log ++ [.shut] } .closing
  | close : Step s r .closing { s with closed := true } (.leaving true)
  | leave {b : Bool} : Step s r (.leaving b) { s with locked := false } (.returning b)
  | give {v : Λ} {b : Bool} : (∃ n, r = .reclaim n) → Step s r .giving { s with lib := v } (.returning b)

/-- The steps of the programs. -/
theorem step_at {r : ShReq} {st : Stage} {p : SP Λ (Option Nat)} (h : At L r st p) {acc : List Access} {en : Shared Λ → Bool} {g : Shared Λ → Shared Λ} {k : Shared Λ → SP Λ (Option Nat)}
    (hp : p = .act acc en g k) {s : Shared Λ} (he : en s = true) : ∃ st', Step s r st (g s) st' ∧ At L r st' (k s) := by
  cases h with
  | openWaiting =>
    cases hp
    exact ⟨_, .enter (by simpa using he), .openLooking⟩
  | openLooking =>
    cases hp
    dsimp only
    cases hc : s.closed with
    | true =>
      refine ⟨_, .refused hc, ?_⟩
      exact .openLeaving (.err _)
    | false => exact ⟨_, .ask rfl hc, .asking⟩
  | asking =>
    cases hp
    dsimp only
    dsimp only at he
    cases hb : L.borrow s.lib with
    | none => rw [hb] at he; cases he
    | some x =>
      obtain ⟨res, v⟩ := x
      cases res with
      | error e => exact ⟨_, .failed, .openLeaving (.err e)⟩
      | ok n => exact ⟨_, .got, .checking n⟩
  | checking n =>
    cases hp
    dsimp only
    cases hb : (L.alive n s.lib).1 with
    | true => exact ⟨_, .checked rfl, .openLeaving (.ok (some n))⟩
    | false => exact ⟨_, .checked rfl, .openLeaving (.err _)⟩
  | openLeaving r => cases hp; exact ⟨_, .leave, .openReturning r⟩
  | openReturning => cases hp
  | closeWaiting =>
    cases hp
    exact ⟨_, .enter (by simpa using he), .closeLooking⟩
  | closeLooking =>
    cases hp
    dsimp only
    cases hc : s.closed with
    | true => exact ⟨_, .refused hc, .closeLeaving (.err _)⟩
    | false => exact ⟨_, .shut rfl hc, .shutting⟩
  | shutting => cases hp; exact ⟨_, .shutDone, .closing⟩
  | closing => cases hp; exact ⟨_, .close, .closeLeaving (.ok none)⟩
  | closeLeaving r => cases hp; exact ⟨_, .leave, .closeReturning r⟩
  | closeReturning => cases hp
  | giving n =>
    cases hp
    dsimp only
    cases (L.giveBack n s.lib).1 with
    | none => exact ⟨_, .give ⟨n, rfl⟩, .given n _ true⟩
    | some e => exact ⟨_, .give ⟨n, rfl⟩, .given n _ true⟩
  | given => cases hp

/-- Calls with their stages. -/
abbrev Staged (Λ : Type) := Stage × (ShReq × SP Λ (Option Nat))

/-- The invariant. -/
structure Inv (s : ShSys Λ) (zs : List (Staged Λ)) : Prop where
  calls : s.calls = zs.map (·.2)
  at_ : ∀ z ∈ zs, At L z.2.1 z.1 z.2.2
  lock : (zs.countP fun z => z.1.holds) = if s.pool.locked then 1 else 0
  knows : ∀ z ∈ zs, Knows s.pool z.1
  shut : s.pool.closed = true → Spec.ShutDown s.pool.log
  running : s.pool.locked = false → s.pool.closed = false → Spec.Running s.pool.log
  won : ∀ z ∈ zs, z.2.1 = .close → (z.1 = .leaving true ∨ z.1 = .returning true) → s.pool.closed = true
  ret : ∀ c ∈ s.returned, c.1 = .close → c.2.isOk = true → s.pool.closed = true

theorem knows_of_free {s s' : Shared Λ} {st : Stage} (h : st.holds = false) : Knows s st → Knows s' st := by
  cases st <;> first | exact fun _ => trivial | cases h

theorem asked_running {log : List ShEv} (h : Spec.Running log) : Spec.Running (log ++ [.asked]) := by
  obtain ⟨n, rfl⟩ := h
  exact ⟨n + 1, by rw [List.replicate_succ']⟩

theorem step_closed {s s' : Shared Λ} {r : ShReq} {st st' : Stage} (h : Step s r st s' st') (hc : s.closed = true) : s'.closed = true := by
  cases h <;> first | exact hc | rfl

theorem step_log {s s' : Shared Λ} {r : ShReq} {st st' : Stage} (h : Step s r st s' st') (hc : s.closed = true) (hk : Knows s st) : s'.log = s.log := by
  cases h with
  | failed => rw [hk.1] at hc; cases hc
  | got => rw [hk.1] at hc; cases hc
  | shutDone => rw [hk.1] at hc; cases hc
  | _ => rfl

/-- A step by somebody who holds the lock or takes it, or does not care. -/
theorem step_knows {s s' : Shared Λ} {r : ShReq} {st st' : Stage} (h : Step s r st s' st') (hk : Knows s st) (hs : s.closed = true → Spec.ShutDown s.log)
    (hr : s.locked = false → s.closed = false → Spec.Running s.log) (hl : st.holds = true → s.locked = true) :
    Knows s' st' ∧ (s'.closed = true → Spec.ShutDown s'.log) ∧ (s'.locked = false → s'.closed = false → Spec.Running s'.log) := by
  cases h with
  | enter h => exact ⟨hr h, hs, fun h => by cases h⟩
  | refused h => exact ⟨(fun h' => by rw [h] at h'; cases h'), hs, fun h' => absurd (hl rfl) (by rw [h']; simp)⟩
  | ask _ h => exact ⟨⟨h, hk h⟩, hs, hr⟩
  | failed => exact ⟨fun _ => asked_running hk.2, fun h => absurd hk.1 (by rw [show s.closed = true from h]; simp), fun _ _ => asked_running hk.2⟩
  | got => exact ⟨⟨hk.1, asked_running hk.2⟩, fun h => absurd hk.1 (by rw [show s.closed = true from h]; simp), fun _ _ => asked_running hk.2⟩
  | checked _ => exact ⟨fun _ => hk.2, hs, fun _ _ => hk.2⟩
  | shut _ h => exact ⟨⟨h, hk h⟩, hs, hr⟩
  | shutDone =>
    obtain ⟨h1, n, h2⟩ := hk
    have : Spec.ShutDown (s.log ++ [.shut]) := ⟨n, by rw [h2]⟩
    exact ⟨⟨h1, this⟩, fun _ => this, fun h => absurd (hl rfl) (by rw [show s.locked = false from h]; simp)⟩
  | close => exact ⟨(fun h => by cases h), fun _ => hk.2, fun _ h => by cases h⟩
  | leave => exact ⟨trivial, hs, fun _ => hk⟩
  | give _ => exact ⟨trivial, hs, hr⟩

theorem step_holds {s s' : Shared Λ} {r : ShReq} {st st' : Stage} (h : Step s r st s' st') :
    (st.holds = true ∧ st'.holds = true ∧ s'.locked = s.locked) ∨ (st.holds = false ∧ st'.holds = true ∧ s.locked = false ∧ s'.locked = true) ∨
      (st.holds = true ∧ st'.holds = false ∧ s'.locked = false) ∨ (st.holds = false ∧ st'.holds = false ∧ s'.locked = s.locked ∧ s'.closed = s.closed ∧ s'.log = s.log) := by
  cases h <;> simp_all [Stage.holds]

/-- Calls of `Open` that may still return a connection when the pool is closed. -/
def hopeful (z : Staged Λ) : Bool := match z with
  | (.returning b, (.open, _)) => b
  | (.asking, _) => true
  | (.checking, _) => true
  | (.leaving b, (.open, _)) => b
  | _ => false

theorem step_hopeful {s s' : Shared Λ} {r : ShReq} {st st' : Stage} {p p' : SP Λ (Option Nat)} (h : Step s r st s' st') (hc : s.closed = true) (hk : Knows s st) :
    hopeful (st', (r, p')) = true → hopeful (st, (r, p)) = true := by
  cases h with
  | ask _ h => rw [hc] at h; cases h
  | leave => cases r <;> exact id
  | give h => obtain ⟨n, rfl⟩ := h; intro h; cases h
  | close => rw [hk.1] at hc; cases hc
  | refused => cases r <;> exact id
  | _ => simp [hopeful]

/-- The number of calls of `Open` that have returned a connection or may still do so. -/
def hopes (s : ShSys Λ) (zs : List (Staged Λ)) : Nat := Spec.opened s.returned + zs.countP hopeful

/-- The invariant is kept; and once the pool is closed there is no new hope. -/
theorem inv_move {s : ShSys Λ} {zs : List (Staged Λ)} (h : Inv L s zs) (m : ShMove) :
    ∃ zs', Inv L (s.move L m) zs' ∧ (s.pool.closed = true → (s.move L m).pool.closed = true ∧ (s.move L m).pool.log = s.pool.log ∧ hopes (s.move L m) zs' ≤ hopes s zs) := by
  cases m with
  | call r =>
    have hw : ∃ st, At L r st (r.prog L) ∧ st.holds = false ∧ Knows s.pool st ∧ hopeful (st, (r, r.prog L)) = false ∧ ∀ b, st ≠ .leaving b ∧ st ≠ .returning b := by
      cases r with
      | «open» => exact ⟨_, .openWaiting, rfl, trivial, rfl, by simp⟩
      | close => exact ⟨_, .closeWaiting, rfl, trivial, rfl, by simp⟩
      | reclaim n => exact ⟨_, .giving n, rfl, trivial, rfl, by simp⟩
    obtain ⟨st, h1, h2, h3, h4, h5⟩ := hw
    refine ⟨zs ++ [(st, (r, r.prog L))], ⟨?_, ?_, ?_, ?_, h.shut, h.running, ?_, h.ret⟩, fun hc => ⟨hc, rfl, ?_⟩⟩
    · simp [ShSys.move, h.calls]
    · intro z hz
      rcases List.mem_append.1 hz with hz | hz
      · exact h.at_ z hz
      · rw [List.mem_singleton.1 hz]; exact h1
    · have e : ([(st, (r, r.prog L))] : List (Staged Λ)).countP (fun z => z.1.holds) = 0 := by simp [h2]
      rw [List.countP_append, e]
      exact h.lock
    · intro z hz
      rcases List.mem_append.1 hz with hz | hz
      · exact h.knows z hz
      · rw [List.mem_singleton.1 hz]; exact h3
    · intro z hz hr ht
      rcases List.mem_append.1 hz with hz | hz
      · exact h.won z hz hr ht
      · rw [List.mem_singleton.1 hz] at ht
        rcases ht with ht | ht
        · exact absurd ht (h5 true).1
        · exact absurd ht (h5 true).2
    · show Spec.opened s.returned + _ ≤ _
      rw [List.countP_append, List.countP_singleton, h4]
      exact Nat.le_refl _
  | step k =>
    have hcalls := h.calls
    unfold ShSys.move
    cases hz : zs[k]? with
    | none =>
      have : s.calls[k]? = none := by rw [hcalls, List.getElem?_map, hz]; rfl
      simp only [this]
      exact ⟨zs, h, fun hc => ⟨hc, trivial, Nat.le_refl _⟩⟩
    | some z =>
      have hk : s.calls[k]? = some z.2 := by rw [hcalls, List.getElem?_map, hz]; rfl
      obtain ⟨hlt, hzk⟩ := List.getElem?_eq_some_iff.1 hz
      have hsplit : zs = zs.take k ++ z :: zs.drop (k + 1) := by rw [← hzk, List.getElem_cons_drop, List.take_append_drop]
      have hlen : (zs.take k).length = k := by rw [List.length_take]; omega
      generalize zs.take k = a at hsplit hlen
      generalize zs.drop (k + 1) = b at hsplit
      subst hsplit
      obtain ⟨st, r, p⟩ := z
      have hat := h.at_ _ (List.mem_append_right _ List.mem_cons_self)
      have hkn := h.knows _ (List.mem_append_right _ List.mem_cons_self)
      have hcount := h.lock
      rw [List.countP_append, List.countP_cons] at hcount
      dsimp only at hat hkn hcount hk
      simp only [hk]
      cases p with
      | done res =>
        have hst : st.holds = false := by cases hat <;> rfl
        refine ⟨a ++ b, ⟨?_, ?_, ?_, ?_, h.shut, h.running, ?_, ?_⟩, fun hc => ⟨hc, rfl, ?_⟩⟩
        · show s.calls.eraseIdx k = _
          rw [hcalls, List.map_append, List.map_cons, List.eraseIdx_append_of_length_le (by simp [hlen]), List.length_map, hlen, Nat.sub_self, List.eraseIdx_cons_zero, List.map_append]
        · exact fun z hz => h.at_ z (by rcases List.mem_append.1 hz with hz | hz <;> simp [hz])
        · rw [List.countP_append]; simpa [hst] using hcount
        · exact fun z hz => h.knows z (by rcases List.mem_append.1 hz with hz | hz <;> simp [hz])
        · exact fun z hz => h.won z (by rcases List.mem_append.1 hz with hz | hz <;> simp [hz])
        · intro c hc hr ho
          rcases List.mem_append.1 hc with hc | hc
          · exact h.ret c hc hr ho
          · rw [List.mem_singleton.1 hc] at hr ho
            dsimp only at hr ho
            subst hr
            refine h.won _ (List.mem_append_right _ List.mem_cons_self) rfl (.inr ?_)
            cases hat
            exact congrArg Stage.returning ho
        · show Spec.opened (s.returned ++ [(r, res)]) + _ ≤ Spec.opened s.returned + _
          rw [List.countP_append, List.countP_append, List.countP_cons]
          have e : Spec.opened (s.returned ++ [(r, res)]) = Spec.opened s.returned + if hopeful (st, (r, (.done res : SP Λ (Option Nat)))) then 1 else 0 := by
            unfold Spec.opened
            rw [List.countP_append, List.countP_singleton]
            cases hat with
            | openReturning => cases res <;> rfl
            | closeReturning => cases res <;> rfl
            | given => cases res <;> rfl
          rw [e]
          omega
      | act acc en g p =>
        dsimp only
        by_cases he : en s.pool = true
        · rw [if_pos he]
          obtain ⟨st', hs, hat'⟩ := step_at L hat rfl he
          have hlk : st.holds = true → s.pool.locked = true := by
            intro hh
            rw [if_pos hh] at hcount
            cases hl : s.pool.locked with
            | true => rfl
            | false => rw [hl] at hcount; simp at hcount
          obtain ⟨h1, h2, h3⟩ := step_knows hs hkn h.shut h.running hlk
          have others : ∀ z ∈ a ++ b, Knows (g s.pool) z.1 := by
            intro z hz
            have hzk := h.knows z (by rcases List.mem_append.1 hz with hz | hz <;> simp [hz])
            have free : (st.holds = true ∨ s.pool.locked = false) → z.1.holds = false := by
              intro hh
              have hle : (a.countP fun z => z.1.holds) + (b.countP fun z => z.1.holds) = 0 := by
                rcases hh with hh | hh
                · rw [if_pos hh, if_pos (hlk hh)] at hcount; omega
                · simp only [hh, Bool.false_eq_true, if_false] at hcount; omega
              rcases List.mem_append.1 hz with hz | hz
              · have := List.countP_eq_zero.1 (show _ = 0 by omega : (a.countP fun z => z.1.holds) = 0) z hz
                simpa using this
              · have := List.countP_eq_zero.1 (show _ = 0 by omega : (b.countP fun z => z.1.holds) = 0) z hz
                simpa using this
            rcases step_holds hs with ⟨e, _⟩ | ⟨_, _, e, _⟩ | ⟨e, _⟩ | ⟨_, _, _, e1, e2⟩
            · exact knows_of_free (free (.inl e)) hzk
            · exact knows_of_free (free (.inr e)) hzk
            · exact knows_of_free (free (.inl e)) hzk
            · revert hzk
              cases z.1 <;> simp only [Knows, e1, e2] <;> exact id
          refine ⟨a ++ (st', (r, p s.pool)) :: b, ⟨?_, ?_, ?_, ?_, h2, h3, ?_, fun c hc hr ho => step_closed hs (h.ret c hc hr ho)⟩, fun hc => ⟨step_closed hs hc, step_log hs hc hkn, ?_⟩⟩
          · show s.calls.set k _ = _
            rw [hcalls, List.map_append, List.map_cons, List.set_append_right _ _ (by simp [hlen]), List.length_map, hlen, Nat.sub_self, List.set_cons_zero, List.map_append, List.map_cons]
          · intro z hz
            rcases List.mem_append.1 hz with hz | hz
            · exact h.at_ z (by simp [hz])
            · rcases List.mem_cons.1 hz with rfl | hz
              · exact hat'
              · exact h.at_ z (by simp [hz])
          · rw [List.countP_append, List.countP_cons]
            dsimp only
            rcases step_holds hs with ⟨e1, e2, e3⟩ | ⟨e1, e2, e3, e4⟩ | ⟨e1, e2, e3⟩ | ⟨e1, e2, e3, _⟩
            · rw [e2, e3]; rw [e1] at hcount; exact hcount
            · simp only [e2, e4, if_true]; simp only [e1, e3, Bool.false_eq_true, if_false] at hcount; omega
            · simp only [e2, e3, Bool.false_eq_true, if_false]; simp only [e1, hlk e1, if_true] at hcount; omega
            · rw [e2, e3]; rw [e1] at hcount; exact hcount
          · intro z hz
            rcases List.mem_append.1 hz with hz | hz
            · exact others z (by simp [hz])
            · rcases List.mem_cons.1 hz with rfl | hz
              · exact h1
              · exact others z (by simp [hz])
          · intro z hz hr ht
            rcases List.mem_append.1 hz with hz | hz
            · exact step_closed hs (h.won z (by simp [hz]) hr ht)
            · rcases List.mem_cons.1 hz with rfl | hz
              · dsimp only at hr ht
                have hw := h.won _ (List.mem_append_right _ List.mem_cons_self) hr
                dsimp only at hw
                generalize g s.pool = s' at hs
                cases hs with
                | close => rfl
                | leave =>
                  rcases ht with ht | ht
                  · cases ht
                  · cases ht; exact hw (.inl rfl)
                | checked hx => rw [hr] at hx; cases hx
                | give hx => obtain ⟨n, hx⟩ := hx; rw [hr] at hx; cases hx
                | _ => rcases ht with ht | ht <;> cases ht
              · exact step_closed hs (h.won z (by simp [hz]) hr ht)
          · show Spec.opened s.returned + _ ≤ Spec.opened s.returned + _
            rw [List.countP_append, List.countP_append, List.countP_cons, List.countP_cons]
            have := step_hopeful (p := .act acc en g p) (p' := p s.pool) hs hc hkn
            by_cases hh : hopeful (st', (r, p s.pool)) = true
            · rw [if_pos hh, if_pos (this hh)]; exact Nat.le_refl _
            · rw [if_neg hh]; omega
        · rw [if_neg he]
          exact ⟨_, h, fun hc => ⟨hc, rfl, Nat.le_refl _⟩⟩

theorem inv_moves : ∀ (ms : List ShMove) {s : ShSys Λ} {zs : List (Staged Λ)}, Inv L s zs →
    ∃ zs', Inv L (s.moves L ms) zs' ∧ (s.pool.closed = true → (s.moves L ms).pool.closed = true ∧ (s.moves L ms).pool.log = s.pool.log ∧ hopes (s.moves L ms) zs' ≤ hopes s zs)
  | [], _, zs, h => ⟨zs, h, fun hc => ⟨hc, rfl, Nat.le_refl _⟩⟩
  | m :: ms, s, _, h => by
    obtain ⟨_, h1, h2⟩ := inv_move L h m
    obtain ⟨zs, h3, h4⟩ := inv_moves ms h1
    exact ⟨zs, h3, fun hc => ⟨(h4 (h2 hc).1).1, (h4 (h2 hc).1).2.1.trans (h2 hc).2.1, Nat.le_trans (h4 (h2 hc).1).2.2 (h2 hc).2.2⟩⟩

theorem inv_fresh (lib : Λ) : Inv L (.fresh lib) [] :=
  ⟨rfl, fun _ h => absurd h List.not_mem_nil, rfl, fun _ h => absurd h List.not_mem_nil, (fun h => by cases h), fun _ _ => ⟨0, rfl⟩, fun _ h => absurd h List.not_mem_nil,
    fun _ h => absurd h List.not_mem_nil⟩

theorem inv_log {s : ShSys Λ} {zs : List (Staged Λ)} (h : Inv L s zs) : Spec.Running s.pool.log ∨ Spec.ShutDown s.pool.log := by
  cases hc : s.pool.closed with
  | true => exact .inr (h.shut hc)
  | false =>
    cases hl : s.pool.locked with
    | false => exact .inl (h.running hl hc)
    | true =>
      have := h.lock
      rw [hl, if_pos rfl] at this
      obtain ⟨z, hz, hh⟩ := List.countP_pos_iff.1 (show 0 < _ by omega : 0 < zs.countP fun z => z.1.holds)
      have hk := h.knows z hz
      revert hh hk
      cases z.1 with
      | looking => exact fun _ hk => .inl (hk hc)
      | asking => exact fun _ hk => .inl hk.2
      | checking => exact fun _ hk => .inl hk.2
      | shutting => exact fun _ hk => .inl hk.2
      | closing => exact fun _ hk => .inr hk.2
      | leaving b => exact fun _ hk => .inl (hk hc)
      | waiting => exact fun hh => by cases hh
      | returning b => exact fun hh => by cases hh
      | giving => exact fun hh => by cases hh

end
end C96

/-- **C70** for goroutines: whatever the library does, and in any interleaving of any number of calls, the library is asked for connections, then closed at most once, and not asked any more. -/
theorem C70_shared {Λ : Type} (L : PoolLib Λ) (lib : Λ) (ms : List ShMove) :
    Spec.Running ((ShSys.fresh lib).moves L ms).pool.log ∨ Spec.ShutDown ((ShSys.fresh lib).moves L ms).pool.log := by
  obtain ⟨zs, h, _⟩ := C96.inv_moves L ms (C96.inv_fresh L lib)
  exact C96.inv_log L h

namespace C96

theorem hopes_le {Λ : Type} {L : PoolLib Λ} {s : ShSys Λ} {zs : List (Staged Λ)} (h : Inv L s zs) : hopes s zs ≤ Spec.opened s.returned + Spec.opening s := by
  refine Nat.add_le_add_left ?_ _
  unfold Spec.opening
  rw [h.calls, List.countP_map]
  have : ∀ zs : List (Staged Λ), (∀ z ∈ zs, At L z.2.1 z.1 z.2.2) → zs.countP hopeful ≤ zs.countP ((fun c : ShReq × SP Λ (Option Nat) => decide (c.1 = .open)) ∘ fun z => z.2) := by
    intro zs hz
    refine List.countP_mono_left fun z hm hh => ?_
    have hat := hz z hm
    obtain ⟨st, r, p⟩ := z
    dsimp only at hat
    cases hat <;> first | rfl | cases hh
  exact this zs h.at_

end C96

/-- **C70** for goroutines: if a call of `Close` has returned nil, then whatever happens afterwards the library is not asked any more, and no call of `Open` returns a connection except
those that were already in progress. -/
theorem C70_shared_refuses {Λ : Type} (L : PoolLib Λ) {lib : Λ} {ms : List ShMove} {s : ShSys Λ} (hs : s = (ShSys.fresh lib).moves L ms) {x : Option Nat}
    (h : (ShReq.close, CRes.ok x) ∈ s.returned) (ms' : List ShMove) :
    (s.moves L ms').pool.log = s.pool.log ∧ Spec.opened (s.moves L ms').returned ≤ Spec.opened s.returned + Spec.opening s := by
  obtain ⟨zs, hi, _⟩ := C96.inv_moves L ms (C96.inv_fresh L lib)
  rw [← hs] at hi
  have hc := hi.ret _ h rfl rfl
  obtain ⟨zs', hi', hk⟩ := C96.inv_moves L ms' hi
  exact ⟨(hk hc).2.1, Nat.le_trans (Nat.le_add_right _ _) (Nat.le_trans (hk hc).2.2 (C96.hopes_le hi))⟩

/-! ### Progress -/

namespace C96
section
variable {Λ : Type} (L : PoolLib Λ)

/-- The call need not wait if it is the only one to go on. -/
def Goes : SP Λ (Option Nat) → Shared Λ → Prop
  | .done _, _ => True
  | .act _ en g k, s => en s = true ∧ Goes (k s) (g s)

/-- Let one call go on to its end. -/
theorem goes_run {k : Nat} {r : ShReq} : ∀ (p : SP Λ (Option Nat)) {s : ShSys Λ}, s.calls[k]? = some (r, p) → Goes p s.pool →
    ∃ n, s.moves L (List.replicate n (.step k)) = { s with pool := (p.run s.pool).2, calls := s.calls.set k (r, .done (p.run s.pool).1) }
  | .done res, s, h, _ => ⟨0, by
      obtain ⟨hlt, e⟩ := List.getElem?_eq_some_iff.1 h
      have : s.calls.set k (r, .done res) = s.calls := by rw [← e, List.set_getElem_self]
      simp only [PProg.run, this]
      rfl⟩
  | .act acc en g p, s, h, hg => by
    obtain ⟨he, hg⟩ := hg
    obtain ⟨hlt, e⟩ := List.getElem?_eq_some_iff.1 h
    have hm : s.move L (.step k) = { s with pool := g s.pool, calls := s.calls.set k (r, p s.pool) } := by
      simp only [ShSys.move, h, he, if_true]
    obtain ⟨n, hn⟩ := goes_run (p s.pool) (s := s.move L (.step k)) (by rw [hm]; exact List.getElem?_set_self hlt) (by rw [hm]; exact hg)
    refine ⟨n + 1, ?_⟩
    show ShSys.moves L (s.move L (.step k)) (List.replicate n (.step k)) = _
    rw [hn, hm]
    simp only [PProg.run, he, if_true, List.set_set]

theorem goes_deferred {f : Shared Λ → Shared Λ} : ∀ {p : SP Λ (Option Nat)} {s : Shared Λ}, Goes p s → Goes (PProg.deferred f p) s
  | .done _, _, _ => ⟨rfl, trivial⟩
  | .act _ _ _ _, _, h => ⟨h.1, goes_deferred h.2⟩

theorem run_deferred : ∀ {p : SP Λ (Option Nat)} {s : Shared Λ}, Goes p s → ((PProg.deferred shUnlock p).run s).2 = shUnlock (p.run s).2
  | .done _, _, _ => rfl
  | .act _ en g k, s, h => by
    have he := h.1
    simp only [PProg.deferred, PProg.run, he, if_true]
    exact run_deferred h.2

/-- `Close` never waits once it has the lock. -/
theorem goes_close (s : Shared Λ) : Goes (closePart L) s := by
  refine ⟨rfl, ?_⟩
  dsimp only
  cases s.closed with
  | true => exact trivial
  | false => exact ⟨rfl, rfl, trivial⟩

theorem goes_check (r : Nat) (s : Shared Λ) : Goes (checkPart L r) s := by
  refine ⟨rfl, ?_⟩
  dsimp only
  cases (L.alive r s.lib).1 with
  | true => exact trivial
  | false => exact trivial

theorem goes_ask {s : Shared Λ} (h : (L.borrow s.lib).isSome = true) : Goes (askPart L) s := by
  refine ⟨h, ?_⟩
  dsimp only
  cases hb : L.borrow s.lib with
  | none => rw [hb] at h; cases h
  | some x =>
    obtain ⟨res, v⟩ := x
    cases res with
    | error e => exact trivial
    | ok n => exact goes_check L n _

theorem goes_open {s : Shared Λ} (h : s.closed = false → (L.borrow s.lib).isSome = true) : Goes (openPart L) s := by
  refine ⟨rfl, ?_⟩
  dsimp only
  cases hc : s.closed with
  | true => exact trivial
  | false => exact goes_ask L (h hc)

/-- Whoever has the lock can go on to the end, and release it, unless the library has nothing to give. -/
theorem goes_holder {r : ShReq} {st : Stage} {p : SP Λ (Option Nat)} (h : At L r st p) (hh : st.holds = true) {s : Shared Λ}
    (hb : (L.borrow s.lib).isSome = true) : Goes p s ∧ (p.run s).2.locked = false := by
  have key : ∀ q : SP Λ (Option Nat), Goes q s → Goes (PProg.deferred shUnlock q) s ∧ ((PProg.deferred shUnlock q).run s).2.locked = false :=
    fun q hq => ⟨goes_deferred hq, by rw [run_deferred hq]; rfl⟩
  cases h with
  | openLooking => exact key _ (goes_open L fun _ => hb)
  | asking => exact key _ (goes_ask L hb)
  | checking n => exact key _ (goes_check L n s)
  | openLeaving r => exact ⟨⟨rfl, trivial⟩, rfl⟩
  | closeLooking => exact key _ (goes_close L s)
  | shutting => exact key _ ⟨rfl, rfl, trivial⟩
  | closing => exact key _ ⟨rfl, trivial⟩
  | closeLeaving r => exact ⟨⟨rfl, trivial⟩, rfl⟩
  | _ => cases hh

theorem goes_free {r : ShReq} {st : Stage} {p : SP Λ (Option Nat)} (h : At L r st p) (hr : r ≠ .open) (hh : st.holds = false) {s : Shared Λ} (hl : s.locked = false) : Goes p s := by
  cases h with
  | closeWaiting => exact ⟨by simp [hl], goes_deferred (goes_close L _)⟩
  | closeReturning => exact trivial
  | giving n =>
    refine ⟨rfl, ?_⟩
    dsimp only
    cases (L.giveBack n s.lib).1 with
    | none => exact trivial
    | some e => exact trivial
  | given => exact trivial
  | _ => first | exact absurd rfl hr | cases hh

theorem moves_append (s : ShSys Λ) (ms ms' : List ShMove) : s.moves L (ms ++ ms') = (s.moves L ms).moves L ms' := List.foldl_append ..

/-- A call that can go on to its end can return. -/
theorem returns {k : Nat} {r : ShReq} {p : SP Λ (Option Nat)} {s : ShSys Λ} (h : s.calls[k]? = some (r, p)) (hg : Goes p s.pool) :
    ∃ n res, (s.moves L (List.replicate n (.step k))).returned = s.returned ++ [(r, res)] := by
  obtain ⟨n, hn⟩ := goes_run L p h hg
  refine ⟨n + 1, (p.run s.pool).1, ?_⟩
  obtain ⟨hlt, _⟩ := List.getElem?_eq_some_iff.1 h
  rw [List.replicate_succ', moves_append, hn]
  show (ShSys.move L _ (.step k)).returned = _
  simp only [ShSys.move, List.getElem?_set_self hlt]

end
end C96

/-- The claim: a call of `Close` in progress can always return without anybody calling the pool again; that is, some `Close` returns if only the calls in progress go on. -/
def C96_statement : Prop :=
  ∀ (Λ : Type) (L : PoolLib Λ) (lib : Λ) (ms : List ShMove) (s : ShSys Λ), s = (ShSys.fresh lib).moves L ms → ∀ (k : Nat) (p : SP Λ (Option Nat)), s.calls[k]? = some (.close, p) →
    ∃ (ks : List Nat) (new : List (ShReq × CRes (Option Nat))), (s.moves L (ks.map .step)).returned = s.returned ++ new ∧ ∃ c ∈ new, c.1 = .close

/-- **C96**, partial: as long as the library does not make its callers wait. -/
theorem C96_partial {Λ : Type} (L : PoolLib Λ) {lib : Λ} {ms : List ShMove} {s : ShSys Λ} (hs : s = (ShSys.fresh lib).moves L ms) (hb : (L.borrow s.pool.lib).isSome = true)
    {k : Nat} {p : SP Λ (Option Nat)} (hk : s.calls[k]? = some (.close, p)) :
    ∃ (ks : List Nat) (new : List (ShReq × CRes (Option Nat))), (s.moves L (ks.map .step)).returned = s.returned ++ new ∧ ∃ c ∈ new, c.1 = .close := by
  obtain ⟨zs, hi, _⟩ := C96.inv_moves L ms (C96.inv_fresh L lib)
  rw [← hs] at hi
  have hget : ∀ {i : Nat} {c : ShReq × SP Λ (Option Nat)}, s.calls[i]? = some c → ∃ z, zs[i]? = some z ∧ z.2 = c := by
    intro i c h
    rw [hi.calls, List.getElem?_map] at h
    cases hz : zs[i]? with
    | none => rw [hz] at h; cases h
    | some z => rw [hz] at h; cases h; exact ⟨z, rfl, rfl⟩
  obtain ⟨z, hz, hzc⟩ := hget hk
  have hat := hi.at_ z (List.mem_of_getElem? hz)
  rw [hzc] at hat
  dsimp only at hat
  have finish : C96.Goes p s.pool → ∃ (ks : List Nat) (new : List (ShReq × CRes (Option Nat))), (s.moves L (ks.map .step)).returned = s.returned ++ new ∧ ∃ c ∈ new, c.1 = .close := by
    intro hg
    obtain ⟨n, res, h⟩ := C96.returns L hk hg
    exact ⟨List.replicate n k, [(.close, res)], by rw [List.map_replicate]; exact h, _, List.mem_singleton_self _, rfl⟩
  cases hh : z.1.holds with
  | true => exact finish (C96.goes_holder L hat hh hb).1
  | false =>
    cases hl : s.pool.locked with
    | false => exact finish (C96.goes_free L hat (by simp) hh hl)
    | true =>
      have hcount := hi.lock
      rw [hl, if_pos rfl] at hcount
      obtain ⟨z', hz', hh'⟩ := List.countP_pos_iff.1 (show 0 < _ by omega : 0 < zs.countP fun z => z.1.holds)
      obtain ⟨i, hi'⟩ := List.getElem?_of_mem hz'
      obtain ⟨st', r', p'⟩ := z'
      have hci : s.calls[i]? = some (r', p') := by rw [hi.calls, List.getElem?_map, hi']; rfl
      obtain ⟨hg, hu⟩ := C96.goes_holder L (hi.at_ _ hz') hh' hb
      obtain ⟨n, hn⟩ := C96.goes_run L p' hci hg
      have hne : i ≠ k := by
        rintro rfl
        rw [hi'] at hz
        cases hz
        rw [hh] at hh'
        cases hh'
      have hk' : (s.moves L (List.replicate n (.step i))).calls[k]? = some (.close, p) := by
        rw [hn]
        show (s.calls.set i _)[k]? = _
        rw [List.getElem?_set_ne hne]
        exact hk
      have hg' : C96.Goes p (s.moves L (List.replicate n (.step i))).pool := by
        rw [hn]
        exact C96.goes_free L hat (by simp) hh hu
      obtain ⟨n', res, h⟩ := C96.returns L hk' hg'
      refine ⟨List.replicate n i ++ List.replicate n' k, [(.close, res)], ?_, _, List.mem_singleton_self _, rfl⟩
      rw [List.map_append, List.map_replicate, List.map_replicate, C96.moves_append, h, hn]

/-- Giving back a connection never waits. -/
theorem C96_reclaim {Λ : Type} (L : PoolLib Λ) {lib : Λ} {ms : List ShMove} {s : ShSys Λ} (hs : s = (ShSys.fresh lib).moves L ms)
    {k n : Nat} {p : SP Λ (Option Nat)} (hk : s.calls[k]? = some (.reclaim n, p)) :
    ∃ m res, (s.moves L (List.replicate m (.step k))).returned = s.returned ++ [(.reclaim n, res)] := by
  obtain ⟨zs, hi, _⟩ := C96.inv_moves L ms (C96.inv_fresh L lib)
  rw [← hs] at hi
  have hm := List.mem_of_getElem? hk
  rw [hi.calls] at hm
  obtain ⟨z, hz, hzc⟩ := List.mem_map.1 hm
  have hat := hi.at_ z hz
  rw [hzc] at hat
  dsimp only at hat
  refine C96.returns L hk ?_
  generalize z.1 = st at hat
  cases hat with
  | giving n =>
    refine ⟨rfl, ?_⟩
    dsimp only
    cases (L.giveBack n s.pool.lib).1 with
    | none => exact trivial
    | some e => exact trivial
  | given => exact trivial

/-- A library for a single connection; its state is whether the connection is lent. -/
def C96.one : PoolLib Bool where
  borrow b := if b then none else some (.ok 0, true)
  giveBack _ _ := (none, false)
  shut b := b
  alive _ b := (true, b)

/-- One user has got the connection, another one waits for it, and a third one wants to close the pool. -/
def C96.history : List ShMove := [.call .open] ++ List.replicate 6 (.step 0) ++ [.call .open, .call .close, .step 0, .step 0]

/-- False: `Open` waits for a connection with the lock in its hands, and `Close` waits for the lock. -/
theorem C96_refuted : ¬ C96_statement := by
  intro h
  obtain ⟨ks, new, h1, c, hc, _⟩ := h Bool C96.one false C96.history _ rfl 1 (shClose C96.one) rfl
  have stuck : ∀ k, ((ShSys.fresh false).moves C96.one C96.history).move C96.one (.step k) = (ShSys.fresh false).moves C96.one C96.history := by
    intro k
    match k with
    | 0 => rfl
    | 1 => rfl
    | k + 2 => rfl
  have : ∀ ks : List Nat, ((ShSys.fresh false).moves C96.one C96.history).moves C96.one (ks.map .step) = (ShSys.fresh false).moves C96.one C96.history := by
    intro ks
    induction ks with
    | nil => rfl
    | cons k ks ih =>
      show ShSys.moves C96.one (ShSys.move C96.one _ (.step k)) _ = _
      rw [stuck k, ih]
  rw [this] at h1
  have := congrArg List.length h1
  rw [List.length_append] at this
  cases new with
  | nil => cases hc
  | cons _ _ => simp at this

/-- The hypotheses of `C96_partial` and `C70_shared_refuses` are met: the connection is given back, and everybody gets on; the second `Open`, which was in progress, gets the connection. -/
example : let s := (ShSys.fresh false).moves C96.one (C96.history ++ [.call (.reclaim 0), .step 2])
    (C96.one.borrow s.pool.lib).isSome = true ∧ s.calls.map (·.1) = [.open, .close, .reclaim 0] ∧
    ((s.moves C96.one ([0, 0, 0, 1, 1, 1, 1, 1, 1].map .step)).returned.map fun c => (c.1, c.2.isOk)) = [(.open, true), (.close, true)] ∧
    Spec.opened (s.moves C96.one ([0, 0, 0, 1, 1, 1, 1, 1, 1, 0].map .step)).returned = 2 := by decide +kernel

end Verif

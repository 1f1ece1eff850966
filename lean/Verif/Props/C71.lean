/-
C71  The pool factory's liveness decisions.
-/
import Verif.Proofs.DriverPool
import Verif.Props.C37
import Verif.Props.C74
namespace Verif
open Spec

section
variable {σ : Type} (env : Env) (W : World σ) (semi : Bool) (fuel : Nat) (net : Net σ)

/-- The connection has not been closed by this side, and the other side is not known to have closed it. -/
def Spec.Alive (c : Conn σ) : Prop := c.closed = false ∧ W.probe c.world ≠ .eof

/-- Connection `r` of a pool is alive. -/
def Spec.AliveIn (s : DPool σ) (r : Nat) : Prop := ∃ c, s.conns[r]? = some c ∧ Spec.Alive W c

theorem validateOpen_alive (c : Conn σ) : ∃ b, (validateOpen W c).1 = .ok b ∧ (b = true ↔ Alive W c) := by
  unfold validateOpen Alive
  cases hc : c.closed with
  | true => exact ⟨false, by simp, by simp⟩
  | false =>
    cases hp : W.probe c.world with
    | eof => exact ⟨false, by simp [hp], by simp⟩
    | other => exact ⟨true, by simp [hp], by simp⟩
    | data =>
      refine ⟨true, ?_, by simp⟩
      simp only [Bool.false_eq_true, if_false, hp]
      split <;> rfl

theorem onConn_validate {s : DPool σ} {r : Nat} {c : Conn σ} (h : s.conns[r]? = some c) :
    ∃ b s', onConn r (validateOpen W) s = (.ok b, s') ∧ (b = true ↔ Alive W c) := by
  obtain ⟨b, h1, h2⟩ := validateOpen_alive W c
  refine ⟨b, { s with conns := s.conns.set r (validateOpen W c).2 }, ?_, h2⟩
  simp only [onConn, h, h1]

/-- C71, Open: a connection is returned only if the library returned it, and it was alive then. -/
theorem C71_open {borrow : DM σ PObj} {s s' : DPool σ} {r : Nat} (h : dOpen W borrow s = (.ok r, s')) :
    s.closed = false ∧ ∃ s1, borrow s = (.ok (.conn r), s1) ∧ AliveIn W s1 r := by
  unfold dOpen at h
  split at h
  · cases h
  · rename_i hcl
    refine ⟨by simpa using hcl, ?_⟩
    split at h
    · rename_i r' s1 hb
      cases hc : s1.conns[r']? with
      | none => simp only [onConn, hc] at h; cases h
      | some c =>
        obtain ⟨b, s2, h1, h2⟩ := onConn_validate W hc
        rw [h1] at h
        cases b with
        | true => cases h; exact ⟨s1, hb, c, hc, h2.mp rfl⟩
        | false => cases h
    · cases h
    · cases h
    · cases h
    · cases h

/-- And if the pool is not closed and the library returns a connection that is alive, Open does return it. -/
theorem C71_open_succeeds {borrow : DM σ PObj} {s s1 : DPool σ} {r : Nat} (hcl : s.closed = false) (hb : borrow s = (.ok (.conn r), s1)) (ha : AliveIn W s1 r) :
    ∃ s', dOpen W borrow s = (.ok r, s') := by
  obtain ⟨c, hc, ha⟩ := ha
  obtain ⟨b, s2, h1, h2⟩ := onConn_validate W hc
  rw [h2.mpr ha] at h1
  unfold dOpen
  rw [if_neg (by simp [hcl]), hb]
  simp only [h1]
  exact ⟨_, rfl⟩

/-- ValidateObject says yes exactly to the objects with a connection that is alive. -/
theorem C71_validate (x : PObj) (s : DPool σ) (hx : ∀ r, x = .conn r → r < s.conns.length) :
    ∃ b s', validateObject W x s = (.ok b, s') ∧ (b = true ↔ ∃ r, x = .conn r ∧ AliveIn W s r) := by
  cases x with
  | conn r =>
    have hc := List.getElem?_eq_getElem (hx r rfl)
    obtain ⟨b, s', h1, h2⟩ := onConn_validate W hc
    refine ⟨b, s', h1, h2.trans ⟨fun h => ⟨r, rfl, _, hc, h⟩, ?_⟩⟩
    rintro ⟨r', hr, c, hc', ha⟩
    cases hr
    rw [hc] at hc'
    cases hc'
    exact ha
  | nilPointer => exact ⟨false, s, rfl, by simp⟩
  | nilObject => exact ⟨false, s, rfl, by simp⟩
  | foreign => exact ⟨false, s, rfl, by simp⟩

/-- What is not an object with a connection is refused without effect by ActivateObject, PassivateObject and DestroyObject, and found invalid by ValidateObject. -/
theorem C71_refuses {x : PObj} (hx : ∀ r, x ≠ .conn r) (o : Nat) (s : DPool σ) :
    (∃ e, activateObject env W semi fuel net o x s = (.err e, s)) ∧ (∃ e, passivateObject env W fuel x s = (.err e, s)) ∧
      (∃ e, destroyObject env W fuel x s = (.err e, s)) ∧ validateObject W x s = (.ok false, s) := by
  cases x with
  | conn r => exact absurd rfl (hx r)
  | nilPointer => exact ⟨⟨_, rfl⟩, ⟨_, rfl⟩, ⟨_, rfl⟩, rfl⟩
  | nilObject => exact ⟨⟨_, rfl⟩, ⟨_, rfl⟩, ⟨_, rfl⟩, rfl⟩
  | foreign => exact ⟨⟨_, rfl⟩, ⟨_, rfl⟩, ⟨_, rfl⟩, rfl⟩

/-- Reclaim of nil returns an error and does nothing; Reclaim of a connection gives exactly this connection to the library, and returns what the library returns. -/
theorem C71_reclaim (giveBack : Nat → DM σ Unit) (s : DPool σ) :
    (∃ e, dReclaim giveBack none s = (.err e, s)) ∧
      ∀ r, ∃ s', s'.conns = s.conns ∧ s'.objs = s.objs ∧ s'.closed = s.closed ∧ s'.dials = s.dials ∧ dReclaim giveBack (some r) s = giveBack r s' :=
  ⟨⟨_, rfl⟩, fun r => ⟨{ s with log := s.log ++ [.reclaimed r] }, rfl, rfl, rfl, rfl, rfl⟩⟩

/-- PassivateObject returns nil only for an object with a connection, none of whose transactions is open afterwards.  If one was open, it has been rolled back: the rollback requests were sent,
and the server answered each of them with SUCCESS; in all other cases the object is refused (PassivateObject returns an error).  If none was open, nothing happens to the connection. -/
theorem C71_passivate {x : PObj} {s s' : DPool σ} (h : passivateObject env W fuel x s = (.ok (), s')) :
    ∃ r c c', x = .conn r ∧ s.conns[r]? = some c ∧ s'.conns = s.conns.set r c' ∧
      (InUse env W c → ∀ h, ¬ c'.isOpen h) ∧
      (∀ h, c.cur = some h → 1 ≤ c.chunkSize → c.chunkSize ≤ 65535 → Acknowledged env W c c' (rollbackTrees c.proto)) ∧
      (c.cur = none → c' = c) := by
  cases x with
  | nilPointer => cases h
  | nilObject => cases h
  | foreign => cases h
  | conn r =>
    unfold passivateObject onConn at h
    dsimp only at h
    cases hc : s.conns[r]? with
    | none => simp only [hc] at h; cases h
    | some c =>
      simp only [hc] at h
      cases hm : makeIdle env W fuel c with
      | mk res c' =>
        rw [hm] at h
        cases h
        refine ⟨r, c, c', rfl, hc, rfl, fun hu => ?_, fun n hn h1 h2 => ?_, fun hn => ?_⟩
        · have hk := Keeps.makeIdle env W fuel c hu.inv
          rw [hm] at hk
          intro n ho
          have := (hk.open_iff n).mp ho
          rw [show c'.core.cur = c'.cur from rfl, (makeIdle_ok_core env W hm).2.2] at this
          cases this
        · rw [makeIdle_eq, endCur_apply, hn] at hm
          exact (C37_rollback_partial env W h1 h2 hm).2.1
        · rw [makeIdle_eq, endCur_apply, hn] at hm
          cases hm
          rfl

/-- ActivateObject of an object whose connection is alive does nothing but look; if the connection is dead, it is replaced by a newly created one. -/
theorem C71_activate {o r : Nat} {s s' : DPool σ} (h : activateObject env W semi fuel net o (.conn r) s = (.ok (), s')) :
    (AliveIn W s r ∧ s'.objs = s.objs ∧ s'.conns.length = s.conns.length) ∨
    (¬ AliveIn W s r ∧ s'.objs = s.objs.set o (.conn s.conns.length) ∧
      ∃ c, s'.conns[s.conns.length]? = some c ∧ createFrom env W semi fuel net s.connStr s.dials = .ok (.ok (), c)) := by
  unfold activateObject at h
  dsimp only at h
  cases hc : s.conns[r]? with
  | none => simp only [onConn, hc] at h; cases h
  | some c =>
    obtain ⟨b, s2, h1, h2⟩ := onConn_validate W hc
    have hs2 : s2 = { s with conns := s.conns.set r (validateOpen W c).2 } := by
      have := congrArg Prod.snd h1
      simp only [onConn, hc] at this
      exact this.symm
    rw [h1] at h
    cases b with
    | true =>
      cases h
      refine .inl ⟨⟨c, hc, h2.mp rfl⟩, by rw [hs2], by rw [hs2]; simp⟩
    | false =>
      refine .inr ⟨?_, ?_⟩
      · rintro ⟨c1, hc1, ha⟩
        rw [hc] at hc1
        cases hc1
        exact absurd (h2.mpr ha) (by simp)
      · dsimp only at h
        unfold dCreate at h
        rw [hs2] at h
        dsimp only at h
        cases hcr : createFrom env W semi fuel net s.connStr s.dials with
        | error e => rw [hcr] at h; cases h
        | ok res =>
          obtain ⟨res, cn⟩ := res
          rw [hcr] at h
          cases res with
          | ok _ =>
            cases h
            refine ⟨by simp, cn, ?_, rfl⟩
            simp
          | err e => cases h
          | panic => cases h
          | fuel => cases h

/-- DestroyObject closes a connection that is alive, and returns what Close returns.  It does not touch a dead one. -/
theorem C71_destroy {r : Nat} {s : DPool σ} {c : Conn σ} (hc : s.conns[r]? = some c) :
    (Alive W c → ∃ c1, (validateOpen W c).2 = c1 ∧ (destroyObject env W fuel (.conn r) s).1 = (close env W fuel c1).1 ∧
      (destroyObject env W fuel (.conn r) s).2.conns[r]? = some (close env W fuel c1).2) ∧
    (¬ Alive W c → (destroyObject env W fuel (.conn r) s).1 = .ok () ∧ (destroyObject env W fuel (.conn r) s).2.conns[r]? = some c) := by
  obtain ⟨b, s2, h1, h2⟩ := onConn_validate W hc
  have hs2 : s2 = { s with conns := s.conns.set r (validateOpen W c).2 } := by
    have := congrArg Prod.snd h1
    simp only [onConn, hc] at this
    exact this.symm
  have hlt := (List.getElem?_eq_some_iff.mp hc).1
  constructor
  · intro ha
    refine ⟨_, rfl, ?_⟩
    rw [h2.mpr ha] at h1
    unfold destroyObject
    dsimp only
    rw [h1]
    dsimp only
    rw [hs2]
    unfold onConn
    simp [hlt]
  · intro ha
    have hb : b = false := by
      cases b with
      | false => rfl
      | true => exact absurd (h2.mp rfl) ha
    rw [hb] at h1
    unfold destroyObject
    dsimp only
    rw [h1]
    dsimp only
    refine ⟨rfl, ?_⟩
    rw [hs2]
    have : (validateOpen W c).2 = c := by
      unfold validateOpen
      unfold Alive at ha
      split
      · rfl
      · rename_i hcl
        cases hp : W.probe c.world with
        | eof => rfl
        | other => exact absurd ⟨by simpa using hcl, by simp [hp]⟩ ha
        | data => exact absurd ⟨by simpa using hcl, by simp [hp]⟩ ha
    simp [this, hlt]

end

/-- Whether the factory refuses a connection on which a transaction was begun, for a server that answers ROLLBACK so. -/
def C71.refused (answer : List Bytes) : Bool :=
  let net := noFiles fun _ _ => sOpen4 ++ [sSuccess, answer]
  let s := dRun env0 scripted false 3 net [.open [.make] (.ok (.conn 0)), .user 0 (.begin_ [])] (newDriverPool (ascii "bolt://u:p@host:7687"))
  s.conns.map (·.cur) = [some 0] ∧ (passivateObject env0 scripted 3 (.conn 0) s).1.kind ≠ 0

/-- The factory accepts the connection if the server agrees to the rollback, and refuses it if it ignores it. -/
example : C71.refused sSuccess = false ∧ C71.refused sIgnored = true := by decide +kernel

/-- A pool whose only connection has been closed by its user: Open refuses it, and ActivateObject replaces it. -/
example :
    let net := noFiles fun _ _ => sOpen4 ++ [sSuccess, sSuccess]
    let s := dRun env0 scripted false 3 net [.open [.make] (.ok (.conn 0)), .user 0 .close] (newDriverPool (ascii "bolt://u:p@host:7687"))
    s.objs = [.conn 0] ∧ s.conns.length = 1 ∧ (dOpen scripted (fun s => (.ok (.conn 0), s)) s).1.kind = 1 ∧
      (activateObject env0 scripted false 3 net 0 (.conn 0) s).1.kind = 0 ∧ (activateObject env0 scripted false 3 net 0 (.conn 0) s).2.objs = [.conn 1] := by
  decide +kernel

end Verif

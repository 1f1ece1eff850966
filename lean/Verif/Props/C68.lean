/-
C68  Returned connections carry no transaction to the next borrower.
-/
import Verif.Proofs.DriverPool
import Verif.Proofs.NoTx
import Verif.Props.C36
import Verif.Props.C74
namespace Verif
open Spec

section
variable {σ : Type} (env : Env) (W : World σ) (semi : Bool) (fuel : Nat) (net : Net σ)

/-- Connections that are ready for the next user have no transaction. -/
def Tidy (log : List DEv) (conns : List (Conn σ)) : Prop := ∀ r c, conns[r]? = some c → c.core.Inv ∧ (custody log r = .ready → c.cur = none)

theorem custody_snoc (log : List DEv) (e : DEv) (r : Nat) : custody (log ++ [e]) r = (custody log r).after r e := by
  unfold custody
  rw [List.foldl_append]
  rfl

/-- A call that begins no transaction keeps everything tidy. -/
theorem tidy_on {α : Type} {m : CM σ α} (hk : Keeps m) (hm : ∀ c : Conn σ, c.cur = none → (m c).2.cur = none) (r : Nat) (s : DPool σ) (h : Tidy s.log s.conns) :
    Tidy (onConn r m s).2.log (onConn r m s).2.conns := by
  unfold onConn
  cases hc : s.conns[r]? with
  | none => exact h
  | some c =>
    intro r' c' hc'
    dsimp only at hc' ⊢
    by_cases hr : r = r'
    · subst hr
      rw [List.getElem?_set_self (List.getElem?_eq_some_iff.mp hc).1] at hc'
      cases hc'
      exact ⟨hk c (h r c hc).1, fun hx => hm c ((h r c hc).2 hx)⟩
    · rw [List.getElem?_set_ne hr] at hc'
      exact h r' c' hc'

/-- The factory keeps everything tidy. -/
theorem tidyRel : DRel env W semi fuel net (fun (s s' : DPool σ) => Tidy s.log s.conns → Tidy s'.log s'.conns) where
  refl _ h := h
  trans h1 h2 h := h2 (h1 h)
  dial s h := by
    unfold dCreate
    cases hcr : createFrom env W semi fuel net s.connStr s.dials with
    | error e => exact h
    | ok res =>
      obtain ⟨res, cn⟩ := res
      cases res with
      | ok _ =>
        obtain ⟨h1, h2⟩ := createFrom_noTx env W hcr
        intro r c hc
        dsimp only at hc ⊢
        by_cases hr : r < s.conns.length
        · rw [List.getElem?_append_left hr] at hc
          exact h r c hc
        · rw [List.getElem?_append_right (by omega)] at hc
          cases hx : r - s.conns.length with
          | zero => rw [hx] at hc; cases hc; exact ⟨h2, fun _ => h1⟩
          | succ n => rw [hx] at hc; cases hc
      | err e => exact h
      | panic => exact h
      | fuel => exact h
  probe r s := tidy_on (Keeps.validateOpen W) ((noTx env W).probe) r s
  shut r s := tidy_on (Keeps.close env W fuel) ((noTx env W).close env W fuel) r s
  idle r s h := by
    have h1 := tidy_on (Keeps.makeIdle env W fuel) ((noTx env W).makeIdle env W fuel) r s h
    unfold passivateObject
    intro r' c' hc'
    dsimp only at hc' ⊢
    refine ⟨(h1 r' c' hc').1, fun hcu => ?_⟩
    rw [custody_snoc] at hcu
    by_cases hready : custody (onConn r (makeIdle env W fuel) s).2.log r' = .ready
    · exact (h1 r' c' hc').2 hready
    · cases hcus : custody (onConn r (makeIdle env W fuel) s).2.log r' with
      | ready => exact absurd hcus hready
      | user => rw [hcus] at hcu; simp [Custody.after] at hcu
      | returned =>
        rw [hcus] at hcu
        cases hok : (onConn r (makeIdle env W fuel) s).1.isOk with
        | false => rw [hok] at hcu; simp [Custody.after] at hcu
        | true =>
          rw [hok] at hcu
          simp only [Custody.after] at hcu
          split at hcu
          · rename_i hr
            subst hr
            unfold onConn at hok hc'
            cases hc : s.conns[r]? with
            | none => rw [hc] at hok; cases hok
            | some c =>
              rw [hc] at hok hc'
              dsimp only at hok hc'
              rw [List.getElem?_set_self (List.getElem?_eq_some_iff.mp hc).1] at hc'
              cases hc'
              cases hm : makeIdle env W fuel c with
              | mk res c' =>
                rw [hm] at hok
                cases res with
                | ok _ => exact (makeIdle_ok_core env W hm).2.2
                | err e => cases hok
                | panic => cases hok
                | fuel => cases hok
          · cases hcu
  objs _ _ h := h

theorem tidy_weaken {log log' : List DEv} {conns : List (Conn σ)} (h : Tidy log conns) (hl : ∀ r, custody log' r = .ready → custody log r = .ready) : Tidy log' conns :=
  fun r c hc => ⟨(h r c hc).1, fun hx => (h r c hc).2 (hl r hx)⟩

theorem tidy_move {m : DMove} {s : DPool σ} (hp : Proper env W semi fuel net s m) (h : Tidy s.log s.conns) :
    Tidy (m.run env W semi fuel net s).log (m.run env W semi fuel net s).conns := by
  have hl := fun calls => (tidyRel env W semi fuel net).library calls
  have hprobe : ∀ r (s : DPool σ), Tidy s.log s.conns → Tidy (onConn r (validateOpen W) s).2.log (onConn r (validateOpen W) s).2.conns :=
    (tidyRel env W semi fuel net).probe
  cases m with
  | «open» calls answer =>
    show Tidy (dOpen W (borrowed env W semi fuel net calls answer) s).2.log (dOpen W (borrowed env W semi fuel net calls answer) s).2.conns
    unfold dOpen
    split
    · exact h
    · have h1 := hl calls s h
      unfold borrowed
      cases answer with
      | error e => exact h1
      | ok x =>
        cases x with
        | conn r =>
          dsimp only
          have h2 := hprobe r _ h1
          split <;> rename_i hx <;> rw [hx] at h2
          · refine tidy_weaken h2 fun r' hr' => ?_
            rw [custody_snoc] at hr'
            simp only [Custody.after] at hr'
            split at hr'
            · cases hr'
            · exact hr'
          · exact h2
          · exact h2
          · exact h2
          · exact h2
        | nilPointer => exact h1
        | nilObject => exact h1
        | foreign => exact h1
  | reclaim r calls answer =>
    cases r with
    | none => exact h
    | some r =>
      refine hl calls _ (tidy_weaken h fun r' hr' => ?_)
      rw [custody_snoc] at hr'
      simp only [Custody.after] at hr'
      split at hr'
      · cases hr'
      · exact hr'
  | close calls =>
    show Tidy (dClose (library env W semi fuel net calls) s).2.log (dClose (library env W semi fuel net calls) s).2.conns
    unfold dClose
    split
    · exact h
    · exact hl calls s h
  | evict calls => exact hl calls s h
  | user r op =>
    show Tidy (onConn r (step env W fuel op) s).2.log (onConn r (step env W fuel op) s).2.conns
    unfold onConn
    cases hc : s.conns[r]? with
    | none => exact h
    | some c =>
      intro r' c' hc'
      dsimp only at hc' ⊢
      by_cases hr : r = r'
      · subst hr
        rw [List.getElem?_set_self (List.getElem?_eq_some_iff.mp hc).1] at hc'
        cases hc'
        refine ⟨Keeps.step env W fuel op c (h r c hc).1, fun hx => ?_⟩
        rw [show custody s.log r = .user from hp] at hx
        cases hx
      · rw [List.getElem?_set_ne hr] at hc'
        exact h r' c' hc'

theorem tidy_run {ms : List DMove} {s : DPool σ} (hp : AllProper env W semi fuel net s ms) (h : Tidy s.log s.conns) :
    Tidy (dRun env W semi fuel net ms s).log (dRun env W semi fuel net ms s).conns := by
  unfold dRun
  induction ms generalizing s with
  | nil => exact h
  | cons m ms ih => exact ih hp.2 (tidy_move env W semi fuel net hp.1 h)

/-- C68, the pool without routing: after any proper history `Open` returns only connections without an open transaction.
What is missing for the full statement: it relies on the library to passivate connections (`Spec.Proper`), and for the routing pool it is false (`C68_refuted`). -/
theorem C68_partial {connStr : Bytes} {ms : List DMove} {calls : List FCall} {answer : Except Err PObj}
    (hp : AllProper env W semi fuel net (newDriverPool connStr) (ms ++ [.open calls answer])) {r : Nat} {s : DPool σ}
    (ho : dOpen W (borrowed env W semi fuel net calls answer) (dRun env W semi fuel net ms (newDriverPool connStr)) = (.ok r, s)) :
    ∃ c, s.conns[r]? = some c ∧ ∀ h, ¬ c.isOpen h := by
  have hsplit : ∀ (ms : List DMove) (s : DPool σ) (m : DMove), AllProper env W semi fuel net s (ms ++ [m]) →
      AllProper env W semi fuel net s ms ∧ Proper env W semi fuel net (dRun env W semi fuel net ms s) m := by
    intro ms
    induction ms with
    | nil => intro s m h; exact ⟨trivial, h.1⟩
    | cons m' ms ih =>
      intro s m h
      obtain ⟨h1, h2⟩ := ih _ m h.2
      exact ⟨⟨h.1, h1⟩, h2⟩
  obtain ⟨h1, h2⟩ := hsplit ms _ _ hp
  have ht := tidy_run env W semi fuel net h1 (fun r c hc => by cases hc)
  generalize dRun env W semi fuel net ms (newDriverPool connStr) = s0 at h2 ht ho
  have hl := (tidyRel env W semi fuel net).library calls s0 ht
  unfold dOpen at ho
  split at ho
  · cases ho
  · rename_i hcl
    unfold borrowed at ho
    cases answer with
    | error e => cases ho
    | ok x =>
      cases x with
      | nilPointer => cases ho
      | nilObject => cases ho
      | foreign => cases ho
      | conn r' =>
        have h3 : custody (library env W semi fuel net calls s0).log r' = .ready := h2 (by simpa using hcl)
        dsimp only at ho
        have hv := (tidyRel env W semi fuel net).probe r' _ hl
        have hlog : (onConn r' (validateOpen W) (library env W semi fuel net calls s0)).2.log = (library env W semi fuel net calls s0).log := by
          unfold onConn
          split <;> rfl
        rw [hlog] at hv
        generalize hz : onConn r' (validateOpen W) (library env W semi fuel net calls s0) = z at ho hv
        have hex : r' < z.2.conns.length ∨ ∀ b, z.1 ≠ .ok b := by
          rw [← hz]
          unfold onConn
          cases hc : (library env W semi fuel net calls s0).conns[r']? with
          | none => exact .inr (by simp)
          | some c => exact .inl (by simpa using (List.getElem?_eq_some_iff.mp hc).1)
        match z, hv, hex, ho with
        | (.ok true, s''), hv, hex, ho =>
          cases ho
          have hlt := hex.resolve_right (fun h => h true rfl)
          have hc : s''.conns[r]? = some s''.conns[r] := List.getElem?_eq_getElem hlt
          refine ⟨_, hc, fun h hopen => ?_⟩
          obtain ⟨hi, hn⟩ := hv r _ hc
          have := (hi.open_iff h).mp hopen
          rw [show Core.cur _ = none from hn h3] at this
          cases this
        | (.ok false, s''), _, _, ho => cases ho
        | (.err _, s''), _, _, ho => cases ho
        | (.panic, s''), _, _, ho => cases ho
        | (.fuel, s''), _, _, ho => cases ho

end

/-- A pool for the scripted server: one connection, on which a user begins a transaction and which it gives back without ending it; the next user. -/
def C68.history : List DMove := [.open [.make] (.ok (.conn 0)), .user 0 (.begin_ []), .reclaim (some 0) [.passivate 0] none]

/-- The hypotheses of `C68_partial` are met: the history is proper, the second user does get the connection, and the first one did begin a transaction. -/
example :
    let net := noFiles fun _ _ => sOpen4 ++ [sSuccess, sSuccess, sSuccess]
    let again : DMove := .open [.validate 0, .activate 0] (.ok (.conn 0))
    let s := dRun env0 scripted false 3 net C68.history (newDriverPool (ascii "bolt://u:p@host:7687"))
    AllProper env0 scripted false 3 net (newDriverPool (ascii "bolt://u:p@host:7687")) (C68.history ++ [again]) ∧
      (dOpen scripted (borrowed env0 scripted false 3 net [.validate 0, .activate 0] (.ok (.conn 0))) s).1.kind = 0 ∧ s.conns.map (·.txs) = [[true]] :=
  ⟨⟨fun _ => by decide +kernel, by show custody _ 0 = _; decide +kernel, by show custody _ 0 = _; decide +kernel, fun _ => by decide +kernel, trivial⟩, by decide +kernel, by decide +kernel⟩

end Verif

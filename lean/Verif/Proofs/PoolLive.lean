/-
The routing pool with real connections: which of them have transactions.
-/
import Verif.Model.PoolConns
import Verif.Proofs.PoolActs
import Verif.Proofs.PoolSys
import Verif.Proofs.NoTx
namespace Verif
open PProg

section
variable {σ : Type} {env : Env} {W : World σ} {semi : Bool} {fuel : Nat} {net : Net σ} {ids : Nat → Bytes}

/-- Connections outside `L` have no transaction; `log`: all connections of the pool exist. -/
structure LiveOK (L : List Nat) (s : RPool (Live σ)) : Prop where
  tx : ∀ r c, s.world.conns r = some c → c.core.Inv ∧ (r ∉ L → c.cur = none)
  exist : ∀ r id str w, PEv.created r id str w ∈ s.log → (s.world.conns r).isSome

theorem LiveOK.put {L : List Nat} {s : RPool (Live σ)} (h : LiveOK L s) {r : Nat} {c : Conn σ} {s' : RPool (Live σ)} (hi : c.core.Inv) (hc : r ∉ L → c.cur = none)
    (hw : s'.world.conns = (s.world.put r c).conns) (hl : ∀ r' id str w', PEv.created r' id str w' ∈ s'.log → PEv.created r' id str w' ∈ s.log ∨ r' = r) :
    LiveOK L s' := by
  constructor
  · intro r' c' hc'
    rw [hw] at hc'
    unfold Live.put at hc'
    dsimp only at hc'
    split at hc'
    · rename_i hr
      cases hc'
      exact ⟨hi, fun h => hc (hr ▸ h)⟩
    · exact h.tx r' c' hc'
  · intro r' id str w' hm
    rw [hw]
    unfold Live.put
    dsimp only
    split
    · rfl
    · rename_i hne
      rcases hl r' id str w' hm with hm | hm
      · exact h.exist r' id str w' hm
      · exact absurd hm hne

theorem LiveOK.same {L : List Nat} {s s' : RPool (Live σ)} (h : LiveOK L s) (e1 : s'.world.conns = s.world.conns)
    (e2 : ∀ r id str w, PEv.created r id str w ∈ s'.log → PEv.created r id str w ∈ s.log) : LiveOK L s' :=
  ⟨fun r c hc => h.tx r c (by rw [← e1]; exact hc), fun r id str w hm => by rw [e1]; exact h.exist r id str w (e2 r id str w hm)⟩

theorem ok_of_error? {res : CRes Unit × Conn σ} (h : res.1.error? = none) : res = (.ok (), res.2) := by
  obtain ⟨res, c⟩ := res
  cases res with
  | ok _ => rfl
  | err e => cases h
  | panic => cases h
  | fuel => cases h

theorem liveOK_acts (L : List Nat) : ∀ acc f, PAct (liveWorld env W semi fuel net ids) acc f → ∀ s, LiveOK L s → LiveOK L (f s) := by
  have P := noTx env W
  have snoc : ∀ {log : List PEv} {e : PEv}, (∀ r id str w, e ≠ .created r id str w) → ∀ r id str w, PEv.created r id str w ∈ log ++ [e] → PEv.created r id str w ∈ log := by
    intro log e he r id str w hm
    rcases List.mem_append.1 hm with hm | hm
    · exact hm
    · exact absurd (List.mem_singleton.1 hm).symm (he r id str w)
  intro acc f ha s h
  cases ha with
  | look _ => exact h
  | rlock => exact h.same rfl fun _ _ _ _ h => h
  | runlock => exact h.same rfl fun _ _ _ _ h => h
  | lock => exact h.same rfl fun _ _ _ _ h => h
  | unlock => exact h.same rfl fun _ _ _ _ h => h
  | validate r =>
    dsimp only [liveWorld]
    cases hc : s.world.conns r with
    | none => exact h.same rfl (snoc (by simp))
    | some c =>
      obtain ⟨h1, h2⟩ := h.tx r c hc
      exact h.put (Keeps.validateOpen W c h1) (fun hr => P.probe c (h2 hr)) rfl (fun r id str w hm => .inl (snoc (by simp) r id str w hm))
  | close r =>
    dsimp only [liveWorld]
    cases hc : s.world.conns r with
    | none => exact h.same rfl (snoc (by simp))
    | some c =>
      obtain ⟨h1, h2⟩ := h.tx r c hc
      exact h.put (Keeps.close env W fuel c h1) (fun hr => P.close env W fuel c (h2 hr)) rfl (fun r id str w hm => .inl (snoc (by simp) r id str w hm))
  | delHeld _ => exact h.same rfl fun _ _ _ _ h => h
  | putHeld _ _ => exact h.same rfl fun _ _ _ _ h => h
  | delBorrowed _ => exact h.same rfl fun _ _ _ _ h => h
  | putBorrowed _ => exact h.same rfl fun _ _ _ _ h => h
  | enqueue w _ => cases w <;> exact h.same rfl fun _ _ _ _ h => h
  | dequeue w =>
    dsimp only
    split
    · exact h
    · cases w <;> exact h.same rfl fun _ _ _ _ h => h
  | setQueue w _ => cases w <;> exact h.same rfl fun _ _ _ _ h => h
  | create w str =>
    dsimp only [liveWorld]
    cases hr : createFrom env W semi fuel net str s.world.dials with
    | error e => exact h.same rfl fun _ _ _ _ h => h
    | ok res =>
    dsimp only
    cases he : res.1.error? with
    | some e => exact h.same rfl fun _ _ _ _ h => h
    | none =>
      obtain ⟨h1, h2⟩ := createFrom_noTx env W (hr.trans (congrArg Except.ok (ok_of_error? he)))
      refine h.put h2 (fun _ => h1) rfl (fun r id str' w' hm => ?_)
      rcases List.mem_append.1 hm with hm | hm
      · exact .inl hm
      · have := List.mem_singleton.1 hm
        cases this
        exact .inr rfl
  | indexW =>
    dsimp only
    split
    · exact h
    · exact h.same rfl fun _ _ _ _ h => h
  | indexR =>
    dsimp only
    split
    · exact h
    · exact h.same rfl fun _ _ _ _ h => h
  | dial =>
    dsimp only [liveWorld]
    cases hr : createFrom env W semi fuel net s.leaderConnStr s.world.dials with
    | error e => exact h.same rfl fun _ _ _ _ h => h
    | ok res =>
    dsimp only
    cases he : res.1.error? with
    | some e => exact h.same rfl fun _ _ _ _ h => h
    | none =>
      obtain ⟨h1, h2⟩ := createFrom_noTx env W (hr.trans (congrArg Except.ok (ok_of_error? he)))
      exact h.put h2 (fun _ => h1) rfl (fun r id str w hm => .inl (snoc (by simp) r id str w hm))
  | overview r =>
    dsimp only [liveWorld]
    cases hc : s.world.conns r with
    | none => exact h.same rfl (snoc (by simp))
    | some c =>
      obtain ⟨h1, h2⟩ := h.tx r c hc
      have hk : ∀ db, Keeps (queryWithDb env W fuel clusterOverview [] db) := fun db =>
        Steps.bind keepsRel (Keeps.checkDb db) fun _ => Keeps.runQuery env W fuel _ _ db false
      exact h.put (hk _ c h1) (fun hr => step_query_noTx env W fuel _ _ _ c (h2 hr)) rfl (fun r id str w hm => .inl (snoc (by simp) r id str w hm))
  | take => exact h.same rfl fun _ _ _ _ h => h
  | stopped => exact h.same rfl fun _ _ _ _ h => h
  | startHead =>
    unfold RPool.startHead
    split <;> exact h.same rfl fun _ _ _ _ h => h

/-- The invariant does not depend on what happens outside the pool. -/
theorem SysInv.outside {st : Bool} {ω : Type} {s : PSys ω} (h : SysInv st s) (w : ω) : SysInv st { s with pool := { s.pool with world := w } } := by
  obtain ⟨⟨xs, L, dead, hx, hL, hi, hs⟩, hr⟩ := h
  refine ⟨⟨xs, L, dead, hx, hL, ?_, hs⟩, hr⟩
  have n : Neutral s.pool { s.pool with world := w } :=
    ⟨rfl, rfl, rfl, fun w => by cases w <;> rfl, rfl, fun w => by cases w <;> rfl, fun w => by cases w <;> rfl, Nat.le_refl _, [], by simp, rfl⟩
  exact n.inv hi

end
end Verif

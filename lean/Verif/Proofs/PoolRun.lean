/-
Calls on the routing pool that are not interrupted.
-/
import Verif.Model.PoolSys
namespace Verif
namespace PProg
variable {S α β : Type}

theorem run_bind_ok {p : PProg S α} {f : α → PProg S β} {a : α} : ∀ {s s' : S}, p.run s = (.ok a, s') → (PProg.bind p f).run s = (f a).run s' := by
  induction p with
  | done r => intro s s' h; simp only [run, Prod.mk.injEq] at h; obtain ⟨rfl, rfl⟩ := h; rfl
  | act acc en g k ih =>
    intro s s' h
    simp only [run] at h
    simp only [PProg.bind, run]
    split at h
    · rename_i he; rw [if_pos he]; exact ih s h
    · simp at h

theorem run_bind_err {p : PProg S α} {f : α → PProg S β} {e : Err} : ∀ {s s' : S}, p.run s = (.err e, s') → (PProg.bind p f).run s = (.err e, s') := by
  induction p with
  | done r => intro s s' h; simp only [run, Prod.mk.injEq] at h; obtain ⟨rfl, rfl⟩ := h; rfl
  | act acc en g k ih =>
    intro s s' h
    simp only [run] at h
    simp only [PProg.bind, run]
    split at h
    · rename_i he; rw [if_pos he]; exact ih s h
    · simp at h

/-- A sequence that succeeds consists of parts that succeed. -/
theorem run_bind_inv {p : PProg S α} {f : α → PProg S β} {b : β} : ∀ {s s' : S}, (PProg.bind p f).run s = (.ok b, s') →
    ∃ a s₁, p.run s = (.ok a, s₁) ∧ (f a).run s₁ = (.ok b, s') := by
  induction p with
  | done r =>
    intro s s' h
    match r with
    | .ok a => exact ⟨a, s, rfl, h⟩
    | .err _ => simp [PProg.bind, run] at h
    | .panic => simp [PProg.bind, run] at h
    | .fuel => simp [PProg.bind, run] at h
  | act acc en g k ih =>
    intro s s' h
    simp only [PProg.bind, run] at h
    split at h
    · rename_i he
      obtain ⟨a, s₁, h1, h2⟩ := ih s h
      exact ⟨a, s₁, by simp only [run]; rw [if_pos he]; exact h1, h2⟩
    · simp at h

theorem run_prim (acc : List Access) (m : S → α × S) (s : S) : (PProg.prim acc m).run s = (.ok (m s).1, (m s).2) := rfl

end PProg

section
variable {ω : Type} (W : PWorld ω)

/-- What removing a connection does. -/
theorem removeConn_run {x : Wrap} {s s' : RPool ω} (h : (removeConn W (some x)).run s = (.ok (), s')) :
    (∀ w, s'.queueOf w = s.queueOf w) ∧ ∃ evs, s'.log = s.log ++ evs ∧ (evs = [.checked x.conn.ref true] ∨ evs = [.checked x.conn.ref false, .closed x.conn.ref]) := by
  unfold removeConn at h
  obtain ⟨ok, s₁, h1, h2⟩ := PProg.run_bind_inv h
  simp only [pValidate, PProg.run_prim, Prod.mk.injEq, CRes.ok.injEq] at h1
  obtain ⟨rfl, rfl⟩ := h1
  split at h2
  · rename_i hok
    simp only [delHeld, PProg.run_prim, Prod.mk.injEq] at h2
    obtain ⟨_, rfl⟩ := h2
    exact ⟨fun w => by cases w <;> rfl, [.checked x.conn.ref true], by simp only; rw [hok], .inl rfl⟩
  · rename_i hok
    obtain ⟨c, s₂, h3, h4⟩ := PProg.run_bind_inv h2
    simp only [pClose, PProg.run_prim, Prod.mk.injEq, CRes.ok.injEq] at h3
    obtain ⟨rfl, rfl⟩ := h3
    have hok : (W.validate s.world x.conn.ref).2 = false := by simpa using hok
    split at h4
    · simp [PProg.fail, PProg.run] at h4
    · simp only [delHeld, PProg.run_prim, Prod.mk.injEq] at h4
      obtain ⟨_, rfl⟩ := h4
      exact ⟨fun w => by cases w <;> rfl, [.checked x.conn.ref false, .closed x.conn.ref], by simp only; rw [hok]; simp, .inr rfl⟩

/-- What draining a queue does. -/
theorem drain_run (w : Bool) : ∀ {fuel : Nat} {s s' : RPool ω}, (drain W w fuel).run s = (.ok (), s') →
    s'.queueOf w = [] ∧ s'.queueOf (!w) = s.queueOf (!w) ∧ ∃ evs, s'.log = s.log ++ evs ∧
      ∀ x ∈ s.queueOf w, .closed x.conn.ref ∈ evs ∨ .checked x.conn.ref true ∈ evs
  | 0, s, s', h => by simp [drain, PProg.run] at h
  | fuel + 1, s, s', h => by
    unfold drain at h
    obtain ⟨n, s₁, h1, h2⟩ := PProg.run_bind_inv h
    simp only [pSize, PProg.run_prim, Prod.mk.injEq, CRes.ok.injEq] at h1
    obtain ⟨rfl, rfl⟩ := h1
    split at h2
    · rename_i hn
      have hq := List.eq_nil_of_length_eq_zero hn
      simp only [Pure.pure, PProg.run, Prod.mk.injEq] at h2
      obtain ⟨_, rfl⟩ := h2
      exact ⟨hq, rfl, [], by simp, by rw [hq]; simp⟩
    · rename_i hn
      obtain ⟨x, s₂, h3, h4⟩ := PProg.run_bind_inv h2
      obtain ⟨_, s₃, h5, h6⟩ := PProg.run_bind_inv h4
      cases hq : s.queueOf w with
      | nil => rw [hq] at hn; exact absurd rfl hn
      | cons y q =>
        simp only [pDequeue, PProg.run_prim, hq, Prod.mk.injEq, CRes.ok.injEq] at h3
        obtain ⟨rfl, rfl⟩ := h3
        obtain ⟨g1, evs, g2, g3⟩ := removeConn_run W h5
        obtain ⟨k1, k2, evs', k3, k4⟩ := drain_run w h6
        have hlog : (s.setQueue w q).log = s.log := by cases w <;> rfl
        have hother : (s.setQueue w q).queueOf (!w) = s.queueOf (!w) := by cases w <;> rfl
        have hown : (s.setQueue w q).queueOf w = q := by cases w <;> rfl
        refine ⟨k1, ?_, evs ++ evs', ?_, ?_⟩
        · rw [k2, g1, hother]
        · rw [k3, g2, hlog, List.append_assoc]
        · intro z hz
          rcases List.mem_cons.1 hz with rfl | hz
          · rcases g3 with rfl | rfl
            · exact .inr (by simp)
            · exact .inl (by simp)
          · have := k4 z (by rw [g1, hown]; exact hz)
            exact this.imp (List.mem_append_right _) (List.mem_append_right _)

end
end Verif

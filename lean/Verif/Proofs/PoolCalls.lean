/-
From calls that keep an invariant to histories.
-/
import Verif.Proofs.PoolSys
namespace Verif
open PProg

section
variable {ω G : Type} (W : PWorld ω) {I : RPool ω → List G → Prop} {g₀ : G}

/-- Every call in progress has a ghost; `dead`: the ghosts of calls that have ended. -/
def CallsInv (I : RPool ω → List G → Prop) (s : PSys ω) : Prop :=
  ∃ (L : List ((PReq × PProg (RPool ω) PRet) × G)) (dead : List G), L.map (·.1) = s.calls ∧ I s.pool (L.map (·.2) ++ dead) ∧
    ∀ e ∈ L, Safe (fun _ => True) I (fun _ _ => True) (fun _ => True) e.1.2 e.2

theorem callsInv_move (hperm : ∀ s gs gs', List.Perm gs gs' → I s gs → I s gs') (hbegin : ∀ s F, I s F → I s (g₀ :: F)) (fuel : Nat) {s : PSys ω} (m : PMove)
    (hprog : ∀ r, m = .call r → Safe (fun _ => True) I (fun _ _ => True) (fun _ => True) (r.prog W fuel) g₀) (h : CallsInv I s) : CallsInv I (s.move W fuel m) := by
  obtain ⟨L, dead, hL, hi, hs⟩ := h
  have call : ∀ r l, m = .call r → CallsInv I ({ s with calls := s.calls ++ [(r, PReq.prog W fuel r)], lent := l } : PSys ω) := by
    intro r l hm
    refine ⟨L ++ [((r, PReq.prog W fuel r), g₀)], dead, by simp [hL], hperm _ _ _ ?_ (hbegin _ _ hi), fun e he => ?_⟩
    · simp only [List.map_append, List.map_cons, List.map_nil, List.append_assoc, List.cons_append, List.nil_append]
      exact List.perm_middle.symm
    · rcases List.mem_append.1 he with he | he
      · exact hs e he
      · rw [List.mem_singleton.1 he]; exact hprog r hm
  match m with
  | .call (.reclaim c) =>
    simp only [PSys.move]
    split
    · exact call _ _ rfl
    · exact ⟨L, dead, hL, hi, hs⟩
  | .call (.borrow w) => exact call _ _ rfl
  | .call .start => exact call _ _ rfl
  | .call .stop => exact call _ _ rfl
  | .call .refresh => exact call _ _ rfl
  | .step k =>
    simp only [PSys.move]
    cases hk : s.calls[k]? with
    | none => exact ⟨L, dead, hL, hi, hs⟩
    | some rp =>
      obtain ⟨r, p⟩ := rp
      have hk' := hk
      rw [← hL, List.getElem?_map, Option.map_eq_some_iff] at hk'
      obtain ⟨⟨rp, g⟩, hkL, rfl⟩ := hk'
      obtain ⟨L₁, L₂, h1, h2, h3⟩ := split_at hkL
      have hsafe := hs ((r, p), g) (by rw [h1]; simp)
      have hf : I s.pool (g :: ((L₁ ++ L₂).map (·.2) ++ dead)) := by
        refine hperm _ _ _ ?_ hi
        rw [h1]
        simp only [List.map_append, List.map_cons, List.append_assoc, List.cons_append]
        exact List.perm_middle
      cases p with
      | done res =>
        refine ⟨L.eraseIdx k, g :: dead, by rw [← hL, eraseIdx_map'], hperm _ _ _ ?_ hf, fun e he => hs e (List.mem_of_mem_eraseIdx he)⟩
        rw [h2]
        exact List.perm_middle.symm
      | act acc en f k' =>
        dsimp only
        split
        · rename_i hen
          obtain ⟨g', hi', hsafe'⟩ := hsafe s.pool _ hen hf trivial
          refine ⟨L.set k ((r, k' s.pool), g'), dead, by rw [← hL, List.map_set], hperm _ _ _ ?_ hi', fun e he => ?_⟩
          · rw [h3]
            simp only [List.map_append, List.map_cons, List.append_assoc, List.cons_append]
            exact List.perm_middle.symm
          · rcases List.mem_or_eq_of_mem_set he with he | rfl
            · exact hs e he
            · exact hsafe'
        · exact ⟨L, dead, hL, hi, hs⟩

theorem callsInv_moves (hperm : ∀ s gs gs', List.Perm gs gs' → I s gs → I s gs') (hbegin : ∀ s F, I s F → I s (g₀ :: F)) (fuel : Nat) :
    ∀ (ms : List PMove) {s : PSys ω}, (∀ r, .call r ∈ ms → Safe (fun _ => True) I (fun _ _ => True) (fun _ => True) (r.prog W fuel) g₀) →
      CallsInv I s → CallsInv I (s.moves W fuel ms)
  | [], _, _, h => h
  | m :: ms, _, hp, h => callsInv_moves hperm hbegin fuel ms (fun r hr => hp r (List.mem_cons_of_mem _ hr))
      (callsInv_move W hperm hbegin fuel m (fun r hr => hp r (by rw [hr]; exact List.mem_cons_self)) h)

end
end Verif

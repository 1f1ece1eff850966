/-
Programs that keep what is known about the shared state.
-/
import Verif.Proofs.PoolActs
import Verif.Spec.Pool
namespace Verif
open PProg

section
variable {S α β K : Type}

/-- While `Q k` is known, the actions of the program preserve everything that may be known, and may add to what the program itself knows; with its last knowledge and its result `R` holds. -/
def Know (Q : K → S → Prop) (R : K → CRes α → Prop) : K → PProg S α → Prop
  | k, .done r => R k r
  | k, .act _ _ f c => ∀ s, Q k s → (∀ k₂, Q k₂ s → Q k₂ (f s)) ∧ ∃ k', Q k' (f s) ∧ Know Q R k' (c s)

variable {Q : K → S → Prop}

theorem Know.bind {R : K → CRes α → Prop} {R' : K → CRes β → Prop} {f : α → PProg S β} (hf : ∀ k a, R k (.ok a) → Know Q R' k (f a)) (he : ∀ k e, R k (.err e) → R' k (.err e))
    (hp : ∀ k, R k .panic → R' k .panic) (hn : ∀ k, R k .fuel → R' k .fuel) : ∀ {p : PProg S α} {k : K}, Know Q R k p → Know Q R' k (PProg.bind p f)
  | .done (.ok a), k, h => hf k a h
  | .done (.err e), k, h => he k e h
  | .done .panic, k, h => hp k h
  | .done .fuel, k, h => hn k h
  | .act _ _ _ c, _, h => fun s hs =>
    let ⟨h1, k', h2, h3⟩ := h s hs
    ⟨h1, k', h2, Know.bind hf he hp hn (p := c s) h3⟩

/-- Actions that preserve everything. -/
theorem Know.of_acts {R : K → CRes α → Prop} {k : K} (hR : ∀ r, R k r) : ∀ {p : PProg S α}, Acts (fun _ f => ∀ k s, Q k s → Q k (f s)) p → Know Q R k p
  | .done r, _ => hR r
  | .act _ _ _ c, h => fun s hs => ⟨fun k₂ h₂ => h.1 k₂ s h₂, k, h.1 k s hs, Know.of_acts hR (p := c s) (h.2 s)⟩

theorem Know.mono {R R' : K → CRes α → Prop} (h : ∀ k r, R k r → R' k r) : ∀ {p : PProg S α} {k : K}, Know Q R k p → Know Q R' k p
  | .done r, k, hp => h k r hp
  | .act _ _ _ c, _, hp => fun s hs =>
    let ⟨h1, k', h2, h3⟩ := hp s hs
    ⟨h1, k', h2, Know.mono h (p := c s) h3⟩

end

section
variable {ω K : Type} {W : PWorld ω} {Q : K → RPool ω → Prop} {R : PReq → K → CRes PRet → Prop}

/-- What is known stays known in a history. -/
theorem know_moves (fuel : Nat) (k₀ : K) : ∀ (ms : List PMove) (s : PSys ω), Q k₀ s.pool → (∀ e ∈ s.calls, ∃ k, Q k s.pool ∧ Know Q (R e.1) k e.2) →
    (∀ r, .call r ∈ ms → Know Q (R r) k₀ (r.prog W fuel)) →
    Q k₀ (s.moves W fuel ms).pool ∧ (∀ k, Q k s.pool → Q k (s.moves W fuel ms).pool) ∧ (∀ e ∈ (s.moves W fuel ms).calls, ∃ k, Q k (s.moves W fuel ms).pool ∧ Know Q (R e.1) k e.2) ∧
      ∃ new, (s.moves W fuel ms).returned = s.returned ++ new ∧ ∀ e ∈ new, ∃ k, Q k (s.moves W fuel ms).pool ∧ R e.1 k e.2
  | [], s, h0, hc, _ => ⟨h0, fun _ h => h, hc, [], (List.append_nil _).symm, fun _ h => absurd h List.not_mem_nil⟩
  | m :: ms, s, h0, hc, hm => by
    have call : ∀ r l, (Know Q (R r) k₀ (r.prog W fuel)) → ∀ e ∈ ({ s with calls := s.calls ++ [(r, PReq.prog W fuel r)], lent := l } : PSys ω).calls, ∃ k, Q k s.pool ∧ Know Q (R e.1) k e.2 := by
      intro r l hr e he
      rcases List.mem_append.1 he with he | he
      · exact hc e he
      · rw [List.mem_singleton.1 he]; exact ⟨k₀, h0, hr⟩
    have step : (∀ k, Q k s.pool → Q k (s.move W fuel m).pool) ∧ (∀ e ∈ (s.move W fuel m).calls, ∃ k, Q k (s.move W fuel m).pool ∧ Know Q (R e.1) k e.2) ∧
        ∃ new, (s.move W fuel m).returned = s.returned ++ new ∧ ∀ e ∈ new, ∃ k, Q k (s.move W fuel m).pool ∧ R e.1 k e.2 := by
      have same : ∃ new, s.returned = s.returned ++ new ∧ ∀ e ∈ new, ∃ k, Q k s.pool ∧ R e.1 k e.2 := ⟨[], (List.append_nil _).symm, fun _ h => absurd h List.not_mem_nil⟩
      match m, hm with
      | .call (.reclaim c), hm =>
        simp only [PSys.move]
        split
        · exact ⟨fun _ h => h, call _ _ (hm _ List.mem_cons_self), same⟩
        · exact ⟨fun _ h => h, hc, same⟩
      | .call (.borrow w), hm => exact ⟨fun _ h => h, call _ _ (hm _ List.mem_cons_self), same⟩
      | .call .start, hm => exact ⟨fun _ h => h, call _ _ (hm _ List.mem_cons_self), same⟩
      | .call .stop, hm => exact ⟨fun _ h => h, call _ _ (hm _ List.mem_cons_self), same⟩
      | .call .refresh, hm => exact ⟨fun _ h => h, call _ _ (hm _ List.mem_cons_self), same⟩
      | .step k, _ =>
        simp only [PSys.move]
        cases hk : s.calls[k]? with
        | none => exact ⟨fun _ h => h, hc, same⟩
        | some rp =>
          obtain ⟨r, p⟩ := rp
          obtain ⟨kp, hq, hp⟩ := hc _ (List.mem_of_getElem? hk)
          cases p with
          | done res =>
            refine ⟨fun _ h => h, fun e he => hc e (List.mem_of_mem_eraseIdx he), [(r, res)], rfl, fun e he => ?_⟩
            rw [List.mem_singleton.1 he]
            exact ⟨kp, hq, hp⟩
          | act acc en f c =>
            dsimp only
            split
            · obtain ⟨h1, k', h2, h3⟩ := hp s.pool hq
              refine ⟨fun k hk => h1 k hk, fun e he => ?_, [], (List.append_nil _).symm, fun _ h => absurd h List.not_mem_nil⟩
              rcases List.mem_or_eq_of_mem_set he with he | rfl
              · obtain ⟨ke, hqe, hpe⟩ := hc e he
                exact ⟨ke, h1 ke hqe, hpe⟩
              · exact ⟨k', h2, h3⟩
            · exact ⟨fun _ h => h, hc, same⟩
    obtain ⟨a1, a2, new, a3, a4⟩ := step
    obtain ⟨b1, b2, b3, new', b4, b5⟩ := know_moves fuel k₀ ms (s.move W fuel m) (a1 k₀ h0) a2 fun r hr => hm r (List.mem_cons_of_mem _ hr)
    refine ⟨b1, fun k hk => b2 k (a1 k hk), b3, new ++ new', ?_, fun e he => ?_⟩
    · show ((s.move W fuel m).moves W fuel ms).returned = _
      rw [b4, a3, List.append_assoc]
    · rcases List.mem_append.1 he with he | he
      · obtain ⟨k, hk, hr⟩ := a4 e he
        exact ⟨k, b2 k hk, hr⟩
      · exact b5 e he

end
end Verif

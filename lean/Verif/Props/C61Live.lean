/-
C61  The connections a routing pool lends: connections as modelled in `Verif.Model.Conn`, and users who do with them what they like.
-/
import Verif.Props.C61
import Verif.Props.C68Routing
import Verif.Props.C71
namespace Verif
open Spec

section
variable {ω : Type} {W : PWorld ω}

/-- All calls of the system have executed their programs in steps that satisfy `P`. -/
def RunsBy (W : PWorld ω) (fuel : Nat) (P : RPool ω × RPool ω → Prop) (s : PSys ω) : Prop :=
  (∀ c ∈ s.calls, ∃ tr, Path (c.1.prog W fuel) tr c.2 ∧ ∀ p ∈ tr, P p) ∧ (∀ c ∈ s.returned, ∃ tr, Exec (c.1.prog W fuel) tr c.2 ∧ ∀ p ∈ tr, P p)

theorem RunsBy.mono {fuel : Nat} {P Q : RPool ω × RPool ω → Prop} {s : PSys ω} (h : RunsBy W fuel P s) (hpq : ∀ p, P p → Q p) : RunsBy W fuel Q s :=
  ⟨fun c hc => let ⟨tr, h1, h2⟩ := h.1 c hc; ⟨tr, h1, fun p hp => hpq p (h2 p hp)⟩,
    fun c hc => let ⟨tr, h1, h2⟩ := h.2 c hc; ⟨tr, h1, fun p hp => hpq p (h2 p hp)⟩⟩

theorem runsBy_move {fuel : Nat} {P : RPool ω × RPool ω → Prop} {s : PSys ω} (m : PMove) (h : RunsBy W fuel P s) (hP : ∀ x, P (s.pool, x)) :
    RunsBy W fuel P (s.move W fuel m) := by
  obtain ⟨hc, hr⟩ := h
  have new : ∀ r, ∀ c ∈ s.calls ++ [(r, PReq.prog W fuel r)], ∃ tr, Path (c.1.prog W fuel) tr c.2 ∧ ∀ p ∈ tr, P p := by
    intro r c hm
    rcases List.mem_append.1 hm with hm | hm
    · exact hc c hm
    · rw [List.mem_singleton.1 hm]
      exact ⟨[], .start, fun _ h => absurd h List.not_mem_nil⟩
  match m with
  | .call (.reclaim c) =>
    simp only [PSys.move]
    split
    · exact ⟨new _, hr⟩
    · exact ⟨hc, hr⟩
  | .call (.borrow w) => exact ⟨new _, hr⟩
  | .call .start => exact ⟨new _, hr⟩
  | .call .stop => exact ⟨new _, hr⟩
  | .call .refresh => exact ⟨new _, hr⟩
  | .step k =>
    simp only [PSys.move]
    cases hk : s.calls[k]? with
    | none => exact ⟨hc, hr⟩
    | some rp =>
      obtain ⟨r, p⟩ := rp
      obtain ⟨tr, h1, h2⟩ := hc _ (List.mem_of_getElem? hk)
      cases p with
      | done res =>
        refine ⟨fun c hm => hc c (List.mem_of_mem_eraseIdx hm), fun c hm => ?_⟩
        rcases List.mem_append.1 hm with hm | hm
        · exact hr c hm
        · rw [List.mem_singleton.1 hm]
          exact ⟨tr, by have := Exec.append h1 .done; rwa [List.append_nil] at this, h2⟩
      | act acc en g p =>
        dsimp only
        split
        · rename_i hen
          refine ⟨fun c hm => ?_, hr⟩
          rcases List.mem_or_eq_of_mem_set hm with hm | rfl
          · exact hc c hm
          · refine ⟨tr ++ [(s.pool, g s.pool)], .step h1 rfl hen, fun q hq => ?_⟩
            rcases List.mem_append.1 hq with hq | hq
            · exact h2 q hq
            · rw [List.mem_singleton.1 hq]
              exact hP _
        · exact ⟨hc, hr⟩

/-- The actions of an execution. -/
theorem exec_acts {S α : Type} {A : List Access → (S → S) → Prop} {p : PProg S α} {tr : List (S × S)} {r : CRes α} (h : Exec p tr r) (ha : PProg.Acts A p) :
    ∀ q ∈ tr, ∃ acc g, A acc g ∧ q.2 = g q.1 := by
  induction h with
  | done => exact fun _ h => absurd h List.not_mem_nil
  | act _ _ ih =>
    intro q hq
    rcases List.mem_cons.1 hq with rfl | hq
    · exact ⟨_, _, ha.1, rfl⟩
    · exact ih (ha.2 _) q hq

/-- Only looking at a connection reports that it is open. -/
theorem checked_of_act {acc : List Access} {g : RPool ω → RPool ω} (h : PAct W acc g) {s : RPool ω} {r : Nat}
    (hm : PEv.checked r true ∈ (g s).log.drop s.log.length) : (W.validate s.world r).2 = true := by
  cases h with
  | validate r' =>
    simp only [List.drop_left, List.mem_singleton, PEv.checked.injEq] at hm
    rw [hm.1]
    exact hm.2.symm
  | runlock => simp [runlock] at hm
  | unlock => simp [unlock] at hm
  | dequeue w =>
    dsimp only at hm
    split at hm <;> simp [RPool.setQueue] at hm
    split at hm <;> simp at hm
  | enqueue w x => cases w <;> simp [RPool.setQueue] at hm
  | setQueue w q => cases w <;> simp [RPool.setQueue] at hm
  | create w str =>
    dsimp only at hm
    split at hm <;> simp at hm
  | indexW =>
    dsimp only at hm
    split at hm <;> simp at hm
  | indexR =>
    dsimp only at hm
    split at hm <;> simp at hm
  | dial _ =>
    dsimp only at hm
    split at hm <;> simp at hm
  | take => simp [RPool.takeStrings] at hm
  | startHead =>
    unfold RPool.startHead at hm
    split at hm <;> simp at hm
  | _ => simp at hm

/-- A call that has borrowed a connection has seen it open. -/
theorem exec_borrow_open {fuel : Nat} {w : Bool} {c : ConnRef} {tr : List (RPool ω × RPool ω)} (h : Exec (PReq.prog W fuel (.borrow w)) tr (.ok (some c))) :
    ∃ p ∈ tr, (W.validate p.1.world c.ref).2 = true := by
  have hl := exec_borrow_checked h
  have hm := List.mem_of_getLast? hl
  obtain ⟨p, hp, he⟩ := List.mem_flatMap.1 hm
  obtain ⟨acc, g, ha, hg⟩ := exec_acts h (acts_prog fuel _) p hp
  rw [hg] at he
  exact ⟨p, hp, checked_of_act ha he⟩

end

section
variable {σ : Type} {env : Env} {W : World σ} {semi : Bool} {fuel : Nat} {net : Net σ} {ids : Nat → Bytes}

theorem lives_snoc (s : PSys (Live σ)) (ms : List LMove) (m : LMove) :
    s.lives env W semi fuel net ids (ms ++ [m]) = (s.lives env W semi fuel net ids ms).live env W semi fuel net ids m := by
  simp only [PSys.lives, List.foldl_append, List.foldl_cons, List.foldl_nil]

theorem lives_runs (pool : RPool (Live σ)) (ms : List LMove) :
    RunsBy (liveWorld env W semi fuel net ids) fuel (fun p => ∃ before after, ms = before ++ after ∧ p.1 = ((PSys.fresh pool).lives env W semi fuel net ids before).pool)
      ((PSys.fresh pool).lives env W semi fuel net ids ms) := by
  have main : ∀ (ms pre : List LMove),
      RunsBy (liveWorld env W semi fuel net ids) fuel (fun p => ∃ before after, pre = before ++ after ∧ p.1 = ((PSys.fresh pool).lives env W semi fuel net ids before).pool)
        ((PSys.fresh pool).lives env W semi fuel net ids pre) →
      RunsBy (liveWorld env W semi fuel net ids) fuel (fun p => ∃ before after, pre ++ ms = before ++ after ∧ p.1 = ((PSys.fresh pool).lives env W semi fuel net ids before).pool)
        ((PSys.fresh pool).lives env W semi fuel net ids (pre ++ ms)) := by
    intro ms
    induction ms with
    | nil => intro pre h; rw [List.append_nil]; exact h
    | cons m ms ih =>
      intro pre h
      have := ih (pre ++ [m]) ?_
      · rwa [List.append_assoc] at this
      · rw [lives_snoc]
        have h' := h.mono (Q := fun p => ∃ before after, pre ++ [m] = before ++ after ∧ p.1 = ((PSys.fresh pool).lives env W semi fuel net ids before).pool)
          fun p ⟨b, a, he, hp⟩ => ⟨b, a ++ [m], by rw [he, List.append_assoc], hp⟩
        cases m with
        | pool m => exact runsBy_move m h' fun x => ⟨pre, [_], rfl, rfl⟩
        | user r op =>
          unfold PSys.live
          dsimp only
          split
          · split
            · exact h'
            · exact h'
          · exact h'
  exact main ms [] ⟨fun _ h => absurd h List.not_mem_nil, fun _ h => absurd h List.not_mem_nil⟩

/-- The actions are moves of the history `ms` of a pool and its users that starts in `s`. -/
def Spec.DuringLive (env : Env) (W : World σ) (semi : Bool) (fuel : Nat) (net : Net σ) (ids : Nat → Bytes) (s : PSys (Live σ)) (ms : List LMove) (tr : List (RPool (Live σ) × RPool (Live σ))) : Prop :=
  ∀ p ∈ tr, ∃ before after, ms = before ++ after ∧ p.1 = (s.lives env W semi fuel net ids before).pool

/-- **C61**, for connections as modelled in `Verif.Model.Conn`, whatever the users do with them: if a call of `BorrowRConnection` or `BorrowRWConnection` has returned a connection, then at
some time during this call the connection existed, this side had not closed it, and the other side was not known to have closed it. -/
theorem C61_live {pool : RPool (Live σ)} {ms : List LMove} {w : Bool} {c : ConnRef}
    (h : (PReq.borrow w, CRes.ok (some c)) ∈ ((PSys.fresh pool).lives env W semi fuel net ids ms).returned) :
    ∃ tr, Exec (PReq.prog (liveWorld env W semi fuel net ids) fuel (.borrow w)) tr (.ok (some c)) ∧ DuringLive env W semi fuel net ids (PSys.fresh pool) ms tr ∧
      ∃ p ∈ tr, ∃ conn, p.1.world.conns c.ref = some conn ∧ Alive W conn := by
  obtain ⟨tr, h1, h2⟩ := (lives_runs pool ms).2 _ h
  refine ⟨tr, h1, h2, ?_⟩
  obtain ⟨p, hp, hv⟩ := exec_borrow_open h1
  refine ⟨p, hp, ?_⟩
  cases hc : p.1.world.conns c.ref with
  | none =>
    simp only [liveWorld, hc] at hv
    cases hv
  | some conn =>
    refine ⟨conn, rfl, ?_⟩
    obtain ⟨b, hb, hi⟩ := validateOpen_alive W conn
    simp only [liveWorld, hc, hb, CRes.isTrue] at hv
    exact hi.1 hv

end

/-- The hypotheses are met: both users in this history got the connection, the second one after the first one had begun a transaction on it. -/
example : ((C68.opened.map fun pool => (PSys.fresh pool).lives env0 scripted false 3 C68.net C68.ids (C68.visit [.begin_ []] ++ [.pool (.step 0)])).map fun s =>
    s.returned.filterMap fun r => match r with | (.borrow w, .ok (some c)) => some (w, c.ref) | _ => none) = some [(true, 1), (true, 1)] := by decide +kernel

end Verif

/-
C133: the ids of connections come from a random number generator that all routing pools of a program share and that nothing protects.
-/
import Verif.Props.C69
import Verif.Props.C59
import Verif.Proofs.PoolActs
namespace Verif

namespace Spec

/-- The `i`th call in progress can go on, and in its next step it makes a connection and draws the random part of its id. -/
def Draws {ω : Type} (s : PSys ω) (i : Nat) : Prop :=
  ∃ r acc en g k, s.calls[i]? = some (r, .act acc en g k) ∧ en s.pool = true ∧
    ∃ n id str w, (g s.pool).log.drop s.pool.log.length = [.created n id str w]

end Spec

/-- The full claim: two calls never draw at the same time, neither two calls of one pool nor calls of two pools.  (`rand.Rand` may be used by one
goroutine at a time only.) -/
def C133_statement : Prop :=
  ∀ {ω : Type} {W : PWorld ω} {size : Int} {s : PSys ω}, Spec.Reached W size Spec.inUse s →
    (∀ i j, i ≠ j → ¬ (Spec.Draws s i ∧ Spec.Draws s j)) ∧
    ∀ {ω' : Type} {W' : PWorld ω'} {size' : Int} {t : PSys ω'}, Spec.Reached W' size' Spec.inUse t → ∀ i j, ¬ (Spec.Draws s i ∧ Spec.Draws t j)

namespace C133
variable {ω : Type} {W : PWorld ω}

/-- Only the action that draws logs a new connection. -/
theorem draws_of_act {acc : List Access} {f : RPool ω → RPool ω} (h : PActD W true true acc f) {s : RPool ω} {n : Nat} {id str : Bytes} {w : Bool}
    (hl : (f s).log.drop s.log.length = [.created n id str w]) : (⟨.rand, true, false⟩ : Access) ∈ acc := by
  have same : (f s).log = s.log → False := fun h => by rw [h] at hl; simp at hl
  have other : ∀ e, (f s).log = s.log ++ [e] → e = .created n id str w := fun e h => by rw [h] at hl; simpa using hl
  cases h with
  | enqueue w x => exact (same (by cases w <;> rfl)).elim
  | dequeue w =>
    refine (same ?_).elim
    dsimp only
    split
    · rfl
    · cases w <;> rfl
  | setQueue w q => exact (same (by cases w <;> rfl)).elim
  | validate r => cases other _ rfl
  | close r => cases other _ rfl
  | overview r => cases other _ rfl
  | create w str => exact List.mem_singleton.2 rfl
  | dial h =>
    dsimp only at same other
    split at same
    · exact (same rfl).elim
    · rename_i hc; rw [hc] at other; cases other _ rfl
  | indexW => exact (same (by dsimp only; split <;> rfl)).elim
  | indexR => exact (same (by dsimp only; split <;> rfl)).elim
  | startHead => exact (same (by unfold RPool.startHead; split <;> rfl)).elim
  | _ => exact (same rfl).elim

end C133

section
variable {ω : Type} {W : PWorld ω}

/-- **C133**, one pool: as long as it is not stopped, two of its calls never draw at the same time.
Missing: calls of two pools (`C133_refuted`). -/
theorem C133_partial {size : Int} {s : PSys ω} (hs : Spec.Reached W size Spec.inUse s) (i j : Nat) (hij : i ≠ j) : ¬ (Spec.Draws s i ∧ Spec.Draws s j) := by
  rintro ⟨⟨ri, acci, eni, gi, ki, hi, hei, ni, idi, stri, wi, hli⟩, ⟨rj, accj, enj, gj, kj, hj, hej, nj, idj, strj, wj, hlj⟩⟩
  have hs' := hs
  obtain ⟨connStr, user, tls, w, pool, fuel, ms, ho, hms, rfl⟩ := hs'
  have ha := (moves_of_acts (W := W) (P := fun _ => True) (fun _ _ _ _ _ => trivial) fuel ms (PSys.fresh pool) trivial
    (fun _ h => absurd h List.not_mem_nil)).2
  have h1 := C133.draws_of_act (ha _ (List.mem_of_getElem? hi)).1 hli
  have h2 := C133.draws_of_act (ha _ (List.mem_of_getElem? hj)).1 hlj
  rcases (C69_partial hs (v := .rand) ⟨hij, ri, acci, eni, gi, ki, rj, accj, enj, gj, kj, hi, hj, hei, hej, _, h1, _, h2, rfl, rfl, .inl rfl,
    by simp⟩).1 with h | h <;> cases h

end

namespace C133

/-- Connections break after the first one has been lent, and cannot be closed properly. -/
def script : Script where
  rows _ := threeMembers
  alive w _ := w < 12
  closing _ := some (.plain "broken pipe")

/-- The state after a history of a pool of 4 connections. -/
def state (W : PWorld Nat) (ms : List PMove) : Option (PSys Nat) :=
  match openRoutingPool W (ascii "bolt+routing://a") 4 (ascii "u:p") [] 0 with
  | .ok (.ok (), pool) => some ((PSys.fresh pool).moves W 100 ms)
  | _ => none

theorem state_reached {W : PWorld Nat} {ok : PMove → Prop} {ms : List PMove} (hok : ∀ m ∈ ms, ok m) {s : PSys Nat} (h : state W ms = some s) :
    Spec.Reached W 4 ok s := by
  unfold state at h
  generalize ho : openRoutingPool W (ascii "bolt+routing://a") 4 (ascii "u:p") [] 0 = o at h
  match o, h with
  | .ok (.ok (), pool), h =>
    simp only [Option.some.injEq] at h
    exact ⟨_, _, _, _, _, _, _, ho, hok, h.symm⟩

/-- A user borrows and returns a connection that broke in the meantime. -/
def history : List PMove := [.call (.borrow true)] ++ List.replicate 10 (.step 0) ++ [.call (.reclaim ⟨1, [49, 45, 0, 4]⟩)] ++ List.replicate 9 (.step 0)

/-- Whether the first call draws. -/
def drawing (s : PSys Nat) : Bool :=
  match s.calls[0]? with
  | some (_, PProg.act _ en g _) => en s.pool && (match (g s.pool).log.drop s.pool.log.length with
    | [PEv.created _ _ _ _] => true
    | _ => false)
  | _ => false

theorem drawing_draws {s : PSys Nat} (h : drawing s = true) : Spec.Draws s 0 := by
  unfold drawing at h
  split at h
  · rename_i r acc en g k hc
    rw [Bool.and_eq_true] at h
    obtain ⟨h1, h2⟩ := h
    split at h2
    · rename_i n id str w hd
      exact ⟨r, acc, en, g, k, hc, h1, n, id, str, w, hd⟩
    · cases h2
  · cases h

theorem witness : ∃ s, Spec.Reached script.world 4 Spec.inUse s ∧ Spec.Draws s 0 := by
  have check : ((state script.world history).map drawing) = some true := by decide +kernel
  cases h : state script.world history with
  | none => rw [h] at check; cases check
  | some s =>
    rw [h] at check
    simp only [Option.map_some, Option.some.injEq] at check
    refine ⟨s, state_reached (fun m hm => ?_) h, drawing_draws check⟩
    simp only [history, List.mem_append, List.mem_replicate, List.mem_cons, List.not_mem_nil, or_false] at hm
    rcases hm with ((rfl | ⟨_, rfl⟩) | rfl) | ⟨_, rfl⟩ <;> exact ⟨by simp, by simp⟩

end C133

/-- **C133 refuted**: in each of two pools a user returns a connection that broke and cannot be closed.  Both calls replace it at the same time: each of
them holds the mutex of its own pool, and both draw from the one generator. -/
theorem C133_refuted : ¬ C133_statement := by
  intro h
  obtain ⟨s, hs, hd⟩ := C133.witness
  exact (h hs).2 hs 0 0 ⟨hd, hd⟩

namespace C133

/-- A generator that gives the same letters again, as it may when two goroutines use it at once. -/
def repeating : PWorld Nat := { C69.script.world with random := fun w => (w + 1, [0, 0]) }

/-- A call from its beginning to its end. -/
def whole (r : PReq) : List PMove := .call r :: List.replicate 15 (.step 0)

/-- Two users borrow, the first one returns their connection, a third one borrows. -/
def three : List PMove := whole (.borrow true) ++ whole (.borrow true) ++ whole (.reclaim ⟨1, [49, 45, 0, 0]⟩) ++ whole (.borrow true)

end C133

/-- What is at stake: C60 needs ids that differ.  If the generator gives the same letters twice, a connection can be lent to two users at once: the
connection that is returned is taken for the one that another user still has, and that one is lent again. -/
theorem C133_collision : ∃ (W : PWorld Nat) (s : PSys Nat), Spec.Reached W 4 Spec.inUse s ∧ ∃ c, s.lent = [c, c] := by
  have check : ((C133.state C133.repeating C133.three).map (·.lent)) = some [⟨2, [49, 45, 0, 0]⟩, ⟨2, [49, 45, 0, 0]⟩] := by decide +kernel
  cases h : C133.state C133.repeating C133.three with
  | none => rw [h] at check; cases check
  | some s =>
    rw [h] at check
    simp only [Option.map_some, Option.some.injEq] at check
    refine ⟨_, s, C133.state_reached (fun m hm => ?_) h, _, check⟩
    simp only [C133.three, C133.whole, List.mem_append, List.mem_replicate, List.mem_cons] at hm
    rcases hm with ((((rfl | ⟨_, rfl⟩) | rfl | ⟨_, rfl⟩) | rfl | ⟨_, rfl⟩) | rfl | ⟨_, rfl⟩) <;> exact ⟨by simp, by simp⟩

/-- The hypotheses of `C133_partial` are met by a state in which a call draws. -/
example : ∃ s, Spec.Reached C133.script.world 4 Spec.inUse s ∧ Spec.Draws s 0 := C133.witness

end Verif

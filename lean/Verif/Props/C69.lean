/-
C69: data races in the routing pool.
-/
import Verif.Proofs.PoolLocks
import Verif.Spec.Pool
namespace Verif

namespace Spec

/-- The `i`th and the `j`th call in progress can both go on now, and both access the variable `v` in their next step, at least one of them writing, without a common lock of a queue. -/
def Race {ω : Type} (s : PSys ω) (i j : Nat) (v : Var) : Prop :=
  i ≠ j ∧ ∃ ri acci eni gi ki rj accj enj gj kj, s.calls[i]? = some (ri, .act acci eni gi ki) ∧ s.calls[j]? = some (rj, .act accj enj gj kj) ∧
    eni s.pool = true ∧ enj s.pool = true ∧
    ∃ a ∈ acci, ∃ b ∈ accj, a.var = v ∧ b.var = v ∧ (a.write = true ∨ b.write = true) ∧ ¬ (a.locked = true ∧ b.locked = true)

/-- Histories without `Stop` and further calls of `Start`. -/
def inUse : PMove → Prop := fun m => m ≠ .call .stop ∧ m ≠ .call .start

end Spec

section
variable {ω : Type} {W : PWorld ω}

/-- **C69**: as long as the pool is not stopped, a race is always between two calls that borrow, and about one of the two maps; all other variables, and all other calls, are free of races.
Missing: that borrowing is free of races, too (`C69_refuted`); stopping the pool (`C69_stop_refuted`). -/
theorem C69_partial {size : Int} {s : PSys ω} (hs : Spec.Reached W size Spec.inUse s) {i j : Nat} {v : Var} (h : Spec.Race s i j v) :
    (v = .held ∨ v = .borrowed) ∧ (∃ w p, s.calls[i]? = some (.borrow w, p)) ∧ ∃ w p, s.calls[j]? = some (.borrow w, p) := by
  obtain ⟨connStr, user, tls, w, pool, fuel, ms, ho, hms, rfl⟩ := hs
  have hstart := (open_lock ho).1
  obtain ⟨L, hL⟩ := LInv.moves (W := W) fuel ms hms ⟨[], (⟨rfl, fun _ h => absurd h List.not_mem_nil, by simp, by simp, fun h => by rw [show (PSys.fresh pool).pool = pool from rfl, hstart] at h; cases h⟩ : LInv (PSys.fresh pool) [])⟩
  generalize (PSys.fresh pool).moves W fuel ms = s at *
  obtain ⟨hij, ri, acci, eni, gi, ki, rj, accj, enj, gj, kj, hi, hj, _, _, a, ha, b, hb, rfl, hv, hw, hl⟩ := h
  have phase : ∀ {i : Nat} {r acc en g k} {a : Access}, s.calls[i]? = some (r, PProg.act acc en g k) → a ∈ acc → ∃ ph, L[i]? = some ((r, PProg.act acc en g k), ph) ∧ ph ≠ .free ∧ ph.Allows a ∧ (ph = .read → r.borrows = true) := by
    intro i r acc en g k a hi ha
    rw [← hL.calls, List.getElem?_map, Option.map_eq_some_iff] at hi
    obtain ⟨⟨rp, ph⟩, hk, rfl⟩ := hi
    obtain ⟨h1, h2⟩ := hL.held _ (List.mem_of_getElem? hk)
    have hal : ph.Allows a := by
      rcases h1 with ⟨h1, _⟩ | ⟨_, _, h1, _⟩ | ⟨_, h1, _⟩ | ⟨_, h1, _⟩ | ⟨_, h1, _⟩
      · exact h1.1 a ha
      all_goals rw [h1] at ha; exact absurd ha List.not_mem_nil
    refine ⟨ph, hk, ?_, hal, h2⟩
    rintro rfl
    exact hal
  obtain ⟨p, hp, hpf, hpa, hpr⟩ := phase hi ha
  obtain ⟨q, hq, hqf, hqa, hqr⟩ := phase hj hb
  have two : ∀ {x y : Phase}, L[i]? = some ((ri, .act acci eni gi ki), x) → L[j]? = some ((rj, .act accj enj gj kj), y) →
      (x = .write ∧ y = .write → False) ∧ (x = .write ∧ y = .read → False) ∧ (x = .read ∧ y = .write → False) := by
    intro x y hx hy
    have hxm : x ∈ L.map (·.2) := List.mem_map.2 ⟨_, List.mem_of_getElem? hx, rfl⟩
    have hym : y ∈ L.map (·.2) := List.mem_map.2 ⟨_, List.mem_of_getElem? hy, rfl⟩
    have hwr := hL.writes
    have hrd := hL.reads
    refine ⟨?_, ?_, ?_⟩
    · rintro ⟨rfl, rfl⟩
      have h2 := two_count (x := Phase.write) (l := L.map (·.2)) hij (by rw [List.getElem?_map, hx]; rfl) (by rw [List.getElem?_map, hy]; rfl)
      split at hwr <;> omega
    · rintro ⟨rfl, rfl⟩
      have h1 := List.count_pos_iff.2 hxm
      have h2 := List.count_pos_iff.2 hym
      split at hwr
      · rename_i h; have := hL.alone h; omega
      · omega
    · rintro ⟨rfl, rfl⟩
      have h1 := List.count_pos_iff.2 hxm
      have h2 := List.count_pos_iff.2 hym
      split at hwr
      · rename_i h; have := hL.alone h; omega
      · omega
  have borrow : ∀ {r : PReq}, r.borrows = true → ∃ w, r = .borrow w := by
    intro r h
    cases r with
    | borrow w => exact ⟨w, rfl⟩
    | _ => cases h
  cases p with
  | free => exact absurd rfl hpf
  | write =>
    cases q with
    | free => exact absurd rfl hqf
    | write => exact ((two hp hq).1 ⟨rfl, rfl⟩).elim
    | read => exact ((two hp hq).2.1 ⟨rfl, rfl⟩).elim
  | read =>
    cases q with
    | free => exact absurd rfl hqf
    | write => exact ((two hp hq).2.2 ⟨rfl, rfl⟩).elim
    | read =>
      obtain ⟨w₁, rfl⟩ := borrow (hpr rfl)
      obtain ⟨w₂, rfl⟩ := borrow (hqr rfl)
      refine ⟨?_, ⟨w₁, _, hi⟩, ⟨w₂, _, hj⟩⟩
      rcases hpa with h | h | ⟨h1, h2⟩ | ⟨h1, w, h2⟩
      · exact .inl h
      · exact .inr h
      · rcases hqa with h | h | ⟨h3, h4⟩ | ⟨h3, w, h4⟩
        · exact .inl (hv ▸ h)
        · exact .inr (hv ▸ h)
        · rw [h1, h3] at hw; simp at hw
        · exact absurd (hv ▸ h4) (h2 w)
      · rcases hqa with h | h | ⟨h3, h4⟩ | ⟨h3, _, h4⟩
        · exact .inl (hv ▸ h)
        · exact .inr (hv ▸ h)
        · exact absurd (hv.trans h2) (h4 w)
        · exact absurd ⟨h1, h3⟩ hl

end

namespace C69

/-- Whether the next steps of the `i`th and the `j`th call race for `v`. -/
def racing {ω : Type} (s : PSys ω) (i j : Nat) (v : Var) : Bool :=
  match s.calls[i]?, s.calls[j]? with
  | some (_, .act acci eni _ _), some (_, .act accj enj _ _) => i != j && eni s.pool && enj s.pool && acci.any fun a => accj.any fun b =>
      a.var == v && b.var == v && (a.write || b.write) && !(a.locked && b.locked)
  | _, _ => false

theorem racing_iff {ω : Type} {s : PSys ω} {i j : Nat} {v : Var} (h : racing s i j v = true) : Spec.Race s i j v := by
  unfold racing at h
  split at h
  · rename_i ri acci eni gi ki rj accj enj gj kj hi hj
    simp only [Bool.and_eq_true, bne_iff_ne, ne_eq, List.any_eq_true, beq_iff_eq, Bool.or_eq_true, Bool.not_eq_true', Bool.and_eq_false_iff] at h
    obtain ⟨⟨⟨h1, h2⟩, h3⟩, a, ha, b, hb, ⟨⟨h4, h5⟩, h6⟩, h7⟩ := h
    refine ⟨h1, ri, acci, eni, gi, ki, rj, accj, enj, gj, kj, hi, hj, h2, h3, a, ha, b, hb, h4, h5, h6, fun ⟨h8, h9⟩ => ?_⟩
    rcases h7 with h7 | h7
    · rw [h8] at h7; cases h7
    · rw [h9] at h7; cases h7
  · cases h

/-- A cluster that stays the same. -/
def script : Script where
  rows _ := threeMembers

/-- The state after a history of a pool of 4 connections. -/
def state (ms : List PMove) : Option (PSys Nat) :=
  match openRoutingPool script.world (ascii "bolt+routing://a") 4 (ascii "u:p") [] 0 with
  | .ok (.ok (), pool) => some ((PSys.fresh pool).moves script.world 100 ms)
  | _ => none

theorem state_reached {ok : PMove → Prop} {ms : List PMove} (hok : ∀ m ∈ ms, ok m) {s : PSys Nat} (h : state ms = some s) : Spec.Reached script.world 4 ok s := by
  unfold state at h
  generalize ho : openRoutingPool script.world (ascii "bolt+routing://a") 4 (ascii "u:p") [] 0 = o at h
  match o, h with
  | .ok (.ok (), pool), h =>
    simp only [Option.some.injEq] at h
    exact ⟨_, _, _, _, _, _, _, ho, hok, h.symm⟩

/-- Two goroutines borrow. -/
def borrows : List PMove := [.call (.borrow false), .call (.borrow true)] ++ List.replicate 4 (.step 0) ++ List.replicate 4 (.step 1)

/-- One goroutine borrows, another one stops the pool. -/
def stops : List PMove := [.call (.borrow false), .call .stop, .step 0, .step 1, .step 1]

theorem witness {ok : PMove → Prop} {ms : List PMove} {i j : Nat} {v : Var} (hok : ∀ m ∈ ms, ok m) (check : ((state ms).map fun s => racing s i j v) = some true) :
    ∃ s, Spec.Reached script.world 4 ok s ∧ Spec.Race s i j v := by
  cases h : state ms with
  | none => rw [h] at check; cases check
  | some s =>
    rw [h] at check
    simp only [Option.map_some, Option.some.injEq] at check
    exact ⟨s, state_reached hok h, racing_iff check⟩

end C69

/-- **C69 refuted**: two goroutines that borrow can both be about to write to `heldConns`: they hold the mutex for reading only. -/
theorem C69_refuted : ¬ ∀ {ω : Type} {W : PWorld ω} {size : Int} {s : PSys ω}, Spec.Reached W size Spec.inUse s → ∀ i j v, ¬ Spec.Race s i j v := by
  intro h
  obtain ⟨s, hs, hr⟩ := C69.witness (ok := Spec.inUse) (ms := C69.borrows) (i := 0) (j := 1) (v := .held)
    (fun m hm => by
      simp only [C69.borrows, List.mem_append, List.mem_replicate, List.mem_cons, List.not_mem_nil, or_false] at hm
      rcases hm with ((rfl | rfl) | ⟨_, rfl⟩) | ⟨_, rfl⟩ <;> exact ⟨by simp, by simp⟩) (by decide +kernel)
  exact h hs 0 1 .held hr

/-- **C69 refuted**, stopping: `Stop` takes no lock at all, and asks for the size of a queue while a connection is taken out of it. -/
theorem C69_stop_refuted : ¬ ∀ {ω : Type} {W : PWorld ω} {size : Int} {s : PSys ω}, Spec.Reached W size Spec.noRestart s → ∀ i j w, ¬ Spec.Race s i j (.items w) := by
  intro h
  obtain ⟨s, hs, hr⟩ := C69.witness (ok := Spec.noRestart) (ms := C69.stops) (i := 0) (j := 1) (v := .items false)
    (fun m hm => by
      simp only [C69.stops, List.mem_cons, List.not_mem_nil, or_false] at hm
      rcases hm with rfl | rfl | rfl | rfl | rfl <;> simp [Spec.noRestart]) (by decide +kernel)
  exact h hs 0 1 false hr

/-- The hypotheses of `C69_partial` are met there. -/
example : ∃ s, Spec.Reached C69.script.world 4 Spec.inUse s ∧ Spec.Race s 0 1 .held :=
  C69.witness (ms := C69.borrows) (fun m hm => by
    simp only [C69.borrows, List.mem_append, List.mem_replicate, List.mem_cons, List.not_mem_nil, or_false] at hm
    rcases hm with ((rfl | rfl) | ⟨_, rfl⟩) | ⟨_, rfl⟩ <;> exact ⟨by simp, by simp⟩) (by decide +kernel)

end Verif

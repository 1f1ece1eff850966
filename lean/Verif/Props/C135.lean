/-
C135: stopping a routing pool and starting it again.
-/
import Verif.Props.C82
import Verif.Props.C63
import Verif.Props.C69
namespace Verif
open PProg

namespace Spec

/-- A pool of `size` connections has all its connections, and all of them were made after `before`. -/
def AllNew {ω : Type} (size : Int) (before p : RPool ω) : Prop :=
  ∀ v, (p.queueOf v).length = share size.toNat v ∧ ∀ x ∈ p.queueOf v, madeFor (p.log.drop before.log.length) v x.conn.ref = true

end Spec

/-- The full claim: in whatever state a running pool is, after `Stop`, and `Start` without an error, it has exactly its number of connections for writing and for reading, all of them new.
(No other call is in progress.) -/
def C135_statement : Prop := ∀ {ω : Type} {W : PWorld ω} {size : Int} {s : PSys ω}, 0 ≤ size → Spec.Reached W size Spec.anything s → s.calls = [] → s.pool.running = true →
  ∀ {fuel : Nat} {r : CRes Unit} {p₁ p₂ : RPool ω}, (stop W fuel).run s.pool = (r, p₁) → r ≠ .fuel → (start W).run p₁ = (.ok (), p₂) → Spec.AllNew size p₁ p₂

section
variable {ω : Type} {W : PWorld ω}

/-- The size of a pool does not change. -/
theorem reached_total {size : Int} {ok : PMove → Prop} {s : PSys ω} (h : Spec.Reached W size ok s) : s.pool.totalConns = size := by
  obtain ⟨connStr, user, tls, ω₀, pool, fuel, ms, ho, _, rfl⟩ := h
  have h1 := (moves_grows W fuel ms (s := PSys.fresh pool) fun _ h => absurd h List.not_mem_nil).2.total
  obtain ⟨_, _, _, s₀, h2, _, h3⟩ := open_parts ho
  have h4 := (run_grows (s := s₀.startHead) (grow_startRest W s₀.startHead.maxWriteIdle s₀.startHead.maxReadIdle)).total
  rw [h3] at h4
  rw [h1]
  refine (show pool.totalConns = _ from h4).trans (Eq.trans ?_ h2)
  unfold RPool.startHead
  split <;> rfl

/-- Starting a pool without idle connections. -/
theorem start_empty {s s' : RPool ω} (hn : 0 ≤ s.totalConns) (hq : ∀ v, s.queueOf v = []) (h : (start W).run s = (.ok (), s')) : Spec.AllNew s.totalConns s s' := by
  obtain ⟨ok, t₁, h1, h2⟩ := run_bind_inv h
  simp only [run_prim, Prod.mk.injEq, CRes.ok.injEq] at h1
  obtain ⟨rfl, rfl⟩ := h1
  split at h2
  · cases h2
  · obtain ⟨⟨a, b⟩, t₂, h3, h4⟩ := run_bind_inv h2
    simp only [run_prim, Prod.mk.injEq, CRes.ok.injEq] at h3
    obtain ⟨⟨rfl, rfl⟩, rfl⟩ := h3
    obtain ⟨e1, e2⟩ := startHead_shares s hn
    have hq₁ : ∀ v, s.startHead.queueOf v = [] := fun v => by
      rw [← hq v]
      unfold RPool.startHead
      split <;> cases v <;> rfl
    have hlog : s.startHead.log = s.log := by unfold RPool.startHead; split <;> rfl
    obtain ⟨s₂, g1, g2⟩ := refresh_queue (W := W) s.startHead
    obtain ⟨post₀, g3⟩ := (run_grows (s := s.startHead) (neutral_refresh W).grows).log
    rw [g1, hlog] at g3
    obtain ⟨_, s₂', k1, k2⟩ := run_bind_inv h4
    rw [g1] at k1
    cases k1
    obtain ⟨_, s₃, k3, k4⟩ := run_bind_inv k2
    have k3 : (times s.startHead.maxWriteIdle.toNat (addConn W true)).run s₂ = (.ok (), s₃) := k3
    have k4 : (times s.startHead.maxReadIdle.toNat (addConn W false)).run s₃ = (.ok (), s') := k4
    have hf : Fits s.log s₂ := ⟨post₀, g3, fun v x hx => by rw [g2, hq₁] at hx; cases hx⟩
    obtain ⟨a1, a2, a3⟩ := times_queue true _ hf k3
    obtain ⟨b1, b2, post, hpost, b3⟩ := times_queue false _ a3 k4
    have hempty : ∀ v, (s₂.queueOf v).length = 0 := fun v => by rw [g2, hq₁]; rfl
    intro v
    refine ⟨?_, fun x hx => ?_⟩
    · have := hempty true
      have := hempty false
      simp only [Bool.not_true, Bool.not_false] at a2 b2
      cases v <;> omega
    · rw [hpost, List.drop_left]
      exact madeFor_iff.2 (b3 v x hx)

/-- **C135**, if `Stop` returns no error.  Missing: pools of which an idle connection broke and cannot be closed (`C135_refuted`). -/
theorem C135_partial {size : Int} {s : PSys ω} {ok : PMove → Prop} (hn : 0 ≤ size) (h : Spec.Reached W size ok s) {fuel : Nat} {p₁ p₂ : RPool ω}
    (h1 : (stop W fuel).run s.pool = (.ok (), p₁)) (h2 : (start W).run p₁ = (.ok (), p₂)) : Spec.AllNew size p₁ p₂ := by
  have ht : p₁.totalConns = size := by
    have := (run_grows (s := s.pool) (grow_stop W fuel)).total
    rw [h1] at this
    exact this.trans (reached_total h)
  have := start_empty (by omega) (C63_partial W fuel s.pool p₁ h1).1 h2
  rwa [ht] at this

end

namespace C135

/-- Connection 1 breaks and cannot be closed. -/
def script : Script where
  rows _ := threeMembers
  alive _ r := r ≠ 1
  closing r := if r = 1 then some (.plain "broken pipe") else none

/-- A pool of `n` connections, the result of `Stop`, and the pool after `Start`. -/
def result (sc : Script) (n : Int) : Option (RPool Nat × CRes Unit × RPool Nat × CRes Unit × RPool Nat) :=
  match openRoutingPool sc.world (ascii "bolt+routing://a") n (ascii "u:p") [] 0 with
  | .ok (.ok (), pool) =>
    let r := (stop sc.world 100).run pool
    some (pool, r.1, r.2, (start sc.world).run r.2)
  | _ => none

/-- `Stop` fails, `Start` does not, and the pool has too many connections for writing. -/
def tooMany : Option (RPool Nat × CRes Unit × RPool Nat × CRes Unit × RPool Nat) → Bool
  | some (p, .err _, _, .ok (), p₂) => p.running && (p₂.queueOf true).length == 3
  | _ => false

/-- Neither fails. -/
def fine : Option (RPool Nat × CRes Unit × RPool Nat × CRes Unit × RPool Nat) → Bool
  | some (p, .ok (), p₁, .ok (), p₂) => p.running && (p₁.queueOf true).length == 0 && (p₂.queueOf true).length == 2
  | _ => false

end C135

/-- **C135 refuted**: connection 1 of a pool of four broke and cannot be closed.  `Stop` returns its error at once, with the other connection for writing still in the queue.  `Start` then makes
two for writing, so that there are three. -/
theorem C135_refuted : ¬ C135_statement := by
  intro h
  have check : C135.tooMany (C135.result C135.script 4) = true := by decide +kernel
  unfold C135.result at check
  generalize ho : openRoutingPool C135.script.world (ascii "bolt+routing://a") 4 (ascii "u:p") [] 0 = o at check
  match o, check with
  | .ok (.ok (), pool), check =>
    dsimp only at check
    generalize h1 : (stop C135.script.world 100).run pool = r₁ at check
    obtain ⟨r, p₁⟩ := r₁
    generalize h2 : (start C135.script.world).run p₁ = r₂ at check
    obtain ⟨r', p₂⟩ := r₂
    match r, r', check with
    | .err e, .ok (), check =>
      simp only [C135.tooMany, Bool.and_eq_true, beq_iff_eq] at check
      have := (h (s := PSys.fresh pool) (by decide) ⟨_, _, _, _, pool, 0, [], ho, fun _ h => absurd h List.not_mem_nil, rfl⟩ rfl check.1 h1 (fun h => by cases h) h2 true).1
      rw [check.2] at this
      exact absurd this (by decide)

/-- The hypotheses of `C135_partial` are met: a pool of four is stopped and started again; also if a connection of it broke, if it can be closed. -/
example : C135.fine (C135.result C69.script 4) = true ∧ C135.fine (C135.result { C135.script with closing := fun _ => none } 4) = true := by decide +kernel

end Verif

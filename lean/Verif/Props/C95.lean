/-
C95  NewDriverPool gives the kind of pool that was asked for, and nil with an error.
-/
import Verif.Model.DriverPoolSys
import Verif.Props.C89
namespace Verif

section
variable {σ ω : Type} {W : PWorld ω} {semi : Bool} {c : Client} {size : Int} {w : ω}

/-- **C95**, success: a client that routes gets a routing pool that has been started, for the configured connection string, size, credentials and TLS settings; every other client gets a pool
of connections made with the connection string, which is not closed and has not made a connection yet. -/
theorem C95_kind {v : PoolValue σ ω} (h : c.newDriverPool W semi size w = .ok (v, none)) :
    (c.routing = true ∧ ∃ p, v = .routing p ∧ openRoutingPool W c.connStr size c.getUsernamePassword (c.getTlsPortion semi) w = .ok (.ok (), p)) ∨
    (c.routing = false ∧ ∃ p, v = .plain p ∧ p.connStr = c.connStr ∧ p.closed = false ∧ p.conns = []) := by
  unfold Client.newDriverPool at h
  split at h
  · rename_i hr
    refine .inl ⟨hr, ?_⟩
    split at h
    · cases h
    · cases h
    · rename_i p ho
      cases h
      exact ⟨p, rfl, ho⟩
    · cases h
    · cases h
  · rename_i hr
    cases h
    exact .inr ⟨by simpa using hr, _, rfl, rfl, rfl, rfl⟩

/-- Without routing there is never an error. -/
theorem C95_plain (hr : c.routing = false) : ∃ v : PoolValue σ ω, c.newDriverPool W semi size w = .ok (v, none) ∧ v.isNil = false ∧ v.closes = true := by
  unfold Client.newDriverPool
  rw [if_neg (by simp [hr])]
  exact ⟨_, rfl, rfl, rfl⟩

/-- There is an error exactly if the client routes and the pool cannot be made or started; it is the error of making or starting it. -/
theorem C95_error {e : Err} : (∃ v : PoolValue σ ω, c.newDriverPool W semi size w = .ok (v, some e)) ↔
    c.routing = true ∧ (openRoutingPool W c.connStr size c.getUsernamePassword (c.getTlsPortion semi) w = .error e ∨
      ∃ p, openRoutingPool W c.connStr size c.getUsernamePassword (c.getTlsPortion semi) w = .ok (.err e, p)) := by
  constructor
  · rintro ⟨v, h⟩
    unfold Client.newDriverPool at h
    split at h
    · rename_i hr
      refine ⟨hr, ?_⟩
      split at h
      · rename_i e' ho; cases h; exact .inl ho
      · rename_i e' p ho; cases h; exact .inr ⟨p, ho⟩
      · cases h
      · cases h
      · cases h
    · cases h
  · rintro ⟨hr, h | ⟨p, h⟩⟩ <;>
    · refine ⟨.nilRouting, ?_⟩
      unfold Client.newDriverPool
      rw [if_pos hr]
      unfold Client.openRouting
      rw [h]

end

/-- The claim about errors: the pool is nil; at least, a pool that is not nil can be closed. -/
def C95_statement : Prop :=
  ∀ (σ ω : Type) (W : PWorld ω) (semi : Bool) (c : Client) (size : Int) (w : ω) (v : PoolValue σ ω) (e : Err),
    c.newDriverPool W semi size w = .ok (v, some e) → v.isNil = true ∨ v.closes = true

/-- False: the pool is a nil pointer in an interface value that is not nil; its methods panic. -/
theorem C95_refuted : ¬ C95_statement := by
  intro h
  have hr : (C89.client "p").routing = true := by decide +kernel
  cases ho : (C89.client "p").openRouting C89.cluster true 0 0 with
  | error e =>
    have := h Unit Nat C89.cluster true (C89.client "p") 0 0 .nilRouting e (by unfold Client.newDriverPool; rw [if_pos hr, ho])
    revert this
    decide
  | ok r =>
    have : (match (C89.client "p").openRouting C89.cluster true 0 0 with | .error _ => true | .ok _ => false) = true := by decide +kernel
    rw [ho] at this
    cases this

/-- Exactly that: with an error the pool is never nil, and can never be closed. -/
theorem C95_never {σ ω : Type} {W : PWorld ω} {semi : Bool} {c : Client} {size : Int} {w : ω} {v : PoolValue σ ω} {e : Err} (h : c.newDriverPool W semi size w = .ok (v, some e)) :
    v.isNil = false ∧ v.closes = false := by
  unfold Client.newDriverPool at h
  split at h
  · split at h <;> cases h <;> exact ⟨rfl, rfl⟩
  · cases h

/-- The hypotheses of C95 are met: the cluster is reached. -/
example : (match (C89.client "p").newDriverPool (σ := Unit) C89.cluster true 3 0 with | .ok (.routing _, none) => true | _ => false) = true := by decide +kernel

end Verif

/-
C36  At most one open transaction, handles agree with the connection.
-/
import Verif.Proofs.ConnEv
import Verif.Spec.Scripted
namespace Verif

section
variable {σ : Type} (env : Env) (W : World σ)

/-- Handle `h` is open: it was returned by `Begin` and its `IsClosed` is false. -/
def Conn.isOpen (c : Conn σ) (h : Nat) : Prop := c.txs[h]? = some false

/-- For every server and network, and every history of calls on a created connection: two open handles are the same, and a handle is open
exactly when it is the transaction the connection refers to. -/
theorem C36_one_open {c : Conn σ} (hc : InUse env W c) :
    (∀ h h', c.isOpen h → c.isOpen h' → h = h') ∧ (∀ h, c.isOpen h ↔ c.cur = some h) := by
  have hi := hc.inv
  refine ⟨fun h h' h1 h2 => ?_, hi.open_iff⟩
  have e1 := (hi.open_iff h).mp h1
  have e2 := (hi.open_iff h').mp h2
  rw [e1] at e2
  exact Option.some.inj e2

/-- While a handle is open, `Begin` fails and nothing at all happens: the connection (including the network trace) is unchanged. -/
theorem C36_begin_refused {c : Conn σ} (hc : InUse env W c) {h : Nat} (ho : c.isOpen h) (fuel : Nat) (db : Bytes) :
    beginWithDatabase env W fuel db c = (.err (.new "transaction already open"), c) := by
  rw [begin_apply, if_pos]
  rw [show c.cur = some h from (hc.inv.open_iff h).mp ho]; rfl

/-- A successful `Begin` returns a new handle, which is then the only open one. -/
theorem C36_begin_opens {c c' : Conn σ} (hc : InUse env W c) {fuel h : Nat} {db : Bytes}
    (hb : beginWithDatabase env W fuel db c = (.ok h, c')) : c.txs[h]? = none ∧ ∀ h', c'.isOpen h' ↔ h' = h := by
  have hi := hc.inv
  have hi' := Keeps.begin env W fuel db c hi
  rw [hb] at hi'
  rw [begin_apply] at hb
  split at hb
  · cases hb
  · split at hb
    · cases hb
    · obtain ⟨_, c1, h1, h2⟩ := CM.bind_eq_ok.mp hb
      have hk := txExchange_ok_core env W h1
      have ht : c1.txs = c.txs := congrArg Core.txs hk
      unfold addTx at h2
      cases h2
      refine ⟨by rw [ht]; simp, fun h' => ?_⟩
      rw [Conn.isOpen]
      have := hi'.open_iff h'
      rw [show ∀ c : Conn σ, c.core.txs = c.txs from fun _ => rfl] at this
      rw [this]
      simp only [Conn.core, Option.some.injEq, eq_comm]

end

/-- A connection on which two transactions were begun (the first one rolled back), and a third `Begin` was refused. -/
example : let c := run env0 scripted 3 [.begin_ [], .rollback 0, .begin_ [0x64], .begin_ []] (opened (sOpen4 ++ [sSuccess, sSuccess, sSuccess])).2
    InUse env0 scripted c ∧ c.txs = [true, false] ∧ c.cur = some 1 ∧ c.closed = false :=
  ⟨opened_inUse (by decide +kernel) _, by decide +kernel, by decide +kernel, by decide +kernel⟩

end Verif

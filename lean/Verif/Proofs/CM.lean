/-
Reasoning about calls on a connection.
-/
import Verif.Model.Conn
namespace Verif
namespace CM
variable {σ α β : Type}

theorem pure_apply (a : α) (c : Conn σ) : (Pure.pure a : CM σ α) c = (.ok a, c) := rfl

theorem bind_apply (m : CM σ α) (f : α → CM σ β) (c : Conn σ) :
    (m >>= f) c = match m c with
      | (.ok a, c') => f a c'
      | (.err e, c') => (.err e, c')
      | (.panic, c') => (.panic, c')
      | (.fuel, c') => (.fuel, c') := rfl

theorem bind_ok {m : CM σ α} {f : α → CM σ β} {c c' : Conn σ} {a : α} (h : m c = (.ok a, c')) : (m >>= f) c = f a c' := by
  rw [bind_apply, h]

theorem bind_err {m : CM σ α} {f : α → CM σ β} {c c' : Conn σ} {e : Err} (h : m c = (.err e, c')) : (m >>= f) c = (.err e, c') := by
  rw [bind_apply, h]

theorem bind_panic {m : CM σ α} {f : α → CM σ β} {c c' : Conn σ} (h : m c = (.panic, c')) : (m >>= f) c = (.panic, c') := by
  rw [bind_apply, h]

theorem bind_fuel {m : CM σ α} {f : α → CM σ β} {c c' : Conn σ} (h : m c = (.fuel, c')) : (m >>= f) c = (.fuel, c') := by
  rw [bind_apply, h]

theorem bind_eq_ok {m : CM σ α} {f : α → CM σ β} {c c' : Conn σ} {b : β} :
    (m >>= f) c = (.ok b, c') ↔ ∃ a c1, m c = (.ok a, c1) ∧ f a c1 = (.ok b, c') := by
  rw [bind_apply]
  match h : m c with
  | (.ok a, c1) =>
    constructor
    · intro h2; exact ⟨a, c1, rfl, h2⟩
    · rintro ⟨a', c2, h1, h2⟩; simp only [Prod.mk.injEq, CRes.ok.injEq] at h1; obtain ⟨rfl, rfl⟩ := h1; exact h2
  | (.err e, c1) => simp
  | (.panic, c1) => simp
  | (.fuel, c1) => simp

theorem get_apply (c : Conn σ) : (CM.get : CM σ (Conn σ)) c = (.ok c, c) := rfl

theorem get_bind (f : Conn σ → CM σ β) (c : Conn σ) : (CM.get >>= f) c = f c c := rfl

theorem modify_apply (f : Conn σ → Conn σ) (c : Conn σ) : CM.modify f c = (.ok (), f c) := rfl

theorem fail_apply (e : Err) (c : Conn σ) : (CM.fail e : CM σ α) c = (.err e, c) := rfl

theorem mapErr_eq_ok {f : Err → Err} {m : CM σ α} {c c' : Conn σ} {a : α} : CM.mapErr f m c = (.ok a, c') ↔ m c = (.ok a, c') := by
  unfold CM.mapErr
  match h : m c with
  | (.ok a, c1) => simp
  | (.err e, c1) => simp
  | (.panic, c1) => simp
  | (.fuel, c1) => simp

theorem mapErr_snd (f : Err → Err) (m : CM σ α) (c : Conn σ) : (CM.mapErr f m c).2 = (m c).2 := by
  unfold CM.mapErr
  match h : m c with
  | (.ok a, c1) => rfl
  | (.err e, c1) => rfl
  | (.panic, c1) => rfl
  | (.fuel, c1) => rfl

theorem thenFail_snd (m : CM σ α) (e : Err) (c : Conn σ) : (CM.thenFail m e c : CRes β × Conn σ).2 = (m c).2 := by
  unfold CM.thenFail
  match h : m c with
  | (.ok a, c1) => rfl
  | (.err e, c1) => rfl
  | (.panic, c1) => rfl
  | (.fuel, c1) => rfl

theorem thenFail_ne_ok (m : CM σ α) (e : Err) (c c' : Conn σ) (b : β) : CM.thenFail m e c ≠ (.ok b, c') := by
  unfold CM.thenFail
  match h : m c with
  | (.ok a, c1) => simp
  | (.err e, c1) => simp
  | (.panic, c1) => simp
  | (.fuel, c1) => simp

end CM

/-- A relation between the connection before and after a call that every call preserves if its parts do. -/
structure StepRel {σ : Type} (R : Conn σ → Conn σ → Prop) : Prop where
  refl : ∀ c, R c c
  trans : ∀ {a b c}, R a b → R b c → R a c

/-- Every outcome of `m` is related to the start by `R`. -/
def Steps {σ α : Type} (R : Conn σ → Conn σ → Prop) (m : CM σ α) : Prop := ∀ c, R c (m c).2

namespace Steps
variable {σ α β : Type} {R : Conn σ → Conn σ → Prop}

theorem pure (hR : StepRel R) (a : α) : Steps R (Pure.pure a : CM σ α) := fun c => hR.refl c
theorem fail (hR : StepRel R) (e : Err) : Steps R (CM.fail e : CM σ α) := fun c => hR.refl c
theorem get (hR : StepRel R) : Steps R (CM.get : CM σ (Conn σ)) := fun c => hR.refl c

theorem bind (hR : StepRel R) {m : CM σ α} {f : α → CM σ β} (hm : Steps R m) (hf : ∀ a, Steps R (f a)) : Steps R (m >>= f) := by
  intro c
  rw [CM.bind_apply]
  have := hm c
  match h : m c with
  | (.ok a, c1) => rw [h] at this; exact hR.trans this (hf a c1)
  | (.err e, c1) => rw [h] at this; exact this
  | (.panic, c1) => rw [h] at this; exact this
  | (.fuel, c1) => rw [h] at this; exact this

theorem mapErr {f : Err → Err} {m : CM σ α} (hm : Steps R m) : Steps R (CM.mapErr f m) := by
  intro c; rw [CM.mapErr_snd]; exact hm c

theorem thenFail {m : CM σ α} (hm : Steps R m) (e : Err) : Steps R (CM.thenFail m e : CM σ β) := by
  intro c; rw [CM.thenFail_snd]; exact hm c

theorem ite {p : Prop} [Decidable p] {m n : CM σ α} (hm : Steps R m) (hn : Steps R n) : Steps R (if p then m else n) := by
  split <;> assumption

end Steps

/-- The fields that only `Begin`, `Commit`, `Rollback`, `Close` and the setters change. -/
structure Core where
  proto : Proto
  mode : AccessMode
  chunkSize : Nat
  closed : Bool
  sock : Bool
  txs : List Bool
  cur : Option Nat

def Conn.core {σ : Type} (c : Conn σ) : Core := ⟨c.proto, c.mode, c.chunkSize, c.closed, c.sock, c.txs, c.cur⟩

section
variable {σ : Type} (env : Env) (W : World σ)

theorem writeAll_core (ws : List Bytes) (e : Option Err) (c : Conn σ) : (writeAll W ws e c).2.core = c.core := by
  unfold writeAll
  split
  · cases e <;> rfl
  · split
    · rfl
    · dsimp only
      split
      · cases e <;> rfl
      · rfl

theorem sendMessage_core (v : Val) (c : Conn σ) : (sendMessage env W v c).2.core = c.core := writeAll_core W _ _ c

theorem receive_core (c : Conn σ) : (receive env c).2.core = c.core := by
  unfold receive
  split
  · rfl
  · split
    · rfl
    · split <;> rfl

theorem sendMessage_core_ok {v : Val} {c c' : Conn σ} {r : CRes Unit} (h : sendMessage env W v c = (r, c')) : c'.core = c.core := by
  have := sendMessage_core env W v c; rw [h] at this; exact this

theorem receive_core_ok {c c' : Conn σ} {r : CRes Val} (h : receive env c = (r, c')) : c'.core = c.core := by
  have := receive_core env c; rw [h] at this; exact this

/-- A successful `consume` only reads one message. -/
theorem consumeWith_ok {reset : CM σ Unit} {c c' : Conn σ} {v : Val} (h : consumeWith env reset c = (.ok v, c')) :
    receive env c = (.ok v, c') ∧ asFailure v = none := by
  unfold consumeWith at h
  rw [CM.bind_eq_ok] at h
  obtain ⟨v', c1, h1, h2⟩ := h
  cases hf : asFailure v' with
  | some md =>
    simp only [hf] at h2
    obtain ⟨_, c2, _, h3⟩ := CM.bind_eq_ok.mp (show (CM.mapErr _ reset >>= _) c1 = _ from h2)
    simp [CM.fail] at h3
  | none =>
    simp only [hf, CM.pure_apply, Prod.mk.injEq, CRes.ok.injEq] at h2
    obtain ⟨rfl, rfl⟩ := h2
    exact ⟨h1, hf⟩

/-- What a successful exchange of a transaction message consists of. -/
theorem txExchange_ok {reset : CM σ Unit} {msg : Val} {what : String} {c c' : Conn σ}
    (h : txExchange env W (consumeWith env reset) msg what c = (.ok (), c')) :
    (isTxMsg msg = true ∧ ∃ c1 v md, sendMessage env W msg c = (.ok (), c1) ∧ receive env c1 = (.ok v, c') ∧ asSuccess v = some md) ∨
    (isTxMsg msg = false ∧ ∃ c1 c2 c3 v md v' md', sendMessage env W msg c = (.ok (), c1) ∧
      sendMessage env W c.proto.pullAllMessage c1 = (.ok (), c2) ∧ receive env c2 = (.ok v, c3) ∧ asSuccess v = some md ∧
      receive env c3 = (.ok v', c') ∧ asSuccess v' = some md') := by
  unfold txExchange at h
  rw [CM.bind_eq_ok] at h
  obtain ⟨_, c1, h1, h⟩ := h
  cases ht : isTxMsg msg with
  | true =>
    rw [ht, if_pos rfl] at h
    rw [CM.bind_eq_ok] at h
    obtain ⟨v, c2, h2, h⟩ := h
    left
    cases hs : asSuccess v with
    | none => simp [hs, CM.fail] at h
    | some md =>
      simp only [hs, CM.pure_apply, Prod.mk.injEq, true_and] at h
      subst h
      exact ⟨rfl, c1, v, md, h1, (consumeWith_ok env h2).1, hs⟩
  | false =>
    rw [ht, if_neg (by simp)] at h
    rw [CM.get_bind, CM.bind_eq_ok] at h
    obtain ⟨_, c2, h2, h⟩ := h
    rw [CM.bind_eq_ok] at h
    obtain ⟨v, c3, h3, h⟩ := h
    rw [CM.bind_eq_ok] at h
    obtain ⟨v', c4, h4, h⟩ := h
    right
    cases hs : asSuccess v with
    | none => simp [hs, CM.fail] at h
    | some md =>
      cases hs' : asSuccess v' with
      | none => simp [hs, hs', CM.fail] at h
      | some md' =>
        simp only [hs, hs', CM.pure_apply, Prod.mk.injEq, true_and] at h
        subst h
        have hp : c1.proto = c.proto := congrArg Core.proto (sendMessage_core_ok env W h1)
        rw [hp] at h2
        exact ⟨rfl, c1, c2, c3, v, md, v', md', h1, h2, (consumeWith_ok env h3).1, hs, (consumeWith_ok env h4).1, hs'⟩

theorem txExchange_ok_core {reset : CM σ Unit} {msg : Val} {what : String} {c c' : Conn σ}
    (h : txExchange env W (consumeWith env reset) msg what c = (.ok (), c')) : c'.core = c.core := by
  rcases txExchange_ok env W h with ⟨_, c1, v, md, h1, h2, _⟩ | ⟨_, c1, c2, c3, v, md, v', md', h1, h2, h3, _, h4, _⟩
  · rw [receive_core_ok env h2, sendMessage_core_ok env W h1]
  · rw [receive_core_ok env h4, receive_core_ok env h3, sendMessage_core_ok env W h2, sendMessage_core_ok env W h1]

end
end Verif

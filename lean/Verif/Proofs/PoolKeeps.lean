/-
A property of connections that every call keeps and new connections have is kept by the pool without routing.
-/
import Verif.Props.C118
namespace Verif
open Spec

section
variable {τ : Type} (env : Env) (W : World τ) (semi : Bool) (fuel : Nat) (net : Net τ) (lo : Nat)

/-- `P` is kept by calls, and `Q` relates the connection before and after a call of the pool's factory. -/
structure DKeeps (P : Conn τ → Prop) (Q : Conn τ → Conn τ → Prop) : Prop where
  refl : ∀ c, Q c c
  trans : ∀ {c c' c''}, Q c c' → Q c' c'' → Q c c''
  made : ∀ {user password : Bytes} {n : Nat} {e : Endpoint} {c : Conn τ}, user.length ≤ 65535 → password.length ≤ 65535 →
    createBoltConn env W fuel user password (net.reach n e) = (.ok (), c) → P c
  quiet : ∀ {op : Op} {c : Conn τ}, (op = .close ∨ op = .makeIdle ∨ op = .validateOpen) → P c → P (step env W fuel op c).2 ∧ Q c (step env W fuel op c).2
  user : ∀ {op : Op} {c : Conn τ}, (∀ ver, op.Fine env ver lo) → (∀ q, statementOf op = some q → q ∉ controlVerbs) → P c → P (step env W fuel op c).2

/-- All connections keep `P`. -/
def KeepRel (semi : Bool) (P : Conn τ → Prop) (Q : Conn τ → Conn τ → Prop) (s s' : DPool τ) : Prop :=
  s'.connStr = s.connStr ∧ (Modest semi s.connStr → (∀ (r : Nat) (c : Conn τ), s.conns[r]? = some c → P c) →
    (∀ (r : Nat) (c : Conn τ), s'.conns[r]? = some c → P c) ∧ ∀ (r : Nat) (c : Conn τ), s.conns[r]? = some c → ∃ c' : Conn τ, s'.conns[r]? = some c' ∧ Q c c')

variable {env W semi fuel net lo} {P : Conn τ → Prop} {Q : Conn τ → Conn τ → Prop}

theorem KeepRel.log {s s' : DPool τ} (h : KeepRel semi P Q s s') (l : List DEv) : KeepRel semi P Q s { s' with log := l } := h

variable (hk : DKeeps env W fuel net lo P Q)
include hk

theorem keepRel_on {α : Type} {m : CM τ α} {op : Op} (hm : ∀ c, (m c).2 = (step env W fuel op c).2) (hop : op = .close ∨ op = .makeIdle ∨ op = .validateOpen) (r : Nat) (s : DPool τ) :
    KeepRel semi P Q s (onConn r m s).2 := by
  unfold onConn
  cases hc : s.conns[r]? with
  | none => exact ⟨rfl, fun _ h => ⟨h, fun r c hc => ⟨c, hc, hk.refl c⟩⟩⟩
  | some c =>
    refine ⟨rfl, fun _ h => ?_⟩
    dsimp only
    have hs := hk.quiet hop (h r c hc)
    rw [← hm] at hs
    have hlt := (List.getElem?_eq_some_iff.mp hc).1
    refine ⟨fun r' c' hc' => ?_, fun r' c' hc' => ?_⟩
    · by_cases hr : r = r'
      · subst hr
        rw [List.getElem?_set_self hlt] at hc'
        cases hc'
        exact hs.1
      · rw [List.getElem?_set_ne hr] at hc'
        exact h r' c' hc'
    · by_cases hr : r = r'
      · subst hr
        rw [hc] at hc'
        cases hc'
        exact ⟨_, List.getElem?_set_self hlt, hs.2⟩
      · exact ⟨c', by rw [List.getElem?_set_ne hr]; exact hc', hk.refl c'⟩

theorem keepRel : DRel env W semi fuel net (KeepRel semi P Q) where
  refl s := ⟨rfl, fun _ h => ⟨h, fun r c hc => ⟨c, hc, hk.refl c⟩⟩⟩
  trans h1 h2 := by
    refine ⟨h2.1.trans h1.1, fun hm h => ?_⟩
    obtain ⟨g1, g2⟩ := h1.2 hm h
    obtain ⟨g3, g4⟩ := h2.2 (h1.1 ▸ hm) g1
    refine ⟨g3, fun r c hc => ?_⟩
    obtain ⟨c', hc', e'⟩ := g2 r c hc
    obtain ⟨c'', hc'', e''⟩ := g4 r c' hc'
    exact ⟨c'', hc'', hk.trans e' e''⟩
  dial s := by
    unfold dCreate
    cases hcr : createFrom env W semi fuel net s.connStr s.dials with
    | error e => exact ⟨rfl, fun _ h => ⟨h, fun r c hc => ⟨c, hc, hk.refl c⟩⟩⟩
    | ok res =>
      obtain ⟨res, cn⟩ := res
      cases res with
      | ok _ =>
        refine ⟨rfl, fun hm h => ⟨fun r c hc => ?_, fun r c hc => ?_⟩⟩
        · dsimp only at hc
          by_cases hr : r < s.conns.length
          · rw [List.getElem?_append_left hr] at hc
            exact h r c hc
          · rw [List.getElem?_append_right (by omega)] at hc
            cases hx : r - s.conns.length with
            | zero =>
              rw [hx] at hc; cases hc
              obtain ⟨cfg, e, h1, _, h3⟩ := createFrom_eq env W hcr
              obtain ⟨u, p⟩ := hm cfg h1
              exact hk.made u p h3.symm
            | succ n => rw [hx] at hc; cases hc
        · exact ⟨c, by rw [List.getElem?_append_left (List.getElem?_eq_some_iff.mp hc).1]; exact hc, hk.refl c⟩
      | err e => exact ⟨rfl, fun _ h => ⟨h, fun r c hc => ⟨c, hc, hk.refl c⟩⟩⟩
      | panic => exact ⟨rfl, fun _ h => ⟨h, fun r c hc => ⟨c, hc, hk.refl c⟩⟩⟩
      | fuel => exact ⟨rfl, fun _ h => ⟨h, fun r c hc => ⟨c, hc, hk.refl c⟩⟩⟩
  probe r s := keepRel_on hk (op := .validateOpen) (fun c => by show _ = (CM.void (validateOpen W) c).2; unfold CM.void; show _ = (CM.bind _ _ c).2; unfold CM.bind; split <;> rename_i hx <;> rw [hx] <;> rfl) (.inr (.inr rfl)) r s
  shut r s := keepRel_on hk (op := .close) (fun c => rfl) (.inl rfl) r s
  idle r s := KeepRel.log (keepRel_on hk (op := .makeIdle) (fun c => rfl) (.inr (.inl rfl)) r s) _
  objs s l := ⟨rfl, fun _ h => ⟨h, fun r c hc => ⟨c, hc, hk.refl c⟩⟩⟩

/-- What the pool does, besides the calls of the users, is done by its factory. -/
theorem keepRel_move {m : DMove} (hm : ∀ r op, m ≠ .user r op) (s : DPool τ) : KeepRel semi P Q s (m.run env W semi fuel net s) := by
  have K := keepRel (semi := semi) hk
  cases m with
  | «open» calls answer =>
    show KeepRel semi P Q s (dOpen W (borrowed env W semi fuel net calls answer) s).2
    unfold dOpen
    split
    · exact K.refl s
    · have h1 := K.library calls s
      unfold borrowed
      cases answer with
      | error e => exact h1
      | ok x =>
        cases x with
        | conn r =>
          dsimp only
          have h2 := K.trans h1 (K.probe r _)
          split <;> rename_i hx <;> rw [hx] at h2
          · exact h2.log _
          all_goals exact h2
        | nilPointer => exact h1
        | nilObject => exact h1
        | foreign => exact h1
  | reclaim r calls answer =>
    cases r with
    | none => exact K.refl s
    | some r => exact K.trans ((K.refl s).log _) (K.library calls _)
  | close calls =>
    show KeepRel semi P Q s (dClose (library env W semi fuel net calls) s).2
    unfold dClose
    split
    · exact K.refl s
    · exact K.library calls s
  | evict calls => exact K.library calls s
  | user r op => exact absurd rfl (hm r op)

theorem keep_run {ms : List DMove} {s : DPool τ} (ho : Orderly env lo ms) (hm : Modest semi s.connStr) (h : ∀ (r : Nat) (c : Conn τ), s.conns[r]? = some c → P c) :
    (dRun env W semi fuel net ms s).connStr = s.connStr ∧ ∀ (r : Nat) (c : Conn τ), (dRun env W semi fuel net ms s).conns[r]? = some c → P c := by
  unfold dRun
  induction ms generalizing s with
  | nil => exact ⟨rfl, h⟩
  | cons m ms ih =>
    have one : (m.run env W semi fuel net s).connStr = s.connStr ∧ ∀ (r : Nat) (c : Conn τ), (m.run env W semi fuel net s).conns[r]? = some c → P c := by
      by_cases hu : ∃ r op, m = .user r op
      · obtain ⟨r, op, rfl⟩ := hu
        obtain ⟨h1, h2⟩ := ho r op List.mem_cons_self
        show (onConn r (step env W fuel op) s).2.connStr = _ ∧ ∀ (r' : Nat) (c : Conn τ), (onConn r (step env W fuel op) s).2.conns[r']? = some c → _
        unfold onConn
        cases hc : s.conns[r]? with
        | none => exact ⟨rfl, h⟩
        | some c =>
          refine ⟨rfl, fun r' c' hc' => ?_⟩
          dsimp only at hc'
          by_cases hr : r = r'
          · subst hr
            rw [List.getElem?_set_self (List.getElem?_eq_some_iff.mp hc).1] at hc'
            cases hc'
            exact hk.user h1 h2 (h r c hc)
          · rw [List.getElem?_set_ne hr] at hc'
            exact h r' c' hc'
      · have k := keepRel_move (semi := semi) hk (m := m) (fun r op e => hu ⟨r, op, e⟩) s
        exact ⟨k.1, (k.2 hm h).1⟩
    obtain ⟨e, g⟩ := ih (fun r op hx => ho r op (List.mem_cons_of_mem _ hx)) (one.1 ▸ hm) one.2
    exact ⟨e.trans one.1, g⟩

end
end Verif

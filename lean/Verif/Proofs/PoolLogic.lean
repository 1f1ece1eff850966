/-
A logic for programs of atomic actions that run concurrently: every program in progress owns a ghost; an invariant relates the shared state and the ghosts of all programs.
-/
import Verif.Model.Pool
namespace Verif
namespace PProg

section
variable {S G α β : Type} (Good : S → Prop) (I : S → List G → Prop)

/-- Started with ghost `g`, the program keeps the invariant at every action, whatever the others do in between, as long as the state stays good; when it returns a value `a`
its ghost satisfies `A a`, otherwise `B`. -/
def Safe (A : α → G → Prop) (B : G → Prop) : PProg S α → G → Prop
  | .done (.ok a), g => A a g
  | .done _, g => B g
  | .act _ en f k, g => ∀ s F, en s = true → I s (g :: F) → Good (f s) → ∃ g', I (f s) (g' :: F) ∧ Safe A B (k s) g'

variable {Good I}

theorem Safe.mono {A A' : α → G → Prop} {B B' : G → Prop} (hA : ∀ a g, A a g → A' a g) (hB : ∀ g, B g → B' g) :
    ∀ {p : PProg S α} {g : G}, Safe Good I A B p g → Safe Good I A' B' p g
  | .done (.ok a), g, h => hA a g h
  | .done (.err _), g, h => hB g h
  | .done .panic, g, h => hB g h
  | .done .fuel, g, h => hB g h
  | .act _ _ _ k, _, h => fun s F he hi hg =>
    let ⟨g', h1, h2⟩ := h s F he hi hg
    ⟨g', h1, Safe.mono hA hB (p := k s) h2⟩

theorem Safe.bind {A : α → G → Prop} {A' : β → G → Prop} {B : G → Prop} {f : α → PProg S β} (hf : ∀ a g, A a g → Safe Good I A' B (f a) g) :
    ∀ {p : PProg S α} {g : G}, Safe Good I A B p g → Safe Good I A' B (PProg.bind p f) g
  | .done (.ok a), g, h => hf a g h
  | .done (.err _), _, h => h
  | .done .panic, _, h => h
  | .done .fuel, _, h => h
  | .act _ _ _ k, _, h => fun s F he hi hg =>
    let ⟨g', h1, h2⟩ := h s F he hi hg
    ⟨g', h1, Safe.bind hf (p := k s) h2⟩

theorem Safe.attempt {A : Unit → G → Prop} {B : G → Prop} : ∀ {p : PProg S Unit} {g : G}, Safe Good I A B p g →
    Safe Good I (fun oe g => (oe = none ∧ A () g) ∨ (oe ≠ none ∧ B g)) B (PProg.attempt p) g
  | .done (.ok _), _, h => .inl ⟨rfl, h⟩
  | .done (.err _), _, h => .inr ⟨by simp, h⟩
  | .done .panic, _, h => h
  | .done .fuel, _, h => h
  | .act _ _ _ k, _, h => fun s F he hi hg =>
    let ⟨g', h1, h2⟩ := h s F he hi hg
    ⟨g', h1, Safe.attempt (p := k s) h2⟩

theorem Safe.deferred {A A' : α → G → Prop} {B B' : G → Prop} {f : S → S}
    (hA : ∀ a g s F, A a g → I s (g :: F) → Good (f s) → ∃ g', I (f s) (g' :: F) ∧ A' a g')
    (hB : ∀ g s F, B g → I s (g :: F) → Good (f s) → ∃ g', I (f s) (g' :: F) ∧ B' g') :
    ∀ {p : PProg S α} {g : G}, Safe Good I A B p g → Safe Good I A' B' (PProg.deferred f p) g
  | .done (.ok a), g, h => fun s F _ hi hg => hA a g s F h hi hg
  | .done (.err _), g, h => fun s F _ hi hg => hB g s F h hi hg
  | .done .panic, g, h => fun s F _ hi hg => hB g s F h hi hg
  | .done .fuel, g, h => fun s F _ hi hg => hB g s F h hi hg
  | .act _ _ _ k, _, h => fun s F he hi hg =>
    let ⟨g', h1, h2⟩ := h s F he hi hg
    ⟨g', h1, Safe.deferred hA hB (p := k s) h2⟩

theorem Safe.prim {A : α → G → Prop} {B : G → Prop} {acc : List Access} {m : S → α × S} {g : G}
    (h : ∀ s F, I s (g :: F) → Good (m s).2 → ∃ g', I (m s).2 (g' :: F) ∧ A (m s).1 g') : Safe Good I A B (PProg.prim acc m) g :=
  fun s F _ hi hg => h s F hi hg

theorem Safe.pure {A : α → G → Prop} {B : G → Prop} {a : α} {g : G} (h : A a g) : Safe Good I A B (Pure.pure a : PProg S α) g := h

theorem Safe.fail {A : α → G → Prop} {B : G → Prop} {e : Err} {g : G} (h : B g) : Safe Good I A B (PProg.fail e : PProg S α) g := h

/-- Before an action the ghost may be exchanged. -/
theorem Safe.pre {A : α → G → Prop} {B : G → Prop} {acc : List Access} {en : S → Bool} {f : S → S} {k : S → PProg S α} {g g₁ : G}
    (hg : ∀ s F, I s (g :: F) → I s (g₁ :: F)) (h : Safe Good I A B (.act acc en f k) g₁) : Safe Good I A B (.act acc en f k) g :=
  fun s F he hi hgd => h s F he (hg s F hi) hgd

end

section
variable {S α β : Type}

/-- All actions of a program have a property. -/
def Acts (P : List Access → (S → S) → Prop) : PProg S α → Prop
  | .done _ => True
  | .act acc _ f k => P acc f ∧ ∀ s, Acts P (k s)

variable {P : List Access → (S → S) → Prop}

theorem Acts.bind {f : α → PProg S β} (hf : ∀ a, Acts P (f a)) : ∀ {p : PProg S α}, Acts P p → Acts P (PProg.bind p f)
  | .done (.ok a), _ => hf a
  | .done (.err _), _ => trivial
  | .done .panic, _ => trivial
  | .done .fuel, _ => trivial
  | .act _ _ _ _, h => ⟨h.1, fun s => Acts.bind hf (h.2 s)⟩

theorem Acts.attempt : ∀ {p : PProg S Unit}, Acts P p → Acts P (PProg.attempt p)
  | .done (.ok _), _ => trivial
  | .done (.err _), _ => trivial
  | .done .panic, _ => trivial
  | .done .fuel, _ => trivial
  | .act _ _ _ _, h => ⟨h.1, fun s => Acts.attempt (h.2 s)⟩

theorem Acts.deferred {f : S → S} (hf : P [] f) : ∀ {p : PProg S α}, Acts P p → Acts P (PProg.deferred f p)
  | .done _, _ => ⟨hf, fun _ => trivial⟩
  | .act _ _ _ _, h => ⟨h.1, fun s => Acts.deferred hf (h.2 s)⟩

theorem Acts.prim {acc : List Access} {m : S → α × S} (h : P acc fun s => (m s).2) : Acts P (PProg.prim acc m) := ⟨h, fun _ => trivial⟩

theorem Acts.done {r : CRes α} : Acts P (.done r : PProg S α) := trivial

end

section
variable {S G α : Type} {Good : S → Prop} {I : S → List G → Prop}

/-- Executed without interruption, a safe program keeps the invariant. -/
theorem Safe.run {A : α → G → Prop} {B : G → Prop} : ∀ {p : PProg S α} {g : G} {s : S} {F : List G},
    Safe Good I A B p g → Acts (fun _ f => ∀ s, Good (f s) → Good s) p → I s (g :: F) → Good (p.run s).2 →
    ∃ g', I (p.run s).2 (g' :: F) ∧ ∀ a, (p.run s).1 = .ok a → A a g'
  | .done r, g, s, F, h, _, hi, _ => ⟨g, hi, fun a ha => by simp only [PProg.run] at ha; subst ha; exact h⟩
  | .act acc en f k, g, s, F, h, hm, hi, hg => by
    simp only [PProg.run] at hg ⊢
    split at hg
    · rename_i he
      rw [if_pos he]
      have hback : ∀ {p : PProg S α} {s : S}, Acts (fun _ f => ∀ s, Good (f s) → Good s) p → Good (p.run s).2 → Good s := by
        intro p
        induction p with
        | done r => intro s _ h; exact h
        | act acc en f k ih =>
          intro s hm h
          simp only [PProg.run] at h
          split at h
          · exact hm.1 s (ih s (hm.2 s) h)
          · exact h
      obtain ⟨g', h1, h2⟩ := h s F he hi (hback (hm.2 s) hg)
      exact Safe.run h2 (hm.2 s) h1 hg
    · rename_i he
      rw [if_neg he]
      exact ⟨g, hi, fun a ha => by simp at ha⟩

end
end PProg
end Verif

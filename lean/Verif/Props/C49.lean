/-
C49  InnerMost finds the root cause.
-/
import Verif.Model.Errors
namespace Verif
variable {χ : Type}

/-- `e` was made by wrapping `root` with the messages `ms`, the first of them first. -/
inductive WrappedBy (root : GoErr χ) : List String → GoErr χ → Prop where
  | none : WrappedBy root [] root
  | wrap {ms : List String} {e : GoErr χ} (m : String) : WrappedBy root ms e → WrappedBy root (ms ++ [m]) (e.wrap m)

/-- A root cause wraps nothing: an error of another package, or one made by `New`. -/
def IsRoot (e : GoErr χ) : Prop := e.inner = .none

/-- `InnerMost` returns the error that was wrapped first, whatever the depth. -/
theorem C49_innermost {root e : GoErr χ} {ms : List String} (hr : IsRoot root) (h : WrappedBy root ms e) : e.innerMost = root := by
  induction h with
  | none =>
    cases root with
    | bolt m i =>
      cases i with
      | none => rw [GoErr.innerMost]
      | some e => cases hr
    | _ => rw [GoErr.innerMost] <;> simp
  | wrap m _ ih =>
    rw [← ih, GoErr.wrap]
    rw [GoErr.innerMost]

/-- `InnerMost` of any error is a root: nothing is left to unwrap. -/
theorem C49_root : (e : GoErr χ) → IsRoot e.innerMost
  | .bolt m .none => by rw [GoErr.innerMost]; rfl
  | .bolt m (some e) => by rw [GoErr.innerMost]; exact C49_root e
  | .eof => rfl
  | .unexpectedEOF => rfl
  | .badConn => rfl
  | .failure _ => rfl
  | .plain _ => rfl

/-- Every error is a root wrapped by some messages, so the theorems speak of all errors. -/
theorem C49_all : (e : GoErr χ) → ∃ root ms, IsRoot root ∧ WrappedBy root ms e
  | .bolt m .none => ⟨_, [], by rfl, .none⟩
  | .bolt m (some e) =>
    let ⟨root, ms, h1, h2⟩ := C49_all e
    ⟨root, ms ++ [m], h1, .wrap m h2⟩
  | .eof => ⟨_, [], by rfl, .none⟩
  | .unexpectedEOF => ⟨_, [], by rfl, .none⟩
  | .badConn => ⟨_, [], by rfl, .none⟩
  | .failure _ => ⟨_, [], by rfl, .none⟩
  | .plain _ => ⟨_, [], by rfl, .none⟩

theorem infix_mid {α : Type} (a b c : List α) : b <:+: a ++ b ++ c := ⟨a, c, rfl⟩

theorem text_msg (shown : GoErr χ → List Char × List Char) (stack : GoErr χ → List Char) (level : Nat) (m : String) (i : Option (GoErr χ)) :
    m.toList <:+: GoErr.text shown stack level (.bolt m i) := by
  cases i with
  | none => rw [GoErr.text]; exact infix_mid _ _ _
  | some e => rw [GoErr.text, List.append_assoc]; exact infix_mid _ _ _

theorem text_inner (shown : GoErr χ → List Char × List Char) (stack : GoErr χ → List Char) (level : Nat) (m : String) (e : GoErr χ) :
    ∃ level', GoErr.text shown stack level' e <:+: GoErr.text shown stack level (.bolt m (some e)) := by
  by_cases h : e.isBolt = true
  · refine ⟨level + 1, ?_⟩
    rw [GoErr.text, if_pos h]
    refine ⟨List.replicate level '\t' ++ m.toList ++ ['\n'], GoErr.text.trailer (stack (.bolt m (some e))), ?_⟩
    simp
  · refine ⟨0, ?_⟩
    have : GoErr.text shown stack 0 e = (shown e).2 := by
      cases e with
      | bolt m i => exact absurd rfl h
      | _ => rw [GoErr.text] <;> simp
    rw [this, GoErr.text, if_neg h]
    refine ⟨List.replicate level '\t' ++ m.toList ++ ("\nInternal Error(".toList ++ (shown e).1 ++ "):".toList), GoErr.text.trailer (stack (.bolt m (some e))), ?_⟩
    simp

/-- The text of an error contains the message of every layer, at every indentation. -/
theorem C49_text {root e : GoErr χ} {ms : List String} (h : WrappedBy root ms e) (shown : GoErr χ → List Char × List Char) (stack : GoErr χ → List Char) (level : Nat) :
    (∀ m ∈ ms, m.toList <:+: GoErr.text shown stack level e) ∧ ∃ level', GoErr.text shown stack level' root <:+: GoErr.text shown stack level e := by
  induction h generalizing level with
  | none => exact ⟨by simp, level, List.infix_rfl⟩
  | @wrap ms e m _ ih =>
    obtain ⟨l, hl⟩ := text_inner shown stack level m e
    obtain ⟨h1, l', h2⟩ := ih l
    refine ⟨?_, l', h2.trans hl⟩
    intro x hx
    rcases List.mem_append.mp hx with hx | hx
    · exact (h1 x hx).trans hl
    · rw [List.mem_singleton] at hx
      subst hx
      exact text_msg shown stack level x (some e)

/-- The text of a root cause is its own: the message given to `New`, or the text of the foreign error. -/
theorem C49_root_text {root : GoErr χ} (h : IsRoot root) (shown : GoErr χ → List Char × List Char) (stack : GoErr χ → List Char) (level : Nat) :
    (∀ m, root = .new m → m.toList <:+: GoErr.text shown stack level root) ∧ (root.isBolt = false → GoErr.text shown stack level root = (shown root).2) := by
  refine ⟨?_, ?_⟩
  · rintro m rfl
    exact text_msg shown stack level m .none
  · intro hb
    cases root with
    | bolt m i => cases hb
    | _ => rw [GoErr.text] <;> simp

/-- A failure wrapped three times. -/
example : WrappedBy (GoErr.failure 7) ["a", "b", "c"] (((GoErr.failure 7).wrap "a").wrap "b" |>.wrap "c") ∧ IsRoot (GoErr.failure 7) ∧
    (((GoErr.failure 7).wrap "a").wrap "b" |>.wrap "c").innerMost = GoErr.failure 7 :=
  ⟨.wrap (ms := ["a", "b"]) "c" (.wrap (ms := ["a"]) "b" (.wrap (ms := []) "a" .none)), rfl, rfl⟩
example : GoErr.text (χ := Nat) (fun _ => (['T'], ['x'])) (fun _ => []) 0 ((GoErr.badConn.wrap "a").wrap "b") = "b\n\ta\nInternal Error(T):x".toList := by decide

end Verif

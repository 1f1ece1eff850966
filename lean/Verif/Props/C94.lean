/-
C94  The dump of bytes in the log shows the bytes.
-/
import Verif.Model.Log
namespace Verif

namespace Spec

/-- Blank, tab or line feed. -/
def White (c : UInt8) : Prop := c = 0x20 ∨ c = 0x09 ∨ c = 0x0A

/-- The text consists of these words, which are separated by white space. -/
inductive Words : Bytes → List Bytes → Prop where
  | nil : Words [] []
  | white {c : UInt8} {s : Bytes} {ws : List Bytes} : White c → Words s ws → Words (c :: s) ws
  | word {w s : Bytes} {ws : List Bytes} : w ≠ [] → (∀ c ∈ w, ¬ White c) → (∀ c, s.head? = some c → White c) → Words s ws → Words (w ++ s) (w :: ws)

/-- The value of a hexadecimal digit. -/
def hexDigits : List (UInt8 × Nat) :=
  [(0x30, 0), (0x31, 1), (0x32, 2), (0x33, 3), (0x34, 4), (0x35, 5), (0x36, 6), (0x37, 7), (0x38, 8), (0x39, 9), (0x61, 10), (0x62, 11), (0x63, 12), (0x64, 13), (0x65, 14), (0x66, 15)]

/-- A hexadecimal number of one or two digits. -/
inductive Hex : Bytes → Nat → Prop where
  | one {c : UInt8} {n : Nat} : (c, n) ∈ hexDigits → Hex [c] n
  | two {c d : UInt8} {n m : Nat} : (c, n) ∈ hexDigits → (d, m) ∈ hexDigits → Hex [c, d] (16 * n + m)

end Spec

namespace C94

/-- White space in front of words. -/
theorem words_white {s : Bytes} {ws : List Bytes} : ∀ {l : Bytes}, (∀ c ∈ l, Spec.White c) → Spec.Words s ws → Spec.Words (l ++ s) ws
  | [], _, h => h
  | c :: l, hl, h => .white (hl c List.mem_cons_self) (words_white (fun c hc => hl c (List.mem_cons_of_mem _ hc)) h)

theorem hexByte_table : ∀ n : Fin 256, let w := hexByte (UInt8.ofNat n.1)
    (w ≠ [] ∧ ∀ c ∈ w, ¬ (c = 0x20 ∨ c = 0x09 ∨ c = 0x0A)) ∧
      (if n.1 < 16 then ∃ p ∈ Spec.hexDigits, w = [p.1] ∧ p.2 = n.1 else ∃ p ∈ Spec.hexDigits, ∃ q ∈ Spec.hexDigits, w = [p.1, q.1] ∧ 16 * p.2 + q.2 = n.1) := by
  decide +kernel

theorem hexByte_spec (b : UInt8) : (hexByte b ≠ [] ∧ ∀ c ∈ hexByte b, ¬ Spec.White c) ∧ Spec.Hex (hexByte b) b.toNat := by
  have h := hexByte_table ⟨b.toNat, b.toNat_lt⟩
  dsimp only at h
  rw [UInt8.ofNat_toNat] at h
  refine ⟨h.1, ?_⟩
  have h := h.2
  split at h
  · obtain ⟨p, hp, e, hn⟩ := h
    rw [e, ← hn]
    exact .one hp
  · obtain ⟨p, hp, q, hq, e, hn⟩ := h
    rw [e, ← hn]
    exact .two hp hq

/-- The separators of the dump. -/
def sep (i : Nat) : Bytes := if (i + 1) % 16 = 0 then ascii "\n\n\t" else if (i + 1) % 4 = 0 then ascii "  " else ascii " "

theorem sep_white (i : Nat) : (∀ c ∈ sep i, Spec.White c) ∧ sep i ≠ [] := by
  unfold sep Spec.White
  split
  · decide +kernel
  · split <;> decide +kernel

theorem dump_words : ∀ (b : Bytes) (i : Nat) {s : Bytes}, (∀ c ∈ s, Spec.White c) → Spec.Words (dumpFrom i b ++ s) (b.map hexByte)
  | [], _, s, h => by
    show Spec.Words s []
    have := words_white h .nil
    rwa [List.append_nil] at this
  | c :: b, i, s, h => by
    have e : dumpFrom i (c :: b) ++ s = hexByte c ++ (sep i ++ (dumpFrom (i + 1) b ++ s)) := by
      simp only [dumpFrom, sep, List.append_assoc]
    rw [e]
    obtain ⟨⟨h1, h2⟩, _⟩ := hexByte_spec c
    obtain ⟨h3, h4⟩ := sep_white i
    refine .word h1 h2 (fun c hc => ?_) (words_white h3 (dump_words b (i + 1) h))
    cases hs : sep i with
    | nil => exact absurd hs h4
    | cons d l =>
      rw [hs] at hc h3
      cases hc
      exact h3 _ List.mem_cons_self

theorem word_first {w w' s s' : Bytes} (hw : ∀ c ∈ w, ¬ Spec.White c) (hw' : ∀ c ∈ w', ¬ Spec.White c) (hs : ∀ c, s.head? = some c → Spec.White c)
    (hs' : ∀ c, s'.head? = some c → Spec.White c) (h : w ++ s = w' ++ s') : w = w' ∧ s = s' := by
  rcases List.append_eq_append_iff.1 h with ⟨x, e1, e2⟩ | ⟨x, e1, e2⟩
  · cases x with
    | nil => rw [List.append_nil] at e1; rw [List.nil_append] at e2; exact ⟨e1.symm, e2⟩
    | cons c x => rw [e2] at hs; exact absurd (hs c rfl) (hw' c (by rw [e1]; simp))
  · cases x with
    | nil => rw [List.append_nil] at e1; rw [List.nil_append] at e2; exact ⟨e1, e2.symm⟩
    | cons c x => rw [e2] at hs'; exact absurd (hs' c rfl) (hw c (by rw [e1]; simp))

theorem words_unique {s : Bytes} {ws : List Bytes} (h : Spec.Words s ws) : ∀ {s' : Bytes} {ws' : List Bytes}, Spec.Words s' ws' → s = s' → ws = ws' := by
  induction h with
  | nil =>
    intro s' ws' h' e
    cases h' with
    | nil => rfl
    | white => cases e
    | word hn => exact absurd (List.append_eq_nil_iff.1 e.symm).1 hn
  | white hc h ih =>
    intro s' ws' h' e
    cases h' with
    | nil => cases e
    | white hc' h' => exact ih h' (List.cons.inj e).2
    | @word w _ _ hn hw =>
      cases w with
      | nil => exact absurd rfl hn
      | cons d w => exact absurd ((List.cons.inj e).1 ▸ hc) (hw d List.mem_cons_self)
  | @word w s ws hn hw hs h ih =>
    intro s' ws' h' e
    cases h' with
    | nil => exact absurd (List.append_eq_nil_iff.1 e).1 hn
    | white hc' h' =>
      cases w with
      | nil => exact absurd rfl hn
      | cons d w => exact absurd ((List.cons.inj e).1 ▸ hc') (hw d List.mem_cons_self)
    | word hn' hw' hs' h' =>
      obtain ⟨e1, e2⟩ := word_first hw hw' hs hs' e
      rw [e1, ih h' e2]

theorem hexDigits_unique : ∀ p ∈ Spec.hexDigits, ∀ q ∈ Spec.hexDigits, p.1 = q.1 → p.2 = q.2 := by decide +kernel

end C94

/-- **C94**: the dump begins with the bytes as text; the words that follow are, in order, the hexadecimal numbers of the bytes. -/
theorem C94_shows (b : Bytes) : ∃ rest ws, sprintByteHex b = 0x0A :: b ++ rest ∧ Spec.Words rest ws ∧ ws.length = b.length ∧
    ∀ i (h : i < b.length) (h' : i < ws.length), Spec.Hex ws[i] b[i].toNat := by
  refine ⟨ascii "\n\t" ++ dumpFrom 0 b ++ ascii "\n", b.map hexByte, by simp only [sprintByteHex, List.append_assoc]; rfl, ?_, by simp, fun i h h' => ?_⟩
  · rw [List.append_assoc]
    exact C94.words_white (by unfold Spec.White; decide +kernel) (C94.dump_words b 0 (by unfold Spec.White; decide +kernel))
  · rw [List.getElem_map]
    exact (C94.hexByte_spec _).2

/-- Such words and numbers can be read in one way only. -/
theorem C94_reads : (∀ {s : Bytes} {ws ws' : List Bytes}, Spec.Words s ws → Spec.Words s ws' → ws = ws') ∧
    ∀ {w : Bytes} {n m : Nat}, Spec.Hex w n → Spec.Hex w m → n = m := by
  refine ⟨fun h h' => C94.words_unique h h' rfl, fun h h' => ?_⟩
  cases h with
  | one h1 => cases h' with | one h2 => exact C94.hexDigits_unique _ h1 _ h2 rfl
  | two h1 h2 =>
    cases h' with
    | two h3 h4 =>
      have e1 := C94.hexDigits_unique _ h1 _ h3 rfl
      have e2 := C94.hexDigits_unique _ h2 _ h4 rfl
      dsimp only at e1 e2
      rw [e1, e2]

/-- A dump of five bytes. -/
example : sprintByteHex [0x41, 0x00, 0xFF, 0x10, 0x09] = ascii "\nA" ++ [0x00, 0xFF, 0x10, 0x09] ++ ascii "\n\t41 0 ff 10  9 \n" := by decide +kernel

end Verif

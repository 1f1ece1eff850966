/-
C27  Protocol selection is exact.
-/
import Verif.Model.Protocol
namespace Verif

/-- For every byte string: protocol `p` with number `n` is returned exactly for the four bytes `00 00 00 n`, with a nil error; every
other byte string gives no protocol, version -1 and an error. -/
theorem C27_exact (b : Bytes) :
    (∀ p : Proto, (getProtocol b).1 = some p ↔ ∃ n : UInt8, b = [0, 0, 0, n] ∧ (n.toNat : Int) = p.number) ∧
    ((∃ n : UInt8, b = [0, 0, 0, n] ∧ 1 ≤ n ∧ n ≤ 4 ∧ (getProtocol b).2 = ((n.toNat : Int), none)) ∨
     ((∀ n : UInt8, 1 ≤ n → n ≤ 4 → b ≠ [0, 0, 0, n]) ∧ (getProtocol b).1 = none ∧ (getProtocol b).2.1 = -1 ∧ (getProtocol b).2.2 ≠ none)) := by
  unfold getProtocol
  have hsmall : ∀ n : UInt8, 1 ≤ n → n ≤ 4 → n = 1 ∨ n = 2 ∨ n = 3 ∨ n = 4 := by
    intro n h1 h2
    rw [UInt8.le_iff_toNat_le] at h1 h2
    simp only [UInt8.reduceToNat] at h1 h2
    have : n.toNat = 1 ∨ n.toNat = 2 ∨ n.toNat = 3 ∨ n.toNat = 4 := by omega
    rcases this with h | h | h | h
    · exact .inl (UInt8.toNat_inj.mp h)
    · exact .inr (.inl (UInt8.toNat_inj.mp h))
    · exact .inr (.inr (.inl (UInt8.toNat_inj.mp h)))
    · exact .inr (.inr (.inr (UInt8.toNat_inj.mp h)))
  have hnum : ∀ (p : Proto) (n : UInt8), (n.toNat : Int) = p.number →
      (n = 1 ∧ p = .v1) ∨ (n = 2 ∧ p = .v2) ∨ (n = 3 ∧ p = .v3) ∨ (n = 4 ∧ p = .v4) := by
    intro p n h
    cases p <;> simp only [Proto.number] at h
    · exact .inl ⟨UInt8.toNat_inj.mp (by simp; omega), rfl⟩
    · exact .inr (.inl ⟨UInt8.toNat_inj.mp (by simp; omega), rfl⟩)
    · exact .inr (.inr (.inl ⟨UInt8.toNat_inj.mp (by simp; omega), rfl⟩))
    · exact .inr (.inr (.inr ⟨UInt8.toNat_inj.mp (by simp; omega), rfl⟩))
  by_cases h1 : b = protocolVersionBytes .v1
  · subst h1
    refine ⟨fun p => ⟨?_, ?_⟩, .inl ⟨1, rfl, by decide, by decide, rfl⟩⟩
    · intro h; cases h; exact ⟨1, rfl, rfl⟩
    · rintro ⟨n, h, hn⟩
      cases h
      rcases hnum p _ hn with h | h | h | h <;> first | (obtain ⟨_, rfl⟩ := h; rfl) | exact absurd h.1 (by decide)
  by_cases h2 : b = protocolVersionBytes .v2
  · subst h2
    refine ⟨fun p => ⟨?_, ?_⟩, .inl ⟨2, rfl, by decide, by decide, rfl⟩⟩
    · intro h; cases h; exact ⟨2, rfl, rfl⟩
    · rintro ⟨n, h, hn⟩
      cases h
      rcases hnum p _ hn with h | h | h | h <;> first | (obtain ⟨_, rfl⟩ := h; rfl) | exact absurd h.1 (by decide)
  by_cases h3 : b = protocolVersionBytes .v3
  · subst h3
    refine ⟨fun p => ⟨?_, ?_⟩, .inl ⟨3, rfl, by decide, by decide, rfl⟩⟩
    · intro h; cases h; exact ⟨3, rfl, rfl⟩
    · rintro ⟨n, h, hn⟩
      cases h
      rcases hnum p _ hn with h | h | h | h <;> first | (obtain ⟨_, rfl⟩ := h; rfl) | exact absurd h.1 (by decide)
  by_cases h4 : b = protocolVersionBytes .v4
  · subst h4
    refine ⟨fun p => ⟨?_, ?_⟩, .inl ⟨4, rfl, by decide, by decide, rfl⟩⟩
    · intro h; cases h; exact ⟨4, rfl, rfl⟩
    · rintro ⟨n, h, hn⟩
      cases h
      rcases hnum p _ hn with h | h | h | h <;> first | (obtain ⟨_, rfl⟩ := h; rfl) | exact absurd h.1 (by decide)
  have hno : ∀ n : UInt8, b = [0, 0, 0, n] → ¬ (n = 1 ∨ n = 2 ∨ n = 3 ∨ n = 4) := by
    rintro n rfl (rfl | rfl | rfl | rfl)
    · exact h1 rfl
    · exact h2 rfl
    · exact h3 rfl
    · exact h4 rfl
  simp only [if_neg h1, if_neg h2, if_neg h3, if_neg h4]
  refine ⟨fun p => ⟨?_, ?_⟩, .inr ⟨fun n hn hn' hb => hno n hb (hsmall n hn hn'), ?_, ?_, ?_⟩⟩
  · intro h; split at h <;> cases h
  · rintro ⟨n, h, hn⟩
    exfalso
    refine hno n h ?_
    rcases hnum p n hn with h | h | h | h
    · exact .inl h.1
    · exact .inr (.inl h.1)
    · exact .inr (.inr (.inl h.1))
    · exact .inr (.inr (.inr h.1))
  · split <;> rfl
  · split <;> rfl
  · split <;> simp

example : (getProtocol [0, 0, 0, 3]).1 = some .v3 := by decide
example : (getProtocol [0, 0, 0, 4, 0]).1 = none := by decide

end Verif

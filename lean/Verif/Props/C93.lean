/-
C93  The log shows what was asked for, and nothing else.
-/
import Verif.Model.Log
namespace Verif

namespace Spec

/-- The names of the levels. -/
def levelNames : List (LogLevel × String) := [(.error, "error"), (.info, "info"), (.trace, "trace"), (.traceBytes, "trace-bytes")]

/-- A character in upper or lower case; U+0130 is an upper case 'i'. -/
inductive Letter : Bytes → UInt8 → Prop where
  | lower (c : UInt8) : Letter [c] c
  | upper (c : UInt8) (h : 0x61 ≤ c ∧ c ≤ 0x7A) : Letter [c - 0x20] c
  | dotted : Letter [0xC4, 0xB0] 0x69

/-- The text in upper or lower case, or a mixture. -/
inductive Spells : Bytes → Bytes → Prop where
  | nil : Spells [] []
  | cons {l s t : Bytes} {c : UInt8} : Letter l c → Spells s t → Spells (l ++ s) (c :: t)

/-- The level that a name means: what is not the name of another level means that nothing is to be printed. -/
def Means (name : Bytes) (l : LogLevel) : Prop :=
  (∃ s, (l, s) ∈ levelNames ∧ Spells name (ascii s)) ∨ (l = .none ∧ ∀ p ∈ levelNames, ¬ Spells name (ascii p.2))

/-- The level in effect after these calls: the one that was set last, or none. -/
def InEffect (calls : List LogCall) (l : LogLevel) : Prop :=
  (∃ pre name post, calls = pre ++ .setLevel name :: post ∧ (∀ n, .setLevel n ∉ post) ∧ Means name l) ∨ ((∀ n, .setLevel n ∉ calls) ∧ l = .none)

/-- The levels at which messages of a logger are wanted. -/
def Wanted (l : LogLevel) : Logger → Prop
  | .error => l ≠ .none
  | .info => l = .info ∨ l = .trace ∨ l = .traceBytes
  | .trace => l = .trace ∨ l = .traceBytes
  | .bytes => l = .traceBytes

/-- What a call has to say. -/
inductive Says : LogCall → Logger → List Bytes → Prop where
  | error (m : Bytes) : Says (.error m) .error [m]
  | info (m : Bytes) : Says (.info m) .info [m]
  | trace (m : Bytes) : Says (.trace m) .trace [m]
  | dump (b : Bytes) : Says (.dump b) .bytes [ascii "start byte printout", sprintByteHex b, ascii "end byte printout"]
  | buffer (b : Bytes) : Says (.dumpBuffer (some b)) .bytes [ascii "start byte printout", sprintByteHex b, ascii "end byte printout"]

end Spec

namespace C93

theorem lowerCase_cons {c : UInt8} {b : Bytes} (h1 : ∀ b', c :: b ≠ 0xC4 :: 0xB0 :: b') (h2 : ∀ b', c :: b ≠ 0xE2 :: 0x84 :: 0xAA :: b') :
    lowerCase (c :: b) = (if 0x41 ≤ c && c ≤ 0x5A then c + 0x20 else c) :: lowerCase b := by
  rw [lowerCase.eq_def]
  split
  · rename_i b' h; exact absurd h (h1 b')
  · rename_i b' h; exact absurd h (h2 b')
  · rename_i h; cases h; rfl
  · rename_i h; cases h

theorem letter_head {t : Bytes} {s : Bytes} {c : UInt8} {l : Bytes} (h : Spec.Letter l c) (hc : 0x2D ≤ c ∧ c ≤ 0x7A ∧ ¬ (0x41 ≤ c ∧ c ≤ 0x5A)) (ht : lowerCase s = t) :
    lowerCase (l ++ s) = c :: t := by
  cases h with
  | lower =>
    rw [List.singleton_append, lowerCase_cons, ht, if_neg]
    · simpa using hc.2.2
    · rintro b' ⟨⟩; exact absurd hc (by decide)
    · rintro b' ⟨⟩; exact absurd hc (by decide)
  | upper _ h =>
    have h1 : 0x41 ≤ c - 0x20 ∧ c - 0x20 ≤ 0x5A := by
      obtain ⟨h1, h2⟩ := h
      constructor <;> (rw [UInt8.le_iff_toNat_le] at *; rw [UInt8.toNat_sub_of_le] <;> simp_all [UInt8.le_iff_toNat_le] <;> omega)
    rw [List.singleton_append, lowerCase_cons, ht, if_pos]
    · simp
    · simpa using h1
    · intro b' e; rw [(List.cons.inj e).1] at h1; exact absurd h1 (by decide)
    · intro b' e; rw [(List.cons.inj e).1] at h1; exact absurd h1 (by decide)
  | dotted =>
    show lowerCase (0xC4 :: 0xB0 :: s) = _
    simp only [lowerCase, ht]

/-- The characters of the names of levels. -/
def Plain (c : UInt8) : Prop := (0x2D ≤ c ∧ c ≤ 0x7A ∧ ¬ (0x41 ≤ c ∧ c ≤ 0x5A)) ∧ c ≠ 0x6B

theorem lower_of_spells {s t : Bytes} (h : Spec.Spells s t) (hp : ∀ c ∈ t, Plain c) : lowerCase s = t := by
  induction h with
  | nil => rfl
  | cons hl _ ih => exact letter_head hl (hp _ List.mem_cons_self).1 (ih fun c hc => hp c (List.mem_cons_of_mem _ hc))

theorem spells_of_lower : ∀ {t s : Bytes}, (∀ c ∈ t, Plain c) → lowerCase s = t → Spec.Spells s t
  | [], s, _, h => by
    rw [lowerCase.eq_def] at h
    split at h <;> first | exact .nil | cases h
  | c :: t, s, hp, h => by
    have hc := hp c List.mem_cons_self
    have ht : ∀ c ∈ t, Plain c := fun c hc => hp c (List.mem_cons_of_mem _ hc)
    rw [lowerCase.eq_def] at h
    split at h
    · injection h with h1 h2
      subst h1
      exact .cons .dotted (spells_of_lower ht h2)
    · injection h with h1 h2
      exact absurd h1.symm hc.2
    · rename_i d b _ _
      injection h with h1 h2
      split at h1
      · rename_i hu
        simp only [Bool.and_eq_true, decide_eq_true_eq] at hu
        subst h1
        refine .cons (l := [d]) ?_ (spells_of_lower ht h2)
        have : d = d + 0x20 - 0x20 := by simp
        have h : Spec.Letter [d + 0x20 - 0x20] (d + 0x20) := by
          refine .upper _ ?_
          have h1 := UInt8.le_iff_toNat_le.1 hu.1
          have h2 := UInt8.le_iff_toNat_le.1 hu.2
          constructor <;> (rw [UInt8.le_iff_toNat_le, UInt8.toNat_add]; simp at h1 h2 ⊢; omega)
        rwa [← this] at h
      · subst h1
        exact .cons (l := [d]) (.lower _) (spells_of_lower ht h2)
    · cases h

theorem spells_iff {s t : Bytes} (hp : ∀ c ∈ t, Plain c) : Spec.Spells s t ↔ lowerCase s = t := ⟨fun h => lower_of_spells h hp, spells_of_lower hp⟩

instance (c : UInt8) : Decidable (Plain c) := by unfold Plain; infer_instance

theorem names_plain : ∀ p ∈ Spec.levelNames, ∀ c ∈ ascii p.2, Plain c := by decide +kernel

theorem means_iff (name : Bytes) (l : LogLevel) : Spec.Means name l ↔ levelNamed name = l := by
  have hn : ∀ p ∈ Spec.levelNames, (Spec.Spells name (ascii p.2) ↔ lowerCase name = ascii p.2) := fun p hp => spells_iff (names_plain p hp)
  have key : Spec.Means name l ↔ (∃ p ∈ Spec.levelNames, p.1 = l ∧ lowerCase name = ascii p.2) ∨ (l = .none ∧ ∀ p ∈ Spec.levelNames, lowerCase name ≠ ascii p.2) := by
    unfold Spec.Means
    refine or_congr ⟨?_, ?_⟩ (and_congr_right fun _ => forall₂_congr fun p hp => not_congr (hn p hp))
    · rintro ⟨s, hs, h⟩; exact ⟨_, hs, rfl, (hn _ hs).1 h⟩
    · rintro ⟨p, hp, rfl, h⟩; exact ⟨_, hp, (hn p hp).2 h⟩
  rw [key]
  unfold levelNamed
  dsimp only
  generalize lowerCase name = x
  by_cases h4 : x = ascii "trace-bytes"
  · subst h4; cases l <;> decide +kernel
  by_cases h3 : x = ascii "trace"
  · subst h3; cases l <;> decide +kernel
  by_cases h2 : x = ascii "info"
  · subst h2; cases l <;> decide +kernel
  by_cases h1 : x = ascii "error"
  · subst h1; cases l <;> decide +kernel
  cases l <;> simp [Spec.levelNames, h1, h2, h3, h4]

theorem level_run (c : LogCall) (s : LogState) : (c.run s).level = match c with | .setLevel n => levelNamed n | _ => s.level := by
  unfold LogCall.run traceBytes
  split <;> first | rfl | (split <;> rfl)

theorem level_kept : ∀ (calls : List LogCall) (s : LogState), (∀ n, .setLevel n ∉ calls) → (logRun calls s).level = s.level
  | [], _, _ => rfl
  | c :: cs, s, h => by
    show (logRun cs (c.run s)).level = _
    rw [level_kept cs _ fun n hn => h n (List.mem_cons_of_mem _ hn), level_run]
    cases c with
    | setLevel n => exact absurd List.mem_cons_self (h n)
    | _ => rfl

theorem level_of {calls : List LogCall} {l : LogLevel} (h : Spec.InEffect calls l) : (logRun calls .init).level = l := by
  rcases h with ⟨pre, name, post, rfl, hp, hm⟩ | ⟨hn, rfl⟩
  · unfold logRun
    rw [List.foldl_append, List.foldl_cons]
    exact (level_kept post _ hp).trans ((level_run _ _).trans ((means_iff _ _).1 hm))
  · exact level_kept calls _ hn

end C93

/-- **C93**: after any calls a message is printed by its logger, after everything before, exactly if the level in effect wants it; otherwise nothing is printed. -/
theorem C93_prints {calls : List LogCall} {l : LogLevel} (hl : Spec.InEffect calls l) {c : LogCall} {g : Logger} {msgs : List Bytes} (hc : Spec.Says c g msgs) :
    (Spec.Wanted l g → (logRun (calls ++ [c]) .init).out = (logRun calls .init).out ++ msgs.map fun m => (g, m)) ∧
    (¬ Spec.Wanted l g → (logRun (calls ++ [c]) .init).out = (logRun calls .init).out) := by
  have e : logRun (calls ++ [c]) .init = c.run (logRun calls .init) := by
    unfold logRun
    rw [List.foldl_append]
    rfl
  rw [e]
  have hlev := C93.level_of hl
  generalize logRun calls .init = s at hlev
  subst hlev
  constructor
  · intro hw
    cases hc <;> simp only [LogCall.run, traceBytes] <;> rw [if_pos] <;> first | rfl | (revert hw; unfold Spec.Wanted; cases s.level <;> decide)
  · intro hw
    cases hc <;> simp only [LogCall.run, traceBytes] <;> rw [if_neg] <;> (revert hw; unfold Spec.Wanted; cases s.level <;> decide)

/-- Setting the level, and asking for a dump of no buffer, print nothing. -/
theorem C93_quiet (s : LogState) : (∀ n, (LogCall.run (.setLevel n) s).out = s.out) ∧ LogCall.run (.dumpBuffer none) s = s := ⟨fun _ => rfl, rfl⟩

/-- There is always exactly one level in effect. -/
theorem C93_level (calls : List LogCall) : ∃ l, Spec.InEffect calls l ∧ ∀ l', Spec.InEffect calls l' → l' = l := by
  refine ⟨(logRun calls .init).level, ?_, fun l' h => (C93.level_of h).symm⟩
  have main : ∀ r : List LogCall, Spec.InEffect r.reverse (logRun r.reverse .init).level := by
    intro r
    induction r with
    | nil => exact .inr ⟨fun _ h => absurd h List.not_mem_nil, rfl⟩
    | cons c cs ih =>
      have e : logRun (c :: cs).reverse .init = c.run (logRun cs.reverse .init) := by
        unfold logRun
        rw [List.reverse_cons, List.foldl_append]
        rfl
      rw [e]
      by_cases hc : ∃ n, c = .setLevel n
      · obtain ⟨n, rfl⟩ := hc
        exact .inl ⟨cs.reverse, n, [], by simp, fun _ h => absurd h List.not_mem_nil, (C93.means_iff _ _).2 rfl⟩
      · have hk : (c.run (logRun cs.reverse .init)).level = (logRun cs.reverse .init).level := by
          rw [C93.level_run]
          cases c with
          | setLevel n => exact absurd ⟨n, rfl⟩ hc
          | _ => rfl
        rw [hk]
        rcases ih with ⟨pre, name, post, he, hp, hm⟩ | ⟨hn, he⟩
        · refine .inl ⟨pre, name, post ++ [c], by rw [List.reverse_cons, he]; simp, fun n hn => ?_, hm⟩
          rcases List.mem_append.1 hn with hn | hn
          · exact hp n hn
          · exact hc ⟨n, (List.mem_singleton.1 hn).symm⟩
        · refine .inr ⟨fun n hn' => ?_, he⟩
          rw [List.reverse_cons] at hn'
          rcases List.mem_append.1 hn' with hn' | hn'
          · exact hn n hn'
          · exact hc ⟨n, (List.mem_singleton.1 hn').symm⟩
  have := main calls.reverse
  rwa [List.reverse_reverse] at this

/-- The hypotheses are met: the level is given in capital letters; the next message to the trace is not printed, the error is. -/
example : Spec.InEffect [.error (ascii "lost"), .setLevel (ascii "Info"), .info (ascii "a")] .info ∧ ¬ Spec.Wanted .info .trace ∧ Spec.Wanted .info .error ∧
    (logRun [.error (ascii "lost"), .setLevel (ascii "Info"), .info (ascii "a"), .trace (ascii "b"), .error (ascii "c")] .init).out = [(.info, ascii "a"), (.error, ascii "c")] := by
  refine ⟨.inl ⟨[_], _, [_], rfl, by simp, (C93.means_iff _ _).2 (by decide +kernel)⟩, by unfold Spec.Wanted; simp, by unfold Spec.Wanted; simp, by decide +kernel⟩

end Verif

/-
What a successful decoding step did: inversion of `decodeBody`, and predicates that hold of every decoded value.
-/
import Verif.Proofs.DecInv
import Verif.Proofs.Cut
namespace Verif
open Spec

/-- Values without components. -/
def scalar : Val → Prop
  | .nil | .bool _ | .int .int64 _ | .float64 _ | .str _ => True
  | _ => False

theorem readUnsigned_suffix {k : Nat} {b : Bytes} {n : Nat} {r : Bytes} (h : readUnsigned k b = .ok (n, r)) : ∃ c, b = c ++ r := by
  unfold readUnsigned at h
  split at h
  · cases h
  split at h
  · cases h
  · simp only [Res.ok.injEq, Prod.mk.injEq] at h
    exact ⟨b.take k, by rw [← h.2, List.take_append_drop]⟩

theorem next_suffix {n : Int} {b s r : Bytes} (h : next n b = .ok (s, r)) : ∃ c, b = c ++ r := by
  unfold next at h
  split at h
  · cases h
  · simp only [Res.ok.injEq, Prod.mk.injEq] at h
    exact ⟨b.take n.toNat, by rw [← h.2, List.take_append_drop]⟩

/-- The ways in which `decodeBody` succeeds; `c` are the bytes of the header. -/
theorem decodeBody_inv (env : Env) (ver : Ver) {dec : Dec Val} {b : Bytes} {v : Val} {r : Bytes} (h : decodeBody env ver dec b = .ok (v, r)) :
    ∃ m c b', b = m :: (c ++ b') ∧
      ((scalar v ∧ b' = r) ∨
       (∃ vs, v = .list true vs ∧ decodeN dec vs.length b' = .ok (vs, r)) ∨
       (∃ n es, v = .map es ∧ decodeEntries dec n [] b' = .ok (es, r)) ∨
       decodeStruct env ver dec b' = .ok (v, r)) := by
  unfold decodeBody at h
  rw [Dec.bind_eq_ok] at h
  obtain ⟨m, b1, h1, h⟩ := h
  rw [Dec.wrapErr_eq_ok, readByte_eq_ok] at h1
  subst h1
  have hN : ∀ {n : Nat} {b r : Bytes} {vs : List Val}, decodeN dec n b = .ok (vs, r) → vs.length = n := by
    intro n
    induction n with
    | zero => intro b r vs h; rw [decodeN, Dec.pure_eq_ok] at h; rw [← h.1]; rfl
    | succ n ih =>
      intro b r vs h
      simp only [decodeN, Dec.bind_eq_ok, Dec.pure_eq_ok] at h
      obtain ⟨x, b', _, ys, b2, h2, rfl, rfl⟩ := h
      rw [List.length_cons, ih h2]
  have hS : ∀ {n : Int} {b r : Bytes} {v : Val}, decodeSlice dec n b = .ok (v, r) → ∃ vs, v = .list true vs ∧ decodeN dec vs.length b = .ok (vs, r) := by
    intro n b r v h
    unfold decodeSlice at h
    split at h
    · cases h
    · rw [Dec.bind_eq_ok] at h
      obtain ⟨vs, b', h1, h2⟩ := h
      rw [Dec.pure_eq_ok] at h2
      obtain ⟨rfl, rfl⟩ := h2
      exact ⟨vs, rfl, by rw [hN h1]; exact h1⟩
  have hM : ∀ {n : Int} {b r : Bytes} {v : Val}, decodeMap dec n b = .ok (v, r) → ∃ n es, v = .map es ∧ decodeEntries dec n [] b = .ok (es, r) := by
    intro n b r v h
    unfold decodeMap at h
    rw [Dec.bind_eq_ok] at h
    obtain ⟨vs, b', h1, h2⟩ := h
    rw [Dec.pure_eq_ok] at h2
    obtain ⟨rfl, rfl⟩ := h2
    exact ⟨_, vs, rfl, h1⟩
  cases hc : classify m with
  | nil => rw [hc] at h; cases h; exact ⟨m, [], _, rfl, .inl ⟨trivial, rfl⟩⟩
  | bool x => rw [hc] at h; cases h; exact ⟨m, [], _, rfl, .inl ⟨trivial, rfl⟩⟩
  | tinyInt x => rw [hc] at h; cases h; exact ⟨m, [], _, rfl, .inl ⟨trivial, rfl⟩⟩
  | int k =>
    rw [hc] at h
    simp only [decodeMarker] at h
    rw [Dec.bind_eq_ok] at h
    obtain ⟨n, b', h1, h2⟩ := h
    rw [Dec.pure_eq_ok] at h2
    obtain ⟨rfl, rfl⟩ := h2
    obtain ⟨lb, rfl, -, -⟩ := readSigned_inv h1
    exact ⟨m, lb, _, rfl, .inl ⟨trivial, rfl⟩⟩
  | float =>
    rw [hc] at h
    simp only [decodeMarker] at h
    rw [Dec.bind_eq_ok] at h
    obtain ⟨n, b', h1, h2⟩ := h
    rw [Dec.pure_eq_ok] at h2
    obtain ⟨rfl, rfl⟩ := h2
    obtain ⟨lb, rfl⟩ := readUnsigned_suffix h1
    exact ⟨m, lb, _, rfl, .inl ⟨trivial, rfl⟩⟩
  | tinyStr n =>
    rw [hc] at h
    simp only [decodeMarker] at h
    split at h
    · cases h; exact ⟨m, [], _, rfl, .inl ⟨trivial, rfl⟩⟩
    · rw [Dec.bind_eq_ok] at h
      obtain ⟨s, b', h1, h2⟩ := h
      rw [Dec.pure_eq_ok] at h2
      obtain ⟨rfl, rfl⟩ := h2
      obtain ⟨lb, rfl⟩ := next_suffix h1
      exact ⟨m, lb, _, rfl, .inl ⟨trivial, rfl⟩⟩
  | str k =>
    rw [hc] at h
    simp only [decodeMarker] at h
    rw [Dec.bind_eq_ok] at h
    obtain ⟨n, b2, h0, h⟩ := h
    obtain ⟨lb, rfl, -, -⟩ := readSigned_inv (Dec.wrapErr_eq_ok.mp h0)
    rw [Dec.bind_eq_ok] at h
    obtain ⟨s, b', h1, h2⟩ := h
    rw [Dec.pure_eq_ok] at h2
    obtain ⟨rfl, rfl⟩ := h2
    obtain ⟨lb', rfl⟩ := next_suffix h1
    exact ⟨m, lb ++ lb', _, by rw [List.append_assoc], .inl ⟨trivial, rfl⟩⟩
  | tinyList n =>
    rw [hc] at h
    exact ⟨m, [], b1, rfl, .inr (.inl (hS h))⟩
  | list k =>
    rw [hc] at h
    simp only [decodeMarker] at h
    rw [Dec.bind_eq_ok] at h
    obtain ⟨n, b2, h0, h⟩ := h
    obtain ⟨lb, rfl, -, -⟩ := readSigned_inv (Dec.wrapErr_eq_ok.mp h0)
    exact ⟨m, lb, b2, rfl, .inr (.inl (hS h))⟩
  | tinyMap n =>
    rw [hc] at h
    exact ⟨m, [], b1, rfl, .inr (.inr (.inl (hM h)))⟩
  | map k =>
    rw [hc] at h
    simp only [decodeMarker] at h
    rw [Dec.bind_eq_ok] at h
    obtain ⟨n, b2, h0, h⟩ := h
    obtain ⟨lb, rfl, -, -⟩ := readSigned_inv (Dec.wrapErr_eq_ok.mp h0)
    exact ⟨m, lb, b2, rfl, .inr (.inr (.inl (hM h)))⟩
  | tinyStruct n =>
    rw [hc] at h
    exact ⟨m, [], b1, rfl, .inr (.inr (.inr h))⟩
  | struct k =>
    rw [hc] at h
    simp only [decodeMarker] at h
    rw [Dec.bind_eq_ok] at h
    obtain ⟨n, b2, h0, h⟩ := h
    obtain ⟨lb, rfl, -, -⟩ := readSigned_inv (Dec.wrapErr_eq_ok.mp h0)
    exact ⟨m, lb, b2, rfl, .inr (.inr (.inr h))⟩
  | unknown => rw [hc] at h; cases h

/-- `toInts` keeps the number of elements and only produces integers. -/
theorem toInts_inv : {ss ss' : List Val} → toInts ss = some ss' → ss'.length = ss.length ∧ ∀ s ∈ ss', ∃ n, s = .int .int n
  | [], ss', h => by simp only [toInts, Option.some.injEq] at h; subst h; simp
  | .int .int64 n :: vs, ss', h => by
    simp only [toInts, Option.map_eq_some_iff] at h
    obtain ⟨r, h1, rfl⟩ := h
    obtain ⟨h2, h3⟩ := toInts_inv h1
    refine ⟨by simp [h2], ?_⟩
    intro s hs
    simp only [List.mem_cons] at hs
    rcases hs with rfl | hs
    · exact ⟨_, rfl⟩
    · exact h3 s hs

/-- The shape of a structure built from its fields: its fields are the decoded fields, except that integers may be retyped. -/
inductive BuiltFrom : List Val → Val → Prop
  | fields (k : StructKind) (fs : List Val) : BuiltFrom fs (.struct k fs)
  | path (ns rs ss ss' : List Val) (hl : ss'.length = ss.length) (hi : ∀ s ∈ ss', ∃ n, s = .int .int n) :
      BuiltFrom [.list true ns, .list true rs, .list true ss] (.struct .path [.list true ns, .list true rs, .list true ss'])
  | point (k : StructKind) (a : Val) (n : Int) (fs : List Val) : BuiltFrom (a :: fs) (.struct k (.int .int n :: fs))
  | date (fs : List Val) (d : Int) : BuiltFrom fs (.date d)
  | clock (fs : List Val) (d o : Int) : BuiltFrom fs (.clock d o)
  | localClock (fs : List Val) (d : Int) : BuiltFrom fs (.localClock d)
  | localTime (fs : List Val) (d o : Int) : BuiltFrom fs (.localTime d o)
  | time (fs : List Val) (s n o : Int) : BuiltFrom fs (.time s n o)
  | duration (fs : List Val) (d : Int) : BuiltFrom fs (.duration d)

theorem ite_cases {α : Type} {c : Prop} [Decidable c] {a b x : α} (h : (if c then a else b) = x) : (c ∧ a = x) ∨ (¬ c ∧ b = x) := by
  split at h
  · exact .inl ⟨by assumption, h⟩
  · exact .inr ⟨by assumption, h⟩

theorem structOf_builtFrom {env : Env} {ver : Ver} {sig : UInt8} {fs : List Val} {v : Val} (h : structOf env ver sig fs = some v) :
    BuiltFrom fs v := by
  unfold structOf at h
  replace h := ite_cases h
  rcases h with ⟨-, h⟩ | ⟨-, h⟩
  · split at h
    · split at h <;> first | (simp only [Option.some.injEq] at h; subst h; constructor) | cases h
    · cases h
  replace h := ite_cases h
  rcases h with ⟨-, h⟩ | ⟨-, h⟩
  · split at h <;> first | (simp only [Option.some.injEq] at h; subst h; constructor) | cases h
  replace h := ite_cases h
  rcases h with ⟨-, h⟩ | ⟨-, h⟩
  · split at h <;> first | (simp only [Option.some.injEq] at h; subst h; constructor) | cases h
  replace h := ite_cases h
  rcases h with ⟨-, h⟩ | ⟨-, h⟩
  · split at h
    · split at h
      · simp only [Option.map_eq_some_iff] at h
        obtain ⟨ss', h1, rfl⟩ := h
        obtain ⟨h2, h3⟩ := toInts_inv h1
        exact .path _ _ _ _ h2 h3
      · cases h
    · cases h
  replace h := ite_cases h
  rcases h with ⟨-, h⟩ | ⟨-, h⟩
  · split at h <;> first | (simp only [Option.some.injEq] at h; subst h; constructor) | cases h
  replace h := ite_cases h
  rcases h with ⟨-, h⟩ | ⟨-, h⟩
  · split at h <;> first | (simp only [Option.some.injEq] at h; subst h; constructor) | cases h
  replace h := ite_cases h
  rcases h with ⟨-, h⟩ | ⟨-, h⟩
  · split at h <;> first | (simp only [Option.some.injEq] at h; subst h; constructor) | cases h
  replace h := ite_cases h
  rcases h with ⟨-, h⟩ | ⟨-, h⟩
  · split at h
    · rename_i hh; simp only [List.isEmpty_iff] at hh; subst hh; simp only [Option.some.injEq] at h; subst h; constructor
    · cases h
  replace h := ite_cases h
  rcases h with ⟨-, h⟩ | ⟨-, h⟩
  · split at h
    · rename_i hh; simp only [List.isEmpty_iff] at hh; subst hh; simp only [Option.some.injEq] at h; subst h; constructor
    · cases h
  replace h := ite_cases h
  rcases h with ⟨-, h⟩ | ⟨-, h⟩
  · split at h
    · rename_i hh; simp only [List.isEmpty_iff] at hh; subst hh; simp only [Option.some.injEq] at h; subst h; constructor
    · cases h
  replace h := ite_cases h
  rcases h with ⟨-, h⟩ | ⟨-, h⟩
  · split at h
    · rename_i hh; simp only [List.isEmpty_iff] at hh; subst hh; simp only [Option.some.injEq] at h; subst h; constructor
    · cases h
  replace h := ite_cases h
  rcases h with ⟨-, h⟩ | ⟨-, h⟩
  · cases h
  replace h := ite_cases h
  rcases h with ⟨-, h⟩ | ⟨-, h⟩
  · split at h <;> first | (simp only [Option.some.injEq] at h; subst h; constructor) | cases h
  replace h := ite_cases h
  rcases h with ⟨-, h⟩ | ⟨-, h⟩
  · split at h <;> first | (simp only [Option.some.injEq] at h; subst h; constructor) | cases h
  replace h := ite_cases h
  rcases h with ⟨-, h⟩ | ⟨-, h⟩
  · split at h <;> first | (simp only [Option.some.injEq] at h; subst h; constructor) | cases h
  replace h := ite_cases h
  rcases h with ⟨-, h⟩ | ⟨-, h⟩
  · split at h <;> first | (simp only [Option.some.injEq] at h; subst h; constructor) | cases h
  replace h := ite_cases h
  rcases h with ⟨-, h⟩ | ⟨-, h⟩
  · split at h <;> first | (simp only [Option.some.injEq] at h; subst h; constructor) | cases h
  replace h := ite_cases h
  rcases h with ⟨-, h⟩ | ⟨-, h⟩
  · split at h <;> first | (simp only [Option.some.injEq] at h; subst h; constructor) | cases h
  replace h := ite_cases h
  rcases h with ⟨-, h⟩ | ⟨-, h⟩
  · split at h
    · split at h
      · simp only [Option.some.injEq] at h; subst h; constructor
      · cases h
    · cases h
  replace h := ite_cases h
  rcases h with ⟨-, h⟩ | ⟨-, h⟩
  · split at h
    · rw [Option.bind_eq_some_iff] at h
      obtain ⟨off, -, h⟩ := h
      unfold zonedTime at h
      simp only at h
      split at h
      · simp only [Option.some.injEq] at h; subst h; constructor
      · cases h
    · cases h
  cases h

theorem decodeStruct_builtFrom (env : Env) (ver : Ver) {dec : Dec Val} {b : Bytes} {v : Val} {r : Bytes}
    (h : decodeStruct env ver dec b = .ok (v, r)) :
    ∃ sig b' fs, b = sig :: b' ∧ decodeN dec fs.length b' = .ok (fs, r) ∧ BuiltFrom fs v := by
  obtain ⟨sig, b', fs, h1, h2, h3⟩ := decodeStruct_inv env ver h
  refine ⟨sig, b', fs, h1, h2, ?_⟩
  rcases h3 with h3 | ⟨s, n, o, rfl⟩ | ⟨d, rfl⟩
  · exact structOf_builtFrom h3
  · exact .time _ _ _ _
  · exact .duration _ _

end Verif

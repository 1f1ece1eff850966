/-
C76  The error of a failed request shows the server's code and message.
C78  Result timings.
-/
import Verif.Props.C18
import Verif.Model.Protocol
import Verif.Proofs.ValEq
namespace Verif
open Spec

/-- What is shown for an entry that should be a string. -/
def Spec.shown (bad : String) : Option PS → Bytes
  | none => ascii "none"
  | some (.str s) => s
  | some _ => ascii bad

/-- Strings and integers. -/
def isScalar : Val → Bool
  | .str _ => true
  | .int _ _ => true
  | _ => false

theorem notScalar_ite {p : Prop} [Decidable p] {a b : Option Val} (ha : ∀ v, a = some v → isScalar v = false) (hb : ∀ v, b = some v → isScalar v = false) :
    ∀ v, (if p then a else b) = some v → isScalar v = false := by
  intro v h
  by_cases hp : p
  · rw [if_pos hp] at h; exact ha v h
  · rw [if_neg hp] at h; exact hb v h

theorem structOf_not_scalar {env : Env} {ver : Ver} {sig : UInt8} {vs : List Val} : ∀ v, structOf env ver sig vs = some v → isScalar v = false := by
  unfold structOf
  repeat' (refine notScalar_ite ?_ ?_)
  all_goals
    intro v h
    first
      | (cases h; done)
      | (cases h; rfl)
      | (split at h <;> first | (cases h; done) | (cases h; rfl) |
          (split at h <;> first | (cases h; done) | (cases h; rfl) | (rw [Option.map_eq_some_iff] at h; obtain ⟨_, _, rfl⟩ := h; rfl)) |
          (rw [Option.bind_eq_some_iff] at h; obtain ⟨_, _, h⟩ := h; unfold zonedTime at h; simp only at h; split at h <;> cases h; rfl))

/-- A structure, list or map is never a string or an integer. -/
theorem interp_scalar {env : Env} {ver : Ver} {t : PS} {v : Val} (h : interp env ver t = some v) :
    (∀ s, v = .str s ↔ t = .str s) ∧ (∀ n, v = .int .int64 n ↔ t = .int n) := by
  cases t with
  | str s' => simp only [interp, Option.some.injEq] at h; subst h; simp
  | int n => simp only [interp, Option.some.injEq] at h; subst h; simp
  | null => simp only [interp, Option.some.injEq] at h; subst h; simp
  | bool b => simp only [interp, Option.some.injEq] at h; subst h; simp
  | float w => simp only [interp, Option.some.injEq] at h; subst h; simp
  | list ts => simp only [interp, Option.map_eq_some_iff] at h; obtain ⟨_, _, rfl⟩ := h; simp
  | map es => simp only [interp, Option.map_eq_some_iff] at h; obtain ⟨_, _, rfl⟩ := h; simp
  | struct sig fs =>
    simp only [interp, Option.bind_eq_some_iff] at h
    obtain ⟨vs, _, h⟩ := h
    have := structOf_not_scalar _ h
    refine ⟨fun s => ⟨?_, fun h => by cases h⟩, fun n => ⟨?_, fun h => by cases h⟩⟩ <;> rintro rfl <;> cases this

theorem interpEntries_all (env : Env) (ver : Ver) : (es : List (Bytes × PS)) → (acc m : Entries) → interpEntries env ver es acc = some m →
    ∀ e ∈ es, (interp env ver e.2).isSome = true
  | [], _, _, _, _, he => absurd he List.not_mem_nil
  | (k, t) :: es, acc, m, h, e, he => by
    simp only [interpEntries, Option.bind_eq_some_iff] at h
    obtain ⟨v, h1, h2⟩ := h
    rcases List.mem_cons.mp he with rfl | he
    · show (interp env ver t).isSome = true
      rw [h1]; rfl
    · exact interpEntries_all env ver es _ m h2 e he

theorem lastFor_mem {k : Bytes} {t : PS} : {es : List (Bytes × PS)} → lastFor k es = some t → (k, t) ∈ es
  | [], h => by cases h
  | (k', t') :: es, h => by
    unfold lastFor at h
    split at h
    · next h' => cases h; exact List.mem_cons_of_mem _ (lastFor_mem h')
    · split at h
      · next hk => cases h; subst hk; exact List.mem_cons_self ..
      · cases h

/-- C76: for every FAILURE message of a server, with any metadata whatsoever: `GetCode` and `GetMessage` return the strings sent under `code` and `message` (the last
one, should a key be repeated), `none` if there is no such entry, and a fixed text if it is not a string; `Error` shows both. -/
theorem C76_shown (env : Env) (ver : Ver) (m : List (Bytes × PS)) (md : Entries) (h : interpEntries env ver m [] = some md) :
    failureCode md = Spec.shown "failed to parse code string" (lastFor (ascii "code") m) ∧
    failureMessage md = Spec.shown "failed to parse message to string" (lastFor (ascii "message") m) ∧
    failureError md = ascii "code: [" ++ Spec.shown "failed to parse code string" (lastFor (ascii "code") m) ++ ascii "]; message: [" ++
      Spec.shown "failed to parse message to string" (lastFor (ascii "message") m) ++ ascii "]" := by
  have key : ∀ k bad, (match mapGet md k with
      | none => ascii "none"
      | some (.str s) => s
      | some _ => ascii bad) = Spec.shown bad (lastFor k m) := by
    intro k bad
    have hg := interpEntries_get env ver m [] md h k
    cases hl : lastFor k m with
    | none => rw [hl] at hg; rw [hg]; rfl
    | some t =>
      rw [hl] at hg
      dsimp only at hg
      rw [hg]
      cases hi : interp env ver t with
      | none =>
        have := interpEntries_all env ver m [] md h _ (lastFor_mem hl)
        rw [hi] at this
        cases this
      | some v =>
        obtain ⟨hs, _⟩ := interp_scalar hi
        cases v with
        | str s => rw [(hs s).mp rfl]; rfl
        | _ =>
          have : ∀ s, t ≠ .str s := fun s e => by cases (hs s).mpr e
          cases t <;> first | rfl | exact absurd rfl (this _)
  have h1 := key (ascii "code") "failed to parse code string"
  have h2 := key (ascii "message") "failed to parse message to string"
  refine ⟨h1, h2, ?_⟩
  unfold failureError
  rw [show failureCode md = _ from h1, show failureMessage md = _ from h2]

example : failureError [(ascii "code", .str (ascii "Neo.X")), (ascii "message", .str (ascii "no"))] = ascii "code: [Neo.X]; message: [no]" := by decide +kernel

/-! ### C78 -/

/-- The keys under which a server reports how long a result took: until its first row (in answer to RUN) and until its end (in answer to PULL). -/
def Spec.timingKeys : Proto → Bytes × Bytes
  | .v1 | .v2 => (ascii "result_available_after", ascii "result_consumed_after")
  | .v3 | .v4 => (ascii "t_first", ascii "t_last")

/-- The full claim: whatever time the server reports, `GetAvailableAfter` returns it, and -1 if it reports none. -/
def C78_statement : Prop := ∀ (env : Env) (p : Proto) (m : List (Bytes × PS)) (md : Entries), interpEntries env p.codec m [] = some md →
  getAvailableAfter md = match lastFor (Spec.timingKeys p).1 m with
    | some (.int n) => n
    | _ => -1

/-- `GetAvailableAfter` for all metadata of a server. -/
theorem getAvailableAfter_wire (env : Env) (ver : Ver) (m : List (Bytes × PS)) (md : Entries) (h : interpEntries env ver m [] = some md) :
    getAvailableAfter md = match lastFor (ascii "result_available_after") m with
      | some (.int n) => n
      | _ => -1 := by
  have hg := interpEntries_get env ver m [] md h (ascii "result_available_after")
  unfold getAvailableAfter
  cases hl : lastFor (ascii "result_available_after") m with
  | none => rw [hl] at hg; rw [hg]; rfl
  | some t =>
    rw [hl] at hg
    dsimp only at hg
    rw [hg]
    cases hi : interp env ver t with
    | none =>
      have := interpEntries_all env ver m [] md h _ (lastFor_mem hl)
      rw [hi] at this
      cases this
    | some v =>
      obtain ⟨_, hn⟩ := interp_scalar hi
      by_cases hx : ∃ n, v = .int .int64 n
      · obtain ⟨n, rfl⟩ := hx
        rw [(hn n).mp rfl]
      · have h1 : ∀ n, t ≠ .int n := fun n e => hx ⟨n, (hn n).mpr e⟩
        have h2 : ∀ n, v ≠ .int .int64 n := fun n e => hx ⟨n, e⟩
        split
        · next n he => exact absurd (Option.some.inj he) (h2 n)
        · split
          · next n he => exact absurd (Option.some.inj he) (h1 n)
          · rfl

/-- C78 for versions 1 and 2. -/
theorem C78_available_partial (env : Env) (p : Proto) (hp : p = .v1 ∨ p = .v2) (m : List (Bytes × PS)) (md : Entries)
    (h : interpEntries env p.codec m [] = some md) :
    getAvailableAfter md = match lastFor (Spec.timingKeys p).1 m with
      | some (.int n) => n
      | _ => -1 := by
  rcases hp with rfl | rfl
  · exact getAvailableAfter_wire env _ m md h
  · exact getAvailableAfter_wire env _ m md h

/-- The keys that the protocol versions name (`GetResultAvailableAfterKey`, `GetResultConsumedAfterKey`) do lead to the reported times, in every version. -/
theorem C78_keys (env : Env) (p : Proto) (m : List (Bytes × PS)) (md : Entries) (n : Int) (h : interpEntries env p.codec m [] = some md) :
    (lastFor (Spec.timingKeys p).1 m = some (.int n) → mapGet md p.availableAfterKey = some (.int .int64 n)) ∧
    (lastFor (Spec.timingKeys p).2 m = some (.int n) → mapGet md p.consumedAfterKey = some (.int .int64 n)) := by
  have h1 : p.availableAfterKey = (Spec.timingKeys p).1 := by cases p <;> rfl
  have h2 : p.consumedAfterKey = (Spec.timingKeys p).2 := by cases p <;> rfl
  rw [h1, h2]
  constructor <;> intro hl
  · rw [interpEntries_get env _ m [] md h, hl]; rfl
  · rw [interpEntries_get env _ m [] md h, hl]; rfl

/-- False: `GetAvailableAfter` knows only the key of versions 1 and 2.  A version 4 server reports 7 ms, and -1 is returned. -/
theorem C78_refuted : ¬ C78_statement := by
  intro h
  have := h env0 .v4 [(ascii "t_first", .int 7)] [(ascii "t_first", .int .int64 7)] rfl
  revert this
  decide +kernel

example : getAvailableAfter [(ascii "fields", .list true []), (ascii "result_available_after", .int .int64 3)] = 3 := by decide +kernel

end Verif

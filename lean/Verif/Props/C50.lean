/-
C50: conflicting options are rejected.  C51: `NewClient` validates its configuration.
-/
import Verif.Model.Client
namespace Verif

/-- A connection string is given. -/
def Spec.GivesString (opts : List (Option ClientOpt)) : Prop := ∃ s, some (.connectionString s) ∈ opts
/-- A host and port are given. -/
def Spec.GivesHost (opts : List (Option ClientOpt)) : Prop := ∃ h p, some (.hostPort h p) ∈ opts

/-- The full claim. -/
def C50_statement : Prop :=
  ∀ semi opts, Spec.GivesString opts → Spec.GivesHost opts → ∃ e, newClient semi opts = .error e

/-- Given with nothing in it: an empty connection string, or an empty host with port 0. -/
def Spec.Blank (opts : List (Option ClientOpt)) : Prop := some (.connectionString []) ∈ opts ∨ some (.hostPort [] 0) ∈ opts

theorem applyOpts_string {c : Client} {opts : List (Option ClientOpt)} (hc : c.connStr ≠ []) (hb : some (.connectionString []) ∉ opts)
    (h : Spec.GivesHost opts) : ∃ m, applyOpts c opts = .error (errConfiguration.wrap m) := by
  induction opts generalizing c with
  | nil => obtain ⟨_, _, h⟩ := h; cases h
  | cons o os ih =>
    have hb' : some (.connectionString []) ∉ os := fun hm => hb (List.mem_cons_of_mem _ hm)
    match o with
    | none => exact ⟨_, rfl⟩
    | some o =>
      unfold applyOpts
      cases ho : o.apply c with
      | error e => exact ⟨_, rfl⟩
      | ok c' =>
        dsimp only
        have hc' : c'.connStr ≠ [] := by
          cases o <;> simp only [ClientOpt.apply] at ho
          case connectionString s =>
            split at ho
            · cases ho
            · cases ho
              intro e
              exact hb (by rw [show s = [] from e]; exact List.mem_cons_self ..)
          all_goals (first | (cases ho; exact hc) | (split at ho <;> cases ho <;> exact hc))
        have hh : Spec.GivesHost os := by
          obtain ⟨h', p, hm⟩ := h
          rcases List.mem_cons.mp hm with e | hm
          · cases e
            simp only [ClientOpt.apply, if_pos hc] at ho
            cases ho
          · exact ⟨h', p, hm⟩
        exact ih hc' hb' hh

theorem applyOpts_host {c : Client} {opts : List (Option ClientOpt)} (hc : c.host ≠ [] ∨ c.port ≠ 0) (hb : some (.hostPort [] 0) ∉ opts)
    (h : Spec.GivesString opts) : ∃ m, applyOpts c opts = .error (errConfiguration.wrap m) := by
  induction opts generalizing c with
  | nil => obtain ⟨_, h⟩ := h; cases h
  | cons o os ih =>
    have hb' : some (.hostPort [] 0) ∉ os := fun hm => hb (List.mem_cons_of_mem _ hm)
    match o with
    | none => exact ⟨_, rfl⟩
    | some o =>
      unfold applyOpts
      cases ho : o.apply c with
      | error e => exact ⟨_, rfl⟩
      | ok c' =>
        dsimp only
        have hc' : c'.host ≠ [] ∨ c'.port ≠ 0 := by
          cases o <;> simp only [ClientOpt.apply] at ho
          case hostPort h0 p =>
            split at ho
            · cases ho
            · cases ho
              by_cases e1 : h0 = []
              · by_cases e2 : p = 0
                · exact absurd (by rw [e1, e2]; exact List.mem_cons_self ..) hb
                · exact .inr e2
              · exact .inl e1
          all_goals (first | (cases ho; exact hc) | (split at ho <;> cases ho <;> exact hc))
        have hh : Spec.GivesString os := by
          obtain ⟨s, hm⟩ := h
          rcases List.mem_cons.mp hm with e | hm
          · cases e
            simp only [ClientOpt.apply, if_pos hc] at ho
            cases ho
          · exact ⟨s, hm⟩
        exact ih hc' hb' hh

theorem applyOpts_conflict {c : Client} {opts : List (Option ClientOpt)} (hb : ¬ Spec.Blank opts) (hs : Spec.GivesString opts) (hh : Spec.GivesHost opts) :
    ∃ m, applyOpts c opts = .error (errConfiguration.wrap m) := by
  induction opts generalizing c with
  | nil => obtain ⟨_, h⟩ := hs; cases h
  | cons o os ih =>
    have hb1 : some (.connectionString []) ∉ os := fun hm => hb (.inl (List.mem_cons_of_mem _ hm))
    have hb2 : some (.hostPort [] 0) ∉ os := fun hm => hb (.inr (List.mem_cons_of_mem _ hm))
    match o with
    | none => exact ⟨_, rfl⟩
    | some o =>
      unfold applyOpts
      cases ho : o.apply c with
      | error e => exact ⟨_, rfl⟩
      | ok c' =>
        dsimp only
        obtain ⟨s, hs⟩ := hs
        obtain ⟨h, p, hh⟩ := hh
        rcases List.mem_cons.mp hs with e | hs'
        · cases e
          rcases List.mem_cons.mp hh with e | hh
          · cases e
          · refine applyOpts_string ?_ hb1 ⟨h, p, hh⟩
            simp only [ClientOpt.apply] at ho
            split at ho
            · cases ho
            · cases ho
              intro e
              exact hb (.inl (by rw [show s = [] from e]; exact List.mem_cons_self ..))
        · rcases List.mem_cons.mp hh with e | hh
          · cases e
            refine applyOpts_host ?_ hb2 ⟨s, hs'⟩
            simp only [ClientOpt.apply] at ho
            split at ho
            · cases ho
            · cases ho
              by_cases e1 : h = []
              · by_cases e2 : p = 0
                · exact absurd (.inr (by rw [e1, e2]; exact List.mem_cons_self ..)) hb
                · exact .inr e2
              · exact .inl e1
          · exact ih (fun h => h.elim hb1 hb2) ⟨s, hs'⟩ ⟨h, p, hh⟩

/-- Partial: unless an empty connection string or an empty host with port 0 is among the options, giving both always fails, with a configuration error.  Missing: the blank options, for
which the claim is false (`C50_refuted`). -/
theorem C50_conflict_partial (semi : Bool) (opts : List (Option ClientOpt)) (hb : ¬ Spec.Blank opts) (hs : Spec.GivesString opts)
    (hh : Spec.GivesHost opts) : ∃ e, newClient semi opts = .error e ∧ e.innerMost = errConfiguration := by
  obtain ⟨m, hm⟩ := applyOpts_conflict (c := {}) hb hs hh
  refine ⟨errConfiguration.wrap m, ?_, rfl⟩
  unfold newClient
  rw [if_neg (by rintro rfl; obtain ⟨_, h⟩ := hs; cases h), hm]
  rfl

/-- Two conflicting options with two others in between. -/
example : ¬ Spec.Blank [some (.connectionString (ascii "bolt://u:p@h:1")), some .negotiation, some (.timeout 5), some (.hostPort (ascii "h") 1)] ∧
    Spec.GivesString [some (.connectionString (ascii "bolt://u:p@h:1")), some .negotiation, some (.timeout 5), some (.hostPort (ascii "h") 1)] ∧
    Spec.GivesHost [some (.connectionString (ascii "bolt://u:p@h:1")), some .negotiation, some (.timeout 5), some (.hostPort (ascii "h") 1)] := by
  refine ⟨?_, ⟨_, List.mem_cons_self ..⟩, ⟨ascii "h", 1, by simp⟩⟩
  unfold Spec.Blank
  simp [ascii]

/-- The result without the client. -/
def isOk {α : Type} : Except Err α → Bool
  | .ok _ => true
  | .error _ => false

/-- False: host and port that are taken back with a second `WithHostPort`, or an empty connection string before, do not conflict. -/
theorem C50_refuted : ¬ C50_statement ∧
    isOk (newClient true [some (.connectionString []), some (.hostPort (ascii "h") 1), some (.basicAuth (ascii "u") (ascii "p"))]) = true ∧
    isOk (newClient true [some (.hostPort (ascii "h") 1), some (.hostPort [] 0), some (.connectionString (ascii "bolt://u:p@h:1"))]) = true := by
  have h2 : isOk (newClient true [some (.connectionString []), some (.hostPort (ascii "h") 1), some (.basicAuth (ascii "u") (ascii "p"))]) = true := by decide +kernel
  refine ⟨fun h => ?_, h2, by decide +kernel⟩
  obtain ⟨e, he⟩ := h true [some (.connectionString []), some (.hostPort (ascii "h") 1), some (.basicAuth (ascii "u") (ascii "p"))]
    ⟨[], by simp⟩ ⟨ascii "h", 1, by simp⟩
  rw [he] at h2
  cases h2
end Verif

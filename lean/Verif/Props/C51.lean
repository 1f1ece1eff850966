/-
C51: `NewClient` validates its configuration.
-/
import Verif.Props.C50
namespace Verif

/-- The protocol version asked for is one the option accepts. -/
def Spec.VersionOk : ClientOpt → Prop
  | .greaterThan v => 1 ≤ v ∧ v ≤ 3
  | .lessThan v => 2 ≤ v ∧ v ≤ 4
  | .strict v => 1 ≤ v ∧ v ≤ 4
  | _ => True

/-- The host and port in effect: those of the last `WithHostPort`. -/
def Spec.lastHost (opts : List (Option ClientOpt)) : Option (Bytes × Int) :=
  (opts.filterMap fun o => match o with | some (.hostPort h p) => some (h, p) | _ => none).getLast?

/-- The credentials in effect: those of the last `WithBasicAuth`. -/
def Spec.lastAuth (opts : List (Option ClientOpt)) : Option (Bytes × Bytes) :=
  (opts.filterMap fun o => match o with | some (.basicAuth u p) => some (u, p) | _ => none).getLast?

theorem getLast?_cons {α : Type} (a : α) (l : List α) : (a :: l).getLast? = some (l.getLast?.getD a) := by
  cases h : l.getLast? with
  | none => rw [List.getLast?_eq_none_iff.mp h]; rfl
  | some b => rw [List.getLast?_cons, h]

theorem lastHost_cons (o : Option ClientOpt) (os : List (Option ClientOpt)) (d : Bytes × Int) :
    (Spec.lastHost (o :: os)).getD d = (Spec.lastHost os).getD (match o with | some (.hostPort h p) => (h, p) | _ => d) := by
  unfold Spec.lastHost
  rw [List.filterMap_cons]
  split
  · next h =>
    split at h
    · cases h
    · rfl
  · next b h =>
    split at h
    · cases h
      rw [getLast?_cons]
      rfl
    · cases h

theorem lastAuth_cons (o : Option ClientOpt) (os : List (Option ClientOpt)) (d : Bytes × Bytes) :
    (Spec.lastAuth (o :: os)).getD d = (Spec.lastAuth os).getD (match o with | some (.basicAuth u p) => (u, p) | _ => d) := by
  unfold Spec.lastAuth
  rw [List.filterMap_cons]
  split
  · next h =>
    split at h
    · cases h
    · rfl
  · next b h =>
    split at h
    · cases h
      rw [getLast?_cons]
      rfl
    · cases h

/-- What the options leave behind. -/
theorem applyOpts_ok {c c' : Client} {opts : List (Option ClientOpt)} (h : applyOpts c opts = .ok c') :
    none ∉ opts ∧ (∀ o, some o ∈ opts → Spec.VersionOk o) ∧ (c'.host, c'.port) = (Spec.lastHost opts).getD (c.host, c.port) ∧
      (c'.user, c'.password) = (Spec.lastAuth opts).getD (c.user, c.password) := by
  induction opts generalizing c with
  | nil => cases h; exact ⟨List.not_mem_nil, fun _ h => absurd h List.not_mem_nil, rfl, rfl⟩
  | cons o os ih =>
    match o with
    | none => cases h
    | some o =>
      unfold applyOpts at h
      cases ho : o.apply c with
      | error e => rw [ho] at h; cases h
      | ok c1 =>
        rw [ho] at h
        obtain ⟨h1, h2, h3, h4⟩ := ih h
        refine ⟨?_, ?_, ?_, ?_⟩
        · intro hm
          rcases List.mem_cons.mp hm with e | hm
          · cases e
          · exact h1 hm
        · intro o' hm
          rcases List.mem_cons.mp hm with e | hm
          · cases e
            cases o <;> simp only [ClientOpt.apply] at ho <;> simp only [Spec.VersionOk]
            all_goals (split at ho <;> first | (cases ho; done) | (clear ho; omega))
          · exact h2 o' hm
        · rw [h3, lastHost_cons]
          congr 1
          cases o <;> simp only [ClientOpt.apply] at ho
          all_goals (first | (cases ho; rfl) | (split at ho <;> cases ho <;> rfl))
        · rw [h4, lastAuth_cons]
          congr 1
          cases o <;> simp only [ClientOpt.apply] at ho
          all_goals (first | (cases ho; rfl) | (split at ho <;> cases ho <;> rfl))

/-- No connection string, no nil option and good versions: every option is accepted. -/
theorem applyOpts_accepts {c : Client} {opts : List (Option ClientOpt)} (hc : c.connStr = []) (hs : ¬ Spec.GivesString opts) (hn : none ∉ opts)
    (hv : ∀ o, some o ∈ opts → Spec.VersionOk o) : ∃ c', applyOpts c opts = .ok c' ∧ c'.connStr = [] := by
  induction opts generalizing c with
  | nil => exact ⟨c, rfl, hc⟩
  | cons o os ih =>
    match o with
    | none => exact absurd (List.mem_cons_self ..) hn
    | some o =>
      have ho : ∃ c1, o.apply c = .ok c1 ∧ c1.connStr = [] := by
        have hvo := hv o (List.mem_cons_self ..)
        cases o <;> simp only [ClientOpt.apply, Spec.VersionOk] at hvo ⊢
        case connectionString s => exact absurd ⟨s, List.mem_cons_self ..⟩ hs
        case hostPort h p => exact ⟨_, if_neg (by simp [hc]), hc⟩
        case routing => exact ⟨_, if_neg (by simp [hc]), hc⟩
        case greaterThan v => exact ⟨_, if_neg (by omega), hc⟩
        case lessThan v => exact ⟨_, if_neg (by omega), hc⟩
        case strict v => exact ⟨_, if_neg (by omega), hc⟩
        all_goals exact ⟨_, rfl, hc⟩
      obtain ⟨c1, h1, h2⟩ := ho
      unfold applyOpts
      rw [h1]
      exact ih h2 (fun ⟨s, hm⟩ => hs ⟨s, List.mem_cons_of_mem _ hm⟩) (fun hm => hn (List.mem_cons_of_mem _ hm))
        fun o hm => hv o (List.mem_cons_of_mem _ hm)

/-- No options, a nil option, or an option with an unacceptable protocol version: failure, whatever else is given. -/
theorem C51_invalid (semi : Bool) (opts : List (Option ClientOpt)) (h : opts = [] ∨ none ∈ opts ∨ ∃ o, some o ∈ opts ∧ ¬ Spec.VersionOk o) :
    ∃ e, newClient semi opts = .error e ∧ e.innerMost = errConfiguration := by
  unfold newClient
  by_cases h0 : opts = []
  · rw [if_pos h0]; exact ⟨_, rfl, rfl⟩
  · rw [if_neg h0]
    have key : ∀ (l : List (Option ClientOpt)) (c : Client), (∃ c', applyOpts c l = .ok c') ∨ ∃ m, applyOpts c l = .error (errConfiguration.wrap m) := by
      intro l
      induction l with
      | nil => intro c; exact .inl ⟨c, rfl⟩
      | cons o os ih =>
        intro c
        match o with
        | none => exact .inr ⟨_, rfl⟩
        | some o =>
          unfold applyOpts
          cases o.apply c with
          | ok c' => exact ih c'
          | error e => exact .inr ⟨_, rfl⟩
    rcases key opts {} with ⟨c', hc'⟩ | ⟨m, hm⟩
    · obtain ⟨h1, h2, _, _⟩ := applyOpts_ok hc'
      rcases h with h | h | ⟨o, ho, hv⟩
      · exact absurd h h0
      · exact absurd h h1
      · exact absurd (h2 o ho) hv
    · rw [hm]; exact ⟨_, rfl, rfl⟩

/-- Without a connection string, `NewClient` succeeds exactly if there are options, none is nil, the versions are acceptable, the host and port in effect are a non-empty name and a positive
number, and the user in effect is not empty.  The client then has that host, port and user. -/
theorem C51_succeeds_iff (semi : Bool) (opts : List (Option ClientOpt)) (hs : ¬ Spec.GivesString opts) :
    ((∃ c, newClient semi opts = .ok c) ↔
      none ∉ opts ∧ (∀ o, some o ∈ opts → Spec.VersionOk o) ∧ (∃ h p, Spec.lastHost opts = some (h, p) ∧ h ≠ [] ∧ 0 < p) ∧
        ∃ u p, Spec.lastAuth opts = some (u, p) ∧ u ≠ []) ∧
    ∀ c, newClient semi opts = .ok c → Spec.lastHost opts = some (c.host, c.port) ∧ Spec.lastAuth opts = some (c.user, c.password) := by
  have main : ∀ c, newClient semi opts = .ok c → none ∉ opts ∧ (∀ o, some o ∈ opts → Spec.VersionOk o) ∧
      Spec.lastHost opts = some (c.host, c.port) ∧ c.host ≠ [] ∧ 0 < c.port ∧ Spec.lastAuth opts = some (c.user, c.password) ∧ c.user ≠ [] := by
    intro c h
    unfold newClient at h
    split at h
    · cases h
    · cases ha : applyOpts {} opts with
      | error e => rw [ha] at h; cases h
      | ok c' =>
        rw [ha] at h
        obtain ⟨h1, h2, h3, h4⟩ := applyOpts_ok ha
        obtain ⟨c'', ha', hstr⟩ := applyOpts_accepts (c := {}) rfl hs h1 h2
        rw [ha] at ha'
        cases ha'
        change (if c'.connStr = [] then c'.withDefaults.build else _) = _ at h
        rw [if_pos hstr] at h
        unfold Client.build at h
        split at h
        · cases h
        · next hh =>
          split at h
          · cases h
          · next hp =>
            split at h
            · cases h
            · next hu =>
              cases h
              refine ⟨h1, h2, ?_, hh, by simpa using hp, ?_, hu⟩
              · change Spec.lastHost opts = some (c'.host, c'.port)
                cases hl : Spec.lastHost opts with
                | none => rw [hl] at h3; exact absurd (congrArg Prod.fst h3) hh
                | some x => rw [hl] at h3; rw [h3]; rfl
              · change Spec.lastAuth opts = some (c'.user, c'.password)
                cases hl : Spec.lastAuth opts with
                | none => rw [hl] at h4; exact absurd (congrArg Prod.fst h4) hu
                | some x => rw [hl] at h4; rw [h4]; rfl
  refine ⟨⟨fun ⟨c, h⟩ => ?_, fun ⟨h1, h2, ⟨h, p, hl, hh, hp⟩, u, pw, hl', hu⟩ => ?_⟩, fun c h => ?_⟩
  · obtain ⟨h1, h2, h3, h4, h5, h6, h7⟩ := main c h
    exact ⟨h1, h2, ⟨_, _, h3, h4, h5⟩, _, _, h6, h7⟩
  · obtain ⟨c', ha, hstr⟩ := applyOpts_accepts (c := {}) rfl hs h1 h2
    obtain ⟨_, _, h3, h4⟩ := applyOpts_ok ha
    rw [hl] at h3
    rw [hl'] at h4
    simp only [Option.getD_some, Prod.mk.injEq] at h3 h4
    unfold newClient
    have h0 : opts ≠ [] := by rintro rfl; cases hl
    rw [if_neg h0, ha]
    change ∃ c, (if c'.connStr = [] then c'.withDefaults.build else _) = .ok c
    rw [if_pos hstr]
    unfold Client.build
    have e1 : c'.withDefaults.host = h := h3.1
    have e2 : c'.withDefaults.port = p := h3.2
    have e3 : c'.withDefaults.user = u := h4.1
    rw [e1, e2, e3, if_neg hh, if_neg (by omega), if_neg hu]
    exact ⟨_, rfl⟩
  · obtain ⟨_, _, h3, _, _, h6, _⟩ := main c h
    exact ⟨h3, h6⟩

example : ¬ Spec.GivesString [some (.hostPort (ascii "a") 0), some (.strict 4), some (.basicAuth (ascii "u") []), some (.hostPort (ascii "h") 7687)] ∧
    isOk (newClient true [some (.hostPort (ascii "a") 0), some (.strict 4), some (.basicAuth (ascii "u") []), some (.hostPort (ascii "h") 7687)]) = true := by
  refine ⟨?_, by decide +kernel⟩
  rintro ⟨s, h⟩
  simp at h

example : ∃ o, some o ∈ [some (ClientOpt.connectionString (ascii "bolt://u:p@h:1")), some (.strict 5)] ∧ ¬ Spec.VersionOk o :=
  ⟨.strict 5, by simp, by simp [Spec.VersionOk]⟩

end Verif

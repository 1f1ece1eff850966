/-
C56: the cluster overview is taken over completely or not at all.
-/
import Verif.Model.Handler
import Verif.Proofs.ValEq
namespace Verif
namespace Spec

/-- `a` contains the substring `t`. -/
def Within (t a : Bytes) : Prop := ∃ u v, a = u ++ t ++ v

/-- Lower-casing: ASCII capitals, the dotted capital I (U+0130) and the Kelvin sign (U+212A) become ASCII letters, other bytes do not matter. -/
inductive Lower : Bytes → Bytes → Prop where
  | nil : Lower [] []
  | upper {b s t} : 0x41 ≤ b → b ≤ 0x5A → Lower s t → Lower (b :: s) ((b + 0x20) :: t)
  | same {b s t} : ¬(0x41 ≤ b ∧ b ≤ 0x5A) → ¬(b = 0xC4 ∧ s.head? = some 0xB0) → ¬(b = 0xE2 ∧ s.take 2 = [0x84, 0xAA]) → Lower s t → Lower (b :: s) (b :: t)
  | dotted {s t} : Lower s t → Lower (0xC4 :: 0xB0 :: s) (0x69 :: t)
  | kelvin {s t} : Lower s t → Lower (0xE2 :: 0x84 :: 0xAA :: s) (0x6B :: t)

/-- The three roles of cluster members. -/
inductive Role where
  | leader | follower | readReplica

/-- The name of a role, in any capitalisation. -/
def Role.named (s : Bytes) : Role → Prop
  | .leader => Lower s (ascii "leader")
  | .follower => Lower s (ascii "follower")
  | .readReplica => Lower s (ascii "read_replica")

/-- What a row of the overview says: id, addresses and role of a member.  Protocol 4 reports the role per database (the one for "system" counts), earlier protocols have a column for it,
and columns for groups and database. -/
inductive Row (version : Nat) : List Val → Bytes → List Bytes → Bytes → Prop where
  | v4 {id addrs dbs groups role} : version = 4 → mapGet dbs (ascii "system") = some (.str role) →
      Row version [.str id, .list true (addrs.map .str), .map dbs, groups] id addrs role
  | v3 {id addrs role db} {groups : List Bytes} : version ≠ 4 →
      Row version [.str id, .list true (addrs.map .str), .str role, .list true (groups.map .str), .str db] id addrs role

/-- The address used for a member: the last one that mentions "bolt". -/
def Address (addrs : List Bytes) (a : Bytes) : Prop :=
  ∃ pre post, addrs = pre ++ a :: post ∧ Within (ascii "bolt") a ∧ ∀ b ∈ post, ¬ Within (ascii "bolt") b

/-- A row is understood: it describes a member without bolt address, which is ignored, or a member with a known role. -/
inductive RowsMean (version : Nat) : List Val → Option (Role × NodeConfig) → Prop where
  | ignored {row id addrs role} : Row version row id addrs role → (∀ a ∈ addrs, ¬ Within (ascii "bolt") a) → RowsMean version row none
  | leader {row id addrs role a} : Row version row id addrs role → Address addrs a → Role.leader.named role →
      RowsMean version row (some (.leader, ⟨id, addrs, a, writeMode, .leader⟩))
  | follower {row id addrs role a} : Row version row id addrs role → Address addrs a → Role.follower.named role →
      RowsMean version row (some (.follower, ⟨id, addrs, a, readMode, .follower⟩))
  | readReplica {row id addrs role a} : Row version row id addrs role → Address addrs a → Role.readReplica.named role →
      RowsMean version row (some (.readReplica, ⟨id, addrs, a, readMode, .readReplica⟩))

/-- Two lists are related element by element. -/
inductive All2 {α β : Type} (R : α → β → Prop) : List α → List β → Prop where
  | nil : All2 R [] []
  | cons {a b as bs} : R a b → All2 R as bs → All2 R (a :: as) (b :: bs)

/-- The members with a given role, in order. -/
def having (p : Role → Bool) (ms : List (Option (Role × NodeConfig))) : List NodeConfig :=
  ms.filterMap fun
    | some (r, n) => if p r then some n else none
    | none => none

/-- The cluster described by the rows. -/
def cluster (ms : List (Option (Role × NodeConfig))) : Handler :=
  ⟨having (· matches .leader) ms, having (· matches .follower) ms, having (· matches .readReplica) ms⟩

end Spec

theorem contains_within (t : Bytes) : ∀ a : Bytes, Url.contains t a = true ↔ Spec.Within t a
  | [] => by
    simp only [Url.contains, List.isEmpty_iff]
    constructor
    · rintro rfl; exact ⟨[], [], rfl⟩
    · rintro ⟨u, v, h⟩
      cases u <;> cases t <;> simp_all
  | x :: xs => by
    simp only [Url.contains, Bool.or_eq_true, List.isPrefixOf_iff_prefix, contains_within t xs]
    constructor
    · rintro (⟨v, h⟩ | ⟨u, v, h⟩)
      · exact ⟨[], v, by simpa using h.symm⟩
      · exact ⟨x :: u, v, by simp [h]⟩
    · rintro ⟨u, v, h⟩
      cases u with
      | nil => exact .inl ⟨v, by simpa using h.symm⟩
      | cons y u => simp only [List.cons_append, List.cons.injEq] at h; exact .inr ⟨u, v, h.2⟩

theorem roleLower_lower (s : Bytes) : Spec.Lower s (roleLower s) := by
  induction s using roleLower.induct with
  | case1 => exact .nil
  | case2 s ih => exact .dotted ih
  | case3 s ih => exact .kelvin ih
  | case4 b s h1 h2 ih =>
    rw [roleLower.eq_4 b s h1 h2]
    by_cases hu : 0x41 ≤ b ∧ b ≤ 0x5A
    · rw [if_pos (by simpa [Url.isUpper] using hu)]; exact .upper hu.1 hu.2 ih
    · rw [if_neg (by simpa [Url.isUpper] using hu)]
      refine .same hu ?_ ?_ ih
      · rintro ⟨rfl, h⟩
        cases s with
        | nil => simp at h
        | cons c s => simp only [List.head?_cons, Option.some.injEq] at h; subst h; exact h1 _ rfl rfl
      · rintro ⟨rfl, h⟩
        match s, h with
        | c :: d :: s, h => simp only [List.take_succ_cons, List.take_zero, List.cons.injEq, and_true] at h; obtain ⟨rfl, rfl⟩ := h; exact h2 _ rfl rfl

theorem lower_unique {s t u : Bytes} (h : Spec.Lower s t) : Spec.Lower s u → t = u := by
  induction h generalizing u with
  | nil => intro h; cases h; rfl
  | @upper b s t h1 h2 _ ih =>
    intro h
    cases h with
    | upper _ _ h => rw [ih h]
    | same hn _ _ _ => exact absurd ⟨h1, h2⟩ hn
    | dotted h => exact absurd h2 (by decide)
    | kelvin h => exact absurd h2 (by decide)
  | @same b s t h1 h2 h3 _ ih =>
    intro h
    cases h with
    | upper ha hb _ => exact absurd ⟨ha, hb⟩ h1
    | same _ _ _ h => rw [ih h]
    | dotted h => exact absurd ⟨rfl, rfl⟩ h2
    | kelvin h => exact absurd ⟨rfl, rfl⟩ h3
  | dotted _ ih =>
    intro h
    cases h with
    | upper _ hb _ => exact absurd hb (by decide)
    | same _ h2 _ _ => exact absurd ⟨rfl, rfl⟩ h2
    | dotted h => rw [ih h]
  | kelvin _ ih =>
    intro h
    cases h with
    | upper _ hb _ => exact absurd hb (by decide)
    | same _ _ h3 _ => exact absurd ⟨rfl, rfl⟩ h3
    | kelvin h => rw [ih h]

theorem lower_iff (s t : Bytes) : Spec.Lower s t ↔ roleLower s = t :=
  ⟨fun h => lower_unique (roleLower_lower s) h, fun h => h ▸ roleLower_lower s⟩

theorem stringsOf_iff : ∀ (vs : List Val) (ss : List Bytes), stringsOf vs = .ok ss ↔ vs = ss.map .str
  | [], ss => by cases ss <;> simp [stringsOf]
  | v :: vs, ss => by
    cases v with
    | str s =>
      simp only [stringsOf, bind, Except.bind]
      cases h : stringsOf vs with
      | error e =>
        simp only [reduceCtorEq, false_iff]
        intro h'
        cases ss with
        | nil => simp at h'
        | cons t ss =>
          simp only [List.map_cons, List.cons.injEq] at h'
          have := (stringsOf_iff vs ss).2 h'.2
          rw [h] at this; exact absurd this (by simp)
      | ok ss' =>
        have := (stringsOf_iff vs ss').1 h
        subst this
        constructor
        · intro h'; cases h'; rfl
        · intro h'
          cases ss with
          | nil => simp at h'
          | cons t ss =>
            simp only [List.map_cons, List.cons.injEq, Val.str.injEq] at h'
            have := (stringsOf_iff _ ss).2 h'.2
            rw [h] at this
            cases this; rw [h'.1]
    | _ => simp only [stringsOf, reduceCtorEq, false_iff]; cases ss <;> simp

theorem convert_iff (v : Val) (ss : List Bytes) : convertInterfaceToStringArr v = .ok ss ↔ v = .list true (ss.map .str) := by
  cases v with
  | list b vs => cases b <;> simp [convertInterfaceToStringArr, stringsOf_iff]
  | _ => simp [convertInterfaceToStringArr]

theorem parseRowV4_iff (row : List Val) (id role : Bytes) (addrs : List Bytes) :
    parseRowV4 row = .ok (id, addrs, role) ↔ Spec.Row 4 row id addrs role := by
  constructor
  · intro h
    unfold parseRowV4 at h
    split at h
    · split at h
      · split at h
        · exact absurd h (by simp)
        · rename_i ha
          split at h
          · split at h
            · exact absurd h (by simp)
            · rename_i hm
              cases h
              rw [(convert_iff _ _).1 ha]
              exact .v4 rfl hm
            · exact absurd h (by simp)
          · exact absurd h (by simp)
      · exact absurd h (by simp)
    · exact absurd h (by simp)
  · rintro (⟨_, h⟩ | h)
    · simp only [parseRowV4, (convert_iff _ addrs).2 rfl, h]
    · exact absurd rfl h

theorem parseRowV3_iff (version : Nat) (hv : version ≠ 4) (row : List Val) (id role : Bytes) (addrs : List Bytes) :
    parseRowV3 row = .ok (id, addrs, role) ↔ Spec.Row version row id addrs role := by
  constructor
  · intro h
    unfold parseRowV3 at h
    split at h
    · split at h
      · split at h
        · exact absurd h (by simp)
        · rename_i ha
          split at h
          · split at h
            · exact absurd h (by simp)
            · rename_i hg
              split at h
              · cases h
                rw [(convert_iff _ _).1 ha, (convert_iff _ _).1 hg]
                exact .v3 hv
              · exact absurd h (by simp)
          · exact absurd h (by simp)
      · exact absurd h (by simp)
    · exact absurd h (by simp)
  · rintro (⟨h, _⟩ | _)
    · exact absurd h hv
    · rename_i groups db
      simp only [parseRowV3, (convert_iff _ addrs).2 rfl, (convert_iff _ groups).2 rfl]

theorem parseRow_iff (version : Nat) (row : List Val) (id role : Bytes) (addrs : List Bytes) :
    (if version = 4 then parseRowV4 row else parseRowV3 row) = .ok (id, addrs, role) ↔ Spec.Row version row id addrs role := by
  split
  · rename_i h; subst h; exact parseRowV4_iff row id role addrs
  · rename_i h; exact parseRowV3_iff version h row id role addrs

/-- The fold of `boltAddress`, started anywhere. -/
theorem boltAddress_fold : ∀ (addrs : List Bytes) (acc : Bytes),
    let r := addrs.foldl (fun acc str => if Url.contains (ascii "bolt") str then str else acc) acc
    Spec.Address addrs r ∨ ((∀ a ∈ addrs, ¬ Spec.Within (ascii "bolt") a) ∧ r = acc)
  | [], acc => .inr ⟨by simp, rfl⟩
  | a :: addrs, acc => by
    intro r
    have h := boltAddress_fold addrs (if Url.contains (ascii "bolt") a then a else acc)
    rcases h with ⟨pre, post, h1, h2, h3⟩ | ⟨h1, h2⟩
    · exact .inl ⟨a :: pre, post, by rw [List.cons_append]; exact congrArg _ h1, h2, h3⟩
    · by_cases hc : Url.contains (ascii "bolt") a = true
      · rw [if_pos hc] at h2
        refine .inl ⟨[], addrs, ?_, ?_, h1⟩
        · show a :: addrs = r :: addrs
          rw [show r = a from by rw [← h2]; simp [r, hc]]
        · rw [show r = a from by rw [← h2]; simp [r, hc]]; exact (contains_within _ _).1 hc
      · rw [if_neg hc] at h2
        refine .inr ⟨?_, by rw [← h2]; simp [r, hc]⟩
        intro b hb
        rcases List.mem_cons.1 hb with rfl | hb
        · exact fun hw => hc ((contains_within _ _).2 hw)
        · exact h1 b hb

theorem address_ne_nil {addrs : List Bytes} {a : Bytes} (h : Spec.Address addrs a) : a ≠ [] := by
  obtain ⟨_, _, _, ⟨u, v, h⟩, _⟩ := h
  subst h
  simp [ascii]

theorem address_unique {addrs : List Bytes} {a b : Bytes} (ha : Spec.Address addrs a) (hb : Spec.Address addrs b) : a = b := by
  obtain ⟨p, q, h1, h2, h3⟩ := ha
  obtain ⟨p', q', h1', h2', h3'⟩ := hb
  have h := h1.symm.trans h1'
  rcases List.append_eq_append_iff.1 h with ⟨as, e1, e2⟩ | ⟨as, e1, e2⟩
  · cases as with
    | nil => simp only [List.nil_append, List.cons.injEq] at e2; exact e2.1
    | cons x xs =>
      simp only [List.cons_append, List.cons.injEq] at e2
      exact absurd h2' (h3 b (by rw [e2.2]; simp))
  · cases as with
    | nil => simp only [List.nil_append, List.cons.injEq] at e2; exact e2.1.symm
    | cons x xs =>
      simp only [List.cons_append, List.cons.injEq] at e2
      exact absurd h2 (h3' a (by rw [e2.2]; simp))

theorem boltAddress_spec (addrs : List Bytes) :
    (boltAddress addrs = [] ∧ ∀ a ∈ addrs, ¬ Spec.Within (ascii "bolt") a) ∨ (boltAddress addrs ≠ [] ∧ Spec.Address addrs (boltAddress addrs)) := by
  rcases boltAddress_fold addrs [] with h | ⟨h1, h2⟩
  · exact .inr ⟨address_ne_nil h, h⟩
  · exact .inl ⟨h2, h1⟩

theorem boltAddress_nil {addrs : List Bytes} (h : ∀ a ∈ addrs, ¬ Spec.Within (ascii "bolt") a) : boltAddress addrs = [] := by
  rcases boltAddress_spec addrs with h' | ⟨_, p, q, h1, h2, _⟩
  · exact h'.1
  · exact absurd h2 (h _ (h1.symm.subst (motive := fun l => boltAddress addrs ∈ l) (by simp)))

theorem boltAddress_eq {addrs : List Bytes} {a : Bytes} (h : Spec.Address addrs a) : boltAddress addrs = a := by
  rcases boltAddress_spec addrs with h' | h'
  · obtain ⟨p, q, h1, h2, _⟩ := h
    exact absurd h2 (h'.2 _ (by rw [h1]; simp))
  · exact address_unique h'.2 h

/-- One round of the loop. -/
def addNode (acc : Handler) : Option (Spec.Role × NodeConfig) → Handler
  | none => acc
  | some (.leader, n) => { acc with leaders := acc.leaders ++ [n] }
  | some (.follower, n) => { acc with followers := acc.followers ++ [n] }
  | some (.readReplica, n) => { acc with readReplicas := acc.readReplicas ++ [n] }

theorem interpretRows_understood {version : Nat} {row : List Val} {m : Option (Spec.Role × NodeConfig)} (h : Spec.RowsMean version row m)
    (rows : List (List Val)) (acc : Handler) : interpretRows version (row :: rows) acc = interpretRows version rows (addNode acc m) := by
  cases h with
  | ignored hr hn =>
    rw [interpretRows, (parseRow_iff _ _ _ _ _).2 hr]
    simp only [boltAddress_nil hn, if_true, addNode]
  | @leader id addrs role a hr ha hl =>
    rw [interpretRows, (parseRow_iff _ _ _ _ _).2 hr]
    have hi : infoFromRoleString role = (.leader, writeMode) := by unfold infoFromRoleString; rw [if_pos ((lower_iff _ _).1 hl)]
    simp only [if_neg (address_ne_nil ha), hi, addNode, boltAddress_eq ha]
  | @follower id addrs role a hr ha hl =>
    rw [interpretRows, (parseRow_iff _ _ _ _ _).2 hr]
    have hl := (lower_iff _ _).1 hl
    have hi : infoFromRoleString role = (.follower, readMode) := by unfold infoFromRoleString; rw [if_neg (by rw [hl]; decide), if_pos hl]
    simp only [if_neg (address_ne_nil ha), hi, addNode, boltAddress_eq ha]
  | @readReplica id addrs role a hr ha hl =>
    rw [interpretRows, (parseRow_iff _ _ _ _ _).2 hr]
    have hl := (lower_iff _ _).1 hl
    have hi : infoFromRoleString role = (.readReplica, readMode) := by unfold infoFromRoleString; rw [if_neg (by rw [hl]; decide), if_neg (by rw [hl]; decide), if_pos hl]
    simp only [if_neg (address_ne_nil ha), hi, addNode, boltAddress_eq ha]

theorem interpretRows_not_understood {version : Nat} {row : List Val} (h : ∀ m, ¬ Spec.RowsMean version row m)
    (rows : List (List Val)) (acc : Handler) : ∃ e, interpretRows version (row :: rows) acc = .error e := by
  rw [interpretRows]
  cases hp : (if version = 4 then parseRowV4 row else parseRowV3 row) with
  | error e => exact ⟨e, rfl⟩
  | ok r =>
    obtain ⟨id, addrs, role⟩ := r
    have hr := (parseRow_iff _ _ _ _ _).1 hp
    rcases boltAddress_spec addrs with ⟨_, hb⟩ | ⟨hb, ha⟩
    · exact absurd (.ignored hr hb) (h none)
    · have h1 : roleLower role ≠ ascii "leader" := fun hl => h _ (.leader hr ha ((lower_iff _ _).2 hl))
      have h2 : roleLower role ≠ ascii "follower" := fun hl => h _ (.follower hr ha ((lower_iff _ _).2 hl))
      have h3 : roleLower role ≠ ascii "read_replica" := fun hl => h _ (.readReplica hr ha ((lower_iff _ _).2 hl))
      simp only [if_neg hb, infoFromRoleString, if_neg h1, if_neg h2, if_neg h3]
      exact ⟨_, rfl⟩

theorem having_cons (p : Spec.Role → Bool) (m : Option (Spec.Role × NodeConfig)) (ms : List (Option (Spec.Role × NodeConfig))) :
    Spec.having p (m :: ms) = Spec.having p [m] ++ Spec.having p ms := by
  unfold Spec.having
  cases m with
  | none => rfl
  | some x => obtain ⟨r, n⟩ := x; cases h : p r <;> simp [List.filterMap, h]

theorem interpretRows_all {version : Nat} : ∀ {rows : List (List Val)} {ms : List (Option (Spec.Role × NodeConfig))} (acc : Handler),
    Spec.All2 (Spec.RowsMean version) rows ms →
    interpretRows version rows acc = .ok ⟨acc.leaders ++ (Spec.cluster ms).leaders, acc.followers ++ (Spec.cluster ms).followers,
      acc.readReplicas ++ (Spec.cluster ms).readReplicas⟩
  | [], _, acc, .nil => by simp [interpretRows, Spec.cluster, Spec.having]
  | row :: rows, m :: ms, acc, .cons h hs => by
    rw [interpretRows_understood h, interpretRows_all _ hs]
    simp only [Spec.cluster]
    rw [having_cons _ m ms, having_cons (fun x => x matches .follower) m ms, having_cons (fun x => x matches .readReplica) m ms]
    cases m with
    | none => simp [addNode, Spec.having]
    | some x => obtain ⟨r, n⟩ := x; cases r <;> simp [addNode, Spec.having]

theorem interpretRows_stuck {version : Nat} : ∀ {rows : List (List Val)} (acc : Handler),
    (∃ row ∈ rows, ∀ m, ¬ Spec.RowsMean version row m) → ∃ e, interpretRows version rows acc = .error e
  | [], _, h => by obtain ⟨_, h, _⟩ := h; simp at h
  | row :: rows, acc, h => by
    by_cases hu : ∃ m, Spec.RowsMean version row m
    · obtain ⟨m, hm⟩ := hu
      rw [interpretRows_understood hm]
      obtain ⟨r, hr, hn⟩ := h
      rcases List.mem_cons.1 hr with rfl | hr
      · exact absurd hm (hn m)
      · exact interpretRows_stuck _ ⟨r, hr, hn⟩
    · exact interpretRows_not_understood (fun m hm => hu ⟨m, hm⟩) rows acc

/-- C56: if every row of the overview is understood, the known members become exactly the rows with a bolt address, by role and in server order. -/
theorem C56_taken_over (h : Handler) (version : Nat) (rows : List (List Val)) (ms : List (Option (Spec.Role × NodeConfig)))
    (hu : Spec.All2 (Spec.RowsMean version) rows ms) : h.refreshClusterInfo version (.ok rows) = (Spec.cluster ms, none) := by
  simp only [Handler.refreshClusterInfo, interpretRows_all _ hu, Handler.empty, List.nil_append]

/-- C56: if the overview could not be fetched, or one of its rows is not understood, there is an error and the known members stay as they were. -/
theorem C56_nothing (h : Handler) (version : Nat) (answer : Except Err (List (List Val)))
    (hn : (∃ e, answer = .error e) ∨ ∃ rows, answer = .ok rows ∧ ∃ row ∈ rows, ∀ m, ¬ Spec.RowsMean version row m) :
    ∃ e, h.refreshClusterInfo version answer = (h, some e) := by
  rcases hn with ⟨e, rfl⟩ | ⟨rows, rfl, hr⟩
  · exact ⟨e, rfl⟩
  · obtain ⟨e, he⟩ := interpretRows_stuck Handler.empty hr
    exact ⟨e, by simp only [Handler.refreshClusterInfo, he]⟩

/-- C56: the cases of `C56_taken_over` and `C56_nothing` are exhaustive. -/
theorem C56_cases (version : Nat) (answer : Except Err (List (List Val))) :
    (∃ e, answer = .error e) ∨ (∃ rows, answer = .ok rows ∧ ∃ row ∈ rows, ∀ m, ¬ Spec.RowsMean version row m) ∨
      ∃ rows ms, answer = .ok rows ∧ Spec.All2 (Spec.RowsMean version) rows ms := by
  cases answer with
  | error e => exact .inl ⟨e, rfl⟩
  | ok rows =>
    refine .inr ?_
    by_cases h : ∃ row ∈ rows, ∀ m, ¬ Spec.RowsMean version row m
    · exact .inl ⟨rows, rfl, h⟩
    · refine .inr ⟨rows, ?_⟩
      induction rows with
      | nil => exact ⟨[], rfl, .nil⟩
      | cons row rows ih =>
        obtain ⟨ms, _, hms⟩ := ih fun ⟨r, hr, hn⟩ => h ⟨r, List.mem_cons_of_mem _ hr, hn⟩
        have : ∃ m, Spec.RowsMean version row m := Classical.byContradiction fun hc => h ⟨row, by simp, fun m hm => hc ⟨m, hm⟩⟩
        obtain ⟨m, hm⟩ := this
        exact ⟨m :: ms, rfl, .cons hm hms⟩

namespace C56

/-- An overview in the format of protocol 4: a leader, a member that has only an http address, a follower whose role is written in capitals. -/
def rows : List (List Val) :=
  [[.str (ascii "a"), .list true [.str (ascii "http://a:1"), .str (ascii "bolt://a:2")], .map [(ascii "neo4j", .str (ascii "FOLLOWER")), (ascii "system", .str (ascii "LEADER"))], .nil],
   [.str (ascii "b"), .list true [.str (ascii "http://b:1")], .map [(ascii "system", .str (ascii "FOLLOWER"))], .nil],
   [.str (ascii "c"), .list true [.str (ascii "bolt://c:2")], .map [(ascii "system", .str (ascii "Follower"))], .nil]]

example : (Handler.empty.refreshClusterInfo 4 (.ok rows)) =
    (⟨[⟨ascii "a", [ascii "http://a:1", ascii "bolt://a:2"], ascii "bolt://a:2", 1, .leader⟩], [⟨ascii "c", [ascii "bolt://c:2"], ascii "bolt://c:2", 0, .follower⟩], []⟩, none) := by
  decide +kernel

/-- The rows satisfy the hypothesis of `C56_taken_over`. -/
example : Spec.All2 (Spec.RowsMean 4) rows
    [some (.leader, ⟨ascii "a", [ascii "http://a:1", ascii "bolt://a:2"], ascii "bolt://a:2", 1, .leader⟩), none,
     some (.follower, ⟨ascii "c", [ascii "bolt://c:2"], ascii "bolt://c:2", 0, .follower⟩)] := by
  have low : ∀ s t, roleLower s = t → Spec.Lower s t := fun s t h => (lower_iff s t).2 h
  refine .cons (.leader (role := ascii "LEADER") (.v4 (addrs := [_, _]) rfl (by rfl)) ⟨[_], [], rfl, ⟨[], ascii "://a:2", by decide +kernel⟩, by simp⟩ (low _ _ (by decide +kernel)))
    (.cons (.ignored (role := ascii "FOLLOWER") (.v4 (addrs := [_]) rfl (by rfl)) ?_)
    (.cons (.follower (role := ascii "Follower") (.v4 (addrs := [_]) rfl (by rfl)) ⟨[], [], rfl, ⟨[], ascii "://c:2", by decide +kernel⟩, by simp⟩ (low _ _ (by decide +kernel))) .nil))
  intro a ha hw
  rw [List.mem_singleton.1 ha] at hw
  exact absurd ((contains_within _ _).2 hw) (by decide +kernel)

/-- A row of protocol 3 is not understood with protocol 4: nothing changes. -/
example (h : Handler) : ∃ e, h.refreshClusterInfo 4 (.ok (rows ++ [[.str [], .list true [], .str (ascii "LEADER"), .list true [], .str []]])) = (h, some e) :=
  C56_nothing h 4 _ (.inr ⟨_, rfl, _, List.mem_append_right _ (List.mem_singleton.2 rfl), fun m hm => by
    have no : ∀ id addrs role, ¬ Spec.Row 4 [.str [], .list true [], .str (ascii "LEADER"), .list true [], .str []] id addrs role := fun id addrs role hr =>
      absurd ((parseRowV4_iff _ _ _ _).2 hr) (by simp [parseRowV4])
    cases hm <;> exact no _ _ _ ‹_›⟩)

end C56
end Verif

/-
C58: after a refresh the address lists are exactly the cluster's.
-/
import Verif.Props.C57
namespace Verif
namespace Spec

/-- No server has reported an address that looks like another address with the credentials of the pool already added to it. -/
def Apart (user tls : Bytes) (log : List PEv) : Prop := (user = [] ∧ tls = []) ∨ ∀ a a', Reported log a → Reported log a' → ¬ Carries user tls a' a

/-- A list of connection strings has one string for each member whose role satisfies `p`, and no others. -/
def Exactly (user tls : Bytes) (ms : List (Option (Role × NodeConfig))) (p : Role → Prop) (strs : List Bytes) : Prop :=
  strs.Nodup ∧ ∀ str, str ∈ strs ↔ ∃ role n, some (role, n) ∈ ms ∧ p role ∧ Carries user tls n.boltString str

end Spec

theorem without_unique {t s u v : Bytes} (ht : t ≠ []) (h : Spec.Without t s u) : Spec.Without t s v → u = v := by
  have hnil : ∀ {s v : Bytes}, Spec.Without t s v → s = [] → v = [] := by
    intro s v h hs
    cases h with
    | nil => rfl
    | cut _ => exact absurd (List.append_eq_nil_iff.1 hs).1 ht
    | keep _ _ => cases hs
  induction h generalizing v with
  | nil => intro h; exact (hnil h rfl).symm
  | @cut s u _ ih =>
    intro h
    generalize hx : t ++ s = x at h
    cases h with
    | nil => exact absurd (List.append_eq_nil_iff.1 hx).1 ht
    | cut h => exact ih (List.append_cancel_left hx ▸ h)
    | keep hp _ => exact absurd ⟨s, hx⟩ hp
  | @keep y s u hp _ ih =>
    intro h
    generalize hx : y :: s = x at h
    cases h with
    | nil => cases hx
    | cut _ => exact absurd ⟨_, hx.symm⟩ hp
    | keep _ h => cases hx; rw [ih h]

theorem carries_iff {user tls a str : Bytes} : Spec.Carries user tls a str ↔ str = addAuthInfoToConnStr user tls a := by
  constructor
  · intro h
    rcases h with ⟨h1, h2, h3⟩ | ⟨h1, host, h2, h3⟩ <;> rcases carries_addAuth user tls a with ⟨g1, g2, g3⟩ | ⟨g1, host', g2, g3⟩
    · rw [h3, g3]
    · exact absurd ⟨h1, h2⟩ g1
    · exact absurd ⟨g1, g2⟩ h1
    · rw [h3, g3, without_unique (by decide) h2 g2]
  · rintro rfl; exact carries_addAuth user tls a

theorem members_cluster {log : List PEv} {ms : List (Option (Spec.Role × NodeConfig))} (h : Spec.Members log ms) : clusterOf log = Spec.cluster ms := by
  obtain ⟨a, v, rows, b, rfl, hu, hb⟩ := h
  have keep : ∀ (b l : List PEv), (∀ v' rows' ms', .overview v' (.ok rows') ∈ b → ¬ Spec.All2 (Spec.RowsMean v') rows' ms') → clusterOf (l ++ b) = clusterOf l := by
    intro b
    induction b with
    | nil => intro l _; rw [List.append_nil]
    | cons e b ih =>
      intro l hb
      rw [show l ++ e :: b = (l ++ [e]) ++ b by simp, ih _ fun v' rows' ms' hm => hb v' rows' ms' (List.mem_cons_of_mem _ hm), clusterOf_snoc]
      cases e with
      | overview v ans =>
        rcases C56_cases v ans with ⟨e, rfl⟩ | ⟨rows, rfl, hr⟩ | ⟨rows, ms, rfl, hu⟩
        · rfl
        · obtain ⟨e, he⟩ := C56_nothing (clusterOf l) v (.ok rows) (.inr ⟨rows, rfl, hr⟩)
          simp only [he]
        · exact absurd hu (hb _ _ _ List.mem_cons_self)
      | _ => rfl
  rw [show a ++ .overview v (.ok rows) :: b = (a ++ [.overview v (.ok rows)]) ++ b by simp, keep b _ hb, clusterOf_snoc]
  simp only [C56_taken_over _ _ _ _ hu]

theorem addrs_cluster_iff {ms : List (Option (Spec.Role × NodeConfig))} {w : Bool} {a : Bytes} :
    a ∈ (Spec.cluster ms).addrs w ↔ ∃ r n, some (r, n) ∈ ms ∧ (w = true ↔ r = .leader) ∧ n.boltString = a := by
  constructor
  · intro h
    obtain ⟨r, n, h1, h2, h3⟩ := mem_addrs_cluster h
    exact ⟨r, n, h1, h3, h2⟩
  · rintro ⟨r, n, h1, h2, rfl⟩
    cases w with
    | true =>
      have := h2.1 rfl
      subst this
      exact List.mem_map_of_mem (mem_having.2 ⟨.leader, rfl, h1⟩)
    | false =>
      show _ ∈ (Spec.cluster ms).followers.map (·.boltString) ++ (Spec.cluster ms).readReplicas.map (·.boltString)
      cases r with
      | leader => exact absurd (h2.2 rfl) (by decide)
      | follower => exact List.mem_append_left _ (List.mem_map_of_mem (mem_having.2 ⟨.follower, rfl, h1⟩))
      | readReplica => exact List.mem_append_right _ (List.mem_map_of_mem (mem_having.2 ⟨.readReplica, rfl, h1⟩))

section
variable {ω : Type} {W : PWorld ω} {user tls : Bytes}

/-- **C58**: whenever the mutex of the pool is free, the list for writing has one string for each leader of the last overview that was understood, with credentials, and no others;
likewise the list for reading for the other members.
Missing: servers that report an address which equals the connection string made for another one (or for itself, earlier), for which it is false (`C58_refuted`). -/
theorem C58_partial {connStr : Bytes} {size : Int} {w : ω} {pool : RPool ω} (ho : openRoutingPool W connStr size user tls w = .ok (.ok (), pool))
    (fuel : Nat) (moves : List PMove) (hr : ∀ m ∈ moves, Spec.noRestart m) {s : RPool ω} (hs : s = ((PSys.fresh pool).moves W fuel moves).pool)
    (hfree : s.writer = false) (hap : Spec.Apart user tls s.log) {ms : List (Option (Spec.Role × NodeConfig))} (hms : Spec.Members s.log ms) :
    Spec.Exactly user tls ms (· = .leader) s.rwStrings ∧ Spec.Exactly user tls ms (· ≠ .leader) s.readStrings := by
  have hc : CallsInv (MInv true user tls) (PSys.fresh pool) := ⟨[], [], rfl, open_members ho, fun _ h => absurd h List.not_mem_nil⟩
  obtain ⟨L, dead, _, hi, _⟩ := callsInv_moves (g₀ := ({} : Gm)) W (fun _ _ _ h i => i.perm h) (fun _ _ i => m_begin i) fuel moves
    (fun r hm => m_prog W fuel r fun e => hr _ hm (by rw [e])) hc
  rw [← hs] at hi
  have hstale : ∀ g ∈ L.map (·.2) ++ dead, g.stale = false := by
    intro g hg
    cases h : g.stale with
    | false => rfl
    | true =>
      have h1 := hi.stale g hg h
      have h2 := hi.shared rfl
      rw [hfree] at h2
      have := List.countP_eq_zero.1 (show (L.map (·.2) ++ dead).countP (·.locked) = 0 from h2) g hg
      exact absurd h1 this
  have key : ∀ w, (s.strings w).Nodup ∧ ∀ str, str ∈ s.strings w ↔ ∃ role n, some (role, n) ∈ ms ∧ (w = true ↔ role = .leader) ∧ Spec.Carries user tls n.boltString str := by
    intro w
    refine ⟨hi.nodup w, fun str => ⟨fun h => ?_, ?_⟩⟩
    · obtain ⟨a, ha, h'⟩ := hi.strings hstale w str h
      have hrep : Spec.Reported s.log a := seen_reported ⟨s.log, List.prefix_refl _, w, by rw [← hi.handler]; exact ha⟩
      rw [hi.handler, members_cluster hms] at ha
      obtain ⟨role, n, h1, h2, rfl⟩ := addrs_cluster_iff.1 ha
      refine ⟨role, n, h1, h2, ?_⟩
      rcases h' with rfl | rfl
      · obtain ⟨a', ha', he⟩ := hi.known w _ h
        rcases hap with ⟨rfl, rfl⟩ | hap
        · exact .inl ⟨rfl, rfl, rfl⟩
        · exact absurd (carries_iff.2 he) (hap _ _ hrep (seen_reported ha'))
      · exact carries_iff.2 rfl
    · rintro ⟨role, n, h1, h2, h3⟩
      rw [carries_iff.1 h3]
      refine hi.all hstale w _ ?_
      rw [hi.handler, members_cluster hms]
      exact addrs_cluster_iff.2 ⟨role, n, h1, h2, rfl⟩
  refine ⟨?_, ?_⟩
  · have := key true
    simpa [Spec.Exactly, RPool.strings] using this
  · have := key false
    simpa [Spec.Exactly, RPool.strings] using this

end

namespace C58

/-- The addresses in the overviews of a history. -/
def reported (log : List PEv) : List Bytes := log.flatMap fun
  | .overview v ans => (Handler.empty.refreshClusterInfo v ans).1.addrs true ++ (Handler.empty.refreshClusterInfo v ans).1.addrs false
  | _ => []

theorem mem_reported {log : List PEv} {a : Bytes} (h : Spec.Reported log a) : a ∈ reported log := by
  obtain ⟨v, rows, ms, role, n, h1, h2, h3, rfl⟩ := h
  refine List.mem_flatMap.2 ⟨_, h1, ?_⟩
  simp only [C56_taken_over _ _ _ _ h2]
  cases role with
  | leader => exact List.mem_append_left _ (addrs_cluster_iff.2 ⟨_, n, h3, by simp, rfl⟩)
  | follower => exact List.mem_append_right _ (addrs_cluster_iff.2 ⟨_, n, h3, by simp, rfl⟩)
  | readReplica => exact List.mem_append_right _ (addrs_cluster_iff.2 ⟨_, n, h3, by simp, rfl⟩)

theorem apart_of {user tls : Bytes} {log : List PEv} (h : ∀ a ∈ reported log, ∀ a' ∈ reported log, a ≠ addAuthInfoToConnStr user tls a') : Spec.Apart user tls log :=
  .inr fun a a' ha ha' hc => h a (mem_reported ha) a' (mem_reported ha') (carries_iff.1 hc)

/-- The state after `history` of C57. -/
def state (script : Script) (ms : List PMove) : Option (RPool Nat × RPool Nat) :=
  match openRoutingPool script.world (ascii "bolt+routing://a") 3 (ascii "u:p") [] 0 with
  | .ok (.ok (), pool) => some (pool, ((PSys.fresh pool).moves script.world 100 ms).pool)
  | _ => none

theorem state_open {script : Script} {ms : List PMove} {pool s : RPool Nat} (h : state script ms = some (pool, s)) :
    openRoutingPool script.world (ascii "bolt+routing://a") 3 (ascii "u:p") [] 0 = .ok (.ok (), pool) ∧ s = ((PSys.fresh pool).moves script.world 100 ms).pool := by
  unfold state at h
  generalize openRoutingPool script.world (ascii "bolt+routing://a") 3 (ascii "u:p") [] 0 = o at h ⊢
  match o, h with
  | .ok (.ok (), pool'), h =>
    simp only [Option.some.injEq, Prod.mk.injEq] at h
    obtain ⟨rfl, rfl⟩ := h
    exact ⟨rfl, rfl⟩

theorem members_of {log : List PEv} (h : clusterOf log ≠ Handler.empty) : ∃ ms, Spec.Members log ms := by
  rcases clusterOf_members log with he | ⟨ms, hms, _⟩
  · exact absurd he h
  · exact ⟨ms, hms⟩

/-- The hypotheses of C58 are met in the history of C57, in which the leader changes. -/
example : ∃ pool s ms, openRoutingPool C57.script.world (ascii "bolt+routing://a") 3 (ascii "u:p") [] 0 = .ok (.ok (), pool) ∧
    s = ((PSys.fresh pool).moves C57.script.world 100 C57.history).pool ∧ s.writer = false ∧ Spec.Apart (ascii "u:p") [] s.log ∧ Spec.Members s.log ms ∧
    s.rwStrings = [ascii "bolt://u:p@b"] ∧ s.readStrings = [ascii "bolt://u:p@a"] := by
  have check : (match state C57.script C57.history with
    | some (_, s) => decide (s.writer = false ∧ (∀ a ∈ reported s.log, ∀ a' ∈ reported s.log, a ≠ addAuthInfoToConnStr (ascii "u:p") [] a') ∧ clusterOf s.log ≠ Handler.empty ∧
        s.rwStrings = [ascii "bolt://u:p@b"] ∧ s.readStrings = [ascii "bolt://u:p@a"])
    | none => false) = true := by decide +kernel
  cases h : state C57.script C57.history with
  | none => rw [h] at check; cases check
  | some ps =>
    obtain ⟨pool, s⟩ := ps
    rw [h] at check
    obtain ⟨h1, h2, h3, h4, h5⟩ := of_decide_eq_true check
    obtain ⟨ms, hms⟩ := members_of h3
    obtain ⟨ho, hs⟩ := state_open h
    exact ⟨pool, s, ms, ho, hs, h1, apart_of h2, hms, h4, h5⟩

/-- The leader changes its address to one that contains the credentials. -/
def script : Script where
  rows w := if w < 11 then threeMembers else [memberRow "1" "bolt://u:p@a" "LEADER", memberRow "2" "bolt://b" "FOLLOWER"]

end C58

/-- **C58 refuted**: a leader that was known as bolt://a reports the address bolt://u:p@a.  The old string is taken for a current one and kept, and the new one is added. -/
theorem C58_refuted : ¬ ∀ {ω : Type} {W : PWorld ω} {user tls connStr : Bytes} {size : Int} {w : ω} {pool : RPool ω},
    openRoutingPool W connStr size user tls w = .ok (.ok (), pool) → ∀ (fuel : Nat) (moves : List PMove), (∀ m ∈ moves, Spec.noRestart m) →
    ∀ {s : RPool ω}, s = ((PSys.fresh pool).moves W fuel moves).pool → s.writer = false → ∀ {ms : List (Option (Spec.Role × NodeConfig))}, Spec.Members s.log ms →
    Spec.Exactly user tls ms (· = .leader) s.rwStrings := by
  intro hall
  have check : (match C58.state C58.script ([.call (.borrow true)] ++ List.replicate 10 (.step 0) ++ [.call .refresh] ++ List.replicate 40 (.step 0)) with
    | some (_, s) => decide (s.writer = false ∧ (clusterOf s.log).leaders.map (·.boltString) = [ascii "bolt://u:p@a"] ∧
        s.rwStrings = [ascii "bolt://u:p@a", ascii "bolt://u:p@u:p@a"])
    | none => false) = true := by decide +kernel
  cases h : C58.state C58.script ([.call (.borrow true)] ++ List.replicate 10 (.step 0) ++ [.call .refresh] ++ List.replicate 40 (.step 0)) with
  | none => rw [h] at check; cases check
  | some ps =>
    obtain ⟨pool, s⟩ := ps
    rw [h] at check
    obtain ⟨h1, h2, h3⟩ := of_decide_eq_true check
    obtain ⟨ms, hms⟩ := C58.members_of (log := s.log) fun e => by rw [e] at h2; exact absurd h2 (by decide)
    obtain ⟨ho, hs⟩ := C58.state_open h
    obtain ⟨role, n, hn, rfl, hc⟩ := ((hall ho 100 _ (by unfold Spec.noRestart; decide +kernel) hs h1 hms).2 (ascii "bolt://u:p@a")).1 (by rw [h3]; exact List.mem_cons_self)
    have hm : n.boltString ∈ (clusterOf s.log).leaders.map (·.boltString) := by
      rw [members_cluster hms]
      exact List.mem_map_of_mem (mem_having.2 ⟨.leader, rfl, hn⟩)
    rw [h2, List.mem_singleton] at hm
    have := carries_iff.1 hc
    rw [hm] at this
    exact absurd this (by decide +kernel)

end Verif

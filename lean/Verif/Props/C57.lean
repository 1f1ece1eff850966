/-
C57: the pool connects to leaders for writing, and to followers and read replicas for reading.
-/
import Verif.Proofs.PoolMembers
import Verif.Props.C56
import Verif.Props.C59
namespace Verif
namespace Spec

/-- The last overview that was understood describes the members `ms`. -/
def Members (log : List PEv) (ms : List (Option (Role × NodeConfig))) : Prop :=
  ∃ a v rows b, log = a ++ .overview v (.ok rows) :: b ∧ All2 (RowsMean v) rows ms ∧ ∀ v' rows' ms', .overview v' (.ok rows') ∈ b → ¬ All2 (RowsMean v') rows' ms'

/-- The address of a member in some overview that was understood. -/
def Reported (log : List PEv) (a : Bytes) : Prop :=
  ∃ v rows ms role n, .overview v (.ok rows) ∈ log ∧ All2 (RowsMean v) rows ms ∧ some (role, n) ∈ ms ∧ a = n.boltString

/-- `u` is `s` without the occurrences of `t`, found from left to right. -/
inductive Without (t : Bytes) : Bytes → Bytes → Prop where
  | nil : Without t [] []
  | cut {s u} : Without t s u → Without t (t ++ s) u
  | keep {x s u} : ¬ t <+: x :: s → Without t s u → Without t (x :: s) (x :: u)

/-- A connection string for the address `a`, with credentials and TLS part. -/
def Carries (user tls a str : Bytes) : Prop :=
  (user = [] ∧ tls = [] ∧ str = a) ∨ (¬(user = [] ∧ tls = []) ∧ ∃ host, Without (ascii "bolt://") a host ∧ str = ascii "bolt://" ++ user ++ ascii "@" ++ host ++ tls)

end Spec

theorem removeF_without (t : Bytes) (ht : t ≠ []) : ∀ (n : Nat) (s : Bytes), s.length < n → Spec.Without t s (newRoutingPool.removeF t n s)
  | 0, _, h => absurd h (Nat.not_lt_zero _)
  | n + 1, [], _ => .nil
  | n + 1, x :: s, h => by
    unfold newRoutingPool.removeF
    split
    · rename_i hp
      obtain ⟨u, hu⟩ := List.isPrefixOf_iff_prefix.1 hp
      rw [← hu, List.drop_left]
      refine .cut (removeF_without t ht n u ?_)
      have := congrArg List.length hu
      have := List.length_pos_iff.2 ht
      simp only [List.length_append, List.length_cons] at *
      omega
    · rename_i hp
      refine .keep (fun h => hp (List.isPrefixOf_iff_prefix.2 h)) (removeF_without t ht n s ?_)
      simp only [List.length_cons] at h
      omega

theorem carries_addAuth (user tls a : Bytes) : Spec.Carries user tls a (addAuthInfoToConnStr user tls a) := by
  unfold addAuthInfoToConnStr
  split
  · rename_i h; exact .inl ⟨h.1, h.2, rfl⟩
  · rename_i h; exact .inr ⟨h, _, removeF_without _ (by decide) _ _ (Nat.lt_succ_self _), rfl⟩

theorem mem_having {p : Spec.Role → Bool} {ms : List (Option (Spec.Role × NodeConfig))} {n : NodeConfig} : n ∈ Spec.having p ms ↔ ∃ r, p r = true ∧ some (r, n) ∈ ms := by
  unfold Spec.having
  rw [List.mem_filterMap]
  constructor
  · rintro ⟨o, ho, h⟩
    match o, ho, h with
    | some (r, n'), ho, h =>
      by_cases hp : p r = true
      · simp only [hp, if_true, Option.some.injEq] at h
        subst h
        exact ⟨r, hp, ho⟩
      · simp only [hp, if_false, reduceCtorEq] at h
  · rintro ⟨r, hp, h⟩
    exact ⟨_, h, by simp only [hp, if_true]⟩

theorem mem_addrs_cluster {ms : List (Option (Spec.Role × NodeConfig))} {w : Bool} {a : Bytes} (h : a ∈ (Spec.cluster ms).addrs w) :
    ∃ r n, some (r, n) ∈ ms ∧ n.boltString = a ∧ (w = true ↔ r = .leader) := by
  cases w with
  | true =>
    obtain ⟨n, hn, rfl⟩ := List.mem_map.1 (show a ∈ (Spec.cluster ms).leaders.map _ from h)
    obtain ⟨r, hr, hm⟩ := mem_having.1 hn
    exact ⟨r, n, hm, rfl, by cases r <;> simp_all⟩
  | false =>
    have h : a ∈ (Spec.cluster ms).followers.map (·.boltString) ++ (Spec.cluster ms).readReplicas.map (·.boltString) := h
    rcases List.mem_append.1 h with h | h <;> obtain ⟨n, hn, rfl⟩ := List.mem_map.1 h <;> obtain ⟨r, hr, hm⟩ := mem_having.1 hn <;>
      exact ⟨r, n, hm, rfl, by cases r <;> simp_all⟩

theorem all2_rows {R : List Val → Option (Spec.Role × NodeConfig) → Prop} : ∀ {rows : List (List Val)} {ms}, Spec.All2 R rows ms → ∀ row ∈ rows, ∃ m, R row m
  | _, _, .nil, _, h => absurd h List.not_mem_nil
  | _, _, .cons h hs, row, hr => by
    rcases List.mem_cons.1 hr with rfl | hr
    · exact ⟨_, h⟩
    · exact all2_rows hs row hr

/-- The members the pool knows are those of the last overview that was understood. -/
theorem clusterOf_members : ∀ (log : List PEv), clusterOf log = Handler.empty ∨ ∃ ms, Spec.Members log ms ∧ clusterOf log = Spec.cluster ms := by
  have key : ∀ (log pre : List PEv), (clusterOf pre = Handler.empty ∨ ∃ ms, Spec.Members pre ms ∧ clusterOf pre = Spec.cluster ms) →
      (clusterOf (pre ++ log) = Handler.empty ∨ ∃ ms, Spec.Members (pre ++ log) ms ∧ clusterOf (pre ++ log) = Spec.cluster ms) := by
    intro log
    induction log with
    | nil => intro pre h; rw [List.append_nil]; exact h
    | cons e log ih =>
      intro pre h
      rw [show pre ++ e :: log = (pre ++ [e]) ++ log by simp]
      refine ih _ ?_
      have keep : clusterOf (pre ++ [e]) = clusterOf pre → (∀ v rows ms, e = .overview v (.ok rows) → ¬ Spec.All2 (Spec.RowsMean v) rows ms) →
          (clusterOf (pre ++ [e]) = Handler.empty ∨ ∃ ms, Spec.Members (pre ++ [e]) ms ∧ clusterOf (pre ++ [e]) = Spec.cluster ms) := by
        intro h1 h2
        rw [h1]
        rcases h with h | ⟨ms, ⟨a, v, rows, b, hl, hu, hb⟩, hc⟩
        · exact .inl h
        · refine .inr ⟨ms, ⟨a, v, rows, b ++ [e], by rw [hl]; simp, hu, fun v' rows' ms' hm => ?_⟩, hc⟩
          rcases List.mem_append.1 hm with hm | hm
          · exact hb _ _ _ hm
          · exact h2 _ _ _ (List.mem_singleton.1 hm).symm
      cases e with
      | overview v ans =>
        have hs : clusterOf (pre ++ [.overview v ans]) = ((clusterOf pre).refreshClusterInfo v ans).1 := clusterOf_snoc _ _
        rcases C56_cases v ans with ⟨e, rfl⟩ | ⟨rows, rfl, hr⟩ | ⟨rows, ms, rfl, hu⟩
        · exact keep hs fun _ _ _ h => by cases h
        · obtain ⟨e, he⟩ := C56_nothing (clusterOf pre) v (.ok rows) (.inr ⟨rows, rfl, hr⟩)
          refine keep (by rw [hs, he]) fun _ _ ms h hu => ?_
          cases h
          obtain ⟨row, hrow, hn⟩ := hr
          obtain ⟨m, hm⟩ := all2_rows hu row hrow
          exact hn m hm
        · exact .inr ⟨ms, ⟨pre, v, rows, [], rfl, hu, fun _ _ _ h => absurd h List.not_mem_nil⟩, by rw [hs, C56_taken_over _ _ _ _ hu]⟩
      | _ => exact keep (clusterOf_snoc _ _) fun _ _ _ h => by cases h
  exact fun log => key log [] (.inl rfl)

theorem seen_reported {log : List PEv} {a : Bytes} (h : Seen log a) : Spec.Reported log a := by
  obtain ⟨pre, ⟨suf, rfl⟩, w, ha⟩ := h
  rcases clusterOf_members pre with he | ⟨ms, ⟨x, v, rows, b, rfl, hu, _⟩, he⟩
  · rw [he] at ha
    cases w <;> cases ha
  · rw [he] at ha
    obtain ⟨r, n, hm, rfl, _⟩ := mem_addrs_cluster ha
    exact ⟨v, rows, ms, r, n, by simp, hu, hm, rfl⟩

section
variable {ω : Type} {W : PWorld ω} {user tls : Bytes}

/-- A pool that has just been opened. -/
theorem open_members {connStr : Bytes} {size : Int} {w : ω} {pool : RPool ω} (h : openRoutingPool W connStr size user tls w = .ok (.ok (), pool)) :
    MInv true user tls pool [] := by
  unfold openRoutingPool at h
  cases hn : newRoutingPool connStr size user tls w with
  | error e => rw [hn] at h; cases h
  | ok s₀ =>
    rw [hn] at h
    simp only [Except.ok.injEq] at h
    have hi : MInv false user tls s₀ [{ locked := true }] ∧ s₀.running = false := by
      unfold newRoutingPool at hn
      split at hn
      · cases hn
      · split at hn
        · cases hn
        · simp only [Except.ok.injEq] at hn
          subst hn
          refine ⟨⟨(fun h => nomatch h), fun _ => rfl, by decide, fun _ _ _ => ?_, fun _ _ _ => ?_, rfl, rfl, rfl, fun _ w str hs => ?_, fun g hg _ _ hs => ?_, fun a r id str w b hl => ?_, fun w => ?_, fun w str hs => ?_, fun _ w a ha => ?_⟩, rfl⟩
          · rename_i h _; rw [List.mem_singleton.1 h]
          · rename_i h _; rw [List.mem_singleton.1 h]
          · cases w <;> cases hs
          · rw [List.mem_singleton.1 hg] at hs; cases hs
          · cases a <;> cases hl
          · cases w <;> exact List.nodup_nil
          · cases w <;> cases hs
          · cases w <;> cases ha
    have hstart : (start W).run s₀ = (startRest W s₀.startHead.maxWriteIdle s₀.startHead.maxReadIdle).run s₀.startHead := by
      simp only [start, Bind.bind, PProg.bind, PProg.prim, PProg.run, hi.2, if_true, Bool.false_eq_true, if_false]
    have hhead : MInv false user tls s₀.startHead [{ locked := true }] := by
      refine Plain.inv ?_ hi.1
      unfold RPool.startHead
      split <;> exact ⟨rfl, rfl, rfl, rfl, fun _ => rfl, .inl rfl⟩
    have always : ∀ {α : Type} (p : PP ω α), PProg.Acts (fun _ f => ∀ s : RPool ω, True → True) p := by
      intro α p
      induction p with
      | done => exact PProg.Acts.done
      | act _ _ _ _ ih => exact ⟨fun _ _ => trivial, ih⟩
    obtain ⟨g', hi', hA⟩ := PProg.Safe.run (m_startRest (lk := false) (user := user) (tls := tls) W (g := { locked := true }) ⟨rfl, rfl⟩ s₀.startHead.maxWriteIdle s₀.startHead.maxReadIdle)
      (always _) hhead trivial
    rw [hstart] at h
    rw [h] at hi' hA
    have hf := hA () rfl
    exact {
      shared := fun _ => by rw [hi'.alone rfl]; rfl
      alone := fun h => by cases h
      one := by simp
      stale := fun _ h => absurd h List.not_mem_nil
      chose := fun _ h => absurd h List.not_mem_nil
      auth := hi'.auth
      cert := hi'.cert
      handler := hi'.handler
      strings := fun _ => hi'.strings fun g hg => by rw [List.mem_singleton.1 hg]; exact hf.2
      pending := fun _ h => absurd h List.not_mem_nil
      made := hi'.made
      nodup := hi'.nodup
      known := hi'.known
      all := fun _ => hi'.all fun g hg => by rw [List.mem_singleton.1 hg]; exact hf.2 }

/-- **C57**: a connection is created for writing only with the address of a member that was leader when the members were last reported, and for reading only with the address of a member
that was not.  The address is given as it was reported, or with the credentials of the pool; in any case, the connection string has been made from some reported address and the
credentials.  (`a`: what had happened before the connection was created.) -/
theorem C57 {connStr : Bytes} {size : Int} {w : ω} {pool : RPool ω} (ho : openRoutingPool W connStr size user tls w = .ok (.ok (), pool))
    (fuel : Nat) (moves : List PMove) (hr : ∀ m ∈ moves, Spec.noRestart m)
    {a b : List PEv} {r : Nat} {id str : Bytes} {write : Bool} (hl : ((PSys.fresh pool).moves W fuel moves).pool.log = a ++ .created r id str write :: b) :
    ∃ ms role n, Spec.Members a ms ∧ some (role, n) ∈ ms ∧ (write = true ↔ role = .leader) ∧ (str = n.boltString ∨ Spec.Carries user tls n.boltString str) ∧
      ∃ a', Spec.Reported a a' ∧ Spec.Carries user tls a' str := by
  have hc : CallsInv (MInv true user tls) (PSys.fresh pool) := ⟨[], [], rfl, open_members ho, fun _ h => absurd h List.not_mem_nil⟩
  obtain ⟨L, dead, _, hi, _⟩ := callsInv_moves (g₀ := ({} : Gm)) W (fun _ _ _ h i => i.perm h) (fun _ _ i => m_begin i) fuel moves
    (fun r hm => m_prog W fuel r fun e => hr _ hm (by rw [e])) hc
  obtain ⟨⟨x, hx, hs⟩, a', ha', hk⟩ := hi.made a r id str write b hl
  rcases clusterOf_members a with he | ⟨ms, hms, he⟩
  · rw [he] at hx
    cases write <;> cases hx
  · rw [he] at hx
    obtain ⟨role, n, hm, rfl, hw⟩ := mem_addrs_cluster hx
    refine ⟨ms, role, n, hms, hm, hw, hs.imp (fun h => h) fun h => ?_, a', seen_reported ha', hk ▸ carries_addAuth user tls a'⟩
    rw [h]
    exact carries_addAuth user tls _

end

namespace C57

/-- The leader changes from a to b. -/
def script : Script where
  rows w := if w < 11 then threeMembers else [memberRow "1" "bolt://a" "FOLLOWER", memberRow "2" "bolt://b" "LEADER"]
  alive w _ := w < 11
  closing _ := some (.plain "broken")

/-- A connection for writing is borrowed, the members are fetched again, and the connection, which has died, is returned. -/
def history : List PMove := [.call (.borrow true)] ++ List.replicate 10 (.step 0) ++ [.call .refresh] ++ List.replicate 40 (.step 0) ++
  [.call (.reclaim ⟨1, [49, 45, 0, 4]⟩)] ++ List.replicate 20 (.step 0)

/-- The connections created, and for what. -/
def created : List PEv → List (Bytes × Bool)
  | [] => []
  | .created _ _ str w :: log => (str, w) :: created log
  | _ :: log => created log

/-- The hypotheses of C57 are met, and the connection made last is one for writing to b. -/
example : (match openRoutingPool script.world (ascii "bolt+routing://a") 3 (ascii "u:p") [] 0 with
    | .ok (.ok (), pool) => created ((PSys.fresh pool).moves script.world 100 history).pool.log
    | _ => []) = [(ascii "bolt://u:p@a", true), (ascii "bolt://u:p@a", true), (ascii "bolt://u:p@c", false), (ascii "bolt://u:p@b", true)] := by decide +kernel

example : ∀ m ∈ history, Spec.noRestart m := by unfold Spec.noRestart; decide +kernel

end C57
end Verif

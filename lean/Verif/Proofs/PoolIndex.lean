/-
How the routing pool picks addresses.
-/
import Verif.Proofs.PoolActs
import Verif.Proofs.PoolRun
import Verif.Proofs.PoolMembers
namespace Verif
open PProg

section
variable {ω : Type} {W : PWorld ω}

/-- The index into the list of strings. -/
def RPool.index (s : RPool ω) (w : Bool) : Nat := if w then s.rwIndex else s.readIndex

/-- The next index. -/
def RPool.nextIndex (s : RPool ω) (w : Bool) : Nat := if s.index w + 1 = (s.strings w).length then 0 else s.index w + 1

/-- Add a connection for writing or for reading. -/
def addConn (W : PWorld ω) (w : Bool) : PP ω Unit := if w then addWriteConn W else addReadConn W

/-- The indices are within range (or zero). -/
def IndexOk (s : RPool ω) : Prop := ∀ w, s.index w ≤ (s.strings w).length - 1

theorem next_lt {s : RPool ω} (h : IndexOk s) {w : Bool} (hs : s.strings w ≠ []) : s.nextIndex w < (s.strings w).length := by
  have := h w
  have := List.length_pos_iff.2 hs
  unfold RPool.nextIndex
  split <;> omega

/-- The action of choosing a string. -/
theorem addConn_choose (w : Bool) (s : RPool ω) (hs : s.strings w ≠ []) (h : s.nextIndex w < (s.strings w).length) :
    ∃ s₁, (addConn W w).run s = (do let x ← newConnection W w (s.strings w)[s.nextIndex w]; pEnqueue w x : PP ω Unit).run s₁ ∧
      s₁.index w = s.nextIndex w ∧ s₁.index (!w) = s.index (!w) ∧ (∀ v, s₁.strings v = s.strings v) ∧ s₁.log = s.log ∧ s₁.next = s.next ∧ s₁.world = s.world := by
  cases w with
  | true =>
    refine ⟨{ s with rwIndex := s.nextIndex true }, ?_, rfl, rfl, fun v => rfl, rfl, rfl, rfl⟩
    refine (run_bind_ok (a := .ok ((s.strings true)[s.nextIndex true])) (s' := { s with rwIndex := s.nextIndex true }) ?_).trans rfl
    rw [run_prim]
    have hs : ¬ s.rwStrings = [] := hs
    have h : (if s.rwIndex + 1 = s.rwStrings.length then 0 else s.rwIndex + 1) < s.rwStrings.length := h
    simp only [if_neg hs, List.getElem?_eq_getElem h]
    rfl
  | false =>
    refine ⟨{ s with readIndex := s.nextIndex false }, ?_, rfl, rfl, fun v => rfl, rfl, rfl, rfl⟩
    refine (run_bind_ok (a := .ok ((s.strings false)[s.nextIndex false])) (s' := { s with readIndex := s.nextIndex false }) ?_).trans rfl
    rw [run_prim]
    have hs : ¬ s.readStrings = [] := hs
    have h : (if s.readIndex + 1 = s.readStrings.length then 0 else s.readIndex + 1) < s.readStrings.length := h
    simp only [if_neg hs, List.getElem?_eq_getElem h]
    rfl

/-- Creating a connection, and putting it into its queue. -/
theorem new_run (w : Bool) (str : Bytes) (s : RPool ω) : ∃ r s', (do let x ← newConnection W w str; pEnqueue w x : PP ω Unit).run s = (r, s') ∧
    (∀ v, s'.index v = s.index v) ∧ (∀ v, s'.strings v = s.strings v) ∧
    ((∃ e, r = .err e ∧ (W.create s.world s.next str).2 = some e ∧ s'.log = s.log) ∨
     ((W.create s.world s.next str).2 = none ∧ r = .ok () ∧ ∃ id, s'.log = s.log ++ [.created s.next id str w])) := by
  generalize hc : W.create s.world s.next str = c
  match c with
  | (v, some e) =>
    refine ⟨.err e, { s with world := v, next := s.next + 1 }, run_bind_err ?_, fun _ => rfl, fun _ => rfl, .inl ⟨e, rfl, rfl, rfl⟩⟩
    unfold newConnection
    exact (run_bind_ok (a := .error e) (s' := { s with world := v, next := s.next + 1 }) (by simp only [run_prim, hc])).trans rfl
  | (v, none) =>
    have hnew : (newConnection W w str).run s = (.ok ⟨⟨s.next, (if w then ascii "1-" else ascii "0-") ++ (W.random v).2⟩, str, w⟩,
        { s with world := (W.random v).1, next := s.next + 1, log := s.log ++ [.created s.next ((if w then ascii "1-" else ascii "0-") ++ (W.random v).2) str w],
                 heldConns := s.heldConns.put ((if w then ascii "1-" else ascii "0-") ++ (W.random v).2) ⟨⟨s.next, (if w then ascii "1-" else ascii "0-") ++ (W.random v).2⟩, str, w⟩ }) := by
      unfold newConnection
      refine (run_bind_ok (a := .ok ⟨⟨s.next, (if w then ascii "1-" else ascii "0-") ++ (W.random v).2⟩, str, w⟩) (s' := { s with
        world := (W.random v).1, next := s.next + 1, log := s.log ++ [.created s.next ((if w then ascii "1-" else ascii "0-") ++ (W.random v).2) str w] })
        (by simp only [run_prim, hc])).trans rfl
    refine ⟨_, _, run_bind_ok hnew, ?_, ?_, .inr ⟨rfl, rfl, (if w then ascii "1-" else ascii "0-") ++ (W.random v).2, ?_⟩⟩
    · intro u; cases w <;> cases u <;> rfl
    · intro u; cases w <;> cases u <;> rfl
    · cases w <;> rfl

/-- What adding a connection does. -/
theorem addConn_run (w : Bool) (s : RPool ω) (hs : s.strings w ≠ []) (h : s.nextIndex w < (s.strings w).length) :
    ∃ r s', (addConn W w).run s = (r, s') ∧ s'.index w = s.nextIndex w ∧ s'.index (!w) = s.index (!w) ∧ (∀ v, s'.strings v = s.strings v) ∧
      ((∃ e, r = .err e ∧ (W.create s.world s.next (s.strings w)[s.nextIndex w]).2 = some e ∧ s'.log = s.log) ∨
       ((W.create s.world s.next (s.strings w)[s.nextIndex w]).2 = none ∧ r = .ok () ∧ ∃ id, s'.log = s.log ++ [.created s.next id (s.strings w)[s.nextIndex w] w])) := by
  obtain ⟨s₁, h1, h2, h3, h4, h5, h6, h7⟩ := addConn_choose (W := W) w s hs h
  obtain ⟨r, s', g1, g2, g3, g4⟩ := new_run (W := W) w (s.strings w)[s.nextIndex w] s₁
  rw [h5, h6, h7] at g4
  exact ⟨r, s', h1.trans g1, (g2 w).trans h2, (g2 _).trans h3, fun v => (g3 v).trans (h4 v), g4⟩

/-- Without strings there are no connections. -/
theorem addConn_none (w : Bool) (s : RPool ω) (hs : s.strings w = []) : (addConn W w).run s = (.err (.plain "no connection strings"), s) := by
  cases w with
  | true =>
    have hs : s.rwStrings = [] := hs
    refine (run_bind_ok (a := .error (.err (.plain "no connection strings"))) (s' := s) (by simp only [run_prim, hs, if_true])).trans rfl
  | false =>
    have hs : s.readStrings = [] := hs
    refine (run_bind_ok (a := .error (.err (.plain "no connection strings"))) (s' := s) (by simp only [run_prim, hs, if_true])).trans rfl

/-- The number of connections made to an address for writing or for reading. -/
def connsTo (log : List PEv) (w : Bool) (str : Bytes) : Nat := log.countP fun
  | .created _ _ str' w' => str' == str && w' == w
  | _ => false

theorem connsTo_snoc (log : List PEv) (w w' : Bool) (str str' : Bytes) (r : Nat) (id : Bytes) :
    connsTo (log ++ [.created r id str' w']) w str = connsTo log w str + if str' = str ∧ w' = w then 1 else 0 := by
  unfold connsTo
  rw [List.countP_append]
  simp only [List.countP_cons, List.countP_nil, Bool.and_eq_true, beq_iff_eq, Nat.zero_add]

/-- The connections are spread evenly. -/
structure Even (w : Bool) (s : RPool ω) : Prop where
  nodup : (s.strings w).Nodup
  index : s.index w ≤ (s.strings w).length - 1
  level : ∃ q, ∀ j (h : j < (s.strings w).length), connsTo s.log w (s.strings w)[j] = q + if 1 ≤ j ∧ j ≤ s.index w then 1 else 0

theorem even_add {w : Bool} {s s' : RPool ω} (he : Even w s) (h : (addConn W w).run s = (.ok (), s')) : Even w s' ∧ ∀ v, s'.strings v = s.strings v := by
  by_cases hs : s.strings w = []
  · rw [addConn_none w s hs] at h; simp at h
  have hpos := List.length_pos_iff.2 hs
  have hidx := he.index
  have hlt : s.nextIndex w < (s.strings w).length := by unfold RPool.nextIndex; split <;> omega
  obtain ⟨r, s₁, g1, g2, g3, g4, g5⟩ := addConn_run (W := W) w s hs hlt
  rw [h] at g1
  simp only [Prod.mk.injEq] at g1
  obtain ⟨rfl, rfl⟩ := g1
  rcases g5 with ⟨e, h1, _⟩ | ⟨_, _, id, hlog⟩
  · cases h1
  · refine ⟨⟨by rw [g4]; exact he.nodup, by rw [g4, g2]; omega, ?_⟩, g4⟩
    obtain ⟨q, hq⟩ := he.level
    have hcount : ∀ j (h : j < (s.strings w).length), connsTo s'.log w (s.strings w)[j] = q + (if 1 ≤ j ∧ j ≤ s.index w then 1 else 0) + if s.nextIndex w = j then 1 else 0 := by
      intro j hj
      rw [hlog, connsTo_snoc, hq j hj]
      congr 1
      have : ((s.strings w)[s.nextIndex w] = (s.strings w)[j] ∧ w = w) ↔ s.nextIndex w = j := by
        constructor
        · rintro ⟨h, _⟩
          exact (List.getElem_inj he.nodup).1 h
        · intro h
          simp only [h, and_self]
      by_cases hj' : s.nextIndex w = j
      · rw [if_pos (this.2 hj'), if_pos hj']
      · rw [if_neg (fun h => hj' (this.1 h)), if_neg hj']
    refine ⟨if s.index w + 1 = (s.strings w).length then q + 1 else q, fun j hj => ?_⟩
    simp only [g4] at hj ⊢
    rw [hcount j hj, g2]
    unfold RPool.nextIndex
    by_cases hw : s.index w + 1 = (s.strings w).length
    · simp only [if_pos hw]
      split <;> split <;> split <;> omega
    · simp only [if_neg hw]
      split <;> split <;> split <;> omega

theorem even_other {w : Bool} {s s' : RPool ω} (he : Even (!w) s) (hi : s.index w ≤ (s.strings w).length - 1) (h : (addConn W w).run s = (.ok (), s')) : Even (!w) s' := by
  by_cases hs : s.strings w = []
  · rw [addConn_none w s hs] at h; simp at h
  have hpos := List.length_pos_iff.2 hs
  have hlt : s.nextIndex w < (s.strings w).length := by unfold RPool.nextIndex; split <;> omega
  obtain ⟨r, s₁, g1, g2, g3, g4, g5⟩ := addConn_run (W := W) w s hs hlt
  rw [h] at g1
  simp only [Prod.mk.injEq] at g1
  obtain ⟨rfl, rfl⟩ := g1
  rcases g5 with ⟨e, h1, _⟩ | ⟨_, _, id, hlog⟩
  · cases h1
  · obtain ⟨q, hq⟩ := he.level
    refine ⟨by rw [g4]; exact he.nodup, by rw [g4, g3]; exact he.index, q, fun j hj => ?_⟩
    simp only [g4] at hj ⊢
    rw [g3, hlog, connsTo_snoc, hq j hj, if_neg (c := _ ∧ w = !w) (by rintro ⟨_, h⟩; cases w <;> cases h), Nat.add_zero]

theorem even_times (w : Bool) : ∀ (n : Nat) {s s' : RPool ω}, (∀ v, Even v s) → (times n (addConn W w)).run s = (.ok (), s') → (∀ v, Even v s') ∧ ∀ v, s'.strings v = s.strings v
  | 0, s, s', he, h => by
    simp only [times, Pure.pure, PProg.run, Prod.mk.injEq] at h
    obtain ⟨_, rfl⟩ := h
    exact ⟨he, fun _ => rfl⟩
  | n + 1, s, s', he, h => by
    obtain ⟨_, s₁, h1, h2⟩ := run_bind_inv h
    have ⟨e1, e2⟩ := even_add (he w) h1
    have e3 := even_other (he (!w)) (he w).index h1
    have hall : ∀ v, Even v s₁ := by
      intro v
      cases v <;> cases w <;> assumption
    have ⟨g1, g2⟩ := even_times w n hall h2
    exact ⟨g1, fun v => (g2 v).trans (e2 v)⟩

end
end Verif

/-
C83: whom the routing pool asks for the members of the cluster, and what.
-/
import Verif.Props.C82
namespace Verif
open PProg

section
variable {ω : Type} {W : PWorld ω}

/-- All connections for fetching the members have gone to one address. -/
def Asked (str : Bytes) (s : RPool ω) : Prop := s.leaderConnStr = str ∧ ∀ r str', PEv.dialled r str' ∈ s.log → str' = str

theorem Asked.snoc {str : Bytes} {s s' : RPool ω} {e : PEv} (h : Asked str s) (h1 : s'.leaderConnStr = s.leaderConnStr) (h2 : s'.log = s.log ++ [e])
    (he : ∀ r str', e = .dialled r str' → str' = str) : Asked str s' := by
  refine ⟨h1.trans h.1, fun r str' hm => ?_⟩
  rw [h2] at hm
  rcases List.mem_append.1 hm with hm | hm
  · exact h.2 r str' hm
  · exact he r str' (List.mem_singleton.1 hm).symm

theorem asked_act {str : Bytes} {acc : List Access} {f : RPool ω → RPool ω} (h : PAct W acc f) (s : RPool ω) (hs : Asked str s) : Asked str (f s) := by
  cases h with
  | enqueue w x => cases w <;> exact hs
  | dequeue w =>
    dsimp only
    split
    · exact hs
    · cases w <;> exact hs
  | setQueue w q => cases w <;> exact hs
  | validate r => exact hs.snoc rfl rfl fun _ _ h => by cases h
  | close r => exact hs.snoc rfl rfl fun _ _ h => by cases h
  | overview r => exact hs.snoc rfl rfl fun _ _ h => by cases h
  | create w str =>
    dsimp only
    split
    · exact hs
    · exact hs.snoc rfl rfl fun _ _ h => by cases h
  | dial =>
    dsimp only
    split
    · exact hs
    · exact hs.snoc rfl rfl fun _ _ h => by cases h; exact hs.1
  | indexW => dsimp only; split <;> exact hs
  | indexR => dsimp only; split <;> exact hs
  | startHead => unfold RPool.startHead; split <;> exact hs
  | _ => exact hs

/-- **C83**, whom: for fetching the members the pool connects to nothing but the address it was opened with, from which the marks for routing have been removed. -/
theorem C83_address {connStr : Bytes} {size : Int} {user tls : Bytes} {w : ω} {pool : RPool ω} (h : openRoutingPool W connStr size user tls w = .ok (.ok (), pool))
    (fuel : Nat) (moves : List PMove) {r : Nat} {str : Bytes} (hm : PEv.dialled r str ∈ ((PSys.fresh pool).moves W fuel moves).pool.log) :
    Spec.Without (ascii "+routing") connStr str := by
  have hopen : Asked (newRoutingPool.replaceAll (ascii "+routing") connStr) pool := by
    unfold openRoutingPool at h
    cases hn : newRoutingPool connStr size user tls w with
    | error e => rw [hn] at h; cases h
    | ok s =>
      rw [hn] at h
      simp only [Except.ok.injEq] at h
      have hs : Asked (newRoutingPool.replaceAll (ascii "+routing") connStr) s := by
        unfold newRoutingPool at hn
        split at hn
        · cases hn
        · split at hn
          · cases hn
          · simp only [Except.ok.injEq] at hn
            subst hn
            exact ⟨rfl, fun _ _ h => absurd h List.not_mem_nil⟩
      have := run_of_acts (W := W) (fun _ _ h s hs => asked_act h s hs) acts_start hs
      rwa [h] at this
  have hlast := (moves_of_acts (W := W) (fun _ _ h s hs => asked_act h s hs) fuel moves (PSys.fresh pool) hopen fun _ h => absurd h List.not_mem_nil).1
  rw [hlast.2 r str hm]
  exact removeF_without _ (by decide) _ _ (Nat.lt_succ_self _)

/-- `W'` answers one question as `W` does: the cluster overview, put to the system database over Bolt 4 and without naming a database over earlier versions. -/
def Spec.SameOverview (W : PWorld ω) (query' : ω → Nat → Bytes → Bytes → ω × Except Err (List (List Val))) : Prop :=
  ∀ w r, query' w r (ascii "call dbms.cluster.overview()") (if W.version w r = 4 then ascii "system" else []) =
    W.query w r (ascii "call dbms.cluster.overview()") (if W.version w r = 4 then ascii "system" else [])

theorem refresh_same {query' : ω → Nat → Bytes → Bytes → ω × Except Err (List (List Val))} (h : Spec.SameOverview W query') :
    refreshConnections { W with query := query' } = refreshConnections W := by
  have hv : ∀ w r, query' w r clusterOverview (overviewDb (W.version w r)) = W.query w r clusterOverview (overviewDb (W.version w r)) := h
  unfold refreshConnections
  congr 1
  funext conn
  cases conn with
  | none => rfl
  | some r => simp only [hv]; rfl

theorem remove_same {query' : ω → Nat → Bytes → Bytes → ω × Except Err (List (List Val))} (x : Option Wrap) : removeConn { W with query := query' } x = removeConn W x := by
  cases x <;> rfl

theorem drain_same {query' : ω → Nat → Bytes → Bytes → ω × Except Err (List (List Val))} (w : Bool) : ∀ fuel, drain { W with query := query' } w fuel = drain W w fuel
  | 0 => rfl
  | fuel + 1 => by simp only [drain, drain_same w fuel, remove_same]

theorem internalBorrow_same {query' : ω → Nat → Bytes → Bytes → ω × Except Err (List (List Val))} (w : Bool) : ∀ fuel,
    internalBorrow { W with query := query' } w fuel = internalBorrow W w fuel
  | 0 => rfl
  | fuel + 1 => by simp only [internalBorrow, internalBorrow_same w fuel, remove_same]; rfl

theorem pruneReads_same {query' : ω → Nat → Bytes → Bytes → ω × Except Err (List (List Val))} : ∀ xs reads, pruneReads { W with query := query' } xs reads = pruneReads W xs reads
  | [], _ => rfl
  | x :: xs, reads => by simp only [pruneReads, pruneReads_same xs]; rfl

theorem pruneWrites_same {query' : ω → Nat → Bytes → Bytes → ω × Except Err (List (List Val))} : ∀ xs writes, pruneWrites { W with query := query' } xs writes = pruneWrites W xs writes
  | [], _ => rfl
  | x :: xs, writes => by simp only [pruneWrites, pruneWrites_same xs, remove_same]

theorem prog_same {query' : ω → Nat → Bytes → Bytes → ω × Except Err (List (List Val))} (h : Spec.SameOverview W query') (fuel : Nat) (r : PReq) :
    r.prog { W with query := query' } fuel = r.prog W fuel := by
  match r with
  | .borrow false => simp only [PReq.prog, borrowR, internalBorrow_same]
  | .borrow true => simp only [PReq.prog, borrowRW, internalBorrow_same]
  | .reclaim c => rfl
  | .stop => simp only [PReq.prog, stop, drain_same]
  | .start =>
    show (do start { W with query := query' }; return none) = (do start W; return none)
    unfold start startRest
    rw [refresh_same h]
    rfl
  | .refresh =>
    show (do refreshRound { W with query := query' } fuel; return none) = (do refreshRound W fuel; return none)
    unfold refreshRound prune
    simp only [refresh_same h, pruneReads_same, pruneWrites_same]
    rfl

/-- **C83**, what: nothing the pool does depends on how the servers answer any other question. -/
theorem C83_question (W : PWorld ω) (query' : ω → Nat → Bytes → Bytes → ω × Except Err (List (List Val))) (h : Spec.SameOverview W query') :
    (∀ connStr size user tls w, openRoutingPool { W with query := query' } connStr size user tls w = openRoutingPool W connStr size user tls w) ∧
    ∀ (s : PSys ω) fuel moves, s.moves { W with query := query' } fuel moves = s.moves W fuel moves := by
  refine ⟨fun connStr size user tls w => ?_, fun s fuel moves => ?_⟩
  · unfold openRoutingPool start startRest
    rw [refresh_same h]
    rfl
  · induction moves generalizing s with
    | nil => rfl
    | cons m ms ih =>
      have hm : s.move { W with query := query' } fuel m = s.move W fuel m := by
        match m with
        | .call (.reclaim c) => simp only [PSys.move, prog_same h]
        | .call (.borrow w) => simp only [PSys.move, prog_same h]
        | .call .start => simp only [PSys.move, prog_same h]
        | .call .stop => simp only [PSys.move, prog_same h]
        | .call .refresh => simp only [PSys.move, prog_same h]
        | .step k => rfl
      have := ih (s.move W fuel m)
      simp only [PSys.moves, List.foldl_cons] at this ⊢
      rw [hm]
      exact this

end

namespace C83

/-- Servers that know the cluster in their system database only, and fail on everything else. -/
def picky : PWorld Nat := { Script.world { rows := fun _ => threeMembers } with
  query := fun w _ q db => (w + 1, if q = ascii "call dbms.cluster.overview()" ∧ db = ascii "system" then .ok threeMembers else .error (.plain "unknown")) }

/-- They differ from those that answer every question alike in other answers only. -/
example : Spec.SameOverview picky fun w _ _ _ => (w + 1, .ok threeMembers) := by
  intro w r
  show (w + 1, Except.ok threeMembers) = (w + 1, if _ then _ else _)
  rw [if_pos ⟨rfl, rfl⟩]

/-- The connection for fetching the members is the first one. -/
example : (match openRoutingPool picky (ascii "bolt+routing://a") 3 (ascii "u:p") [] 0 with
    | .ok (.ok (), pool) => pool.log.filterMap fun | .dialled r str => some (r, str) | _ => none
    | _ => []) = [(0, ascii "bolt://a")] := by decide +kernel

end C83
end Verif

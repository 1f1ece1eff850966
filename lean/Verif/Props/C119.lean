/-
C119  Which calls of a connection may be made by several goroutines at the same time.
-/
import Verif.Props.C73
namespace Verif
open Spec

namespace Spec

/-- The kinds of calls.  `finish` is Commit or Rollback. -/
inductive CallKind where
  | query | begin_ | finish | close | makeIdle | validateOpen | isClosed | setChunkSize | setTimeout
  deriving DecidableEq

/-- The kind of a call. -/
def kindOf : AnyReq → CallKind
  | .query _ => .query
  | .begin_ _ => .begin_
  | .commit _ => .finish
  | .rollback _ => .finish
  | .close => .close
  | .makeIdle => .makeIdle
  | .validateOpen => .validateOpen
  | .isClosed _ => .isClosed
  | .setChunkSize _ => .setChunkSize
  | .setTimeout => .setTimeout

/-- A data race: two goroutines are in the middle of calls of the kinds `a` and `b`, and what each of them does next accesses the same field, at least one of them
writing it.  (They cannot both hold the mutex.) -/
def ConnRace {σ : Type} (s : Sys σ AnyReq) (a b : CallKind) : Prop :=
  ∃ i j r r' t t' g g' k k', i ≠ j ∧ (s.thr i).cur = some (r, .act t g k) ∧ (s.thr j).cur = some (r', .act t' g' k') ∧ kindOf r = a ∧ kindOf r' = b ∧
    ∃ x ∈ t, ∃ y ∈ t', x.field = y.field ∧ (x.write = true ∨ y.write = true)

/-- The kinds of calls that may be made at the same time: queries and queries; calls that only look at one field; calls that access different fields. -/
def together : CallKind → CallKind → Bool
  | .query, .query => true
  | .validateOpen, b => b ∈ [.validateOpen, .isClosed, .setChunkSize, .setTimeout]
  | .isClosed, b => b ∈ [.validateOpen, .isClosed, .setChunkSize, .setTimeout]
  | .setChunkSize, b => b ∈ [.validateOpen, .isClosed, .setTimeout]
  | .setTimeout, b => b ∈ [.validateOpen, .isClosed, .setChunkSize]
  | _, _ => false

end Spec

/-- All accesses of a program are of this sort. -/
def Prog.Touches {σ α : Type} (T : Touch → Prop) : Prog σ α → Prop
  | done _ => True
  | act t _ k => (∀ x ∈ t, T x) ∧ ∀ c, (k c).Touches T

/-- What the calls with few accesses access. -/
def touchesOf : AnyReq → Touch → Prop
  | .validateOpen, x => x = .rd .closed
  | .isClosed h, x => x = .rd (.txClosed h)
  | .setChunkSize _, x => x = .wr .chunkSize
  | .setTimeout, x => x = .wr .timeout
  | _, _ => True

theorem Prog.Touches.all {σ α : Type} : (p : Prog σ α) → p.Touches fun _ => True
  | .done _ => trivial
  | .act _ _ k => ⟨fun _ _ => trivial, fun c => Prog.Touches.all (k c)⟩

section
variable {σ : Type} (env : Env) (W : World σ) (fuel : Nat)

theorem touches_prog (r : AnyReq) : ((anyCode env W fuel).prog r).Touches (touchesOf r) := by
  cases r with
  | validateOpen => exact ⟨fun x hx => List.mem_singleton.1 hx, fun c => by cases h : (validateOpen W c).1 <;> simp only [Prog.bind, h] <;> trivial⟩
  | isClosed h => exact ⟨fun x hx => List.mem_singleton.1 hx, fun c => trivial⟩
  | setChunkSize n => exact ⟨fun x hx => List.mem_singleton.1 hx, fun c => trivial⟩
  | setTimeout => exact ⟨fun x hx => List.mem_singleton.1 hx, fun c => trivial⟩
  | query r => exact Prog.Touches.all _
  | begin_ db => exact Prog.Touches.all _
  | commit h => exact Prog.Touches.all _
  | rollback h => exact Prog.Touches.all _
  | close => exact Prog.Touches.all _
  | makeIdle => exact Prog.Touches.all _

/-- What every call in progress does, and who has the mutex. -/
structure Polite (s : Sys σ AnyReq) : Prop where
  touches : ∀ i r p, (s.thr i).cur = some (r, p) → p.Touches (touchesOf r)
  locked : ∀ i q p, (s.thr i).cur = some (.query q, p) → s.holder = some i

variable {env W fuel}

theorem Polite.step {s s' : Sys σ AnyReq} {i : Nat} (hs : Polite s) (h : s.step (anyCode env W fuel) i = some s') : Polite s' := by
  have other : ∀ {t : Thread σ AnyReq} {j r p}, (s.setThr i t j).cur = some (r, p) → (j = i ∧ t.cur = some (r, p)) ∨ (j ≠ i ∧ (s.thr j).cur = some (r, p)) := by
    intro t j r p hj
    by_cases e : j = i
    · subst e; rw [setThr_self] at hj; exact .inl ⟨rfl, hj⟩
    · rw [setThr_ne s e] at hj; exact .inr ⟨e, hj⟩
  unfold Sys.step at h
  split at h
  · next hcur =>
    split at h
    · cases h
    · next r rs htodo =>
      split at h
      · cases h
        refine ⟨fun j r' p hj => ?_, fun j q p hj => ?_⟩
        · rcases other hj with ⟨_, h⟩ | ⟨_, h⟩
          · cases h
          · exact hs.touches j r' p h
        · rcases other hj with ⟨_, h⟩ | ⟨_, h⟩
          · cases h
          · exact hs.locked j q p h
      · split at h
        · next hl =>
          split at h
          · cases h
          · next hh =>
            cases h
            refine ⟨fun j r' p hj => ?_, fun j q p hj => ?_⟩
            · rcases other hj with ⟨_, h⟩ | ⟨_, h⟩
              · cases h; exact touches_prog env W fuel r
              · exact hs.touches j r' p h
            · rcases other hj with ⟨rfl, h⟩ | ⟨_, h⟩
              · rfl
              · have := hs.locked j q p h
                rw [hh] at this; cases this
        · next hl =>
          cases h
          refine ⟨fun j r' p hj => ?_, fun j q p hj => ?_⟩
          · rcases other hj with ⟨_, h⟩ | ⟨_, h⟩
            · cases h; exact touches_prog env W fuel r
            · exact hs.touches j r' p h
          · rcases other hj with ⟨_, h⟩ | ⟨_, h⟩
            · cases h; exact absurd rfl hl
            · exact hs.locked j q p h
  · next r t g k hcur =>
    cases h
    refine ⟨fun j r' p hj => ?_, fun j q p hj => ?_⟩
    · rcases other hj with ⟨rfl, h⟩ | ⟨_, h⟩
      · cases h; exact (hs.touches j r _ hcur).2 s.conn
      · exact hs.touches j r' p h
    · rcases other hj with ⟨rfl, h⟩ | ⟨_, h⟩
      · cases h; exact hs.locked j q _ hcur
      · exact hs.locked j q p h
  · next r res hcur =>
    cases h
    refine ⟨fun j r' p hj => ?_, fun j q p hj => ?_⟩
    · rcases other hj with ⟨_, h⟩ | ⟨_, h⟩
      · cases h
      · exact hs.touches j r' p h
    · rcases other hj with ⟨_, h⟩ | ⟨hne, h⟩
      · cases h
      · have hj' := hs.locked j q p h
        dsimp only
        cases hr : (anyCode env W fuel).locks r with
        | false => exact hj'
        | true =>
          exfalso
          cases r with
          | query q' =>
            rw [hs.locked i q' _ hcur] at hj'
            exact hne (Option.some.inj hj').symm
          | _ => cases hr

theorem Polite.sched : (is : List Nat) → {s : Sys σ AnyReq} → Polite s → Polite (s.sched (anyCode env W fuel) is)
  | [], _, h => h
  | i :: is, s, h => by
    unfold Sys.sched
    cases hs : s.step (anyCode env W fuel) i with
    | none => exact Polite.sched is h
    | some s' => exact Polite.sched is (h.step hs)

/-- Calls of kinds that may be made at the same time never race. -/
theorem C119_free (c0 : Conn σ) (todo : Nat → List AnyReq) (is : List Nat) {a b : CallKind} (h : together a b = true) :
    ¬ ConnRace ((Sys.init c0 todo).sched (anyCode env W fuel) is) a b := by
  have hp := Polite.sched (env := env) (W := W) (fuel := fuel) is (s := Sys.init c0 todo) ⟨fun _ _ _ h => (by cases h), fun _ _ _ h => (by cases h)⟩
  generalize (Sys.init c0 todo).sched (anyCode env W fuel) is = s at hp
  rintro ⟨i, j, r, r', t, t', g, g', k, k', hij, hi, hj, rfl, rfl, x, hx, y, hy, hf, hw⟩
  have hx' := (hp.touches i r _ hi).1 x hx
  have hy' := (hp.touches j r' _ hj).1 y hy
  cases r <;> cases r' <;> simp only [kindOf, together, touchesOf, List.mem_cons, List.not_mem_nil, reduceCtorEq, or_false, or_true, decide_false, decide_true, Bool.false_eq_true] at h hx' hy'
  case query.query q q' =>
    have h1 := hp.locked i q _ hi
    have h2 := hp.locked j q' _ hj
    rw [h1] at h2
    exact hij (Option.some.inj h2)
  all_goals
    subst hx'; subst hy'
    simp [Touch.rd, Touch.wr] at hf hw

end

/-! ### The other kinds do race -/

namespace C119

/-- Whether goroutines `i` and `j` race now. -/
def racing {σ : Type} (s : Sys σ AnyReq) (i j : Nat) (a b : CallKind) : Bool :=
  match (s.thr i).cur, (s.thr j).cur with
  | some (r, .act t _ _), some (r', .act t' _ _) => i != j && decide (kindOf r = a) && decide (kindOf r' = b) && t.any fun x => t'.any fun y => decide (x.field = y.field) && (x.write || y.write)
  | _, _ => false

theorem racing_race {σ : Type} {s : Sys σ AnyReq} {i j : Nat} {a b : CallKind} (h : racing s i j a b = true) : ConnRace s a b := by
  unfold racing at h
  split at h
  · rename_i r t g k r' t' g' k' hi hj
    simp only [Bool.and_eq_true, bne_iff_ne, ne_eq, decide_eq_true_eq, List.any_eq_true, Bool.or_eq_true] at h
    obtain ⟨⟨⟨h1, h2⟩, h3⟩, x, hx, y, hy, h4⟩ := h
    exact ⟨i, j, r, r', t, t', g, g', k, k', h1, hi, hj, h2, h3, x, hx, y, hy, h4⟩
  · cases h

/-- The connection after these calls: the server accepts the session and then gives these answers. -/
def conn (ops : List Op) (answers : List (List Bytes)) : Conn (List (List Bytes)) :=
  run env0 scripted 3 ops (opened (sOpen4 ++ answers)).2

theorem conn_inUse (ops : List Op) (answers : List (List Bytes)) (h : (opened (sOpen4 ++ answers)).1.kind = 0) : InUse env0 scripted (conn ops answers) :=
  opened_inUse h ops

/-- Goroutine 0 makes the call `r`, goroutine 1 the call `r'`, goroutine 2 begins a transaction; this is the order of their steps. -/
def state (ops : List Op) (answers : List (List Bytes)) (r r' : AnyReq) (is : List Nat) : Sys (List (List Bytes)) AnyReq :=
  (Sys.init (conn ops answers) fun | 0 => [r] | 1 => [r'] | 2 => [.begin_ []] | _ => []).sched (anyCode env0 scripted 3) is

/-- Goroutine 1 starts its call; goroutine 0 starts its call and takes `n` steps more. -/
abbrev ahead (n : Nat) : List Nat := 1 :: 0 :: List.replicate n 0

end C119

/-- Calls of the kinds `a` and `b` can race on a connection that is in use. -/
def Spec.CanRace (a b : CallKind) : Prop :=
  ∃ (σ : Type) (env : Env) (W : World σ) (fuel : Nat) (c0 : Conn σ) (todo : Nat → List AnyReq) (is : List Nat),
    InUse env W c0 ∧ ConnRace ((Sys.init c0 todo).sched (anyCode env W fuel) is) a b

namespace C119

theorem canRace_symm {a b : CallKind} (h : CanRace a b) : CanRace b a := by
  obtain ⟨σ, env, W, fuel, c0, todo, is, hc, i, j, r, r', t, t', g, g', k, k', hij, hi, hj, ha, hb, x, hx, y, hy, hf, hw⟩ := h
  exact ⟨σ, env, W, fuel, c0, todo, is, hc, j, i, r', r, t', t, g', g, k', k, hij.symm, hj, hi, hb, ha, y, hy, x, hx, hf.symm, hw.symm⟩

theorem canRace {ops : List Op} {answers : List (List Bytes)} {r r' : AnyReq} {is : List Nat} (h0 : (opened (sOpen4 ++ answers)).1.kind = 0)
    (h : racing (state ops answers r r' is) 0 1 (kindOf r) (kindOf r') = true) : CanRace (kindOf r) (kindOf r') :=
  ⟨_, env0, scripted, 3, _, _, is, conn_inUse ops answers h0, racing_race h⟩

/-- A query. -/
abbrev q : AnyReq := .query ⟨ascii "RETURN 1", [], [], false⟩

/-- The transaction is begun; then the server fails the query and the RESET and accepts the ROLLBACK that comes with the closing of the connection. -/
def badQuery : List (List Bytes) := [sSuccess, sFailure, [], sFailure, sSuccess, []]
/-- The transaction is begun; then the server fails the request and the RESET and accepts the ROLLBACK that comes with the closing of the connection. -/
def badEnd : List (List Bytes) := [sSuccess, sFailure, sFailure, sSuccess, []]

theorem begun : (opened (sOpen4 ++ badQuery)).1.kind = 0 := by decide +kernel
theorem begun' : (opened (sOpen4 ++ badEnd)).1.kind = 0 := by decide +kernel

theorem query_begin_ : CanRace .query .begin_ :=
  canRace (ops := [.begin_ []]) (answers := badQuery) (r := q) (r' := .begin_ []) (is := ahead 15) begun (by decide +kernel)
theorem query_finish : CanRace .query .finish :=
  canRace (ops := [.begin_ []]) (answers := badQuery) (r := q) (r' := .rollback 0) (is := ahead 15) begun (by decide +kernel)
theorem query_close : CanRace .query .close :=
  canRace (ops := [.begin_ []]) (answers := badQuery) (r := q) (r' := .close) (is := ahead 18) begun (by decide +kernel)
theorem query_makeIdle : CanRace .query .makeIdle :=
  canRace (ops := [.begin_ []]) (answers := badQuery) (r := q) (r' := .makeIdle) (is := ahead 15) begun (by decide +kernel)
theorem query_validateOpen : CanRace .query .validateOpen :=
  canRace (ops := [.begin_ []]) (answers := badQuery) (r := q) (r' := .validateOpen) (is := ahead 18) begun (by decide +kernel)
theorem query_isClosed : CanRace .query .isClosed :=
  canRace (ops := [.begin_ []]) (answers := badQuery) (r := q) (r' := .isClosed 0) (is := ahead 15) begun (by decide +kernel)
theorem query_setChunkSize : CanRace .query .setChunkSize :=
  canRace (ops := [.begin_ []]) (answers := badQuery) (r := q) (r' := .setChunkSize 1) (is := ahead 2) begun (by decide +kernel)
theorem query_setTimeout : CanRace .query .setTimeout :=
  canRace (ops := [.begin_ []]) (answers := badQuery) (r := q) (r' := .setTimeout) (is := ahead 2) begun (by decide +kernel)
theorem begin__begin_ : CanRace .begin_ .begin_ :=
  canRace (ops := []) (answers := [sSuccess]) (r := .begin_ []) (r' := .begin_ []) (is := ahead 5) (by decide +kernel) (by decide +kernel)
theorem begin__validateOpen : CanRace .begin_ .validateOpen :=
  canRace (ops := []) (answers := [sFailure, sFailure, []]) (r := .begin_ []) (r' := .validateOpen) (is := ahead 12) (by decide +kernel) (by decide +kernel)
theorem begin__setChunkSize : CanRace .begin_ .setChunkSize :=
  canRace (ops := []) (answers := []) (r := .begin_ []) (r' := .setChunkSize 1) (is := ahead 3) (by decide +kernel) (by decide +kernel)
theorem begin__setTimeout : CanRace .begin_ .setTimeout :=
  canRace (ops := []) (answers := []) (r := .begin_ []) (r' := .setTimeout) (is := ahead 3) (by decide +kernel) (by decide +kernel)
theorem begin__isClosed : CanRace .begin_ .isClosed :=
  canRace (ops := []) (answers := badEnd) (r := .begin_ []) (r' := .isClosed 0) (is := [0, 0] ++ List.replicate 8 2 ++ [1] ++ List.replicate 14 0) begun' (by decide +kernel)
theorem finish_begin_ : CanRace .finish .begin_ :=
  canRace (ops := [.begin_ []]) (answers := badEnd) (r := .rollback 0) (r' := .begin_ []) (is := ahead 14) begun' (by decide +kernel)
theorem finish_finish : CanRace .finish .finish :=
  canRace (ops := [.begin_ []]) (answers := badEnd) (r := .rollback 0) (r' := .rollback 0) (is := ahead 14) begun' (by decide +kernel)
theorem finish_close : CanRace .finish .close :=
  canRace (ops := [.begin_ []]) (answers := badEnd) (r := .rollback 0) (r' := .close) (is := ahead 17) begun' (by decide +kernel)
theorem finish_makeIdle : CanRace .finish .makeIdle :=
  canRace (ops := [.begin_ []]) (answers := badEnd) (r := .rollback 0) (r' := .makeIdle) (is := ahead 14) begun' (by decide +kernel)
theorem finish_isClosed : CanRace .finish .isClosed :=
  canRace (ops := [.begin_ []]) (answers := badEnd) (r := .rollback 0) (r' := .isClosed 0) (is := ahead 14) begun' (by decide +kernel)
theorem finish_validateOpen : CanRace .finish .validateOpen :=
  canRace (ops := [.begin_ []]) (answers := badEnd) (r := .rollback 0) (r' := .validateOpen) (is := ahead 17) begun' (by decide +kernel)
theorem finish_setChunkSize : CanRace .finish .setChunkSize :=
  canRace (ops := [.begin_ []]) (answers := badEnd) (r := .rollback 0) (r' := .setChunkSize 1) (is := ahead 2) begun' (by decide +kernel)
theorem finish_setTimeout : CanRace .finish .setTimeout :=
  canRace (ops := [.begin_ []]) (answers := badEnd) (r := .rollback 0) (r' := .setTimeout) (is := ahead 2) begun' (by decide +kernel)
theorem close_begin_ : CanRace .close .begin_ :=
  canRace (ops := [.begin_ []]) (answers := badEnd) (r := .close) (r' := .begin_ []) (is := ahead 17) begun' (by decide +kernel)
theorem close_close : CanRace .close .close :=
  canRace (ops := [.begin_ []]) (answers := badEnd) (r := .close) (r' := .close) (is := ahead 20) begun' (by decide +kernel)
theorem close_makeIdle : CanRace .close .makeIdle :=
  canRace (ops := [.begin_ []]) (answers := badEnd) (r := .close) (r' := .makeIdle) (is := ahead 17) begun' (by decide +kernel)
theorem close_isClosed : CanRace .close .isClosed :=
  canRace (ops := [.begin_ []]) (answers := badEnd) (r := .close) (r' := .isClosed 0) (is := ahead 17) begun' (by decide +kernel)
theorem close_validateOpen : CanRace .close .validateOpen :=
  canRace (ops := [.begin_ []]) (answers := badEnd) (r := .close) (r' := .validateOpen) (is := ahead 20) begun' (by decide +kernel)
theorem close_setChunkSize : CanRace .close .setChunkSize :=
  canRace (ops := [.begin_ []]) (answers := badEnd) (r := .close) (r' := .setChunkSize 1) (is := ahead 5) begun' (by decide +kernel)
theorem close_setTimeout : CanRace .close .setTimeout :=
  canRace (ops := [.begin_ []]) (answers := badEnd) (r := .close) (r' := .setTimeout) (is := ahead 5) begun' (by decide +kernel)
theorem makeIdle_begin_ : CanRace .makeIdle .begin_ :=
  canRace (ops := [.begin_ []]) (answers := badEnd) (r := .makeIdle) (r' := .begin_ []) (is := ahead 16) begun' (by decide +kernel)
theorem makeIdle_makeIdle : CanRace .makeIdle .makeIdle :=
  canRace (ops := [.begin_ []]) (answers := badEnd) (r := .makeIdle) (r' := .makeIdle) (is := ahead 16) begun' (by decide +kernel)
theorem makeIdle_isClosed : CanRace .makeIdle .isClosed :=
  canRace (ops := [.begin_ []]) (answers := badEnd) (r := .makeIdle) (r' := .isClosed 0) (is := ahead 16) begun' (by decide +kernel)
theorem makeIdle_validateOpen : CanRace .makeIdle .validateOpen :=
  canRace (ops := [.begin_ []]) (answers := badEnd) (r := .makeIdle) (r' := .validateOpen) (is := ahead 19) begun' (by decide +kernel)
theorem makeIdle_setChunkSize : CanRace .makeIdle .setChunkSize :=
  canRace (ops := [.begin_ []]) (answers := badEnd) (r := .makeIdle) (r' := .setChunkSize 1) (is := ahead 4) begun' (by decide +kernel)
theorem makeIdle_setTimeout : CanRace .makeIdle .setTimeout :=
  canRace (ops := [.begin_ []]) (answers := badEnd) (r := .makeIdle) (r' := .setTimeout) (is := ahead 4) begun' (by decide +kernel)
theorem setChunkSize_setChunkSize : CanRace .setChunkSize .setChunkSize :=
  canRace (ops := []) (answers := []) (r := .setChunkSize 1) (r' := .setChunkSize 2) (is := ahead 0) (by decide +kernel) (by decide +kernel)
theorem setTimeout_setTimeout : CanRace .setTimeout .setTimeout :=
  canRace (ops := []) (answers := []) (r := .setTimeout) (r' := .setTimeout) (is := ahead 0) (by decide +kernel) (by decide +kernel)

theorem all (a b : CallKind) (h : together a b = false) : CanRace a b :=
  match a, b, h with
  | .query, .begin_, _ => query_begin_
  | .query, .finish, _ => query_finish
  | .query, .close, _ => query_close
  | .query, .makeIdle, _ => query_makeIdle
  | .query, .validateOpen, _ => query_validateOpen
  | .query, .isClosed, _ => query_isClosed
  | .query, .setChunkSize, _ => query_setChunkSize
  | .query, .setTimeout, _ => query_setTimeout
  | .begin_, .query, _ => canRace_symm query_begin_
  | .begin_, .begin_, _ => begin__begin_
  | .begin_, .finish, _ => canRace_symm finish_begin_
  | .begin_, .close, _ => canRace_symm close_begin_
  | .begin_, .makeIdle, _ => canRace_symm makeIdle_begin_
  | .begin_, .validateOpen, _ => begin__validateOpen
  | .begin_, .isClosed, _ => begin__isClosed
  | .begin_, .setChunkSize, _ => begin__setChunkSize
  | .begin_, .setTimeout, _ => begin__setTimeout
  | .finish, .query, _ => canRace_symm query_finish
  | .finish, .begin_, _ => finish_begin_
  | .finish, .finish, _ => finish_finish
  | .finish, .close, _ => finish_close
  | .finish, .makeIdle, _ => finish_makeIdle
  | .finish, .validateOpen, _ => finish_validateOpen
  | .finish, .isClosed, _ => finish_isClosed
  | .finish, .setChunkSize, _ => finish_setChunkSize
  | .finish, .setTimeout, _ => finish_setTimeout
  | .close, .query, _ => canRace_symm query_close
  | .close, .begin_, _ => close_begin_
  | .close, .finish, _ => canRace_symm finish_close
  | .close, .close, _ => close_close
  | .close, .makeIdle, _ => close_makeIdle
  | .close, .validateOpen, _ => close_validateOpen
  | .close, .isClosed, _ => close_isClosed
  | .close, .setChunkSize, _ => close_setChunkSize
  | .close, .setTimeout, _ => close_setTimeout
  | .makeIdle, .query, _ => canRace_symm query_makeIdle
  | .makeIdle, .begin_, _ => makeIdle_begin_
  | .makeIdle, .finish, _ => canRace_symm finish_makeIdle
  | .makeIdle, .close, _ => canRace_symm close_makeIdle
  | .makeIdle, .makeIdle, _ => makeIdle_makeIdle
  | .makeIdle, .validateOpen, _ => makeIdle_validateOpen
  | .makeIdle, .isClosed, _ => makeIdle_isClosed
  | .makeIdle, .setChunkSize, _ => makeIdle_setChunkSize
  | .makeIdle, .setTimeout, _ => makeIdle_setTimeout
  | .validateOpen, .query, _ => canRace_symm query_validateOpen
  | .validateOpen, .begin_, _ => canRace_symm begin__validateOpen
  | .validateOpen, .finish, _ => canRace_symm finish_validateOpen
  | .validateOpen, .close, _ => canRace_symm close_validateOpen
  | .validateOpen, .makeIdle, _ => canRace_symm makeIdle_validateOpen
  | .isClosed, .query, _ => canRace_symm query_isClosed
  | .isClosed, .begin_, _ => canRace_symm begin__isClosed
  | .isClosed, .finish, _ => canRace_symm finish_isClosed
  | .isClosed, .close, _ => canRace_symm close_isClosed
  | .isClosed, .makeIdle, _ => canRace_symm makeIdle_isClosed
  | .setChunkSize, .query, _ => canRace_symm query_setChunkSize
  | .setChunkSize, .begin_, _ => canRace_symm begin__setChunkSize
  | .setChunkSize, .finish, _ => canRace_symm finish_setChunkSize
  | .setChunkSize, .close, _ => canRace_symm close_setChunkSize
  | .setChunkSize, .makeIdle, _ => canRace_symm makeIdle_setChunkSize
  | .setChunkSize, .setChunkSize, _ => setChunkSize_setChunkSize
  | .setTimeout, .query, _ => canRace_symm query_setTimeout
  | .setTimeout, .begin_, _ => canRace_symm begin__setTimeout
  | .setTimeout, .finish, _ => canRace_symm finish_setTimeout
  | .setTimeout, .close, _ => canRace_symm close_setTimeout
  | .setTimeout, .makeIdle, _ => canRace_symm makeIdle_setTimeout
  | .setTimeout, .setTimeout, _ => setTimeout_setTimeout

end C119

/-- Two kinds of calls can race exactly if they are not in the table. -/
theorem C119 (a b : CallKind) : CanRace a b ↔ together a b = false := by
  refine ⟨fun ⟨σ, env, W, fuel, c0, todo, is, _, h⟩ => ?_, C119.all a b⟩
  cases ht : together a b with
  | false => rfl
  | true => exact absurd h (C119_free c0 todo is ht)

section
variable {σ : Type} (env : Env) (W : World σ) (fuel : Nat)

theorem always_end : (is : List Nat) → (s : Sys σ AnyReq) → AlwaysUndisturbed env W fuel is s → Undisturbed (s.sched (anyCode env W fuel) is)
  | [], _, h => h
  | i :: is, s, h => by
    unfold Sys.sched
    cases hs : s.step (anyCode env W fuel) i with
    | none => exact always_end is s (by have := h.2; rwa [hs] at this)
    | some s' => exact always_end is s' (by have := h.2; rwa [hs] at this)

/-- Users who let only queries overlap (C73) see no race at all. -/
theorem C119_undisturbed (c0 : Conn σ) (todo : Nat → List AnyReq) (is : List Nat) (hu : AlwaysUndisturbed env W fuel is (Sys.init c0 todo)) (a b : CallKind) :
    ¬ ConnRace ((Sys.init c0 todo).sched (anyCode env W fuel) is) a b := by
  intro h
  have hn := C119_free (env := env) (W := W) (fuel := fuel) c0 todo is (a := .query) (b := .query) rfl
  have hu' := always_end env W fuel is _ hu
  obtain ⟨i, j, r, r', t, t', g, g', k, k', hij, hi, hj, ha, hb, rest⟩ := h
  by_cases hr : ∃ q, r = .query q
  · by_cases hr' : ∃ q, r' = .query q
    · obtain ⟨q, rfl⟩ := hr
      obtain ⟨q', rfl⟩ := hr'
      exact hn ⟨i, j, _, _, t, t', g, g', k, k', hij, hi, hj, rfl, rfl, rest⟩
    · have := hu' j i r' _ hj (fun q e => hr' ⟨q, e⟩) hij
      rw [hi] at this; cases this
  · have := hu' i j r _ hi (fun q e => hr ⟨q, e⟩) hij.symm
    rw [hj] at this; cases this

end

/-! ### What a race can do: a nil transaction -/

namespace C119

/-- Whether goroutine 1 has committed and then the call `r` of goroutine 0 has panicked. -/
def crashed {σ : Type} (r : AnyReq) (s : Sys σ AnyReq) : Bool :=
  match s.log with
  | [(1, .commit 0, .ok _), (0, r', .panic)] => decide (r' = r)
  | _ => false

theorem crashed_log {σ : Type} {r : AnyReq} {s : Sys σ AnyReq} (h : crashed r s = true) : ∃ rows, s.log = [(1, .commit 0, .ok rows), (0, r, .panic)] := by
  unfold crashed at h
  split at h
  · next rows r' e => exact ⟨rows, of_decide_eq_true h ▸ e⟩
  · cases h

/-- Goroutine 0 finds a transaction (after `n` steps); goroutine 1 commits it; goroutine 0 reads the field again. -/
def meanwhile (n : Nat) : List Nat := List.replicate n 0 ++ List.replicate 12 1 ++ List.replicate 4 0

/-- The server accepts everything. -/
def good : List (List Bytes) := [sSuccess, sSuccess, sSuccess]

end C119

/-- A call that panics while another goroutine commits, though the two calls made one after the other succeed. -/
def Spec.PanicsMeanwhile (r : AnyReq) : Prop :=
  ∃ (σ : Type) (env : Env) (W : World σ) (fuel : Nat) (c0 : Conn σ) (todo : Nat → List AnyReq) (is : List Nat) (rows : Rows),
    InUse env W c0 ∧ ((Sys.init c0 todo).sched (anyCode env W fuel) is).log = [(1, .commit 0, .ok rows), (0, r, .panic)] ∧
    (r.alone env W fuel c0).1.kind = 0 ∧ (r.alone env W fuel ((AnyReq.commit 0).alone env W fuel c0).2).1.kind = 0

theorem C119.panics {ops : List Op} {answers : List (List Bytes)} {r : AnyReq} {is : List Nat} (h0 : (opened (sOpen4 ++ answers)).1.kind = 0)
    (h1 : crashed r (state ops answers r (.commit 0) is) = true) (h2 : (r.alone env0 scripted 3 (conn ops answers)).1.kind = 0)
    (h3 : (r.alone env0 scripted 3 ((AnyReq.commit 0).alone env0 scripted 3 (conn ops answers)).2).1.kind = 0) : PanicsMeanwhile r := by
  obtain ⟨rows, hl⟩ := crashed_log h1
  exact ⟨_, env0, scripted, 3, _, _, is, rows, conn_inUse ops answers h0, hl, h2, h3⟩

/-- While one goroutine commits, another one that closes the connection or makes it idle can panic, though the server accepts everything. -/
theorem C119_panics : PanicsMeanwhile .close ∧ PanicsMeanwhile .makeIdle :=
  ⟨C119.panics (ops := [.begin_ []]) (answers := C119.good) (is := C119.meanwhile 3) (by decide +kernel) (by decide +kernel) (by decide +kernel) (by decide +kernel),
    C119.panics (ops := [.begin_ []]) (answers := C119.good) (is := C119.meanwhile 2) (by decide +kernel) (by decide +kernel) (by decide +kernel) (by decide +kernel)⟩

/-- The hypotheses of `C119_free` and `C119_undisturbed` are met: two queries overlap, and nothing races. -/
example : ¬ ConnRace (C119.state [] C119.good C119.q C119.q [0, 1, 0, 0, 1]) .query .query :=
  C119_free _ _ _ rfl

/-- All calls in progress and to come are queries. -/
def C119.Asks {σ : Type} (s : Sys σ AnyReq) : Prop :=
  ∀ i, (∀ r ∈ (s.thr i).todo, ∃ q, r = .query q) ∧ ∀ r p, (s.thr i).cur = some (r, p) → ∃ q, r = .query q

theorem C119.Asks.set {σ : Type} {s : Sys σ AnyReq} (h : Asks s) (i : Nat) (t : Thread σ AnyReq) (h1 : ∀ r ∈ t.todo, ∃ q, r = .query q)
    (h2 : ∀ r p, t.cur = some (r, p) → ∃ q, r = .query q) (c : Conn σ) (o : Option Nat) (l : List (Nat × AnyReq × CRes Rows)) : Asks ⟨c, o, s.setThr i t, l⟩ := by
  intro j
  by_cases e : j = i
  · subst e; dsimp only; rw [setThr_self]; exact ⟨h1, h2⟩
  · dsimp only; rw [setThr_ne s e]; exact h j

theorem C119.Asks.step {σ : Type} {env : Env} {W : World σ} {fuel : Nat} {s : Sys σ AnyReq} (h : Asks s) (i : Nat) : Asks ((s.step (anyCode env W fuel) i).getD s) := by
  cases hs : s.step (anyCode env W fuel) i with
  | none => exact h
  | some s' =>
    unfold Sys.step at hs
    split at hs
    · split at hs
      · cases hs
      · next r rs htodo =>
        have hr := (h i).1
        rw [htodo] at hr
        have hrs := fun r hm => hr r (List.mem_cons_of_mem _ hm)
        have hr1 := hr r List.mem_cons_self
        split at hs
        · cases hs; exact h.set i _ hrs (fun _ _ e => by cases e) _ _ _
        · split at hs
          · split at hs
            · cases hs
            · cases hs; exact h.set i _ hrs (fun _ _ e => by cases e; exact hr1) _ _ _
          · cases hs; exact h.set i _ hrs (fun _ _ e => by cases e; exact hr1) _ _ _
    · next r t g k hcur => cases hs; exact h.set i ⟨(s.thr i).todo, some (r, k s.conn)⟩ (h i).1 (fun _ _ e => by cases e; exact (h i).2 _ _ hcur) _ _ _
    · cases hs; exact h.set i ⟨(s.thr i).todo, none⟩ (h i).1 (fun _ _ e => by cases e) _ _ _

theorem C119.Asks.calm {σ : Type} {env : Env} {W : World σ} {fuel : Nat} : (is : List Nat) → {s : Sys σ AnyReq} → Asks s → AlwaysUndisturbed env W fuel is s
  | [], s, h => fun i _ r p hc hn _ => by
    obtain ⟨q, e⟩ := (h i).2 r p hc
    exact absurd e (hn q)
  | i :: is, s, h => ⟨fun i _ r p hc hn _ => by
    obtain ⟨q, e⟩ := (h i).2 r p hc
    exact absurd e (hn q), (h.step i).calm is⟩

/-- Two goroutines with a query each. -/
def C119.two : Nat → List AnyReq := fun i => if i < 2 then [C119.q] else []

theorem C119.two_asks (c : Conn (List (List Bytes))) : Asks (Sys.init c two) := by
  refine fun i => ⟨fun r hr => ?_, fun _ _ e => by cases e⟩
  have hr : r ∈ two i := hr
  unfold two at hr
  split at hr
  · exact ⟨_, List.mem_singleton.1 hr⟩
  · cases hr

example : ¬ ConnRace ((Sys.init (C119.conn [] C119.good) C119.two).sched (anyCode env0 scripted 3) [0, 1, 0, 0, 1]) .query .query :=
  C119_undisturbed env0 scripted 3 _ _ _ ((C119.two_asks _).calm _) _ _

end Verif

/-
C61: only connections that validate as open are lent.
-/
import Verif.Proofs.PoolSys
import Verif.Spec.Pool
namespace Verif
open Spec

theorem Exec.bind_ok {S α β : Type} {f : α → PProg S β} {b : β} : ∀ {p : PProg S α} {tr : List (S × S)}, Exec (PProg.bind p f) tr (.ok b) →
    ∃ a t₁ t₂, tr = t₁ ++ t₂ ∧ Exec p t₁ (.ok a) ∧ Exec (f a) t₂ (.ok b)
  | .done (.ok a), tr, h => ⟨a, [], tr, rfl, .done, h⟩
  | .done (.err e), _, h => by simp only [PProg.bind] at h; cases h
  | .done .panic, _, h => by simp only [PProg.bind] at h; cases h
  | .done .fuel, _, h => by simp only [PProg.bind] at h; cases h
  | .act acc en g k, _, h => by
    simp only [PProg.bind] at h
    cases h with
    | act he h =>
      obtain ⟨a, t₁, t₂, rfl, h1, h2⟩ := Exec.bind_ok h
      exact ⟨a, _ :: t₁, t₂, rfl, .act he h1, h2⟩

theorem Exec.deferred {S α : Type} {f : S → S} {r : CRes α} {p : PProg S α} : ∀ {tr : List (S × S)}, Exec (PProg.deferred f p) tr r →
    ∃ t s, tr = t ++ [(s, f s)] ∧ Exec p t r := by
  induction p with
  | done r' =>
    intro tr h
    simp only [PProg.deferred] at h
    cases h with
    | act _ h => cases h; exact ⟨[], _, rfl, .done⟩
  | act acc en g k ih =>
    intro tr h
    simp only [PProg.deferred] at h
    cases h with
    | act he h =>
      obtain ⟨t, s, rfl, h1⟩ := ih _ h
      exact ⟨_ :: t, s, rfl, .act he h1⟩

theorem Exec.prim {S α : Type} {acc : List Access} {m : S → α × S} {a : α} {tr : List (S × S)} (h : Exec (.prim acc m) tr (.ok a)) :
    ∃ s, tr = [(s, (m s).2)] ∧ a = (m s).1 := by
  unfold PProg.prim at h
  cases h with
  | act _ h => cases h; exact ⟨_, rfl, rfl⟩

section
variable {ω : Type} {W : PWorld ω}

theorem own_append (a b : List (RPool ω × RPool ω)) : own (a ++ b) = own a ++ own b := List.flatMap_append ..

/-- The last thing a successful borrow does to a connection is to find it open. -/
theorem internalBorrow_checked (w : Bool) : ∀ (fuel : Nat) {x : Wrap} {tr : List (RPool ω × RPool ω)}, Exec (internalBorrow W w fuel) tr (.ok x) →
    (own tr).getLast? = some (.checked x.conn.ref true)
  | 0, _, _, h => by simp only [internalBorrow] at h; cases h
  | fuel + 1, x, tr, h => by
    have again : ∀ {y : Wrap} {t : List (RPool ω × RPool ω)}, Exec (do removeConn W (some y); internalBorrow W w fuel : PP ω Wrap) t (.ok x) →
        (own t).getLast? = some (.checked x.conn.ref true) := by
      intro y t h
      obtain ⟨_, t₁, t₂, rfl, _, h2⟩ := Exec.bind_ok h
      rw [own_append, List.getLast?_append, internalBorrow_checked w fuel h2]
      rfl
    obtain ⟨o, t₁, t₂, rfl, _, h2⟩ := Exec.bind_ok h
    rw [own_append, List.getLast?_append]
    cases o with
    | none => cases h2
    | some y =>
      obtain ⟨m, t₃, t₄, rfl, _, h4⟩ := Exec.bind_ok h2
      rw [own_append, List.getLast?_append]
      cases m with
      | true => rw [if_pos rfl] at h4; rw [again h4]; rfl
      | false =>
        rw [if_neg (by simp)] at h4
        obtain ⟨ok, t₅, t₆, rfl, h5, h6⟩ := Exec.bind_ok h4
        rw [own_append, List.getLast?_append]
        cases ok with
        | false => rw [if_neg (by simp)] at h6; rw [again h6]; rfl
        | true =>
          rw [if_pos rfl] at h6
          obtain ⟨_, t₇, t₈, rfl, h7, h8⟩ := Exec.bind_ok h6
          obtain ⟨_, t₉, _, rfl, h9, h10⟩ := Exec.bind_ok h8
          cases h10
          obtain ⟨s7, rfl, _⟩ := Exec.prim h7
          obtain ⟨s9, rfl, _⟩ := Exec.prim h9
          obtain ⟨s5, rfl, hok⟩ := Exec.prim h5
          have hv : (W.validate s5.world x.conn.ref).2 = true := hok.symm
          simp [own, hv]

/-- A call as far as it has come. -/
inductive Path {S α : Type} : PProg S α → List (S × S) → PProg S α → Prop where
  | start {p} : Path p [] p
  | step {p q tr acc en g k s} : Path p tr q → q = .act acc en g k → en s = true → Path p (tr ++ [(s, g s)]) (k s)

theorem Exec.append {S α : Type} {p q : PProg S α} {tr t : List (S × S)} {r : CRes α} (h : Path p tr q) (hq : Exec q t r) : Exec p (tr ++ t) r := by
  induction h generalizing t with
  | start => exact hq
  | step _ he hen ih => rw [List.append_assoc]; exact ih (he ▸ .act hen hq)

theorem during_snoc {fuel : Nat} {s : PSys ω} {ms : List PMove} {tr : List (RPool ω × RPool ω)} (m : PMove) (h : During W fuel s ms tr) : During W fuel s (ms ++ [m]) tr := by
  intro p hp
  obtain ⟨b, m', a, rfl, h'⟩ := h p hp
  exact ⟨b, m', a ++ [m], by simp, h'⟩

theorem moves_snoc (fuel : Nat) (s : PSys ω) (ms : List PMove) (m : PMove) : s.moves W fuel (ms ++ [m]) = (s.moves W fuel ms).move W fuel m := by
  simp only [PSys.moves, List.foldl_append, List.foldl_cons, List.foldl_nil]

/-- Calls and results of a history. -/
def Runs (W : PWorld ω) (fuel : Nat) (s : PSys ω) (ms : List PMove) : Prop :=
  (∀ c ∈ (s.moves W fuel ms).calls, ∃ tr, Path (c.1.prog W fuel) tr c.2 ∧ During W fuel s ms tr) ∧
  (∀ c ∈ (s.moves W fuel ms).returned, ∃ tr, Exec (c.1.prog W fuel) tr c.2 ∧ During W fuel s ms tr)

theorem runs_snoc {fuel : Nat} {s : PSys ω} {ms : List PMove} (m : PMove) (h : Runs W fuel s ms) : Runs W fuel s (ms ++ [m]) := by
  obtain ⟨hc, hr⟩ := h
  unfold Runs
  have hsnoc := moves_snoc (W := W) fuel s ms m
  have old : ∀ c ∈ (s.moves W fuel ms).calls, ∃ tr, Path (c.1.prog W fuel) tr c.2 ∧ During W fuel s (ms ++ [m]) tr := fun c hm =>
    let ⟨tr, h1, h2⟩ := hc c hm
    ⟨tr, h1, during_snoc m h2⟩
  have oldr : ∀ c ∈ (s.moves W fuel ms).returned, ∃ tr, Exec (c.1.prog W fuel) tr c.2 ∧ During W fuel s (ms ++ [m]) tr := fun c hm =>
    let ⟨tr, h1, h2⟩ := hr c hm
    ⟨tr, h1, during_snoc m h2⟩
  have new : ∀ r, ∀ c ∈ (s.moves W fuel ms).calls ++ [(r, PReq.prog W fuel r)], ∃ tr, Path (c.1.prog W fuel) tr c.2 ∧ During W fuel s (ms ++ [m]) tr := by
    intro r c hm
    rcases List.mem_append.1 hm with hm | hm
    · exact old c hm
    · rw [List.mem_singleton.1 hm]
      exact ⟨[], .start, fun _ h => absurd h List.not_mem_nil⟩
  match m with
  | .call (.reclaim c) =>
    rw [hsnoc]
    simp only [PSys.move]
    split
    · exact ⟨new _, oldr⟩
    · exact ⟨old, oldr⟩
  | .call (.borrow w) => rw [hsnoc]; exact ⟨new _, oldr⟩
  | .call .start => rw [hsnoc]; exact ⟨new _, oldr⟩
  | .call .stop => rw [hsnoc]; exact ⟨new _, oldr⟩
  | .call .refresh => rw [hsnoc]; exact ⟨new _, oldr⟩
  | .step k =>
    have hsnoc' := hsnoc
    rw [hsnoc]
    simp only [PSys.move] at hsnoc ⊢
    cases hk : (s.moves W fuel ms).calls[k]? with
    | none => exact ⟨old, oldr⟩
    | some rp =>
      obtain ⟨r, p⟩ := rp
      obtain ⟨tr, h1, h2⟩ := old _ (List.mem_of_getElem? hk)
      cases p with
      | done res =>
        refine ⟨fun c hm => old c (List.mem_of_mem_eraseIdx hm), fun c hm => ?_⟩
        rcases List.mem_append.1 hm with hm | hm
        · exact oldr c hm
        · rw [List.mem_singleton.1 hm]
          exact ⟨tr, by have := Exec.append h1 .done; rwa [List.append_nil] at this, h2⟩
      | act acc en g p =>
        dsimp only
        split
        · rename_i hen
          refine ⟨fun c hm => ?_, oldr⟩
          rcases List.mem_or_eq_of_mem_set hm with hm | rfl
          · exact old c hm
          · refine ⟨tr ++ [((s.moves W fuel ms).pool, g (s.moves W fuel ms).pool)], .step h1 rfl hen, fun q hq => ?_⟩
            rcases List.mem_append.1 hq with hq | hq
            · exact h2 q hq
            · rw [List.mem_singleton.1 hq]
              refine ⟨ms, .step k, [], rfl, ?_⟩
              rw [hsnoc]
              simp only [hk, hen, if_true]
        · exact ⟨old, oldr⟩

/-- Every call of a history executes its program. -/
theorem history_runs (fuel : Nat) (pool : RPool ω) (ms : List PMove) : Runs W fuel (PSys.fresh pool) ms := by
  have main : ∀ (ms pre : List PMove), Runs W fuel (PSys.fresh pool) pre → Runs W fuel (PSys.fresh pool) (pre ++ ms) := by
    intro ms
    induction ms with
    | nil => intro pre h; rw [List.append_nil]; exact h
    | cons m ms ih =>
      intro pre h
      have := ih (pre ++ [m]) (runs_snoc m h)
      rwa [List.append_assoc] at this
  exact main ms [] ⟨fun _ h => absurd h List.not_mem_nil, fun _ h => absurd h List.not_mem_nil⟩

/-- The last thing a call that returns a borrowed connection does to a connection is to find this one open. -/
theorem exec_borrow_checked {fuel : Nat} {w : Bool} {c : ConnRef} {tr : List (RPool ω × RPool ω)} (h1 : Exec (PReq.prog W fuel (.borrow w)) tr (.ok (some c))) :
    (own tr).getLast? = some (.checked c.ref true) := by
  have main : ∀ t : List (RPool ω × RPool ω), Exec (do rlock; PProg.deferred runlock (do let x ← internalBorrow W w fuel; pure x.conn) : PP ω ConnRef) t (.ok c) →
      (own t).getLast? = some (.checked c.ref true) := by
    intro t h
    obtain ⟨_, t₁, t₂, rfl, h1, h2⟩ := Exec.bind_ok h
    obtain ⟨t₃, s, rfl, h3⟩ := Exec.deferred h2
    obtain ⟨x, t₄, t₅, rfl, h4, h5⟩ := Exec.bind_ok h3
    cases h5
    rw [own_append, own_append, own_append]
    have e1 : own [(s, runlock s)] = [] := by simp [own, runlock]
    rw [e1, List.append_nil]
    have e2 : own ([] : List (RPool ω × RPool ω)) = [] := rfl
    rw [e2, List.append_nil, List.getLast?_append, internalBorrow_checked w fuel h4]
    rfl
  cases w with
  | true =>
    obtain ⟨c', t₁, t₂, rfl, h1, h2⟩ := Exec.bind_ok h1
    cases h2
    rw [List.append_nil]
    exact main _ h1
  | false =>
    obtain ⟨c', t₁, t₂, rfl, h1, h2⟩ := Exec.bind_ok h1
    cases h2
    rw [List.append_nil]
    exact main _ h1

/-- **C61**: in every history of any pool, the last thing a call of `BorrowRConnection` or `BorrowRWConnection` that returned a connection did was to find this connection open. -/
theorem C61 {fuel : Nat} {pool : RPool ω} {ms : List PMove} {w : Bool} {c : ConnRef}
    (h : (PReq.borrow w, CRes.ok (some c)) ∈ ((PSys.fresh pool).moves W fuel ms).returned) :
    ∃ tr, Exec (PReq.prog W fuel (.borrow w)) tr (.ok (some c)) ∧ During W fuel (PSys.fresh pool) ms tr ∧ (own tr).getLast? = some (.checked c.ref true) := by
  obtain ⟨tr, h1, h2⟩ := (history_runs fuel pool ms).2 _ h
  exact ⟨tr, h1, h2, exec_borrow_checked h1⟩

end

/-- A pool in which the first connection for writing (number 1) is dead: a borrower gets the second one. -/
def state61 : Option (PSys Nat) :=
  let W := Script.world { rows := fun _ => threeMembers, alive := fun _ r => r ≠ 1 }
  match openRoutingPool W (ascii "bolt+routing://a") 3 (ascii "u:p") [] 0 with
  | .ok (.ok (), pool) => some ((PSys.fresh pool).moves W 100 ([.call (.borrow true)] ++ List.replicate 20 (.step 0)))
  | _ => none

/-- The hypotheses are met, and dead connections are passed over. -/
example : (state61.map fun s => (s.returned.map fun r => match r.2 with | .ok (some c) => c.ref | _ => 0)) = some [2] := by decide +kernel

end Verif

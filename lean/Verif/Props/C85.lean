/-
C85: connections made for asking for the members of the cluster are closed again.
-/
import Verif.Props.C82
namespace Verif
open PProg

section
variable {ω : Type} {W : PWorld ω} {α β : Type}

/-- Whatever happens, the program closes connection `r` before it ends. -/
inductive WillClose (r : Nat) : PP ω α → Prop where
  | here {acc : List Access} {en : RPool ω → Bool} {f : RPool ω → RPool ω} {k : RPool ω → PP ω α} (h : ∀ s, .closed r ∈ (f s).log) : WillClose r (.act acc en f k)
  | later {acc : List Access} {en : RPool ω → Bool} {f : RPool ω → RPool ω} {k : RPool ω → PP ω α} (h : ∀ s, WillClose r (k s)) : WillClose r (.act acc en f k)

/-- The program closes the connections it makes for asking for the members; if `d` is false it makes none. -/
inductive ClosesAsked (d : Bool) : PP ω α → Prop where
  | done {r : CRes α} : ClosesAsked d (.done r)
  | act {acc : List Access} {en : RPool ω → Bool} {f : RPool ω → RPool ω} {k : RPool ω → PP ω α} (hk : ∀ s, ClosesAsked d (k s))
      (h : ∀ s, ∃ evs, (f s).log = s.log ++ evs ∧ ∀ n str, .dialled n str ∈ evs → d = true ∧ WillClose n (k s)) : ClosesAsked d (.act acc en f k)

theorem WillClose.bind {r : Nat} {p : PP ω α} (f : α → PP ω β) (h : WillClose r p) : WillClose r (PProg.bind p f) := by
  induction h with
  | here h => exact .here h
  | later _ ih => exact .later fun s => ih s

theorem ClosesAsked.bind {d : Bool} {p : PP ω α} {f : α → PP ω β} (hf : ∀ a, ClosesAsked d (f a)) (h : ClosesAsked d p) : ClosesAsked d (PProg.bind p f) := by
  induction h with
  | @done r => cases r <;> first | exact hf _ | exact .done
  | act _ h ih =>
    refine .act (fun s => ih s) fun s => ?_
    obtain ⟨evs, h1, h2⟩ := h s
    exact ⟨evs, h1, fun n str hm => ⟨(h2 n str hm).1, (h2 n str hm).2.bind f⟩⟩

/-- An action adds to the log; unless it is connecting for the members, there is nothing about that. -/
theorem log_of_act {acc : List Access} {f : RPool ω → RPool ω} (h : PActD W false true acc f) (s : RPool ω) : ∃ evs, (f s).log = s.log ++ evs ∧ ∀ n str, .dialled n str ∉ evs := by
  have same : (f s).log = s.log → ∃ evs, (f s).log = s.log ++ evs ∧ ∀ n str, .dialled n str ∉ evs := fun h => ⟨[], by rw [h, List.append_nil], fun _ _ h => absurd h List.not_mem_nil⟩
  cases h with
  | enqueue w x => exact same (by cases w <;> rfl)
  | dequeue w =>
    refine same ?_
    dsimp only
    split
    · rfl
    · cases w <;> rfl
  | setQueue w q => exact same (by cases w <;> rfl)
  | validate r => exact ⟨_, rfl, fun _ _ h => by cases List.mem_singleton.1 h⟩
  | close r => exact ⟨_, rfl, fun _ _ h => by cases List.mem_singleton.1 h⟩
  | overview r => exact ⟨_, rfl, fun _ _ h => by cases List.mem_singleton.1 h⟩
  | create w str =>
    dsimp only
    split
    · exact ⟨[], (List.append_nil _).symm, fun _ _ h => absurd h List.not_mem_nil⟩
    · exact ⟨_, rfl, fun _ _ h => by cases List.mem_singleton.1 h⟩
  | dial h => cases h
  | indexW => exact same (by dsimp only; split <;> rfl)
  | indexR => exact same (by dsimp only; split <;> rfl)
  | startHead => exact same (by unfold RPool.startHead; split <;> rfl)
  | _ => exact same rfl

theorem tidy_of_acts {d : Bool} {p : PP ω α} (h : Acts (PActD W false true) p) : ClosesAsked d p := by
  induction p with
  | done => exact .done
  | act acc en f k ih =>
    refine .act (fun s => ih s (h.2 s)) fun s => ?_
    obtain ⟨evs, h1, h2⟩ := log_of_act h.1 s
    exact ⟨evs, h1, fun n str hm => absurd hm (h2 n str)⟩

theorem tidy_refresh : ClosesAsked true (refreshConnections W) := by
  have rest : ∀ r, Acts (PActD W false true) (do
      (.prim [⟨.handler, true, false⟩] fun s =>
        let v := W.version s.world r
        let q := W.query s.world r clusterOverview (overviewDb v)
        ((), { s with world := q.1, log := s.log ++ [.overview v q.2], handler := (s.handler.refreshClusterInfo v q.2).1 }) : PP ω Unit)
      (.prim [⟨.handler, false, false⟩, ⟨.strings, true, false⟩, ⟨.marks, true, false⟩] fun s => ((), s.takeStrings) : PP ω Unit)
      let _ ← pClose W r
      pure () : PP ω Unit) := fun r =>
    Acts.bind (fun _ => Acts.bind (fun _ => Acts.bind (fun _ => Acts.done) (acts_close r)) (acts_prim .take fun _ => rfl)) (acts_prim (.overview r) fun _ => rfl)
  refine .act (fun s => ?_) fun s => ?_
  · dsimp only [PProg.bind]
    generalize W.create s.world s.next s.leaderConnStr = c
    match c with
    | (_, some _) => exact .done
    | (_, none) => exact tidy_of_acts (rest _)
  · dsimp only [PProg.bind]
    generalize W.create s.world s.next s.leaderConnStr = c
    match c with
    | (_, some _) => exact ⟨[], (List.append_nil _).symm, fun _ _ h => absurd h List.not_mem_nil⟩
    | (_, none) =>
      refine ⟨_, rfl, fun n str hm => ⟨rfl, ?_⟩⟩
      cases List.mem_singleton.1 hm
      exact .later fun _ => .later fun _ => .here fun _ => List.mem_append.2 (.inr (List.mem_singleton.2 rfl))

theorem tidy_start : ClosesAsked true (start W) := by
  refine ClosesAsked.bind (fun ok => ?_) (tidy_of_acts (W := W) (acts_look (by simp) fun _ => rfl))
  split
  · exact .done
  · exact ClosesAsked.bind (fun _ => ClosesAsked.bind (fun _ => tidy_of_acts (W := W) (Acts.bind (fun _ => acts_times acts_addRead _) (acts_times acts_addWrite _))) tidy_refresh)
      (tidy_of_acts (W := W) (acts_prim (.startHead rfl) fun _ => rfl))

/-- The calls that ask for the members. -/
def Spec.asks : PReq → Bool
  | .refresh => true
  | .start => true
  | _ => false

theorem tidy_prog (fuel : Nat) (r : PReq) : ClosesAsked (Spec.asks r) (r.prog W fuel) := by
  match r with
  | .borrow true => exact tidy_of_acts (W := W) (Acts.bind (fun _ => Acts.done) (acts_borrow true fuel))
  | .borrow false => exact tidy_of_acts (W := W) (Acts.bind (fun _ => Acts.done) (acts_borrow false fuel))
  | .reclaim c => exact tidy_of_acts (W := W) (Acts.bind (fun _ => Acts.done) (acts_reclaim c))
  | .stop => exact tidy_of_acts (W := W) (Acts.bind (fun _ => Acts.done) (acts_stop fuel))
  | .start => exact ClosesAsked.bind (fun _ => .done) tidy_start
  | .refresh =>
    refine ClosesAsked.bind (fun _ => .done) ?_
    exact ClosesAsked.bind (fun _ => ClosesAsked.bind (fun _ => tidy_of_acts (W := W) (Acts.bind (fun _ => Acts.bind (fun _ => acts_prim .unlock fun _ => rfl) (acts_balance fuel)) acts_prune))
      tidy_refresh) (tidy_of_acts (W := W) acts_lock)

/-- A program that ends has closed what it was to close. -/
theorem close_run {d : Bool} {p : PP ω α} (ht : ClosesAsked d p) : ∀ {s s' : RPool ω} {res : CRes α}, p.run s = (res, s') → res ≠ .fuel →
    (∃ evs, s'.log = s.log ++ evs) ∧ (∀ r, WillClose r p → .closed r ∈ s'.log) ∧ ∀ n str, .dialled n str ∈ s'.log → .dialled n str ∈ s.log ∨ .closed n ∈ s'.log := by
  induction ht with
  | done =>
    intro s s' res h _
    simp only [PProg.run, Prod.mk.injEq] at h
    obtain ⟨rfl, rfl⟩ := h
    exact ⟨⟨[], (List.append_nil _).symm⟩, fun r h => (by cases h), fun n str h => .inl h⟩
  | @act acc en f k hk h ih =>
    intro s s' res hr hf
    simp only [PProg.run] at hr
    split at hr
    · obtain ⟨evs, e1, e2⟩ := h s
      obtain ⟨⟨evs', g1⟩, g2, g3⟩ := ih s hr hf
      refine ⟨⟨evs ++ evs', by rw [g1, e1, List.append_assoc]⟩, fun r hw => ?_, fun n str hm => ?_⟩
      · cases hw with
        | here hc => rw [g1]; exact List.mem_append.2 (.inl (hc s))
        | later hc => exact g2 r (hc s)
      · rcases g3 n str hm with hm | hm
        · rw [e1] at hm
          rcases List.mem_append.1 hm with hm | hm
          · exact .inl hm
          · exact .inr (g2 n (e2 n str hm).2)
        · exact .inr hm
    · simp only [Prod.mk.injEq] at hr
      exact absurd hr.1.symm hf

/-- In every state: whatever was made for asking is closed, or is about to be closed by a call in progress. -/
def AskedKept (s : PSys ω) : Prop :=
  (∀ c ∈ s.calls, ClosesAsked (Spec.asks c.1) c.2) ∧ ∀ n str, .dialled n str ∈ s.pool.log → .closed n ∈ s.pool.log ∨ ∃ c ∈ s.calls, Spec.asks c.1 = true ∧ WillClose n c.2

theorem kept_call (fuel : Nat) {s : PSys ω} (h : AskedKept s) (r : PReq) (l : List ConnRef) : AskedKept { s with calls := s.calls ++ [(r, PReq.prog W fuel r)], lent := l } := by
  refine ⟨fun c hc => ?_, fun n str hm => ?_⟩
  · rcases List.mem_append.1 hc with hc | hc
    · exact h.1 c hc
    · rw [List.mem_singleton.1 hc]
      exact tidy_prog fuel r
  · rcases h.2 n str hm with hm | ⟨c, hc, h1⟩
    · exact .inl hm
    · exact .inr ⟨c, List.mem_append.2 (.inl hc), h1⟩

theorem asked_kept_move (fuel : Nat) {s : PSys ω} (h : AskedKept s) (m : PMove) : AskedKept (s.move W fuel m) := by
  match m with
  | .call (.reclaim c) =>
    simp only [PSys.move]
    split
    · exact kept_call fuel h _ _
    · exact h
  | .call (.borrow w) => exact kept_call fuel h _ _
  | .call .start => exact kept_call fuel h _ _
  | .call .stop => exact kept_call fuel h _ _
  | .call .refresh => exact kept_call fuel h _ _
  | .step k =>
    simp only [PSys.move]
    cases hk : s.calls[k]? with
    | none => exact h
    | some rp =>
      obtain ⟨r, p⟩ := rp
      have hp := h.1 _ (List.mem_of_getElem? hk)
      obtain ⟨hlt, hget⟩ := List.getElem?_eq_some_iff.1 hk
      cases p with
      | done res =>
        refine ⟨fun c hc => h.1 c (List.mem_of_mem_eraseIdx hc), fun n str hm => ?_⟩
        rcases h.2 n str hm with hm | ⟨c, hc, h1, h2⟩
        · exact .inl hm
        · refine .inr ⟨c, ?_, h1, h2⟩
          obtain ⟨i, hi, rfl⟩ := List.mem_iff_getElem.1 hc
          refine List.mem_eraseIdx_iff_getElem.2 ⟨i, hi, ?_, rfl⟩
          rintro rfl
          rw [hget] at h2
          cases h2
      | act acc en f k' =>
        dsimp only
        split
        · cases hp with
          | act hk' hlog =>
            obtain ⟨evs, e1, e2⟩ := hlog s.pool
            refine ⟨fun c hc => ?_, fun n str hm => ?_⟩
            · rcases List.mem_or_eq_of_mem_set hc with hc | rfl
              · exact h.1 c hc
              · exact hk' s.pool
            · dsimp only at hm ⊢
              have hnew : (r, k' s.pool) ∈ s.calls.set k (r, k' s.pool) := List.mem_set hlt _
              rw [e1] at hm
              rcases List.mem_append.1 hm with hm | hm
              · rcases h.2 n str hm with hm | ⟨c, hc, h1, h2⟩
                · rw [e1]
                  exact .inl (List.mem_append.2 (.inl hm))
                · obtain ⟨i, hi, rfl⟩ := List.mem_iff_getElem.1 hc
                  by_cases hik : i = k
                  · subst hik
                    rw [hget] at h1 h2
                    cases h2 with
                    | here hc => exact .inl (hc s.pool)
                    | later hc => exact .inr ⟨_, hnew, h1, hc s.pool⟩
                  · refine .inr ⟨s.calls[i], List.mem_iff_getElem.2 ⟨i, by rw [List.length_set]; exact hi, ?_⟩, h1, h2⟩
                    rw [List.getElem_set_ne (fun h => hik h.symm)]
              · exact .inr ⟨_, hnew, (e2 n str hm).1, (e2 n str hm).2⟩
        · exact h

theorem asked_kept_moves (fuel : Nat) {s : PSys ω} (h : AskedKept s) (moves : List PMove) : AskedKept (s.moves W fuel moves) := by
  induction moves generalizing s with
  | nil => exact h
  | cons m ms ih => exact ih (asked_kept_move fuel h m)

/-- The same for opening a pool, whether or not it succeeds. -/
theorem C85_open {connStr : Bytes} {size : Int} {user tls : Bytes} {w : ω} {res : CRes Unit} {pool : RPool ω} (h : openRoutingPool W connStr size user tls w = .ok (res, pool)) (hf : res ≠ .fuel)
    {r : Nat} {str : Bytes} (hd : .dialled r str ∈ pool.log) : .closed r ∈ pool.log := by
  unfold openRoutingPool at h
  cases hn : newRoutingPool connStr size user tls w with
  | error e => rw [hn] at h; cases h
  | ok s =>
    rw [hn] at h
    simp only [Except.ok.injEq] at h
    have hs : s.log = [] := by
      unfold newRoutingPool at hn
      split at hn
      · cases hn
      · split at hn
        · cases hn
        · simp only [Except.ok.injEq] at hn
          rw [← hn]
    rcases (close_run tidy_start h hf).2.2 r str hd with hd | hd
    · rw [hs] at hd
      cases hd
    · exact hd

/-- However the calls of a pool are interleaved, whenever none of the calls in progress asks for the members, all connections that were made for asking are closed.  -/
theorem C85_closed {connStr : Bytes} {size : Int} {user tls : Bytes} {w : ω} {pool : RPool ω} (h : openRoutingPool W connStr size user tls w = .ok (.ok (), pool))
    (fuel : Nat) (moves : List PMove) (hc : ∀ c ∈ ((PSys.fresh pool).moves W fuel moves).calls, Spec.asks c.1 = false) {r : Nat} {str : Bytes}
    (hd : .dialled r str ∈ ((PSys.fresh pool).moves W fuel moves).pool.log) : .closed r ∈ ((PSys.fresh pool).moves W fuel moves).pool.log := by
  have hk : AskedKept ((PSys.fresh pool).moves W fuel moves) := by
    have h0 : AskedKept (PSys.fresh pool) := by
      refine ⟨fun c hc => absurd hc List.not_mem_nil, fun n str hm => .inl ?_⟩
      exact C85_open h (fun h => by cases h) hm
    exact asked_kept_moves fuel h0 moves
  rcases hk.2 r str hd with hd | ⟨c, hm, h1, _⟩
  · exact hd
  · rw [hc c hm] at h1
    cases h1

end

namespace C85

/-- Connections made for asking, and those of them that are closed, after opening a pool of three and some moves; and the calls in progress that ask. -/
def asked (moves : List PMove) : Option (List Nat × List Nat × List PReq) :=
  match openRoutingPool (Script.world { rows := fun _ => threeMembers }) (ascii "bolt+routing://a") 3 (ascii "u:p") [] 0 with
  | .ok (.ok (), pool) =>
    let s := (PSys.fresh pool).moves (Script.world { rows := fun _ => threeMembers }) 100 moves
    some (s.pool.log.filterMap fun | .dialled r _ => some r | _ => none, s.pool.log.filterMap fun | .closed r => some r | _ => none, (s.calls.map (·.1)).filter Spec.asks)
  | _ => none

/-- In the middle of a round one of them is open; after it none is. -/
example : asked ([.call .refresh] ++ List.replicate 3 (.step 0)) = some ([0, 4], [0], [.refresh]) := by decide +kernel
example : asked ([.call .refresh, .call (.borrow true)] ++ List.replicate 40 (.step 0)) = some ([0, 4], [0, 4], []) := by decide +kernel

end C85
end Verif

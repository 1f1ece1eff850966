/-
C88: calls on a routing pool do not wait for each other forever.
-/
import Verif.Proofs.PoolCosts
import Verif.Props.C84
import Verif.Props.C86
import Verif.Props.C59
namespace Verif
open PProg

namespace Spec
variable {ω : Type}

/-- The `k`th call in progress need not wait: it has come to its end, or its next action is enabled. -/
def Ready (s : PSys ω) (k : Nat) : Prop := ∃ r p, s.calls[k]? = some (r, p) ∧ match p with
  | .done _ => True
  | .act _ en _ _ => en s.pool = true

/-- The next action of the `k`th call does not wait for any lock. -/
def NeverWaits (s : PSys ω) (k : Nat) : Prop := ∃ r p, s.calls[k]? = some (r, p) ∧ match p with
  | .done _ => True
  | .act _ en _ _ => ∀ pool, en pool = true

/-- The number of calls made in a history. -/
def callsIn (ms : List PMove) : Nat := ms.countP fun | .call _ => true | .step _ => false

/-- The history goes on with `n` steps, of the calls picked by `pick`. -/
def pursue (W : PWorld ω) (fuel : Nat) (s : PSys ω) (pick : PSys ω → Nat) : Nat → PSys ω
  | 0 => s
  | n + 1 => (pursue W fuel s pick n).move W fuel (.step (pick (pursue W fuel s pick n)))

end Spec

section
variable {ω : Type} {W : PWorld ω} {mx : Bool → Int} {N fuel : Nat}

/-- What is known about a call in progress: the lock it holds, its claim and its permission (`Costs`). -/
structure BGhost where
  ph : Phase
  n : Nat
  m : Nat

/-- A call in progress. -/
abbrev BCall (ω : Type) := BGhost × (PReq × PProg (RPool ω) PRet)

/-- The call keeps to it. -/
def BCall.Good (mx : Bool → Int) (N : Nat) (x : BCall ω) : Prop :=
  Uses (x.2.1 = .refresh) x.1.ph x.2.2 ∧ Costs (InBounds mx N) (fun res n _ => (res = .fuel → n = 0) ∧ (x.2.1 = .refresh → res ≠ .panic)) x.1.n x.1.m x.2.2

/-- The number of calls that hold a lock. -/
def holding (ph : Phase) : List (BCall ω) → Nat
  | [] => 0
  | x :: l => (if x.1.ph = ph then 1 else 0) + holding ph l

theorem holding_append (ph : Phase) : ∀ a b : List (BCall ω), holding ph (a ++ b) = holding ph a + holding ph b
  | [], b => by simp [holding]
  | x :: a, b => by simp only [List.cons_append, holding, holding_append ph a b]; omega

/-- What can still be taken out of the queues, if `future` more calls are made. -/
def stock (N future : Nat) (pool : RPool ω) (l : List (BCall ω)) : Nat := pool.idle + (l.map (·.1.m)).sum + (2 * N + 1) * future

/-- The calls and the lock. -/
structure BInv (mx : Bool → Int) (N fuel future : Nat) (s : PSys ω) (l : List (BCall ω)) : Prop where
  calls : l.map (·.2) = s.calls
  good : ∀ x ∈ l, x.Good mx N ∧ stock N future s.pool l < x.1.n
  stock : stock N future s.pool l ≤ fuel
  readers : s.pool.readers = holding .read l
  writers : holding .write l = if s.pool.writer then 1 else 0
  excl : s.pool.writer = true → s.pool.readers = 0
  returned : ∀ e ∈ s.returned, e.2 ≠ .fuel

theorem binv_call {future : Nat} {s : PSys ω} {l : List (BCall ω)} (h : BInv mx N fuel (future + 1) s l) (r : PReq) (hr : r ≠ .start) (lent : List ConnRef) :
    BInv mx N fuel future { s with calls := s.calls ++ [(r, r.prog W (fuel + 1))], lent := lent } (l ++ [(⟨.free, fuel + 1, 2 * N + 1⟩, (r, r.prog W (fuel + 1)))]) := by
  have hst : stock N future s.pool (l ++ [(⟨.free, fuel + 1, 2 * N + 1⟩, (r, r.prog W (fuel + 1)))]) = stock N (future + 1) s.pool l := by
    simp only [stock, List.map_append, List.map_cons, List.map_nil, List.sum_append, List.sum_cons, List.sum_nil, Nat.mul_succ]
    omega
  refine ⟨by simp [h.calls], fun x hx => ?_, ?_, ?_, ?_, h.excl, h.returned⟩
  · show _ ∧ stock N future s.pool _ < _
    rw [hst]
    rcases List.mem_append.1 hx with hx | hx
    · exact h.good x hx
    · rw [List.mem_singleton.1 hx]
      exact ⟨⟨uses_prog _ _, costs_prog _ _ hr⟩, Nat.lt_succ_of_le h.stock⟩
  · show stock N future s.pool _ ≤ _
    rw [hst]
    exact h.stock
  · rw [holding_append]; simpa [holding] using h.readers
  · rw [holding_append]; simpa [holding] using h.writers

/-- A call that has come to its end holds no lock. -/
theorem done_free {x : BCall ω} (h : x.Good mx N) (hn : 0 < x.1.n) {r : PReq} {res : CRes PRet} (hx : x.2 = (r, .done res)) : x.1.ph = .free ∧ res ≠ .fuel := by
  obtain ⟨g, r', p⟩ := x
  cases hx
  have hf : res ≠ .fuel := fun e => by
    have := h.2.1 e
    dsimp only at hn this
    omega
  refine ⟨?_, hf⟩
  rcases h.1 with h1 | ⟨h1, _, h2 | h2⟩
  · exact h1
  · exact absurd h2 (h.2.2 (of_decide_eq_true h1))
  · exact absurd h2 hf

/-- The calls before and after the one that makes a step. -/
theorem split_calls {l : List (BCall ω)} {calls : List (PReq × PProg (RPool ω) PRet)} (h : l.map (·.2) = calls) {k : Nat} {e : PReq × PProg (RPool ω) PRet} (hk : calls[k]? = some e) :
    ∃ a g b, l = a ++ (g, e) :: b ∧ a.length = k := by
  rw [← h, List.getElem?_map, Option.map_eq_some_iff] at hk
  obtain ⟨⟨g, e'⟩, h1, rfl⟩ := hk
  obtain ⟨hlt, h1⟩ := List.getElem?_eq_some_iff.1 h1
  refine ⟨l.take k, g, l.drop (k + 1), ?_, by rw [List.length_take]; omega⟩
  rw [← h1, ← List.drop_eq_getElem_cons hlt, List.take_append_drop]

theorem binv_step {future : Nat} {s : PSys ω} {l : List (BCall ω)} (h : BInv mx N fuel future s l) (hb : InBounds mx N s.pool) (k : Nat) :
    ∃ l', BInv mx N fuel future (s.move W (fuel + 1) (.step k)) l' := by
  simp only [PSys.move]
  cases hk : s.calls[k]? with
  | none => exact ⟨l, h⟩
  | some e =>
    obtain ⟨r, p⟩ := e
    obtain ⟨a, g, b, rfl, hlen⟩ := split_calls h.calls hk
    have hgood := h.good (g, r, p) (by simp)
    have hcalls := h.calls
    rw [List.map_append, List.map_cons] at hcalls
    have hread := h.readers
    have hwrite := h.writers
    rw [holding_append, holding] at hread hwrite
    cases p with
    | done res =>
      obtain ⟨hfree, hres⟩ := done_free hgood.1 (by omega) rfl
      dsimp only at hfree
      have hst : stock N future s.pool (a ++ b) ≤ stock N future s.pool (a ++ (g, r, .done res) :: b) := by
        simp only [stock, List.map_append, List.map_cons, List.sum_append, List.sum_cons]
        omega
      refine ⟨a ++ b, ?_, fun x hx => ?_, Nat.le_trans hst h.stock, ?_, ?_, h.excl, fun e he => ?_⟩
      · show _ = s.calls.eraseIdx k
        rw [← hcalls, ← hlen, List.map_append, List.eraseIdx_append_of_length_le (by simp)]
        simp
      · have := h.good x (by simp only [List.mem_append, List.mem_cons] at hx ⊢; rcases hx with hx | hx <;> simp [hx])
        exact ⟨this.1, Nat.lt_of_le_of_lt hst this.2⟩
      · rw [holding_append]; simp [hfree] at hread; exact hread
      · rw [holding_append]; simp [hfree] at hwrite; exact hwrite
      · rcases List.mem_append.1 he with he | he
        · exact h.returned e he
        · rw [List.mem_singleton.1 he]; exact hres
    | act acc en f c =>
      dsimp only
      split
      · rename_i hen
        obtain ⟨n', m', hn, hm, hc⟩ := hgood.1.2 s.pool hb
        dsimp only at hn hm
        have hset : ∀ ph, (a ++ ((⟨ph, n', m'⟩ : BGhost), (r, c s.pool)) :: b).map (·.2) = s.calls.set k (r, c s.pool) := by
          intro ph
          rw [← hcalls, ← hlen, List.map_append, List.set_append_right _ _ (by simp)]
          simp
        have hst : ∀ ph, stock N future (f s.pool) (a ++ ((⟨ph, n', m'⟩ : BGhost), (r, c s.pool)) :: b) + (s.pool.idle - (f s.pool).idle) ≤ stock N future s.pool (a ++ (g, r, .act acc en f c) :: b) := by
          intro ph
          simp only [stock, List.map_append, List.map_cons, List.sum_append, List.sum_cons]
          omega
        have main : ∀ ph, Uses (r = .refresh) ph (c s.pool) → (f s.pool).readers = holding .read (a ++ ((⟨ph, n', m'⟩ : BGhost), (r, c s.pool)) :: b) →
            holding .write (a ++ ((⟨ph, n', m'⟩ : BGhost), (r, c s.pool)) :: b) = (if (f s.pool).writer then 1 else 0) → ((f s.pool).writer = true → (f s.pool).readers = 0) →
            ∃ l', BInv mx N fuel future { s with pool := f s.pool, calls := s.calls.set k (r, c s.pool) } l' := by
          intro ph h1 h2 h3 h4
          refine ⟨_, hset ph, fun x hx => ?_, ?_, h2, h3, h4, h.returned⟩
          · have hs := hst ph
            simp only [List.mem_append, List.mem_cons] at hx
            have old : ∀ x ∈ a ++ b, BCall.Good mx N x ∧ stock N future (f s.pool) (a ++ ((⟨ph, n', m'⟩ : BGhost), (r, c s.pool)) :: b) < x.1.n := fun x hx => by
              have := h.good x (by simp only [List.mem_append, List.mem_cons] at hx ⊢; rcases hx with hx | hx <;> simp [hx])
              exact ⟨this.1, by omega⟩
            rcases hx with hx | hx | hx
            · exact old x (by simp [hx])
            · rw [hx]
              have := hgood.2
              dsimp only at this
              refine ⟨⟨h1, hc⟩, ?_⟩
              dsimp only
              omega
            · exact old x (by simp [hx])
          · have hs := hst ph
            have := h.stock
            show stock N future (f s.pool) _ ≤ _
            omega
        simp only [holding_append, holding] at main
        have hexcl := h.excl
        rcases hgood.1.1 with ⟨u1, u2⟩ | ⟨u1, u2, u3, u4⟩ | ⟨u1, u2, u3, u4⟩ | ⟨u1, u2, u3⟩ | ⟨u1, u2, u3⟩
        · obtain ⟨_, v1, v2⟩ := u1 s.pool
          refine main _ (u2 _) ?_ ?_ ?_
          · rw [v2]; exact hread
          · rw [v1]; exact hwrite
          · rw [v1, v2]; exact hexcl
        · obtain ⟨v1, v2⟩ := u3 s.pool
          rw [u2] at hen
          have hw : s.pool.writer = false := by simpa using hen
          dsimp only at u1
          rw [u1] at hread hwrite
          refine main .read (u4 _) ?_ ?_ ?_
          · simp at hread ⊢; omega
          · rw [v1]; simp [hw] at hwrite ⊢; exact hwrite
          · rw [v1, hw]; exact fun h => by cases h
        · obtain ⟨v1, v2⟩ := u3 s.pool
          rw [u2] at hen
          have hw : s.pool.writer = false ∧ s.pool.readers = 0 := by simpa using hen
          dsimp only at u1
          rw [u1] at hread hwrite
          refine main .write (u4 _) ?_ ?_ ?_
          · simp at hread ⊢; omega
          · rw [v1]; simp [hw.1] at hwrite ⊢; omega
          · rw [v2]; exact fun _ => hw.2
        · obtain ⟨_, v1, v2⟩ := u2 s.pool
          dsimp only at u1
          rw [u1] at hread hwrite
          refine main .free (u3 _) ?_ ?_ ?_
          · simp at hread ⊢; omega
          · rw [v1]; simp at hwrite ⊢; exact hwrite
          · rw [v1, v2]; exact fun h => by have := hexcl h; omega
        · obtain ⟨_, v1, v2⟩ := u2 s.pool
          dsimp only at u1
          rw [u1] at hread hwrite
          refine main .free (u3 _) ?_ ?_ ?_
          · simp at hread ⊢; omega
          · rw [v1]
            cases hw : s.pool.writer <;> rw [hw] at hwrite <;> simp at hwrite ⊢
            omega
          · rw [v1]; exact fun h => by cases h
      · exact ⟨_, h⟩

/-- The limits a pool of `size` connections is given. -/
def maxOf (size : Int) (w : Bool) : Int := if size.tmod 2 = 0 then size.tdiv 2 else if w then (size - 1).tdiv 2 + 1 else (size - 1).tdiv 2

/-- It has been given its limits. -/
def Limited (size : Int) (s : RPool ω) : Prop := s.totalConns = size ∧ s.maxWriteIdle = maxOf size true ∧ s.maxReadIdle = maxOf size false

theorem limited_act (size : Int) (acc : List Access) (f : RPool ω → RPool ω) (h : PAct W acc f) (s : RPool ω) (hs : Limited size s) : Limited size (f s) := by
  cases h with
  | enqueue w x => cases w <;> exact hs
  | dequeue w =>
    dsimp only
    split
    · exact hs
    · cases w <;> exact hs
  | setQueue w q => cases w <;> exact hs
  | create w str => dsimp only; split <;> exact hs
  | dial => dsimp only; split <;> exact hs
  | indexW => dsimp only; split <;> exact hs
  | indexR => dsimp only; split <;> exact hs
  | startHead =>
    obtain ⟨h1, _⟩ := hs
    subst h1
    unfold RPool.startHead Limited maxOf
    split <;> rename_i h <;> simp [h]
  | _ => exact hs

theorem open_limited {connStr : Bytes} {size : Int} {user tls : Bytes} {w : ω} {res : CRes Unit} {pool : RPool ω} (h : openRoutingPool W connStr size user tls w = .ok (res, pool)) : Limited size pool := by
  have hok : connStr ≠ [] ∧ size ≠ 0 ∧ size ≠ 1 := by
    unfold openRoutingPool newRoutingPool at h
    refine ⟨fun hc => ?_, fun hc => ?_, fun hc => ?_⟩
    · rw [if_pos hc] at h; cases h
    · split at h
      · cases h
      · rename_i h'; split at h'
        · cases h'
        · rw [if_pos (.inl hc)] at h'; cases h'
    · split at h
      · cases h
      · rename_i h'; split at h'
        · cases h'
        · rw [if_pos (.inr hc)] at h'; cases h'
  obtain ⟨s, h1, _, _, _, _, h6⟩ := open_run (W := W) user tls w hok.1 hok.2
  rw [h6] at h
  simp only [Except.ok.injEq] at h
  have hs : Limited size s.startHead := by
    subst h1
    unfold RPool.startHead Limited maxOf
    split <;> rename_i h <;> simp [h]
  have := run_of_acts (W := W) (limited_act size) (acts_startRest s.startHead.maxWriteIdle s.startHead.maxReadIdle) hs
  rwa [h] at this

theorem share_maxOf (size : Int) (w : Bool) : maxOf size w < 0 ∨ (Spec.share size.toNat w : Int) ≤ maxOf size w := by
  rcases Int.le_total 0 size with h | h
  · obtain ⟨n, rfl⟩ := Int.eq_ofNat_of_zero_le h
    right
    have h0 : ((n : Int).tmod 2) = ((n % 2 : Nat) : Int) := (Int.ofNat_tmod n 2).symm
    have h1 : ((n : Int).tdiv 2) = ((n / 2 : Nat) : Int) := (Int.ofNat_tdiv n 2).symm
    rw [show ((n : Int)).toNat = n from rfl]
    by_cases hn : n % 2 = 0
    · rw [show maxOf n w = ((n : Int).tdiv 2) from if_pos (by omega), h1]
      cases w
      · exact Int.le_refl _
      · simp only [Spec.share, if_true]; omega
    · have h2 : ((n : Int) - 1).tdiv 2 = (((n - 1) / 2 : Nat) : Int) := by
        rw [show ((n : Int) - 1) = ((n - 1 : Nat) : Int) by omega]
        exact (Int.ofNat_tdiv (n - 1) 2).symm
      rw [show maxOf n w = (if w then ((n : Int) - 1).tdiv 2 + 1 else ((n : Int) - 1).tdiv 2) from if_neg (by omega), h2]
      cases w
      · simp only [Spec.share, Bool.false_eq_true, if_false]; omega
      · simp only [Spec.share, if_true]; omega
  · rw [show size.toNat = 0 by omega]
    have : Spec.share 0 w = 0 := by cases w <;> rfl
    rw [this]
    simp only [Int.natCast_zero]
    omega

/-- The bounds hold in every history without restart. -/
theorem reached_bounds {connStr : Bytes} {size : Int} {user tls : Bytes} {w : ω} {pool : RPool ω} (h : openRoutingPool W connStr size user tls w = .ok (.ok (), pool)) (fuel : Nat)
    (ms : List PMove) (hr : ∀ m ∈ ms, Spec.noRestart m) (hid : Spec.IdsDiffer ((PSys.fresh pool).moves W fuel ms).pool.log) :
    InBounds (maxOf size) size.toNat ((PSys.fresh pool).moves W fuel ms).pool := by
  obtain ⟨h1, h2⟩ := C62_partial (W := W) ⟨_, _, _, _, _, fuel, ms, h, hr, rfl⟩ hid
  obtain ⟨h3, h4⟩ := mins_zero h fuel ms
  obtain ⟨_, h5, h6⟩ := (moves_of_acts (limited_act (W := W) size) fuel ms (PSys.fresh pool) (open_limited h) fun _ h => absurd h List.not_mem_nil).1
  refine ⟨h3, h4, h5, h6, fun w => (share_maxOf size w).imp id fun hm => ?_, ?_⟩
  · have := h1 w
    omega
  · unfold RPool.idle
    omega

theorem moves_append_one (s : PSys ω) (fuel : Nat) (ms : List PMove) (m : PMove) : s.moves W fuel (ms ++ [m]) = (s.moves W fuel ms).move W fuel m := by
  unfold PSys.moves
  rw [List.foldl_append]
  rfl

/-- Earlier ids differ, too. -/
theorem ids_before {pool : RPool ω} {fuel : Nat} {ms ms' : List PMove} (hid : Spec.IdsDiffer ((PSys.fresh pool).moves W fuel (ms ++ ms')).pool.log) :
    Spec.IdsDiffer ((PSys.fresh pool).moves W fuel ms).pool.log := by
  have hg := (moves_grows W fuel ms (s := PSys.fresh pool) fun _ h => absurd h List.not_mem_nil).1
  have hg' := (moves_grows W fuel ms' hg).2
  rw [idsDiffer_iff] at hid ⊢
  refine hg'.distinct ?_
  rw [show ((PSys.fresh pool).moves W fuel ms).moves W fuel ms' = (PSys.fresh pool).moves W fuel (ms ++ ms') from (List.foldl_append ..).symm]
  exact hid

theorem binv_reached {connStr : Bytes} {size : Int} {user tls : Bytes} {w : ω} {pool : RPool ω} (h : openRoutingPool W connStr size user tls w = .ok (.ok (), pool)) (future : Nat) (ms' : List PMove)
    (hf : size.toNat + (2 * size.toNat + 1) * future ≤ fuel) :
    ∀ (n : Nat) (ms : List PMove), ms.length = n → (∀ m ∈ ms, Spec.noRestart m) → Spec.IdsDiffer ((PSys.fresh pool).moves W (fuel + 1) (ms ++ ms')).pool.log → Spec.callsIn ms ≤ future →
      ∃ l, BInv (maxOf size) size.toNat fuel (future - Spec.callsIn ms) ((PSys.fresh pool).moves W (fuel + 1) ms) l
  | 0, ms, hn, hr, hid, hc => by
    cases List.eq_nil_of_length_eq_zero hn
    have hb := reached_bounds h (fuel + 1) [] hr (ids_before hid)
    obtain ⟨h1, h2⟩ := open_lock h
    refine ⟨[], rfl, fun _ h => absurd h List.not_mem_nil, ?_, h2, ?_, fun h' => ?_, fun _ h => absurd h List.not_mem_nil⟩
    · have := hb.total
      simp only [stock, List.map_nil, List.sum_nil, Spec.callsIn, List.countP_nil, Nat.sub_zero, Nat.add_zero]
      omega
    · show 0 = if pool.writer then 1 else 0
      rw [h1]; rfl
    · have h' : pool.writer = true := h'
      rw [h1] at h'; cases h'
  | n + 1, ms, hn, hr, hid, hc => by
    obtain ⟨ms, m, rfl⟩ : ∃ ms₀ m, ms = ms₀ ++ [m] := by
      have hne : ms ≠ [] := fun e => by rw [e] at hn; cases hn
      exact ⟨ms.dropLast, ms.getLast hne, (List.dropLast_concat_getLast hne).symm⟩
    have hcount : Spec.callsIn (ms ++ [m]) = Spec.callsIn ms + Spec.callsIn [m] := List.countP_append
    have hid₀ : Spec.IdsDiffer ((PSys.fresh pool).moves W (fuel + 1) (ms ++ ([m] ++ ms'))).pool.log := by rwa [← List.append_assoc]
    have hid₁ := ids_before hid₀
    have hlen : ms.length = n := by simpa using hn
    have hr₀ : ∀ m' ∈ ms, Spec.noRestart m' := fun m' h' => hr m' (by simp [h'])
    obtain ⟨l, hl⟩ := binv_reached h future [] hf n ms hlen hr₀ (by rwa [List.append_nil]) (by omega)
    rw [moves_append_one]
    have hb := reached_bounds h (fuel + 1) ms hr₀ hid₁
    have hnr := hr m (by simp)
    cases m with
    | step k =>
      have : Spec.callsIn [PMove.step k] = 0 := rfl
      rw [hcount, this, Nat.add_zero]
      exact binv_step hl hb k
    | call r =>
      have : Spec.callsIn [PMove.call r] = 1 := rfl
      rw [hcount, this]
      rw [show future - Spec.callsIn ms = (future - (Spec.callsIn ms + 1)) + 1 by omega] at hl
      have hr' : r ≠ .start := fun e => hnr (by rw [e])
      match r, hr' with
      | .borrow w, hr' => exact ⟨_, binv_call hl _ hr' _⟩
      | .stop, hr' => exact ⟨_, binv_call hl _ hr' _⟩
      | .refresh, hr' => exact ⟨_, binv_call hl _ hr' _⟩
      | .reclaim c, hr' =>
        simp only [PSys.move]
        split
        · exact ⟨_, binv_call hl _ hr' _⟩
        · refine ⟨l, hl.calls, fun x hx => ⟨(hl.good x hx).1, Nat.lt_of_le_of_lt ?_ (hl.good x hx).2⟩, Nat.le_trans ?_ hl.stock, hl.readers, hl.writers, hl.excl, hl.returned⟩ <;>
            simp only [stock, Nat.mul_succ] <;> omega

/-- A call in the list of calls. -/
theorem binv_get {future : Nat} {s : PSys ω} {l : List (BCall ω)} (h : BInv mx N fuel future s l) {x : BCall ω} (hx : x ∈ l) : ∃ k : Nat, s.calls[k]? = some x.2 := by
  obtain ⟨k, hk⟩ := List.mem_iff_getElem?.1 hx
  exact ⟨k, by rw [← h.calls, List.getElem?_map, hk]; rfl⟩

/-- Somebody who holds the lock need not wait. -/
theorem holder_goes {x : BCall ω} (h : x.Good mx N) (hp : x.1.ph ≠ .free) : match x.2.2 with
    | .done _ => True
    | .act _ en _ _ => ∀ pool, en pool = true := by
  obtain ⟨g, r, p⟩ := x
  cases p with
  | done _ => trivial
  | act acc en f c =>
    dsimp only at hp ⊢
    rcases h.1 with ⟨u1, _⟩ | ⟨u1, _⟩ | ⟨u1, _⟩ | ⟨u1, u2, _⟩ | ⟨u1, u2, _⟩
    · exact fun pool => (u1 pool).1
    · exact absurd u1 hp
    · exact absurd u1 hp
    · exact fun pool => (u2 pool).1
    · exact fun pool => (u2 pool).1

theorem holding_mem {ph : Phase} : ∀ {l : List (BCall ω)}, 0 < holding ph l → ∃ x ∈ l, x.1.ph = ph
  | x :: l, h => by
    by_cases hx : x.1.ph = ph
    · exact ⟨x, List.mem_cons_self, hx⟩
    · rw [holding, if_neg hx, Nat.zero_add] at h
      obtain ⟨y, hy, he⟩ := holding_mem (l := l) h
      exact ⟨y, List.mem_cons_of_mem _ hy, he⟩

theorem binv_progress {future : Nat} {s : PSys ω} {l : List (BCall ω)} (h : BInv mx N fuel future s l) :
    (∀ k, k < s.calls.length → Spec.Ready s k) ∨ ∃ k, Spec.NeverWaits s k := by
  have goes : ∀ ph, ph ≠ .free → 0 < holding ph l → ∃ k, Spec.NeverWaits s k := by
    intro ph hph hl
    obtain ⟨x, hx, rfl⟩ := holding_mem hl
    obtain ⟨k, hk⟩ := binv_get h hx
    exact ⟨k, x.2.1, x.2.2, hk, holder_goes (h.good x hx).1 hph⟩
  by_cases hw : s.pool.writer = true
  · exact .inr (goes .write (by simp) (by rw [h.writers, if_pos hw]; omega))
  · by_cases hr : s.pool.readers = 0
    · left
      intro k hk
      obtain ⟨a, g, b, rfl, _⟩ := split_calls h.calls (List.getElem?_eq_getElem hk)
      refine ⟨(s.calls[k]).1, (s.calls[k]).2, List.getElem?_eq_getElem hk, ?_⟩
      have hg := (h.good _ (List.mem_append_right _ List.mem_cons_self)).1.1
      generalize s.calls[k] = e at hg
      obtain ⟨r, p⟩ := e
      cases p with
      | done _ => trivial
      | act acc en f c =>
        dsimp only
        rcases hg with ⟨u1, _⟩ | ⟨u1, u2, _⟩ | ⟨u1, u2, _⟩ | ⟨u1, u2, _⟩ | ⟨u1, u2, _⟩
        · exact (u1 _).1
        · rw [u2]; simpa using hw
        · rw [u2]; simp [hw, hr]
        · exact (u2 _).1
        · exact (u2 _).1
    · exact .inr (goes .read (by simp) (by rw [← h.readers]; omega))

/-- **C88**, no deadlock: in every history of a pool, if no call holds the lock then every call in progress can go on, and otherwise some call can go on without waiting.  (`fuel` is the number of
rounds the loops are given; there are never as many connections to loop over.) -/
theorem C88_progress {connStr : Bytes} {size : Int} {user tls : Bytes} {w : ω} {pool : RPool ω} (h : openRoutingPool W connStr size user tls w = .ok (.ok (), pool)) (fuel : Nat)
    (ms : List PMove) (hr : ∀ m ∈ ms, Spec.noRestart m) (hid : Spec.IdsDiffer ((PSys.fresh pool).moves W fuel ms).pool.log)
    (hf : size.toNat + (2 * size.toNat + 1) * Spec.callsIn ms < fuel) :
    (∀ k, k < ((PSys.fresh pool).moves W fuel ms).calls.length → Spec.Ready ((PSys.fresh pool).moves W fuel ms) k) ∨ ∃ k, Spec.NeverWaits ((PSys.fresh pool).moves W fuel ms) k := by
  obtain ⟨fuel, rfl⟩ : ∃ n, fuel = n + 1 := ⟨fuel - 1, by omega⟩
  obtain ⟨l, hl⟩ := binv_reached h (Spec.callsIn ms) [] (fuel := fuel) (by omega) _ ms rfl hr (by rwa [List.append_nil]) (Nat.le_refl _)
  exact binv_progress hl

/-- **C88**, no loop goes on forever: no call gives up for lack of rounds. -/
theorem C88_loops {connStr : Bytes} {size : Int} {user tls : Bytes} {w : ω} {pool : RPool ω} (h : openRoutingPool W connStr size user tls w = .ok (.ok (), pool)) (fuel : Nat)
    (ms : List PMove) (hr : ∀ m ∈ ms, Spec.noRestart m) (hid : Spec.IdsDiffer ((PSys.fresh pool).moves W fuel ms).pool.log)
    (hf : size.toNat + (2 * size.toNat + 1) * Spec.callsIn ms < fuel) {e : PReq × CRes PRet} (he : e ∈ ((PSys.fresh pool).moves W fuel ms).returned) : e.2 ≠ .fuel := by
  obtain ⟨fuel, rfl⟩ : ∃ n, fuel = n + 1 := ⟨fuel - 1, by omega⟩
  obtain ⟨l, hl⟩ := binv_reached h (Spec.callsIn ms) [] (fuel := fuel) (by omega) _ ms rfl hr (by rwa [List.append_nil]) (Nat.le_refl _)
  exact hl.returned e he

/-- A call makes a step. -/
inductive GoesOn : List (PReq × PProg (RPool ω) PRet) → List (PReq × PProg (RPool ω) PRet) → Prop
  | ret {a b r res} : GoesOn (a ++ b) (a ++ (r, .done res) :: b)
  | act {a b r acc en f k s} : GoesOn (a ++ (r, k s) :: b) (a ++ (r, .act acc en f k) :: b)

/-- A step of the first call, or of one of the others. -/
theorem goesOn_cons {l' l : List (PReq × PProg (RPool ω) PRet)} {r : PReq} {p : PProg (RPool ω) PRet} (h : GoesOn l' ((r, p) :: l)) :
    (l' = l ∧ ∃ res, p = .done res) ∨ (∃ acc en f k s, p = .act acc en f k ∧ l' = (r, k s) :: l) ∨ ∃ l₁, GoesOn l₁ l ∧ l' = (r, p) :: l₁ := by
  generalize hx : (r, p) :: l = x at h
  cases h with
  | @ret a b r' res =>
    cases a with
    | nil => cases hx; exact .inl ⟨rfl, _, rfl⟩
    | cons y a => cases hx; exact .inr (.inr ⟨a ++ b, .ret, rfl⟩)
  | @act a b r' acc en f k s =>
    cases a with
    | nil => cases hx; exact .inr (.inl ⟨_, _, _, _, s, rfl, rfl⟩)
    | cons y a => cases hx; exact .inr (.inr ⟨a ++ (r', k s) :: b, .act, rfl⟩)

theorem acc_cons (r : PReq) (p : PProg (RPool ω) PRet) : ∀ l, Acc GoesOn l → Acc GoesOn ((r, p) :: l) := by
  induction p with
  | done res =>
    intro l hl
    induction hl with
    | intro l hl ih =>
      refine ⟨_, fun l' h => ?_⟩
      rcases goesOn_cons h with ⟨rfl, _⟩ | ⟨_, _, _, _, _, he, _⟩ | ⟨l₁, h₁, rfl⟩
      · exact ⟨_, hl⟩
      · cases he
      · exact ih l₁ h₁
  | act acc en f k ihp =>
    intro l hl
    induction hl with
    | intro l hl ih =>
      refine ⟨_, fun l' h => ?_⟩
      rcases goesOn_cons h with ⟨_, _, he⟩ | ⟨_, _, _, _, s, he, rfl⟩ | ⟨l₁, h₁, rfl⟩
      · cases he
      · cases he; exact ihp s l ⟨_, hl⟩
      · exact ih l₁ h₁

theorem acc_calls : ∀ l : List (PReq × PProg (RPool ω) PRet), Acc GoesOn l
  | [] => ⟨_, fun l' h => by
    generalize hx : ([] : List (PReq × PProg (RPool ω) PRet)) = x at h
    cases h <;> exact absurd hx (by simp)⟩
  | (r, p) :: l => acc_cons r p l (acc_calls l)

theorem pursue_succ (s : PSys ω) (fuel : Nat) (pick : PSys ω → Nat) : ∀ n, Spec.pursue W fuel (s.move W fuel (.step (pick s))) pick n = Spec.pursue W fuel s pick (n + 1)
  | 0 => rfl
  | n + 1 => by rw [Spec.pursue, pursue_succ s fuel pick n]; rfl

/-- A step of a call that need not wait. -/
theorem ready_goesOn {s : PSys ω} {k : Nat} (h : Spec.Ready s k) (fuel : Nat) : GoesOn (s.move W fuel (.step k)).calls s.calls := by
  obtain ⟨r, p, hk, hp⟩ := h
  obtain ⟨hlt, he⟩ := List.getElem?_eq_some_iff.1 hk
  have hs : s.calls = s.calls.take k ++ (r, p) :: s.calls.drop (k + 1) := by rw [← he, ← List.drop_eq_getElem_cons hlt, List.take_append_drop]
  have hlen : (s.calls.take k).length = k := by rw [List.length_take]; omega
  simp only [PSys.move, hk]
  generalize hc : s.calls = calls at *
  rw [hs]
  generalize calls.take k = a at hs hlen
  generalize calls.drop (k + 1) = b at hs
  subst hlen
  cases p with
  | done res =>
    dsimp only
    rw [List.eraseIdx_append_of_length_le (Nat.le_refl _), Nat.sub_self, List.eraseIdx_cons_zero]
    exact .ret
  | act acc en f c =>
    dsimp only at hp ⊢
    rw [if_pos hp]
    dsimp only
    rw [List.set_append_right _ _ (Nat.le_refl _), Nat.sub_self, List.set_cons_zero]
    exact .act

/-- Everybody finishes. -/
theorem pursue_ends (fuel : Nat) (pick : PSys ω → Nat) : ∀ (l : List (PReq × PProg (RPool ω) PRet)), Acc GoesOn l → ∀ s : PSys ω, s.calls = l →
    (∀ n, (Spec.pursue W fuel s pick n).calls ≠ [] → Spec.Ready (Spec.pursue W fuel s pick n) (pick (Spec.pursue W fuel s pick n))) → ∃ n, (Spec.pursue W fuel s pick n).calls = [] := by
  intro l hl
  induction hl with
  | intro l _ ih =>
    rintro s rfl hp
    by_cases hs : s.calls = []
    · exact ⟨0, hs⟩
    · obtain ⟨n, hn⟩ := ih _ (ready_goesOn (W := W) (hp 0 hs) fuel) _ rfl fun n hn => by
        rw [Spec.pursue, pursue_succ] at hn ⊢
        exact hp (n + 1) hn
      rw [Spec.pursue, pursue_succ] at hn
      exact ⟨n + 1, hn⟩

theorem pursue_moves (s : PSys ω) (fuel : Nat) (pick : PSys ω → Nat) : ∀ n, ∃ ms : List PMove, Spec.pursue W fuel s pick n = s.moves W fuel ms ∧ (∀ m ∈ ms, Spec.noRestart m) ∧ Spec.callsIn ms = 0
  | 0 => ⟨[], rfl, fun _ h => absurd h List.not_mem_nil, rfl⟩
  | n + 1 => by
    obtain ⟨ms, h1, h2, h3⟩ := pursue_moves s fuel pick n
    refine ⟨ms ++ [.step (pick (s.moves W fuel ms))], ?_, fun m hm => ?_, ?_⟩
    · rw [Spec.pursue, h1, moves_append_one]
    · rcases List.mem_append.1 hm with hm | hm
      · exact h2 m hm
      · rw [List.mem_singleton.1 hm]; exact fun h => by cases h
    · rw [show Spec.callsIn (ms ++ _) = Spec.callsIn ms + _ from List.countP_append, h3]; rfl

/-- **C88**, everybody finishes: whoever decides which call goes on next, if only that is a call that need not wait whenever there is one, then after any history all calls in progress return. -/
theorem C88_finish {connStr : Bytes} {size : Int} {user tls : Bytes} {w : ω} {pool : RPool ω} (h : openRoutingPool W connStr size user tls w = .ok (.ok (), pool)) (fuel : Nat)
    (ms : List PMove) (hr : ∀ m ∈ ms, Spec.noRestart m) (hf : size.toNat + (2 * size.toNat + 1) * Spec.callsIn ms < fuel) (pick : PSys ω → Nat)
    (hp : ∀ s k, Spec.Ready s k → Spec.Ready s (pick s)) (hid : ∀ n, Spec.IdsDiffer (Spec.pursue W fuel ((PSys.fresh pool).moves W fuel ms) pick n).pool.log) :
    ∃ n, (Spec.pursue W fuel ((PSys.fresh pool).moves W fuel ms) pick n).calls = [] ∧
      ∀ e ∈ (Spec.pursue W fuel ((PSys.fresh pool).moves W fuel ms) pick n).returned, e.2 ≠ .fuel := by
  have all : ∀ n, ∃ ms', Spec.pursue W fuel ((PSys.fresh pool).moves W fuel ms) pick n = (PSys.fresh pool).moves W fuel ms' ∧ (∀ m ∈ ms', Spec.noRestart m) ∧ Spec.callsIn ms' = Spec.callsIn ms := by
    intro n
    obtain ⟨ms', h1, h2, h3⟩ := pursue_moves (W := W) ((PSys.fresh pool).moves W fuel ms) fuel pick n
    refine ⟨ms ++ ms', by rw [h1]; exact (List.foldl_append ..).symm, fun m hm => ?_, ?_⟩
    · rcases List.mem_append.1 hm with hm | hm
      · exact hr m hm
      · exact h2 m hm
    · rw [show Spec.callsIn (ms ++ ms') = Spec.callsIn ms + Spec.callsIn ms' from List.countP_append, h3]; rfl
  obtain ⟨n, hn⟩ := pursue_ends (W := W) fuel pick _ (acc_calls _) ((PSys.fresh pool).moves W fuel ms) rfl (fun n hn => by
    obtain ⟨ms', h1, h2, h3⟩ := all n
    have hid := hid n
    rw [h1] at hid hn ⊢
    rcases C88_progress h fuel ms' h2 hid (by rw [h3]; exact hf) with hk | ⟨k, r, p, hk, he⟩
    · exact hp _ 0 (hk 0 (List.length_pos_iff.2 hn))
    · refine hp _ k ⟨r, p, hk, ?_⟩
      cases p with
      | done _ => trivial
      | act _ _ _ _ => exact he _)
  refine ⟨n, hn, fun e he => ?_⟩
  obtain ⟨ms', h1, h2, h3⟩ := all n
  have hid := hid n
  rw [h1] at hid he
  exact C88_loops h fuel ms' h2 hid (by rw [h3]; exact hf) he

end

namespace C88

/-- A healthy cluster. -/
def script : Script where
  rows _ := threeMembers

/-- Two borrowers have begun; a refresh waits for them; another borrower comes. -/
def history : List PMove := [.call (.borrow true), .call (.borrow false), .step 0, .step 1, .step 0, .call .refresh, .step 2, .call (.borrow true)]

/-- Whether the call need not wait. -/
def ready {ω : Type} (s : PSys ω) (k : Nat) : Bool := match s.calls[k]? with
  | some (_, .done _) => true
  | some (_, .act _ en _ _) => en s.pool
  | none => false

theorem ready_iff {ω : Type} (s : PSys ω) (k : Nat) : Spec.Ready s k ↔ ready s k = true := by
  unfold Spec.Ready ready
  constructor
  · rintro ⟨r, p, hk, hp⟩
    rw [hk]
    cases p with
    | done _ => rfl
    | act _ _ _ _ => exact hp
  · intro h
    split at h
    · rename_i r _ hk; exact ⟨_, _, hk, trivial⟩
    · rename_i hk; exact ⟨_, _, hk, h⟩
    · cases h

/-- The first call that need not wait. -/
def first {ω : Type} (s : PSys ω) : Nat := ((List.range s.calls.length).find? (ready s)).getD 0

/-- It meets the assumption of C88. -/
theorem first_ready {ω : Type} (s : PSys ω) (k : Nat) (h : Spec.Ready s k) : Spec.Ready s (first s) := by
  rw [ready_iff] at h ⊢
  have hk : k < s.calls.length := by
    rcases Nat.lt_or_ge k s.calls.length with hk | hk
    · exact hk
    · unfold ready at h
      rw [List.getElem?_eq_none hk] at h
      cases h
  unfold first
  cases hf : (List.range s.calls.length).find? (ready s) with
  | none => exact absurd h (List.find?_eq_none.1 hf k (List.mem_range.2 hk))
  | some j => exact List.find?_some hf

/-- In this history the refresh has to wait, and all others can go on; after 60 more steps all have returned. -/
example : (match openRoutingPool script.world (ascii "bolt+routing://a") 3 (ascii "u:p") [] 0 with
    | .ok (.ok (), pool) =>
      some ((List.range 4).map (ready ((PSys.fresh pool).moves script.world 100 history)), Spec.callsIn history,
        (Spec.pursue script.world 100 ((PSys.fresh pool).moves script.world 100 history) first 60).calls.length,
        decide ((made (Spec.pursue script.world 100 ((PSys.fresh pool).moves script.world 100 history) first 60).pool.log).map (·.2)).Nodup)
    | _ => none) = some ([true, true, false, true], 4, 0, true) := by decide +kernel

end C88
end Verif

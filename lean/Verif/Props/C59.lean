/-
C59: the pool hands out connections of the right kind.  C60: a connection has one borrower at a time.  C62: the pool does not exceed its size.  C64: the queues stay within their limits.
-/
import Verif.Proofs.PoolSys
import Verif.Spec.Pool
namespace Verif

section
variable {ω : Type} {W : PWorld ω}

/-- The assumption about ids in terms of the proofs. -/
theorem idsDiffer_iff (s : RPool ω) : Spec.IdsDiffer s.log ↔ Distinct s := by
  have key : ∀ log : List PEv, log.Pairwise (fun a b => ∀ r r' id str str' w w', a = .created r id str w → b = .created r' id str' w' → False) ↔
      ((made log).map (·.2)).Nodup := by
    intro log
    induction log with
    | nil => simp [made]
    | cons e log ih =>
      rw [List.pairwise_cons, ih]
      cases e with
      | created r id str w =>
        simp only [made, List.map_cons, List.nodup_cons]
        refine and_congr_left fun _ => ?_
        constructor
        · intro h hm
          obtain ⟨⟨r', id'⟩, hm', rfl⟩ := List.mem_map.1 hm
          obtain ⟨str', w', hm'⟩ := mem_made.1 hm'
          exact h _ hm' r r' id' str str' w w' rfl rfl
        · rintro h b hb r1 r2 id1 str1 str2 w1 w2 h1 rfl
          cases h1
          exact h (List.mem_map.2 ⟨(r2, id), mem_made.2 ⟨str2, w2, hb⟩, rfl⟩)
      | _ => simp [made]
  unfold Distinct
  rw [← key, List.pairwise_iff_getElem]
  constructor
  · intro h i j hi hj hij r r' id str str' w w' h1 h2
    have := h i j r r' id str str' w w' (by rw [List.getElem?_eq_getElem hi, h1]) (by rw [List.getElem?_eq_getElem hj, h2])
    omega
  · intro h i j r r' id str str' w w' h1 h2
    obtain ⟨hi, e1⟩ := List.getElem?_eq_some_iff.1 h1
    obtain ⟨hj, e2⟩ := List.getElem?_eq_some_iff.1 h2
    rcases Nat.lt_trichotomy i j with hlt | heq | hlt
    · exact (h i j hi hj hlt _ _ _ _ _ _ _ e1 e2).elim
    · exact heq
    · exact (h j i hj hi hlt _ _ _ _ _ _ _ e2 e1).elim

theorem madeFor_iff {log : List PEv} {w : Bool} {r : Nat} : Spec.madeFor log w r = true ↔ ∃ id str, PEv.created r id str w ∈ log := by
  unfold Spec.madeFor
  rw [List.any_eq_true]
  constructor
  · rintro ⟨e, he, h⟩
    cases e with
    | created r' id str w' =>
      simp only [Bool.and_eq_true, beq_iff_eq] at h
      obtain ⟨rfl, rfl⟩ := h
      exact ⟨id, str, he⟩
    | _ => cases h
  · rintro ⟨id, str, h⟩
    exact ⟨_, h, by simp⟩

/-- A connection was created once. -/
theorem created_once : ∀ {log : List PEv}, ((made log).map (·.1)).Nodup → ∀ {r : Nat} {id id' str str' : Bytes} {w w' : Bool},
    PEv.created r id str w ∈ log → PEv.created r id' str' w' ∈ log → w = w'
  | e :: log, hn, r, id, id', str, str', w, w', h, h' => by
    rcases List.mem_cons.1 h with rfl | h1
    · rcases List.mem_cons.1 h' with h'1 | h'1
      · cases h'1; rfl
      · simp only [made, List.map_cons, List.nodup_cons] at hn
        exact absurd (List.mem_map.2 ⟨(r, id'), mem_made.2 ⟨_, _, h'1⟩, rfl⟩) hn.1
    · rcases List.mem_cons.1 h' with rfl | h'1
      · simp only [made, List.map_cons, List.nodup_cons] at hn
        exact absurd (List.mem_map.2 ⟨(r, id), mem_made.2 ⟨_, _, h1⟩, rfl⟩) hn.1
      · refine created_once ?_ h1 h'1
        cases e with
        | created => simp only [made, List.map_cons, List.nodup_cons] at hn; exact hn.2
        | _ => exact hn

/-- What is known about every history. -/
theorem reached_inv {size : Int} {ok : PMove → Prop} {s : PSys ω} (h : Spec.Reached W size ok s) (hid : Spec.IdsDiffer s.pool.log) (st : Bool)
    (hst : st = true ∨ ¬ ok (.call .start)) : SysInv st s ∧ ∀ w, s.pool.limit w = shareOf size w := by
  obtain ⟨connStr, userPart, tlsPart, w, pool, fuel, ms, ho, hok, rfl⟩ := h
  have hd := (idsDiffer_iff _).1 hid
  have hg : CallsGrow (PSys.fresh pool) := fun _ h => absurd h List.not_mem_nil
  have hgr := (moves_grows W fuel ms hg).2
  obtain ⟨hi, ht, hl⟩ := open_inv (st := st) W ho (hgr.distinct hd)
  refine ⟨moves_inv W fuel ms (hst.imp id fun h hm => h (hok _ hm)) hg hd hi, fun v => ?_⟩
  rcases hgr.limit with h | h
  · rw [h]; exact hl v
  · rw [h, hgr.total]; exact congrArg (shareOf · v) ht

/-- A list without repetitions whose elements are all in another one has no more elements of any kind than that. -/
theorem countP_le_of_nodup {α : Type} (p : α → Bool) : ∀ {xs ys : List α}, xs.Nodup → (∀ x ∈ xs, x ∈ ys) → xs.countP p ≤ ys.countP p
  | [], _, _, _ => by simp
  | x :: xs, ys, hn, hs => by
    obtain ⟨a, b, rfl⟩ := List.append_of_mem (hs x List.mem_cons_self)
    have hle := countP_le_of_nodup p (xs := xs) (ys := a ++ b) (List.nodup_cons.1 hn).2 (by
      intro y hy
      have hne : y ≠ x := fun e => (List.nodup_cons.1 hn).1 (e ▸ hy)
      have := hs y (List.mem_cons_of_mem _ hy)
      simp only [List.mem_append, List.mem_cons] at this ⊢
      rcases this with h | h | h
      · exact .inl h
      · exact absurd h hne
      · exact .inr h)
    have hp : (a ++ x :: b).countP p = (x :: (a ++ b)).countP p := List.Perm.countP_eq p List.perm_middle
    rw [hp, List.countP_cons, List.countP_cons]
    omega

/-- Where the lent connections are. -/
theorem lent_inv {st : Bool} {s : PSys ω} (h : SysInv st s) : ∃ (xs : List Wrap) (q : Bool → List Wrap) (gs : List Gh), xs.map (·.conn) = s.lent ∧
    (xs.map (·.conn.ref)).Nodup ∧ (∀ x ∈ xs, x ∈ s.pool.borrowedConns.map (·.2)) ∧ Ledger st s.pool gs q ∧ ((made s.pool.log).map (·.1)).Nodup := by
  obtain ⟨⟨xs, L, dead, hx, hL, hi, hs⟩, hr⟩ := h
  obtain ⟨q, l⟩ := hi.ledger
  refine ⟨xs, q, _, hx, ?_, fun x hm => l.toks x (by simp [hm]), l, hi.refs⟩
  have := l.toksNodup
  rw [List.flatMap_cons, List.map_append] at this
  exact (List.nodup_append.1 this).1

/-- The kind of a lent connection. -/
theorem madeFor_wrap {s : PSys ω} {x : Wrap} (hc : PEv.created x.conn.ref x.conn.id x.connStr x.write ∈ s.pool.log) (hu : ((made s.pool.log).map (·.1)).Nodup) (w : Bool) :
    Spec.madeFor s.pool.log w x.conn.ref = (x.write == w) := by
  rw [Bool.eq_iff_iff, madeFor_iff, beq_iff_eq]
  constructor
  · rintro ⟨id, str, h⟩; exact created_once hu hc h
  · rintro rfl; exact ⟨_, _, hc⟩

/-- **C59**: `BorrowRWConnection` returns only connections created for writing, `BorrowRConnection` only connections created for reading. -/
theorem C59 {size : Int} {s : PSys ω} (h : Spec.Reached W size Spec.anything s) (hid : Spec.IdsDiffer s.pool.log) {w : Bool} {c : ConnRef}
    (hc : (PReq.borrow w, CRes.ok (some c)) ∈ s.returned) : Spec.madeFor s.pool.log w c.ref = true ∧ Spec.madeFor s.pool.log (!w) c.ref = false := by
  obtain ⟨hi, _⟩ := reached_inv h hid true (.inl rfl)
  obtain ⟨str, hm⟩ := hi.returned w c hc
  obtain ⟨xs, q, gs, _, _, _, _, hu⟩ := lent_inv hi
  refine ⟨madeFor_iff.2 ⟨_, _, hm⟩, ?_⟩
  rw [Bool.eq_false_iff, Ne, madeFor_iff]
  rintro ⟨id, str', h'⟩
  have := created_once hu hm h'
  cases w <;> cases this

/-- `Open` of the driver's pool borrows for reading in read mode, for writing otherwise. -/
theorem C59_open (fuel : Nat) (mode : AccessMode) :
    (do return some (← routingOpen W fuel mode) : PProg (RPool ω) PRet) = PReq.prog W fuel (.borrow (mode ≠ readMode)) := by
  unfold routingOpen
  by_cases h : mode = readMode
  · rw [if_pos h]; simp [h, PReq.prog]
  · rw [if_neg h]; simp [h, PReq.prog]

/-- **C60**: no connection is lent to two borrowers at once, and a lent connection is not in the idle queues. -/
theorem C60 {size : Int} {s : PSys ω} (h : Spec.Reached W size Spec.anything s) (hid : Spec.IdsDiffer s.pool.log) :
    (s.lent.map (·.ref)).Nodup ∧ ∀ c ∈ s.lent, ∀ w, ∀ x ∈ s.pool.queueOf w, x.conn.ref ≠ c.ref := by
  obtain ⟨hi, _⟩ := reached_inv h hid true (.inl rfl)
  obtain ⟨xs, q, gs, hx, hn, hb, l, hu⟩ := lent_inv hi
  rw [← hx]
  refine ⟨by rw [List.map_map]; exact hn, fun c hc w y hy => ?_⟩
  obtain ⟨x, hxm, rfl⟩ := List.mem_map.1 hc
  have hnd := l.nodup
  rw [allWraps, List.map_append] at hnd
  have hnd := (List.nodup_append.1 hnd).1
  rw [List.map_append] at hnd
  refine fun e => (List.nodup_append.1 hnd).2.2 y.conn.ref ?_ x.conn.ref (List.mem_map_of_mem (hb x hxm)) e
  refine List.mem_map_of_mem (f := fun x : Wrap => x.conn.ref) ?_
  have := (l.sub w).subset hy
  cases w <;> simp [this]

/-- **C62**: unless the pool is started again, the idle connections and the lent connections of a kind are never more than its share, and all of them together never more than the size.
Missing: pools that are stopped and started again, for which it is false (`C62_refuted`). -/
theorem C62_partial {size : Int} {s : PSys ω} (h : Spec.Reached W size Spec.noRestart s) (hid : Spec.IdsDiffer s.pool.log) :
    (∀ w, (s.pool.queueOf w).length + s.lent.countP (fun c => Spec.madeFor s.pool.log w c.ref) ≤ Spec.share size.toNat w) ∧
    (s.pool.queueOf true).length + (s.pool.queueOf false).length + s.lent.length ≤ size.toNat := by
  obtain ⟨hi, hl⟩ := reached_inv h hid false (.inr fun h => h rfl)
  obtain ⟨xs, q, gs, hx, hn, hb, l, hu⟩ := lent_inv hi
  have hmade : ∀ x ∈ xs, PEv.created x.conn.ref x.conn.id x.connStr x.write ∈ s.pool.log := fun x hm => l.made x (by
    simp only [allWraps, List.mem_append]
    exact .inl (.inr (hb x hm)))
  have hshare : ∀ w, shareOf size w = Spec.share size.toNat w := by intro w; unfold shareOf Spec.share; split <;> omega
  have hqueue : ∀ w, (s.pool.queueOf w).length ≤ (q false ++ q true).countP (·.write == w) := by
    intro w
    have h1 : (q w).countP (·.write == w) = (q w).length := List.countP_eq_length.2 fun x hm => by simp [l.kind w x hm]
    have h2 := (l.sub w).length_le
    rw [List.countP_append]
    cases w <;> omega
  have hlent : ∀ w, s.lent.countP (fun c => Spec.madeFor s.pool.log w c.ref) = xs.countP (·.write == w) := by
    intro w
    rw [← hx, List.countP_map]
    exact List.countP_congr fun x hm => by simp only [Function.comp]; rw [madeFor_wrap (hmade x hm) hu w]
  have hle : ∀ w, xs.countP (·.write == w) ≤ (s.pool.borrowedConns.map (·.2)).countP (·.write == w) := fun w =>
    countP_le_of_nodup _ (List.Pairwise.of_map (·.conn.ref) (fun a b h e => h (by rw [e])) hn) hb
  have hkind : ∀ w, (s.pool.queueOf w).length + s.lent.countP (fun c => Spec.madeFor s.pool.log w c.ref) ≤ Spec.share size.toNat w := by
    intro w
    have hc := l.cap rfl w
    rw [hl, hshare, allWraps, List.countP_append, List.countP_append] at hc
    rw [hlent]
    have := hqueue w
    have := hle w
    omega
  refine ⟨hkind, ?_⟩
  have h1 := hkind true
  have h2 := hkind false
  have h3 : s.lent.length = xs.countP (·.write == true) + xs.countP (·.write == false) := by
    rw [← hx, List.length_map]
    clear hx hn hb hmade hlent hle
    induction xs with
    | nil => rfl
    | cons x xs ih => rw [List.length_cons, List.countP_cons, List.countP_cons, ih]; cases x.write <;> simp <;> omega
  rw [hlent] at h1 h2
  have : Spec.share size.toNat true + Spec.share size.toNat false ≤ size.toNat := by
    simp only [Spec.share, if_true, Bool.false_eq_true, if_false]
    omega
  omega

/-- **C64**: unless the pool is started again, at any time (in particular after a refresh) the queues hold between the minimum and the maximum number of connections.
Missing: pools that are stopped and started again, for which it is false (`C64_refuted`). -/
theorem C64_partial {size : Int} {s : PSys ω} (h : Spec.Reached W size Spec.noRestart s) (hid : Spec.IdsDiffer s.pool.log) :
    (s.pool.minWriteIdle ≤ s.pool.writeQueue.length ∧ s.pool.minReadIdle ≤ s.pool.readQueue.length) ∧
    (size > 1 → (s.pool.writeQueue.length : Int) ≤ s.pool.maxWriteIdle ∧ (s.pool.readQueue.length : Int) ≤ s.pool.maxReadIdle) := by
  obtain ⟨hi, hl⟩ := reached_inv h hid false (.inr fun h => h rfl)
  obtain ⟨⟨xs, L, dead, hx, hL, hp, hs⟩, hr⟩ := hi
  obtain ⟨q, l⟩ := hp.ledger
  have hqueue : ∀ w, (s.pool.queueOf w).length ≤ s.pool.limit w := by
    intro w
    have h1 : (q w).countP (·.write == w) = (q w).length := List.countP_eq_length.2 fun x hm => by simp [l.kind w x hm]
    have h2 := (l.sub w).length_le
    have hc := l.cap rfl w
    rw [allWraps, List.countP_append, List.countP_append, List.countP_append] at hc
    cases w <;> omega
  have hw := hqueue true
  have hr := hqueue false
  have h1 := hp.mins true
  have h2 := hp.mins false
  have l1 := hl true
  have l2 := hl false
  simp only [RPool.queueOf, RPool.limit, RPool.lower, shareOf, if_true, Bool.false_eq_true, if_false] at hw hr h1 h2 l1 l2
  refine ⟨⟨by omega, by omega⟩, fun hpos => ⟨by omega, by omega⟩⟩

end

/-- Computations with a small pool: the cluster does not change, all connections are alive. -/
def pool59 (size : Int) : Except Err (CRes Unit × RPool Nat) :=
  openRoutingPool (Script.world { rows := fun _ => threeMembers }) (ascii "bolt+routing://a") size (ascii "u:p") [] 0

/-- The state after some moves. -/
def state59 (size : Int) (ms : List PMove) : Option (PSys Nat) :=
  match pool59 size with
  | .ok (.ok (), pool) => some ((PSys.fresh pool).moves (Script.world { rows := fun _ => threeMembers }) 100 ms)
  | _ => none

theorem reached59 {size : Int} {ms : List PMove} {s : PSys Nat} {ok : PMove → Prop} (h : state59 size ms = some s) (hok : ∀ m ∈ ms, ok m) :
    Spec.Reached (Script.world { rows := fun _ => threeMembers }) size ok s := by
  unfold state59 at h
  cases hp : pool59 size with
  | error e => rw [hp] at h; cases h
  | ok rp =>
    obtain ⟨r, pool⟩ := rp
    rw [hp] at h
    match r with
    | .ok () =>
      simp only [Option.some.injEq] at h
      exact ⟨_, _, _, _, pool, 100, ms, hp, hok, h.symm⟩
    | .err _ => cases h
    | .panic => cases h
    | .fuel => cases h

/-- Check a property of the state after some moves. -/
def check59 (size : Int) (ms : List PMove) (p : PSys Nat → Bool) : Bool :=
  match state59 size ms with
  | some s => decide ((made s.pool.log).map (·.2)).Nodup && p s
  | none => false

theorem check59_reached {size : Int} {ms : List PMove} {p : PSys Nat → Bool} {ok : PMove → Prop} (h : check59 size ms p = true) (hok : ∀ m ∈ ms, ok m) :
    ∃ s, Spec.Reached (Script.world { rows := fun _ => threeMembers }) size ok s ∧ Spec.IdsDiffer s.pool.log ∧ p s = true := by
  unfold check59 at h
  cases hs : state59 size ms with
  | none => rw [hs] at h; cases h
  | some s =>
    rw [hs] at h
    simp only [Bool.and_eq_true, decide_eq_true_eq] at h
    exact ⟨s, reached59 hs hok, (idsDiffer_iff _).2 h.1, h.2⟩

/-- Three borrowers take turns; then a connection is returned while the pool is refreshed, and somebody else asks for one. -/
def moves59 : List PMove :=
  [.call (.borrow true), .call (.borrow false), .call (.borrow true)] ++ (List.replicate 20 [.step 2, .step 0, .step 1]).flatten ++
  [.call (.reclaim ⟨1, [49, 45, 0, 4]⟩), .call .refresh, .call (.borrow true)] ++ (List.replicate 60 [.step 1, .step 0, .step 2]).flatten

/-- The hypotheses of C59, C60, C62 and C64 are met in a history in which two connections are lent for writing, one of them for the second time. -/
example : ∃ s, Spec.Reached (Script.world { rows := fun _ => threeMembers }) 3 Spec.noRestart s ∧ Spec.IdsDiffer s.pool.log ∧
    decide (s.calls.length = 0 ∧ s.lent.length = 3 ∧ (s.returned.filter (fun r => decide (r.1 = .borrow true))).length = 3) = true :=
  check59_reached (ms := moves59) (by decide +kernel) (by unfold Spec.noRestart; decide +kernel)

/-- **C62 refuted**: a connection is borrowed, the pool is stopped and started again: three connections for a pool of two. -/
theorem C62_refuted : ¬ ∀ {ω : Type} {W : PWorld ω} {size : Int} {s : PSys ω}, Spec.Reached W size Spec.anything s → Spec.IdsDiffer s.pool.log →
    (s.pool.queueOf true).length + (s.pool.queueOf false).length + s.lent.length ≤ size.toNat := by
  intro hall
  obtain ⟨s, hr, hid, hs⟩ := check59_reached (size := 2) (ok := Spec.anything)
    (ms := [.call (.borrow true)] ++ List.replicate 10 (.step 0) ++ [.call .stop] ++ List.replicate 20 (.step 0) ++ [.call .start] ++ List.replicate 30 (.step 0))
    (p := fun s => decide ((s.pool.queueOf true).length + (s.pool.queueOf false).length + s.lent.length = 3)) (by decide +kernel) (fun _ _ => trivial)
  have h := hall hr hid
  have hs := of_decide_eq_true hs
  omega

/-- **C64 refuted**: if that connection is returned and the pool refreshed, the queue for writing is longer than its maximum. -/
theorem C64_refuted : ¬ ∀ {ω : Type} {W : PWorld ω} {size : Int} {s : PSys ω}, Spec.Reached W size Spec.anything s → Spec.IdsDiffer s.pool.log →
    s.calls = [] → s.returned.getLast? = some (.refresh, .ok none) → (s.pool.writeQueue.length : Int) ≤ s.pool.maxWriteIdle := by
  intro hall
  obtain ⟨s, hr, hid, hs⟩ := check59_reached (size := 2) (ok := Spec.anything)
    (ms := [.call (.borrow true)] ++ List.replicate 10 (.step 0) ++ [.call .stop] ++ List.replicate 20 (.step 0) ++ [.call .start] ++ List.replicate 30 (.step 0) ++
      [.call (.reclaim ⟨1, [49, 45, 0, 4]⟩)] ++ List.replicate 20 (.step 0) ++ [.call .refresh] ++ List.replicate 40 (.step 0))
    (p := fun s => decide (s.calls.length = 0) && (match s.returned.getLast? with | some (.refresh, .ok none) => true | _ => false) &&
      decide ((s.pool.writeQueue.length : Int) = s.pool.maxWriteIdle + 1)) (by decide +kernel) (fun _ _ => trivial)
  simp only [Bool.and_eq_true, decide_eq_true_eq] at hs
  have h := hall hr hid (List.eq_nil_of_length_eq_zero hs.1.1) (by
    have := hs.1.2
    split at this
    · rename_i h; exact h
    · cases this)
  omega

end Verif

/-
C46: concurrent queries on one connection do not interleave.

Any number of goroutines call `Query`/`Exec` (on the connection or on a transaction) in any schedule.  At every moment at most one of them is inside a call, and the connection is
exactly as if the calls that returned had been made one after the other by a single goroutine; each got the result it would have got then.
-/
import Verif.Proofs.Threads
import Verif.Proofs.ValEq
import Verif.Spec.Scripted
namespace Verif
variable {σ : Type} (env : Env) (W : World σ)

/-- One goroutine makes the calls one after the other, starting with connection `c` and ending with `c'`; these are the results. -/
def Spec.Serial {ρ : Type} (alone : ρ → CM σ Rows) : Conn σ → List (Nat × ρ × CRes Rows) → Conn σ → Prop
  | c, [], c' => c' = c
  | c, (_, r, res) :: l, c' => (alone r c).1 = res ∧ Spec.Serial alone (alone r c).2 l c'

/-- The trace is made of one piece per call, each what the call, made alone, adds to the trace it finds. -/
def Spec.Pieces (alone : Req → CM σ Rows) : Conn σ → List (Nat × Req × CRes Rows) → List (List Ev) → Prop
  | _, [], ps => ps = []
  | c, (_, r, _) :: l, ps => ∃ p ps', ps = p :: ps' ∧ (alone r c).2.trace = c.trace ++ p ∧ Spec.Pieces alone (alone r c).2 l ps'

/-- The calls goroutine `i` has made. -/
def Spec.callsOf {ρ : Type} (i : Nat) (l : List (Nat × ρ × CRes Rows)) : List ρ := (l.filter fun e => e.1 = i).map fun e => e.2.1

/-- The code of the calls: the check, the mutex, and any way of executing `runQuery` as a sequence of actions that leave the protocol alone and only add to the trace. -/
structure Spec.Executes (fuel : Nat) (K : Code σ Req) : Prop where
  pre : K.pre = (queryCode env W fuel).pre
  locks : ∀ r, K.locks r = true
  run : ∀ r : Req, (K.prog r).run = runQuery env W fuel r.query r.params r.db r.inTx
  each : ∀ r, (K.prog r).Each fun c c' => c'.proto = c.proto ∧ c.trace <+: c'.trace

/-- At most one event per action: one message written, one message read, or the socket closed. -/
def Spec.OneEvent (c c' : Conn σ) : Prop := c'.trace = c.trace ∨ ∃ e, c'.trace = c.trace ++ [e]

section
variable {env W}

theorem one_event : Prog.Acts env W (fun (c c' : Conn σ) => (c'.proto = c.proto ∧ c.trace <+: c'.trace) ∧ Spec.OneEvent c c') where
  same c := ⟨⟨rfl, List.prefix_refl _⟩, .inl rfl⟩
  endTx h c := ⟨⟨rfl, List.prefix_refl _⟩, .inl rfl⟩
  send v c := by
    refine ⟨⟨((sameProto env W).send v c).1, (grows env W).send v c⟩, ?_⟩
    unfold sendMessage writeAll Spec.OneEvent
    dsimp only
    split
    · split <;> exact .inl rfl
    · split
      · exact .inl rfl
      · split
        · split <;> exact .inr ⟨_, rfl⟩
        · exact .inr ⟨_, rfl⟩
  recv c := by
    refine ⟨⟨((sameProto env W).recv c).1, (grows env W).recv c⟩, ?_⟩
    unfold receive Spec.OneEvent
    split
    · exact .inl rfl
    · split
      · exact .inl rfl
      · split
        · exact .inr ⟨_, rfl⟩
        all_goals exact .inl rfl
  sock c := by
    refine ⟨⟨((sameProto env W).sock c).1, (grows env W).sock c⟩, ?_⟩
    unfold closeSock Spec.OneEvent
    dsimp only
    split <;> exact .inr ⟨_, rfl⟩

end

/-- The model's own code is such a code, and its actions are as fine as the trace: no action accounts for two events. -/
theorem C46_executes (fuel : Nat) :
    Spec.Executes env W fuel (queryCode env W fuel) ∧ ∀ r, ((queryCode env W fuel).prog r).Each (Spec.OneEvent (σ := σ)) where
  left :=
    { pre := rfl
      locks := fun _ => rfl
      run := fun r => Prog.run_runQuery env W fuel r.query r.params r.db r.inTx
      each := fun r => (one_event.runQuery fuel r.query r.params r.db r.inTx).mono fun _ _ h => h.1 }
  right r := (one_event.runQuery fuel r.query r.params r.db r.inTx).mono fun _ _ h => h.2

section
variable {env W} {fuel : Nat}

theorem Spec.Serial.snoc {alone : Req → CM σ Rows} {l : List (Nat × Req × CRes Rows)} {c c' : Conn σ} (h : Spec.Serial alone c l c')
    (i : Nat) (r : Req) : Spec.Serial alone c (l ++ [(i, r, (alone r c').1)]) (alone r c').2 := by
  induction l generalizing c with
  | nil => subst h; exact ⟨rfl, rfl⟩
  | cons e l ih => exact ⟨h.1, ih h.2⟩

theorem checkDb_cases (db : Bytes) (c : Conn σ) :
    checkDb db c = (if c.proto.supportsMultiDatabase = false ∧ db ≠ [] then
      (.err (.plain "bolt protocol version does not have multi database support"), c) else (.ok (), c)) := by
  unfold checkDb
  rw [CM.get_bind]
  split <;> rfl

/-- A call refused by the check leaves the connection alone, whoever is in the middle of a call. -/
theorem pre_some {r : Req} {c c' : Conn σ} {res : CRes Rows} (h : (queryCode env W fuel).pre r c = some res) (hp : c'.proto = c.proto) :
    r.alone env W fuel c' = (res, c') := by
  simp only [queryCode, checkDb_cases] at h
  unfold Req.alone
  rw [CM.bind_apply, checkDb_cases, hp]
  by_cases hc : c.proto.supportsMultiDatabase = false ∧ r.db ≠ []
  · rw [if_pos hc] at h ⊢; cases h; rfl
  · rw [if_neg hc] at h; cases h

theorem pre_none {r : Req} {c c' : Conn σ} (h : (queryCode env W fuel).pre r c = none) (hp : c'.proto = c.proto) :
    r.alone env W fuel c' = runQuery env W fuel r.query r.params r.db r.inTx c' := by
  simp only [queryCode, checkDb_cases] at h
  unfold Req.alone
  rw [CM.bind_apply, checkDb_cases, hp]
  by_cases hc : c.proto.supportsMultiDatabase = false ∧ r.db ≠ []
  · rw [if_pos hc] at h; cases h
  · rw [if_neg hc]

/-- The state of the mutex and of the goroutine inside a call. -/
def Inside (fuel : Nat) (s : Sys σ Req) (c1 : Conn σ) : Prop :=
  match s.holder with
  | none => s.conn = c1 ∧ ∀ j, (s.thr j).cur = none
  | some i => (∀ j, j ≠ i → (s.thr j).cur = none) ∧ ∃ r p, (s.thr i).cur = some (r, p) ∧ p.run s.conn = r.alone env W fuel c1 ∧
      (p.Each fun c c' => c'.proto = c.proto ∧ c.trace <+: c'.trace) ∧ c1.trace <+: s.conn.trace

/-- What holds at every moment. -/
structure Inv (fuel : Nat) (c0 : Conn σ) (todo : Nat → List Req) (s : Sys σ Req) : Prop where
  proto : s.conn.proto = c0.proto
  serial : ∃ c1, Spec.Serial (Req.alone env W fuel) c0 s.log c1 ∧ c1.proto = c0.proto ∧ Inside (env := env) (W := W) fuel s c1
  order : ∀ i, todo i = Spec.callsOf i s.log ++ ((s.thr i).cur.map Prod.fst).toList ++ (s.thr i).todo

theorem alone_proto (r : Req) (c : Conn σ) : (r.alone env W fuel c).2.proto = c.proto := by
  have := Steps.bind (sameProto env W).toStepRel ((sameProto env W).checkDb env W r.db)
    (fun _ => (sameProto env W).runQuery env W fuel r.query r.params r.db r.inTx) c
  exact this.1

theorem callsOf_snoc {ρ : Type} (i j : Nat) (l : List (Nat × ρ × CRes Rows)) (r : ρ) (res : CRes Rows) :
    Spec.callsOf i (l ++ [(j, r, res)]) = Spec.callsOf i l ++ if j = i then [r] else [] := by
  unfold Spec.callsOf
  rw [List.filter_append, List.map_append]
  congr 1
  by_cases h : j = i <;> simp [h]

theorem setThr_self {ρ : Type} (s : Sys σ ρ) (i : Nat) (t : Thread σ ρ) : s.setThr i t i = t := by simp [Sys.setThr]
theorem setThr_ne {ρ : Type} (s : Sys σ ρ) {i j : Nat} (h : j ≠ i) (t : Thread σ ρ) : s.setThr i t j = s.thr j := by simp [Sys.setThr, h]

theorem Inv.step {K : Code σ Req} (hK : Spec.Executes env W fuel K) {c0 : Conn σ} {todo : Nat → List Req} {s s' : Sys σ Req} {i : Nat}
    (hI : Inv (env := env) (W := W) fuel c0 todo s) (h : s.step K i = some s') : Inv (env := env) (W := W) fuel c0 todo s' := by
  obtain ⟨hproto, ⟨c1, hser, hc1, hin⟩, horder⟩ := hI
  unfold Sys.step at h
  split at h
  · next hcur =>
    split at h
    · cases h
    · next r rs htodo =>
      rw [hK.pre] at h
      split at h
      · -- refused
        next res hpre =>
        cases h
        have ha := pre_some hpre (hc1.trans hproto.symm)
        refine ⟨hproto, ⟨c1, ?_, hc1, ?_⟩, fun j => ?_⟩
        · have := hser.snoc i r
          rw [ha] at this
          exact this
        · unfold Inside at hin ⊢
          cases hh : s.holder with
          | none =>
            rw [hh] at hin
            simp only at hin ⊢
            refine ⟨hin.1, fun j => ?_⟩
            by_cases hj : j = i
            · subst hj; rw [setThr_self]
            · rw [setThr_ne s hj]; exact hin.2 j
          | some k =>
            simp only [hh] at hin ⊢
            obtain ⟨hother, r', p, hk, hrest⟩ := hin
            have hki : k ≠ i := by rintro rfl; rw [hcur] at hk; cases hk
            refine ⟨fun j hj => ?_, r', p, ?_, hrest⟩
            · by_cases hji : j = i
              · subst hji; rw [setThr_self]
              · rw [setThr_ne s hji]; exact hother j hj
            · rw [setThr_ne s hki]; exact hk
        · rw [callsOf_snoc]
          by_cases hj : j = i
          · subst hj
            have := horder j
            rw [hcur, htodo] at this
            simp only [setThr_self, if_true]
            simpa using this
          · have := horder j
            simp only [setThr_ne s hj, Ne.symm hj, if_false, List.append_nil]
            exact this
      · -- takes the mutex
        next hpre =>
        rw [hK.locks r, if_pos rfl] at h
        split at h
        · cases h
        · next hh =>
          cases h
          unfold Inside at hin
          simp only [hh] at hin
          obtain ⟨rfl, hall⟩ := hin
          refine ⟨hproto, ⟨s.conn, hser, hc1, ?_⟩, fun j => ?_⟩
          · refine ⟨fun j hj => ?_, r, K.prog r, ?_, ?_, hK.each r, List.prefix_refl _⟩
            · exact (congrArg Thread.cur (setThr_ne s hj _)).trans (hall j)
            · exact congrArg Thread.cur (setThr_self s i _)
            · exact (congrFun (hK.run r) _).trans (pre_none hpre rfl).symm
          · by_cases hj : j = i
            · subst hj
              have := horder j
              rw [hcur, htodo] at this
              simp only [setThr_self]
              simpa using this
            · have := horder j
              simp only [setThr_ne s hj]
              exact this
  · -- an action
    next r _ g k hcur =>
    cases h
    unfold Inside at hin
    cases hh : s.holder with
    | none => simp only [hh] at hin; rw [hin.2 i] at hcur; cases hcur
    | some k' =>
      simp only [hh] at hin
      obtain ⟨hother, r', p, hk, hrun, heach, htr⟩ := hin
      have hki : k' = i := by
        by_cases e : k' = i
        · exact e
        · rw [hother i (Ne.symm e)] at hcur; cases hcur
      subst hki
      rw [hcur] at hk
      cases hk
      have hg := heach s.conn
      refine ⟨hg.1.1.trans hproto, ⟨c1, hser, hc1, ?_⟩, fun j => ?_⟩
      · unfold Inside
        simp only
        refine ⟨fun j hj => ?_, r, k s.conn, ?_, hrun, hg.2, htr.trans hg.1.2⟩
        · rw [setThr_ne s hj]; exact hother j hj
        · rw [setThr_self]
      · by_cases hj : j = k'
        · subst hj
          have := horder j
          rw [hcur] at this
          simp only [setThr_self]
          exact this
        · have := horder j
          simp only [setThr_ne s hj]
          exact this
  · -- the call returns
    next r res hcur =>
    cases h
    unfold Inside at hin
    cases hh : s.holder with
    | none => simp only [hh] at hin; rw [hin.2 i] at hcur; cases hcur
    | some k' =>
      simp only [hh] at hin
      obtain ⟨hother, r', p, hk, hrun, heach, htr⟩ := hin
      have hki : k' = i := by
        by_cases e : k' = i
        · exact e
        · rw [hother i (Ne.symm e)] at hcur; cases hcur
      subst hki
      rw [hcur] at hk
      cases hk
      have ha : r.alone env W fuel c1 = (res, s.conn) := hrun.symm
      refine ⟨hproto, ⟨s.conn, ?_, hproto, ?_⟩, fun j => ?_⟩
      · have := hser.snoc k' r
        rw [ha] at this
        exact this
      · unfold Inside
        simp only [hK.locks r, if_true]
        refine ⟨trivial, fun j => ?_⟩
        by_cases hj : j = k'
        · subst hj; rw [setThr_self]
        · rw [setThr_ne s hj]; exact hother j hj
      · rw [callsOf_snoc]
        by_cases hj : j = k'
        · subst hj
          have := horder j
          rw [hcur] at this
          simp only [setThr_self, if_true]
          simpa using this
        · have := horder j
          simp only [setThr_ne s hj, Ne.symm hj, if_false, List.append_nil]
          exact this

theorem Inv.init (c0 : Conn σ) (todo : Nat → List Req) : Inv (env := env) (W := W) fuel c0 todo (Sys.init c0 todo) where
  proto := rfl
  serial := ⟨c0, rfl, rfl, rfl, fun _ => rfl⟩
  order _ := rfl

theorem Inv.sched {K : Code σ Req} (hK : Spec.Executes env W fuel K) {c0 : Conn σ} {todo : Nat → List Req} :
    (is : List Nat) → {s : Sys σ Req} → Inv (env := env) (W := W) fuel c0 todo s → Inv (env := env) (W := W) fuel c0 todo (s.sched K is)
  | [], _, h => h
  | i :: is, s, h => by
    unfold Sys.sched
    cases hs : s.step K i with
    | none => exact Inv.sched hK is h
    | some s' => exact Inv.sched hK is (h.step hK hs)

theorem Spec.Serial.pieces {l : List (Nat × Req × CRes Rows)} {c c' : Conn σ} (h : Spec.Serial (Req.alone env W fuel) c l c') :
    ∃ ps, Spec.Pieces (Req.alone env W fuel) c l ps ∧ c'.trace = c.trace ++ ps.flatten := by
  induction l generalizing c with
  | nil => subst h; exact ⟨[], rfl, (List.append_nil _).symm⟩
  | cons e l ih =>
    obtain ⟨ps, hps, ht⟩ := ih h.2
    have hg := Steps.bind (grows env W).toStepRel ((grows env W).checkDb env W e.2.1.db)
      (fun _ => (grows env W).runQuery env W fuel e.2.1.query e.2.1.params e.2.1.db e.2.1.inTx) c
    obtain ⟨p, hp⟩ := hg
    refine ⟨p :: ps, ⟨p, ps, rfl, hp.symm, hps⟩, ?_⟩
    rw [ht, List.flatten_cons, ← List.append_assoc]
    exact congrArg (· ++ ps.flatten) hp.symm

end

/-- Any goroutines, any calls, any schedule, any way of executing `runQuery` in steps.
* The calls that returned, in the order in which they returned, are as if made one after the other: there is a connection `c1` at which a single goroutine would have arrived, with
  the same results.
* The events are one piece per call that returned, each piece what that call alone would have sent and received, followed by the events of the call in progress.
* If no call is in progress the connection is `c1`.
* If one is, no other is, and the rest of it will do what it would have done alone starting with `c1`.
* Every goroutine's calls are made in its order. -/
theorem C46_serial (fuel : Nat) (K : Code σ Req) (hK : Spec.Executes env W fuel K) (c0 : Conn σ) (todo : Nat → List Req) (is : List Nat) :
    ∃ c1 ps, Spec.Serial (Req.alone env W fuel) c0 ((Sys.init c0 todo).sched K is).log c1 ∧
      Spec.Pieces (Req.alone env W fuel) c0 ((Sys.init c0 todo).sched K is).log ps ∧ c1.trace = c0.trace ++ ps.flatten ∧
      (((Sys.init c0 todo).sched K is).conn = c1 ∧ (∀ j, (((Sys.init c0 todo).sched K is).thr j).cur = none) ∨
        ∃ i r p, (((Sys.init c0 todo).sched K is).thr i).cur = some (r, p) ∧
          (∀ j, j ≠ i → (((Sys.init c0 todo).sched K is).thr j).cur = none) ∧
          p.run ((Sys.init c0 todo).sched K is).conn = r.alone env W fuel c1 ∧
          c1.trace <+: ((Sys.init c0 todo).sched K is).conn.trace ∧
          ((Sys.init c0 todo).sched K is).conn.trace <+: (r.alone env W fuel c1).2.trace) ∧
      ∀ i, todo i = Spec.callsOf i ((Sys.init c0 todo).sched K is).log ++
        ((((Sys.init c0 todo).sched K is).thr i).cur.map Prod.fst).toList ++ (((Sys.init c0 todo).sched K is).thr i).todo := by
  obtain ⟨_, ⟨c1, hser, _, hin⟩, horder⟩ := Inv.sched hK is (Inv.init (env := env) (W := W) (fuel := fuel) c0 todo)
  obtain ⟨ps, hps, htr⟩ := hser.pieces
  refine ⟨c1, ps, hser, hps, htr, ?_, horder⟩
  unfold Inside at hin
  split at hin
  · exact .inl hin
  · next i _ =>
    obtain ⟨hother, r, p, hk, hrun, heach, hpre⟩ := hin
    refine .inr ⟨i, r, p, hk, hother, hrun, hpre, ?_⟩
    rw [← hrun]
    exact Prog.Each.run (R := fun c c' => c.trace <+: c'.trace) ⟨fun _ => List.prefix_refl _, fun h h' => h.trans h'⟩
      (heach.mono fun _ _ h => h.2) _

/-- The mutex blocks nobody forever: while a goroutine still has something to do, some goroutine can make a step. -/
theorem C46_progress (fuel : Nat) (K : Code σ Req) (hK : Spec.Executes env W fuel K) (c0 : Conn σ) (todo : Nat → List Req) (is : List Nat)
    (i : Nat) (hi : Spec.callsOf i ((Sys.init c0 todo).sched K is).log ≠ todo i) :
    ∃ j s', ((Sys.init c0 todo).sched K is).step K j = some s' := by
  obtain ⟨_, ⟨c1, _, _, hin⟩, horder⟩ := Inv.sched hK is (Inv.init (env := env) (W := W) (fuel := fuel) c0 todo)
  generalize (Sys.init c0 todo).sched K is = s at *
  unfold Inside at hin
  cases hh : s.holder with
  | some k =>
    simp only [hh] at hin
    obtain ⟨_, r, p, hk, _⟩ := hin
    refine ⟨k, ?_⟩
    unfold Sys.step
    rw [hk]
    cases p with
    | done res => exact ⟨_, rfl⟩
    | act t g k => exact ⟨_, rfl⟩
  | none =>
    simp only [hh] at hin
    refine ⟨i, ?_⟩
    unfold Sys.step
    rw [hin.2 i]
    cases ht : (s.thr i).todo with
    | nil =>
      have := horder i
      rw [hin.2 i, ht] at this
      simp only [Option.map_none, Option.toList_none, List.append_nil] at this
      exact absurd this.symm hi
    | cons r rs =>
      dsimp only
      cases K.pre r s.conn with
      | some res => exact ⟨_, rfl⟩
      | none =>
        dsimp only
        rw [hK.locks r, if_pos rfl, hh]
        exact ⟨_, rfl⟩

deriving instance DecidableEq for Req
deriving instance DecidableEq for AnyReq

namespace C46

/-- RETURN 1 -/
def req : Req := ⟨ascii "RETURN 1", [], [], false⟩
/-- A query for another database, which version 1 refuses. -/
def reqDb : Req := ⟨ascii "RETURN 1", [], [0x64], false⟩

/-- Goroutines 0 and 1 make one query each, goroutine 2 one that is refused. -/
def todo : Nat → List Req
  | 0 => [req]
  | 1 => [req]
  | 2 => [reqDb]
  | _ => []

/-- Version 1; the RUN of the first query is answered with its SUCCESS, its PULL_ALL with one row; the second query has no rows. -/
def conn : Conn (List (List Bytes)) := (opened (sOpen1 ++ [sSuccess, sOneRow, sSuccess, sSuccess])).2

/-- The goroutines take turns. -/
def turns : List Nat := (List.replicate 30 [0, 1, 2]).flatten

/-- Goroutine, outcome and number of rows of each call. -/
def outcome (l : List (Nat × Req × CRes Rows)) : List (Nat × Nat × Nat) :=
  l.map fun e => (e.1, e.2.2.kind, match e.2.2 with | .ok (rows, _) => rows.length | _ => 0)

/-- After five turns each goroutine 0 is inside its call, goroutine 1 waits and goroutine 2 was refused; after all turns every call has returned with its own rows. -/
example : outcome ((Sys.init conn todo).sched (queryCode env0 scripted 3) (turns.take 15)).log = [(2, 1, 0)] ∧
    ((Sys.init conn todo).sched (queryCode env0 scripted 3) (turns.take 15)).holder = some 0 ∧
    ((Sys.init conn todo).sched (queryCode env0 scripted 3) (turns.take 15)).conn.trace.length = conn.trace.length + 2 ∧
    outcome ((Sys.init conn todo).sched (queryCode env0 scripted 3) turns).log = [(2, 1, 0), (0, 0, 1), (1, 0, 0)] := by decide +kernel

end C46

/-! ### C73: transactions are not protected -/

/-- Any goroutines making calls of any kind: the calls that returned could have been made one after the other, in some order, with the same results. -/
def C73_statement : Prop :=
  ∀ (σ : Type) (env : Env) (W : World σ) (fuel : Nat) (c0 : Conn σ), InUse env W c0 → ∀ (todo : Nat → List AnyReq) (is : List Nat),
    (∀ j, (((Sys.init c0 todo).sched (anyCode env W fuel) is).thr j).cur = none) →
    ∃ l c1, l.Perm ((Sys.init c0 todo).sched (anyCode env W fuel) is).log ∧ Spec.Serial (AnyReq.alone env W fuel) c0 l c1

namespace C73

/-- A correct server, speaking version 4: PULL is answered with one row, every other message with SUCCESS. -/
def server : World Unit where
  dial s := (s, true)
  onSend s ws :=
    match ws.flatten with
    | 0x60 :: _ => ⟨s, true, [[0x00, 0x00, 0x00, 0x04]], .broken⟩
    | _ :: _ :: _ :: 0x3F :: _ => ⟨s, true, sOneRow, .broken⟩
    | _ => ⟨s, true, sSuccess, .broken⟩
  onClose _ := true
  probe _ := .other

/-- A connection to it. -/
def conn : Conn Unit := (createBoltConn env0 server 3 [0x75] [0x70] ()).2

theorem conn_ok : createBoltConn env0 server 3 [0x75] [0x70] () = (.ok (), conn) := CRes.kind_ok (by decide +kernel)

/-- Goroutine 0 makes a query, goroutine 1 begins a transaction. -/
def todo : Nat → List AnyReq
  | 0 => [.query C46.req]
  | 1 => [.begin_ []]
  | _ => []

/-- Goroutine 1 sends BEGIN; goroutine 0 makes its query; goroutine 1 continues. -/
def sched : List Nat := List.replicate 5 1 ++ List.replicate 20 0 ++ List.replicate 20 1

/-- Number of rows. -/
def nrows : CRes Rows → Nat
  | .ok (rows, _) => rows.length
  | _ => 0

/-- Goroutine, call, outcome, number of rows. -/
def view (e : Nat × AnyReq × CRes Rows) : Nat × AnyReq × Nat × Nat := (e.1, e.2.1, e.2.2.kind, nrows e.2.2)

/-- The query succeeds with no rows, having read the answers to BEGIN and RUN; `Begin` reads the row and fails. -/
theorem happens : ((Sys.init conn todo).sched (anyCode env0 server 3) sched).log.map view =
    [(0, .query C46.req, 0, 0), (1, .begin_ [], 1, 0)] := by decide +kernel

theorem idle : ∀ j, (((Sys.init conn todo).sched (anyCode env0 server 3) sched).thr j).cur = none := by
  intro j
  match j with
  | 0 => exact Option.isNone_iff_eq_none.mp (by decide +kernel)
  | 1 => exact Option.isNone_iff_eq_none.mp (by decide +kernel)
  | j + 2 =>
    have key : ∀ (is : List Nat) (s : Sys (Unit) AnyReq) (k : Nat), (∀ i ∈ is, i ≠ k) →
        (s.sched (anyCode env0 server 3) is).thr k = s.thr k := by
      intro is
      induction is with
      | nil => intros; rfl
      | cons i is ih =>
        intro s k hk
        unfold Sys.sched
        rw [ih _ _ fun x hx => hk x (List.mem_cons_of_mem _ hx)]
        have hik : k ≠ i := Ne.symm (hk i (List.mem_cons_self ..))
        cases hs : s.step (anyCode env0 server 3) i with
        | none => rfl
        | some s' =>
          unfold Sys.step at hs
          simp only [Option.getD_some]
          repeat' split at hs
          all_goals first
            | cases hs; exact setThr_ne s hik _
            | cases hs
    rw [key]
    · rfl
    · intro i hi
      have : i = 0 ∨ i = 1 := by
        revert i
        decide
      omega

end C73

/-- False: `Begin` does not take the mutex, so its BEGIN and the messages of a query interleave; each reads the other's answer. -/
theorem C73_refuted : ¬ C73_statement := by
  intro h
  obtain ⟨l, c1, hperm, hser⟩ := h _ env0 C73.server 3 C73.conn
    ⟨3, [0x75], [0x70], (), C73.conn, [], C73.conn_ok, rfl⟩ C73.todo C73.sched C73.idle
  have hm := hperm.map C73.view
  rw [C73.happens] at hm
  -- either order gives the query one row
  have h1 : C73.nrows ((AnyReq.query C46.req).alone env0 C73.server 3 C73.conn).1 ≠ 0 := by decide +kernel
  have h2 : C73.nrows ((AnyReq.query C46.req).alone env0 C73.server 3 ((AnyReq.begin_ []).alone env0 C73.server 3 C73.conn).2).1 ≠ 0 := by decide +kernel
  have hlen := hm.length_eq
  match l, hlen with
  | [(i1, r1, s1), (i2, r2, s2)], _ =>
    simp only [List.map_cons, List.map_nil, C73.view] at hm
    obtain ⟨e1, e2, _⟩ := hser
    have hmem := hm.mem_iff (a := (0, AnyReq.query C46.req, 0, 0))
    simp only [List.mem_cons, true_or, iff_true, List.not_mem_nil, or_false, Prod.mk.injEq] at hmem
    rcases hmem with ⟨rfl, rfl, _, hz⟩ | ⟨rfl, rfl, _, hz⟩
    · exact h1 (by rw [e1]; exact hz.symm)
    · have hmem := hm.mem_iff (a := (1, AnyReq.begin_ [], 1, 0))
      simp only [List.mem_cons, or_true, true_or, iff_true, List.not_mem_nil, or_false, Prod.mk.injEq] at hmem
      rcases hmem with ⟨rfl, rfl, _, _⟩ | ⟨h0, _⟩
      · exact h2 (by rw [e2]; exact hz.symm)
      · cases h0
  | [], h => cases h
  | [_], h => cases h
  | _ :: _ :: _ :: _, h => simp at h

end Verif

/-
C111  An answer that comes too late is not taken for the answer to another request.
-/
import Verif.Proofs.Late
import Verif.Props.C105
import Verif.Props.C68
namespace Verif
open Spec

/-- The statements run outside of transactions. -/
def OutsideTx : Op → Prop
  | .query _ _ _ => True
  | .exec _ _ _ => True
  | _ => False

/-- C111: on a network that delays what the server sends, every statement that returns a result returns the one it has without the delays, whatever
the calls before it returned.  (Stated for statements outside of transactions, for which it does not matter whether earlier calls failed.) -/
def C111_statement : Prop := ∀ (σ : Type) (env : Env) (W : World σ) (fuel : Nat) (user password : Bytes) (w : σ) (pace : List Nat) (d : Conn (Late σ)) (c : Conn σ)
  (ops : List Op) (op : Op), createBoltConn env (late W) fuel user password ⟨w, [], pace⟩ = (.ok (), d) → createBoltConn env W fuel user password w = (.ok (), c) →
  (∀ o ∈ ops ++ [op], OutsideTx o) →
  ∀ a, resultOf env (late W) fuel op (run env (late W) fuel ops d) = .ok a → resultOf env W fuel op (run env W fuel ops c) = .ok a

section
variable {σ : Type} (env : Env) (W : World σ)

theorem Behind.run_timely (fuel : Nat) : (ops : List Op) → {d : Conn (Late σ)} → {c : Conn σ} → Behind d c → (.validateOpen ∈ ops → ∀ w, W.probe w ≠ .data) → Timely env W fuel ops d →
    Behind (run env (late W) fuel ops d) (run env W fuel ops c)
  | [], _, _, h, _, _ => h
  | op :: ops, d, c, h, hp, ht => by
    have hs := (lag_step env W fuel op (fun e => hp (by rw [e]; exact List.mem_cons_self))).1 d c h
    refine Behind.run_timely fuel ops (?_ : Behind (step env (late W) fuel op d).2 (step env W fuel op c).2) (fun hm => hp (List.mem_cons_of_mem _ hm)) ht.2
    rcases hs with ⟨⟨e, h1⟩, h2⟩ | h1 | ⟨_, h2⟩
    · rcases ht.1 with h3 | ⟨_, h3⟩
      · rw [h1] at h3; cases h3
      · exact absurd h3 h2.1
    · rcases ht.1 with h3 | ⟨h3, _⟩
      · rw [h1] at h3; cases h3
      · exact absurd h1 h3
    · exact h2

theorem LagAt.mapped {α β : Type} {r : CRes α × Conn (Late σ)} {s : CRes α × Conn σ} (h : LagAt r s) (f : α → β) :
    (∃ e, mapResult f r.1 = .err e) ∨ mapResult f r.1 = .fuel ∨ mapResult f r.1 = mapResult f s.1 := by
  rcases h with ⟨⟨e, h1⟩, _⟩ | h1 | ⟨h1, _⟩
  · rw [h1]; exact .inl ⟨e, rfl⟩
  · rw [h1]; exact .inr (.inl rfl)
  · rw [h1]; exact .inr (.inr rfl)

theorem lag_resultOf (fuel : Nat) (op : Op) {d : Conn (Late σ)} {c : Conn σ} (h : Behind d c) :
    (∃ e, resultOf env (late W) fuel op d = .err e) ∨ resultOf env (late W) fuel op d = .fuel ∨ resultOf env (late W) fuel op d = resultOf env W fuel op c := by
  cases op with
  | query q ps db => exact LagAt.mapped ((lag_queryWithDb env W fuel q ps db).1 d c h) _
  | exec q ps db => exact LagAt.mapped ((lag_execWithDb env W fuel q ps db).1 d c h) _
  | txQuery h' q ps db => exact LagAt.mapped ((lag_txQueryWithDb env W fuel h' q ps db).1 d c h) _
  | txExec h' q ps => exact LagAt.mapped ((lag_txExec env W fuel h' q ps).1 d c h) _
  | txExecDb h' q ps db => exact LagAt.mapped ((lag_txExecWithDb env W fuel h' q ps db).1 d c h) _
  | begin_ db => exact .inr (.inr rfl)
  | commit h' => exact .inr (.inr rfl)
  | rollback h' => exact .inr (.inr rfl)
  | close => exact .inr (.inr rfl)
  | makeIdle => exact .inr (.inr rfl)
  | validateOpen => exact .inr (.inr rfl)
  | setChunkSize n => exact .inr (.inr rfl)

/-- Any server, any delays, any calls: as long as every call so far succeeded, or failed when nothing was in flight, every statement returns an error, or
the result it has without the delays; and the driver has sent and received the same messages.  Missing from the full statement: what follows a call
that failed because an answer was late. -/
theorem C111_partial (fuel : Nat) (user password : Bytes) (w : σ) (pace : List Nat) {d : Conn (Late σ)}
    (h : createBoltConn env (late W) fuel user password ⟨w, [], pace⟩ = (.ok (), d)) (ops : List Op) (hp : .validateOpen ∈ ops → ∀ w, W.probe w ≠ .data)
    (ht : Timely env W fuel ops d) :
    ∃ c, createBoltConn env W fuel user password w = (.ok (), c) ∧
      (run env (late W) fuel ops d).trace = (run env W fuel ops c).trace ∧
      ∀ op a, resultOf env (late W) fuel op (run env (late W) fuel ops d) = .ok a → resultOf env W fuel op (run env W fuel ops c) = .ok a := by
  rcases lag_create env W fuel user password w pace with ⟨⟨e, h1⟩, _⟩ | h1 | ⟨h1, h2⟩
  · rw [h] at h1; cases h1
  · rw [h] at h1; cases h1
  · rw [h] at h1 h2
    have hb := Behind.run_timely env W fuel ops h2 hp ht
    refine ⟨_, Prod.ext h1.symm rfl, hb.trace, fun op a ha => ?_⟩
    rcases lag_resultOf env W fuel op hb with ⟨e, h3⟩ | h3 | h3
    · rw [ha] at h3; cases h3
    · rw [ha] at h3; cases h3
    · rw [← h3]; exact ha

/-- The same for the calls that return no rows: they report success only where they would without the delays. -/
theorem C111_success_partial (fuel : Nat) (user password : Bytes) (w : σ) (pace : List Nat) {d : Conn (Late σ)}
    (h : createBoltConn env (late W) fuel user password ⟨w, [], pace⟩ = (.ok (), d)) (ops : List Op) (op : Op) (hp : .validateOpen ∈ ops ++ [op] → ∀ w, W.probe w ≠ .data)
    (ht : Timely env W fuel ops d) :
    ∃ c, createBoltConn env W fuel user password w = (.ok (), c) ∧
      ((step env (late W) fuel op (run env (late W) fuel ops d)).1 = .ok () →
        (step env W fuel op (run env W fuel ops c)).1 = .ok () ∧ (run env (late W) fuel (ops ++ [op]) d).trace = (run env W fuel (ops ++ [op]) c).trace) := by
  rcases lag_create env W fuel user password w pace with ⟨⟨e, h1⟩, _⟩ | h1 | ⟨h1, h2⟩
  · rw [h] at h1; cases h1
  · rw [h] at h1; cases h1
  · rw [h] at h1 h2
    have hb := Behind.run_timely env W fuel ops h2 (fun hm => hp (by simp [hm])) ht
    refine ⟨_, Prod.ext h1.symm rfl, fun hok => ?_⟩
    have e : ∀ {τ : Type} (V : World τ) (x : Conn τ), run env V fuel (ops ++ [op]) x = (step env V fuel op (run env V fuel ops x)).2 := by
      intro τ V x; unfold run; rw [List.foldl_append]; rfl
    rcases (lag_step env W fuel op (fun e => hp (by rw [e]; simp))).1 _ _ hb with ⟨⟨e, h3⟩, _⟩ | h3 | ⟨h3, h4⟩
    · rw [hok] at h3; cases h3
    · rw [hok] at h3; cases h3
    · rw [e, e]
      exact ⟨by rw [← h3]; exact hok, h4.trace⟩

end

/-! ### A slow answer -/

/-- A statement that returns rows. -/
def ask (q : String) : Op := .query (ascii q) [] []

/-- A connection in version 4 to the server of C105, which answers the first statement with "true" and the following ones with "false".  The server's answers to the
statement sent first, by the messages number 3 and 4 of the driver, come late: when message number 5 has been sent. -/
def slow : CRes Unit × Conn (Late Session) := createBoltConn env0 (late (cServer 4)) 2 [0x75] [0x70] ⟨⟨.new, ([], []), ⟨none, []⟩⟩, [], [1, 1, 0, 0]⟩

/-- The full statement is false.  "Y" fails: its answer is late.  The connection stays in use, and "Z" returns the rows of "Y". -/
theorem C111_refuted : ¬ C111_statement := by
  intro h
  have h1 : slow.1.kind = 0 := by decide +kernel
  have h2 : (cOpened 4).1.kind = 0 := by decide +kernel
  have h3 : told (resultOf env0 (late (cServer 4)) 2 (ask "Z") (run env0 (late (cServer 4)) 2 [ask "Y"] slow.2)) = some true := by decide +kernel
  have h4 : told (resultOf env0 (cServer 4) 2 (ask "Z") (run env0 (cServer 4) 2 [ask "Y"] (cOpened 4).2)) = some false := by decide +kernel
  have := h Session env0 (cServer 4) 2 [0x75] [0x70] ⟨.new, ([], []), ⟨none, []⟩⟩ [1, 1, 0, 0] slow.2 (cOpened 4).2 [ask "Y"] (ask "Z") (CRes.kind_ok h1) (CRes.kind_ok h2)
    (by intro o ho; simp only [List.cons_append, List.nil_append, List.mem_cons, List.not_mem_nil, or_false] at ho; rcases ho with rfl | rfl <;> trivial)
  cases hr : resultOf env0 (late (cServer 4)) 2 (ask "Z") (run env0 (late (cServer 4)) 2 [ask "Y"] slow.2) with
  | ok a =>
    rw [hr] at h3
    rw [this a hr] at h4
    rw [h3] at h4
    cases h4
  | err e => rw [hr] at h3; cases h3
  | panic => rw [hr] at h3; cases h3
  | fuel => rw [hr] at h3; cases h3

/-- The first statement reports the failure. -/
example : (step env0 (late (cServer 4)) 2 (ask "Y") slow.2).1.kind = 1 := by decide +kernel

/-- The hypotheses of `C111_partial` and `C111_success_partial`: the answer to RUN comes when PULL has been sent, which is in time. -/
example : let d := (createBoltConn env0 (late (cServer 4)) 2 [0x75] [0x70] ⟨⟨.new, ([], []), ⟨none, []⟩⟩, [], [1, 1, 0]⟩).2
    Timely env0 (cServer 4) 2 [ask "Y", .begin_ [], .commit 0] d ∧
      told (resultOf env0 (late (cServer 4)) 2 (ask "Z") (run env0 (late (cServer 4)) 2 [ask "Y", .begin_ [], .commit 0] d)) = some false := by
  intro d
  have ok : ∀ {r : CRes Unit}, r.kind = 0 → r = .ok () := by intro r h; cases r <;> first | rfl | cases h
  exact ⟨⟨.inl (ok (by decide +kernel)), .inl (ok (by decide +kernel)), .inl (ok (by decide +kernel)), trivial⟩, by decide +kernel⟩

/-- A history with a failed call after which nothing is in flight. -/
example : let d := (createBoltConn env0 (late (cServer 4)) 2 [0x75] [0x70] ⟨⟨.new, ([], []), ⟨none, []⟩⟩, [], [1, 1, 0]⟩).2
    Timely env0 (cServer 4) 2 [ask "X"] d ∧ (step env0 (late (cServer 4)) 2 (ask "X") d).1.kind = 1 := by
  intro d
  have ne : ∀ {r : CRes Unit}, r.kind ≠ 3 → r ≠ .fuel := by intro r h e; rw [e] at h; exact h rfl
  exact ⟨⟨.inr ⟨ne (by decide +kernel), by decide +kernel⟩, trivial⟩, by decide +kernel⟩

/-! ### Commit -/

/-- C37, for networks with delays: `Commit` returns nil only if the server has committed the transaction. -/
def C37_statement : Prop := ∀ (σ : Type) (env : Env) (D : Database) (W : World σ) (sess : σ → Session) (fuel : Nat) (user password : Bytes) (w : σ) (pace : List Nat)
  (d : Conn (Late σ)) (ops : List Op) (h : Nat) (d' : Conn (Late σ)), TServes D W sess → createBoltConn env (late W) fuel user password ⟨w, [], pace⟩ = (.ok (), d) →
  commit env (late W) fuel h (run env (late W) fuel ops d) = (.ok (), d') → (sess d'.world.now).ledger.tx = none

/-- It is false.  The statements "Y" and "X" are run in a transaction, and "X" fails at the server; but the answers are late, and both calls return because of that.  Then
`Commit` takes the answer to the RUN message of "Y" for its own and returns nil; the server has not committed anything, since it ignores the request after the failure. -/
theorem C37_refuted : ¬ C37_statement := by
  intro h
  obtain ⟨d, hd⟩ : ∃ d, d = createBoltConn env0 (late (cServer 4)) 2 [0x75] [0x70] ⟨⟨.new, ([], []), ⟨none, []⟩⟩, [], [1, 1, 1, 0, 0, 0, 0, 1]⟩ := ⟨_, rfl⟩
  have h1 : d.1.kind = 0 := by rw [hd]; decide +kernel
  have h2 : (commit env0 (late (cServer 4)) 2 0 (run env0 (late (cServer 4)) 2 [.begin_ [], askTx 0 "Y", askTx 0 "X"] d.2)).1.kind = 0 := by rw [hd]; decide +kernel
  have h3 : (commit env0 (late (cServer 4)) 2 0 (run env0 (late (cServer 4)) 2 [.begin_ [], askTx 0 "Y", askTx 0 "X"] d.2)).2.world.now.ledger.tx.isSome = true := by
    rw [hd]; decide +kernel
  have := h Session env0 (machine cExec 0) (cServer 4) id 2 [0x75] [0x70] ⟨.new, ([], []), ⟨none, []⟩⟩ [1, 1, 1, 0, 0, 0, 0, 1] d.2 [.begin_ [], askTx 0 "Y", askTx 0 "X"] 0 _
    (cServer_serves 4) (by rw [← hd]; exact CRes.kind_ok h1) (CRes.kind_ok h2)
  dsimp only [id] at this
  rw [this] at h3
  cases h3

/-! ### The pool -/

section
variable {σ : Type} (env : Env) (W : World σ) (semi : Bool) (fuel : Nat)

/-- The network of the pool; the connection made by attempt number `n` has the delays `pace n`. -/
def lateNet (net : Net σ) (pace : Nat → List Nat) : Net (Late σ) := ⟨net.files, fun n e => ⟨net.reach n e, [], pace n⟩⟩

end

/-- C111 for users of the pool without routing, who make only calls that need no transaction: what a statement returns does not depend on the delays of the statements of
other users (if it returns a result at all). -/
def C111_pool_statement : Prop := ∀ (σ : Type) (env : Env) (W : World σ) (semi : Bool) (fuel : Nat) (net : Net σ) (pace : Nat → List Nat) (connStr : Bytes) (ms : List DMove)
  (r : Nat) (op : Op) (d : Conn (Late σ)) (c : Conn σ), AllProper env (late W) semi fuel (lateNet net pace) (newDriverPool connStr) ms →
  (∀ r' o, .user r' o ∈ ms → OutsideTx o) → OutsideTx op →
  custody (dRun env (late W) semi fuel (lateNet net pace) ms (newDriverPool connStr)).log r = .user →
  (dRun env (late W) semi fuel (lateNet net pace) ms (newDriverPool connStr)).conns[r]? = some d → (dRun env W semi fuel net ms (newDriverPool connStr)).conns[r]? = some c →
  ∀ a, resultOf env (late W) fuel op d = .ok a → resultOf env W fuel op c = .ok a

/-- A user takes a connection, runs "Y" and gives the connection back; the next user gets it after it was found to be open. -/
def C111.history : List DMove :=
  [.open [.make] (.ok (.conn 0)), .user 0 (ask "Y"), .reclaim (some 0) [.passivate 0] none, .open [.validate 0, .activate 0] (.ok (.conn 0))]

/-- It is false: after a timeout the connection goes back to the pool as if nothing had happened, and the next user gets the rows of the previous user's statement. -/
theorem C111_pool_refuted : ¬ C111_pool_statement := by
  intro h
  obtain ⟨net, hnet⟩ : ∃ net : Net Session, net = noFiles fun _ _ => ⟨.new, ([], []), ⟨none, []⟩⟩ := ⟨_, rfl⟩
  obtain ⟨pace, hpace⟩ : ∃ pace : Nat → List Nat, pace = fun _ => [1, 1, 0, 0] := ⟨_, rfl⟩
  obtain ⟨s, hs⟩ : ∃ s, s = dRun env0 (late (cServer 4)) false 2 (lateNet net pace) C111.history (newDriverPool (ascii "bolt://u:p@host:7687")) := ⟨_, rfl⟩
  obtain ⟨t, ht⟩ : ∃ t, t = dRun env0 (cServer 4) false 2 net C111.history (newDriverPool (ascii "bolt://u:p@host:7687")) := ⟨_, rfl⟩
  have h1 : (s.conns[0]?.map fun d => told (resultOf env0 (late (cServer 4)) 2 (ask "Z") d)) = some (some true) := by rw [hs, hnet, hpace]; decide +kernel
  have h2 : (t.conns[0]?.map fun c => told (resultOf env0 (cServer 4) 2 (ask "Z") c)) = some (some false) := by rw [ht, hnet]; decide +kernel
  have h3 : custody s.log 0 = .user := by rw [hs, hnet, hpace]; decide +kernel
  cases hd : s.conns[0]? with
  | none => rw [hd] at h1; cases h1
  | some d =>
    cases hc : t.conns[0]? with
    | none => rw [hc] at h2; cases h2
    | some c =>
      rw [hd, Option.map_some, Option.some.injEq] at h1
      rw [hc, Option.map_some, Option.some.injEq] at h2
      have := h Session env0 (cServer 4) false 2 net pace (ascii "bolt://u:p@host:7687") C111.history 0 (ask "Z") d c
        (by
          rw [hnet, hpace]
          exact ⟨fun _ => by decide +kernel, by show custody _ 0 = _; decide +kernel, by show custody _ 0 = _; decide +kernel, fun _ => by decide +kernel, trivial⟩)
        (by
          intro r' o ho
          simp only [C111.history, List.mem_cons, List.not_mem_nil, or_false] at ho
          rcases ho with ho | ho | ho | ho <;> cases ho
          trivial)
        trivial (hs ▸ h3) (hs ▸ hd) (ht ▸ hc)
      cases hr : resultOf env0 (late (cServer 4)) 2 (ask "Z") d with
      | ok a =>
        rw [hr] at h1
        rw [this a hr] at h2
        rw [h1] at h2
        cases h2
      | err e => rw [hr] at h1; cases h1
      | panic => rw [hr] at h1; cases h1
      | fuel => rw [hr] at h1; cases h1

end Verif

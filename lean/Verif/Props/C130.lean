/-
C130  What calls have done to the database when the server's answers can be late.
-/
import Verif.Props.C111
import Verif.Props.C121
namespace Verif
open Spec

/-- C130: on a network that delays what the server sends, every statement that the calls reported to be permanent is permanent, whatever calls failed because of the
delays.  (`fuel` large enough for the calls to end; see C45.) -/
def C130_statement : Prop := ∀ (σ : Type) (env : Env) (D : Database) (W : World σ) (sess : σ → Session) (lo fuel : Nat) (user password : Bytes) (w : σ) (pace : List Nat)
  (d : Conn (Late σ)) (ops : List Op), TServes D W sess → Durable W sess → 8 ≤ lo → lo ≤ 65535 → user.length ≤ 65535 → password.length ≤ 65535 →
  createBoltConn env (late W) (fuel + 1) user password ⟨w, [], pace⟩ = (.ok (), d) → Understood env d.proto.codec W → (∀ w, W.probe w ≠ .data) →
  (∀ op ∈ ops, op.Fine env d.proto.codec lo) → PlainCall ops →
  let said := account env (late W) (fieldsOf env d.proto d.mode) (fuel + 1) ops .new d
  List.Sublist ((sess d.world.now).ledger.lasting ++ said.lasting) (sess (run env (late W) (fuel + 1) ops d).world.now).ledger.lasting

section
variable {σ : Type} (env : Env) {W : World σ} {sess : σ → Session} {D : Database} (hT : TServes D W sess) (hD : Durable W sess) {lo : Nat} (hlo : 8 ≤ lo)

/-- The delays do not change what the server gets. -/
theorem feed_late (s : Late σ) : (wss : List (List Bytes)) → (feed (late W) s wss).1.now = (feed W s.now wss).1
  | [] => rfl
  | ws :: wss => feed_late ((late W).onSend s ws).st wss

/-- The server behind the delays is where the other one was when the same had been written. -/
theorem Behind.mid {d d' : Conn (Late σ)} {c c' : Conn σ} (hb : Behind d c) (hd : Fed (late W) d d') (hc : Fed W c c') (ht : d'.trace <+: c'.trace) : Mid W c d'.world.now c' := by
  obtain ⟨e1, t1, w1⟩ := hd
  obtain ⟨e2, t2, w2⟩ := hc
  rw [t1, t2, hb.trace] at ht
  obtain ⟨e3, h3⟩ := (List.prefix_append_right_inj _).mp ht
  refine ⟨e2, sents e1, sents e3, t2, by rw [← h3, sents_append], ?_, w2⟩
  rw [w1, feed_late, hb.now]

theorem run_snoc {τ : Type} (V : World τ) (fuel : Nat) (ops : List Op) (op : Op) (x : Conn τ) :
    run env V fuel (ops ++ [op]) x = (step env V fuel op (run env V fuel ops x)).2 := by
  unfold run; rw [List.foldl_append]; rfl

theorem account_snoc {τ : Type} (V : World τ) (f : Op → List PS) (fuel : Nat) (op : Op) : (ops : List Op) → (a : Account) → (x : Conn τ) →
    account env V f fuel (ops ++ [op]) a x = (account env V f fuel ops a x).after f op (okOf (step env V fuel op (run env V fuel ops x)).1)
      (failures (run env V fuel ops x).trace < failures (step env V fuel op (run env V fuel ops x)).2.trace)
  | [], _, _ => rfl
  | o :: ops, _, x => account_snoc V f fuel op ops _ (step env V fuel o x).2

/-- While no call fails for a delay, the account is the one without delays. -/
theorem account_timely (f : Op → List PS) (fuel : Nat) : (ops : List Op) → (a : Account) → {d : Conn (Late σ)} → {c : Conn σ} → Behind d c →
    (.validateOpen ∈ ops → ∀ w, W.probe w ≠ .data) → Timely env W fuel ops d → account env (late W) f fuel ops a d = account env W f fuel ops a c
  | [], _, _, _, _, _, _ => rfl
  | op :: ops, a, d, c, h, hp, ht => by
    have hs := (lag_step env W fuel op (fun e => hp (by rw [e]; exact List.mem_cons_self))).1 d c h
    have key : (step env (late W) fuel op d).1 = (step env W fuel op c).1 ∧ Behind (step env (late W) fuel op d).2 (step env W fuel op c).2 := by
      rcases hs with ⟨⟨e, h1⟩, h2⟩ | h1 | h2
      · rcases ht.1 with h3 | ⟨_, h3⟩
        · rw [h1] at h3; cases h3
        · exact absurd h3 h2.1
      · rcases ht.1 with h3 | ⟨h3, _⟩
        · rw [h1] at h3; cases h3
        · exact absurd h1 h3
      · exact h2
    have ih := account_timely f fuel ops (a.after f op (okOf (step env (late W) fuel op d).1) (failures d.trace < failures (step env (late W) fuel op d).2.trace)) key.2
      (fun hm => hp (List.mem_cons_of_mem _ hm)) ht.2
    show account env (late W) f fuel ops (a.after f op (okOf (step env (late W) fuel op d).1) (failures d.trace < failures (step env (late W) fuel op d).2.trace)) _ = _
    rw [ih, key.1, key.2.trace, h.trace]
    rfl

section
variable {fuel : Nat} {user password : Bytes} (hu : user.length ≤ 65535) (hpw : password.length ≤ 65535) {w : σ} {pace : List Nat} {d : Conn (Late σ)}
  (h : createBoltConn env (late W) (fuel + 1) user password ⟨w, [], pace⟩ = (.ok (), d)) (hU : Understood env d.proto.codec W) (hlo' : lo ≤ 65535)
include hT hlo hu hpw h hU hlo'

/-- A connection without the delays, and the account of it. -/
theorem late_accounts {ops : List Op} (hops : ∀ op ∈ ops, op.Fine env d.proto.codec lo) (hpl : PlainCall ops) (hp : .validateOpen ∈ ops → ∀ w, W.probe w ≠ .data)
    (ht : Timely env W (fuel + 1) ops d) :
    ∃ c, Behind (run env (late W) (fuel + 1) ops d) c ∧ Accounts (sess := sess) env d.proto d.mode lo (sess d.world.now).ledger.lasting
      (account env (late W) (fieldsOf env d.proto d.mode) (fuel + 1) ops .new d) c := by
  rcases lag_create env W (fuel + 1) user password w pace with ⟨⟨e, h1⟩, _⟩ | h1 | ⟨h1, h2⟩
  · rw [h] at h1; cases h1
  · rw [h] at h1; cases h1
  · rw [h] at h1 h2
    generalize hc : createBoltConn env W (fuel + 1) user password w = r at h1 h2
    obtain ⟨r1, c⟩ := r
    dsimp only at h1 h2
    subst h1
    refine ⟨_, Behind.run_timely env W (fuel + 1) ops h2 hp ht, ?_⟩
    rw [h2.proto] at hU hops
    have ha := run_accounts env hT hlo fuel hU ops hops hpl _ _ (create_accounts env hT hlo hu hpw hc hU hlo')
    rw [account_timely env _ (fuel + 1) ops .new h2 hp ht, h2.proto, h2.mode, h2.now]
    exact ha

/-- **C130**: any delays, any calls that failed for other reasons than a delay: the permanent statements are those of the account; and, while the session is not over,
the server's transaction is that of the account.  Missing from the full statement: what follows a call that failed because an answer was late. -/
theorem C130_partial {ops : List Op} (hops : ∀ op ∈ ops, op.Fine env d.proto.codec lo) (hpl : PlainCall ops) (hp : .validateOpen ∈ ops → ∀ w, W.probe w ≠ .data)
    (ht : Timely env W (fuel + 1) ops d) :
    let d' := run env (late W) (fuel + 1) ops d
    let a := account env (late W) (fieldsOf env d.proto d.mode) (fuel + 1) ops .new d
    (sess d'.world.now).ledger.lasting = (sess d.world.now).ledger.lasting ++ a.lasting ∧
      (d'.closed = false → (sess d'.world.now).phase ≠ .defunct → (sess d'.world.now).ledger = a.ledger (sess d.world.now).ledger.lasting) := by
  dsimp only
  obtain ⟨c, hb, ha⟩ := late_accounts env hT hlo hu hpw h hU hlo' hops hpl hp ht
  rw [hb.now, hb.closed]
  exact ⟨ha.lasting, fun h1 h2 => ledger_accounts env ha ⟨h1, h2⟩⟩

/-- A statement that returns a result returns the one that the database gives after the statements of the account. -/
theorem C130_result_partial {ops : List Op} {op : Op} {q : Bytes} (hops : ∀ o ∈ ops ++ [op], o.Fine env d.proto.codec lo) (hpl : PlainCall (ops ++ [op]))
    (hp : .validateOpen ∈ ops → ∀ w, W.probe w ≠ .data) (ht : Timely env W (fuel + 1) ops d) (hq : statementOf op = some q) :
    let d' := run env (late W) (fuel + 1) ops d
    let l := (account env (late W) (fieldsOf env d.proto d.mode) (fuel + 1) ops .new d).ledger (sess d.world.now).ledger.lasting
    ∀ x, resultOf env (late W) (fuel + 1) op d' = .ok x →
      ∃ o, D l (l.stmt q (fieldsOf env d.proto d.mode op)) o ∧ Conveys env d.proto.codec (withRows op) o (.ok x) := by
  dsimp only
  intro x hx
  obtain ⟨c, hb, ha⟩ := late_accounts env hT hlo hu hpw h hU hlo' (fun o ho => hops o (by simp [ho])) (fun o ho => hpl o (by simp [ho])) hp ht
  have hr := result_accounts env hT hlo fuel hU (hops op (by simp)) (hpl op (by simp)) hq ha
  have e : resultOf env W (fuel + 1) op c = .ok x := by
    rcases lag_resultOf env W (fuel + 1) op hb with ⟨e, h3⟩ | h3 | h3
    · rw [hx] at h3; cases h3
    · rw [hx] at h3; cases h3
    · rw [← h3]; exact hx
  dsimp only at hr
  rw [e] at hr
  rcases hr with ⟨_, k⟩ | ⟨_, _, _, k⟩ | k
  · exact absurd rfl (k x)
  · cases k
  · exact k

include hD in
/-- The call that fails because an answer is late: only its own statement, or the statements of the transaction that it was to commit, are in doubt, and they are
permanent either all or not at all.  No other call leaves anything in doubt. -/
theorem C130_doubt_partial {ops : List Op} {op : Op} (hops : ∀ o ∈ ops ++ [op], o.Fine env d.proto.codec lo) (hpl : PlainCall (ops ++ [op]))
    (hp : .validateOpen ∈ ops ++ [op] → ∀ w, W.probe w ≠ .data) (ht : Timely env W (fuel + 1) ops d)
    (hfu : (step env (late W) (fuel + 1) op (run env (late W) (fuel + 1) ops d)).1 ≠ .fuel) :
    let f := fieldsOf env d.proto d.mode
    let r := step env (late W) (fuel + 1) op (run env (late W) (fuel + 1) ops d)
    let said := fun os => account env (late W) f (fuel + 1) os .new d
    ∃ doubt, (sess r.2.world.now).ledger.lasting = (sess d.world.now).ledger.lasting ++ (said (ops ++ [op])).lasting ++ doubt ∧
      (doubt ≠ [] → (∃ e, r.1 = .err e) ∧ r.2.world.flight ≠ [] ∧ doubt = inDoubt f (said ops) op) := by
  dsimp only
  by_cases hk : Timely env W (fuel + 1) (ops ++ [op]) d
  · have := (C130_partial env hT hlo hu hpw h hU hlo' hops hpl hp hk).1
    rw [run_snoc] at this
    exact ⟨[], by rw [this, List.append_nil], fun hne => absurd rfl hne⟩
  obtain ⟨c, hb, ha⟩ := late_accounts env hT hlo hu hpw h hU hlo' (fun o ho => hops o (by simp [ho])) (fun o ho => hpl o (by simp [ho])) (fun hm => hp (by simp [hm])) ht
  have hlate : (∃ e, (step env (late W) (fuel + 1) op (run env (late W) (fuel + 1) ops d)).1 = .err e) ∧
      (step env (late W) (fuel + 1) op (run env (late W) (fuel + 1) ops d)).2.world.flight ≠ [] ∧
      (step env (late W) (fuel + 1) op (run env (late W) (fuel + 1) ops d)).2.trace <+: (step env W (fuel + 1) op c).2.trace ∨
      (step env (late W) (fuel + 1) op (run env (late W) (fuel + 1) ops d)).1 = (step env W (fuel + 1) op c).1 ∧
      Behind (step env (late W) (fuel + 1) op (run env (late W) (fuel + 1) ops d)).2 (step env W (fuel + 1) op c).2 := by
    rcases (lag_step env W (fuel + 1) op (fun e => hp (by rw [e]; simp))).1 _ _ hb with k | k | k
    · exact .inl k
    · exact absurd k hfu
    · exact .inr k
  rcases hlate with ⟨⟨e, he⟩, hf, htr⟩ | ⟨k1, k2⟩
  · have hm := hb.mid ((fed env (late W)).step env (late W) (fuel + 1) op (run env (late W) (fuel + 1) ops d)) ((fed env W).step env W (fuel + 1) op c) htr
    obtain ⟨doubt, g1, g2⟩ := doubt_of_step env hT hD hlo fuel hU (hops op (by simp)) (hpl op (by simp)) ha hm
    refine ⟨doubt, ?_, fun hne => ⟨⟨e, he⟩, hf, g2 hne⟩⟩
    rw [account_snoc]
    rcases Account.after_lasting (fieldsOf env d.proto d.mode) (account env (late W) (fieldsOf env d.proto d.mode) (fuel + 1) ops .new d) op
      (okOf (step env (late W) (fuel + 1) op (run env (late W) (fuel + 1) ops d)).1)
      (failures (run env (late W) (fuel + 1) ops d).trace < failures (step env (late W) (fuel + 1) op (run env (late W) (fuel + 1) ops d)).2.trace) with k | ⟨k, _⟩
    · rw [k]; exact g1
    · rw [he] at k; cases k
  · -- the call does the same as without the delays, though something may be in flight after it
    have ha' := step_accounts env hT hlo fuel hU (hops op (by simp)) (hpl op (by simp)) ha
    dsimp only at ha'
    rw [← k1, ← hb.trace, ← k2.trace, ← account_snoc] at ha'
    refine ⟨[], ?_, fun hne => absurd rfl hne⟩
    rw [List.append_nil, k2.now]
    exact ha'.lasting

end
end

/-! ### Concrete cases -/

theorem C130.fine (ver : Ver) {q : String} (hq : (ascii q).length ≤ 8) : (ask q).Fine env0 ver 8 :=
  ⟨.map [], by omega, by omega, hq, by simp, by cases ver <;> rfl, by simp [PS.Fits, PS.FitsWith, FitsEntries], by simp [Val.All, AllEntries, strAtMost]⟩

/-- A connection to the server of C105; the answer to the message number 6 of the driver comes after the deadline. -/
def lateSixth : CRes Unit × Conn (Late Session) := createBoltConn env0 (late (cServer 4)) 2 [0x75] [0x70] ⟨⟨.new, ([], []), ⟨none, []⟩⟩, [], [1, 1, 1, 0, 2, 0]⟩

/-- The calls of a transaction. -/
def committing : List Op := [.begin_ [], inTx 0 "A"]

/-- The calls up to the Commit are in time (the answer to RUN comes when PULL has been sent); the Commit fails, its answer is late. -/
theorem committing_timely : Timely env0 (cServer 4) 2 committing lateSixth.2 := by
  have ok : ∀ {r : CRes Unit}, r.kind = 0 → r = .ok () := by intro r h; cases r <;> first | rfl | cases h
  exact ⟨.inl (ok (by decide +kernel)), .inl (ok (by decide +kernel)), trivial⟩

example : (step env0 (late (cServer 4)) 2 (.commit 0) (run env0 (late (cServer 4)) 2 committing lateSixth.2)).1.kind = 1 := by decide +kernel

/-- It meets the hypotheses of `C130_doubt_partial`, and what was in doubt is permanent. -/
example : ∃ doubt : List Stmt, doubt ≠ [] ∧ doubt = inDoubt (fieldsOf env0 lateSixth.2.proto lateSixth.2.mode)
      (account env0 (late (cServer 4)) (fieldsOf env0 lateSixth.2.proto lateSixth.2.mode) (1 + 1) committing .new lateSixth.2) (.commit 0) ∧ doubt.map (·.text) = [ascii "A"] := by
  have hk : lateSixth.1.kind = 0 := by decide +kernel
  have hl : (step env0 (late (cServer 4)) (1 + 1) (.commit 0) (run env0 (late (cServer 4)) (1 + 1) committing lateSixth.2)).2.world.now.ledger.lasting.map (·.text) = [ascii "A"] := by decide +kernel
  have hn : (lateSixth.2.world.now.ledger.lasting ++ (account env0 (late (cServer 4)) (fieldsOf env0 lateSixth.2.proto lateSixth.2.mode) (1 + 1) (committing ++ [.commit 0]) .new lateSixth.2).lasting).map (·.text) = [] := by
    decide +kernel
  have := C130_doubt_partial env0 (cServer_serves 4) (cServer_durable 4) (lo := 8) (by decide) (fuel := 1) (user := [0x75]) (password := [0x70]) (by decide) (by decide)
    (w := ⟨.new, ([], []), ⟨none, []⟩⟩) (pace := [1, 1, 1, 0, 2, 0]) (d := lateSixth.2) (CRes.kind_ok hk) (cServer_understood env0 _ 4) (by decide) (ops := committing) (op := .commit 0) (by
      intro op ho
      simp only [committing, List.cons_append, List.nil_append, List.mem_cons, List.not_mem_nil, or_false] at ho
      rcases ho with rfl | rfl | rfl
      · exact Nat.zero_le _
      · exact inTx_fine _ 0 (by decide)
      · exact trivial) (by
      intro op ho q hq
      simp only [committing, List.cons_append, List.nil_append, List.mem_cons, List.not_mem_nil, or_false] at ho
      rcases ho with rfl | rfl | rfl <;> cases hq <;> decide) (by intro _ w; simp [cServer]) committing_timely (by
      intro e
      have : (step env0 (late (cServer 4)) (1 + 1) (.commit 0) (run env0 (late (cServer 4)) (1 + 1) committing lateSixth.2)).1.kind = 1 := by decide +kernel
      rw [e] at this
      cases this)
  obtain ⟨doubt, g1, g2⟩ := this
  have e : doubt.map (·.text) = [ascii "A"] := by
    have := congrArg (List.map (·.text)) g1
    rw [List.map_append] at this
    simp only [id] at this
    rw [hl, hn, List.nil_append] at this
    exact this.symm
  have hne : doubt ≠ [] := by rintro rfl; cases e
  exact ⟨doubt, hne, (g2 hne).2.2, e⟩

/-- `C130_partial`: a history with a statement that the database refuses, in time. -/
example : let d := (createBoltConn env0 (late (cServer 4)) 2 [0x75] [0x70] ⟨⟨.new, ([], []), ⟨none, []⟩⟩, [], [1, 1, 0, 2, 0]⟩).2
    Timely env0 (cServer 4) 2 [ask "Y", ask "X", ask "Z"] d ∧
      seen (account env0 (late (cServer 4)) (fieldsOf env0 d.proto d.mode) 2 [ask "Y", ask "X", ask "Z"] .new d) = (none, none, [ascii "Y", ascii "Z"]) := by
  intro d
  have ok : ∀ {r : CRes Unit}, r.kind = 0 → r = .ok () := by intro r h; cases r <;> first | rfl | cases h
  have ne : ∀ {r : CRes Unit}, r.kind ≠ 3 → r ≠ .fuel := by intro r h e; rw [e] at h; exact h rfl
  exact ⟨⟨.inl (ok (by decide +kernel)), .inr ⟨ne (by decide +kernel), by decide +kernel⟩, .inl (ok (by decide +kernel)), trivial⟩, by decide +kernel⟩

/-- The full statement is false: "Y" fails because its answer is late, and the next statement, "X", takes that answer for its own and reports success; the database
has refused "X". -/
theorem C130_refuted : ¬ C130_statement := by
  intro h
  have h1 : slow.1.kind = 0 := by decide +kernel
  have h2 : (account env0 (late (cServer 4)) (fieldsOf env0 slow.2.proto slow.2.mode) (1 + 1) [ask "Y", ask "X"] .new slow.2).lasting.map (·.text) = [ascii "X"] := by decide +kernel
  have h3 : (run env0 (late (cServer 4)) (1 + 1) [ask "Y", ask "X"] slow.2).world.now.ledger.lasting.map (·.text) = [ascii "Y"] := by decide +kernel
  have h4 : slow.2.world.now.ledger.lasting.map (·.text) = [] := by decide +kernel
  have := (h Session env0 (machine cExec 0) (cServer 4) id 8 1 [0x75] [0x70] ⟨.new, ([], []), ⟨none, []⟩⟩ [1, 1, 0, 0] slow.2 [ask "Y", ask "X"] (cServer_serves 4) (cServer_durable 4)
    (by decide) (by decide) (by decide) (by decide) (CRes.kind_ok h1) (cServer_understood env0 _ 4) (by intro w; simp [cServer]) (by
      intro op ho
      simp only [List.mem_cons, List.not_mem_nil, or_false] at ho
      rcases ho with rfl | rfl
      · exact C130.fine _ (by decide)
      · exact C130.fine _ (by decide)) (by
      intro op ho q hq
      simp only [List.mem_cons, List.not_mem_nil, or_false] at ho
      rcases ho with rfl | rfl <;> cases hq <;> decide)).map (·.text)
  rw [List.map_append, h2] at this
  simp only [id] at this
  rw [h3, h4] at this
  exact absurd this (by decide)

end Verif

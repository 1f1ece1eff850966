/-
C33  Query returns exactly the server's rows.  C72  A query reaches the server as given.
-/
import Verif.Proofs.Stream
import Verif.Proofs.Requests
import Verif.Props.C28
import Verif.Props.C38
namespace Verif
open Spec

section
variable {σ : Type} (env : Env) (W : World σ)

/-- The network accepts the messages `wss`, written one after the other. -/
def Delivered (w : σ) : List (List Bytes) → Prop
  | [] => True
  | ws :: wss => (W.onSend w ws).ok = true ∧ Delivered (W.onSend w ws).st wss

/-- The answer to a query: SUCCESS with metadata `m0`, one RECORD for each element of `recs`, SUCCESS with metadata `m1`. -/
def resultTrees (m0 : List (Bytes × PS)) (recs : List (List PS)) (m1 : List (Bytes × PS)) : List PS :=
  .struct 0x70 [.map m0] :: (recs.map (fun r => PS.struct 0x71 [.list r]) ++ [.struct 0x70 [.map m1]])

/-- The records mean the rows. -/
def RowsMean (ver : Ver) : List (List PS) → List (List Val) → Prop
  | [], [] => True
  | t :: ts, v :: vs => interpList env ver t = some v ∧ RowsMean ver ts vs
  | _, _ => False

theorem interp_success {ver : Ver} {m : List (Bytes × PS)} {md : Entries} (h : interpEntries env ver m [] = some md) :
    interp env ver (.struct 0x70 [.map m]) = some (successV md) := by
  simp [interp, interpList, h, structOf, successV]

theorem interp_failure {ver : Ver} {m : List (Bytes × PS)} {md : Entries} (h : interpEntries env ver m [] = some md) :
    interp env ver (.struct 0x7F [.map m]) = some (failureV md) := by
  simp [interp, interpList, h, structOf, failureV]

theorem interp_record {ver : Ver} {r : List PS} {fs : List Val} (h : interpList env ver r = some fs) :
    interp env ver (.struct 0x71 [.list r]) = some (recordV fs) := by
  simp [interp, interpList, h, structOf, recordV]

theorem rowsMean_means {ver : Ver} : {recs : List (List PS)} → {rows : List (List Val)} → RowsMean env ver recs rows →
    Means env ver (recs.map fun r => PS.struct 0x71 [.list r]) (rows.map recordV)
  | [], [], _ => trivial
  | _ :: _, _ :: _, ⟨h1, h2⟩ => ⟨interp_record env h1, rowsMean_means h2⟩

/-- The part of `runQuery` after the open check, on an open connection. -/
theorem runQuery_open {fuel : Nat} {q : Bytes} {ps : Entries} {db : Bytes} {inTx : Bool} {c : Conn σ} (hcl : c.closed = false) :
    runQuery env W fuel q ps db inTx c = (do
      sendMessage env W (c.proto.runMessage q ps db c.mode (!inTx))
      sendMessage env W c.proto.pullAllMessage
      let resp ← consume env W fuel
      match asSuccess resp with
      | none => CM.fail (.plain "unexpected response type")
      | some _ => fun c => rowsLoop (consume env W fuel) (streamLen c.segs + 1) [] c) c := by
  unfold runQuery
  rw [CM.get_bind, hcl]
  simp only [Bool.false_eq_true, if_false]
  rw [CM.get_bind]
  rfl

/-- C72, for all four versions and inside as well as outside of transactions: the two messages that a query writes carry the query text, the parameters and the
metadata, and the request for all rows. -/
theorem C72_requests {q : Bytes} {ps : Entries} {db : Bytes} {pt : PS} {inTx : Bool} {c : Conn σ} (hcl : c.closed = false) (hs : c.sock = true)
    (hq : Sendable env c.proto.codec c.chunkSize q ps db pt) :
    ∃ w1 w2, Carries (runTree c.proto q pt db c.mode inTx) w1 ∧ Carries (pullTree c.proto) w2 ∧
      ∀ fuel, ∃ evs, (runQuery env W fuel q ps db inTx c).2.trace = c.trace ++ .sent w1 :: evs ∧
        ((W.onSend c.world w1).ok = true → ∃ evs', evs = .sent w2 :: evs') := by
  obtain ⟨e1, e2⟩ := hq.carries c.mode inTx
  have hpe : (encodeMsg env c.proto.codec c.chunkSize c.proto.pullAllMessage).2 = none := by
    have : (encode env c.proto.codec c.proto.pullAllMessage).2 = none := by cases c.proto <;> rfl
    rw [encodeMsg_ok this]
  refine ⟨_, _, e2, carries_pullAllMessage env c.proto (by have := hq.low; omega) hq.high, fun fuel => ?_⟩
  have G := grows env W
  rw [runQuery_open env W hcl]
  by_cases hok : (W.onSend c.world (encodeMsg env c.proto.codec c.chunkSize (c.proto.runMessage q ps db c.mode (!inTx))).1).ok = true
  · rw [CM.bind_ok (sendMessage_good env W hs e1 hok)]
    obtain ⟨t, ht⟩ := first_sent env W (c := c.sent env W (c.proto.runMessage q ps db c.mode (!inTx))) (v := c.proto.pullAllMessage) (f := fun _ => do
        let resp ← consume env W fuel
        match asSuccess resp with
        | none => CM.fail (.plain "unexpected response type")
        | some _ => (fun c => rowsLoop (consume env W fuel) (streamLen c.segs + 1) [] c : CM σ (List (List Val) × Entries))) hs hpe (by
      refine Steps.bind G.toStepRel (G.consume env W fuel) fun v => ?_
      split
      · exact Steps.fail G.toStepRel _
      · intro c; exact G.rowsLoop env W (G.consume env W fuel) _ _ c)
    rw [ht]
    refine ⟨.sent (encodeMsg env c.proto.codec c.chunkSize c.proto.pullAllMessage).1 :: t, ?_, fun _ => ⟨t, rfl⟩⟩
    simp [Conn.sent]
  · have hbad : sendMessage env W (c.proto.runMessage q ps db c.mode (!inTx)) c =
        (.err (GoErr.badConn.wrap "An error occured writing a chunk"), c.sent env W (c.proto.runMessage q ps db c.mode (!inTx))) := by
      unfold sendMessage writeAll
      dsimp only
      rw [if_neg (encodeMsg_ne_nil env e1), if_neg (by simp [hs]), if_neg hok]
      rfl
    rw [CM.bind_err hbad]
    exact ⟨[], by simp [Conn.sent], fun h => absurd h hok⟩

/-- A call that got as far as writing RUN has it in its trace. -/
theorem runQuery_writes {fuel : Nat} {q : Bytes} {ps : Entries} {db : Bytes} {inTx : Bool} {c : Conn σ} (hcl : c.closed = false) (hs : c.sock = true)
    (he : (encodeMsg env c.proto.codec c.chunkSize (c.proto.runMessage q ps db c.mode (!inTx))).2 = none) :
    c.trace ++ [.sent (encodeMsg env c.proto.codec c.chunkSize (c.proto.runMessage q ps db c.mode (!inTx))).1] <+:
      (runQuery env W fuel q ps db inTx c).2.trace := by
  rw [runQuery_open env W hcl]
  have hne := encodeMsg_ne_nil env he
  have h1 : (sendMessage env W (c.proto.runMessage q ps db c.mode (!inTx)) c).2 = c.sent env W (c.proto.runMessage q ps db c.mode (!inTx)) := by
    unfold sendMessage writeAll
    dsimp only
    rw [if_neg hne, if_neg (by simp [hs]), he]
    split <;> rfl
  have P := grows env W
  cases hm : sendMessage env W (c.proto.runMessage q ps db c.mode (!inTx)) c with
  | mk r c1 =>
    rw [hm] at h1
    cases r with
    | ok u =>
      rw [CM.bind_ok hm]
      subst h1
      refine List.IsPrefix.trans (List.prefix_refl _) (?_ : (c.sent env W (c.proto.runMessage q ps db c.mode (!inTx))).trace <+: _)
      refine Steps.bind (R := fun (c c' : Conn σ) => c.trace <+: c'.trace) P.toStepRel (P.send _) (fun _ => ?_) _
      refine Steps.bind P.toStepRel (P.consume env W fuel) fun v => ?_
      cases asSuccess v with
      | none => exact Steps.fail P.toStepRel _
      | some md => exact fun c => P.rowsLoop env W (P.consume env W fuel) _ _ c
    | err e => rw [CM.bind_err hm]; subst h1; exact List.prefix_refl _
    | panic => rw [CM.bind_panic hm]; subst h1; exact List.prefix_refl _
    | fuel => rw [CM.bind_fuel hm]; subst h1; exact List.prefix_refl _

/-- The call on an open connection whose stream, after the two requests, starts with SUCCESS, records and SUCCESS. -/
theorem runQuery_result {fuel : Nat} {q : Bytes} {ps : Entries} {db : Bytes} {pt : PS} {inTx : Bool} {c : Conn σ} (hcl : c.closed = false) (hs : c.sock = true)
    (hq : Sendable env c.proto.codec c.chunkSize q ps db pt) :
    ∃ w1 w2, Carries (runTree c.proto q pt db c.mode inTx) w1 ∧ Carries (pullTree c.proto) w2 ∧ c.trace ++ [.sent w1] <+: (runQuery env W fuel q ps db inTx c).2.trace ∧
      ∀ {md0 md : Entries} {rows : List (List Val)} {rest : Bytes}, Delivered W c.world [w1, w2] →
       Reads env c.proto.codec (successV md0 :: (rows.map recordV ++ [successV md])) (c.segs.flatten ++ (feed W c.world [w1, w2]).2) rest →
       ∃ c', runQuery env W fuel q ps db inTx c = (.ok (rows, md), c') ∧ c'.segs.flatten = rest ∧ c'.core = c.core ∧
         Exchanged env W c c' [w1, w2] (successV md0 :: (rows.map recordV ++ [successV md])) := by
  obtain ⟨e1, e2⟩ := hq.carries c.mode inTx
  have hpe : (encodeMsg env c.proto.codec c.chunkSize c.proto.pullAllMessage).2 = none := by
    have : (encode env c.proto.codec c.proto.pullAllMessage).2 = none := by cases c.proto <;> rfl
    rw [encodeMsg_ok this]
  refine ⟨_, _, e2, carries_pullAllMessage env c.proto (by have := hq.low; omega) hq.high, runQuery_writes env W hcl hs e1, fun {md0 md rows rest} hd hr => ?_⟩
  obtain ⟨d1, d2, _⟩ := hd
  have s1 := sendMessage_good env W hs e1 d1
  have s2 := sendMessage_good env W (c := c.sent env W (c.proto.runMessage q ps db c.mode (!inTx))) (v := c.proto.pullAllMessage) hs hpe d2
  have x := ((Exchanged.nil env W c).send env W s1).send env W s2
  obtain ⟨c2, hc2⟩ : ∃ c2, c2 = (c.sent env W (c.proto.runMessage q ps db c.mode (!inTx))).sent env W c.proto.pullAllMessage := ⟨_, rfl⟩
  rw [← hc2] at s2 x
  have hp2 : c2.proto = c.proto := by rw [hc2]; rfl
  have hs2 : c2.sock = true := by rw [hc2]; exact hs
  have hst : c2.segs.flatten = c.segs.flatten ++ (feed W c.world [(encodeMsg env c.proto.codec c.chunkSize (c.proto.runMessage q ps db c.mode (!inTx))).1,
      (encodeMsg env c.proto.codec c.chunkSize c.proto.pullAllMessage).1]).2 := x.reads.symm
  have hr0 := hr
  rw [← hst, ← hp2] at hr
  obtain ⟨g, k1, k2⟩ := consume_reads env (reset := reset env W fuel) hs2 (by rfl) hr
  have hlen := Reads.length env k2
  have hn : rows.length < streamLen (c2.got [successV md0] g).segs + 1 := by
    rw [streamLen_eq]
    simp only [List.length_append, List.length_map, List.length_cons, List.length_nil] at hlen
    show rows.length < g.flatten.length + 1
    omega
  obtain ⟨g', j1, j2⟩ := rowsLoop_reads env (reset := reset env W fuel) rows _ [] (c2.got [successV md0] g) md [] rest hs2 hn k2
  refine ⟨c2.got (successV md0 :: (rows.map recordV ++ [successV md])) g', ?_, j2, ?_, ?_⟩
  · rw [runQuery_open env W hcl, CM.bind_ok s1, CM.bind_ok s2, CM.bind_ok (show consume env W fuel c2 = _ from k1)]
    simp only [asSuccess, successV] at j1 ⊢
    show rowsLoop (consumeWith env (reset env W fuel)) _ _ _ = _
    rw [j1]
    simp [got_got, Conn.got]
  · rw [hc2]; rfl
  · have hj : g'.flatten = rest := j2
    refine ⟨?_, ?_, ?_⟩
    · simp [Conn.got, x.trace, Conn.sent]
    · simp [Conn.got, x.world, Conn.sent]
    · show Reads env c.proto.codec _ _ g'.flatten
      rw [hj]
      exact hr0

/-- C33: the request is written first, whatever happens next; whatever bytes were still unread, however the answer is cut into chunks and segments, for any number of records: if the stream after the two
requests starts with SUCCESS, the records and SUCCESS, `Query` and `Exec` on connections and transactions return exactly the records' fields, in order, and the final
metadata; exactly these messages were read, and everything after them is left in the stream. -/
theorem C33_rows {fuel : Nat} {q : Bytes} {ps : Entries} {db : Bytes} {pt : PS} {inTx : Bool} {c : Conn σ} (hcl : c.closed = false) (hs : c.sock = true)
    (hq : Sendable env c.proto.codec c.chunkSize q ps db pt) :
    ∃ w1 w2, Carries (runTree c.proto q pt db c.mode inTx) w1 ∧ Carries (pullTree c.proto) w2 ∧ c.trace ++ [.sent w1] <+: (runQuery env W fuel q ps db inTx c).2.trace ∧
      ∀ {m0 m1 : List (Bytes × PS)} {recs : List (List PS)} {md0 md : Entries} {rows : List (List Val)} {rest : Bytes},
       interpEntries env c.proto.codec m0 [] = some md0 → interpEntries env c.proto.codec m1 [] = some md → RowsMean env c.proto.codec recs rows →
       Delivered W c.world [w1, w2] → Answers (resultTrees m0 recs m1) (c.segs.flatten ++ (feed W c.world [w1, w2]).2) rest →
       ∃ c', runQuery env W fuel q ps db inTx c = (.ok (rows, md), c') ∧ c'.segs.flatten = rest ∧
         Exchanged env W c c' [w1, w2] (successV md0 :: (rows.map recordV ++ [successV md])) := by
  obtain ⟨w1, w2, g1, g2, g4, g3⟩ := runQuery_result env W (fuel := fuel) (inTx := inTx) hcl hs hq
  refine ⟨w1, w2, g1, g2, g4, fun h0 h1 h2 hd ha => ?_⟩
  obtain ⟨c', k1, k2, _, k3⟩ := g3 hd (Answers.reads env ha
    ⟨interp_success env h0, Means.append env (rowsMean_means env h2) ⟨interp_success env h1, trivial⟩⟩)
  exact ⟨c', k1, k2, k3⟩

/-- The public calls are `runQuery` after the database check, which passes when no database is named or the version supports it. -/
theorem C33_calls (fuel h : Nat) (q : Bytes) (ps : Entries) (db : Bytes) (c : Conn σ) (hdb : db = [] ∨ c.proto = .v4) :
    queryWithDb env W fuel q ps db c = runQuery env W fuel q ps db false c ∧
    txQueryWithDb env W fuel h q ps db c = runQuery env W fuel q ps db true c ∧
    (∀ {rows md c'}, runQuery env W fuel q ps db false c = (.ok (rows, md), c') → execWithDb env W fuel q ps db c = (.ok md, c')) ∧
    (∀ {rows md c'}, runQuery env W fuel q ps [] false c = (.ok (rows, md), c') → txExec env W fuel h q ps c = (.ok md, c')) ∧
    (∀ {rows md c'}, runQuery env W fuel q ps db true c = (.ok (rows, md), c') → txExecWithDb env W fuel h q ps db c = (.ok md, c')) := by
  have hc : checkDb db c = (.ok (), c) := by
    rw [checkDb_apply, if_neg]
    rintro ⟨g1, g2⟩
    rcases hdb with h | h
    · exact g2 h
    · rw [h] at g1; cases g1
  have hc0 : checkDb [] c = (.ok (), c) := by rw [checkDb_apply, if_neg (by simp)]
  refine ⟨CM.bind_ok hc, CM.bind_ok hc, ?_, ?_, ?_⟩
  · intro rows md c' hr
    unfold execWithDb
    rw [CM.bind_ok hc, CM.bind_ok hr]; rfl
  · intro rows md c' hr
    unfold txExec exec execWithDb
    rw [CM.bind_ok hc0, CM.bind_ok hr]; rfl
  · intro rows md c' hr
    unfold txExecWithDb
    rw [CM.bind_ok hc, CM.bind_ok hr]; rfl

/-- The messages `recs` are RECORDs with the fields of these rows. -/
def RecordsFor : List Val → List (List Val) → Prop
  | [], [] => True
  | r :: recs, fs :: rows => (∃ b, r = .struct .record [.list b fs]) ∧ RecordsFor recs rows
  | _, _ => False

theorem recordsFor : {recs : List Val} → {rows : List (List Val)} → recs.map asRecord = rows.map some → RecordsFor recs rows
  | [], [], _ => trivial
  | [], _ :: _, h => by cases h
  | _ :: _, [], h => by cases h
  | r :: recs, fs :: rows, h => by
    obtain ⟨h1, h2⟩ := List.cons.inj h
    refine ⟨?_, recordsFor h2⟩
    unfold asRecord at h1
    split at h1
    · cases h1; exact ⟨_, rfl⟩
    · cases h1

/-- Conversely, for every server: a query that returns rows has read SUCCESS, one RECORD for each row with exactly its fields, and SUCCESS with the returned
metadata, and nothing else. -/
theorem C33_only {fuel : Nat} {q : Bytes} {ps : Entries} {db : Bytes} {inTx : Bool} {c c' : Conn σ} {rows : List (List Val)} {md : Entries}
    (h : runQuery env W fuel q ps db inTx c = (.ok (rows, md), c')) :
    ∃ w1 w2 md0 recs, RecordsFor recs rows ∧ Exchanged env W c c' [w1, w2] (successV md0 :: (recs ++ [successV md])) ∧ c'.core = c.core := by
  have hcl : c.closed = false := by
    cases hx : c.closed with
    | false => rfl
    | true => rw [runQuery_closed env W fuel q ps db inTx hx] at h; cases h
  rw [runQuery_open env W hcl] at h
  obtain ⟨_, c1, k1, j1⟩ := CM.bind_eq_ok.mp h
  obtain ⟨_, c2, k2, j2⟩ := CM.bind_eq_ok.mp j1
  obtain ⟨v, c3, k3, j3⟩ := CM.bind_eq_ok.mp j2
  obtain ⟨k4, k5⟩ := consumeWith_ok env k3
  have x := ((Exchanged.nil env W c).send env W k1).send env W k2
  have o1 := sendMessage_core_ok env W k1
  have o2 := sendMessage_core_ok env W k2
  have o3 := receive_core_ok env k4
  have x3 := x.recv env W (congrArg Core.proto (o2.trans o1)) k4
  cases hs : asSuccess v with
  | none => rw [hs] at j3; cases j3
  | some md0 =>
    rw [hs] at j3
    rw [asSuccess_some hs] at x3
    obtain ⟨recs, new, g1, g2, g3, g4⟩ := rowsLoop_ok env W _ [] c3 c' _ rows md (congrArg Core.proto (o3.trans (o2.trans o1))) x3 j3
    refine ⟨_, _, md0, recs, ?_, g4, g3.trans (o3.trans (o2.trans o1))⟩
    rw [g2, List.nil_append]; exact recordsFor g1

/-- A query with two rows, answered in three segments; the hypotheses are met. -/
example : Sendable env0 .v2 65535 [0x58] [([0x6E], .int .int64 7)] [] (.map [([0x6E], .int 7)]) :=
  ⟨by omega, by omega, by simp, by simp, rfl, by simp [PS.Fits, PS.FitsWith, FitsEntries], by simp [Val.All, AllEntries, strAtMost]⟩
example : (runQuery env0 scripted 3 [0x58] [([0x6E], .int .int64 7)] [] false
    (opened (sOpen4 ++ [sSuccess, [[0x00, 0x04, 0xB1, 0x71, 0x91, 0x02, 0x00, 0x00]] ++ sOneRow])).2).1.kind = 0 := by decide +kernel
example : RowsMean env0 .v2 [[.int 2], [.int 1]] [[.int .int64 2], [.int .int64 1]] := ⟨rfl, rfl, trivial⟩

end
end Verif

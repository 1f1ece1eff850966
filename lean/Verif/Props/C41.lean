/-
C41  A named database is honoured or refused.
-/
import Verif.Props.C28
import Verif.Props.C38
import Verif.Proofs.Parse
namespace Verif
open Spec

/-- The metadata map of a request names the database. -/
def namesDb (db : Bytes) : PS → Prop
  | .struct _ fs => ∃ es, fs.getLast? = some (.map es) ∧ (ascii "db", .str db) ∈ es
  | _ => False

section
variable {σ : Type} (env : Env) (W : World σ)

/-- The call `r` on `c` told the server about `db` before anything else, or failed without sending anything. -/
def Honoured {α : Type} (db : Bytes) (c : Conn σ) (r : CRes α × Conn σ) : Prop :=
  (∃ t ws rest, r.2.trace = c.trace ++ .sent ws :: rest ∧ Carries t ws ∧ namesDb db t) ∨ ((∃ e, r.1 = .err e) ∧ r.2.trace = c.trace)

/-- C41, for connections in use with the default chunk size and queries without parameters. -/
def C41_statement : Prop := ∀ (σ : Type) (env : Env) (W : World σ) (c : Conn σ), InUse env W c → c.chunkSize = 65535 →
  ∀ fuel h q db, q.length ≤ 65535 → db ≠ [] → db.length ≤ 65535 →
    Honoured db c (queryWithDb env W fuel q [] db c) ∧ Honoured db c (beginWithDatabase env W fuel db c) ∧
    Honoured db c (txQueryWithDb env W fuel h q [] db c)

/-- Without multi-database support (versions 1 to 3) every query naming a database is refused and nothing is sent. -/
theorem C41_refused_partial (fuel h : Nat) (q : Bytes) (ps : Entries) (db : Bytes) (hdb : db ≠ []) {c : Conn σ} (hp : c.proto ≠ .v4) :
    ∃ e, queryWithDb env W fuel q ps db c = (.err e, c) ∧ execWithDb env W fuel q ps db c = (.err e, c) ∧
      txQueryWithDb env W fuel h q ps db c = (.err e, c) ∧ txExecWithDb env W fuel h q ps db c = (.err e, c) := by
  have hc : checkDb db c = (.err (.plain "bolt protocol version does not have multi database support"), c) := by
    rw [checkDb_apply, if_pos]
    refine ⟨?_, hdb⟩
    cases hq : c.proto <;> first | rfl | exact absurd hq hp
  exact ⟨_, CM.bind_err hc, CM.bind_err hc, CM.bind_err hc, CM.bind_err hc⟩

theorem txMeta_mem (db : Bytes) (mode : AccessMode) (hdb : db ≠ []) : ∃ es, txMetaTree db mode = .map es ∧ (ascii "db", PS.str db) ∈ es :=
  ⟨_, rfl, by simp [hdb]⟩

/-- In version 4, `Query` and `Exec` on the connection send RUN with metadata naming the database first. -/
theorem C41_query_partial (fuel : Nat) (q : Bytes) (ps : Entries) (db : Bytes) (hdb : db ≠ []) {c : Conn σ} (hp : c.proto = .v4)
    (hcl : c.closed = false) (hs : c.sock = true) (h8 : 8 ≤ c.chunkSize) (hcs : c.chunkSize ≤ 65535) (hq : q.length ≤ c.chunkSize)
    (hdl : db.length ≤ c.chunkSize) {pt : PS} (hpt : tree env .v2 (.map ps) = some pt) (hf : pt.Fits)
    (hps : (Val.map ps).All (strAtMost c.chunkSize)) :
    Honoured db c (queryWithDb env W fuel q ps db c) ∧ Honoured db c (execWithDb env W fuel q ps db c) := by
  have hcheck : checkDb db c = (.ok (), c) := by rw [checkDb_apply, hp, if_neg (by simp [Proto.supportsMultiDatabase])]
  obtain ⟨e1, e2⟩ := carries_autoRun env .v2 h8 hcs q ps db c.mode hpt hf hps hq hdl
  have hn : namesDb db (.struct 0x10 [.str q, pt, txMetaTree db c.mode]) := by
    obtain ⟨es, h1, h2⟩ := txMeta_mem db c.mode hdb
    exact ⟨es, by rw [h1]; rfl, h2⟩
  have G := grows env W
  have hrest : Steps (fun (c c' : Conn σ) => c.trace <+: c'.trace) (do
      sendMessage env W c.proto.pullAllMessage
      let resp ← consume env W fuel
      match asSuccess resp with
      | none => CM.fail (.plain "unexpected response type")
      | some _ => (fun c => rowsLoop (consume env W fuel) (streamLen c.segs + 1) [] c : CM σ (List (List Val) × Entries))) := by
    refine Steps.bind G.toStepRel (G.send _) fun _ => ?_
    refine Steps.bind G.toStepRel (G.consume env W fuel) fun v => ?_
    split
    · exact Steps.fail G.toStepRel _
    · intro c; exact G.rowsLoop env W (G.consume env W fuel) _ _ c
  have hmsg : c.proto.runMessage q ps db c.mode (!false) = newAutoCommitTxRunMessage q ps 0 [] db c.mode := by rw [hp]; rfl
  have hrun : ∃ t, (runQuery env W fuel q ps db false c).2.trace =
      c.trace ++ .sent (encodeMsg env .v2 c.chunkSize (newAutoCommitTxRunMessage q ps 0 [] db c.mode)).1 :: t := by
    have := first_sent env W (c := c) (v := newAutoCommitTxRunMessage q ps 0 [] db c.mode) (f := fun _ => _) hs (by rw [hp]; exact e1) hrest
    unfold runQuery
    rw [CM.get_bind, hcl]
    simp only [Bool.false_eq_true, if_false]
    rw [CM.get_bind, hmsg]
    rw [hp] at this
    rw [hp]
    exact this
  obtain ⟨t, ht⟩ := hrun
  constructor
  · left
    refine ⟨_, _, t, ?_, e2, hn⟩
    unfold queryWithDb
    rw [CM.bind_ok hcheck]
    exact ht
  · left
    refine ⟨_, _, t, ?_, e2, hn⟩
    unfold execWithDb
    rw [CM.bind_ok hcheck]
    rw [← ht]
    match hr : runQuery env W fuel q ps db false c with
    | (.ok a, c1) => rw [CM.bind_ok hr]; rfl
    | (.err e, c1) => rw [CM.bind_err hr]
    | (.panic, c1) => rw [CM.bind_panic hr]
    | (.fuel, c1) => rw [CM.bind_fuel hr]

/-- In versions 3 and 4, `Begin` is refused locally or sends BEGIN first. -/
theorem begin_first (fuel : Nat) (db : Bytes) {c : Conn σ} (hp : c.proto = .v3 ∨ c.proto = .v4)
    (hs : c.closed = false → c.sock = true) (h8 : 8 ≤ c.chunkSize) (hcs : c.chunkSize ≤ 65535) (hdl : db.length ≤ c.chunkSize) :
    (∃ ws rest, (beginWithDatabase env W fuel db c).2.trace = c.trace ++ .sent ws :: rest ∧ Carries (.struct 0x11 [txMetaTree db c.mode]) ws) ∨
      ((∃ e, (beginWithDatabase env W fuel db c).1 = .err e) ∧ (beginWithDatabase env W fuel db c).2.trace = c.trace) := by
  rw [begin_apply]
  split
  · exact .inr ⟨⟨_, rfl⟩, rfl⟩
  · split
    · exact .inr ⟨⟨_, rfl⟩, rfl⟩
    · rename_i h1 h2
      left
      have hc := carries_begin env c.proto.codec h8 hcs db c.mode hdl
      have he : (encodeMsg env c.proto.codec c.chunkSize (newBeginMessage (buildTxMetadataWithDatabase none [] db c.mode))).2 = none := by
        rw [buildTx_eq]
        have l1 : (ascii "mode").length = 4 := by decide
        have l2 : (ascii "db").length = 2 := by decide
        have l3 : (ascii "r").length = 1 := by decide
        have hk : StructKind.begin_.isStructure = true := rfl
        have ht : tree env c.proto.codec (newBeginMessage ((if c.mode = 0 then [] else [(ascii "mode", .str (ascii "r"))]) ++
            (if db = [] then [] else [(ascii "db", .str db)]))) = some (.struct 0x11 [txMetaTree db c.mode]) := by
          by_cases h1 : c.mode = 0 <;> by_cases hdb : db = [] <;> simp [newBeginMessage, txMetaTree, tree, trees, treeEntries, h1, hdb, hk, tag]
        have hfit : (PS.struct 0x11 [txMetaTree db c.mode]).Fits := by
          by_cases h1 : c.mode = 0 <;> by_cases hdb : db = [] <;>
            simp [txMetaTree, PS.Fits, PS.FitsWith, FitsList, FitsEntries, h1, hdb, l1, l2, l3] <;> omega
        have := (wire_of_tree env c.proto.codec ht hfit).1
        rw [encodeMsg_ok this]
      have hmsg : c.proto.txBeginMessage db c.mode = newBeginMessage (buildTxMetadataWithDatabase none [] db c.mode) := by
        rcases hp with hp | hp <;> rw [hp] <;> rfl
      have G := grows env W
      rw [hmsg]
      have hrest : Steps (fun (c c' : Conn σ) => c.trace <+: c'.trace) (do
          let run ← consume env W fuel
          match asSuccess run with
          | none => CM.fail (.new "Unrecognized response type beginning transaction")
          | some _ => (Pure.pure () : CM σ Unit)) := by
        refine Steps.bind G.toStepRel (G.consume env W fuel) fun v => ?_
        split
        · exact Steps.fail G.toStepRel _
        · exact Steps.pure G.toStepRel _
      obtain ⟨t, ht⟩ := first_sent env W (c := c) (v := newBeginMessage (buildTxMetadataWithDatabase none [] db c.mode)) (f := fun _ => _)
        (hs (by simpa using h2)) he hrest
      have hx : (txExchange env W (consume env W fuel) (newBeginMessage (buildTxMetadataWithDatabase none [] db c.mode))
          "Unrecognized response type beginning transaction" c).2.trace =
          c.trace ++ .sent (encodeMsg env c.proto.codec c.chunkSize (newBeginMessage (buildTxMetadataWithDatabase none [] db c.mode))).1 :: t := by
        rw [← ht]; rfl
      refine ⟨_, t, ?_, hc⟩
      match hr : txExchange env W (consume env W fuel) (newBeginMessage (buildTxMetadataWithDatabase none [] db c.mode))
          "Unrecognized response type beginning transaction" c with
      | (.ok a, c1) => rw [hr] at hx; rw [CM.bind_ok hr]; exact hx
      | (.err e, c1) => rw [hr] at hx; rw [CM.bind_err hr]; exact hx
      | (.panic, c1) => rw [hr] at hx; rw [CM.bind_panic hr]; exact hx
      | (.fuel, c1) => rw [hr] at hx; rw [CM.bind_fuel hr]; exact hx

/-- In versions 3 and 4, `Begin` is refused locally or sends BEGIN naming the database first. -/
theorem C41_begin_partial (fuel : Nat) (db : Bytes) (hdb : db ≠ []) {c : Conn σ} (hp : c.proto = .v3 ∨ c.proto = .v4)
    (hs : c.closed = false → c.sock = true) (h8 : 8 ≤ c.chunkSize) (hcs : c.chunkSize ≤ 65535) (hdl : db.length ≤ c.chunkSize) :
    Honoured db c (beginWithDatabase env W fuel db c) := by
  rcases begin_first env W fuel db hp hs h8 hcs hdl with ⟨ws, rest, h1, h2⟩ | h
  · obtain ⟨es, h3, h4⟩ := txMeta_mem db c.mode hdb
    exact .inl ⟨_, ws, rest, h1, h2, es, by rw [h3]; rfl, h4⟩
  · exact .inr h

/-- If the first message sent does not name the database, the database was not honoured. -/
theorem not_honoured {α : Type} {db : Bytes} {c : Conn σ} {r : CRes α × Conn σ} {t : PS} {ws : List Bytes} {rest : List Ev}
    (h1 : r.2.trace = c.trace ++ .sent ws :: rest) (h2 : Carries t ws) (h3 : ¬ namesDb db t) : ¬ Honoured db c r := by
  rintro (⟨t', ws', rest', g1, g2, g3⟩ | ⟨_, g⟩)
  · rw [h1] at g1
    have := List.append_cancel_left g1
    simp only [List.cons.injEq, Ev.sent.injEq] at this
    obtain ⟨rfl, _⟩ := this
    exact h3 (carries_unique h2 g2 ▸ g3)
  · rw [h1] at g
    have := congrArg List.length g
    simp at this

/-- In versions 1 and 2, `BeginWithDatabase` never honours nor refuses the name: it begins a transaction on the default database. -/
theorem C41_begin_ignored (fuel : Nat) (db : Bytes) {c : Conn σ} (hp : c.proto = .v1 ∨ c.proto = .v2) (hcur : c.cur = none)
    (hcl : c.closed = false) (hs : c.sock = true) (h1 : 1 ≤ c.chunkSize) (hcs : c.chunkSize ≤ 65535) :
    ¬ Honoured db c (beginWithDatabase env W fuel db c) := by
  have hmsg : c.proto.txBeginMessage db c.mode = newRunMessage (ascii "BEGIN") [] := by
    rcases hp with hp | hp <;> rw [hp] <;> rfl
  have hc := carries_runVerb env c.proto.codec h1 hcs (ascii "BEGIN") (by simp)
  have he : (encodeMsg env c.proto.codec c.chunkSize (newRunMessage (ascii "BEGIN") [])).2 = none := by
    have : (encode env c.proto.codec (newRunMessage (ascii "BEGIN") [])).2 = none := by rcases hp with hp | hp <;> rw [hp] <;> rfl
    rw [encodeMsg_ok this]
  have G := grows env W
  have hrest : Steps (fun (c c' : Conn σ) => c.trace <+: c'.trace) (do
      sendMessage env W (← CM.get).proto.pullAllMessage
      let run ← consume env W fuel
      let pull ← consume env W fuel
      match asSuccess run with
      | none => CM.fail (.new "Unrecognized response type beginning transaction")
      | some _ =>
        match asSuccess pull with
        | none => CM.fail (.new "Unrecognized response type beginning transaction")
        | some _ => (Pure.pure () : CM σ Unit)) := by
    refine Steps.bind G.toStepRel (Steps.get G.toStepRel) fun c => ?_
    refine Steps.bind G.toStepRel (G.send _) fun _ => ?_
    refine Steps.bind G.toStepRel (G.consume env W fuel) fun v => ?_
    refine Steps.bind G.toStepRel (G.consume env W fuel) fun v => ?_
    split
    · exact Steps.fail G.toStepRel _
    · split
      · exact Steps.fail G.toStepRel _
      · exact Steps.pure G.toStepRel _
  obtain ⟨t, ht⟩ := first_sent env W (c := c) (v := newRunMessage (ascii "BEGIN") []) (f := fun _ => _) hs he hrest
  have hx : (txExchange env W (consume env W fuel) (newRunMessage (ascii "BEGIN") []) "Unrecognized response type beginning transaction" c).2.trace =
      c.trace ++ .sent (encodeMsg env c.proto.codec c.chunkSize (newRunMessage (ascii "BEGIN") [])).1 :: t := by
    rw [← ht]; rfl
  refine not_honoured (rest := t) ?_ hc ?_
  · rw [begin_apply, hcur, hcl, hmsg]
    simp only [Option.isSome_none, Bool.false_eq_true, if_false]
    match hr : txExchange env W (consume env W fuel) (newRunMessage (ascii "BEGIN") []) "Unrecognized response type beginning transaction" c with
    | (.ok a, c1) => rw [hr] at hx; rw [CM.bind_ok hr]; exact hx
    | (.err e, c1) => rw [hr] at hx; rw [CM.bind_err hr]; exact hx
    | (.panic, c1) => rw [hr] at hx; rw [CM.bind_panic hr]; exact hx
    | (.fuel, c1) => rw [hr] at hx; rw [CM.bind_fuel hr]; exact hx
  · rintro ⟨es, h2, h3⟩
    simp at h2
    subst h2
    cases h3

/-- In version 4, `QueryWithDb` on a transaction never honours nor refuses the name: the query is sent without it. -/
theorem C41_txQuery_ignored (fuel h : Nat) (q : Bytes) (ps : Entries) (db : Bytes) {c : Conn σ} (hp : c.proto = .v4)
    (hcl : c.closed = false) (hs : c.sock = true) (h8 : 8 ≤ c.chunkSize) (hcs : c.chunkSize ≤ 65535) (hq : q.length ≤ c.chunkSize)
    {pt : PS} (hpt : tree env .v2 (.map ps) = some pt) (hf : pt.Fits) (hps : (Val.map ps).All (strAtMost c.chunkSize)) :
    ¬ Honoured db c (txQueryWithDb env W fuel h q ps db c) := by
  have hcheck : checkDb db c = (.ok (), c) := by rw [checkDb_apply, hp, if_neg (by simp [Proto.supportsMultiDatabase])]
  obtain ⟨e1, e2⟩ := carries_txRun env .v2 h8 hcs q ps hpt hf hps hq
  have G := grows env W
  have hrest : Steps (fun (c c' : Conn σ) => c.trace <+: c'.trace) (do
      sendMessage env W c.proto.pullAllMessage
      let resp ← consume env W fuel
      match asSuccess resp with
      | none => CM.fail (.plain "unexpected response type")
      | some _ => (fun c => rowsLoop (consume env W fuel) (streamLen c.segs + 1) [] c : CM σ (List (List Val) × Entries))) := by
    refine Steps.bind G.toStepRel (G.send _) fun _ => ?_
    refine Steps.bind G.toStepRel (G.consume env W fuel) fun v => ?_
    split
    · exact Steps.fail G.toStepRel _
    · intro c; exact G.rowsLoop env W (G.consume env W fuel) _ _ c
  have hmsg : c.proto.runMessage q ps db c.mode (!true) = newUnmanagedTxRunMessage q ps := by rw [hp]; rfl
  have := first_sent env W (c := c) (v := newUnmanagedTxRunMessage q ps) (f := fun _ => _) hs (by rw [hp]; exact e1) hrest
  obtain ⟨t, ht⟩ := this
  rw [hp] at ht
  refine not_honoured (rest := t) ?_ e2 ?_
  · unfold txQueryWithDb
    rw [CM.bind_ok hcheck]
    unfold runQuery
    rw [CM.get_bind, hcl]
    simp only [Bool.false_eq_true, if_false]
    rw [CM.get_bind, hmsg, hp]
    exact ht
  · rintro ⟨es, h2, h3⟩
    simp at h2
    subst h2
    cases h3

/-- Both gaps are reached by connections in use. -/
theorem C41_refuted : ¬ C41_statement := by
  intro h
  have h1 := h _ env0 scripted (opened sOpen1).2 (opened_inUse (by decide +kernel) []) (by decide +kernel) 3 0 [0x58] [0x64] (by simp) (by simp) (by simp)
  exact C41_begin_ignored env0 scripted 3 [0x64] (c := (opened sOpen1).2) (.inl (by decide +kernel)) (by decide +kernel) (by decide +kernel)
    (by decide +kernel) (by decide +kernel) (by decide +kernel) h1.2.1

/-- The hypotheses of `C41_txQuery_ignored`, `C41_query_partial` and `C41_begin_partial`. -/
example : let c := (opened sOpen4).2
    c.proto = .v4 ∧ c.closed = false ∧ c.sock = true ∧ c.cur = none ∧ c.chunkSize = 65535 := by decide +kernel
example (env : Env) : tree env .v2 (.map [([0x6E], .int .int64 7)]) = some (.map [([0x6E], .int 7)]) ∧ (PS.map [([0x6E], .int 7)]).Fits ∧
    (Val.map [([0x6E], .int .int64 7)]).All (strAtMost 65535) := by
  refine ⟨rfl, ?_, ?_⟩
  · simp [PS.Fits, PS.FitsWith, FitsEntries]
  · simp [Val.All, AllEntries, strAtMost]

end
end Verif

/-
C44  Unencodable parameters do not disturb the session.

False as stated: parts of the message that fill a chunk are sent before the offending value is reached (`C44_refuted`), and the next message then
continues the broken one (`C44_merged`).  The call always returns an error (`C44_error_partial`), and nothing at all happens when the query and its parameters are
shorter than one chunk (`C44_undisturbed_partial`).
-/
import Verif.Spec.History
import Verif.Spec.Scripted
import Verif.Proofs.Supported
import Verif.Proofs.Room
import Verif.Proofs.CM
import Verif.Proofs.ConnInv
import Verif.Props.C16
import Verif.Proofs.Requests
namespace Verif
open Spec

/-- The query text, parameters and database of a call that runs a query. -/
def Op.request : Op → Option (Bytes × Entries × Bytes)
  | .query q ps db => some (q, ps, db)
  | .exec q ps db => some (q, ps, db)
  | .txQuery _ q ps db => some (q, ps, db)
  | .txExec _ q ps => some (q, ps, [])
  | .txExecDb _ q ps db => some (q, ps, db)
  | _ => none

section
variable {σ : Type} (env : Env) (W : World σ)

/-- C44, without its last part: an error, and nothing is written. -/
def C44_statement : Prop := ∀ (σ : Type) (env : Env) (W : World σ) (fuel : Nat) (op : Op) (q : Bytes) (ps : Entries) (db : Bytes) (c : Conn σ),
  InUse env W c → op.request = some (q, ps, db) → (Val.map ps).All intsInRange → ¬ Supported c.proto.codec (.map ps) →
    (∃ e, (step env W fuel op c).1 = .err e) ∧ (step env W fuel op c).2.trace = c.trace

theorem run_unencodable (p : Proto) {q : Bytes} {ps : Entries} (db : Bytes) (mode : AccessMode) (auto : Bool) (hi : (Val.map ps).All intsInRange)
    (hu : ¬ Supported p.codec (.map ps)) : ∃ e, (encode env p.codec (p.runMessage q ps db mode auto)).2 = some e := by
  have h1 : (encode env p.codec (.map ps)).2 ≠ none := fun h => hu ((encode_none_iff env _ _ hi).mp h)
  have key : ∀ k fs, k ≠ .discard → k.isStructure = true → (encode env p.codec (.struct k (.str q :: .map ps :: fs))).2 ≠ none := by
    intro k fs hk1 hk h
    have h2 : (((structHeader (fs.length + 2)).seq (.ok [[k.sig]])).seq (encodeFields env p.codec (.str q :: .map ps :: fs))).2 = none := by
      cases k <;> first | exact absurd rfl hk1 | exact h | (simp [StructKind.isStructure] at hk; done) | (rename_i b; cases b <;> simp_all [StructKind.isStructure, encode]; done)
    simp only [Enc.seq_none, encodeFields, wrapField_none] at h2
    exact h1 h2.2.2.1
  have : (encode env p.codec (p.runMessage q ps db mode auto)).2 ≠ none := by
    cases p
    · exact key .run [] (by simp) rfl
    · exact key .run [] (by simp) rfl
    · cases auto
      · exact key .runWithMetadata [_] (by simp) rfl
      · exact key .runWithMetadata [_] (by simp) rfl
    · cases auto
      · exact key .runWithMetadata [_] (by simp) rfl
      · exact key .runWithMetadata [_] (by simp) rfl
  cases h : (encode env p.codec (p.runMessage q ps db mode auto)).2 with
  | none => exact absurd h this
  | some e => exact ⟨e, rfl⟩

/-- Room for the whole RUN message. -/
theorem run_room (p : Proto) (q : Bytes) (ps : Entries) (db : Bytes) (mode : AccessMode) (auto : Bool) :
    room (p.runMessage q ps db mode auto) ≤ 64 + q.length + db.length + room (.map ps) := by
  have l1 : (ascii "mode").length = 4 := by decide
  have l2 : (ascii "db").length = 2 := by decide
  have l3 : (ascii "r").length = 1 := by decide
  have hm : room (.map (buildTxMetadataWithDatabase (some 0) [] db mode)) ≤ 32 + db.length := by
    rw [buildTx_zero, buildTx_eq]
    by_cases h1 : mode = 0 <;> by_cases h2 : db = [] <;> simp [room, roomEntries, h1, h2, l1, l2, l3] <;> omega
  cases p <;> cases auto <;> simp only [Proto.runMessage, newRunMessage, newAutoCommitTxRunMessage, newUnmanagedTxRunMessage, newRunMessageWithMetadata, if_true,
    if_false, Bool.false_eq_true, room, roomList, roomEntries] at hm ⊢ <;> omega

theorem send_unencodable {v : Val} {e : Err} (c : Conn σ) (h : (encode env c.proto.codec v).2 = some e) :
    ∃ e', (sendMessage env W v c).1 = .err e' := by
  unfold sendMessage writeAll
  rw [encodeMsg_err h]
  dsimp only
  split
  · exact ⟨_, rfl⟩
  · split
    · exact ⟨_, rfl⟩
    · split
      · exact ⟨_, rfl⟩
      · exact ⟨_, rfl⟩

theorem send_unencodable_small {v : Val} {e : Err} (c : Conn σ) (h : (encode env c.proto.codec v).2 = some e) (hr : room v < c.chunkSize) :
    sendMessage env W v c = (.err e, c) := by
  have h1 : (encodeMsg env c.proto.codec c.chunkSize v).1 = [] := by
    rw [encodeMsg_err h]
    refine (chunkWrites_out_nil _ ⟨[], []⟩ rfl).mpr (.inr ?_)
    have := encode_within env c.proto.codec v
    unfold Within at this
    simp only [List.length_nil]; omega
  unfold sendMessage writeAll
  dsimp only
  rw [h1, if_pos rfl, encodeMsg_err h]

theorem runQuery_unencodable {fuel : Nat} {q : Bytes} {ps : Entries} {db : Bytes} {inTx : Bool} (c : Conn σ) (hi : (Val.map ps).All intsInRange)
    (hu : ¬ Supported c.proto.codec (.map ps)) :
    (∃ e, (runQuery env W fuel q ps db inTx c).1 = .err e) ∧
    (64 + q.length + db.length + room (.map ps) < c.chunkSize → (runQuery env W fuel q ps db inTx c).2 = c) := by
  unfold runQuery
  rw [CM.get_bind]
  cases hcl : c.closed with
  | true => exact ⟨⟨_, rfl⟩, fun _ => rfl⟩
  | false =>
    simp only [Bool.false_eq_true, if_false]
    rw [CM.get_bind]
    obtain ⟨e, he⟩ := run_unencodable env c.proto db c.mode (!inTx) (q := q) hi hu
    constructor
    · obtain ⟨e', h'⟩ := send_unencodable env W c he
      rw [CM.bind_err (show sendMessage env W (c.proto.runMessage q ps db c.mode (!inTx)) c = (.err e', _) from Prod.ext h' rfl)]
      exact ⟨_, rfl⟩
    · intro hr
      rw [CM.bind_err (send_unencodable_small env W c he (Nat.lt_of_le_of_lt (run_room _ _ _ _ _ _) hr))]

theorem step_unencodable {fuel : Nat} {op : Op} {q : Bytes} {ps : Entries} {db : Bytes} (c : Conn σ) (hop : op.request = some (q, ps, db))
    (hi : (Val.map ps).All intsInRange) (hu : ¬ Supported c.proto.codec (.map ps)) :
    (∃ e, (step env W fuel op c).1 = .err e) ∧
    (64 + q.length + db.length + room (.map ps) < c.chunkSize → (step env W fuel op c).2 = c) := by
  have key : ∀ {α : Type} (inTx : Bool) (f : List (List Val) × Entries → CM σ α),
      (∃ e, ((checkDb db >>= fun _ => runQuery env W fuel q ps db inTx >>= f) c).1 = .err e) ∧
      (64 + q.length + db.length + room (.map ps) < c.chunkSize → ((checkDb db >>= fun _ => runQuery env W fuel q ps db inTx >>= f) c).2 = c) := by
    intro α inTx f
    obtain ⟨⟨e, h1⟩, h2⟩ := runQuery_unencodable env W (fuel := fuel) (q := q) (db := db) (inTx := inTx) c hi hu
    have hdb : (∃ e, checkDb db c = (.err e, c)) ∨ checkDb db c = (.ok (), c) := by
      unfold checkDb
      rw [CM.get_bind]
      split
      · exact .inl ⟨_, rfl⟩
      · exact .inr rfl
    rcases hdb with ⟨e', h3⟩ | h3
    · rw [CM.bind_err h3]; exact ⟨⟨_, rfl⟩, fun _ => rfl⟩
    · rw [CM.bind_ok h3, CM.bind_err (show runQuery env W fuel q ps db inTx c = (.err e, _) from Prod.ext h1 rfl)]
      exact ⟨⟨_, rfl⟩, h2⟩
  have void : ∀ {α : Type} {m : CM σ α}, ((∃ e, (m c).1 = .err e) ∧ (64 + q.length + db.length + room (.map ps) < c.chunkSize → (m c).2 = c)) →
      ((∃ e, (m.void c).1 = .err e) ∧ (64 + q.length + db.length + room (.map ps) < c.chunkSize → (m.void c).2 = c)) := by
    intro α m h
    obtain ⟨⟨e, h1⟩, h2⟩ := h
    unfold CM.void
    rw [CM.bind_err (show m c = (.err e, _) from Prod.ext h1 rfl)]
    exact ⟨⟨_, rfl⟩, h2⟩
  have pure_ : ∀ inTx, (checkDb db >>= fun _ => runQuery env W fuel q ps db inTx >>= fun r => Pure.pure r) = (checkDb db >>= fun _ => runQuery (σ := σ) env W fuel q ps db inTx) := by
    intro inTx
    funext c
    rw [CM.bind_apply, CM.bind_apply]
    match checkDb db c with
    | (.ok a, c1) =>
      dsimp only
      rw [CM.bind_apply]
      match runQuery env W fuel q ps db inTx c1 with
      | (.ok a, c1) => rfl
      | (.err e, c1) => rfl
      | (.panic, c1) => rfl
      | (.fuel, c1) => rfl
    | (.err e, c1) => rfl
    | (.panic, c1) => rfl
    | (.fuel, c1) => rfl
  cases op with
  | query q' ps' db' => cases hop; exact void (by have := key false (fun r => Pure.pure r); rw [pure_] at this; exact this)
  | exec q' ps' db' => cases hop; exact void (key false _)
  | txQuery h q' ps' db' => cases hop; exact void (by have := key true (fun r => Pure.pure r); rw [pure_] at this; exact this)
  | txExec h q' ps' => cases hop; exact void (key false _)
  | txExecDb h q' ps' db' => cases hop; exact void (key true _)
  | begin_ db => cases hop
  | commit h => cases hop
  | rollback h => cases hop
  | close => cases hop
  | makeIdle => cases hop
  | validateOpen => cases hop
  | setChunkSize n => cases hop

/-- Every call with unencodable parameters returns an error. -/
theorem C44_error_partial {fuel : Nat} {op : Op} {q : Bytes} {ps : Entries} {db : Bytes} (c : Conn σ) (hop : op.request = some (q, ps, db))
    (hi : (Val.map ps).All intsInRange) (hu : ¬ Supported c.proto.codec (.map ps)) : ∃ e, (step env W fuel op c).1 = .err e :=
  (step_unencodable env W c hop hi hu).1

/-- If the query, the database name and the parameters are shorter than a chunk, the call changes nothing: nothing is written or read, and the connection is
exactly as before, so that every later call does what it would have done without this one. -/
theorem C44_undisturbed_partial {fuel : Nat} {op : Op} {q : Bytes} {ps : Entries} {db : Bytes} (c : Conn σ) (hop : op.request = some (q, ps, db))
    (hi : (Val.map ps).All intsInRange) (hu : ¬ Supported c.proto.codec (.map ps))
    (hr : 64 + q.length + db.length + room (.map ps) < c.chunkSize) :
    (∃ e, step env W fuel op c = (.err e, c)) ∧ ∀ ops, run env W fuel (op :: ops) c = run env W fuel ops c := by
  obtain ⟨⟨e, h1⟩, h2⟩ := step_unencodable env W (fuel := fuel) c hop hi hu
  have h3 := h2 hr
  refine ⟨⟨e, Prod.ext h1 h3⟩, fun ops => ?_⟩
  show run env W fuel ops (step env W fuel op c).2 = _
  rw [h3]

/-- When something was sent, the session is broken: the server sees a non-empty initial part of the failed message, and whatever is written next is a
continuation of that same message. -/
theorem C44_merged {ver : Ver} {cs : Nat} {v : Val} {e : Err} (h : (encode env ver v).2 = some e) (h1 : 0 < cs) (hcs : cs ≤ 65535)
    (hs : (encodeMsg env ver cs v).1 ≠ []) :
    ∃ part rest, part ≠ [] ∧ payload env ver v = part ++ rest ∧
      ∀ p s, Framed p s → Framed (part ++ p) ((encodeMsg env ver cs v).1.flatten ++ s) := by
  obtain ⟨⟨cks, hsize, hout, hall⟩⟩ := chunkWrites_inv hcs (encode env ver v).1 (chunkInv_init cs)
  rw [encodeMsg_err h] at hs ⊢
  dsimp only at hs ⊢
  refine ⟨cks.flatten, (chunkWrites cs ⟨[], []⟩ (encode env ver v).1).buf, ?_, ?_, ?_⟩
  · intro hne
    apply hs
    refine (out_flatten_nil _).mp ?_
    rw [hout]
    cases cks with
    | nil => rfl
    | cons c cks =>
      have := hsize c (by simp)
      simp at hne
      rw [hne.1] at this
      simp at this; omega
  · rw [hall]; rfl
  · rintro p s ⟨cks', g1, rfl, rfl⟩
    refine ⟨cks ++ cks', ?_, by simp, by simp [frame, hout]⟩
    intro c hc
    rw [List.mem_append] at hc
    rcases hc with hc | hc
    · have := hsize c hc
      exact ⟨by intro e; subst e; simp at this; omega, by omega⟩
    · exact g1 c hc

end

/-- A server of version 4, the default chunk size, and two parameters: a string of 65535 bytes and a value of an unsupported type. -/
theorem C44_refuted : ¬ C44_statement := by
  intro h
  obtain ⟨s, hs⟩ : ∃ s : Bytes, s.length = 65535 := ⟨List.replicate 65535 0x61, List.length_replicate⟩
  have hin : InUse env0 scripted (opened sOpen4).2 := opened_inUse (by decide +kernel) []
  obtain ⟨c, hc⟩ : ∃ c, c = (opened sOpen4).2 := ⟨_, rfl⟩
  have hp : c.proto = .v4 := by rw [hc]; decide +kernel
  have hcs : c.chunkSize = 65535 := by rw [hc]; decide +kernel
  have hk : c.sock = true := by rw [hc]; decide +kernel
  have hcl : c.closed = false := by rw [hc]; decide +kernel
  rw [← hc] at hin
  have h2 := (h _ env0 scripted 3 (.query [0x71] [([0x61], .str s), ([0x62], .other)] []) _ _ _ c hin rfl
    (by simp [Val.All, AllEntries, intsInRange]) (by simp [Supported, SupportedEntries])).2
  have he : ∃ e, (encode env0 .v2 (.struct .runWithMetadata [.str [0x71], .map [([0x61], .str s), ([0x62], .other)], .map (buildTxMetadataWithDatabase (some 0) [] [] c.mode)])).2 = some e :=
    run_unencodable env0 .v4 (q := [0x71]) [] c.mode true (by simp [Val.All, AllEntries, intsInRange]) (by simp [Supported, SupportedEntries])
  obtain ⟨e, he⟩ := he
  have hw : (encodeMsg env0 Proto.v4.codec 65535 (Proto.v4.runMessage [0x71] [([0x61], .str s), ([0x62], .other)] [] c.mode true)).1 ≠ [] := by
    show (encodeMsg env0 .v2 65535 (.struct .runWithMetadata [.str [0x71], .map [([0x61], .str s), ([0x62], .other)], .map (buildTxMetadataWithDatabase (some 0) [] [] c.mode)])).1 ≠ []
    rw [encodeMsg_err he]
    intro h0
    have h3 := (chunkWrites_out_nil _ ⟨[], []⟩ rfl).mp h0
    have h4 : (encode env0 .v2 (.struct .runWithMetadata [.str [0x71], .map [([0x61], .str s), ([0x62], .other)],
        .map (buildTxMetadataWithDatabase (some 0) [] [] c.mode)])).1 =
        [[0xB3], [0x10], [0x81], [0x71], [0xA2], [0x81], [0x61], [0xD1], be 2 s.length, s, [0x81], [0x62]] := by
      simp only [encode, encodeFields, encodeEntries, encodeString, hs, unrecognized]
      rfl
    rw [h4] at h3
    simp [hs] at h3
  have hstep : (step env0 scripted 3 (.query [0x71] [([0x61], .str s), ([0x62], .other)] []) c).2.trace ≠ c.trace := by
    have hsend : ∃ e', sendMessage env0 scripted (Proto.v4.runMessage [0x71] [([0x61], .str s), ([0x62], .other)] [] c.mode true) c =
        (.err e', c.sent env0 scripted (Proto.v4.runMessage [0x71] [([0x61], .str s), ([0x62], .other)] [] c.mode true)) := by
      refine ⟨e, ?_⟩
      unfold sendMessage writeAll Conn.sent
      rw [hp, hcs]
      dsimp only
      rw [if_neg hw, if_neg (by simp [hk])]
      have hok : ∀ (s : List (List Bytes)) (ws : List Bytes), (scripted.onSend s ws).ok = true := by
        intro s ws; cases s <;> rfl
      rw [if_pos (hok _ _), show (encodeMsg env0 Proto.v4.codec 65535 (Proto.v4.runMessage [0x71] [([0x61], .str s), ([0x62], .other)] [] c.mode true)).2 = some e from by
        rw [encodeMsg_err (show (encode env0 Proto.v4.codec (Proto.v4.runMessage [0x71] [([0x61], .str s), ([0x62], .other)] [] c.mode true)).2 = some e from he)]]
    obtain ⟨e', hsend⟩ := hsend
    have hq : runQuery env0 scripted 3 [0x71] [([0x61], .str s), ([0x62], .other)] [] false c =
        (.err e', c.sent env0 scripted (Proto.v4.runMessage [0x71] [([0x61], .str s), ([0x62], .other)] [] c.mode true)) := by
      unfold runQuery
      rw [CM.get_bind, hcl]
      simp only [Bool.false_eq_true, if_false]
      rw [CM.get_bind, hp]
      exact CM.bind_err hsend
    have hdb : checkDb [] c = (.ok (), c) := by
      unfold checkDb
      rw [CM.get_bind]
      simp
      rfl
    have hd : step env0 scripted 3 (.query [0x71] [([0x61], .str s), ([0x62], .other)] []) c =
        (.err e', c.sent env0 scripted (Proto.v4.runMessage [0x71] [([0x61], .str s), ([0x62], .other)] [] c.mode true)) := by
      show ((checkDb [] >>= fun _ => runQuery env0 scripted 3 [0x71] [([0x61], .str s), ([0x62], .other)] [] false) >>= fun _ => Pure.pure ()) c = _
      refine CM.bind_err ?_
      rw [CM.bind_ok hdb]
      exact hq
    rw [hd]
    intro h5
    have : (c.trace ++ [Ev.sent (encodeMsg env0 c.proto.codec c.chunkSize (Proto.v4.runMessage [0x71] [([0x61], .str s), ([0x62], .other)] [] c.mode true)).1]).length = c.trace.length :=
      congrArg List.length h5
    simp at this
  exact hstep h2

/-- The hypotheses of the positive part are met on an open connection. -/
example : (opened sOpen4).2.chunkSize = 65535 ∧ (Val.map [([0x61], .other)]).All intsInRange ∧ ¬ Supported .v2 (.map [([0x61], .other)]) ∧
    64 + 1 + 0 + room (.map [([0x61], .other)]) < 65535 :=
  ⟨by decide +kernel, by simp [Val.All, AllEntries, intsInRange], by simp [Supported, SupportedEntries], by simp [room, roomEntries]⟩

end Verif

/-
C47  Connection errors surface as ErrBadConn.
-/
import Verif.Props.C34
namespace Verif
open Spec

/-- No complete message is at the start of the stream. -/
def Incomplete (s : Bytes) : Prop := ∀ p f r, Framed p f → s ≠ f ++ r

theorem readFlat_broken : (fuel : Nat) → (out s : Bytes) → (e : Err) → (r : Bytes) → readFlat .broken fuel out s = .err e r → e.innerMost = .badConn
  | 0, _, _, _, _, h => by cases h
  | fuel + 1, out, s, e, r, h => by
    unfold readFlat at h
    split at h
    · cases h; rfl
    · split at h
      · cases h
      · split at h
        · exact readFlat_broken fuel _ _ e r h
        · cases h; rfl

theorem readMsg_broken {segs : List Bytes} (h : Incomplete segs.flatten) : ∃ e s, readMsg .broken segs = .err e s ∧ e.innerMost = .badConn := by
  match hm : readMsg .broken segs with
  | .ok p s =>
    obtain ⟨f, h1, h2⟩ := readMsg_ok hm
    exact absurd h2 (h p f _ h1)
  | .err e s =>
    have := readMsg_flat .broken segs
    rw [hm] at this
    exact ⟨e, s, rfl, readFlat_broken _ _ _ _ _ this.symm⟩

section
variable {σ : Type} (env : Env) (W : World σ)

/-- The call returned an error whose innermost error is `driver.ErrBadConn`. -/
def BadConn {α : Type} (r : CRes α × Conn σ) : Prop := ∃ e c', r = (.err e, c') ∧ e.innerMost = .badConn

theorem BadConn.bind {α β : Type} {m : CM σ α} {c : Conn σ} (h : BadConn (m c)) (f : α → CM σ β) : BadConn ((m >>= f) c) := by
  obtain ⟨e, c', h1, h2⟩ := h
  exact ⟨e, c', CM.bind_err h1, h2⟩

theorem send_badConn {v : Val} {c : Conn σ} (hs : c.sock = true) (he : (encodeMsg env c.proto.codec c.chunkSize v).2 = none) :
    BadConn (sendMessage env W v c) ∨ sendMessage env W v c = (.ok (), c.sent env W v) := by
  by_cases hok : (W.onSend c.world (encodeMsg env c.proto.codec c.chunkSize v).1).ok = true
  · exact .inr (sendMessage_good env W hs he hok)
  · refine .inl ⟨GoErr.badConn.wrap "An error occured writing a chunk", c.sent env W v, ?_, ?_⟩
    · unfold sendMessage writeAll
      dsimp only
      rw [if_neg (encodeMsg_ne_nil env he), if_neg (by simp [hs]), if_neg hok]
      rfl
    · rfl

theorem receive_badConn {c : Conn σ} (hs : c.sock = true) (hf : c.fin = .broken) (h : Incomplete c.segs.flatten) : BadConn (receive env c) := by
  obtain ⟨e, s, h1, h2⟩ := readMsg_broken h
  refine ⟨e, { c with segs := s }, ?_, h2⟩
  unfold receive
  rw [if_neg (by simp [hs]), hf, h1]

theorem consume_badConn {reset : CM σ Unit} {c : Conn σ} (hs : c.sock = true) (hf : c.fin = .broken) (h : Incomplete c.segs.flatten) :
    BadConn (consumeWith env reset c) := (receive_badConn env hs hf h).bind _

theorem rowsLoop_badConn {reset : CM σ Unit} : (rows : List (List Val)) → (n : Nat) → (out : List (List Val)) → (c : Conn σ) → (rest : Bytes) → c.sock = true →
    c.fin = .broken → rows.length < n → Reads env c.proto.codec (rows.map recordV) c.segs.flatten rest → Incomplete rest →
    BadConn (rowsLoop (consumeWith env reset) n out c)
  | [], n + 1, out, c, rest, hs, hf, _, h, hi => by
    unfold rowsLoop
    exact (consume_badConn env hs hf (by rw [show c.segs.flatten = rest from h]; exact hi)).bind _
  | r :: rows, n + 1, out, c, rest, hs, hf, hn, h, hi => by
    obtain ⟨segs', g1, g2⟩ := consume_reads env (reset := reset) hs (by rfl) h
    have := rowsLoop_badConn (reset := reset) rows n (out ++ [r]) (c.got [recordV r] segs') rest hs hf (by simp at hn; omega) g2 hi
    unfold rowsLoop
    rw [CM.bind_ok g1]
    simp only [asSuccess, asRecord, recordV] at this ⊢
    exact this
  | _, 0, _, _, _, _, _, hn, _, _ => absurd hn (Nat.not_lt_zero _)

/-- The network reports a lost connection as an error, never as the end of the stream. -/
def NeverEOF : Prop := ∀ w ws, (W.onSend w ws).fin = .broken

/-- The connection breaks in the middle of a call that sends the requests `ts`: the server's answers are `as`, for some `as` with `Cut as`, and then there is no further
complete message.  Moreover any write may fail.  In each case the call returns an error with innermost error ErrBadConn. -/
def Breaks {α : Type} (c : Conn σ) (ts : List PS) (Cut : List PS → Prop) (r : CRes α × Conn σ) : Prop :=
  ∃ wss : List (List Bytes), wss.length = ts.length ∧ (∀ x ∈ ts.zip wss, Carries x.1 x.2) ∧
    ∀ (as : List PS) (rest : Bytes), Cut as → Answers as (c.segs.flatten ++ (feed W c.world wss).2) rest → Incomplete rest → BadConn r

/-- The answers to a query were cut off: before the first, or after SUCCESS and any number of records. -/
def CutQuery (ver : Ver) (as : List PS) : Prop :=
  as = [] ∨ ∃ m0 md0 recs rows, interpEntries env ver m0 [] = some md0 ∧ RowsMean env ver recs rows ∧
    as = PS.struct 0x70 [.map m0] :: recs.map (fun r => PS.struct 0x71 [.list r])

/-- The answers to a transaction request were cut off: before the first, or (if there are two requests) after the first SUCCESS. -/
def CutTx (ver : Ver) (n : Nat) (as : List PS) : Prop :=
  as = [] ∨ (n = 2 ∧ ∃ m0 md0, interpEntries env ver m0 [] = some md0 ∧ as = [PS.struct 0x70 [.map m0]])

theorem pull_encodes (p : Proto) (cs : Nat) : (encodeMsg env p.codec cs p.pullAllMessage).2 = none := by
  have : (encode env p.codec p.pullAllMessage).2 = none := by cases p <;> rfl
  rw [encodeMsg_ok this]

/-- A query.  Missing from the full statement (here and in the next two theorems): a connection that the server closes (`C47_refuted`) and a loss while the session is
reset (`C47_reset_refuted`). -/
theorem C47_query_partial {fuel : Nat} {q : Bytes} {ps : Entries} {db : Bytes} {pt : PS} {inTx : Bool} {c : Conn σ} (hW : NeverEOF W) (hcl : c.closed = false)
    (hs : c.sock = true) (hq : Sendable env c.proto.codec c.chunkSize q ps db pt) :
    Breaks W c [runTree c.proto q pt db c.mode inTx, pullTree c.proto] (CutQuery env c.proto.codec) (runQuery env W fuel q ps db inTx c) := by
  obtain ⟨e1, e2⟩ := hq.carries c.mode inTx
  have hlow := hq.low
  have hpe := pull_encodes env c.proto c.chunkSize
  refine ⟨[(encodeMsg env c.proto.codec c.chunkSize (c.proto.runMessage q ps db c.mode (!inTx))).1,
    (encodeMsg env c.proto.codec c.chunkSize c.proto.pullAllMessage).1], rfl, ?_, ?_⟩
  · intro x hx
    simp at hx
    rcases hx with rfl | rfl
    · exact e2
    · exact carries_pullAllMessage env c.proto (by omega) hq.high
  intro as rest hc ha hi
  rw [runQuery_open env W hcl]
  rcases send_badConn env W hs e1 with hb | s1
  · exact hb.bind _
  rw [CM.bind_ok s1]
  rcases send_badConn env W (c := c.sent env W (c.proto.runMessage q ps db c.mode (!inTx))) (v := c.proto.pullAllMessage) hs hpe with hb | s2
  · exact hb.bind _
  rw [CM.bind_ok s2]
  have x := ((Exchanged.nil env W c).send env W s1).send env W s2
  obtain ⟨c2, hc2⟩ : ∃ c2, c2 = (c.sent env W (c.proto.runMessage q ps db c.mode (!inTx))).sent env W c.proto.pullAllMessage := ⟨_, rfl⟩
  rw [← hc2] at s2 x ⊢
  have hp2 : c2.proto = c.proto := by rw [hc2]; rfl
  have hs2 : c2.sock = true := by rw [hc2]; exact hs
  have hf2 : c2.fin = .broken := by rw [hc2]; exact hW _ _
  have hst : c2.segs.flatten = c.segs.flatten ++ (feed W c.world [(encodeMsg env c.proto.codec c.chunkSize (c.proto.runMessage q ps db c.mode (!inTx))).1,
      (encodeMsg env c.proto.codec c.chunkSize c.proto.pullAllMessage).1]).2 := x.reads.symm
  rw [← hst] at ha
  rcases hc with rfl | ⟨m0, md0, recs, rows, h0, h2, rfl⟩
  · refine BadConn.bind ?_ _
    exact consume_badConn env hs2 hf2 (by rw [show c2.segs.flatten = rest from ha]; exact hi)
  · have hr := Answers.reads env ha (show Means env c.proto.codec _ (successV md0 :: rows.map recordV) from ⟨interp_success env h0, rowsMean_means env h2⟩)
    rw [← hp2] at hr
    obtain ⟨g, k1, k2⟩ := consume_reads env (reset := reset env W fuel) hs2 (by rfl) hr
    have hlen := Reads.length env k2
    have hn : rows.length < streamLen (c2.got [successV md0] g).segs + 1 := by
      rw [streamLen_eq]
      simp only [List.length_map] at hlen
      show rows.length < g.flatten.length + 1
      omega
    rw [CM.bind_ok (show consume env W fuel c2 = _ from k1)]
    exact rowsLoop_badConn env (reset := reset env W fuel) rows _ [] (c2.got [successV md0] g) rest hs2 hf2 hn k2 hi

theorem txExchange_badConn {fuel : Nat} {msg : Val} {what : String} {t : PS} {c : Conn σ} (hW : NeverEOF W) (hs : c.sock = true) (hm : isTxMsg msg = true)
    (he : (encodeMsg env c.proto.codec c.chunkSize msg).2 = none) (hc : Carries t (encodeMsg env c.proto.codec c.chunkSize msg).1) {α : Type} (f : Unit → CM σ α) :
    Breaks W c [t] (CutTx env c.proto.codec 1) ((txExchange env W (consume env W fuel) msg what >>= f) c) := by
  refine ⟨[(encodeMsg env c.proto.codec c.chunkSize msg).1], rfl, by intro x hx; simp at hx; subst hx; exact hc, ?_⟩
  intro as rest ht ha hi
  refine BadConn.bind ?_ f
  unfold txExchange
  rcases send_badConn env W hs he with hb | s1
  · exact hb.bind _
  rw [CM.bind_ok s1, hm]
  simp only [if_true]
  refine BadConn.bind ?_ _
  have x := (Exchanged.nil env W c).send env W s1
  have hst : (c.sent env W msg).segs.flatten = c.segs.flatten ++ (feed W c.world [(encodeMsg env c.proto.codec c.chunkSize msg).1]).2 := x.reads.symm
  rw [← hst] at ha
  rcases ht with rfl | ⟨h, _⟩
  · exact consume_badConn env (c := c.sent env W msg) hs (hW _ _) (by rw [show (c.sent env W msg).segs.flatten = rest from ha]; exact hi)
  · simp at h

theorem txExchange_badConn2 {fuel : Nat} {msg : Val} {what : String} {t : PS} {c : Conn σ} (hW : NeverEOF W) (hs : c.sock = true) (h1 : 1 ≤ c.chunkSize)
    (hcs : c.chunkSize ≤ 65535) (hm : isTxMsg msg = false)
    (he : (encodeMsg env c.proto.codec c.chunkSize msg).2 = none) (hc : Carries t (encodeMsg env c.proto.codec c.chunkSize msg).1) {α : Type} (f : Unit → CM σ α) :
    Breaks W c [t, pullTree c.proto] (CutTx env c.proto.codec 2) ((txExchange env W (consume env W fuel) msg what >>= f) c) := by
  have hpe := pull_encodes env c.proto c.chunkSize
  refine ⟨[(encodeMsg env c.proto.codec c.chunkSize msg).1, (encodeMsg env c.proto.codec c.chunkSize c.proto.pullAllMessage).1], rfl, ?_, ?_⟩
  · intro x hx
    simp at hx
    rcases hx with rfl | rfl
    · exact hc
    · exact carries_pullAllMessage env c.proto h1 hcs
  intro as rest ht ha hi
  refine BadConn.bind ?_ f
  unfold txExchange
  rcases send_badConn env W hs he with hb | s1
  · exact hb.bind _
  rw [CM.bind_ok s1, hm]
  simp only [Bool.false_eq_true, if_false]
  rw [CM.get_bind]
  rcases send_badConn env W (c := c.sent env W msg) (v := c.proto.pullAllMessage) hs hpe with hb | s2
  · exact BadConn.bind (show BadConn (sendMessage env W (c.sent env W msg).proto.pullAllMessage (c.sent env W msg)) from hb) _
  rw [CM.bind_ok (show sendMessage env W (c.sent env W msg).proto.pullAllMessage (c.sent env W msg) = _ from s2)]
  have x := ((Exchanged.nil env W c).send env W s1).send env W s2
  obtain ⟨c2, hc2⟩ : ∃ c2, c2 = (c.sent env W msg).sent env W c.proto.pullAllMessage := ⟨_, rfl⟩
  rw [← hc2] at s2 x ⊢
  have hp2 : c2.proto = c.proto := by rw [hc2]; rfl
  have hs2 : c2.sock = true := by rw [hc2]; exact hs
  have hf2 : c2.fin = .broken := by rw [hc2]; exact hW _ _
  have hst : c2.segs.flatten = c.segs.flatten ++ (feed W c.world [(encodeMsg env c.proto.codec c.chunkSize msg).1,
      (encodeMsg env c.proto.codec c.chunkSize c.proto.pullAllMessage).1]).2 := x.reads.symm
  rw [← hst] at ha
  rcases ht with rfl | ⟨_, m0, md0, h0, rfl⟩
  · refine BadConn.bind ?_ _
    exact consume_badConn env hs2 hf2 (by rw [show c2.segs.flatten = rest from ha]; exact hi)
  · have hr := Answers.reads env ha (show Means env c.proto.codec _ [successV md0] from ⟨interp_success env h0, trivial⟩)
    rw [← hp2] at hr
    obtain ⟨g, k1, k2⟩ := consume_reads env (reset := reset env W fuel) hs2 (by rfl) hr
    rw [CM.bind_ok (show consume env W fuel c2 = _ from k1)]
    refine BadConn.bind ?_ _
    exact consume_badConn env (c := c2.got [successV md0] g) hs2 hf2 (by rw [show (c2.got [successV md0] g).segs.flatten = rest from k2]; exact hi)

/-- `Commit` and `Rollback`, in all versions. -/
theorem C47_end_partial {fuel h : Nat} {c : Conn σ} (hW : NeverEOF W) (ho : c.isOpen h) (hs : c.sock = true) (h1 : 1 ≤ c.chunkSize) (hcs : c.chunkSize ≤ 65535) :
    Breaks W c (commitTrees c.proto) (CutTx env c.proto.codec (commitTrees c.proto).length) (commit env W fuel h c) ∧
    Breaks W c (rollbackTrees c.proto) (CutTx env c.proto.codec (rollbackTrees c.proto).length) (rollback env W fuel h c) := by
  have hcl : c.txClosed h = false := txClosed_false.mpr ho
  constructor
  · rw [show commit env W fuel h c = endWith env W (consume env W fuel) Proto.txCommitMessage "Unrecognized response type committing transaction" h c from rfl,
      endWith_apply, hcl]
    simp only [Bool.false_eq_true, if_false]
    unfold commitTrees endTxTrees
    cases hp : c.proto
    · have := txExchange_badConn2 env W (fuel := fuel) (what := "Unrecognized response type committing transaction") hW hs h1 hcs (msg := newRunMessage (ascii "COMMIT") []) rfl
        (enc_ok env (by cases c.proto <;> rfl)) (carries_runVerb env _ h1 hcs _ (by simp)) (fun _ => CM.modify fun x => x.endTx h)
      rw [hp] at this; exact this
    · have := txExchange_badConn2 env W (fuel := fuel) (what := "Unrecognized response type committing transaction") hW hs h1 hcs (msg := newRunMessage (ascii "COMMIT") []) rfl
        (enc_ok env (by cases c.proto <;> rfl)) (carries_runVerb env _ h1 hcs _ (by simp)) (fun _ => CM.modify fun x => x.endTx h)
      rw [hp] at this; exact this
    · have := txExchange_badConn env W (fuel := fuel) (what := "Unrecognized response type committing transaction") hW hs (msg := newCommitMessage) rfl
        (enc_ok env (by cases c.proto <;> rfl)) (carries_commit env _ h1 hcs) (fun _ => CM.modify fun x => x.endTx h)
      rw [hp] at this; exact this
    · have := txExchange_badConn env W (fuel := fuel) (what := "Unrecognized response type committing transaction") hW hs (msg := newCommitMessage) rfl
        (enc_ok env (by cases c.proto <;> rfl)) (carries_commit env _ h1 hcs) (fun _ => CM.modify fun x => x.endTx h)
      rw [hp] at this; exact this
  · rw [show rollback env W fuel h c = endWith env W (consume env W fuel) Proto.txRollbackMessage "Unrecognized response type rolling back transaction" h c from rfl,
      endWith_apply, hcl]
    simp only [Bool.false_eq_true, if_false]
    unfold rollbackTrees endTxTrees
    cases hp : c.proto
    · have := txExchange_badConn2 env W (fuel := fuel) (what := "Unrecognized response type rolling back transaction") hW hs h1 hcs (msg := newRunMessage (ascii "ROLLBACK") []) rfl
        (enc_ok env (by cases c.proto <;> rfl)) (carries_runVerb env _ h1 hcs _ (by simp)) (fun _ => CM.modify fun x => x.endTx h)
      rw [hp] at this; exact this
    · have := txExchange_badConn2 env W (fuel := fuel) (what := "Unrecognized response type rolling back transaction") hW hs h1 hcs (msg := newRunMessage (ascii "ROLLBACK") []) rfl
        (enc_ok env (by cases c.proto <;> rfl)) (carries_runVerb env _ h1 hcs _ (by simp)) (fun _ => CM.modify fun x => x.endTx h)
      rw [hp] at this; exact this
    · have := txExchange_badConn env W (fuel := fuel) (what := "Unrecognized response type rolling back transaction") hW hs (msg := newRollbackMessage) rfl
        (enc_ok env (by cases c.proto <;> rfl)) (carries_rollback env _ h1 hcs) (fun _ => CM.modify fun x => x.endTx h)
      rw [hp] at this; exact this
    · have := txExchange_badConn env W (fuel := fuel) (what := "Unrecognized response type rolling back transaction") hW hs (msg := newRollbackMessage) rfl
        (enc_ok env (by cases c.proto <;> rfl)) (carries_rollback env _ h1 hcs) (fun _ => CM.modify fun x => x.endTx h)
      rw [hp] at this; exact this

theorem begin_encodes (ver : Ver) (cs : Nat) (db : Bytes) (mode : AccessMode) (hdb : db.length ≤ 65535) :
    (encodeMsg env ver cs (newBeginMessage (buildTxMetadataWithDatabase none [] db mode))).2 = none := by
  refine enc_ok env ?_
  rw [buildTx_eq]
  unfold newBeginMessage
  by_cases hm : mode = 0 <;> by_cases hd : db = [] <;> simp [hm, hd, encode, encodeFields, encodeEntries, wrapField, Enc.seq, Enc.ok, StructKind.isStructure,
    structHeader, mapHeader, encodeString, ascii] <;> (repeat' split) <;> simp_all <;> omega

/-- `Begin`, in all versions. -/
theorem C47_begin_partial {fuel : Nat} {db : Bytes} {c : Conn σ} (hW : NeverEOF W) (hcur : c.cur = none) (hcl : c.closed = false) (hs : c.sock = true) (h8 : 8 ≤ c.chunkSize)
    (hcs : c.chunkSize ≤ 65535) (hdb : db.length ≤ c.chunkSize) :
    Breaks W c (beginTrees c.proto db c.mode) (CutTx env c.proto.codec (beginTrees c.proto db c.mode).length) (beginWithDatabase env W fuel db c) := by
  have h1 : 1 ≤ c.chunkSize := by omega
  rw [begin_apply, hcur, hcl]
  simp only [Option.isSome_none, Bool.false_eq_true, if_false]
  have hb := carries_begin env c.proto.codec h8 hcs db c.mode hdb
  have he := begin_encodes env c.proto.codec c.chunkSize db c.mode (by omega)
  unfold beginTrees
  cases hp : c.proto
  · have := txExchange_badConn2 env W (fuel := fuel) (what := "Unrecognized response type beginning transaction") hW hs h1 hcs (msg := newRunMessage (ascii "BEGIN") []) rfl
      (enc_ok env (by cases c.proto <;> rfl)) (carries_runVerb env _ h1 hcs _ (by simp)) (fun _ => addTx)
    rw [hp] at this; exact this
  · have := txExchange_badConn2 env W (fuel := fuel) (what := "Unrecognized response type beginning transaction") hW hs h1 hcs (msg := newRunMessage (ascii "BEGIN") []) rfl
      (enc_ok env (by cases c.proto <;> rfl)) (carries_runVerb env _ h1 hcs _ (by simp)) (fun _ => addTx)
    rw [hp] at this; exact this
  · have := txExchange_badConn env W (fuel := fuel) (what := "Unrecognized response type beginning transaction") hW hs rfl he hb (fun _ => addTx)
    rw [hp] at this; exact this
  · have := txExchange_badConn env W (fuel := fuel) (what := "Unrecognized response type beginning transaction") hW hs rfl he hb (fun _ => addTx)
    rw [hp] at this; exact this

/-- The full statement for queries: however the connection is lost after the server accepted some of the request, the innermost error is ErrBadConn. -/
def C47_statement : Prop := ∀ (σ : Type) (env : Env) (W : World σ) (fuel : Nat) (q : Bytes) (ps : Entries) (db : Bytes) (pt : PS) (c : Conn σ), InUse env W c →
  c.closed = false → Sendable env c.proto.codec c.chunkSize q ps db pt →
  Breaks W c [runTree c.proto q pt db c.mode false, pullTree c.proto] (CutQuery env c.proto.codec) (runQuery env W fuel q ps db false c)

end

/-- A server that accepts the connection and then closes it when the first query comes. -/
def hangsUp : World (List (List Bytes)) where
  dial s := (s, true)
  onSend s _ :=
    match s with
    | [] => ⟨[], true, [], .eof⟩
    | r :: rs => ⟨rs, true, r, .broken⟩
  onClose _ := true
  probe _ := .other

theorem incomplete_nil : Incomplete [] := by
  intro p f r h e
  have := framed_length h
  have := congrArg List.length e
  simp at this
  omega

/-- A connection to the server that hangs up. -/
def openedHang : CRes Unit × Conn (List (List Bytes)) := createBoltConn env0 hangsUp 3 [0x75] [0x70] sOpen4

/-- Whether the innermost error of a call is ErrBadConn. -/
def isBadConn {σ α : Type} (r : CRes α × Conn σ) : Bool :=
  match r.1 with
  | .err e => match e.innerMost with
    | .badConn => true
    | _ => false
  | _ => false

theorem BadConn.is {σ α : Type} {r : CRes α × Conn σ} (h : BadConn r) : isBadConn r = true := by
  obtain ⟨e, c', rfl, h2⟩ := h
  simp [isBadConn, h2]

theorem feed_hang (wss : List (List Bytes)) : (feed hangsUp [] wss).2 = [] := by
  induction wss with
  | nil => rfl
  | cons w wss ih => simpa [feed, hangsUp] using ih

theorem sendable_plain (ver : Ver) : Sendable env0 ver 65535 [0x58] [] [] (.map []) := by
  refine ⟨by omega, by omega, by decide, by simp, by cases ver <;> rfl, by simp [PS.Fits, PS.FitsWith, FitsEntries], by simp [Val.All, AllEntries, strAtMost]⟩

/-- It is false if the server closes the connection: the innermost error is `io.EOF`. -/
theorem C47_refuted : ¬ C47_statement := by
  intro h
  have hk : openedHang.1.kind = 0 := by decide +kernel
  have hu : InUse env0 hangsUp openedHang.2 := ⟨3, [0x75], [0x70], sOpen4, openedHang.2, [], CRes.kind_ok hk, rfl⟩
  have hz : openedHang.2.chunkSize = 65535 := by decide +kernel
  obtain ⟨wss, _, _, h1⟩ := h _ env0 hangsUp 3 [0x58] [] [] (.map []) openedHang.2 hu (by decide +kernel) (by rw [hz]; exact sendable_plain _)
  have hw : openedHang.2.world = [] := by decide +kernel
  have hg : openedHang.2.segs.flatten = [] := by decide +kernel
  have := h1 [] [] (.inl rfl) (by rw [hw, hg, feed_hang]; rfl) incomplete_nil
  have h2 : isBadConn (runQuery env0 hangsUp 3 [0x58] [] [] false openedHang.2) = false := by decide +kernel
  rw [BadConn.is this] at h2
  cases h2

/-- It is also false if the connection breaks while the session is reset after a FAILURE: the failure is reported instead. -/
theorem C47_reset_refuted : ∃ c, InUse env0 scripted c ∧ NeverEOF scripted ∧ c.closed = false ∧ isBadConn (runQuery env0 scripted 3 [0x58] [] [] false c) = false ∧
    (runQuery env0 scripted 3 [0x58] [] [] false c).1.kind = 1 := by
  refine ⟨(opened (sOpen4 ++ [sFailure, sIgnored])).2, opened_inUse (ops := []) (by decide +kernel), ?_, by decide +kernel, by decide +kernel, by decide +kernel⟩
  intro w ws
  cases w <;> rfl

/-- The hypotheses of the theorems are met: a query whose answer stops in the middle of a record. -/
example : NeverEOF scripted := by intro w ws; cases w <;> rfl
example : let c := (opened (sOpen4 ++ [sSuccess, [[0x00, 0x04, 0xB1, 0x71, 0x91, 0x01, 0x00, 0x00], [0x00, 0x04, 0xB1]]])).2
    c.closed = false ∧ c.sock = true ∧ c.chunkSize = 65535 ∧ isBadConn (runQuery env0 scripted 3 [0x58] [] [] false c) = true := by decide +kernel
example : Incomplete [0x00, 0x04, 0xB1] := by
  intro p f r hf e
  obtain ⟨segs', g, _⟩ := readMsg_framed hf .broken (segs := [[0x00, 0x04, 0xB1]]) (rest := r) (by simpa using e)
  cases g
example : isBadConn (begin_ env0 scripted 3 (opened sOpen4).2) = true ∧ isBadConn (begin_ env0 scripted 3 (opened (sOpen1 ++ [sSuccess])).2) = true := by decide +kernel

end Verif

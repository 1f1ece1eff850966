/-
C34  A server failure is reported with its metadata.
-/
import Verif.Proofs.Failure
import Verif.Props.C33
import Verif.Props.C37
namespace Verif
open Spec

section
variable {σ : Type} (env : Env) (W : World σ)

/-- The outcome `r` of a call reports the failure `md`.  `w` is the state of the server and `rest` the unread stream when FAILURE had been read.
* The call does not succeed, and if it returns at all, its error's innermost error is the FAILURE message with the server's metadata.
* If the server then answers RESET (after ignoring outstanding requests, if any) with SUCCESS, as the protocol requires, the call does return, and everything up to
  that SUCCESS has been read. -/
def Reported {α : Type} (ver : Ver) (md : Entries) (w : σ) (rest : Bytes) (r : CRes α × Conn σ) : Prop :=
  (r.1 = .panic ∨ r.1 = .fuel ∨ ∃ e, r.1 = .err e ∧ e.innerMost = .failure md) ∧
  ∃ w3, Carries (.struct 0x0F []) w3 ∧ ∀ k m md' rest', (W.onSend w w3).ok = true → interpEntries env ver m [] = some md' →
    Answers (List.replicate k (.struct 0x7E []) ++ [.struct 0x70 [.map m]]) (rest ++ (W.onSend w w3).segs.flatten) rest' →
    ∃ e c', r = (.err e, c') ∧ e.innerMost = .failure md ∧ c'.segs.flatten = rest'

theorem means_ignored {ver : Ver} : (k : Nat) → Means env ver (List.replicate k (.struct 0x7E [])) (List.replicate k ignoredV)
  | 0 => trivial
  | k + 1 => ⟨rfl, means_ignored k⟩

theorem failTail_reported {α : Type} (fuel : Nat) (md : Entries) {c : Conn σ} (hs : c.sock = true) (h1 : 1 ≤ c.chunkSize) (hcs : c.chunkSize ≤ 65535) :
    Reported env W c.proto.codec md c.world c.segs.flatten ((failTail (reset env W (fuel + 1)) md : CM σ α) c) := by
  constructor
  · rw [failTail_apply]
    match reset env W (fuel + 1) c with
    | (.ok _, c') => exact .inr (.inr ⟨_, rfl, rfl⟩)
    | (.err _, c') => exact .inr (.inr ⟨_, rfl, rfl⟩)
    | (.panic, c') => exact .inl rfl
    | (.fuel, c') => exact .inr (.inl rfl)
  · refine ⟨_, carries_reset env c.proto.codec h1 hcs, ?_⟩
    intro k m md' rest' hok hm ha
    have hr := Answers.reads env ha (Means.append env (means_ignored env k)
      (show Means env c.proto.codec [_] [successV md'] from ⟨interp_success env hm, trivial⟩))
    obtain ⟨segs', g1, g2⟩ := reset_works env W fuel hs hok hr
    exact ⟨_, (c.sent env W newResetMessage).got (List.replicate k ignoredV ++ [successV md']) segs', by rw [failTail_apply, g1], rfl, g2⟩

theorem consume_reported {α : Type} (fuel : Nat) (md : Entries) {c : Conn σ} {rest : Bytes} (hs : c.sock = true) (h1 : 1 ≤ c.chunkSize) (hcs : c.chunkSize ≤ 65535)
    (h : Reads env c.proto.codec [failureV md] c.segs.flatten rest) (f : Val → CM σ α) :
    Reported env W c.proto.codec md c.world rest ((consume env W (fuel + 1) >>= f) c) := by
  obtain ⟨segs', g1, g2⟩ := consume_failure env (reset := reset env W (fuel + 1)) hs h
  rw [failTail_bind (show consume env W (fuel + 1) c = failTail (reset env W (fuel + 1)) md (c.got [failureV md] segs') from g2)]
  have := failTail_reported env W (α := α) fuel md (c := c.got [failureV md] segs') hs h1 hcs
  rw [show (c.got [failureV md] segs').segs.flatten = rest from g1] at this
  exact this

/-- A query answered with FAILURE: instead of running it (`run`), or after any number of records. -/
theorem C34_query {fuel : Nat} {q : Bytes} {ps : Entries} {db : Bytes} {pt : PS} {inTx : Bool} {c : Conn σ} (hcl : c.closed = false) (hs : c.sock = true)
    (hq : Sendable env c.proto.codec c.chunkSize q ps db pt) {m0 m : List (Bytes × PS)} {recs : List (List PS)} {md0 md : Entries}
    {rows : List (List Val)} {rest : Bytes} (h0 : interpEntries env c.proto.codec m0 [] = some md0) (h1 : interpEntries env c.proto.codec m [] = some md)
    (h2 : RowsMean env c.proto.codec recs rows) :
    ∃ w1 w2, Carries (runTree c.proto q pt db c.mode inTx) w1 ∧ Carries (pullTree c.proto) w2 ∧
      (Delivered W c.world [w1, w2] →
       Answers [.struct 0x7F [.map m]] (c.segs.flatten ++ (feed W c.world [w1, w2]).2) rest ∨
       Answers (.struct 0x70 [.map m0] :: (recs.map (fun r => PS.struct 0x71 [.list r]) ++ [.struct 0x7F [.map m]]))
         (c.segs.flatten ++ (feed W c.world [w1, w2]).2) rest →
       Reported env W c.proto.codec md (feed W c.world [w1, w2]).1 rest (runQuery env W (fuel + 1) q ps db inTx c)) := by
  obtain ⟨e1, e2⟩ := hq.carries c.mode inTx
  have hlow := hq.low
  have hpe : (encodeMsg env c.proto.codec c.chunkSize c.proto.pullAllMessage).2 = none := by
    have : (encode env c.proto.codec c.proto.pullAllMessage).2 = none := by cases c.proto <;> rfl
    rw [encodeMsg_ok this]
  refine ⟨_, _, e2, carries_pullAllMessage env c.proto (by omega) hq.high, fun hd hans => ?_⟩
  obtain ⟨d1, d2, _⟩ := hd
  have s1 := sendMessage_good env W hs e1 d1
  have s2 := sendMessage_good env W (c := c.sent env W (c.proto.runMessage q ps db c.mode (!inTx))) (v := c.proto.pullAllMessage) hs hpe d2
  have x := ((Exchanged.nil env W c).send env W s1).send env W s2
  obtain ⟨c2, hc2⟩ : ∃ c2, c2 = (c.sent env W (c.proto.runMessage q ps db c.mode (!inTx))).sent env W c.proto.pullAllMessage := ⟨_, rfl⟩
  rw [← hc2] at s2 x
  have hp2 : c2.proto = c.proto := by rw [hc2]; rfl
  have hs2 : c2.sock = true := by rw [hc2]; exact hs
  have hz2 : c2.chunkSize = c.chunkSize := by rw [hc2]; rfl
  have hst : c2.segs.flatten = c.segs.flatten ++ (feed W c.world [(encodeMsg env c.proto.codec c.chunkSize (c.proto.runMessage q ps db c.mode (!inTx))).1,
      (encodeMsg env c.proto.codec c.chunkSize c.proto.pullAllMessage).1]).2 := x.reads.symm
  have hw : c2.world = (feed W c.world [(encodeMsg env c.proto.codec c.chunkSize (c.proto.runMessage q ps db c.mode (!inTx))).1,
      (encodeMsg env c.proto.codec c.chunkSize c.proto.pullAllMessage).1]).1 := x.world
  rw [← hst] at hans
  rw [← hw, runQuery_open env W hcl, CM.bind_ok s1, CM.bind_ok s2]
  rcases hans with ha | ha
  · have hr := Answers.reads env ha (show Means env c.proto.codec _ [failureV md] from ⟨interp_failure env h1, trivial⟩)
    rw [← hp2] at hr
    have := consume_reported env W fuel md hs2 (by omega) (by rw [hz2]; exact hq.high) hr (fun resp => match asSuccess resp with
      | none => CM.fail (.plain "unexpected response type")
      | some _ => (fun c => rowsLoop (consume env W (fuel + 1)) (streamLen c.segs + 1) [] c : CM σ (List (List Val) × Entries)))
    rw [hp2] at this
    exact this
  · have hr := Answers.reads env ha (show Means env c.proto.codec _ (successV md0 :: (rows.map recordV ++ [failureV md])) from
      ⟨interp_success env h0, Means.append env (rowsMean_means env h2) ⟨interp_failure env h1, trivial⟩⟩)
    rw [← hp2] at hr
    obtain ⟨g, k1, k2⟩ := consume_reads env (reset := reset env W (fuel + 1)) hs2 (by rfl) hr
    have hlen := Reads.length env k2
    have hn : rows.length < streamLen (c2.got [successV md0] g).segs + 1 := by
      rw [streamLen_eq]
      simp only [List.length_append, List.length_map, List.length_cons, List.length_nil] at hlen
      show rows.length < g.flatten.length + 1
      omega
    obtain ⟨g', j1, j2⟩ := rowsLoop_failure env (reset := reset env W (fuel + 1)) rows _ [] (c2.got [successV md0] g) md [] rest hs2 hn k2
    rw [CM.bind_ok (show consume env W (fuel + 1) c2 = _ from k1)]
    have hb := failTail_reported env W (α := List (List Val) × Entries) fuel md
      (c := (c2.got [successV md0] g).got (rows.map recordV ++ [failureV md]) g') hs2 (by show 1 ≤ c2.chunkSize; omega)
      (by show c2.chunkSize ≤ 65535; rw [hz2]; exact hq.high)
    rw [show ((c2.got [successV md0] g).got (rows.map recordV ++ [failureV md]) g').segs.flatten = rest from j1] at hb
    have hp3 : ((c2.got [successV md0] g).got (rows.map recordV ++ [failureV md]) g').proto = c.proto := hp2
    rw [hp3] at hb
    simp only [asSuccess, successV] at j2 ⊢
    show Reported env W _ md _ rest (rowsLoop (consumeWith env (reset env W (fuel + 1))) _ _ _)
    rw [j2]
    exact hb

/-- An exchange of one message (versions 3 and 4). -/
theorem txExchange_failure {fuel : Nat} {msg : Val} {what : String} {t : PS} {c : Conn σ} (hs : c.sock = true) (h1 : 1 ≤ c.chunkSize) (hcs : c.chunkSize ≤ 65535)
    (hm : isTxMsg msg = true) (he : (encodeMsg env c.proto.codec c.chunkSize msg).2 = none)
    (hc : Carries t (encodeMsg env c.proto.codec c.chunkSize msg).1) {m : List (Bytes × PS)} {md : Entries} {rest : Bytes}
    (hmd : interpEntries env c.proto.codec m [] = some md) :
    ∃ w1, Carries t w1 ∧ (Delivered W c.world [w1] → Answers [.struct 0x7F [.map m]] (c.segs.flatten ++ (feed W c.world [w1]).2) rest →
      ∀ {α : Type} (f : Unit → CM σ α), Reported env W c.proto.codec md (feed W c.world [w1]).1 rest ((txExchange env W (consume env W (fuel + 1)) msg what >>= f) c)) := by
  refine ⟨_, hc, fun hd ha α f => ?_⟩
  have s1 := sendMessage_good env W hs he hd.1
  have x := (Exchanged.nil env W c).send env W s1
  have hst : (c.sent env W msg).segs.flatten = c.segs.flatten ++ (feed W c.world [(encodeMsg env c.proto.codec c.chunkSize msg).1]).2 := x.reads.symm
  rw [← hst] at ha
  have hr := Answers.reads env ha (show Means env c.proto.codec _ [failureV md] from ⟨interp_failure env hmd, trivial⟩)
  obtain ⟨segs', g1, g2⟩ := consume_failure env (reset := reset env W (fuel + 1)) (c := c.sent env W msg) hs hr
  have hrep := failTail_reported env W (α := α) fuel md (c := (c.sent env W msg).got [failureV md] segs') hs h1 hcs
  rw [show ((c.sent env W msg).got [failureV md] segs').segs.flatten = rest from g1] at hrep
  have hx : txExchange env W (consume env W (fuel + 1)) msg what c = failTail (reset env W (fuel + 1)) md ((c.sent env W msg).got [failureV md] segs') := by
    unfold txExchange
    rw [CM.bind_ok s1, hm]
    simp only [if_true]
    exact failTail_bind (show consume env W (fuel + 1) _ = failTail (reset env W (fuel + 1)) md ((c.sent env W msg).got [failureV md] segs') from g2) _
  rw [failTail_bind hx f]
  exact hrep

/-- An exchange of RUN and PULL_ALL (versions 1 and 2): either of them may fail. -/
theorem txExchange_failure2 {fuel : Nat} {msg : Val} {what : String} {t : PS} {c : Conn σ} (hs : c.sock = true) (h1 : 1 ≤ c.chunkSize) (hcs : c.chunkSize ≤ 65535)
    (hm : isTxMsg msg = false) (he : (encodeMsg env c.proto.codec c.chunkSize msg).2 = none)
    (hc : Carries t (encodeMsg env c.proto.codec c.chunkSize msg).1) {m0 m : List (Bytes × PS)} {md0 md : Entries} {rest : Bytes}
    (hmd0 : interpEntries env c.proto.codec m0 [] = some md0) (hmd : interpEntries env c.proto.codec m [] = some md) :
    ∃ w1 w2, Carries t w1 ∧ Carries (pullTree c.proto) w2 ∧ (Delivered W c.world [w1, w2] →
      Answers [.struct 0x7F [.map m]] (c.segs.flatten ++ (feed W c.world [w1, w2]).2) rest ∨
      Answers [.struct 0x70 [.map m0], .struct 0x7F [.map m]] (c.segs.flatten ++ (feed W c.world [w1, w2]).2) rest →
      ∀ {α : Type} (f : Unit → CM σ α), Reported env W c.proto.codec md (feed W c.world [w1, w2]).1 rest
        ((txExchange env W (consume env W (fuel + 1)) msg what >>= f) c)) := by
  have hpe : (encodeMsg env c.proto.codec c.chunkSize c.proto.pullAllMessage).2 = none := by
    have : (encode env c.proto.codec c.proto.pullAllMessage).2 = none := by cases c.proto <;> rfl
    rw [encodeMsg_ok this]
  refine ⟨_, _, hc, carries_pullAllMessage env c.proto h1 hcs, fun hd hans α f => ?_⟩
  have s1 := sendMessage_good env W hs he hd.1
  have s2 := sendMessage_good env W (c := c.sent env W msg) (v := c.proto.pullAllMessage) hs hpe hd.2.1
  have x := ((Exchanged.nil env W c).send env W s1).send env W s2
  obtain ⟨c2, hc2⟩ : ∃ c2, c2 = (c.sent env W msg).sent env W c.proto.pullAllMessage := ⟨_, rfl⟩
  rw [← hc2] at s2 x
  have hp2 : c2.proto = c.proto := by rw [hc2]; rfl
  have hs2 : c2.sock = true := by rw [hc2]; exact hs
  have hz2 : c2.chunkSize = c.chunkSize := by rw [hc2]; rfl
  have hst : c2.segs.flatten = c.segs.flatten ++ (feed W c.world [(encodeMsg env c.proto.codec c.chunkSize msg).1,
      (encodeMsg env c.proto.codec c.chunkSize c.proto.pullAllMessage).1]).2 := x.reads.symm
  have hw : c2.world = (feed W c.world [(encodeMsg env c.proto.codec c.chunkSize msg).1,
      (encodeMsg env c.proto.codec c.chunkSize c.proto.pullAllMessage).1]).1 := x.world
  rw [← hst] at hans
  rw [← hw]
  have key : ∃ c3 : Conn σ, txExchange env W (consume env W (fuel + 1)) msg what c = failTail (reset env W (fuel + 1)) md c3 ∧ c3.segs.flatten = rest ∧
      c3.world = c2.world ∧ c3.core = c2.core := by
    rcases hans with ha | ha
    · have hr := Answers.reads env ha (show Means env c.proto.codec _ [failureV md] from ⟨interp_failure env hmd, trivial⟩)
      rw [← hp2] at hr
      obtain ⟨segs', g1, g2⟩ := consume_failure env (reset := reset env W (fuel + 1)) hs2 hr
      refine ⟨c2.got [failureV md] segs', ?_, g1, rfl, rfl⟩
      unfold txExchange
      rw [CM.bind_ok s1, hm]
      simp only [Bool.false_eq_true, if_false]
      rw [CM.get_bind, CM.bind_ok (show sendMessage env W (c.sent env W msg).proto.pullAllMessage (c.sent env W msg) = _ from s2)]
      exact failTail_bind (show consume env W (fuel + 1) _ = failTail (reset env W (fuel + 1)) md (c2.got [failureV md] segs') from g2) _
    · have hr := Answers.reads env ha (show Means env c.proto.codec _ [successV md0, failureV md] from ⟨interp_success env hmd0, interp_failure env hmd, trivial⟩)
      rw [← hp2] at hr
      obtain ⟨g, k1, k2⟩ := consume_reads env (reset := reset env W (fuel + 1)) hs2 (by rfl) hr
      obtain ⟨segs', g1, g2⟩ := consume_failure env (reset := reset env W (fuel + 1)) (c := c2.got [successV md0] g) hs2 k2
      refine ⟨(c2.got [successV md0] g).got [failureV md] segs', ?_, g1, rfl, rfl⟩
      unfold txExchange
      rw [CM.bind_ok s1, hm]
      simp only [Bool.false_eq_true, if_false]
      rw [CM.get_bind, CM.bind_ok (show sendMessage env W (c.sent env W msg).proto.pullAllMessage (c.sent env W msg) = _ from s2), CM.bind_ok (show consume env W (fuel + 1) _ = _ from k1)]
      exact failTail_bind (show consume env W (fuel + 1) _ = failTail (reset env W (fuel + 1)) md ((c2.got [successV md0] g).got [failureV md] segs') from g2) _
  obtain ⟨c3, q1, q2, q3, q4⟩ := key
  rw [failTail_bind q1 f]
  have z3 : c3.chunkSize = c.chunkSize := (congrArg Core.chunkSize q4).trans hz2
  have hrep := failTail_reported env W (α := α) fuel md (c := c3) ((congrArg Core.sock q4).trans hs2) (by omega) (by omega)
  rw [q2, q3, show c3.proto = c.proto from (congrArg Core.proto q4).trans hp2] at hrep
  exact hrep

/-- A FAILURE in answer to the requests `ts` (to the first, or to the second after SUCCESS) is reported by the call with outcome `r`. -/
def ReportsFailure {α : Type} (c : Conn σ) (ts : List PS) (r : CRes α × Conn σ) : Prop :=
  ∀ (m0 m : List (Bytes × PS)) (md0 md : Entries) (rest : Bytes), interpEntries env c.proto.codec m0 [] = some md0 →
    interpEntries env c.proto.codec m [] = some md →
    ∃ wss : List (List Bytes), wss.length = ts.length ∧ (∀ x ∈ ts.zip wss, Carries x.1 x.2) ∧
      (Delivered W c.world wss →
        Answers [.struct 0x7F [.map m]] (c.segs.flatten ++ (feed W c.world wss).2) rest ∨
        (ts.length = 2 ∧ Answers [.struct 0x70 [.map m0], .struct 0x7F [.map m]] (c.segs.flatten ++ (feed W c.world wss).2) rest) →
        Reported env W c.proto.codec md (feed W c.world wss).1 rest r)

theorem reportsFailure_one {α : Type} {fuel : Nat} {msg : Val} {what : String} {t : PS} {c : Conn σ} (hs : c.sock = true) (h1 : 1 ≤ c.chunkSize)
    (hcs : c.chunkSize ≤ 65535) (hm : isTxMsg msg = true) (he : (encodeMsg env c.proto.codec c.chunkSize msg).2 = none)
    (hc : Carries t (encodeMsg env c.proto.codec c.chunkSize msg).1) (f : Unit → CM σ α) :
    ReportsFailure env W c [t] ((txExchange env W (consume env W (fuel + 1)) msg what >>= f) c) := by
  intro m0 m md0 md rest h0 hmd
  obtain ⟨w1, k1, k2⟩ := txExchange_failure env W (fuel := fuel) (what := what) hs h1 hcs hm he hc (rest := rest) hmd
  refine ⟨[w1], rfl, by intro x hx; simp at hx; subst hx; exact k1, fun hd ha => ?_⟩
  rcases ha with ha | ⟨hl, _⟩
  · exact k2 hd ha f
  · simp at hl

theorem reportsFailure_two {α : Type} {fuel : Nat} {msg : Val} {what : String} {t : PS} {c : Conn σ} (hs : c.sock = true) (h1 : 1 ≤ c.chunkSize)
    (hcs : c.chunkSize ≤ 65535) (hm : isTxMsg msg = false) (he : (encodeMsg env c.proto.codec c.chunkSize msg).2 = none)
    (hc : Carries t (encodeMsg env c.proto.codec c.chunkSize msg).1) (f : Unit → CM σ α) :
    ReportsFailure env W c [t, pullTree c.proto] ((txExchange env W (consume env W (fuel + 1)) msg what >>= f) c) := by
  intro m0 m md0 md rest h0 hmd
  obtain ⟨w1, w2, k1, k2, k3⟩ := txExchange_failure2 env W (fuel := fuel) (what := what) hs h1 hcs hm he hc (rest := rest) h0 hmd
  refine ⟨[w1, w2], rfl, by intro x hx; simp at hx; rcases hx with rfl | rfl; exact k1; exact k2, fun hd ha => ?_⟩
  rcases ha with ha | ⟨_, ha⟩
  · exact k3 hd (.inl ha) f
  · exact k3 hd (.inr ha) f

theorem enc_ok {ver : Ver} {cs : Nat} {v : Val} (h : (encode env ver v).2 = none) : (encodeMsg env ver cs v).2 = none := by rw [encodeMsg_ok h]

/-- `Commit` and `Rollback`, in all versions. -/
theorem C34_end {fuel h : Nat} {c : Conn σ} (ho : c.isOpen h) (hs : c.sock = true) (h1 : 1 ≤ c.chunkSize) (hcs : c.chunkSize ≤ 65535) :
    ReportsFailure env W c (commitTrees c.proto) (commit env W (fuel + 1) h c) ∧
    ReportsFailure env W c (rollbackTrees c.proto) (rollback env W (fuel + 1) h c) := by
  have hcl : c.txClosed h = false := txClosed_false.mpr ho
  constructor
  · rw [show commit env W (fuel + 1) h c = endWith env W (consume env W (fuel + 1)) Proto.txCommitMessage "Unrecognized response type committing transaction" h c from rfl,
      endWith_apply, hcl]
    simp only [Bool.false_eq_true, if_false]
    unfold commitTrees endTxTrees
    cases hp : c.proto
    · have := reportsFailure_two env W (fuel := fuel) (what := "Unrecognized response type committing transaction") hs h1 hcs (msg := newRunMessage (ascii "COMMIT") []) rfl
        (enc_ok env (by cases c.proto <;> rfl)) (carries_runVerb env _ h1 hcs _ (by simp)) (fun _ => CM.modify fun x => x.endTx h)
      rw [hp] at this; exact this
    · have := reportsFailure_two env W (fuel := fuel) (what := "Unrecognized response type committing transaction") hs h1 hcs (msg := newRunMessage (ascii "COMMIT") []) rfl
        (enc_ok env (by cases c.proto <;> rfl)) (carries_runVerb env _ h1 hcs _ (by simp)) (fun _ => CM.modify fun x => x.endTx h)
      rw [hp] at this; exact this
    · exact reportsFailure_one env W hs h1 hcs rfl (enc_ok env (by cases c.proto <;> rfl)) (carries_commit env _ h1 hcs) _
    · exact reportsFailure_one env W hs h1 hcs rfl (enc_ok env (by cases c.proto <;> rfl)) (carries_commit env _ h1 hcs) _
  · rw [show rollback env W (fuel + 1) h c = endWith env W (consume env W (fuel + 1)) Proto.txRollbackMessage "Unrecognized response type rolling back transaction" h c from rfl,
      endWith_apply, hcl]
    simp only [Bool.false_eq_true, if_false]
    unfold rollbackTrees endTxTrees
    cases hp : c.proto
    · have := reportsFailure_two env W (fuel := fuel) (what := "Unrecognized response type rolling back transaction") hs h1 hcs (msg := newRunMessage (ascii "ROLLBACK") []) rfl
        (enc_ok env (by cases c.proto <;> rfl)) (carries_runVerb env _ h1 hcs _ (by simp)) (fun _ => CM.modify fun x => x.endTx h)
      rw [hp] at this; exact this
    · have := reportsFailure_two env W (fuel := fuel) (what := "Unrecognized response type rolling back transaction") hs h1 hcs (msg := newRunMessage (ascii "ROLLBACK") []) rfl
        (enc_ok env (by cases c.proto <;> rfl)) (carries_runVerb env _ h1 hcs _ (by simp)) (fun _ => CM.modify fun x => x.endTx h)
      rw [hp] at this; exact this
    · exact reportsFailure_one env W hs h1 hcs rfl (enc_ok env (by cases c.proto <;> rfl)) (carries_rollback env _ h1 hcs) _
    · exact reportsFailure_one env W hs h1 hcs rfl (enc_ok env (by cases c.proto <;> rfl)) (carries_rollback env _ h1 hcs) _

/-- `Begin`, in all versions. -/
theorem C34_begin {fuel : Nat} {db : Bytes} {c : Conn σ} (hcur : c.cur = none) (hcl : c.closed = false) (hs : c.sock = true) (h8 : 8 ≤ c.chunkSize)
    (hcs : c.chunkSize ≤ 65535) (hdb : db.length ≤ c.chunkSize) :
    ReportsFailure env W c (beginTrees c.proto db c.mode) (beginWithDatabase env W (fuel + 1) db c) := by
  have h1 : 1 ≤ c.chunkSize := by omega
  rw [begin_apply, hcur, hcl]
  simp only [Option.isSome_none, Bool.false_eq_true, if_false]
  have hb := carries_begin env c.proto.codec h8 hcs db c.mode hdb
  have he : (encodeMsg env c.proto.codec c.chunkSize (newBeginMessage (buildTxMetadataWithDatabase none [] db c.mode))).2 = none := by
    refine enc_ok env ?_
    rw [buildTx_eq]
    have hl : db.length ≤ 65535 := by omega
    unfold newBeginMessage
    by_cases hm : c.mode = 0 <;> by_cases hd : db = [] <;> simp [hm, hd, encode, encodeFields, encodeEntries, wrapField, Enc.seq, Enc.ok, StructKind.isStructure,
      structHeader, mapHeader, encodeString, ascii] <;> (repeat' split) <;> simp_all <;> omega
  unfold beginTrees
  cases hp : c.proto
  · have := reportsFailure_two env W (fuel := fuel) (what := "Unrecognized response type beginning transaction") hs h1 hcs (msg := newRunMessage (ascii "BEGIN") []) rfl
      (enc_ok env (by cases c.proto <;> rfl)) (carries_runVerb env _ h1 hcs _ (by simp)) (fun _ => addTx)
    rw [hp] at this; exact this
  · have := reportsFailure_two env W (fuel := fuel) (what := "Unrecognized response type beginning transaction") hs h1 hcs (msg := newRunMessage (ascii "BEGIN") []) rfl
      (enc_ok env (by cases c.proto <;> rfl)) (carries_runVerb env _ h1 hcs _ (by simp)) (fun _ => addTx)
    rw [hp] at this; exact this
  · exact reportsFailure_one env W hs h1 hcs rfl he hb _
  · exact reportsFailure_one env W hs h1 hcs rfl he hb _

/-- The initialisation of a connection (wrong credentials, for example): FAILURE in answer to the message `msg`. -/
theorem C34_init {fuel : Nat} {msg : Val} {t : PS} {c : Conn σ} (hs : c.sock = true) (h1 : 1 ≤ c.chunkSize) (hcs : c.chunkSize ≤ 65535)
    (he : (encodeMsg env c.proto.codec c.chunkSize msg).2 = none) (hc : Carries t (encodeMsg env c.proto.codec c.chunkSize msg).1) :
    ReportsFailure env W c [t] (sendInit env W (fuel + 1) msg c) := by
  intro m0 m md0 md rest h0 hmd
  refine ⟨[_], rfl, by intro x hx; simp at hx; subst hx; exact hc, fun hd ha => ?_⟩
  rcases ha with ha | ⟨hl, _⟩
  · have s1 := sendMessage_good env W hs he hd.1
    have x := (Exchanged.nil env W c).send env W s1
    have hst : (c.sent env W msg).segs.flatten = c.segs.flatten ++ (feed W c.world [(encodeMsg env c.proto.codec c.chunkSize msg).1]).2 := x.reads.symm
    rw [← hst] at ha
    have hr := Answers.reads env ha (show Means env c.proto.codec _ [failureV md] from ⟨interp_failure env hmd, trivial⟩)
    have := consume_reported env W fuel md (c := c.sent env W msg) hs h1 hcs hr (fun resp => match asSuccess resp with
      | some _ => (Pure.pure () : CM σ Unit)
      | none => close env W (fuel + 1))
    unfold sendInit
    rw [CM.bind_ok s1]
    exact this
  · simp at hl

/-- A failing query, in two situations. -/
example : (query env0 scripted 3 [0x58] [] (opened (sOpen4 ++ [sFailure, sIgnored, sSuccess])).2).1.kind = 1 := by decide +kernel
example : (query env0 scripted 3 [0x58] [] (opened (sOpen4 ++ [sSuccess, [[0x00, 0x04, 0xB1], [0x71, 0x91, 0x01, 0x00, 0x00]] ++ sFailure, sSuccess])).2).1.kind = 1 := by
  decide +kernel
example : interpEntries env0 .v2 [(ascii "code", .str [0x4E])] [] = some [(ascii "code", .str [0x4E])] := rfl

end
end Verif

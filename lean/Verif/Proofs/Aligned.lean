/-
With a server that follows the protocol, no call leaves an answer unread.
-/
import Verif.Spec.Server
import Verif.Proofs.Failure
import Verif.Props.C33
import Verif.Props.C34
namespace Verif
open Spec

theorem sents_append (a b : List Ev) : sents (a ++ b) = sents a ++ sents b := List.filterMap_append
theorem recvs_append (a b : List Ev) : recvs (a ++ b) = recvs a ++ recvs b := List.filterMap_append
theorem sents_recv : (vs : List Val) → sents (vs.map .recv) = []
  | [] => rfl
  | _ :: vs => sents_recv vs
theorem recvs_recv : (vs : List Val) → recvs (vs.map .recv) = vs
  | [] => rfl
  | v :: vs => congrArg (v :: ·) (recvs_recv vs)

section
variable {σ : Type} (env : Env) (W : World σ)

theorem Spec.Talked.refl (ver : Ver) (c : Conn σ) : Talked env W ver c c := ⟨[], by simp, rfl, by simp [Reads, recvs, sents, feed]⟩

theorem Spec.Talked.trans {ver : Ver} {a b c : Conn σ} (h1 : Talked env W ver a b) (h2 : Talked env W ver b c) : Talked env W ver a c := by
  obtain ⟨e1, t1, w1, r1⟩ := h1
  obtain ⟨e2, t2, w2, r2⟩ := h2
  refine ⟨e1 ++ e2, by rw [t2, t1, List.append_assoc], ?_, ?_⟩
  · rw [sents_append, feed_append, w2, w1]
  · rw [sents_append, feed_append, recvs_append, ← List.append_assoc]
    rw [w1] at r2
    exact Reads.append env (Reads.extend env _ r1) r2

theorem Spec.Talked.sent (ver : Ver) (c : Conn σ) (v : Val) : Talked env W ver c (c.sent env W v) :=
  ⟨[.sent (encodeMsg env c.proto.codec c.chunkSize v).1], rfl, rfl, by simp [Reads, recvs, sents, feed, Conn.sent]⟩

theorem Spec.Talked.got {ver : Ver} {c : Conn σ} {vs : List Val} {s : List Bytes} (h : Reads env ver vs c.segs.flatten s.flatten) :
    Talked env W ver c (c.got vs s) :=
  ⟨vs.map .recv, rfl, by rw [sents_recv]; rfl, by rw [sents_recv, recvs_recv]; simpa [feed, Conn.got] using h⟩

/-- Only bookkeeping changed. -/
theorem Spec.Talked.same {ver : Ver} {c c' : Conn σ} (ht : c'.trace = c.trace) (hw : c'.world = c.world) (hs : c'.segs.flatten = c.segs.flatten) :
    Talked env W ver c c' := ⟨[], by simp [ht], hw, by simp [Reads, recvs, sents, feed, hs]⟩

variable (phase : σ → Phase) (p : Proto)

/-- The session is over: no bytes will arrive any more. -/
def Dead (c : Conn σ) : Prop := (c.sock = false ∨ phase c.world = .defunct) ∧ c.segs.flatten = []

/-- The server is in phase `ph`, and the messages `vs` are unread. -/
def At (ph : Phase) (vs : List Val) (c : Conn σ) : Prop :=
  c.sock = true ∧ phase c.world = ph ∧ Reads env c.proto.codec vs c.segs.flatten []

/-- Between two calls: the session is over, or the server waits for a request and nothing is unread. -/
def Idle (lo : Nat) (c : Conn σ) : Prop :=
  c.proto = p ∧ (Dead phase c ∨ (lo ≤ c.chunkSize ∧ c.chunkSize ≤ 65535 ∧ At env phase .ready [] c))

variable {W} {phase} (hF : Follows W phase)
include hF

/-- After the end of the session nothing changes any more. -/
theorem dead_prim : Prim env W (fun (c c' : Conn σ) => c.proto = p → Dead phase c → (c'.proto = p ∧ Dead phase c') ∧ Talked env W p.codec c c') where
  refl c hp h := ⟨⟨hp, h⟩, Talked.refl env W _ c⟩
  trans h1 h2 hp h := by
    obtain ⟨⟨a, b⟩, t⟩ := h1 hp h
    obtain ⟨k, t'⟩ := h2 a b
    exact ⟨k, t.trans env W t'⟩
  send v c hp h := by
    unfold sendMessage writeAll
    dsimp only
    split
    · split <;> exact ⟨⟨hp, h⟩, Talked.refl env W _ c⟩
    · split
      · exact ⟨⟨hp, h⟩, Talked.refl env W _ c⟩
      · rename_i hs
        have hd : phase c.world = .defunct := h.1.resolve_left hs
        obtain ⟨g1, g2⟩ := hF.silent c.world (encodeMsg env c.proto.codec c.chunkSize v).1 hd
        have key : (((c.sent env W v).proto = p ∧ Dead phase (c.sent env W v)) ∧ Talked env W p.codec c (c.sent env W v)) :=
          ⟨⟨hp, .inr g1, by simp [Conn.sent, h.2, g2]⟩, Talked.sent env W _ c v⟩
        split
        · split <;> exact key
        · exact key
  recv c hp h := by
    unfold receive
    split
    · exact ⟨⟨hp, h⟩, Talked.refl env W _ c⟩
    · split
      · rename_i s hm
        have hz : s.flatten = [] := by
          have := readMsg_flat c.fin c.segs
          rw [hm, h.2] at this
          simp only [readFlat, RRes.flat, List.length_nil] at this
          rw [if_pos (by decide)] at this
          exact (FRes.err.inj this).2
        exact ⟨⟨hp, h.1, hz⟩, Talked.same env W rfl rfl (hz.trans h.2.symm)⟩
      · rename_i b s hm
        have := readMsg_flat c.fin c.segs
        rw [hm, h.2] at this
        simp [readFlat, RRes.flat] at this
  endTx h c hp hd := ⟨⟨hp, hd⟩, Talked.same env W rfl rfl rfl⟩
  sock c hp h := by
    have key : ∀ c' : Conn σ, c' = { c with sock := false, closed := true, trace := c.trace ++ [.closed] } →
        (c'.proto = p ∧ Dead phase c') ∧ Talked env W p.codec c c' := by
      rintro c' rfl
      exact ⟨⟨hp, .inl rfl, h.2⟩, [.closed], rfl, rfl, by simp [Reads, recvs, sents, feed]⟩
    unfold closeSock
    dsimp only
    split <;> exact key _ rfl
  addTx c hp hd := ⟨⟨hp, hd⟩, Talked.same env W rfl rfl rfl⟩
  probe c hp h := by
    unfold validateOpen
    split
    · exact ⟨⟨hp, h⟩, Talked.refl env W _ c⟩
    · split
      · exact ⟨⟨hp, h⟩, Talked.refl env W _ c⟩
      · exact ⟨⟨hp, h⟩, Talked.refl env W _ c⟩
      · rw [readOnce_none.mpr h.2]
        exact ⟨⟨hp, h⟩, Talked.refl env W _ c⟩
  chunk n c hp hd := ⟨⟨hp, hd⟩, Talked.same env W rfl rfl rfl⟩

omit hF

theorem interp_success_inv {ver : Ver} {m : List (Bytes × PS)} {v : Val} (h : interp env ver (Spec.success m) = some v) : ∃ md, v = successV md := by
  simp only [Spec.success, interp, interpList] at h
  cases hm : interpEntries env ver m [] with
  | none => simp [hm] at h
  | some md => simp [hm, structOf] at h; exact ⟨md, h.symm⟩

theorem interp_failure_inv {ver : Ver} {m : List (Bytes × PS)} {v : Val} (h : interp env ver (Spec.failure m) = some v) : ∃ md, v = failureV md := by
  simp only [Spec.failure, interp, interpList] at h
  cases hm : interpEntries env ver m [] with
  | none => simp [hm] at h
  | some md => simp [hm, structOf] at h; exact ⟨md, h.symm⟩

theorem interp_record_inv {ver : Ver} {fs : List PS} {v : Val} (h : interp env ver (record fs) = some v) : ∃ row, v = recordV row := by
  simp only [Spec.record, interp, interpList] at h
  cases hm : interpList env ver fs with
  | none => simp [hm] at h
  | some row => simp [hm, structOf] at h; exact ⟨row, h.symm⟩

theorem means_one_success {ver : Ver} {m : List (Bytes × PS)} : {vs : List Val} → Means env ver [Spec.success m] vs → ∃ md, vs = [successV md]
  | [_], ⟨h, _⟩ => by obtain ⟨md, rfl⟩ := interp_success_inv env h; exact ⟨md, rfl⟩

theorem means_one_failure {ver : Ver} {m : List (Bytes × PS)} : {vs : List Val} → Means env ver [Spec.failure m] vs → ∃ md, vs = [failureV md]
  | [_], ⟨h, _⟩ => by obtain ⟨md, rfl⟩ := interp_failure_inv env h; exact ⟨md, rfl⟩

theorem means_one_ignored {ver : Ver} : {vs : List Val} → Means env ver [ignoredTree] vs → vs = [ignoredV]
  | [_], ⟨h, _⟩ => by cases h; rfl

theorem means_records {ver : Ver} {t : PS} : {recs : List (List PS)} → {vs : List Val} → Means env ver (recs.map record ++ [t]) vs →
    ∃ rows v, vs = rows.map recordV ++ [v] ∧ Means env ver [t] [v] ∧ (recs = [] → rows = [])
  | [], [v], h => ⟨[], v, rfl, h, fun _ => rfl⟩
  | _ :: _, _ :: _, ⟨h1, h2⟩ => by
    obtain ⟨row, rfl⟩ := interp_record_inv env h1
    obtain ⟨rows, v, rfl, h3, _⟩ := means_records h2
    exact ⟨row :: rows, v, rfl, h3, by simp⟩

theorem resetLoop_failure {close : CM σ Unit} : (k n : Nat) → (c : Conn σ) → (md : Entries) → (vs : List Val) → (rest : Bytes) → c.sock = true → k < n →
    Reads env c.proto.codec (List.replicate k ignoredV ++ failureV md :: vs) c.segs.flatten rest →
    ∃ segs', resetLoop env close n c = CM.thenFail close ((GoErr.failure md).wrap "Error resetting session. CLOSING SESSION!")
        (c.got (List.replicate k ignoredV ++ [failureV md]) segs') ∧
      Reads env c.proto.codec vs segs'.flatten rest
  | 0, n + 1, c, md, vs, rest, hs, _, h => by
    obtain ⟨segs', g1, g2⟩ := receive_reads env hs h
    refine ⟨segs', ?_, g2⟩
    unfold resetLoop
    rw [CM.bind_ok (CM.mapErr_eq_ok.mpr g1)]
    rfl
  | k + 1, n + 1, c, md, vs, rest, hs, hn, h => by
    obtain ⟨segs', g1, g2⟩ := receive_reads env hs h
    obtain ⟨segs'', j1, j2⟩ := resetLoop_failure (close := close) k n (c.got [ignoredV] segs') md vs rest hs (by omega) g2
    refine ⟨segs'', ?_, j2⟩
    unfold resetLoop
    rw [CM.bind_ok (CM.mapErr_eq_ok.mpr g1)]
    show resetLoop env close n (c.got [ignoredV] segs') = _
    rw [j1, got_got]
    simp [List.replicate_succ]
  | _, 0, _, _, _, _, _, hn, _ => absurd hn (Nat.not_lt_zero _)

include hF

/-- A request that is allowed now is delivered, and its answers come after what is unread. -/
theorem send_at {c : Conn σ} (hU : Understood env c.proto.codec W) {ph : Phase} {pend : List Val} {v : Val} {t : PS} (h : At env phase ph pend c)
    (he : (encodeMsg env c.proto.codec c.chunkSize v).2 = none) (hc : Carries t (encodeMsg env c.proto.codec c.chunkSize v).1)
    (hd : ph ≠ .defunct) (hl : ∃ ts ph', Reply ph t ts ph') :
    sendMessage env W v c = (.ok (), c.sent env W v) ∧
    ∃ ts vs ph', Reply ph t ts ph' ∧ Means env c.proto.codec ts vs ∧ At env phase ph' (pend ++ vs) (c.sent env W v) := by
  obtain ⟨h1, h2, h3⟩ := h
  obtain ⟨g1, ts, g2, g3⟩ := hF.reply c.world _ t hc (by rw [h2]; exact hd) (by rw [h2]; exact hl)
  obtain ⟨g5, vs, g4⟩ := hU _ _ _ g3
  refine ⟨sendMessage_good env W h1 he g1, ts, vs, _, by rw [h2] at g2; exact g2, g4, h1, rfl, ?_⟩
  have := Reads.append env (Reads.extend env (W.onSend c.world (encodeMsg env c.proto.codec c.chunkSize v).1).segs.flatten h3) (Answers.reads env g5 g4)
  simpa [Conn.sent] using this

variable {lo : Nat} (hlo : 8 ≤ lo) (hU : Understood env p.codec W)
include hlo hU

/-- RESET after a failure, with any number of ignored requests: the session works again, or it is over. -/
theorem reset_idle (fuel k : Nat) {c : Conn σ} (hp : c.proto = p) (hcs : lo ≤ c.chunkSize ∧ c.chunkSize ≤ 65535)
    (h : At env phase .failed (List.replicate k ignoredV) c) :
    Idle env phase p lo (reset env W (fuel + 1) c).2 ∧ Talked env W p.codec c (reset env W (fuel + 1) c).2 := by
  subst hp
  obtain ⟨g1, ts, vs, ph', g2, g3, g4⟩ := send_at env hF hU h (reset_enc env _ _) (carries_reset env c.proto.codec (by omega) hcs.2) (by simp)
    ⟨_, _, Reply.reset .failed [] (by simp) (by simp) (by simp)⟩
  obtain ⟨a1, a2, a3⟩ := g4
  have hlen := Reads.length env a3
  cases g2 with
  | ignored _ _ hn => exact absurd (by simp) hn
  | reset _ m _ _ _ =>
    obtain ⟨md, rfl⟩ := means_one_success env g3
    obtain ⟨s', j1, j2⟩ := reset_works env W fuel h.1 (k := k) (md := md) (vs := []) (rest := []) (sendMessage_ok env W g1).2.2.1 (by
      simpa [Conn.sent] using a3)
    rw [j1]
    refine ⟨⟨rfl, .inr ⟨hcs.1, hcs.2, a1, a2, j2⟩⟩, (Talked.sent env W _ c _).trans env W (Talked.got env W ?_)⟩
    rw [show s'.flatten = [] from j2]
    exact a3
  | resetFailure _ m _ _ _ =>
    obtain ⟨md, rfl⟩ := means_one_failure env g3
    obtain ⟨s', j1, j2⟩ := resetLoop_failure env (close := closeWith env W (rollbackWith env W (consumeWith env (reset env W fuel)))) k
      (streamLen (c.sent env W newResetMessage).segs + 1) (c.sent env W newResetMessage) md [] [] a1 (by
        rw [streamLen_eq]
        simp only [List.length_append, List.length_replicate, List.length_cons] at hlen
        omega) a3
    have hd := dead_prim env c.proto hF
    have e : (reset env W (fuel + 1) c).2 = (closeWith env W (rollbackWith env W (consumeWith env (reset env W fuel)))
        ((c.sent env W newResetMessage).got (List.replicate k ignoredV ++ [failureV md]) s')).2 := by
      have : reset env W (fuel + 1) c = resetLoop env (closeWith env W (rollbackWith env W (consumeWith env (reset env W fuel))))
          (streamLen (c.sent env W newResetMessage).segs + 1) (c.sent env W newResetMessage) := by
        exact CM.bind_ok (m := CM.mapErr (fun e => e.wrap "An error occurred encoding reset message") (sendMessage env W newResetMessage))
          (f := fun _ c => resetLoop env (closeWith env W (rollbackWith env W (consumeWith env (reset env W fuel)))) (streamLen c.segs + 1) c)
          (CM.mapErr_eq_ok.mpr g1)
      rw [this, j1, CM.thenFail_snd]
    rw [e]
    have ht : Talked env W c.proto.codec c ((c.sent env W newResetMessage).got (List.replicate k ignoredV ++ [failureV md]) s') := by
      refine (Talked.sent env W _ c _).trans env W (Talked.got env W ?_)
      rw [show s'.flatten = [] from j2]
      exact a3
    obtain ⟨⟨b1, b2⟩, b3⟩ := hd.closeWith env W (fun h => hd.endWith env W (hd.consumeWith env W (hd.reset env W fuel)) _ _ h)
      ((c.sent env W newResetMessage).got (List.replicate k ignoredV ++ [failureV md]) s') rfl ⟨.inr a2, j2⟩
    exact ⟨⟨b1, .inl b2⟩, ht.trans env W b3⟩

theorem failTail_idle {α : Type} (fuel k : Nat) (md : Entries) {c : Conn σ} (hp : c.proto = p) (hcs : lo ≤ c.chunkSize ∧ c.chunkSize ≤ 65535)
    (h : At env phase .failed (List.replicate k ignoredV) c) :
    Idle env phase p lo ((failTail (reset env W (fuel + 1)) md : CM σ α) c).2 ∧
    Talked env W p.codec c ((failTail (reset env W (fuel + 1)) md : CM σ α) c).2 := by
  have : ((failTail (reset env W (fuel + 1)) md : CM σ α) c).2 = (reset env W (fuel + 1) c).2 := by
    rw [failTail_apply]
    match reset env W (fuel + 1) c with
    | (.ok _, _) => rfl
    | (.err _, _) => rfl
    | (.panic, _) => rfl
    | (.fuel, _) => rfl
  rw [this]
  exact reset_idle env p hF hlo hU fuel k hp hcs h

omit hF hlo hU

theorem Spec.Reply.run_inv {ph ph' : Phase} {t : PS} {ts : List PS} (h : Reply ph t ts ph') : ph = .ready → ∀ q fs, t = .struct 0x10 (.str q :: fs) →
    (∃ m, ts = [Spec.success m] ∧ ph' = .streaming (q ∉ controlVerbs)) ∨ (∃ m, ts = [Spec.failure m] ∧ ph' = .failed) := by
  cases h <;> intro hp q fs ht <;> simp_all <;> exact ⟨_, rfl⟩

theorem Spec.Reply.tx_inv {ph ph' : Phase} {t : PS} {ts : List PS} (h : Reply ph t ts ph') : ph = .ready → ∀ sig fs, sig ∈ [0x11, 0x12, 0x13] → t = .struct sig fs →
    (∃ m, ts = [Spec.success m] ∧ ph' = .ready) ∨ (∃ m, ts = [Spec.failure m] ∧ ph' = .failed) := by
  cases h <;> intro hp sig fs hs ht <;> simp_all <;> first
    | exact ⟨_, rfl⟩
    | (obtain ⟨rfl, _⟩ := ht; exact absurd hs (by decide))

theorem Spec.Reply.pull_inv {ph ph' : Phase} {t : PS} {ts : List PS} (h : Reply ph t ts ph') : ∀ rows, ph = .streaming rows → ∀ fs, t = .struct 0x3F fs →
    ∃ recs m, (rows = false → recs = []) ∧ ((ts = recs.map Spec.record ++ [Spec.success m] ∧ ph' = .ready) ∨ (ts = recs.map Spec.record ++ [Spec.failure m] ∧ ph' = .failed)) := by
  cases h <;> intro rows hp fs ht <;> simp_all
  · rename_i recs m h; exact ⟨recs, h, rfl, m, rfl⟩
  · rename_i recs m h; exact ⟨recs, h, rfl, m, rfl⟩

theorem Spec.Reply.pull_failed {ph ph' : Phase} {t : PS} {ts : List PS} (h : Reply ph t ts ph') : ph = .failed → ∀ fs, t = .struct 0x3F fs →
    ts = [ignoredTree] ∧ ph' = .failed := by
  cases h <;> intro hp fs ht <;> simp_all

/-- The call `m` in state `c` keeps requests and answers aligned. -/
def Kept (W : World σ) (phase : σ → Phase) (lo : Nat) {α : Type} (m : CM σ α) (c : Conn σ) : Prop :=
  Idle env phase p lo (m c).2 ∧ Talked env W p.codec c (m c).2

theorem Kept.bind {lo : Nat} {α β : Type} {m : CM σ α} {f : α → CM σ β} {c : Conn σ} (h : Kept env p W phase lo m c)
    (hf : ∀ a c1, m c = (.ok a, c1) → Idle env phase p lo c1 → Kept env p W phase lo (f a) c1) : Kept env p W phase lo (m >>= f) c := by
  unfold Kept at h ⊢
  match hm : m c with
  | (.ok a, c1) =>
    rw [hm] at h
    rw [CM.bind_ok hm]
    have := hf a c1 hm h.1
    exact ⟨this.1, h.2.trans env W this.2⟩
  | (.err e, c1) => rw [hm] at h; rw [CM.bind_err hm]; exact h
  | (.panic, c1) => rw [hm] at h; rw [CM.bind_panic hm]; exact h
  | (.fuel, c1) => rw [hm] at h; rw [CM.bind_fuel hm]; exact h

include hF hlo hU

/-- Beginning or ending a transaction. -/
theorem txExchange_kept (fuel : Nat) {msg : Val} (what : String) {c : Conn σ} (hp : c.proto = p) (hcs : lo ≤ c.chunkSize ∧ c.chunkSize ≤ 65535)
    (h : At env phase .ready [] c) (he : (encodeMsg env c.proto.codec c.chunkSize msg).2 = none)
    (hm : (isTxMsg msg = true ∧ ∃ sig fs, sig ∈ [0x11, 0x12, 0x13] ∧ Carries (.struct sig fs) (encodeMsg env c.proto.codec c.chunkSize msg).1) ∨
      (isTxMsg msg = false ∧ ∃ q ∈ controlVerbs, ∃ fs, Carries (.struct 0x10 (.str q :: fs)) (encodeMsg env c.proto.codec c.chunkSize msg).1)) :
    Kept env p W phase lo (txExchange env W (consume env W (fuel + 1)) msg what) c := by
  subst hp
  unfold txExchange Kept
  have hpe : (encodeMsg env c.proto.codec c.chunkSize c.proto.pullAllMessage).2 = none := by
    have : (encode env c.proto.codec c.proto.pullAllMessage).2 = none := by cases c.proto <;> rfl
    rw [encodeMsg_ok this]
  rcases hm with ⟨hm, sig, fs, hsig, hc⟩ | ⟨hm, q, hq, fs, hc⟩
  · obtain ⟨s1, ts, vs, ph', r1, m1, a1⟩ := send_at env hF hU h he hc (by simp) ⟨_, _, Reply.tx sig fs [] hsig⟩
    have T1 := Talked.sent env W c.proto.codec c msg
    obtain ⟨c1, hc1⟩ : ∃ c1, c1 = c.sent env W msg := ⟨_, rfl⟩
    have hp1 : c1.proto = c.proto := by rw [hc1]; rfl
    have hk1 : c1.chunkSize = c.chunkSize := by rw [hc1]; rfl
    rw [← hc1] at s1 a1 T1
    rw [CM.bind_ok s1, hm, if_pos rfl]
    obtain ⟨b1, b2, b3⟩ := a1
    rcases r1.tx_inv rfl sig fs hsig rfl with ⟨m, rfl, rfl⟩ | ⟨m, rfl, rfl⟩
    · obtain ⟨md, rfl⟩ := means_one_success env m1
      obtain ⟨g, k1, k2⟩ := consume_reads env (reset := reset env W (fuel + 1)) b1 (by rfl) b3
      rw [CM.bind_ok (show consume env W (fuel + 1) c1 = _ from k1)]
      have T2 : Talked env W c.proto.codec c1 (c1.got [successV md] g) := by
        refine Talked.got env W ?_
        rw [show g.flatten = [] from k2, ← hp1]; exact b3
      exact ⟨⟨hp1, .inr ⟨by show _ ≤ c1.chunkSize; omega, by show c1.chunkSize ≤ _; omega, b1, b2, k2⟩⟩, T1.trans env W T2⟩
    · obtain ⟨md, rfl⟩ := means_one_failure env m1
      obtain ⟨g, k2, k1⟩ := consume_failure env (reset := reset env W (fuel + 1)) b1 b3
      have T2 : Talked env W c.proto.codec c1 (c1.got [failureV md] g) := by
        refine Talked.got env W ?_
        rw [show g.flatten = [] from k2, ← hp1]; exact b3
      rw [failTail_bind (show consume env W (fuel + 1) c1 = failTail (reset env W (fuel + 1)) md _ from k1)]
      have := failTail_idle (α := Unit) env c.proto hF hlo hU fuel 0 md (c := c1.got [failureV md] g) hp1
        ⟨by show _ ≤ c1.chunkSize; omega, by show c1.chunkSize ≤ _; omega⟩ ⟨b1, b2, k2⟩
      exact ⟨this.1, T1.trans env W (T2.trans env W this.2)⟩
  · obtain ⟨s1, ts, vs, ph', r1, m1, a1⟩ := send_at env hF hU h he hc (by simp) ⟨_, _, Reply.run q fs []⟩
    have T1 := Talked.sent env W c.proto.codec c msg
    obtain ⟨c1, hc1⟩ : ∃ c1, c1 = c.sent env W msg := ⟨_, rfl⟩
    have hp1 : c1.proto = c.proto := by rw [hc1]; rfl
    have hk1 : c1.chunkSize = c.chunkSize := by rw [hc1]; rfl
    rw [← hc1] at s1 a1 T1
    rw [CM.bind_ok s1, hm, if_neg (by simp), CM.get_bind]
    have hpt : ∃ fs, pullTree c1.proto = .struct 0x3F fs := by cases c1.proto <;> exact ⟨_, rfl⟩
    obtain ⟨pfs, hpt⟩ := hpt
    have hpc := carries_pullAllMessage env c1.proto (cs := c1.chunkSize) (by omega) (by omega)
    rw [hpt] at hpc
    have hpe1 : (encodeMsg env c1.proto.codec c1.chunkSize c1.proto.pullAllMessage).2 = none := by rw [hp1, hk1]; exact hpe
    have hU1 : Understood env c1.proto.codec W := by rw [hp1]; exact hU
    have T2 := Talked.sent env W c.proto.codec c1 c1.proto.pullAllMessage
    obtain ⟨c2, hc2⟩ : ∃ c2, c2 = c1.sent env W c1.proto.pullAllMessage := ⟨_, rfl⟩
    have hp2 : c2.proto = c.proto := by rw [hc2, ← hp1]; rfl
    have hk2 : c2.chunkSize = c.chunkSize := by rw [hc2, ← hk1]; rfl
    rcases r1.run_inv rfl q fs rfl with ⟨m, rfl, rfl⟩ | ⟨m, rfl, rfl⟩
    · obtain ⟨md, rfl⟩ := means_one_success env m1
      obtain ⟨s2, ts2, vs2, ph2, r2, m2, a2⟩ := send_at env hF hU1 a1 hpe1 hpc (by simp) ⟨_, _, Reply.pull _ pfs [] [] (by simp)⟩
      rw [← hc2] at s2 a2 T2
      rw [CM.bind_ok s2]
      obtain ⟨b1, b2, b3⟩ := a2
      obtain ⟨recs, m', hrec, hh⟩ := r2.pull_inv _ rfl pfs rfl
      have hrec := hrec (by simp [hq])
      subst hrec
      rcases hh with ⟨rfl, rfl⟩ | ⟨rfl, rfl⟩
      · obtain ⟨md2, rfl⟩ := means_one_success env m2
        obtain ⟨g, k1, k2⟩ := consume_reads env (reset := reset env W (fuel + 1)) b1 (by rfl) b3
        rw [CM.bind_ok (show consume env W (fuel + 1) c2 = _ from k1)]
        obtain ⟨g', j1, j2⟩ := consume_reads env (reset := reset env W (fuel + 1)) (c := c2.got [successV md] g) b1 (by rfl) k2
        rw [CM.bind_ok (show consume env W (fuel + 1) (c2.got [successV md] g) = _ from j1)]
        have T3 : Talked env W c.proto.codec c2 (c2.got [successV md, successV md2] g') := by
          refine Talked.got env W ?_
          rw [show g'.flatten = [] from j2, ← hp2]; exact b3
        rw [got_got]
        exact ⟨⟨hp2, .inr ⟨by show _ ≤ c2.chunkSize; omega, by show c2.chunkSize ≤ _; omega, b1, b2, j2⟩⟩, T1.trans env W (T2.trans env W T3)⟩
      · obtain ⟨md2, rfl⟩ := means_one_failure env m2
        obtain ⟨g, k1, k2⟩ := consume_reads env (reset := reset env W (fuel + 1)) b1 (by rfl) b3
        rw [CM.bind_ok (show consume env W (fuel + 1) c2 = _ from k1)]
        obtain ⟨g', j2, j1⟩ := consume_failure env (reset := reset env W (fuel + 1)) (c := c2.got [successV md] g) b1 k2
        rw [got_got] at j1
        have T3 : Talked env W c.proto.codec c2 (c2.got [successV md, failureV md2] g') := by
          refine Talked.got env W ?_
          rw [show g'.flatten = [] from j2, ← hp2]; exact b3
        rw [failTail_bind (show consume env W (fuel + 1) (c2.got [successV md] g) = failTail (reset env W (fuel + 1)) md2 _ from j1)]
        have := failTail_idle (α := Unit) env c.proto hF hlo hU fuel 0 md2 (c := c2.got [successV md, failureV md2] g') hp2
          ⟨by show _ ≤ c2.chunkSize; omega, by show c2.chunkSize ≤ _; omega⟩ ⟨b1, b2, j2⟩
        exact ⟨this.1, T1.trans env W (T2.trans env W (T3.trans env W this.2))⟩
    · obtain ⟨md, rfl⟩ := means_one_failure env m1
      obtain ⟨s2, ts2, vs2, ph2, r2, m2, a2⟩ := send_at env hF hU1 a1 hpe1 hpc (by simp) ⟨_, _, Reply.ignored _ pfs (by decide)⟩
      rw [← hc2] at s2 a2 T2
      rw [CM.bind_ok s2]
      obtain ⟨b1, b2, b3⟩ := a2
      obtain ⟨rfl, rfl⟩ := r2.pull_failed rfl pfs rfl
      have := means_one_ignored env m2
      subst this
      obtain ⟨t, u1, u2⟩ := Reads.split env (vs := [failureV md]) (ws := [ignoredV]) b3
      obtain ⟨g, k2, k1⟩ := consume_failure env (reset := reset env W (fuel + 1)) b1 u1
      have T3 : Talked env W c.proto.codec c2 (c2.got [failureV md] g) := by
        refine Talked.got env W ?_
        rw [show g.flatten = t from k2, ← hp2]; exact u1
      rw [failTail_bind (show consume env W (fuel + 1) c2 = failTail (reset env W (fuel + 1)) md _ from k1)]
      have := failTail_idle (α := Unit) env c.proto hF hlo hU fuel 1 md (c := c2.got [failureV md] g) hp2
        ⟨by show _ ≤ c2.chunkSize; omega, by show c2.chunkSize ≤ _; omega⟩ ⟨b1, b2, by rw [← show g.flatten = t from k2] at u2; exact u2⟩
      exact ⟨this.1, T1.trans env W (T2.trans env W (T3.trans env W this.2))⟩

/-- Running a query. -/
theorem runQuery_kept (fuel : Nat) {q : Bytes} {ps : Entries} {db : Bytes} {pt : PS} {inTx : Bool} {c : Conn σ} (hp : c.proto = p)
    (hcs : lo ≤ c.chunkSize ∧ c.chunkSize ≤ 65535) (h : At env phase .ready [] c) (hq : Sendable env p.codec c.chunkSize q ps db pt) :
    Kept env p W phase lo (runQuery env W (fuel + 1) q ps db inTx) c := by
  subst hp
  unfold Kept
  by_cases hcl : c.closed = true
  · rw [runQuery_closed env W _ q ps db inTx hcl]
    exact ⟨⟨rfl, .inr ⟨hcs.1, hcs.2, h⟩⟩, Talked.refl env W _ c⟩
  rw [runQuery_open env W (by simpa using hcl)]
  obtain ⟨he, hc⟩ := hq.carries (p := c.proto) c.mode inTx
  have hrt : ∃ fs, runTree c.proto q pt db c.mode inTx = .struct 0x10 (.str q :: fs) := by cases c.proto <;> exact ⟨_, rfl⟩
  obtain ⟨fs, hrt⟩ := hrt
  rw [hrt] at hc
  obtain ⟨msg, hmsg⟩ : ∃ msg, msg = c.proto.runMessage q ps db c.mode (!inTx) := ⟨_, rfl⟩
  rw [← hmsg] at he hc ⊢
  have hpe : (encodeMsg env c.proto.codec c.chunkSize c.proto.pullAllMessage).2 = none := by
    have : (encode env c.proto.codec c.proto.pullAllMessage).2 = none := by cases c.proto <;> rfl
    rw [encodeMsg_ok this]
  obtain ⟨s1, ts, vs, ph', r1, m1, a1⟩ := send_at env hF hU h he hc (by simp) ⟨_, _, Reply.run q fs []⟩
  have T1 := Talked.sent env W c.proto.codec c msg
  obtain ⟨c1, hc1⟩ : ∃ c1, c1 = c.sent env W msg := ⟨_, rfl⟩
  have hp1 : c1.proto = c.proto := by rw [hc1]; rfl
  have hk1 : c1.chunkSize = c.chunkSize := by rw [hc1]; rfl
  rw [← hc1] at s1 a1 T1
  rw [CM.bind_ok s1]
  have hpt : ∃ fs, pullTree c.proto = .struct 0x3F fs := by cases c.proto <;> exact ⟨_, rfl⟩
  obtain ⟨pfs, hpt⟩ := hpt
  have hpc := carries_pullAllMessage env c.proto (cs := c.chunkSize) (by omega) (by omega)
  rw [hpt] at hpc
  rw [← hp1, ← hk1] at hpe
  have hpc1 : Carries (.struct 0x3F pfs) (encodeMsg env c1.proto.codec c1.chunkSize c.proto.pullAllMessage).1 := by rw [hp1, hk1]; exact hpc
  have hpe1 : (encodeMsg env c1.proto.codec c1.chunkSize c.proto.pullAllMessage).2 = none := by rw [hp1] at hpe ⊢; exact hpe
  have hU1 : Understood env c1.proto.codec W := by rw [hp1]; exact hU
  have T2 := Talked.sent env W c.proto.codec c1 c.proto.pullAllMessage
  obtain ⟨c2, hc2⟩ : ∃ c2, c2 = c1.sent env W c.proto.pullAllMessage := ⟨_, rfl⟩
  have hp2 : c2.proto = c.proto := by rw [hc2, ← hp1]; rfl
  have hk2 : c2.chunkSize = c.chunkSize := by rw [hc2, ← hk1]; rfl
  rcases r1.run_inv rfl q fs rfl with ⟨m, rfl, rfl⟩ | ⟨m, rfl, rfl⟩
  · obtain ⟨md, rfl⟩ := means_one_success env m1
    obtain ⟨s2, ts2, vs2, ph2, r2, m2, a2⟩ := send_at env hF hU1 a1 hpe1 hpc1 (by simp) ⟨_, _, Reply.pull _ pfs [] [] (by simp)⟩
    rw [← hc2] at s2 a2 T2
    rw [CM.bind_ok s2]
    obtain ⟨b1, b2, b3⟩ := a2
    obtain ⟨g, k1, k2⟩ := consume_reads env (reset := reset env W (fuel + 1)) b1 (by rfl) b3
    rw [CM.bind_ok (show consume env W (fuel + 1) c2 = _ from k1)]
    show Idle env phase c.proto lo (rowsLoop (consumeWith env (reset env W (fuel + 1))) (streamLen g + 1) [] (c2.got [successV md] g)).2 ∧
      Talked env W c.proto.codec c (rowsLoop (consumeWith env (reset env W (fuel + 1))) (streamLen g + 1) [] (c2.got [successV md] g)).2
    obtain ⟨recs, m', _, hh⟩ := r2.pull_inv _ rfl pfs rfl
    rcases hh with ⟨rfl, rfl⟩ | ⟨rfl, rfl⟩
    · obtain ⟨rows, v, rfl, m3, _⟩ := means_records env m2
      obtain ⟨md2, hv⟩ := means_one_success env m3
      cases hv
      have k3 : Reads env c2.proto.codec (rows.map recordV ++ [successV md2]) g.flatten [] := k2
      have hlen := Reads.length env k3
      obtain ⟨g', j1, j2⟩ := rowsLoop_reads env (reset := reset env W (fuel + 1)) rows (streamLen g + 1) [] (c2.got [successV md] g) md2 [] [] b1 (by
        rw [streamLen_eq]
        simp only [List.length_append, List.length_map, List.length_cons, List.length_nil] at hlen
        omega) k2
      rw [j1, got_got]
      have T3 : Talked env W c.proto.codec c2 (c2.got ([successV md] ++ (rows.map recordV ++ [successV md2])) g') := by
        refine Talked.got env W ?_
        rw [show g'.flatten = [] from j2, ← hp2]; exact b3
      exact ⟨⟨hp2, .inr ⟨by show _ ≤ c2.chunkSize; omega, by show c2.chunkSize ≤ _; omega, b1, b2, j2⟩⟩, T1.trans env W (T2.trans env W T3)⟩
    · obtain ⟨rows, v, rfl, m3, _⟩ := means_records env m2
      obtain ⟨md2, hv⟩ := means_one_failure env m3
      cases hv
      have k3 : Reads env c2.proto.codec (rows.map recordV ++ [failureV md2]) g.flatten [] := k2
      have hlen := Reads.length env k3
      obtain ⟨g', j2, j1⟩ := rowsLoop_failure env (reset := reset env W (fuel + 1)) rows (streamLen g + 1) [] (c2.got [successV md] g) md2 [] [] b1 (by
        rw [streamLen_eq]
        simp only [List.length_append, List.length_map, List.length_cons, List.length_nil] at hlen
        omega) k2
      rw [got_got] at j1
      have T3 : Talked env W c.proto.codec c2 (c2.got ([successV md] ++ (rows.map recordV ++ [failureV md2])) g') := by
        refine Talked.got env W ?_
        rw [show g'.flatten = [] from j2, ← hp2]; exact b3
      rw [show rowsLoop (consumeWith env (reset env W (fuel + 1))) (streamLen g + 1) [] (c2.got [successV md] g) =
        failTail (reset env W (fuel + 1)) md2 _ from j1]
      have := failTail_idle (α := List (List Val) × Entries) env c.proto hF hlo hU fuel 0 md2
        (c := c2.got ([successV md] ++ (rows.map recordV ++ [failureV md2])) g') hp2
        ⟨by show _ ≤ c2.chunkSize; omega, by show c2.chunkSize ≤ _; omega⟩ ⟨b1, b2, j2⟩
      exact ⟨this.1, T1.trans env W (T2.trans env W (T3.trans env W this.2))⟩
  · obtain ⟨md, rfl⟩ := means_one_failure env m1
    obtain ⟨s2, ts2, vs2, ph2, r2, m2, a2⟩ := send_at env hF hU1 a1 hpe1 hpc1 (by simp) ⟨_, _, Reply.ignored _ pfs (by decide)⟩
    rw [← hc2] at s2 a2 T2
    rw [CM.bind_ok s2]
    obtain ⟨b1, b2, b3⟩ := a2
    obtain ⟨rfl, rfl⟩ := r2.pull_failed rfl pfs rfl
    have := means_one_ignored env m2
    subst this
    obtain ⟨t, u1, u2⟩ := Reads.split env (vs := [failureV md]) (ws := [ignoredV]) b3
    obtain ⟨g, k2, k1⟩ := consume_failure env (reset := reset env W (fuel + 1)) b1 u1
    have T3 : Talked env W c.proto.codec c2 (c2.got [failureV md] g) := by
      refine Talked.got env W ?_
      rw [show g.flatten = t from k2, ← hp2]; exact u1
    rw [failTail_bind (show consume env W (fuel + 1) c2 = failTail (reset env W (fuel + 1)) md _ from k1)]
    have := failTail_idle (α := List (List Val) × Entries) env c.proto hF hlo hU fuel 1 md (c := c2.got [failureV md] g) hp2
      ⟨by show _ ≤ c2.chunkSize; omega, by show c2.chunkSize ≤ _; omega⟩ ⟨b1, b2, by rw [← show g.flatten = t from k2] at u2; exact u2⟩
    exact ⟨this.1, T1.trans env W (T2.trans env W (T3.trans env W this.2))⟩

end
end Verif

/-
C35  Requests and responses stay aligned across failures.
-/
import Verif.Proofs.Aligned
import Verif.Proofs.Parse
import Verif.Spec.Scripted
namespace Verif
open Spec

/-- Calls whose requests are correctly framed when the chunk size is at least `lo` (C07): supported parameters, no string longer than `lo`; the chunk size is not
set below `lo`. -/
def Op.Fine (env : Env) (ver : Ver) (lo : Nat) : Op → Prop
  | .query q ps db => ∃ pt, Sendable env ver lo q ps db pt
  | .exec q ps db => ∃ pt, Sendable env ver lo q ps db pt
  | .txQuery _ q ps db => ∃ pt, Sendable env ver lo q ps db pt
  | .txExec _ q ps => ∃ pt, Sendable env ver lo q ps [] pt
  | .txExecDb _ q ps db => ∃ pt, Sendable env ver lo q ps db pt
  | .begin_ db => db.length ≤ lo
  | .setChunkSize n => lo ≤ n.toNat
  | _ => True

mutual
theorem Val.All.mono {P Q : Val → Prop} (h : ∀ v, P v → Q v) : (v : Val) → v.All P → v.All Q
  | .list _ vs, hv => by
    simp only [Val.All] at hv ⊢
    exact ⟨h _ hv.1, AllList.mono h vs hv.2⟩
  | .map es, hv => by
    simp only [Val.All] at hv ⊢
    exact ⟨h _ hv.1, AllEntries.mono h es hv.2⟩
  | .struct _ vs, hv => by
    simp only [Val.All] at hv ⊢
    exact ⟨h _ hv.1, AllList.mono h vs hv.2⟩
  | .nil, hv => h _ hv
  | .bool _, hv => h _ hv
  | .int _ _, hv => h _ hv
  | .float64 _, hv => h _ hv
  | .float32 _, hv => h _ hv
  | .str _, hv => h _ hv
  | .date _, hv => h _ hv
  | .clock _ _, hv => h _ hv
  | .localClock _, hv => h _ hv
  | .localTime _ _, hv => h _ hv
  | .time _ _ _, hv => h _ hv
  | .duration _, hv => h _ hv
  | .other, hv => h _ hv

theorem AllList.mono {P Q : Val → Prop} (h : ∀ v, P v → Q v) : (vs : List Val) → AllList P vs → AllList Q vs
  | [], _ => trivial
  | v :: vs, hv => ⟨Val.All.mono h v hv.1, AllList.mono h vs hv.2⟩

theorem AllEntries.mono {P Q : Val → Prop} (h : ∀ v, P v → Q v) : (es : Entries) → AllEntries P es → AllEntries Q es
  | [], _ => trivial
  | (_, v) :: es, hv => ⟨Val.All.mono h v hv.1, AllEntries.mono h es hv.2⟩
end

theorem Sendable.mono {env : Env} {ver : Ver} {lo cs : Nat} {q : Bytes} {ps : Entries} {db : Bytes} {pt : PS} (h : Sendable env ver lo q ps db pt)
    (h1 : lo ≤ cs) (h2 : cs ≤ 65535) : Sendable env ver cs q ps db pt := by
  refine ⟨Nat.le_trans h.low h1, h2, Nat.le_trans h.query h1, Nat.le_trans h.db h1, h.params, h.fits, ?_⟩
  refine Val.All.mono (fun v hv => ?_) _ h.strings
  cases v <;> simp only [strAtMost] at hv ⊢
  · omega
  · intro e he; exact Nat.le_trans (hv e he) h1

theorem begin_enc (env : Env) (ver : Ver) (db : Bytes) (mode : AccessMode) (hl : db.length ≤ 65535) :
    (encode env ver (newBeginMessage (buildTxMetadataWithDatabase none [] db mode))).2 = none := by
  rw [buildTx_eq]
  unfold newBeginMessage
  by_cases hm : mode = 0 <;> by_cases hd : db = [] <;> simp [hm, hd, encode, encodeFields, encodeEntries, wrapField, Enc.seq, Enc.ok, StructKind.isStructure,
    structHeader, mapHeader, encodeString, ascii] <;> (repeat' split) <;> simp_all <;> omega

section
variable {σ : Type} (env : Env) {W : World σ} {phase : σ → Phase} (hF : Follows W phase) (p : Proto) {lo : Nat} (hlo : 8 ≤ lo) (hU : Understood env p.codec W)
include hF hlo hU

theorem endWith_kept (fuel h : Nat) {m : Proto → Val} {verb : Bytes} {sig : UInt8} {km : Val} (hv : verb ∈ controlVerbs) (hsig : sig ∈ [0x11, 0x12, 0x13])
    (hm : m = fun p => match p with | .v1 | .v2 => newRunMessage verb [] | .v3 | .v4 => km) (hk : isTxMsg km = true)
    (he : ∀ ver, (encode env ver km).2 = none) (hc : ∀ ver cs, 1 ≤ cs → cs ≤ 65535 → Carries (.struct sig []) (encodeMsg env ver cs km).1)
    (what : String) {c : Conn σ} (hi : Idle env phase p lo c) :
    Kept env p W phase lo (endWith env W (consume env W (fuel + 1)) m what h) c := by
  obtain ⟨hp, hd | ⟨hcs1, hcs2, ha⟩⟩ := hi
  · have P := dead_prim env p hF
    have := P.endWith env W (P.consume env W (fuel + 1)) m what h c hp hd
    exact ⟨⟨this.1.1, .inl this.1.2⟩, this.2⟩
  · unfold Kept
    rw [endWith_apply]
    split
    · exact ⟨⟨hp, .inr ⟨hcs1, hcs2, ha⟩⟩, Talked.refl env W _ c⟩
    · refine Kept.bind env p (txExchange_kept env p hF hlo hU fuel what hp ⟨hcs1, hcs2⟩ ha ?_ ?_) ?_
      · rw [hm]
        cases c.proto
        · exact enc_ok env (by simp only [controlVerbs, List.mem_cons, List.not_mem_nil, or_false] at hv; rcases hv with rfl | rfl | rfl <;> rfl)
        · exact enc_ok env (by simp only [controlVerbs, List.mem_cons, List.not_mem_nil, or_false] at hv; rcases hv with rfl | rfl | rfl <;> rfl)
        · exact enc_ok env (he _)
        · exact enc_ok env (he _)
      · rw [hm]
        cases c.proto
        · exact .inr ⟨rfl, verb, hv, _, carries_runVerb env _ (by omega) (by omega) verb hv⟩
        · exact .inr ⟨rfl, verb, hv, _, carries_runVerb env _ (by omega) (by omega) verb hv⟩
        · exact .inl ⟨hk, sig, [], hsig, hc _ _ (by omega) (by omega)⟩
        · exact .inl ⟨hk, sig, [], hsig, hc _ _ (by omega) (by omega)⟩
      · intro _ c1 _ h1
        exact ⟨⟨h1.1, h1.2⟩, Talked.same env W rfl rfl rfl⟩

theorem rollback_kept (fuel h : Nat) {c : Conn σ} (hi : Idle env phase p lo c) : Kept env p W phase lo (rollback env W (fuel + 1) h) c :=
  endWith_kept env hF p hlo hU fuel h (verb := ascii "ROLLBACK") (sig := 0x13) (km := newRollbackMessage) (by simp [controlVerbs]) (by simp)
    (by funext p; cases p <;> rfl) rfl (fun ver => by cases ver <;> rfl) (fun ver cs h1 h2 => carries_rollback env ver h1 h2) _ hi

theorem commit_kept (fuel h : Nat) {c : Conn σ} (hi : Idle env phase p lo c) : Kept env p W phase lo (commit env W (fuel + 1) h) c :=
  endWith_kept env hF p hlo hU fuel h (verb := ascii "COMMIT") (sig := 0x12) (km := newCommitMessage) (by simp [controlVerbs]) (by simp)
    (by funext p; cases p <;> rfl) rfl (fun ver => by cases ver <;> rfl) (fun ver cs h1 h2 => carries_commit env ver h1 h2) _ hi

theorem endCur_kept (fuel : Nat) {c : Conn σ} (hi : Idle env phase p lo c) : Kept env p W phase lo (endCur (rollback env W (fuel + 1))) c := by
  unfold Kept
  rw [endCur_apply]
  cases c.cur with
  | none => exact ⟨hi, Talked.refl env W _ c⟩
  | some h => exact rollback_kept env hF p hlo hU fuel h hi

theorem goodbye_kept {c : Conn σ} (hi : Idle env phase p lo c) : Kept env p W phase lo (goodbye env W) c := by
  have P := dead_prim env p hF
  have hsock : ∀ c1 : Conn σ, c1.proto = p → c1.segs.flatten = [] → Kept env p W phase lo (closeSock W) c1 := by
    intro c1 h1 h2
    have key : ∀ c' : Conn σ, c' = { c1 with sock := false, closed := true, trace := c1.trace ++ [.closed] } →
        Idle env phase p lo c' ∧ Talked env W p.codec c1 c' := by
      rintro c' rfl
      exact ⟨⟨h1, .inl ⟨.inl rfl, h2⟩⟩, [.closed], rfl, rfl, by simp [Reads, recvs, sents, feed]⟩
    unfold Kept closeSock
    dsimp only
    split <;> exact key _ rfl
  obtain ⟨hp, hd | ⟨hcs1, hcs2, ha⟩⟩ := hi
  · unfold Kept
    rw [goodbye_apply]
    split
    · have := Steps.bind P.toStepRel (P.send newGoodbyeMessage) (fun _ => P.sock) c hp hd
      rename_i m hm
      have hmm : m = newGoodbyeMessage := by cases hcp : c.proto <;> rw [hcp] at hm <;> cases hm <;> rfl
      subst hmm
      exact ⟨⟨this.1.1, .inl this.1.2⟩, this.2⟩
    · exact hsock c hp hd.2
  · unfold Kept
    rw [goodbye_apply]
    split
    · rename_i m hm
      have hmm : m = newGoodbyeMessage := by cases hcp : c.proto <;> rw [hcp] at hm <;> cases hm <;> rfl
      subst hmm
      subst hp
      obtain ⟨s1, ts, vs, ph', r1, m1, a1, a2, a3⟩ := send_at env hF hU ha (v := newGoodbyeMessage) (enc_ok env (by cases c.proto <;> rfl))
        (carries_goodbye env c.proto.codec (by omega) hcs2) (by simp) ⟨_, _, Reply.goodbye .ready (by simp) (by simp)⟩
      have hnil : (c.sent env W newGoodbyeMessage).segs.flatten = [] := by
        have : ts = [] := by
          generalize ht : PS.struct 0x02 [] = t at r1
          generalize hph : Phase.ready = ph at r1
          cases r1 <;> simp_all
          rename_i hs; obtain ⟨rfl, _⟩ := ht; exact absurd hs (by decide)
          rename_i hs; obtain ⟨rfl, _⟩ := ht; exact absurd hs (by decide)
        subst this
        cases vs with
        | nil => exact a3
        | cons _ _ => exact absurd m1 (by simp [Means])
      rw [CM.bind_ok s1]
      have := hsock (c.sent env W newGoodbyeMessage) rfl hnil
      exact ⟨this.1, (Talked.sent env W _ c _).trans env W this.2⟩
    · exact hsock c hp ha.2.2

theorem close_kept (fuel : Nat) {c : Conn σ} (hi : Idle env phase p lo c) : Kept env p W phase lo (close env W (fuel + 1)) c := by
  unfold Kept close
  rw [closeWith_apply]
  split
  · exact ⟨hi, Talked.refl env W _ c⟩
  · exact Kept.bind env p (endCur_kept env hF p hlo hU fuel hi) fun _ c1 _ h1 => goodbye_kept env hF p hlo hU h1

theorem query_kept (fuel : Nat) {q : Bytes} {ps : Entries} {db : Bytes} {pt : PS} {inTx : Bool} {c : Conn σ} (hi : Idle env phase p lo c)
    (hq : Sendable env p.codec lo q ps db pt) : Kept env p W phase lo (runQuery env W (fuel + 1) q ps db inTx) c := by
  obtain ⟨hp, hd | ⟨hcs1, hcs2, ha⟩⟩ := hi
  · have := (dead_prim env p hF).runQuery env W (fuel + 1) q ps db inTx c hp hd
    exact ⟨⟨this.1.1, .inl this.1.2⟩, this.2⟩
  · exact runQuery_kept env p hF hlo hU fuel hp ⟨hcs1, hcs2⟩ ha (hq.mono hcs1 hcs2)

theorem begin_kept (fuel : Nat) {db : Bytes} {c : Conn σ} (hi : Idle env phase p lo c) (hdb : db.length ≤ lo) :
    Kept env p W phase lo (beginWithDatabase env W (fuel + 1) db) c := by
  obtain ⟨hp, hd | ⟨hcs1, hcs2, ha⟩⟩ := hi
  · have := (dead_prim env p hF).begin env W (fuel + 1) db c hp hd
    exact ⟨⟨this.1.1, .inl this.1.2⟩, this.2⟩
  · have hself : Idle env phase p lo c := ⟨hp, .inr ⟨hcs1, hcs2, ha⟩⟩
    unfold Kept
    rw [begin_apply]
    split
    · exact ⟨hself, Talked.refl env W _ c⟩
    · split
      · exact ⟨hself, Talked.refl env W _ c⟩
      · refine Kept.bind env p (txExchange_kept env p hF hlo hU fuel _ hp ⟨hcs1, hcs2⟩ ha ?_ ?_) ?_
        · cases c.proto
          · exact enc_ok env rfl
          · exact enc_ok env rfl
          · exact enc_ok env (begin_enc env _ db c.mode (by omega))
          · exact enc_ok env (begin_enc env _ db c.mode (by omega))
        · cases c.proto
          · exact .inr ⟨rfl, ascii "BEGIN", by simp [controlVerbs], _, carries_runVerb env _ (by omega) (by omega) _ (by simp)⟩
          · exact .inr ⟨rfl, ascii "BEGIN", by simp [controlVerbs], _, carries_runVerb env _ (by omega) (by omega) _ (by simp)⟩
          · exact .inl ⟨rfl, 0x11, _, by simp, carries_begin env _ (by omega) (by omega) db c.mode (by omega)⟩
          · exact .inl ⟨rfl, 0x11, _, by simp, carries_begin env _ (by omega) (by omega) db c.mode (by omega)⟩
        · intro _ c1 _ h1
          exact ⟨⟨h1.1, h1.2⟩, Talked.same env W rfl rfl rfl⟩

theorem checkDb_kept (db : Bytes) {c : Conn σ} (hi : Idle env phase p lo c) : Kept env p W phase lo (checkDb db) c := by
  unfold Kept
  rw [checkDb_snd]
  exact ⟨hi, Talked.refl env W _ c⟩

theorem pure_kept {α : Type} (a : α) {c : Conn σ} (hi : Idle env phase p lo c) : Kept env p W phase lo (Pure.pure a) c := ⟨hi, Talked.refl env W _ c⟩

theorem step_kept (fuel : Nat) {op : Op} (hop : op.Fine env p.codec lo) {c : Conn σ} (hi : Idle env phase p lo c) :
    Kept env p W phase lo (step env W (fuel + 1) op) c := by
  have hv : ∀ {α : Type} {m : CM σ α}, Kept env p W phase lo m c → Kept env p W phase lo m.void c := fun h =>
    Kept.bind env p h fun _ _ _ h1 => pure_kept env hF p hlo hU _ h1
  cases op with
  | query q ps db =>
    obtain ⟨pt, hq⟩ := hop
    exact hv (Kept.bind env p (checkDb_kept env hF p hlo hU db hi) fun _ _ _ h1 => query_kept env hF p hlo hU fuel h1 hq)
  | exec q ps db =>
    obtain ⟨pt, hq⟩ := hop
    exact hv (Kept.bind env p (checkDb_kept env hF p hlo hU db hi) fun _ _ _ h1 =>
      Kept.bind env p (query_kept env hF p hlo hU fuel h1 hq) fun _ _ _ h2 => pure_kept env hF p hlo hU _ h2)
  | begin_ db => exact hv (begin_kept env hF p hlo hU fuel hi hop)
  | commit h => exact commit_kept env hF p hlo hU fuel h hi
  | rollback h => exact rollback_kept env hF p hlo hU fuel h hi
  | txQuery h q ps db =>
    obtain ⟨pt, hq⟩ := hop
    exact hv (Kept.bind env p (checkDb_kept env hF p hlo hU db hi) fun _ _ _ h1 => query_kept env hF p hlo hU fuel h1 hq)
  | txExec h q ps =>
    obtain ⟨pt, hq⟩ := hop
    exact hv (Kept.bind env p (checkDb_kept env hF p hlo hU [] hi) fun _ _ _ h1 =>
      Kept.bind env p (query_kept env hF p hlo hU fuel h1 hq) fun _ _ _ h2 => pure_kept env hF p hlo hU _ h2)
  | txExecDb h q ps db =>
    obtain ⟨pt, hq⟩ := hop
    exact hv (Kept.bind env p (checkDb_kept env hF p hlo hU db hi) fun _ _ _ h1 =>
      Kept.bind env p (query_kept env hF p hlo hU fuel h1 hq) fun _ _ _ h2 => pure_kept env hF p hlo hU _ h2)
  | close => exact close_kept env hF p hlo hU fuel hi
  | makeIdle => exact endCur_kept env hF p hlo hU fuel hi
  | validateOpen =>
    have hs : c.segs.flatten = [] := by
      rcases hi.2 with h | h
      · exact h.2
      · exact h.2.2.2.2
    refine hv ?_
    unfold Kept validateOpen
    split
    · exact ⟨hi, Talked.refl env W _ c⟩
    · split
      · exact ⟨hi, Talked.refl env W _ c⟩
      · exact ⟨hi, Talked.refl env W _ c⟩
      · rw [readOnce_none.mpr hs]
        exact ⟨hi, Talked.refl env W _ c⟩
  | setChunkSize n =>
    refine ⟨⟨hi.1, ?_⟩, Talked.same env W rfl rfl rfl⟩
    have := n.toNat_lt
    rcases hi.2 with h | h
    · exact .inl h
    · exact .inr ⟨hop, by show n.toNat ≤ _; omega, h.2.2⟩

theorem run_idle (fuel : Nat) : (ops : List Op) → (∀ op ∈ ops, op.Fine env p.codec lo) → (c : Conn σ) → Idle env phase p lo c →
    Idle env phase p lo (run env W (fuel + 1) ops c)
  | [], _, c, hi => hi
  | op :: ops, hops, c, hi => by
    exact run_idle fuel ops (fun o ho => hops o (List.mem_cons_of_mem _ ho)) _ (step_kept env hF p hlo hU fuel (hops op List.mem_cons_self) hi).1

end

section
variable {σ : Type} (env : Env) {W : World σ} {phase : σ → Phase}

theorem Idle.nil {p : Proto} {lo : Nat} {c : Conn σ} (h : Idle env phase p lo c) : c.segs.flatten = [] := by
  rcases h.2 with h | h
  · exact h.2
  · exact h.2.2.2.2

/-- A connection that was successfully created is ready, and nothing is unread. -/
theorem create_idle (hF : Follows W phase) {fuel : Nat} {user password : Bytes} (hu : user.length ≤ 65535) (hpw : password.length ≤ 65535) {w : σ} {c : Conn σ}
    (h : createBoltConn env W fuel user password w = (.ok (), c)) (hU : Understood env c.proto.codec W) {lo : Nat} (hlo : 8 ≤ lo) (hlo' : lo ≤ 65535) :
    Idle env phase c.proto lo c := by
  have hd : (W.dial w).2 = true := by
    cases hx : (W.dial w).2 with
    | true => rfl
    | false => obtain ⟨⟨e, he⟩, _⟩ := C28_dial_fails env W fuel user password w hx; rw [h] at he; cases he
  rcases handshake_cases env W fuel user password w hd with ⟨n, p, segs', h1, h2, h3, h4⟩ | ⟨_, ⟨e, he⟩, _⟩
  · rw [h4] at h
    obtain ⟨g1, g2⟩ := hF.greet w preamble rfl rfl
    obtain ⟨_, _, hfl⟩ := readOnce_some (by omega) h3
    have hnil : segs'.flatten = [] := by
      have := congrArg List.length hfl
      rw [show (firstAnswer W w).segs.flatten.length = 4 from g2] at this
      rw [List.length_append] at this
      exact List.length_eq_zero_iff.mp (by simp only [List.length_cons, List.length_nil] at this; omega)
    have hpr : c.proto = p := by
      have := ((sameProto env W).sendInit env W fuel (p.initMessage clientID (buildAuthTokenBasic user password)) (afterHandshake W w segs' p)).1
      rw [h] at this; exact this
    have hat : At env phase .connected [] (afterHandshake W w segs' p) := ⟨rfl, g1, hnil⟩
    obtain ⟨e1, b, e2, e3⟩ := init_sent env p hu hpw
    have hc : ∃ fs, Carries (.struct 0x01 fs) (encodeMsg env p.codec 65535 (p.initMessage clientID (buildAuthTokenBasic user password))).1 := by
      cases p
      · obtain ⟨es, _, h⟩ := e3; exact ⟨_, b, e2, h⟩
      · obtain ⟨es, _, h⟩ := e3; exact ⟨_, b, e2, h⟩
      · obtain ⟨es, _, h⟩ := e3; exact ⟨_, b, e2, h⟩
      · obtain ⟨es, _, h⟩ := e3; exact ⟨_, b, e2, h⟩
    obtain ⟨fs, hc⟩ := hc
    rw [hpr] at hU
    obtain ⟨s1, ts, vs, ph', r1, m1, a1, a2, a3⟩ := send_at env hF (c := afterHandshake W w segs' p) hU hat e1 hc (by simp) ⟨_, _, Reply.init fs []⟩
    unfold sendInit at h
    rw [CM.bind_ok s1] at h
    have hr : (∃ m, ts = [Spec.success m] ∧ ph' = .ready) ∨ (∃ m, ts = [Spec.failure m] ∧ ph' = .failed) := by
      generalize ht : PS.struct 0x01 fs = t at r1
      generalize hph : Phase.connected = ph at r1
      cases r1 <;> simp_all <;> exact ⟨_, rfl⟩
    rcases hr with ⟨m, rfl, rfl⟩ | ⟨m, rfl, rfl⟩
    · obtain ⟨md, rfl⟩ := means_one_success env m1
      obtain ⟨g, k1, k2⟩ := consume_reads env (reset := reset env W fuel) a1 (by rfl) a3
      rw [CM.bind_ok (show consume env W fuel _ = _ from k1)] at h
      replace h : (CRes.ok (), _) = (CRes.ok (), c) := h
      cases h
      exact ⟨rfl, .inr ⟨hlo', Nat.le_refl _, a1, a2, k2⟩⟩
    · obtain ⟨md, rfl⟩ := means_one_failure env m1
      obtain ⟨g, k2, k1⟩ := consume_failure env (reset := reset env W fuel) a1 a3
      rw [failTail_bind (show consume env W fuel _ = failTail (reset env W fuel) md _ from k1), failTail_apply] at h
      match hx : reset env W fuel ((Conn.sent env W (afterHandshake W w segs' p) (p.initMessage clientID (buildAuthTokenBasic user password))).got [failureV md] g) with
      | (.ok _, _) => rw [hx] at h; cases h
      | (.err _, _) => rw [hx] at h; cases h
      | (.panic, _) => rw [hx] at h; cases h
      | (.fuel, _) => rw [hx] at h; cases h
  · rw [h] at he; cases he

/-- The claim for one history: whatever each call returned, nothing is unread before and after the call, and the messages it read are exactly the server's
answers to the messages it wrote, in order. -/
def AlignedRun (W : World σ) (fuel : Nat) (ops : List Op) (c0 : Conn σ) : Prop :=
  ∀ before op after, ops = before ++ op :: after →
    let c := run env W fuel before c0
    let c' := (step env W fuel op c).2
    c.segs.flatten = [] ∧ c'.segs.flatten = [] ∧
      ∃ evs, c'.trace = c.trace ++ evs ∧ Reads env c0.proto.codec (recvs evs) (feed W c.world (sents evs)).2 []

/-- Full statement: for every server that follows the protocol, and every history of calls with supported parameters. -/
def C35_statement : Prop := ∀ (σ : Type) (env : Env) (W : World σ) (phase : σ → Phase) (fuel : Nat) (user password : Bytes) (w : σ) (c : Conn σ) (ops : List Op),
  Follows W phase → user.length ≤ 65535 → password.length ≤ 65535 → createBoltConn env W (fuel + 1) user password w = (.ok (), c) →
  (∀ op ∈ ops, op.Fine env c.proto.codec 8) → AlignedRun env W (fuel + 1) ops c

/-- True if the server's answers can be decoded.  Missing from the full statement: answers with values that the codec cannot read. -/
theorem C35_aligned_partial (hF : Follows W phase) {fuel : Nat} {user password : Bytes} (hu : user.length ≤ 65535) (hpw : password.length ≤ 65535) {w : σ} {c : Conn σ}
    (h : createBoltConn env W (fuel + 1) user password w = (.ok (), c)) (hU : Understood env c.proto.codec W) {lo : Nat} (hlo : 8 ≤ lo) (hlo' : lo ≤ 65535)
    {ops : List Op} (hops : ∀ op ∈ ops, op.Fine env c.proto.codec lo) : AlignedRun env W (fuel + 1) ops c := by
  intro before op after hsplit
  have hi := create_idle env hF hu hpw h hU hlo hlo'
  have h1 := run_idle env hF c.proto hlo hU fuel before (fun o ho => hops o (by rw [hsplit]; simp [ho])) c hi
  have h2 := step_kept env hF c.proto hlo hU fuel (hops op (by rw [hsplit]; simp)) h1
  obtain ⟨h3, evs, t1, t2, t3⟩ := h2
  have n1 := Idle.nil env h1
  have n2 := Idle.nil env h3
  refine ⟨n1, n2, evs, t1, ?_⟩
  rw [n1, n2, List.nil_append] at t3
  exact t3

end

/-! ### A concrete server -/

/-- The request that was written, if it is a message. -/
def requestOf (ws : List Bytes) : Option PS :=
  match readMsg .eof [ws.flatten] with
  | .ok p _ => (parse p.length p).map (·.1)
  | .err _ _ => none

theorem requestOf_carries {t : PS} {ws : List Bytes} (h : Carries t ws) : requestOf ws = some t := by
  obtain ⟨p, h1, h2⟩ := h
  obtain ⟨_, g1, _⟩ := readMsg_framed h1 .eof (segs := [ws.flatten]) (rest := []) (by simp)
  have := parse_enc full t p h2 p.length (Nat.le_refl _) []
  rw [List.append_nil] at this
  unfold requestOf
  rw [g1]
  simp [this]

/-- A server that answers queries with the messages in `recs` and SUCCESS, and fails the query "X". -/
def answerOf (recs : Bytes) : Phase → PS → Phase × Bytes
  | .connected, .struct 0x01 _ => (.ready, sSuccess.flatten)
  | .connected, .struct 0x02 [] => (.defunct, [])
  | .ready, .struct 0x10 (.str q :: _) => if q = ascii "X" then (.failed, sFailure.flatten) else (.streaming (q ∉ controlVerbs), sSuccess.flatten)
  | .ready, .struct 0x0F [] => (.ready, sSuccess.flatten)
  | .ready, .struct 0x02 [] => (.defunct, [])
  | .ready, .struct _ _ => (.ready, sSuccess.flatten)
  | .streaming rows, .struct 0x3F _ => (.ready, (if rows then recs else []) ++ sSuccess.flatten)
  | .streaming _, .struct 0x0F [] => (.ready, sSuccess.flatten)
  | .streaming _, .struct 0x02 [] => (.defunct, [])
  | .failed, .struct 0x0F [] => (.ready, sSuccess.flatten)
  | .failed, .struct 0x02 [] => (.defunct, [])
  | .failed, _ => (.failed, sIgnored.flatten)
  | ph, _ => (ph, [])

def server (recs : Bytes) : World Phase where
  dial _ := (.new, true)
  onSend ph ws :=
    if ph = .new then ⟨.connected, true, [[0, 0, 0, 4]], .broken⟩
    else if ph = .defunct then ⟨.defunct, true, [], .broken⟩
    else match requestOf ws with
      | some t => ⟨(answerOf recs ph t).1, true, [(answerOf recs ph t).2], .broken⟩
      | none => ⟨ph, true, [], .broken⟩
  onClose _ := true
  probe _ := .other

theorem sends_success : Sends [Spec.success []] sSuccess.flatten := by
  refine ⟨[0xB1, 0x70, 0xA0], sSuccess.flatten, [], by simp, ⟨[[0xB1, 0x70, 0xA0]], ?_, rfl, rfl⟩, ?_, rfl⟩
  · intro c hc; simp at hc; subst hc; simp
  · exact ⟨[0xB1], [0xA0], .inl ⟨by simp, rfl⟩, ⟨[0xA0], [], ⟨[0xA0], [], .inl ⟨by simp, rfl⟩, rfl, rfl⟩, rfl, rfl⟩, rfl⟩

theorem sends_failure : Sends [Spec.failure []] sFailure.flatten := by
  refine ⟨[0xB1, 0x7F, 0xA0], sFailure.flatten, [], by simp, ⟨[[0xB1, 0x7F, 0xA0]], ?_, rfl, rfl⟩, ?_, rfl⟩
  · intro c hc; simp at hc; subst hc; simp
  · exact ⟨[0xB1], [0xA0], .inl ⟨by simp, rfl⟩, ⟨[0xA0], [], ⟨[0xA0], [], .inl ⟨by simp, rfl⟩, rfl, rfl⟩, rfl, rfl⟩, rfl⟩

theorem sends_ignored : Sends [ignoredTree] sIgnored.flatten := by
  refine ⟨[0xB0, 0x7E], sIgnored.flatten, [], by simp, ⟨[[0xB0, 0x7E]], ?_, rfl, rfl⟩, ?_, rfl⟩
  · intro c hc; simp at hc; subst hc; simp
  · exact ⟨[0xB0], [], .inl ⟨by simp, rfl⟩, rfl, rfl⟩

theorem Spec.Sends.append : {ts us : List PS} → {s t : Bytes} → Sends ts s → Sends us t → Sends (ts ++ us) (s ++ t)
  | [], _, _, _, h1, h2 => by cases h1; exact h2
  | _ :: _, _, _, _, ⟨p, f, s', h1, h2, h3, h4⟩, h => ⟨p, f, s' ++ _, by rw [h1, List.append_assoc], h2, h3, Spec.Sends.append h4 h⟩

theorem server_reply {recs : Bytes} {rs : List (List PS)} (hr : Sends (rs.map Spec.record) recs) {ph ph' : Phase} {t : PS} {ts : List PS}
    (h : Reply ph t ts ph') : ∃ ts, Reply ph t ts (answerOf recs ph t).1 ∧ Sends ts (answerOf recs ph t).2 := by
  cases h with
  | init fs m => exact ⟨_, Reply.init fs [], sends_success⟩
  | initFailure fs m => exact ⟨_, Reply.init fs [], sends_success⟩
  | run q fs m =>
    simp only [answerOf]
    split
    · exact ⟨_, Reply.runFailure q fs [], sends_failure⟩
    · exact ⟨_, Reply.run q fs [], sends_success⟩
  | runFailure q fs m =>
    simp only [answerOf]
    split
    · exact ⟨_, Reply.runFailure q fs [], sends_failure⟩
    · exact ⟨_, Reply.run q fs [], sends_success⟩
  | tx sig fs m hs =>
    have := hs
    simp only [List.mem_cons, List.not_mem_nil, or_false] at this
    rcases this with rfl | rfl | rfl <;> exact ⟨_, Reply.tx _ fs [] hs, sends_success⟩
  | txFailure sig fs m hs =>
    have := hs
    simp only [List.mem_cons, List.not_mem_nil, or_false] at this
    rcases this with rfl | rfl | rfl <;> exact ⟨_, Reply.tx _ fs [] hs, sends_success⟩
  | pull rows fs rs' m _ =>
    cases rows with
    | true => exact ⟨_, Reply.pull true fs rs [] (by simp), hr.append sends_success⟩
    | false => exact ⟨_, Reply.pull false fs [] [] (by simp), sends_success⟩
  | pullFailure rows fs rs' m _ =>
    cases rows with
    | true => exact ⟨_, Reply.pull true fs rs [] (by simp), hr.append sends_success⟩
    | false => exact ⟨_, Reply.pull false fs [] [] (by simp), sends_success⟩
  | ignored sig fs hs =>
    have h1 : sig ≠ 0x0F := fun h => hs (by simp [h])
    have h2 : sig ≠ 0x02 := fun h => hs (by simp [h])
    have : answerOf recs .failed (.struct sig fs) = (.failed, sIgnored.flatten) := by
      unfold answerOf
      split <;> simp_all
    rw [this]
    exact ⟨_, Reply.ignored sig fs hs, sends_ignored⟩
  | reset ph m h0 h1 h2 =>
    cases ph with
    | new => exact absurd rfl h0
    | connected => exact absurd rfl h1
    | defunct => exact absurd rfl h2
    | ready => exact ⟨_, Reply.reset _ [] h0 h1 h2, sends_success⟩
    | streaming r => exact ⟨_, Reply.reset _ [] h0 h1 h2, sends_success⟩
    | failed => exact ⟨_, Reply.reset _ [] h0 h1 h2, sends_success⟩
  | resetFailure ph m h0 h1 h2 =>
    cases ph with
    | new => exact absurd rfl h0
    | connected => exact absurd rfl h1
    | defunct => exact absurd rfl h2
    | ready => exact ⟨_, Reply.reset _ [] h0 h1 h2, sends_success⟩
    | streaming r => exact ⟨_, Reply.reset _ [] h0 h1 h2, sends_success⟩
    | failed => exact ⟨_, Reply.reset _ [] h0 h1 h2, sends_success⟩
  | goodbye ph h0 h1 =>
    cases ph with
    | new => exact absurd rfl h0
    | defunct => exact absurd rfl h1
    | connected => exact ⟨_, Reply.goodbye _ h0 h1, rfl⟩
    | ready => exact ⟨_, Reply.goodbye _ h0 h1, rfl⟩
    | streaming r => exact ⟨_, Reply.goodbye _ h0 h1, rfl⟩
    | failed => exact ⟨_, Reply.goodbye _ h0 h1, rfl⟩

theorem reply_not_new {ph ph' : Phase} {t : PS} {ts : List PS} (h : Reply ph t ts ph') : ph ≠ .new := by
  cases h <;> simp_all

/-- The server follows the protocol. -/
theorem server_follows {recs : Bytes} {rs : List (List PS)} (hr : Sends (rs.map Spec.record) recs) : Follows (server recs) id where
  reply w ws t hc hd hl := by
    obtain ⟨ts, ph, hl⟩ := hl
    obtain ⟨ts', h1, h2⟩ := server_reply hr hl
    have hn : w ≠ .new := reply_not_new hl
    have e : (server recs).onSend w ws = ⟨(answerOf recs w t).1, true, [(answerOf recs w t).2], .broken⟩ := by
      simp only [server, if_neg hn, if_neg (show w ≠ .defunct from hd), requestOf_carries hc]
    rw [e]
    exact ⟨rfl, ts', h1, by simpa using h2⟩
  silent w ws h := by
    have hw : w = .defunct := h
    subst hw
    exact ⟨rfl, rfl⟩
  greet w pre _ _ := ⟨rfl, rfl⟩

theorem sends_unique : {ts us : List PS} → {s : Bytes} → Sends ts s → Sends us s → ts = us
  | [], [], _, _, _ => rfl
  | [], _ :: _, _, h, ⟨p, f, s', h1, h2, _, _⟩ => by
    have := framed_length h2
    cases h
    have := congrArg List.length h1
    simp at this; omega
  | _ :: _, [], _, ⟨p, f, s', h1, h2, _, _⟩, h => by
    have := framed_length h2
    cases h
    have := congrArg List.length h1
    simp at this; omega
  | t :: ts, u :: us, s, ⟨p, f, s', h1, h2, h3, h4⟩, ⟨p', f', s'', h1', h2', h3', h4'⟩ => by
    obtain ⟨g, g1, g2⟩ := readMsg_framed h2 .eof (segs := [s]) (rest := s') (by simpa using h1)
    obtain ⟨g', g1', g2'⟩ := readMsg_framed h2' .eof (segs := [s]) (rest := s'') (by simpa using h1')
    rw [g1] at g1'
    cases g1'
    rw [g2] at g2'
    subst g2'
    rw [(Enc_unique h3 h3' (r := []) (r' := []) rfl).1, sends_unique h4 h4']

/-- Answers that the codec can read. -/
def Readable (env : Env) (ver : Ver) (s : Bytes) : Prop := ∃ ts, Sends ts s ∧ Answers ts s [] ∧ ∃ vs, Means env ver ts vs

theorem server_understood (env : Env) (ver : Ver) {recs : Bytes} (hr : Readable env ver (recs ++ sSuccess.flatten)) : Understood env ver (server recs) := by
  have hs : Readable env ver sSuccess.flatten := by
    refine ⟨_, sends_success, ⟨[0xB1, 0x70, 0xA0], sSuccess.flatten, [], by simp, ⟨[[0xB1, 0x70, 0xA0]], ?_, rfl, rfl⟩, ?_, rfl⟩, [successV []], rfl, trivial⟩
    · intro c hc; simp at hc; subst hc; simp
    · exact ⟨[0xB1], [0xA0], .inl ⟨by simp, rfl⟩, ⟨[0xA0], [], ⟨[0xA0], [], .inl ⟨by simp, rfl⟩, rfl, rfl⟩, rfl, rfl⟩, rfl⟩
  have hf : Readable env ver sFailure.flatten := by
    refine ⟨_, sends_failure, ⟨[0xB1, 0x7F, 0xA0], sFailure.flatten, [], by simp, ⟨[[0xB1, 0x7F, 0xA0]], ?_, rfl, rfl⟩, ?_, rfl⟩, [failureV []], rfl, trivial⟩
    · intro c hc; simp at hc; subst hc; simp
    · exact ⟨[0xB1], [0xA0], .inl ⟨by simp, rfl⟩, ⟨[0xA0], [], ⟨[0xA0], [], .inl ⟨by simp, rfl⟩, rfl, rfl⟩, rfl, rfl⟩, rfl⟩
  have hi : Readable env ver sIgnored.flatten := by
    refine ⟨_, sends_ignored, ⟨[0xB0, 0x7E], sIgnored.flatten, [], by simp, ⟨[[0xB0, 0x7E]], ?_, rfl, rfl⟩, ?_, rfl⟩, [ignoredV], rfl, trivial⟩
    · intro c hc; simp at hc; subst hc; simp
    · exact ⟨[0xB0], [], .inl ⟨by simp, rfl⟩, rfl, rfl⟩
  have hn : Readable env ver [] := ⟨[], rfl, rfl, [], trivial⟩
  have key : ∀ {s ts}, Readable env ver s → Sends ts s → Answers ts s [] ∧ ∃ vs, Means env ver ts vs := by
    rintro s ts ⟨ts', g1, g2, g3⟩ h
    rw [sends_unique h g1]
    exact ⟨g2, g3⟩
  intro w ws ts h
  by_cases h1 : w = .new
  · subst h1
    exfalso
    cases ts with
    | nil => cases h
    | cons t ts =>
      obtain ⟨p, f, s', k1, k2, k3, _⟩ := h
      obtain ⟨g, g1, _⟩ := readMsg_framed k2 .eof (segs := [[0, 0, 0, 4]]) (rest := s') (by simpa [server] using k1)
      have : readMsg .eof [[0, 0, 0, 4]] = .ok [] [[0, 4]] := by rfl
      rw [this] at g1
      cases g1
      have := Enc_length_pos k3
      simp at this
  · by_cases h2 : w = .defunct
    · subst h2; exact key hn h
    · have e : (server recs).onSend w ws = match requestOf ws with
          | some t => ⟨(answerOf recs w t).1, true, [(answerOf recs w t).2], .broken⟩
          | none => ⟨w, true, [], .broken⟩ := by simp only [server, if_neg h1, if_neg h2]
      rw [e] at h
      revert h
      cases hq : requestOf ws with
      | none => intro h; rw [e, hq]; exact key hn h
      | some t =>
        intro h
        rw [e, hq]
        refine key ?_ h
        simp only [List.flatten_cons, List.flatten_nil, List.append_nil]
        unfold answerOf
        split
        all_goals first
          | exact hs
          | exact hn
          | exact hi
          | (split <;> first | exact hr | exact hs | exact hf)

/-- The codec cannot read a record that contains a structure with an unknown signature: RECORD [structure 0x09 with the field 1]. -/
def strangeRecord : Bytes := [0x00, 0x06, 0xB1, 0x71, 0x91, 0xB1, 0x09, 0x01, 0x00, 0x00]

theorem sends_strange : Sends ([[PS.struct 0x09 [.int 1]]].map Spec.record) strangeRecord := by
  refine ⟨[0xB1, 0x71, 0x91, 0xB1, 0x09, 0x01], strangeRecord, [], by simp, ⟨[[0xB1, 0x71, 0x91, 0xB1, 0x09, 0x01]], ?_, rfl, rfl⟩, ?_, rfl⟩
  · intro c hc; simp at hc; subst hc; simp
  · refine ⟨[0xB1], _, .inl ⟨by simp, rfl⟩, ⟨[0x91, 0xB1, 0x09, 0x01], [], ?_, rfl, rfl⟩, rfl⟩
    refine ⟨[0x91], [0xB1, 0x09, 0x01], .inl ⟨by simp, rfl⟩, ⟨[0xB1, 0x09, 0x01], [], ?_, rfl, rfl⟩, rfl⟩
    exact ⟨[0xB1], [0x01], .inl ⟨by simp, rfl⟩, ⟨[1], [], .inl ⟨by decide, by decide, 1, rfl, by decide⟩, rfl, rfl⟩, rfl⟩

/-- A connection to the concrete server. -/
def openedTo (recs : Bytes) : CRes Unit × Conn Phase := createBoltConn env0 (server recs) 2 [0x75] [0x70] .new

/-- The query `RETURN 1`. -/
def someQuery : Op := .query (ascii "RETURN 1") [] []

theorem someQuery_fine (ver : Ver) : someQuery.Fine env0 ver 8 := by
  refine ⟨.map [], by omega, by omega, by decide, by simp, by cases ver <;> rfl, by simp [PS.Fits, PS.FitsWith, FitsEntries], by simp [Val.All, AllEntries, strAtMost]⟩

/-- The full statement is false: after a query whose result contains a value that cannot be decoded, the rest of the answer is still unread. -/
theorem C35_refuted : ¬ C35_statement := by
  intro h
  have hk : (openedTo strangeRecord).1.kind = 0 := by decide +kernel
  have := h Phase env0 (server strangeRecord) id 1 [0x75] [0x70] .new (openedTo strangeRecord).2 [someQuery] (server_follows sends_strange) (by simp) (by simp)
    (CRes.kind_ok hk) (fun op ho => by rw [List.mem_singleton] at ho; subst ho; exact someQuery_fine _) [] someQuery [] rfl
  have h2 := this.2.1
  have : (step env0 (server strangeRecord) (1 + 1) someQuery (run env0 (server strangeRecord) (1 + 1) [] (openedTo strangeRecord).2)).2.segs.flatten ≠ [] := by decide +kernel
  exact this h2

/-- The misalignment is observable: the next query takes the left-over SUCCESS of the first one for its own answer. -/
example : let c := run env0 (server strangeRecord) 2 [someQuery] (openedTo strangeRecord).2
    c.segs.flatten = sSuccess.flatten := by decide +kernel

/-- The hypotheses of `C35_aligned_partial` are met: a history with a failing query, a transaction, and queries with a row. -/
example : Readable env0 .v2 ([0x00, 0x04, 0xB1, 0x71, 0x91, 0x01, 0x00, 0x00] ++ sSuccess.flatten) := by
  refine ⟨[Spec.record [.int 1], Spec.success []], Spec.Sends.append (ts := [Spec.record [.int 1]]) ?_ sends_success, ?_, [recordV [.int .int64 1], successV []], ⟨rfl, rfl, trivial⟩⟩
  · refine ⟨[0xB1, 0x71, 0x91, 0x01], _, [], by simp; rfl, ⟨[[0xB1, 0x71, 0x91, 0x01]], ?_, rfl, rfl⟩, ?_, rfl⟩
    · intro c hc; simp at hc; subst hc; simp
    · exact ⟨[0xB1], _, .inl ⟨by simp, rfl⟩, ⟨[0x91, 0x01], [], ⟨[0x91], [0x01], .inl ⟨by simp, rfl⟩,
        ⟨[1], [], .inl ⟨by decide, by decide, 1, rfl, by decide⟩, rfl, rfl⟩, rfl⟩, rfl, rfl⟩, rfl⟩
  · refine ⟨[0xB1, 0x71, 0x91, 0x01], _, sSuccess.flatten, rfl, ⟨[[0xB1, 0x71, 0x91, 0x01]], ?_, rfl, rfl⟩, ?_,
      ⟨[0xB1, 0x70, 0xA0], sSuccess.flatten, [], by simp, ⟨[[0xB1, 0x70, 0xA0]], ?_, rfl, rfl⟩, ?_, rfl⟩⟩
    · intro c hc; simp at hc; subst hc; simp
    · exact ⟨[0xB1], _, .inl ⟨by simp, rfl⟩, ⟨[0x91, 0x01], [], ⟨[0x91], [0x01], .inl ⟨by simp, rfl⟩,
        ⟨[1], [], .inl ⟨by decide, by decide, 1, rfl, by decide⟩, rfl, rfl⟩, rfl⟩, rfl, rfl⟩, rfl⟩
    · intro c hc; simp at hc; subst hc; simp
    · exact ⟨[0xB1], [0xA0], .inl ⟨by simp, rfl⟩, ⟨[0xA0], [], ⟨[0xA0], [], .inl ⟨by simp, rfl⟩, rfl, rfl⟩, rfl, rfl⟩, rfl⟩
example : let W := server [0x00, 0x04, 0xB1, 0x71, 0x91, 0x01, 0x00, 0x00]
    let c := run env0 W 2 [.query (ascii "X") [] [], someQuery, .begin_ [], .txQuery 0 (ascii "X") [] [], .rollback 0, someQuery, .close] (openedTo [0x00, 0x04, 0xB1, 0x71, 0x91, 0x01, 0x00, 0x00]).2
    (openedTo [0x00, 0x04, 0xB1, 0x71, 0x91, 0x01, 0x00, 0x00]).1.kind = 0 ∧ c.segs.flatten = [] ∧ (recvs c.trace).length = 15 := by decide +kernel

end Verif

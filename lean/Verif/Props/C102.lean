/-
C102  Each call sends only the requests it stands for.
-/
import Verif.Props.C35
import Verif.Spec.MaySend
namespace Verif
open Spec

namespace C102
section
variable {σ : Type} (env : Env) (W : World σ) (p : Proto) (lo : Nat)

/-- Protocol, access mode and chunk size of a connection in use. -/
structure Good (c : Conn σ) : Prop where
  proto : c.proto = p
  mode : c.mode = readMode
  low : lo ≤ c.chunkSize
  high : c.chunkSize ≤ 65535

/-- From a good state: a good state is reached, and only requests in `S` were sent. -/
def Says (S : PS → Prop) (c c' : Conn σ) : Prop :=
  Good p lo c → Good p lo c' ∧ ∃ evs, c'.trace = c.trace ++ evs ∧ ∀ ws, .sent ws ∈ evs → ∃ t, S t ∧ Carries t ws

/-- `v` is encoded as the request `t`. -/
def Codes (v : Val) (t : PS) : Prop := ∀ cs, lo ≤ cs → cs ≤ 65535 → Carries t (encodeMsg env p.codec cs v).1

variable {p lo}
variable {S : PS → Prop}

theorem rel : StepRel (σ := σ) (Says p lo S) where
  refl c h := ⟨h, [], by simp, by simp⟩
  trans h1 h2 h := by
    obtain ⟨g1, e1, t1, s1⟩ := h1 h
    obtain ⟨g2, e2, t2, s2⟩ := h2 g1
    refine ⟨g2, e1 ++ e2, by rw [t2, t1, List.append_assoc], fun ws hw => ?_⟩
    rcases List.mem_append.mp hw with hw | hw
    · exact s1 ws hw
    · exact s2 ws hw

/-- A step that changes nothing of interest. -/
theorem same {c c' : Conn σ} (h1 : c'.proto = c.proto) (h2 : c'.mode = c.mode) (h3 : c'.chunkSize = c.chunkSize) (h4 : c'.trace = c.trace) : Says p lo S c c' :=
  fun h => ⟨⟨h1 ▸ h.proto, h2 ▸ h.mode, h3 ▸ h.low, h3 ▸ h.high⟩, [], by simp [h4], by simp⟩

theorem send {v : Val} {t : PS} (hv : Codes env p lo v t) (ht : S t) : Steps (Says (σ := σ) p lo S) (sendMessage env W v) := by
  intro c h
  have hc : Carries t (encodeMsg env c.proto.codec c.chunkSize v).1 := by rw [h.proto]; exact hv _ h.low h.high
  have hg : ∀ (w : σ) (s : List Bytes) (f : StreamEnd) (tr : List Ev), Good p lo { c with world := w, segs := s, fin := f, trace := tr } :=
    fun _ _ _ _ => ⟨h.proto, h.mode, h.low, h.high⟩
  have hnew : ∃ evs, c.trace ++ [Ev.sent (encodeMsg env c.proto.codec c.chunkSize v).1] = c.trace ++ evs ∧
      ∀ ws, .sent ws ∈ evs → ∃ t, S t ∧ Carries t ws := by
    refine ⟨_, rfl, fun ws hw => ⟨t, ht, ?_⟩⟩
    have hw : Ev.sent ws = .sent _ := List.mem_singleton.mp hw
    cases hw; exact hc
  unfold sendMessage writeAll
  dsimp only
  split
  · split <;> exact rel.refl c h
  · split
    · exact rel.refl c h
    · split
      · split <;> exact ⟨hg _ _ _ _, hnew⟩
      · exact ⟨hg _ _ _ _, hnew⟩

theorem recv : Steps (Says (σ := σ) p lo S) (receive env) := by
  intro c
  unfold receive
  split
  · exact rel.refl c
  · split
    · exact same rfl rfl rfl rfl
    · split
      · exact fun h => ⟨⟨h.proto, h.mode, h.low, h.high⟩, _, rfl, by simp⟩
      · exact same rfl rfl rfl rfl
      · exact same rfl rfl rfl rfl
      · exact same rfl rfl rfl rfl

theorem sock : Steps (Says (σ := σ) p lo S) (closeSock W) := by
  intro c
  unfold closeSock
  dsimp only
  split <;> exact fun h => ⟨⟨h.proto, h.mode, h.low, h.high⟩, _, rfl, by simp⟩

/-- Reading the connection gives its protocol and mode. -/
theorem onGet {α : Type} {f : Conn σ → CM σ α} (h : ∀ c, c.proto = p → c.mode = readMode → Steps (Says (σ := σ) p lo S) (f c)) :
    Steps (Says (σ := σ) p lo S) (CM.get >>= f) := by
  intro c hc
  rw [CM.get_bind]
  exact h c hc.proto hc.mode c hc

section
variable (hlo : 8 ≤ lo) (hS : ∀ t, Recovery p t → S t)
include hlo

theorem pull_codes : Codes env p lo p.pullAllMessage (pullTree p) := fun _ h1 h2 => carries_pullAllMessage env p (by omega) h2

theorem reset_codes : Codes env p lo newResetMessage (.struct 0x0F []) := fun _ h1 h2 => carries_reset env _ (by omega) h2

/-- The messages that begin or end a transaction: either a message of its own, or a RUN followed by PULL_ALL. -/
def TxMsg (p : Proto) (lo : Nat) (v : Val) (ts : List PS) : Prop :=
  (∃ t, ts = [t] ∧ isTxMsg v = true ∧ Codes env p lo v t) ∨ (∃ t, ts = [t, pullTree p] ∧ Codes env p lo v t)

theorem rollback_msg : TxMsg env p lo p.txRollbackMessage (rollbackTrees p) := by
  cases p
  · exact .inr ⟨_, rfl, fun _ h1 h2 => carries_runVerb env _ (by omega) h2 _ (by simp)⟩
  · exact .inr ⟨_, rfl, fun _ h1 h2 => carries_runVerb env _ (by omega) h2 _ (by simp)⟩
  · exact .inl ⟨_, rfl, rfl, fun _ h1 h2 => carries_rollback env _ (by omega) h2⟩
  · exact .inl ⟨_, rfl, rfl, fun _ h1 h2 => carries_rollback env _ (by omega) h2⟩

theorem commit_msg : TxMsg env p lo p.txCommitMessage (commitTrees p) := by
  cases p
  · exact .inr ⟨_, rfl, fun _ h1 h2 => carries_runVerb env _ (by omega) h2 _ (by simp)⟩
  · exact .inr ⟨_, rfl, fun _ h1 h2 => carries_runVerb env _ (by omega) h2 _ (by simp)⟩
  · exact .inl ⟨_, rfl, rfl, fun _ h1 h2 => carries_commit env _ (by omega) h2⟩
  · exact .inl ⟨_, rfl, rfl, fun _ h1 h2 => carries_commit env _ (by omega) h2⟩

theorem begin_msg {db : Bytes} (hdb : db.length ≤ lo) : TxMsg env p lo (p.txBeginMessage db readMode) (beginTrees p db readMode) := by
  cases p
  · exact .inr ⟨_, rfl, fun _ h1 h2 => carries_runVerb env _ (by omega) h2 _ (by simp)⟩
  · exact .inr ⟨_, rfl, fun _ h1 h2 => carries_runVerb env _ (by omega) h2 _ (by simp)⟩
  · exact .inl ⟨_, rfl, rfl, fun _ h1 h2 => carries_begin env _ (by omega) h2 db _ (by omega)⟩
  · exact .inl ⟨_, rfl, rfl, fun _ h1 h2 => carries_begin env _ (by omega) h2 db _ (by omega)⟩

theorem exchange {consume : CM σ Val} (hc : Steps (Says p lo S) consume) {v : Val} {ts : List PS} (hv : TxMsg env p lo v ts) (hts : ∀ t ∈ ts, S t)
    (what : String) : Steps (Says p lo S) (txExchange env W consume v what) := by
  obtain ⟨t, ht, hcode⟩ : ∃ t, t ∈ ts ∧ Codes env p lo v t := by
    rcases hv with ⟨t, rfl, _, h⟩ | ⟨t, rfl, h⟩ <;> exact ⟨t, List.mem_cons_self, h⟩
  unfold txExchange
  refine Steps.bind rel (send env W hcode (hts t ht)) fun _ => ?_
  split
  · refine Steps.bind rel hc fun v => ?_
    split
    · exact Steps.fail rel _
    · exact Steps.pure rel _
  · rename_i hn
    have hp : S (pullTree p) := by
      rcases hv with ⟨t, rfl, h, _⟩ | ⟨t, rfl, h⟩
      · exact absurd h hn
      · exact hts _ (by simp)
    refine onGet fun c h1 _ => ?_
    rw [h1]
    refine Steps.bind rel (send env W (pull_codes env hlo) hp) fun _ => ?_
    refine Steps.bind rel hc fun v => ?_
    refine Steps.bind rel hc fun v' => ?_
    split
    · exact Steps.fail rel _
    · split
      · exact Steps.fail rel _
      · exact Steps.pure rel _

theorem ends {consume : CM σ Val} (hc : Steps (Says p lo S) consume) {m : Proto → Val} {ts : List PS} (hv : TxMsg env p lo (m p) ts) (hts : ∀ t ∈ ts, S t)
    (what : String) (h : Nat) : Steps (Says p lo S) (endWith env W consume m what h) := by
  unfold endWith
  refine onGet fun c _ _ => ?_
  split
  · exact Steps.fail rel _
  · refine onGet fun c h1 _ => ?_
    rw [h1]
    exact Steps.bind rel (exchange env W hlo hc hv hts what) fun _ => fun c => same rfl rfl rfl rfl

include hS

theorem closes {rollback : Nat → CM σ Unit} (hr : ∀ h, Steps (Says p lo S) (rollback h)) : Steps (Says p lo S) (closeWith env W rollback) := by
  intro c
  rw [closeWith_apply]
  split
  · exact rel.refl c
  · refine Steps.bind rel (m := endCur rollback) ?_ (fun _ => ?_) c
    · intro c
      rw [endCur_apply]
      split
      · exact hr _ c
      · exact rel.refl c
    · intro c hc
      rw [goodbye_apply, hc.proto]
      split
      · rename_i m hm
        have hp : (p = .v3 ∨ p = .v4) ∧ m = newGoodbyeMessage := by
          cases p <;> cases hm
          · exact ⟨.inl rfl, rfl⟩
          · exact ⟨.inr rfl, rfl⟩
        obtain ⟨hp, rfl⟩ := hp
        exact Steps.bind rel (send env W (fun _ h1 h2 => carries_goodbye env _ (by omega) h2) (hS _ (.goodbye hp))) (fun _ => sock W) c hc
      · exact sock W c hc

theorem consumes {reset : CM σ Unit} (hr : Steps (Says p lo S) reset) : Steps (Says p lo S) (consumeWith env reset) := by
  unfold consumeWith
  refine Steps.bind rel (recv env) fun v => ?_
  split
  · exact Steps.bind rel hr.mapErr fun _ => Steps.fail rel _
  · exact Steps.pure rel _

theorem loops {close : CM σ Unit} (hc : Steps (Says p lo S) close) : (n : Nat) → Steps (Says p lo S) (resetLoop env close n)
  | 0 => fun c => rel.refl c
  | n + 1 => by
    unfold resetLoop
    refine Steps.bind rel (Steps.mapErr (recv env)) fun v => ?_
    split
    · exact loops hc n
    · split
      · exact Steps.pure rel _
      · split
        · exact Steps.thenFail hc _
        · exact Steps.thenFail hc _

theorem resets : (fuel : Nat) → Steps (Says p lo S) (reset env W fuel)
  | 0 => fun c => rel.refl c
  | fuel + 1 => by
    unfold reset resetWith
    refine Steps.bind rel (Steps.mapErr (send env W (reset_codes env hlo) (hS _ .reset))) fun _ => ?_
    intro c
    exact loops env hlo hS (closes env W hlo hS fun h => ends env W hlo (consumes env hlo hS (resets fuel)) (rollback_msg env hlo)
      (fun t ht => hS t (.rollback ht)) _ h) _ c

theorem consume_says (fuel : Nat) : Steps (Says p lo S) (consume env W fuel) := consumes env hlo hS (resets env W hlo hS fuel)

theorem rollback_says (fuel h : Nat) : Steps (Says p lo S) (rollback env W fuel h) :=
  ends env W hlo (consume_says env W hlo hS fuel) (rollback_msg env hlo) (fun t ht => hS t (.rollback ht)) _ h

theorem close_says (fuel : Nat) : Steps (Says p lo S) (close env W fuel) := closes env W hlo hS (rollback_says env W hlo hS fuel)

theorem idle_says (fuel : Nat) : Steps (Says p lo S) (makeIdle env W fuel) := by
  unfold makeIdle
  refine onGet fun c _ _ => ?_
  split
  · exact rollback_says env W hlo hS fuel _
  · exact Steps.pure rel _

theorem commit_says (hC : ∀ t ∈ commitTrees p, S t) (fuel h : Nat) : Steps (Says p lo S) (commit env W fuel h) :=
  ends env W hlo (consume_says env W hlo hS fuel) (commit_msg env hlo) hC _ h

theorem begin_says {db : Bytes} (hdb : db.length ≤ lo) (hB : ∀ t ∈ beginTrees p db readMode, S t) (fuel : Nat) :
    Steps (Says p lo S) (beginWithDatabase env W fuel db) := by
  intro c hc
  rw [begin_apply]
  split
  · exact rel.refl c hc
  · split
    · exact rel.refl c hc
    · rw [hc.proto, hc.mode]
      exact Steps.bind rel (exchange env W hlo (consume_says env W hlo hS fuel) (begin_msg env hlo hdb) hB _)
        (fun _ => fun c => same rfl rfl rfl rfl) c hc

theorem rows_says {consume : CM σ Val} (hc : Steps (Says p lo S) consume) : (n : Nat) → (out : List (List Val)) → Steps (Says p lo S) (rowsLoop consume n out)
  | 0, _ => fun c => rel.refl c
  | n + 1, out => by
    unfold rowsLoop
    refine Steps.bind rel hc fun v => ?_
    split
    · exact Steps.pure rel _
    · split
      · exact rows_says hc n _
      · exact Steps.fail rel _

theorem query_says {q : Bytes} {ps : Entries} {db : Bytes} {pt : PS} {inTx : Bool} (hq : Sendable env p.codec lo q ps db pt)
    (hA : ∀ t, Ask env p q ps db inTx t → S t) (fuel : Nat) : Steps (Says p lo S) (runQuery env W fuel q ps db inTx) := by
  unfold runQuery
  refine onGet fun c _ _ => ?_
  split
  · exact Steps.fail rel _
  · refine onGet fun c h1 h2 => ?_
    rw [h1, h2]
    refine Steps.bind rel (send env W (fun cs l1 l2 => ((hq.mono l1 l2).carries readMode inTx).2) (hA _ (.run hq.params))) fun _ => ?_
    refine Steps.bind rel (send env W (pull_codes env hlo) (hA _ .pull)) fun _ => ?_
    refine Steps.bind rel (consume_says env W hlo hS fuel) fun v => ?_
    split
    · exact Steps.fail rel _
    · intro c; exact rows_says hlo hS (consume_says env W hlo hS fuel) _ _ c

end

theorem void_says {α : Type} {m : CM σ α} (h : Steps (Says p lo S) m) : Steps (Says p lo S) m.void := Steps.bind rel h fun _ => Steps.pure rel _

theorem check_says (db : Bytes) : Steps (Says (σ := σ) p lo S) (checkDb (σ := σ) db) := by
  intro c; rw [checkDb_snd]; exact rel.refl c

theorem step_says (hlo : 8 ≤ lo) {op : Op} (hop : op.Fine env p.codec lo) (fuel : Nat) : Steps (Says (σ := σ) p lo (MaySend env p op)) (step env W fuel op) := by
  have R : (h1 : op ≠ .validateOpen) → (h2 : ∀ n, op ≠ .setChunkSize n) → ∀ t, Recovery p t → MaySend env p op t := fun h1 h2 t h => .recover h h1 h2
  cases op with
  | query q ps db =>
    obtain ⟨pt, hq⟩ := hop
    exact void_says (Steps.bind rel (check_says db) fun _ => query_says env W hlo (R (by simp) (by simp)) hq (fun t h => .query h) fuel)
  | exec q ps db =>
    obtain ⟨pt, hq⟩ := hop
    exact void_says (Steps.bind rel (check_says db) fun _ =>
      Steps.bind rel (query_says env W hlo (R (by simp) (by simp)) hq (fun t h => .exec h) fuel) fun _ => Steps.pure rel _)
  | begin_ db => exact void_says (begin_says env W hlo (R (by simp) (by simp)) hop (fun t h => .begin_ h) fuel)
  | commit h => exact commit_says env W hlo (R (by simp) (by simp)) (fun t h => .commit h) fuel h
  | rollback h => exact rollback_says env W hlo (R (by simp) (by simp)) fuel h
  | txQuery h q ps db =>
    obtain ⟨pt, hq⟩ := hop
    exact void_says (Steps.bind rel (check_says db) fun _ => query_says env W hlo (R (by simp) (by simp)) hq (fun t h => .txQuery h) fuel)
  | txExec h q ps =>
    obtain ⟨pt, hq⟩ := hop
    exact void_says (Steps.bind rel (check_says _) fun _ =>
      Steps.bind rel (query_says env W hlo (R (by simp) (by simp)) hq (fun t h => .txExec h) fuel) fun _ => Steps.pure rel _)
  | txExecDb h q ps db =>
    obtain ⟨pt, hq⟩ := hop
    exact void_says (Steps.bind rel (check_says db) fun _ =>
      Steps.bind rel (query_says env W hlo (R (by simp) (by simp)) hq (fun t h => .txExecDb h) fuel) fun _ => Steps.pure rel _)
  | close => exact close_says env W hlo (R (by simp) (by simp)) fuel
  | makeIdle => exact idle_says env W hlo (R (by simp) (by simp)) fuel
  | validateOpen =>
    refine void_says fun c => ?_
    unfold validateOpen
    split
    · exact rel.refl c
    · split
      · exact rel.refl c
      · exact rel.refl c
      · split
        · exact same rfl rfl rfl rfl
        · exact rel.refl c
  | setChunkSize n =>
    intro c h
    have := n.toNat_lt
    refine ⟨⟨h.proto, h.mode, hop, ?_⟩, [], by simp [step, setChunkSize, CM.modify], by simp⟩
    show n.toNat ≤ 65535
    omega

theorem run_good (hlo : 8 ≤ lo) (fuel : Nat) : (ops : List Op) → (∀ op ∈ ops, op.Fine env p.codec lo) → (c : Conn σ) → Good p lo c →
    Good p lo (run env W fuel ops c)
  | [], _, _, h => h
  | op :: ops, hops, c, h =>
    run_good hlo fuel ops (fun o ho => hops o (List.mem_cons_of_mem _ ho)) _ (step_says env W hlo (hops op List.mem_cons_self) fuel c h).1

end

section
variable {σ : Type} (env : Env) (W : World σ)

theorem init_says {p : Proto} {user password : Bytes} {S : PS → Prop} (hS : ∀ t, Recovery p t → S t) {t : PS} (ht : S t)
    (hi : Codes env p 65535 (p.initMessage clientID (buildAuthTokenBasic user password)) t) (fuel : Nat) :
    Steps (Says (σ := σ) p 65535 S) (sendInit env W fuel (p.initMessage clientID (buildAuthTokenBasic user password))) := by
  unfold sendInit
  refine Steps.bind rel (send env W hi ht) fun _ => ?_
  refine Steps.bind rel (consume_says env W (by omega) hS fuel) fun v => ?_
  split
  · exact Steps.pure rel _
  · exact close_says env W (by omega) hS fuel

/-- The request that opens the session: INIT or HELLO with the credentials (see C32). -/
def Opening (p : Proto) (user password : Bytes) (t : PS) : Prop :=
  match p with
  | .v1 | .v2 => ∃ es, es.Perm (authEntries user password) ∧ t = .struct 0x01 [.str (ascii "GoBolt/0.1"), .map es]
  | .v3 | .v4 => ∃ es, es.Perm ((ascii "user_agent", .str (ascii "GoBolt/0.1")) :: authEntries user password) ∧ t = .struct 0x01 [.map es]

theorem init_codes (p : Proto) {user password : Bytes} (hu : user.length ≤ 65535) (hp : password.length ≤ 65535) :
    ∃ t, Opening p user password t ∧ Codes env p 65535 (p.initMessage clientID (buildAuthTokenBasic user password)) t := by
  obtain ⟨_, b, e2, e3⟩ := init_sent env p hu hp
  have key : ∀ t, Spec.Enc full t b → Codes env p 65535 (p.initMessage clientID (buildAuthTokenBasic user password)) t := by
    intro t ht cs h1 h2
    obtain rfl : cs = 65535 := by omega
    exact ⟨b, e2, ht⟩
  cases p
  · obtain ⟨es, h1, h2⟩ := e3; exact ⟨_, ⟨es, h1, rfl⟩, key _ h2⟩
  · obtain ⟨es, h1, h2⟩ := e3; exact ⟨_, ⟨es, h1, rfl⟩, key _ h2⟩
  · obtain ⟨es, h1, h2⟩ := e3; exact ⟨_, ⟨es, h1, rfl⟩, key _ h2⟩
  · obtain ⟨es, h1, h2⟩ := e3; exact ⟨_, ⟨es, h1, rfl⟩, key _ h2⟩

end
end C102
open C102

section
variable {σ : Type} (env : Env) (W : World σ)

/-- What is sent while a connection is created, whether this succeeds or not: nothing if dialling fails, otherwise first the handshake, and then only the message
that opens the session in the negotiated version and requests that recover from a failure. -/
theorem C102_connect {fuel : Nat} {user password : Bytes} (hu : user.length ≤ 65535) (hpw : password.length ≤ 65535) (w : σ) :
    let c := (createBoltConn env W fuel user password w).2
    c.trace = [] ∨ ∃ evs, c.trace = .sent [preamble] :: evs ∧
      ∀ ws, .sent ws ∈ evs → ∃ t, (Opening c.proto user password t ∨ Recovery c.proto t) ∧ Carries t ws := by
  intro c
  cases hd : (W.dial w).2 with
  | false => exact .inl (C28_dial_fails env W fuel user password w hd).2
  | true =>
    rcases handshake_cases env W fuel user password w hd with ⟨n, p, segs', h1, h2, h3, h4⟩ | ⟨_, _, ht⟩
    · obtain ⟨t, o1, o2⟩ := init_codes env p hu hpw
      have hg : Good p 65535 (afterHandshake W w segs' p) := ⟨rfl, rfl, Nat.le_refl _, Nat.le_refl _⟩
      obtain ⟨g, evs, e1, e2⟩ := init_says env W (S := fun t => Opening p user password t ∨ Recovery p t) (fun t h => .inr h) (.inl o1) o2 fuel _ hg
      have hc : c = (sendInit env W fuel (p.initMessage clientID (buildAuthTokenBasic user password)) (afterHandshake W w segs' p)).2 := congrArg Prod.snd h4
      rw [← hc] at g e1
      refine .inr ⟨evs, e1, ?_⟩
      rw [g.proto]
      exact e2
    · exact .inr ⟨[], ht, by simp⟩

theorem create_good {fuel : Nat} {user password : Bytes} (hu : user.length ≤ 65535) (hpw : password.length ≤ 65535) {w : σ} {c : Conn σ}
    (h : createBoltConn env W fuel user password w = (.ok (), c)) {lo : Nat} (hlo : lo ≤ 65535) : Good c.proto lo c := by
  have hd : (W.dial w).2 = true := by
    cases hx : (W.dial w).2 with
    | true => rfl
    | false => obtain ⟨⟨e, he⟩, _⟩ := C28_dial_fails env W fuel user password w hx; rw [h] at he; cases he
  rcases handshake_cases env W fuel user password w hd with ⟨n, p, segs', h1, h2, h3, h4⟩ | ⟨_, ⟨e, he⟩, _⟩
  · obtain ⟨t, o1, o2⟩ := init_codes env p hu hpw
    have hg : Good p 65535 (afterHandshake W w segs' p) := ⟨rfl, rfl, Nat.le_refl _, Nat.le_refl _⟩
    obtain ⟨g, _⟩ := init_says env W (S := fun t => Opening p user password t ∨ Recovery p t) (fun t h => .inr h) (.inl o1) o2 fuel _ hg
    rw [← h4, h] at g
    exact ⟨rfl, g.mode, Nat.le_trans hlo g.low, g.high⟩
  · rw [h] at he; cases he

/-- Each call on a connection sends only requests it stands for, in the negotiated version: its own query or transaction request, and what is needed to recover from
a failure or to close the connection.  This holds for every network and server. -/
theorem C102_only {fuel : Nat} {user password : Bytes} (hu : user.length ≤ 65535) (hpw : password.length ≤ 65535) {w : σ} {c : Conn σ}
    (h : createBoltConn env W fuel user password w = (.ok (), c)) {lo : Nat} (hlo : 8 ≤ lo) (hlo' : lo ≤ 65535) {before : List Op} {op : Op} {fuel' : Nat}
    (hops : ∀ o ∈ before ++ [op], o.Fine env c.proto.codec lo) :
    let c1 := run env W fuel' before c
    ∃ evs, (step env W fuel' op c1).2.trace = c1.trace ++ evs ∧ ∀ ws, .sent ws ∈ evs → ∃ t, MaySend env c.proto op t ∧ Carries t ws := by
  intro c1
  have g1 : Good c.proto lo c1 := run_good env W hlo fuel' before (fun o ho => hops o (by simp [ho])) c (create_good env W hu hpw h hlo')
  exact (step_says env W hlo (hops op (by simp)) fuel' c1 g1).2

theorem txMeta_read (db : Bytes) : txMetaTree db readMode = .map (if db = [] then [] else [(ascii "db", .str db)]) := rfl

theorem noMode_meta {db : Bytes} {es : List (Bytes × PS)} {m : PS} (h : txMetaTree db readMode = .map es) : (ascii "mode", m) ∉ es := by
  rw [txMeta_read] at h
  cases h
  intro hm
  split at hm
  · cases hm
  · have : ascii "mode" = ascii "db" := congrArg Prod.fst (List.mem_singleton.mp hm)
    exact absurd this (by decide)

theorem recovery_noMode {p : Proto} {t : PS} (h : Recovery p t) : ¬ SaysMode t := by
  intro hm
  cases h with
  | reset => cases hm
  | goodbye => cases hm
  | rollback h => cases p <;> simp [rollbackTrees, endTxTrees, pullAllTree] at h <;> (try rcases h with rfl | rfl) <;> (try subst h) <;> cases hm

theorem ask_noMode {p : Proto} {q : Bytes} {ps : Entries} {db : Bytes} {b : Bool} {t : PS} (h : Ask env p q ps db b t) : ¬ SaysMode t := by
  intro hm
  cases h with
  | pull => cases p <;> cases hm
  | run h =>
    cases p <;> cases b <;> simp only [runTree, Bool.false_eq_true, if_false, if_true] at hm <;> generalize ht : PS.struct 0x10 _ = t at hm <;> cases hm <;>
      simp only [PS.struct.injEq, List.cons.injEq, and_true, true_and, reduceCtorEq, and_false, false_and] at ht
    all_goals (try exact absurd ht.1 (by decide))
    · rename_i h; exact noMode_meta ht.2.2 h
    · rename_i h; rw [← (PS.map.inj ht.2.2)] at h; cases h
    · rename_i h; exact noMode_meta ht.2.2 h
    · rename_i h; rw [← (PS.map.inj ht.2.2)] at h; cases h

theorem maySend_noMode {p : Proto} {op : Op} {t : PS} (h : MaySend env p op t) : ¬ SaysMode t := by
  cases h with
  | query h | exec h | txQuery h | txExec h | txExecDb h => exact ask_noMode env h
  | recover h => exact recovery_noMode h
  | commit h => intro hm; cases p <;> simp [commitTrees, endTxTrees, pullAllTree] at h <;> (try rcases h with rfl | rfl) <;> (try subst h) <;> cases hm
  | begin_ h =>
    intro hm
    cases p <;> simp only [beginTrees, pullAllTree, List.mem_cons, List.not_mem_nil, or_false] at h
    · rcases h with rfl | rfl <;> cases hm
    · rcases h with rfl | rfl <;> cases hm
    · generalize he : txMetaTree _ _ = x at h
      subst h
      cases hm
      rename_i h; exact noMode_meta he h
    · generalize he : txMetaTree _ _ = x at h
      subst h
      cases hm
      rename_i h; exact noMode_meta he h

/-- The handshake is not a message. -/
theorem preamble_carries {t : PS} (h : Carries t [preamble]) : False := by
  obtain ⟨p, h1, _⟩ := h
  obtain ⟨_, g1, _⟩ := readMsg_framed h1 .eof (segs := [[preamble].flatten]) (rest := []) (by simp)
  have hr : ∃ e s, readMsg .eof [[preamble].flatten] = .err e s := ⟨_, _, rfl⟩
  obtain ⟨e, s, hr⟩ := hr
  rw [hr] at g1
  cases g1

/-- Everything a session sent is the handshake, the opening message, or a request of one of its calls (or one that recovers from a failure). -/
theorem C102_session {fuel : Nat} {user password : Bytes} (hu : user.length ≤ 65535) (hpw : password.length ≤ 65535) {w : σ} {c : Conn σ}
    (h : createBoltConn env W fuel user password w = (.ok (), c)) {lo : Nat} (hlo : 8 ≤ lo) (hlo' : lo ≤ 65535) {fuel' : Nat} :
    (ops : List Op) → (∀ o ∈ ops, o.Fine env c.proto.codec lo) → ∀ ws, .sent ws ∈ (run env W fuel' ops c).trace →
      ws = [preamble] ∨ ∃ t, (Opening c.proto user password t ∨ Recovery c.proto t ∨ ∃ op ∈ ops, MaySend env c.proto op t) ∧ Carries t ws := by
  intro ops
  generalize hn : ops.length = n
  induction n generalizing ops with
  | zero =>
    intro _ ws hs
    obtain rfl := List.length_eq_zero_iff.mp hn
    have hc := C102_connect env W (fuel := fuel) hu hpw w
    rw [h] at hc
    replace hs : .sent ws ∈ c.trace := hs
    rcases hc with hc | ⟨evs, h1, h2⟩
    · replace hc : c.trace = [] := hc
      rw [hc] at hs; cases hs
    · replace h1 : c.trace = _ := h1
      rw [h1] at hs
      rcases List.mem_cons.mp hs with hs | hs
      · cases hs; exact .inl rfl
      · obtain ⟨t, h3, h4⟩ := h2 ws hs
        exact .inr ⟨t, by rcases h3 with h3 | h3; exact .inl h3; exact .inr (.inl h3), h4⟩
  | succ n ih =>
    intro hops ws hs
    obtain ⟨before, op, rfl⟩ : ∃ before op, ops = before ++ [op] := ⟨ops.dropLast, ops.getLast (by intro e; simp [e] at hn), (List.dropLast_concat_getLast _).symm⟩
    obtain ⟨evs, e1, e2⟩ := C102_only env W hu hpw h hlo hlo' (fuel' := fuel') hops
    have hr : run env W fuel' (before ++ [op]) c = (step env W fuel' op (run env W fuel' before c)).2 := by simp [run]
    rw [hr, e1] at hs
    rcases List.mem_append.mp hs with hs | hs
    · rcases ih before (by simpa using hn) (fun o ho => hops o (by simp [ho])) ws hs with h1 | ⟨t, h1, h2⟩
      · exact .inl h1
      · refine .inr ⟨t, ?_, h2⟩
        rcases h1 with h1 | h1 | ⟨o, ho, h1⟩
        · exact .inl h1
        · exact .inr (.inl h1)
        · exact .inr (.inr ⟨o, by simp [ho], h1⟩)
    · obtain ⟨t, h1, h2⟩ := e2 ws hs
      exact .inr ⟨t, .inr (.inr ⟨op, by simp, h1⟩), h2⟩

/-- No connection ever tells the server an access mode: not while it is created, and not in any call. -/
theorem C102_mode {fuel : Nat} {user password : Bytes} (hu : user.length ≤ 65535) (hpw : password.length ≤ 65535) {w : σ} {c : Conn σ}
    (h : createBoltConn env W fuel user password w = (.ok (), c)) {lo : Nat} (hlo : 8 ≤ lo) (hlo' : lo ≤ 65535) {ops : List Op} {fuel' : Nat}
    (hops : ∀ o ∈ ops, o.Fine env c.proto.codec lo) {ws : List Bytes} {t : PS} (hs : .sent ws ∈ (run env W fuel' ops c).trace) (ht : Carries t ws) : ¬ SaysMode t := by
  rcases C102_session env W hu hpw h hlo hlo' ops hops ws hs with rfl | ⟨t', h1, h2⟩
  · exact (preamble_carries ht).elim
  · obtain rfl := carries_unique ht h2
    rcases h1 with h1 | h1 | ⟨o, _, h1⟩
    · intro hm
      cases hc : c.proto <;> rw [hc] at h1 <;> obtain ⟨es, _, rfl⟩ := h1 <;> cases hm
    · exact recovery_noMode h1
    · exact maySend_noMode env h1

/-- Calls that ask the server to commit: Commit, or a query with the text COMMIT. -/
def AsksCommit (op : Op) : Prop :=
  (∃ n, op = .commit n) ∨ (∃ ps db, op = .query (ascii "COMMIT") ps db) ∨ (∃ ps db, op = .exec (ascii "COMMIT") ps db) ∨
    (∃ n ps db, op = .txQuery n (ascii "COMMIT") ps db) ∨ (∃ n ps, op = .txExec n (ascii "COMMIT") ps) ∨ (∃ n ps db, op = .txExecDb n (ascii "COMMIT") ps db)

theorem maySend_commit {p : Proto} {op : Op} {t : PS} (h : MaySend env p op t) (ht : t = .struct 0x12 [] ∨ ∃ fs, t = .struct 0x10 (.str (ascii "COMMIT") :: fs)) :
    AsksCommit op := by
  have ask : ∀ {q ps db b}, Ask env p q ps db b t → q = ascii "COMMIT" := by
    intro q ps db b h
    rcases ht with rfl | ⟨fs, rfl⟩
    · generalize hx : PS.struct 0x12 [] = x at h
      cases h <;> cases p <;> simp [runTree, pullTree, pullAllTree] at hx
    · generalize hx : PS.struct 0x10 _ = x at h
      cases h <;> cases p <;> simp [runTree, pullTree, pullAllTree] at hx <;> exact hx.1.symm
  cases h with
  | query h => obtain rfl := ask h; exact .inr (.inl ⟨_, _, rfl⟩)
  | exec h => obtain rfl := ask h; exact .inr (.inr (.inl ⟨_, _, rfl⟩))
  | txQuery h => obtain rfl := ask h; exact .inr (.inr (.inr (.inl ⟨_, _, _, rfl⟩)))
  | txExec h => obtain rfl := ask h; exact .inr (.inr (.inr (.inr (.inl ⟨_, _, rfl⟩))))
  | txExecDb h => obtain rfl := ask h; exact .inr (.inr (.inr (.inr (.inr ⟨_, _, _, rfl⟩))))
  | commit h => exact .inl ⟨_, rfl⟩
  | begin_ h =>
    have e : ascii "COMMIT" ≠ ascii "BEGIN" := by decide
    rcases ht with rfl | ⟨fs, rfl⟩ <;> cases p <;> simp [beginTrees, pullAllTree, e] at h
  | recover h =>
    have e : ascii "COMMIT" ≠ ascii "ROLLBACK" := by decide
    exfalso
    rcases ht with rfl | ⟨fs, rfl⟩
    · generalize hx : PS.struct 0x12 [] = x at h
      cases h with
      | reset => simp at hx
      | goodbye => simp at hx
      | rollback h => subst hx; cases p <;> simp [rollbackTrees, endTxTrees, pullAllTree] at h
    · generalize hx : PS.struct 0x10 _ = x at h
      cases h with
      | reset => simp at hx
      | goodbye => simp at hx
      | rollback h => subst hx; cases p <;> simp [rollbackTrees, endTxTrees, pullAllTree, e] at h

/-- Nothing is committed behind the caller's back: if a session sent COMMIT (in versions 1 and 2 the query "COMMIT"), one of its calls was Commit, or a query with
this text. -/
theorem C102_commit {fuel : Nat} {user password : Bytes} (hu : user.length ≤ 65535) (hpw : password.length ≤ 65535) {w : σ} {c : Conn σ}
    (h : createBoltConn env W fuel user password w = (.ok (), c)) {lo : Nat} (hlo : 8 ≤ lo) (hlo' : lo ≤ 65535) {ops : List Op} {fuel' : Nat}
    (hops : ∀ o ∈ ops, o.Fine env c.proto.codec lo) {ws : List Bytes} {t : PS} (hs : .sent ws ∈ (run env W fuel' ops c).trace) (ht : Carries t ws)
    (hc : t = .struct 0x12 [] ∨ ∃ fs, t = .struct 0x10 (.str (ascii "COMMIT") :: fs)) : ∃ op ∈ ops, AsksCommit op := by
  rcases C102_session env W hu hpw h hlo hlo' ops hops ws hs with rfl | ⟨t', h1, h2⟩
  · exact (preamble_carries ht).elim
  · obtain rfl := carries_unique ht h2
    rcases h1 with h1 | h1 | ⟨o, ho, h1⟩
    · exfalso
      cases hp : c.proto <;> rw [hp] at h1 <;> obtain ⟨es, _, rfl⟩ := h1 <;> simp at hc
    · exfalso
      have := maySend_commit env (.recover (op := .close) h1 (by simp) (by simp)) hc
      simp [AsksCommit] at this
    · exact ⟨o, ho, maySend_commit env h1 hc⟩

end

/-- A session with a failing query, a transaction that is committed and one that is left to Close. -/
def someCalls : List Op := [.query (ascii "X") [] [], .begin_ [], .txQuery 0 (ascii "RETURN 1") [] [], .commit 0, .begin_ [], .close]

/-- The hypotheses are met by this session: it is created, the calls are fine, and it sends what is expected. -/
example : (openedTo []).1.kind = 0 ∧ (openedTo []).2.proto = .v4 ∧
    ((sents (run env0 (server []) 2 someCalls (openedTo []).2).trace).filterMap requestOf).map (fun t => match t with | .struct sig _ => sig | _ => 0) =
      [0x01, 0x10, 0x3F, 0x0F, 0x11, 0x10, 0x3F, 0x12, 0x11, 0x13, 0x02] := by decide +kernel
example (ver : Ver) : ∀ o ∈ someCalls, o.Fine env0 ver 8 := by
  have hq : ∀ q : Bytes, q.length ≤ 8 → ∃ pt, Sendable env0 ver 8 q [] [] pt := fun q h =>
    ⟨.map [], by omega, by omega, h, by simp, by cases ver <;> rfl, by simp [PS.Fits, PS.FitsWith, FitsEntries], by simp [Val.All, AllEntries, strAtMost]⟩
  intro o ho
  simp only [someCalls, List.mem_cons, List.not_mem_nil, or_false] at ho
  rcases ho with rfl | rfl | rfl | rfl | rfl | rfl
  · exact hq _ (by decide)
  · exact Nat.zero_le _
  · exact hq _ (by decide)
  · exact trivial
  · exact Nat.zero_le _
  · exact trivial
/-- A request that does announce a mode. -/
example : SaysMode (.struct 0x11 [txMetaTree [] writeMode]) := .begin_ (m := .str (ascii "r")) (by simp [txMetaTree, writeMode])

end Verif

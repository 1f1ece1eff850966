/-
With a server that has transactions: what each exchange does to them.
-/
import Verif.Spec.TxServer
import Verif.Proofs.NoTx
import Verif.Props.C35
namespace Verif
open Spec

theorem Spec.TReply.reply {D : Database} {s s' : Session} {t : PS} {ts : List PS} (h : TReply D s t ts s') : Reply s.phase t ts s'.phase := by
  cases h with
  | init fs m h => rw [h]; exact .init fs m
  | initFailure fs m h => rw [h]; exact .initFailure fs m
  | run q fs m h => rw [h]; exact .run q fs m
  | runFailure q fs m h _ => rw [h]; exact .runFailure q fs m
  | tx sig q fs m h hs =>
    show Reply s.phase _ _ s.phase
    rw [h]
    refine .tx sig fs m ?_
    simp only [txVerbs, List.mem_cons, Prod.mk.injEq, List.not_mem_nil, or_false] at hs
    rcases hs with ⟨h, _⟩ | ⟨h, _⟩ | ⟨h, _⟩ <;> simp [h]
  | txFailure sig q fs m h hs =>
    rw [h]
    refine .txFailure sig fs m ?_
    simp only [txVerbs, List.mem_cons, Prod.mk.injEq, List.not_mem_nil, or_false] at hs
    rcases hs with ⟨h, _⟩ | ⟨h, _⟩ | ⟨h, _⟩ <;> simp [h]
  | pull rows fs recs m h hr _ => rw [h]; exact .pull rows fs recs m hr
  | pullFailure rows fs recs m h hr _ => rw [h]; exact .pullFailure rows fs recs m hr
  | ignored sig fs h hs => rw [h]; exact .ignored sig fs hs
  | reset m h0 h1 h2 => exact .reset _ m h0 h1 h2
  | resetFailure m h0 h1 h2 => exact .resetFailure _ m h0 h1 h2
  | goodbye h0 h1 => exact .goodbye _ h0 h1

theorem Spec.TReply.run_inv {D : Database} {s s' : Session} {t : PS} {ts : List PS} (h : TReply D s t ts s') : s.phase = .ready → ∀ q fs, t = .struct 0x10 (.str q :: fs) →
    (∃ m, ts = [Spec.success m] ∧ s.ledger.Allows q ∧ s' = { s with phase := .streaming (q ∉ controlVerbs), running := (q, fs) }) ∨
    (∃ m, ts = [Spec.failure m] ∧ (q ∉ controlVerbs → D s.ledger (s.ledger.stmt q fs) (.failed m)) ∧ s' = { s with phase := .failed }) := by
  intro hp q fs ht
  cases h with
  | run q' fs' m h ha => cases ht; exact .inl ⟨m, rfl, ha, rfl⟩
  | runFailure q' fs' m h hd => cases ht; exact .inr ⟨m, rfl, hd, rfl⟩
  | tx sig q' fs' m h hs => cases ht; simp [txVerbs] at hs
  | txFailure sig q' fs' m h hs => cases ht; simp [txVerbs] at hs
  | init | initFailure | pull | pullFailure | ignored | reset | resetFailure | goodbye => simp_all

theorem Spec.TReply.tx_inv {D : Database} {s s' : Session} {t : PS} {ts : List PS} (h : TReply D s t ts s') : s.phase = .ready → ∀ sig q fs, (sig, q) ∈ txVerbs → t = .struct sig fs →
    (∃ m, ts = [Spec.success m] ∧ s.ledger.Allows q ∧ s' = { s with ledger := s.ledger.complete q fs }) ∨
    (∃ m, ts = [Spec.failure m] ∧ s' = { s with phase := .failed }) := by
  have key : ∀ {sig q q'}, (sig, q) ∈ txVerbs → (sig, q') ∈ txVerbs → q = q' := by
    intro sig q q' h1 h2
    simp only [txVerbs, List.mem_cons, Prod.mk.injEq, List.not_mem_nil, or_false] at h1 h2
    rcases h1 with ⟨rfl, rfl⟩ | ⟨rfl, rfl⟩ | ⟨rfl, rfl⟩ <;> rcases h2 with ⟨h, rfl⟩ | ⟨h, rfl⟩ | ⟨h, rfl⟩ <;> first | rfl | (exact absurd h (by decide))
  have no : ∀ {sig q}, (sig, q) ∈ txVerbs → sig ≠ 0x01 ∧ sig ≠ 0x10 ∧ sig ≠ 0x3F ∧ sig ≠ 0x0F ∧ sig ≠ 0x02 := by
    intro sig q h
    simp only [txVerbs, List.mem_cons, Prod.mk.injEq, List.not_mem_nil, or_false] at h
    rcases h with ⟨rfl, _⟩ | ⟨rfl, _⟩ | ⟨rfl, _⟩ <;> decide
  intro hp sig q fs hs ht
  cases h with
  | init fs m h => rw [h] at hp; cases hp
  | initFailure fs m h => rw [h] at hp; cases hp
  | run q fs m h _ => injection ht with h1 h2; exact absurd h1.symm (no hs).2.1
  | runFailure q fs m h _ => injection ht with h1 h2; exact absurd h1.symm (no hs).2.1
  | tx sig' q' fs m h hs' ha =>
    injection ht with h1 h2
    subst h1 h2
    cases key hs hs'
    exact .inl ⟨m, rfl, ha, rfl⟩
  | txFailure sig' q' fs m h hs' => exact .inr ⟨m, rfl, rfl⟩
  | pull rows fs recs m h hr _ => rw [h] at hp; cases hp
  | pullFailure rows fs recs m h hr _ => rw [h] at hp; cases hp
  | ignored sig fs h => rw [h] at hp; cases hp
  | reset m => injection ht with h1 h2; exact absurd h1.symm (no hs).2.2.2.1
  | resetFailure m => injection ht with h1 h2; exact absurd h1.symm (no hs).2.2.2.1
  | goodbye => injection ht with h1 h2; exact absurd h1.symm (no hs).2.2.2.2

theorem Spec.TReply.pull_inv {D : Database} {s s' : Session} {t : PS} {ts : List PS} (h : TReply D s t ts s') : ∀ rows, s.phase = .streaming rows → ∀ fs, t = .struct 0x3F fs →
    ∃ recs m, (rows = false → recs = []) ∧ ((ts = recs.map Spec.record ++ [Spec.success m] ∧
        (rows = true → D s.ledger (s.ledger.stmt s.running.1 s.running.2) (.rows recs m)) ∧ s' = { s with phase := .ready, ledger := s.ledger.complete s.running.1 s.running.2 }) ∨
      (ts = recs.map Spec.record ++ [Spec.failure m] ∧ (rows = true → D s.ledger (s.ledger.stmt s.running.1 s.running.2) (.failed m)) ∧ s' = { s with phase := .failed })) := by
  intro rows hp fs ht
  cases h with
  | pull rows' fs' recs m h hr hd => rw [h] at hp; cases hp; exact ⟨recs, m, hr, .inl ⟨rfl, hd, rfl⟩⟩
  | pullFailure rows' fs' recs m h hr hd => rw [h] at hp; cases hp; exact ⟨recs, m, hr, .inr ⟨rfl, hd, rfl⟩⟩
  | init | initFailure | run | runFailure | tx | txFailure | ignored | reset | resetFailure | goodbye => simp_all

theorem Spec.TReply.pull_failed {D : Database} {s s' : Session} {t : PS} {ts : List PS} (h : TReply D s t ts s') : s.phase = .failed → ∀ fs, t = .struct 0x3F fs →
    ts = [ignoredTree] ∧ s' = s := by
  cases h <;> intro hp fs ht <;> simp_all [txVerbs]

theorem Spec.TReply.reset_inv {D : Database} {s s' : Session} {t : PS} {ts : List PS} (h : TReply D s t ts s') : s.phase = .failed → t = .struct 0x0F [] →
    (∃ m, ts = [Spec.success m] ∧ s' = { s with phase := .ready, ledger := s.ledger.drop }) ∨
    (∃ m, ts = [Spec.failure m] ∧ s' = { s with phase := .defunct, ledger := s.ledger.drop }) := by
  intro hp ht
  cases h <;> simp_all [txVerbs] <;> exact ⟨_, rfl⟩

theorem Spec.TReply.goodbye_inv {D : Database} {s s' : Session} {t : PS} {ts : List PS} (h : TReply D s t ts s') : s.phase = .ready → t = .struct 0x02 [] →
    ts = [] ∧ s' = { s with phase := .defunct, ledger := s.ledger.drop } := by
  intro hp ht
  cases h <;> simp_all [txVerbs]

theorem Spec.TServes.follows {σ : Type} {D : Database} {W : World σ} {sess : σ → Session} (h : TServes D W sess) : Follows W (fun w => (sess w).phase) where
  reply w ws t hc hd hl := by
    obtain ⟨g1, ts, g2, g3⟩ := h.reply w ws t hc hd hl
    exact ⟨g1, ts, g2.reply, g3⟩
  silent w ws hd := by
    obtain ⟨g1, g2⟩ := h.silent w ws hd
    exact ⟨by rw [g1]; exact hd, g2⟩
  greet w pre h1 h2 := ⟨(h.greet w pre h1 h2).1, (h.greet w pre h1 h2).2.2⟩

theorem failures_append (a b : List Ev) : failures (a ++ b) = failures a + failures b := List.countP_append

/-- What the caller gets for an outcome: the rows and the metadata, or an error with the metadata of the failure. -/
def Spec.Gives (env : Env) (ver : Ver) : Outcome → CRes (List (List Val) × Entries) → Prop
  | .rows recs m, r => ∃ rows md, RowsMean env ver recs rows ∧ interpEntries env ver m [] = some md ∧ r = .ok (rows, md)
  | .failed m, r => ∃ md what, interpEntries env ver m [] = some md ∧ r = .err ((GoErr.failure md).wrap what)

theorem means_success (env : Env) {ver : Ver} {m : List (Bytes × PS)} {vs : List Val} (h : Means env ver [Spec.success m] vs) :
    ∃ md, vs = [successV md] ∧ interpEntries env ver m [] = some md := by
  obtain ⟨md, rfl⟩ := means_one_success env h
  refine ⟨md, rfl, ?_⟩
  have h := h.1
  simp only [Spec.success, interp, interpList] at h
  cases hm : interpEntries env ver m [] with
  | none => simp [hm] at h
  | some md => simp [hm, structOf, successV] at h; rw [h]

theorem means_failure (env : Env) {ver : Ver} {m : List (Bytes × PS)} {vs : List Val} (h : Means env ver [Spec.failure m] vs) :
    ∃ md, vs = [failureV md] ∧ interpEntries env ver m [] = some md := by
  obtain ⟨md, rfl⟩ := means_one_failure env h
  refine ⟨md, rfl, ?_⟩
  have h := h.1
  simp only [Spec.failure, interp, interpList] at h
  cases hm : interpEntries env ver m [] with
  | none => simp [hm] at h
  | some md => simp [hm, structOf, failureV] at h; rw [h]

theorem means_rows (env : Env) {ver : Ver} {t : PS} : {recs : List (List PS)} → {vs : List Val} → Means env ver (recs.map Spec.record ++ [t]) vs →
    ∃ rows v, vs = rows.map recordV ++ [v] ∧ Means env ver [t] [v] ∧ RowsMean env ver recs rows
  | [], [v], h => ⟨[], v, rfl, h, trivial⟩
  | fs :: _, _ :: _, ⟨h1, h2⟩ => by
    obtain ⟨row, rfl⟩ := interp_record_inv env h1
    obtain ⟨rows, v, rfl, h3, h4⟩ := means_rows env h2
    refine ⟨row :: rows, v, rfl, h3, ?_, h4⟩
    simp only [Spec.record, interp, interpList] at h1
    cases hm : interpList env ver fs with
    | none => simp [hm] at h1
    | some row' => simp [hm, structOf, recordV] at h1; rw [h1]

section
variable {σ : Type} (env : Env) {W : World σ} (sess : σ → Session)

/-- The server's session is `s`, and the messages `vs` are unread. -/
def AtS (s : Session) (vs : List Val) (c : Conn σ) : Prop := c.sock = true ∧ sess c.world = s ∧ Reads env c.proto.codec vs c.segs.flatten []

/-- The ledger of the session. -/
def ledgerOf (c : Conn σ) : Ledger := (sess c.world).ledger

/-- The call succeeded and the ledger is now `l`. -/
def Worked {α : Type} (l : Ledger) (c : Conn σ) (r : CRes α × Conn σ) : Prop :=
  (∃ a, r.1 = .ok a) ∧ r.2.core = c.core ∧ ledgerOf sess r.2 = l ∧ failures r.2.trace = failures c.trace

/-- The server reported a failure: the call failed, and the transaction is lost. -/
def Broke {α : Type} (c : Conn σ) (r : CRes α × Conn σ) : Prop :=
  (∀ a, r.1 ≠ .ok a) ∧ r.2.cur = c.cur ∧ r.2.txs = c.txs ∧ ledgerOf sess r.2 = (ledgerOf sess c).drop ∧ failures c.trace < failures r.2.trace

/-- The call failed and changed nothing but the server's bytes. -/
def Stays {α : Type} (c : Conn σ) (r : CRes α × Conn σ) : Prop :=
  (∀ a, r.1 ≠ .ok a) ∧ r.2.cur = c.cur ∧ r.2.txs = c.txs ∧ ledgerOf sess r.2 = ledgerOf sess c

variable {sess} {D : Database} (hT : TServes D W sess)

theorem failures_got (c : Conn σ) (vs : List Val) (s : List Bytes) : failures (c.got vs s).trace = failures c.trace + failures (vs.map .recv) := failures_append _ _
theorem failures_sent (c : Conn σ) (v : Val) : failures (c.sent env W v).trace = failures c.trace := by
  show failures (c.trace ++ [_]) = _
  rw [failures_append]; rfl

theorem failures_mono {c c' : Conn σ} (h : c.trace <+: c'.trace) : failures c.trace ≤ failures c'.trace := by
  obtain ⟨t, ht⟩ := h
  rw [← ht, failures_append]; omega

include hT

theorem dead_receive {c : Conn σ} (h : Dead (fun w => (sess w).phase) c) :
    ∃ e c1, receive env c = (.err e, c1) ∧ c1.core = c.core ∧ c1.world = c.world := by
  unfold receive
  split
  · exact ⟨_, _, rfl, rfl, rfl⟩
  · split
    · exact ⟨_, _, rfl, rfl, rfl⟩
    · rename_i b s hm
      have := readMsg_flat c.fin c.segs
      rw [hm, h.2] at this
      simp [readFlat, RRes.flat] at this

theorem dead_consume {reset : CM σ Unit} {c : Conn σ} (h : Dead (fun w => (sess w).phase) c) :
    ∃ e c1, consumeWith env reset c = (.err e, c1) ∧ c1.core = c.core ∧ c1.world = c.world := by
  obtain ⟨e, c1, h1, h2⟩ := dead_receive env hT h
  exact ⟨e, c1, CM.bind_err h1, h2⟩

theorem dead_send {c : Conn σ} (v : Val) (h : Dead (fun w => (sess w).phase) c) :
    Dead (fun w => (sess w).phase) (sendMessage env W v c).2 ∧ (sendMessage env W v c).2.core = c.core ∧ ledgerOf sess (sendMessage env W v c).2 = ledgerOf sess c := by
  refine ⟨((dead_prim env c.proto hT.follows).send v c rfl h).1.2, sendMessage_core env W v c, ?_⟩
  unfold sendMessage writeAll ledgerOf
  dsimp only
  split
  · split <;> rfl
  · split
    · rfl
    · rename_i hs
      have := (hT.silent c.world (encodeMsg env c.proto.codec c.chunkSize v).1 (h.1.resolve_left hs)).1
      split
      · split <;> exact congrArg Session.ledger this
      · exact congrArg Session.ledger this

theorem dead_txExchange {reset : CM σ Unit} {c : Conn σ} (msg : Val) (what : String) (h : Dead (fun w => (sess w).phase) c) :
    Stays sess c (txExchange env W (consumeWith env reset) msg what c) := by
  have fin : ∀ {α : Type} {r : CRes α × Conn σ} {e : Err} {c1 : Conn σ}, r = (.err e, c1) → c1.core = c.core → ledgerOf sess c1 = ledgerOf sess c → Stays sess c r := by
    rintro α r e c1 rfl h1 h2
    exact ⟨fun a => by simp, congrArg Core.cur h1, congrArg Core.txs h1, h2⟩
  have bad : ∀ {α β : Type} {m : CM σ α} {f : α → CM σ β} {c0 : Conn σ}, (∀ a, (m c0).1 ≠ .ok a) → (m c0).2.core = c.core → ledgerOf sess (m c0).2 = ledgerOf sess c →
      Stays sess c ((m >>= f) c0) := by
    intro α β m f c0 h1 h2 h3
    match hm : m c0 with
    | (.ok a, c1) => rw [hm] at h1; exact absurd rfl (h1 a)
    | (.err e, c1) => rw [hm] at h2 h3; rw [CM.bind_err hm]; exact ⟨fun a => by simp, congrArg Core.cur h2, congrArg Core.txs h2, h3⟩
    | (.panic, c1) => rw [hm] at h2 h3; rw [CM.bind_panic hm]; exact ⟨fun a => by simp, congrArg Core.cur h2, congrArg Core.txs h2, h3⟩
    | (.fuel, c1) => rw [hm] at h2 h3; rw [CM.bind_fuel hm]; exact ⟨fun a => by simp, congrArg Core.cur h2, congrArg Core.txs h2, h3⟩
  obtain ⟨a1, a2, a3⟩ := dead_send env hT msg h
  unfold txExchange
  match hs : sendMessage env W msg c with
  | (.err e, c1) => rw [hs] at a2 a3; exact fin (CM.bind_err hs) a2 a3
  | (.panic, c1) => rw [CM.bind_panic hs]; rw [hs] at a2 a3; exact ⟨fun a => by simp, congrArg Core.cur a2, congrArg Core.txs a2, a3⟩
  | (.fuel, c1) => rw [CM.bind_fuel hs]; rw [hs] at a2 a3; exact ⟨fun a => by simp, congrArg Core.cur a2, congrArg Core.txs a2, a3⟩
  | (.ok (), c1) =>
    rw [hs] at a1 a2 a3
    rw [CM.bind_ok hs]
    split
    · obtain ⟨e, c2, k1, k2, k3⟩ := dead_consume env hT (reset := reset) a1
      exact fin (CM.bind_err k1) (k2.trans a2) (by rw [← a3]; unfold ledgerOf; rw [k3])
    · rw [CM.get_bind]
      obtain ⟨b1, b2, b3⟩ := dead_send env hT c1.proto.pullAllMessage a1
      match hs2 : sendMessage env W c1.proto.pullAllMessage c1 with
      | (.err e, c2) => rw [hs2] at b2 b3; exact fin (CM.bind_err hs2) (b2.trans a2) (b3.trans a3)
      | (.panic, c2) => rw [hs2] at b2 b3; exact bad (by rw [hs2]; simp) (by rw [hs2]; exact b2.trans a2) (by rw [hs2]; exact b3.trans a3)
      | (.fuel, c2) => rw [hs2] at b2 b3; exact bad (by rw [hs2]; simp) (by rw [hs2]; exact b2.trans a2) (by rw [hs2]; exact b3.trans a3)
      | (.ok (), c2) =>
        rw [hs2] at b1 b2 b3
        rw [CM.bind_ok hs2]
        obtain ⟨e, c3, k1, k2, k3⟩ := dead_consume env hT (reset := reset) b1
        exact fin (CM.bind_err k1) (k2.trans (b2.trans a2)) (by rw [← a3, ← b3]; unfold ledgerOf; rw [k3])

theorem Stays.bind {α β : Type} {m : CM σ α} {f : α → CM σ β} {c : Conn σ} (h : Stays sess c (m c)) : Stays sess c ((m >>= f) c) := by
  obtain ⟨h1, h2⟩ := h
  match hm : m c with
  | (.ok a, c1) => rw [hm] at h1; exact absurd rfl (h1 a)
  | (.err e, c1) => rw [hm] at h2; rw [CM.bind_err hm]; exact ⟨fun a => by simp, h2⟩
  | (.panic, c1) => rw [hm] at h2; rw [CM.bind_panic hm]; exact ⟨fun a => by simp, h2⟩
  | (.fuel, c1) => rw [hm] at h2; rw [CM.bind_fuel hm]; exact ⟨fun a => by simp, h2⟩

theorem dead_endWith {reset : CM σ Unit} {c : Conn σ} (m : Proto → Val) (what : String) (n : Nat) (h : Dead (fun w => (sess w).phase) c) :
    Stays sess c (endWith env W (consumeWith env reset) m what n c) := by
  rw [endWith_apply]
  split
  · exact ⟨fun a => by simp, rfl, rfl, rfl⟩
  · exact Stays.bind hT (dead_txExchange env hT _ _ h)

theorem dead_goodbye {c : Conn σ} (h : Dead (fun w => (sess w).phase) c) :
    (goodbye env W c).2.cur = c.cur ∧ (goodbye env W c).2.txs = c.txs ∧ ledgerOf sess (goodbye env W c).2 = ledgerOf sess c := by
  have hs : ∀ c1 : Conn σ, (closeSock W c1).2.cur = c1.cur ∧ (closeSock W c1).2.txs = c1.txs ∧ ledgerOf sess (closeSock W c1).2 = ledgerOf sess c1 := by
    intro c1
    unfold closeSock
    dsimp only
    split <;> exact ⟨rfl, rfl, rfl⟩
  rw [goodbye_apply]
  split
  · rename_i m _
    obtain ⟨_, a2, a3⟩ := dead_send env hT m h
    match hm : sendMessage env W m c with
    | (.ok (), c1) =>
      rw [hm] at a2 a3
      rw [CM.bind_ok hm]
      obtain ⟨k1, k2, k3⟩ := hs c1
      exact ⟨k1.trans (congrArg Core.cur a2), k2.trans (congrArg Core.txs a2), k3.trans a3⟩
    | (.err e, c1) => rw [hm] at a2 a3; rw [CM.bind_err hm]; exact ⟨congrArg Core.cur a2, congrArg Core.txs a2, a3⟩
    | (.panic, c1) => rw [hm] at a2 a3; rw [CM.bind_panic hm]; exact ⟨congrArg Core.cur a2, congrArg Core.txs a2, a3⟩
    | (.fuel, c1) => rw [hm] at a2 a3; rw [CM.bind_fuel hm]; exact ⟨congrArg Core.cur a2, congrArg Core.txs a2, a3⟩
  · exact hs c

/-- After the end of the session, closing the connection changes neither the transaction nor the ledger. -/
theorem dead_closeWith {reset : CM σ Unit} {c : Conn σ} (h : Dead (fun w => (sess w).phase) c) :
    let r := closeWith env W (rollbackWith env W (consumeWith env reset)) c
    r.2.cur = c.cur ∧ r.2.txs = c.txs ∧ ledgerOf sess r.2 = ledgerOf sess c := by
  dsimp only
  rw [closeWith_apply]
  split
  · exact ⟨rfl, rfl, rfl⟩
  · cases hc : c.cur with
    | none =>
      have : endCur (rollbackWith env W (consumeWith env reset)) c = (.ok (), c) := by rw [endCur_apply, hc]
      rw [CM.bind_ok this, ← hc]
      exact dead_goodbye env hT h
    | some n =>
      have h1 : Stays sess c (endCur (rollbackWith env W (consumeWith env reset)) c) := by
        rw [endCur_apply, hc]
        exact dead_endWith env hT _ _ n h
      have := (Stays.bind hT (f := fun _ => goodbye env W) h1).2
      rw [← hc]
      exact this

omit hT in
theorem sendMessage_calm (v : Val) (c : Conn σ) : (∃ u, (sendMessage env W v c).1 = .ok u) ∨ ∃ e, (sendMessage env W v c).1 = .err e := by
  unfold sendMessage writeAll
  dsimp only
  split
  · split <;> simp
  · split
    · simp
    · split
      · split <;> simp
      · simp

omit hT in
theorem closeSock_calm (c : Conn σ) : (closeSock W c).1 ≠ .panic ∧ (closeSock W c).1 ≠ .fuel := by
  unfold closeSock
  dsimp only
  split <;> exact ⟨by simp, by simp⟩

omit hT in
theorem goodbye_calm (c : Conn σ) : (goodbye env W c).1 ≠ .panic ∧ (goodbye env W c).1 ≠ .fuel := by
  rw [goodbye_apply]
  split
  · rename_i m _
    rcases sendMessage_calm env (W := W) m c with ⟨u, h⟩ | ⟨e, h⟩
    · rw [CM.bind_ok (Prod.ext (x := sendMessage env W m c) (y := (.ok u, (sendMessage env W m c).2)) h rfl)]
      exact closeSock_calm _
    · rw [CM.bind_err (Prod.ext (x := sendMessage env W m c) (y := (.err e, (sendMessage env W m c).2)) h rfl)]
      exact ⟨by simp, by simp⟩
  · exact closeSock_calm _

/-- After the end of the session every exchange fails with an error. -/
theorem dead_txExchange_err {reset : CM σ Unit} {c : Conn σ} (msg : Val) (what : String) (h : Dead (fun w => (sess w).phase) c) :
    ∃ e c', txExchange env W (consumeWith env reset) msg what c = (.err e, c') := by
  unfold txExchange
  have a1 := (dead_send env hT msg h).1
  rcases sendMessage_calm env (W := W) msg c with ⟨u, hs⟩ | ⟨e, hs⟩
  · rw [CM.bind_ok (Prod.ext (x := sendMessage env W msg c) (y := (.ok u, (sendMessage env W msg c).2)) hs rfl)]
    split
    · obtain ⟨e, c2, k1, _⟩ := dead_consume env hT (reset := reset) a1
      exact ⟨e, c2, CM.bind_err k1⟩
    · rw [CM.get_bind]
      generalize (sendMessage env W msg c).2 = c1 at *
      have b1 := (dead_send env hT c1.proto.pullAllMessage a1).1
      rcases sendMessage_calm env (W := W) c1.proto.pullAllMessage c1 with ⟨u, hs⟩ | ⟨e, hs⟩
      · rw [CM.bind_ok (Prod.ext (x := sendMessage env W c1.proto.pullAllMessage c1) (y := (.ok u, (sendMessage env W c1.proto.pullAllMessage c1).2)) hs rfl)]
        obtain ⟨e, c2, k1, _⟩ := dead_consume env hT (reset := reset) b1
        exact ⟨e, c2, CM.bind_err k1⟩
      · exact ⟨e, _, CM.bind_err (Prod.ext (x := sendMessage env W c1.proto.pullAllMessage c1) (y := (.err e, (sendMessage env W c1.proto.pullAllMessage c1).2)) hs rfl)⟩
  · exact ⟨e, _, CM.bind_err (Prod.ext (x := sendMessage env W msg c) (y := (.err e, (sendMessage env W msg c).2)) hs rfl)⟩

theorem dead_closeWith_calm {reset : CM σ Unit} {c : Conn σ} (h : Dead (fun w => (sess w).phase) c) :
    let r := closeWith env W (rollbackWith env W (consumeWith env reset)) c
    r.1 ≠ .panic ∧ r.1 ≠ .fuel := by
  dsimp only
  rw [closeWith_apply]
  split
  · exact ⟨by simp, by simp⟩
  · cases hc : c.cur with
    | none =>
      have : endCur (rollbackWith env W (consumeWith env reset)) c = (.ok (), c) := by rw [endCur_apply, hc]
      rw [CM.bind_ok this]
      exact goodbye_calm env c
    | some n =>
      have h1 : ∃ e c', endCur (rollbackWith env W (consumeWith env reset)) c = (.err e, c') := by
        rw [endCur_apply, hc]
        show ∃ e c', endWith env W (consumeWith env reset) _ _ n c = _
        rw [endWith_apply]
        split
        · exact ⟨_, _, rfl⟩
        · obtain ⟨e, c', h1⟩ := dead_txExchange_err env hT (reset := reset) (Proto.txRollbackMessage c.proto) _ h
          exact ⟨e, c', CM.bind_err h1⟩
      obtain ⟨e, c', h1⟩ := h1
      rw [CM.bind_err h1]
      exact ⟨by simp, by simp⟩

/-- A request that is allowed now is delivered, and its answers come after what is unread. -/
theorem send_t {c : Conn σ} (hU : Understood env c.proto.codec W) {s : Session} {pend : List Val} {v : Val} {t : PS} (h : AtS env sess s pend c)
    (he : (encodeMsg env c.proto.codec c.chunkSize v).2 = none) (hc : Carries t (encodeMsg env c.proto.codec c.chunkSize v).1)
    (hd : s.phase ≠ .defunct) (hl : ∃ ts ph', Reply s.phase t ts ph') :
    sendMessage env W v c = (.ok (), c.sent env W v) ∧
    ∃ ts vs s', TReply D s t ts s' ∧ Means env c.proto.codec ts vs ∧ AtS env sess s' (pend ++ vs) (c.sent env W v) := by
  obtain ⟨h1, h2, h3⟩ := h
  obtain ⟨g1, ts, g2, g3⟩ := hT.reply c.world _ t hc (by rw [h2]; exact hd) (by rw [h2]; exact hl)
  obtain ⟨g5, vs, g4⟩ := hU _ _ _ g3
  refine ⟨sendMessage_good env W h1 he g1, ts, vs, _, by rw [h2] at g2; exact g2, g4, h1, rfl, ?_⟩
  have := Reads.append env (Reads.extend env (W.onSend c.world (encodeMsg env c.proto.codec c.chunkSize v).1).segs.flatten h3) (Answers.reads env g5 g4)
  simpa [Conn.sent] using this

variable {lo : Nat} (hlo : 8 ≤ lo)
include hlo

/-- RESET after a failure, with any number of ignored requests: the transaction is lost. -/
theorem reset_drops (fuel k : Nat) {c : Conn σ} (hU : Understood env c.proto.codec W) (hcs : lo ≤ c.chunkSize ∧ c.chunkSize ≤ 65535) {s : Session} (hs : s.phase = .failed)
    (h : AtS env sess s (List.replicate k ignoredV) c) :
    let r := reset env W (fuel + 1) c
    r.2.cur = c.cur ∧ r.2.txs = c.txs ∧ ledgerOf sess r.2 = s.ledger.drop ∧ r.1 ≠ .panic ∧ r.1 ≠ .fuel := by
  dsimp only
  obtain ⟨g1, ts, vs, s', g2, g3, g4⟩ := send_t env hT hU h (reset_enc env _ _) (carries_reset env c.proto.codec (by omega) hcs.2) (by rw [hs]; simp)
    ⟨_, _, by rw [hs]; exact Reply.reset .failed [] (by simp) (by simp) (by simp)⟩
  obtain ⟨a1, a2, a3⟩ := g4
  have hlen := Reads.length env a3
  rcases g2.reset_inv hs rfl with ⟨m, rfl, rfl⟩ | ⟨m, rfl, rfl⟩
  · obtain ⟨md, rfl⟩ := means_one_success env g3
    obtain ⟨sg, j1, j2⟩ := reset_works env W fuel h.1 (k := k) (md := md) (vs := []) (rest := []) (sendMessage_ok env W g1).2.2.1 (by
      simpa [Conn.sent] using a3)
    rw [j1]
    refine ⟨rfl, rfl, ?_, by simp, by simp⟩
    show (sess (c.sent env W newResetMessage).world).ledger = _
    rw [a2]
  · obtain ⟨md, rfl⟩ := means_one_failure env g3
    obtain ⟨sg, j1, j2⟩ := resetLoop_failure env (close := closeWith env W (rollbackWith env W (consumeWith env (reset env W fuel)))) k
      (streamLen (c.sent env W newResetMessage).segs + 1) (c.sent env W newResetMessage) md [] [] a1 (by
        rw [streamLen_eq]
        simp only [List.length_append, List.length_replicate, List.length_cons] at hlen
        omega) a3
    have e : reset env W (fuel + 1) c = CM.thenFail (closeWith env W (rollbackWith env W (consumeWith env (reset env W fuel))))
        ((GoErr.failure md).wrap "Error resetting session. CLOSING SESSION!") ((c.sent env W newResetMessage).got (List.replicate k ignoredV ++ [failureV md]) sg) := by
      rw [← j1]
      exact CM.bind_ok (m := CM.mapErr (fun e => e.wrap "An error occurred encoding reset message") (sendMessage env W newResetMessage))
          (f := fun _ c => resetLoop env (closeWith env W (rollbackWith env W (consumeWith env (reset env W fuel)))) (streamLen c.segs + 1) c)
          (CM.mapErr_eq_ok.mpr g1)
    rw [e, CM.thenFail_snd]
    have hdead : Dead (fun w => (sess w).phase) ((c.sent env W newResetMessage).got (List.replicate k ignoredV ++ [failureV md]) sg) :=
      ⟨.inr (congrArg Session.phase a2), j2⟩
    obtain ⟨k1, k2, k3⟩ := dead_closeWith env hT (reset := reset env W fuel) hdead
    obtain ⟨k4, k5⟩ := dead_closeWith_calm env hT (reset := reset env W fuel) hdead
    refine ⟨k1, k2, k3.trans ?_, ?_⟩
    · show (sess (c.sent env W newResetMessage).world).ledger = _
      rw [a2]
    · unfold CM.thenFail
      match hx : closeWith env W (rollbackWith env W (consumeWith env (reset env W fuel))) ((c.sent env W newResetMessage).got (List.replicate k ignoredV ++ [failureV md]) sg) with
      | (.ok _, _) => exact ⟨by simp, by simp⟩
      | (.err _, _) => exact ⟨by simp, by simp⟩
      | (.panic, _) => exact absurd (by rw [hx]) k4
      | (.fuel, _) => exact absurd (by rw [hx]) k5

/-- What follows a FAILURE. -/
theorem failTail_broke {α : Type} (fuel k : Nat) (md : Entries) {c0 c : Conn σ} (hU : Understood env c.proto.codec W) (hcs : lo ≤ c.chunkSize ∧ c.chunkSize ≤ 65535)
    {s : Session} (hs : s.phase = .failed) (h : AtS env sess s (List.replicate k ignoredV) c) (h1 : c.cur = c0.cur) (h2 : c.txs = c0.txs)
    (h3 : s.ledger = ledgerOf sess c0) (h4 : failures c0.trace < failures c.trace) :
    Broke sess c0 ((failTail (reset env W (fuel + 1)) md : CM σ α) c) ∧ ∃ what, ((failTail (reset env W (fuel + 1)) md : CM σ α) c).1 = .err ((GoErr.failure md).wrap what) := by
  have hr := reset_drops env hT hlo fuel k hU hcs hs h
  have hg := failures_mono ((grows env W).reset env W (fuel + 1) c)
  dsimp only at hr
  rw [failTail_apply]
  match hx : reset env W (fuel + 1) c with
  | (.ok _, c1) => rw [hx] at hr hg; exact ⟨⟨fun a => by simp, hr.1.trans h1, hr.2.1.trans h2, by rw [← h3]; exact hr.2.2.1, Nat.lt_of_lt_of_le h4 hg⟩, _, rfl⟩
  | (.err _, c1) => rw [hx] at hr hg; exact ⟨⟨fun a => by simp, hr.1.trans h1, hr.2.1.trans h2, by rw [← h3]; exact hr.2.2.1, Nat.lt_of_lt_of_le h4 hg⟩, _, rfl⟩
  | (.panic, c1) => rw [hx] at hr; exact absurd rfl hr.2.2.2.1
  | (.fuel, c1) => rw [hx] at hr; exact absurd rfl hr.2.2.2.2

omit hlo hT in
theorem failures_recv_failure (vs : List Val) (md : Entries) (ws : List Val) : 0 < failures ((vs ++ failureV md :: ws).map .recv) := by
  rw [List.map_append, failures_append]
  show 0 < _ + failures (.recv (failureV md) :: ws.map .recv)
  rw [show (Ev.recv (failureV md) :: ws.map .recv) = [Ev.recv (failureV md)] ++ ws.map .recv from rfl, failures_append]
  have : failures [Ev.recv (failureV md)] = 1 := rfl
  omega

omit hlo hT in
theorem failures_records : (rows : List (List Val)) → (md : Entries) → failures ((rows.map recordV ++ [successV md]).map .recv) = 0
  | [], _ => rfl
  | r :: rows, md => by
    have := failures_records rows md
    rw [List.map_append, failures_append] at this ⊢
    show failures ([Ev.recv (recordV r)] ++ (rows.map recordV).map .recv) + _ = 0
    rw [failures_append]
    have h : failures [Ev.recv (recordV r)] = 0 := rfl
    omega

/-- Beginning or ending a transaction: either the server accepted it, or it reported a failure. -/
theorem txExchange_ledger (fuel : Nat) {msg : Val} (what : String) {c : Conn σ} (hU : Understood env c.proto.codec W) (hcs : lo ≤ c.chunkSize ∧ c.chunkSize ≤ 65535)
    {s : Session} (hr : s.phase = .ready) (h : AtS env sess s [] c) (he : (encodeMsg env c.proto.codec c.chunkSize msg).2 = none) {q : Bytes} {fs : List PS}
    (hm : (isTxMsg msg = true ∧ ∃ sig, (sig, q) ∈ txVerbs ∧ Carries (.struct sig fs) (encodeMsg env c.proto.codec c.chunkSize msg).1) ∨
      (isTxMsg msg = false ∧ q ∈ controlVerbs ∧ Carries (.struct 0x10 (.str q :: fs)) (encodeMsg env c.proto.codec c.chunkSize msg).1)) :
    let r := txExchange env W (consume env W (fuel + 1)) msg what c
    ((ledgerOf sess c).Allows q ∧ Worked sess ((ledgerOf sess c).complete q fs) c r) ∨ Broke sess c r := by
  dsimp only
  unfold txExchange
  have hl : ledgerOf sess c = s.ledger := congrArg Session.ledger h.2.1
  have hpe : (encodeMsg env c.proto.codec c.chunkSize c.proto.pullAllMessage).2 = none := by
    have : (encode env c.proto.codec c.proto.pullAllMessage).2 = none := by cases c.proto <;> rfl
    rw [encodeMsg_ok this]
  rcases hm with ⟨hm, sig, hsig, hc⟩ | ⟨hm, hq, hc⟩
  · have hsig' : sig ∈ [0x11, 0x12, 0x13] := by
      simp only [txVerbs, List.mem_cons, Prod.mk.injEq, List.not_mem_nil, or_false] at hsig
      rcases hsig with ⟨h, _⟩ | ⟨h, _⟩ | ⟨h, _⟩ <;> simp [h]
    obtain ⟨s1, ts, vs, s', r1, m1, a1⟩ := send_t env hT hU h he hc (by rw [hr]; simp) ⟨_, _, by rw [hr]; exact Reply.tx sig fs [] hsig'⟩
    have hf1 := failures_sent env (W := W) c msg
    have hcore : (c.sent env W msg).core = c.core := rfl
    obtain ⟨c1, hc1⟩ : ∃ c1, c1 = c.sent env W msg := ⟨_, rfl⟩
    have hp1 : c1.proto = c.proto := by rw [hc1]; rfl
    have hk1 : c1.chunkSize = c.chunkSize := by rw [hc1]; rfl
    rw [← hc1] at s1 a1 hf1 hcore
    rw [CM.bind_ok s1, hm, if_pos rfl]
    obtain ⟨b1, b2, b3⟩ := a1
    rcases r1.tx_inv hr sig q fs hsig rfl with ⟨m, rfl, hal, rfl⟩ | ⟨m, rfl, rfl⟩
    · obtain ⟨md, rfl⟩ := means_one_success env m1
      obtain ⟨g, k1, k2⟩ := consume_reads env (reset := reset env W (fuel + 1)) b1 (by rfl) b3
      rw [CM.bind_ok (show consume env W (fuel + 1) c1 = _ from k1), hl]
      refine .inl ⟨hal, ⟨(), rfl⟩, hcore, ?_, ?_⟩
      · show (sess c1.world).ledger = _
        rw [b2]
      · show failures (c1.got [successV md] g).trace = _
        rw [failures_got, hf1]; rfl
    · obtain ⟨md, rfl⟩ := means_one_failure env m1
      obtain ⟨g, k2, k1⟩ := consume_failure env (reset := reset env W (fuel + 1)) b1 b3
      rw [failTail_bind (show consume env W (fuel + 1) c1 = failTail (reset env W (fuel + 1)) md _ from k1)]
      refine .inr (failTail_broke env hT hlo fuel 0 md (c := c1.got [failureV md] g) (by show Understood env c1.proto.codec W; rw [hp1]; exact hU)
        ⟨by show _ ≤ c1.chunkSize; omega, by show c1.chunkSize ≤ _; omega⟩ (s := { s with phase := .failed }) rfl ⟨b1, b2, k2⟩
        (congrArg Core.cur hcore) (congrArg Core.txs hcore) hl.symm ?_).1
      rw [failures_got, hf1]
      exact Nat.lt_add_of_pos_right (failures_recv_failure [] md [])
  · obtain ⟨s1, ts, vs, s', r1, m1, a1⟩ := send_t env hT hU h he hc (by rw [hr]; simp) ⟨_, _, by rw [hr]; exact Reply.run q fs []⟩
    have hf1 := failures_sent env (W := W) c msg
    have hcore : (c.sent env W msg).core = c.core := rfl
    obtain ⟨c1, hc1⟩ : ∃ c1, c1 = c.sent env W msg := ⟨_, rfl⟩
    have hp1 : c1.proto = c.proto := by rw [hc1]; rfl
    have hk1 : c1.chunkSize = c.chunkSize := by rw [hc1]; rfl
    rw [← hc1] at s1 a1 hf1 hcore
    rw [CM.bind_ok s1, hm, if_neg (by simp), CM.get_bind]
    have hpt : ∃ fs, pullTree c1.proto = .struct 0x3F fs := by cases c1.proto <;> exact ⟨_, rfl⟩
    obtain ⟨pfs, hpt⟩ := hpt
    have hpc := carries_pullAllMessage env c1.proto (cs := c1.chunkSize) (by omega) (by omega)
    rw [hpt] at hpc
    have hpe1 : (encodeMsg env c1.proto.codec c1.chunkSize c1.proto.pullAllMessage).2 = none := by rw [hp1, hk1]; exact hpe
    have hU1 : Understood env c1.proto.codec W := by rw [hp1]; exact hU
    have hf2 := failures_sent env (W := W) c1 c1.proto.pullAllMessage
    have hcore2 : (c1.sent env W c1.proto.pullAllMessage).core = c1.core := rfl
    obtain ⟨c2, hc2⟩ : ∃ c2, c2 = c1.sent env W c1.proto.pullAllMessage := ⟨_, rfl⟩
    have hp2 : c2.proto = c.proto := by rw [hc2, ← hp1]; rfl
    have hk2 : c2.chunkSize = c.chunkSize := by rw [hc2, ← hk1]; rfl
    have hU2 : Understood env c2.proto.codec W := by rw [hp2]; exact hU
    rcases r1.run_inv hr q fs rfl with ⟨m, rfl, hal, rfl⟩ | ⟨m, rfl, _, rfl⟩
    · obtain ⟨md, rfl⟩ := means_one_success env m1
      obtain ⟨s2, ts2, vs2, ph2, r2, m2, a2⟩ := send_t env hT hU1 a1 hpe1 hpc (by simp) ⟨_, _, Reply.pull _ pfs [] [] (by simp)⟩
      rw [← hc2] at s2 a2 hf2 hcore2
      rw [CM.bind_ok s2]
      obtain ⟨b1, b2, b3⟩ := a2
      obtain ⟨recs, m', hrec, hh⟩ := r2.pull_inv _ rfl pfs rfl
      have hrec := hrec (by simp [hq])
      subst hrec
      rcases hh with ⟨rfl, _, rfl⟩ | ⟨rfl, _, rfl⟩
      · obtain ⟨md2, rfl⟩ := means_one_success env m2
        obtain ⟨g, k1, k2⟩ := consume_reads env (reset := reset env W (fuel + 1)) b1 (by rfl) b3
        rw [CM.bind_ok (show consume env W (fuel + 1) c2 = _ from k1)]
        obtain ⟨g', j1, j2⟩ := consume_reads env (reset := reset env W (fuel + 1)) (c := c2.got [successV md] g) b1 (by rfl) k2
        rw [CM.bind_ok (show consume env W (fuel + 1) (c2.got [successV md] g) = _ from j1), got_got, hl]
        refine .inl ⟨hal, ⟨(), rfl⟩, hcore2.trans hcore, ?_, ?_⟩
        · show (sess c2.world).ledger = _
          rw [b2]
        · show failures (c2.got _ g').trace = _
          rw [failures_got, hf2, hf1]; rfl
      · obtain ⟨md2, rfl⟩ := means_one_failure env m2
        obtain ⟨g, k1, k2⟩ := consume_reads env (reset := reset env W (fuel + 1)) b1 (by rfl) b3
        rw [CM.bind_ok (show consume env W (fuel + 1) c2 = _ from k1)]
        obtain ⟨g', j2, j1⟩ := consume_failure env (reset := reset env W (fuel + 1)) (c := c2.got [successV md] g) b1 k2
        rw [got_got] at j1
        rw [failTail_bind (show consume env W (fuel + 1) (c2.got [successV md] g) = failTail (reset env W (fuel + 1)) md2 _ from j1)]
        refine .inr (failTail_broke env hT hlo fuel 0 md2 (c := c2.got ([successV md] ++ [failureV md2]) g') hU2
          ⟨by show _ ≤ c2.chunkSize; omega, by show c2.chunkSize ≤ _; omega⟩ rfl ⟨b1, b2, j2⟩
          (congrArg Core.cur (hcore2.trans hcore)) (congrArg Core.txs (hcore2.trans hcore)) hl.symm ?_).1
        rw [failures_got, hf2, hf1]
        exact Nat.lt_add_of_pos_right (failures_recv_failure [successV md] md2 [])
    · obtain ⟨md, rfl⟩ := means_one_failure env m1
      obtain ⟨s2, ts2, vs2, ph2, r2, m2, a2⟩ := send_t env hT hU1 a1 hpe1 hpc (by simp) ⟨_, _, Reply.ignored _ pfs (by decide)⟩
      rw [← hc2] at s2 a2 hf2 hcore2
      rw [CM.bind_ok s2]
      obtain ⟨b1, b2, b3⟩ := a2
      obtain ⟨rfl, rfl⟩ := r2.pull_failed rfl pfs rfl
      have := means_one_ignored env m2
      subst this
      obtain ⟨t, u1, u2⟩ := Reads.split env (vs := [failureV md]) (ws := [ignoredV]) b3
      obtain ⟨g, k2, k1⟩ := consume_failure env (reset := reset env W (fuel + 1)) b1 u1
      rw [failTail_bind (show consume env W (fuel + 1) c2 = failTail (reset env W (fuel + 1)) md _ from k1)]
      refine .inr (failTail_broke env hT hlo fuel 1 md (c := c2.got [failureV md] g) hU2
        ⟨by show _ ≤ c2.chunkSize; omega, by show c2.chunkSize ≤ _; omega⟩ (s := { s with phase := .failed }) rfl
        ⟨b1, b2, by rw [← show g.flatten = t from k2] at u2; exact u2⟩
        (congrArg Core.cur (hcore2.trans hcore)) (congrArg Core.txs (hcore2.trans hcore)) hl.symm ?_).1
      rw [failures_got, hf2, hf1]
      exact Nat.lt_add_of_pos_right (failures_recv_failure [] md [])

/-- Running a statement: either it is complete, or the server reported a failure.  The result is what the database says. -/
theorem runQuery_ledger (fuel : Nat) {q : Bytes} {ps : Entries} {db : Bytes} {pt : PS} {inTx : Bool} {c : Conn σ} (hU : Understood env c.proto.codec W)
    (hcl : c.closed = false) (hcs : lo ≤ c.chunkSize ∧ c.chunkSize ≤ 65535) {s : Session} (hr : s.phase = .ready) (h : AtS env sess s [] c)
    (hq : Sendable env c.proto.codec c.chunkSize q ps db pt) :
    let r := runQuery env W (fuel + 1) q ps db inTx c
    (Worked sess ((ledgerOf sess c).complete q (laterFields (runTree c.proto q pt db c.mode inTx))) c r ∨ Broke sess c r) ∧
      (q ∉ controlVerbs → ∃ o, D (ledgerOf sess c) ((ledgerOf sess c).stmt q (laterFields (runTree c.proto q pt db c.mode inTx))) o ∧ Gives env c.proto.codec o r.1) := by
  dsimp only
  have hl : ledgerOf sess c = s.ledger := congrArg Session.ledger h.2.1
  rw [runQuery_open env W hcl]
  obtain ⟨he, hc⟩ := hq.carries (p := c.proto) c.mode inTx
  have hrt : ∃ fs, runTree c.proto q pt db c.mode inTx = .struct 0x10 (.str q :: fs) := by cases c.proto <;> exact ⟨_, rfl⟩
  obtain ⟨fs, hrt⟩ := hrt
  rw [hrt] at hc ⊢
  show (Worked sess ((ledgerOf sess c).complete q fs) c _ ∨ Broke sess c _) ∧ (q ∉ controlVerbs → ∃ o, D (ledgerOf sess c) ((ledgerOf sess c).stmt q fs) o ∧ Gives env c.proto.codec o _)
  obtain ⟨msg, hmsg⟩ : ∃ msg, msg = c.proto.runMessage q ps db c.mode (!inTx) := ⟨_, rfl⟩
  rw [← hmsg] at he hc ⊢
  have hpe : (encodeMsg env c.proto.codec c.chunkSize c.proto.pullAllMessage).2 = none := by
    have : (encode env c.proto.codec c.proto.pullAllMessage).2 = none := by cases c.proto <;> rfl
    rw [encodeMsg_ok this]
  obtain ⟨s1, ts, vs, ph', r1, m1, a1⟩ := send_t env hT hU h he hc (by rw [hr]; simp) ⟨_, _, by rw [hr]; exact Reply.run q fs []⟩
  have hf1 := failures_sent env (W := W) c msg
  have hcore : (c.sent env W msg).core = c.core := rfl
  obtain ⟨c1, hc1⟩ : ∃ c1, c1 = c.sent env W msg := ⟨_, rfl⟩
  have hp1 : c1.proto = c.proto := by rw [hc1]; rfl
  have hk1 : c1.chunkSize = c.chunkSize := by rw [hc1]; rfl
  rw [← hc1] at s1 a1 hf1 hcore
  rw [CM.bind_ok s1]
  have hpt : ∃ fs, pullTree c.proto = .struct 0x3F fs := by cases c.proto <;> exact ⟨_, rfl⟩
  obtain ⟨pfs, hpt⟩ := hpt
  have hpc := carries_pullAllMessage env c.proto (cs := c.chunkSize) (by omega) (by omega)
  rw [hpt] at hpc
  rw [← hp1, ← hk1] at hpe
  have hpc1 : Carries (.struct 0x3F pfs) (encodeMsg env c1.proto.codec c1.chunkSize c.proto.pullAllMessage).1 := by rw [hp1, hk1]; exact hpc
  have hpe1 : (encodeMsg env c1.proto.codec c1.chunkSize c.proto.pullAllMessage).2 = none := by rw [hp1] at hpe ⊢; exact hpe
  have hU1 : Understood env c1.proto.codec W := by rw [hp1]; exact hU
  have hf2 := failures_sent env (W := W) c1 c.proto.pullAllMessage
  have hcore2 : (c1.sent env W c.proto.pullAllMessage).core = c1.core := rfl
  obtain ⟨c2, hc2⟩ : ∃ c2, c2 = c1.sent env W c.proto.pullAllMessage := ⟨_, rfl⟩
  have hp2 : c2.proto = c.proto := by rw [hc2, ← hp1]; rfl
  have hk2 : c2.chunkSize = c.chunkSize := by rw [hc2, ← hk1]; rfl
  have hU2 : Understood env c2.proto.codec W := by rw [hp2]; exact hU
  rcases r1.run_inv hr q fs rfl with ⟨m, rfl, hal, rfl⟩ | ⟨m, rfl, hdb, rfl⟩
  · obtain ⟨md, rfl⟩ := means_one_success env m1
    obtain ⟨s2, ts2, vs2, ph2, r2, m2, a2⟩ := send_t env hT hU1 a1 hpe1 hpc1 (by simp) ⟨_, _, Reply.pull _ pfs [] [] (by simp)⟩
    rw [← hc2] at s2 a2 hf2 hcore2
    rw [CM.bind_ok s2]
    obtain ⟨b1, b2, b3⟩ := a2
    obtain ⟨g, k1, k2⟩ := consume_reads env (reset := reset env W (fuel + 1)) b1 (by rfl) b3
    rw [CM.bind_ok (show consume env W (fuel + 1) c2 = _ from k1)]
    show (Worked sess _ c (rowsLoop (consumeWith env (reset env W (fuel + 1))) (streamLen g + 1) [] (c2.got [successV md] g)) ∨
      Broke sess c (rowsLoop (consumeWith env (reset env W (fuel + 1))) (streamLen g + 1) [] (c2.got [successV md] g))) ∧
      (q ∉ controlVerbs → ∃ o, _ ∧ Gives env c.proto.codec o (rowsLoop (consumeWith env (reset env W (fuel + 1))) (streamLen g + 1) [] (c2.got [successV md] g)).1)
    obtain ⟨recs, m', _, hh⟩ := r2.pull_inv _ rfl pfs rfl
    rcases hh with ⟨rfl, hdb, rfl⟩ | ⟨rfl, hdb, rfl⟩
    · obtain ⟨rows, v, rfl, m3, m4⟩ := means_rows env m2
      obtain ⟨md2, hv, m5⟩ := means_success env m3
      cases hv
      have k3 : Reads env c2.proto.codec (rows.map recordV ++ [successV md2]) g.flatten [] := k2
      have hlen := Reads.length env k3
      obtain ⟨g', j1, j2⟩ := rowsLoop_reads env (reset := reset env W (fuel + 1)) rows (streamLen g + 1) [] (c2.got [successV md] g) md2 [] [] b1 (by
        rw [streamLen_eq]
        simp only [List.length_append, List.length_map, List.length_cons, List.length_nil] at hlen
        omega) k2
      rw [j1, got_got, hl]
      refine ⟨.inl ⟨⟨_, rfl⟩, hcore2.trans hcore, ?_, ?_⟩, fun hq => ⟨_, hdb (by simpa using hq), rows, md2, hp1 ▸ m4, hp1 ▸ m5, rfl⟩⟩
      · show (sess c2.world).ledger = _
        rw [b2]
      · show failures (c2.got _ g').trace = _
        rw [failures_got, hf2, hf1, List.map_append, failures_append, failures_records]; rfl
    · obtain ⟨rows, v, rfl, m3, m4⟩ := means_rows env m2
      obtain ⟨md2, hv, m5⟩ := means_failure env m3
      cases hv
      have k3 : Reads env c2.proto.codec (rows.map recordV ++ [failureV md2]) g.flatten [] := k2
      have hlen := Reads.length env k3
      obtain ⟨g', j2, j1⟩ := rowsLoop_failure env (reset := reset env W (fuel + 1)) rows (streamLen g + 1) [] (c2.got [successV md] g) md2 [] [] b1 (by
        rw [streamLen_eq]
        simp only [List.length_append, List.length_map, List.length_cons, List.length_nil] at hlen
        omega) k2
      rw [got_got] at j1
      rw [show rowsLoop (consumeWith env (reset env W (fuel + 1))) (streamLen g + 1) [] (c2.got [successV md] g) =
        failTail (reset env W (fuel + 1)) md2 _ from j1]
      refine And.imp .inr (fun ⟨what, hw⟩ hq => ⟨.failed m', hl ▸ hdb (by simpa using hq), md2, what, hp1 ▸ m5, hw⟩) (failTail_broke env hT hlo fuel 0 md2 (c := c2.got ([successV md] ++ (rows.map recordV ++ [failureV md2])) g') hU2
        ⟨by show _ ≤ c2.chunkSize; omega, by show c2.chunkSize ≤ _; omega⟩ rfl ⟨b1, b2, j2⟩
        (congrArg Core.cur (hcore2.trans hcore)) (congrArg Core.txs (hcore2.trans hcore)) hl.symm ?_)
      rw [failures_got, hf2, hf1]
      exact Nat.lt_add_of_pos_right (failures_recv_failure (successV md :: rows.map recordV) md2 [])
  · obtain ⟨md, rfl, m5⟩ := means_failure env m1
    obtain ⟨s2, ts2, vs2, ph2, r2, m2, a2⟩ := send_t env hT hU1 a1 hpe1 hpc1 (by simp) ⟨_, _, Reply.ignored _ pfs (by decide)⟩
    rw [← hc2] at s2 a2 hf2 hcore2
    rw [CM.bind_ok s2]
    obtain ⟨b1, b2, b3⟩ := a2
    obtain ⟨rfl, rfl⟩ := r2.pull_failed rfl pfs rfl
    have := means_one_ignored env m2
    subst this
    obtain ⟨t, u1, u2⟩ := Reads.split env (vs := [failureV md]) (ws := [ignoredV]) b3
    obtain ⟨g, k2, k1⟩ := consume_failure env (reset := reset env W (fuel + 1)) b1 u1
    rw [failTail_bind (show consume env W (fuel + 1) c2 = failTail (reset env W (fuel + 1)) md _ from k1)]
    refine And.imp .inr (fun ⟨what, hw⟩ hq => ⟨.failed m, hl ▸ hdb hq, md, what, m5, hw⟩) (failTail_broke env hT hlo fuel 1 md (c := c2.got [failureV md] g) hU2
      ⟨by show _ ≤ c2.chunkSize; omega, by show c2.chunkSize ≤ _; omega⟩ (s := { s with phase := .failed }) rfl
      ⟨b1, b2, by rw [← show g.flatten = t from k2] at u2; exact u2⟩
      (congrArg Core.cur (hcore2.trans hcore)) (congrArg Core.txs (hcore2.trans hcore)) hl.symm ?_)
    rw [failures_got, hf2, hf1]
    exact Nat.lt_add_of_pos_right (failures_recv_failure [] md [])

omit hlo hT in
theorem CM.bind_fst {α β : Type} {m : CM σ α} {f : α → CM σ β} {c : Conn σ} {a : α} (h : (m c).1 = .ok a) : (m >>= f) c = f a (m c).2 :=
  CM.bind_ok (Prod.ext (x := m c) (y := (.ok a, (m c).2)) h rfl)

omit hlo hT in
theorem Broke.bind {α β : Type} {m : CM σ α} {f : α → CM σ β} {c : Conn σ} (h : Broke sess c (m c)) : Broke sess c ((m >>= f) c) := by
  obtain ⟨h1, h2⟩ := h
  match hm : m c with
  | (.ok a, c1) => rw [hm] at h1; exact absurd rfl (h1 a)
  | (.err e, c1) => rw [hm] at h2; rw [CM.bind_err hm]; exact ⟨fun a => by simp, h2⟩
  | (.panic, c1) => rw [hm] at h2; rw [CM.bind_panic hm]; exact ⟨fun a => by simp, h2⟩
  | (.fuel, c1) => rw [hm] at h2; rw [CM.bind_fuel hm]; exact ⟨fun a => by simp, h2⟩

omit hlo in
/-- After the end of the session nothing is received and the ledger stays as it is. -/
theorem dead_ledger : Prim env W (fun (c c' : Conn σ) => Dead (fun w => (sess w).phase) c →
    Dead (fun w => (sess w).phase) c' ∧ ledgerOf sess c' = ledgerOf sess c ∧ failures c'.trace = failures c.trace) where
  refl c h := ⟨h, rfl, rfl⟩
  trans h1 h2 h := by
    obtain ⟨a, b, d⟩ := h1 h
    obtain ⟨a', b', d'⟩ := h2 a
    exact ⟨a', b'.trans b, d'.trans d⟩
  send v c h := by
    obtain ⟨a, _, b⟩ := dead_send env hT v h
    refine ⟨a, b, ?_⟩
    unfold sendMessage writeAll
    dsimp only
    split
    · split <;> rfl
    · split
      · rfl
      · split
        · split <;> (rw [failures_append]; rfl)
        · rw [failures_append]; rfl
  recv c h := by
    have := ((dead_prim env c.proto hT.follows).recv c rfl h).1.2
    obtain ⟨e, c1, k1, k2, k3⟩ := dead_receive env hT h
    refine ⟨this, ?_, ?_⟩
    · rw [k1]; unfold ledgerOf; rw [k3]
    · unfold receive at k1 ⊢
      split
      · rfl
      · split
        · rfl
        · rename_i hs _ _ hm
          have := readMsg_flat c.fin c.segs
          rw [hm, h.2] at this
          simp [readFlat, RRes.flat] at this
  endTx h c hd := ⟨hd, rfl, rfl⟩
  sock c h := by
    have := ((dead_prim env c.proto hT.follows).sock c rfl h).1.2
    refine ⟨this, ?_, ?_⟩
    · unfold closeSock; dsimp only; split <;> rfl
    · unfold closeSock; dsimp only; split <;> (rw [failures_append]; rfl)
  addTx c hd := ⟨hd, rfl, rfl⟩
  probe c h := by
    have := ((dead_prim env c.proto hT.follows).probe c rfl h).1.2
    refine ⟨this, ?_, ?_⟩ <;>
    · unfold validateOpen
      split
      · rfl
      · split
        · rfl
        · rfl
        · split <;> rfl
  chunk n c hd := ⟨hd, rfl, rfl⟩

omit hlo in
theorem dead_runQuery (fuel : Nat) (q : Bytes) (ps : Entries) (db : Bytes) (inTx : Bool) {c : Conn σ} (h : Dead (fun w => (sess w).phase) c) :
    ∀ a, (runQuery env W fuel q ps db inTx c).1 ≠ .ok a := by
  intro a hok
  by_cases hcl : c.closed = true
  · rw [runQuery_closed env W _ q ps db inTx hcl] at hok
    cases hok
  · rw [runQuery_open env W (by simpa using hcl)] at hok
    have hok' := Prod.ext (x := ((_ : CM σ _) c)) (y := (.ok a, ((_ : CM σ _) c).2)) hok rfl
    obtain ⟨_, c1, h1, hok⟩ := CM.bind_eq_ok.mp hok'
    obtain ⟨_, c2, h2, hok⟩ := CM.bind_eq_ok.mp hok
    obtain ⟨_, c3, h3, hok⟩ := CM.bind_eq_ok.mp hok
    have a1 := (dead_send env hT (c.proto.runMessage q ps db c.mode (!inTx)) h).1
    rw [h1] at a1
    have a2 := (dead_send env hT c.proto.pullAllMessage a1).1
    rw [h2] at a2
    obtain ⟨e, c4, k1, _⟩ := dead_consume env hT (reset := reset env W fuel) a2
    rw [show consume env W fuel c2 = _ from k1] at h3
    cases h3

omit hlo in
theorem dead_commit (fuel h : Nat) {c : Conn σ} (hd : Dead (fun w => (sess w).phase) c) : ∀ a, (commit env W fuel h c).1 ≠ .ok a :=
  (dead_endWith env hT (reset := reset env W fuel) _ _ h hd).1

/-- The connection is in use and the server waits for a request. -/
structure Alive (lo : Nat) (c : Conn σ) : Prop where
  inv : c.core.Inv
  low : lo ≤ c.chunkSize
  high : c.chunkSize ≤ 65535
  sock : c.sock = true
  ready : (sess c.world).phase = .ready
  nil : c.segs.flatten = []

omit hlo hT in
theorem Alive.at {c : Conn σ} (h : Alive (sess := sess) lo c) : AtS env sess (sess c.world) [] c := ⟨h.sock, rfl, h.nil⟩

omit hlo hT in
theorem Alive.idle {c : Conn σ} (h : Alive (sess := sess) lo c) : Idle env (fun w => (sess w).phase) c.proto lo c :=
  ⟨rfl, .inr ⟨h.low, h.high, h.sock, h.ready, h.nil⟩⟩

omit hlo hT in
theorem Alive.open_ {c : Conn σ} (h : Alive (sess := sess) lo c) : c.closed = false := by
  have := h.inv.sock
  change c.closed = !c.sock at this
  rw [h.sock] at this; exact this

omit hlo hT in
theorem Spec.idle_alive {p : Proto} {c : Conn σ} (hi : Idle env (fun w => (sess w).phase) p lo c) (h : c.core.Inv) :
    Dead (fun w => (sess w).phase) c ∨ Alive (sess := sess) lo c := by
  rcases hi.2 with hd | ⟨h1, h2, h3, h4, h5⟩
  · exact .inl hd
  · exact .inr ⟨h, h1, h2, h3, h4, h5⟩

/-- The fields of the request that ends a transaction. -/
def endFields : Proto → List PS
  | .v1 | .v2 => [.map []]
  | .v3 | .v4 => []

/-- Ending the open transaction. -/
theorem endWith_ledger (fuel h : Nat) {m : Proto → Val} {verb : Bytes} {sig : UInt8} {km : Val} (hv : verb ∈ controlVerbs) (hsig : (sig, verb) ∈ txVerbs)
    (hm : m = fun p => match p with | .v1 | .v2 => newRunMessage verb [] | .v3 | .v4 => km) (hk : isTxMsg km = true)
    (he : ∀ ver, (encode env ver km).2 = none) (hc : ∀ ver cs, 1 ≤ cs → cs ≤ 65535 → Carries (.struct sig []) (encodeMsg env ver cs km).1)
    (what : String) {c : Conn σ} (ha : Alive (sess := sess) lo c) (hU : Understood env c.proto.codec W) (hcur : c.cur = some h) :
    let r := endWith env W (consume env W (fuel + 1)) m what h c
    ((ledgerOf sess c).Allows verb ∧ r.1 = .ok () ∧ r.2.core = c.core.endTx h ∧ ledgerOf sess r.2 = (ledgerOf sess c).complete verb (endFields c.proto) ∧
      failures r.2.trace = failures c.trace) ∨ Broke sess c r := by
  dsimp only
  have ho : c.txClosed h = false := txClosed_false.mpr ((ha.inv.open_iff h).mpr hcur)
  have hx := txExchange_ledger env hT hlo fuel (msg := m c.proto) what hU ⟨ha.low, ha.high⟩ ha.ready (ha.at env) (q := verb) (fs := endFields c.proto) (by
      rw [hm]
      cases c.proto
      · exact enc_ok env (by simp only [controlVerbs, List.mem_cons, List.not_mem_nil, or_false] at hv; rcases hv with rfl | rfl | rfl <;> rfl)
      · exact enc_ok env (by simp only [controlVerbs, List.mem_cons, List.not_mem_nil, or_false] at hv; rcases hv with rfl | rfl | rfl <;> rfl)
      · exact enc_ok env (he _)
      · exact enc_ok env (he _)) (by
      have := ha.low
      have := ha.high
      rw [hm]
      cases c.proto
      · exact .inr ⟨rfl, hv, carries_runVerb env _ (by omega) (by omega) verb hv⟩
      · exact .inr ⟨rfl, hv, carries_runVerb env _ (by omega) (by omega) verb hv⟩
      · exact .inl ⟨hk, sig, hsig, hc _ _ (by omega) (by omega)⟩
      · exact .inl ⟨hk, sig, hsig, hc _ _ (by omega) (by omega)⟩)
  rw [endWith_apply, ho, if_neg (by simp)]
  rcases hx with ⟨h1, ⟨a, h2⟩, h3, h4, h5⟩ | hb
  · have e := CM.bind_fst (f := fun _ => CM.modify (·.endTx h)) h2
    rw [e]
    refine .inl ⟨h1, rfl, ?_, h4, h5⟩
    show (Conn.endTx _ h).core = _
    rw [core_endTx, h3]
  · exact .inr hb.bind

theorem rollback_ledger (fuel h : Nat) {c : Conn σ} (ha : Alive (sess := sess) lo c) (hU : Understood env c.proto.codec W) (hcur : c.cur = some h) :
    let r := rollback env W (fuel + 1) h c
    ((ledgerOf sess c).tx ≠ none ∧ r.1 = .ok () ∧ r.2.core = c.core.endTx h ∧ ledgerOf sess r.2 = (ledgerOf sess c).drop ∧
      failures r.2.trace = failures c.trace) ∨ Broke sess c r := by
  have := endWith_ledger env hT hlo fuel h (verb := ascii "ROLLBACK") (sig := 0x13) (km := newRollbackMessage) (m := Proto.txRollbackMessage) (by simp [controlVerbs]) (by simp [txVerbs])
    (by funext p; cases p <;> rfl) rfl (fun ver => by cases ver <;> rfl) (fun ver cs h1 h2 => carries_rollback env ver h1 h2)
    "Unrecognized response type rolling back transaction" ha hU hcur
  refine this.imp (fun ⟨h1, h2, h3, h4, h5⟩ => ⟨h1.2 (.inr rfl), h2, h3, h4.trans rfl, h5⟩) id

theorem commit_ledger (fuel h : Nat) {c : Conn σ} (ha : Alive (sess := sess) lo c) (hU : Understood env c.proto.codec W) (hcur : c.cur = some h) :
    let r := commit env W (fuel + 1) h c
    (∃ w, (ledgerOf sess c).tx = some w ∧ r.1 = .ok () ∧ r.2.core = c.core.endTx h ∧ ledgerOf sess r.2 = ⟨none, (ledgerOf sess c).lasting ++ w.2⟩ ∧
      failures r.2.trace = failures c.trace) ∨ Broke sess c r := by
  have := endWith_ledger env hT hlo fuel h (verb := ascii "COMMIT") (sig := 0x12) (km := newCommitMessage) (m := Proto.txCommitMessage) (by simp [controlVerbs]) (by simp [txVerbs])
    (by funext p; cases p <;> rfl) rfl (fun ver => by cases ver <;> rfl) (fun ver cs h1 h2 => carries_commit env ver h1 h2)
    "Unrecognized response type committing transaction" ha hU hcur
  refine this.imp (fun ⟨h1, h2, h3, h4, h5⟩ => ?_) id
  cases hw : (ledgerOf sess c).tx with
  | none => exact absurd hw (h1.2 (.inl rfl))
  | some w =>
    refine ⟨w, rfl, h2, h3, h4.trans ?_, h5⟩
    simp only [Ledger.complete, hw, Option.getD, Option.map]
    rw [if_neg (by decide), if_pos trivial]

theorem begin_ledger (fuel : Nat) (db : Bytes) {c : Conn σ} (ha : Alive (sess := sess) lo c) (hU : Understood env c.proto.codec W) (hdb : db.length ≤ lo) (hcur : c.cur = none) :
    let r := beginWithDatabase env W (fuel + 1) db c
    ((ledgerOf sess c).tx = none ∧ r.1 = .ok c.txs.length ∧ r.2.cur = some c.txs.length ∧ r.2.txs = c.txs ++ [false] ∧
      ledgerOf sess r.2 = ⟨some (fieldsOf env c.proto c.mode (.begin_ db), []), (ledgerOf sess c).lasting⟩ ∧ failures r.2.trace = failures c.trace) ∨ Broke sess c r := by
  dsimp only
  have hx := txExchange_ledger env hT hlo fuel (msg := c.proto.txBeginMessage db c.mode) "Unrecognized response type beginning transaction" hU ⟨ha.low, ha.high⟩ ha.ready
    (ha.at env) (q := ascii "BEGIN") (fs := fieldsOf env c.proto c.mode (.begin_ db)) (by
      have := ha.low
      have := ha.high
      cases c.proto
      · exact enc_ok env rfl
      · exact enc_ok env rfl
      · exact enc_ok env (begin_enc env _ db c.mode (by omega))
      · exact enc_ok env (begin_enc env _ db c.mode (by omega))) (by
      have := ha.low
      have := ha.high
      cases c.proto
      · exact .inr ⟨rfl, by simp [controlVerbs], carries_runVerb env _ (by omega) (by omega) _ (by simp)⟩
      · exact .inr ⟨rfl, by simp [controlVerbs], carries_runVerb env _ (by omega) (by omega) _ (by simp)⟩
      · exact .inl ⟨rfl, 0x11, by simp [txVerbs], carries_begin env _ (by omega) (by omega) db c.mode (by omega)⟩
      · exact .inl ⟨rfl, 0x11, by simp [txVerbs], carries_begin env _ (by omega) (by omega) db c.mode (by omega)⟩)
  rw [begin_apply, hcur, if_neg (by simp), ha.open_, if_neg (by simp)]
  rcases hx with ⟨h1, ⟨a, h2⟩, h3, h4, h5⟩ | hb
  · have e := CM.bind_fst (f := fun _ => addTx) h2
    rw [e]
    have ht := congrArg Core.txs h3
    simp only [Conn.core] at ht
    refine .inl ⟨h1.1 rfl, ?_, ?_, ?_, h4, h5⟩
    · show CRes.ok (List.length _) = _
      rw [ht]
    · show some (List.length _) = _
      rw [ht]
    · show _ ++ [false] = _
      rw [ht]
  · exact .inr hb.bind

/-- Saying goodbye and closing the socket. -/
theorem goodbye_ledger {c : Conn σ} (ha : Alive (sess := sess) lo c) (hU : Understood env c.proto.codec W) :
    let r := goodbye env W c
    r.2.sock = false ∧ (ledgerOf sess r.2).lasting = (ledgerOf sess c).lasting ∧ failures r.2.trace = failures c.trace := by
  have hs : ∀ c1 : Conn σ, (closeSock W c1).2.sock = false ∧ ledgerOf sess (closeSock W c1).2 = ledgerOf sess c1 ∧ failures (closeSock W c1).2.trace = failures c1.trace := by
    intro c1
    unfold closeSock
    dsimp only
    split <;> exact ⟨rfl, rfl, by rw [failures_append]; rfl⟩
  dsimp only
  rw [goodbye_apply]
  split
  · rename_i m hm
    have hmm : m = newGoodbyeMessage := by cases hcp : c.proto <;> rw [hcp] at hm <;> cases hm <;> rfl
    subst hmm
    have := ha.low
    obtain ⟨s1, ts, vs, s', r1, m1, a1, a2, a3⟩ := send_t env hT hU (ha.at env) (v := newGoodbyeMessage) (enc_ok env (by cases c.proto <;> rfl))
      (carries_goodbye env c.proto.codec (by omega) ha.high) (by rw [ha.ready]; simp) ⟨_, _, by rw [ha.ready]; exact Reply.goodbye .ready (by simp) (by simp)⟩
    obtain ⟨_, rfl⟩ := r1.goodbye_inv ha.ready rfl
    rw [CM.bind_ok s1]
    obtain ⟨k1, k2, k3⟩ := hs (c.sent env W newGoodbyeMessage)
    refine ⟨k1, ?_, k3.trans (failures_sent env c _)⟩
    rw [k2]
    show (sess (c.sent env W newGoodbyeMessage).world).ledger.lasting = _
    rw [a2]; rfl
  · obtain ⟨k1, k2, k3⟩ := hs c
    exact ⟨k1, by rw [k2], k3⟩

omit hlo in
theorem goodbye_dead {c : Conn σ} (h : Dead (fun w => (sess w).phase) c) :
    let r := goodbye env W c
    Dead (fun w => (sess w).phase) r.2 ∧ ledgerOf sess r.2 = ledgerOf sess c ∧ failures r.2.trace = failures c.trace := by
  have P := dead_ledger env hT
  dsimp only
  rw [goodbye_apply]
  split
  · rename_i m hm
    have h1 := P.send m c h
    match hs : sendMessage env W m c with
    | (.ok a, c1) =>
      rw [hs] at h1
      rw [CM.bind_ok hs]
      exact P.trans (fun _ => h1) (P.sock c1) h
    | (.err e, c1) => rw [hs] at h1; rw [CM.bind_err hs]; exact h1
    | (.panic, c1) => rw [hs] at h1; rw [CM.bind_panic hs]; exact h1
    | (.fuel, c1) => rw [hs] at h1; rw [CM.bind_fuel hs]; exact h1
  · exact P.sock c h

/-- What a call on a connection that is in use does, if no failure is reported. -/
def Effect (sess : σ → Session) (f : Op → List PS) (op : Op) (c : Conn σ) (r : CRes Unit × Conn σ) : Prop :=
  match op with
  | .begin_ _ => ((ledgerOf sess c).tx = none ∧ c.cur = none ∧ r.1 = .ok () ∧ r.2.cur = some c.txs.length ∧ r.2.txs = c.txs ++ [false] ∧
      ledgerOf sess r.2 = ⟨some (f op, []), (ledgerOf sess c).lasting⟩) ∨ ((∀ a, r.1 ≠ .ok a) ∧ r.2 = c ∧ c.cur ≠ none)
  | .commit h => (∃ w, (ledgerOf sess c).tx = some w ∧ c.cur = some h ∧ r.1 = .ok () ∧ r.2.core = c.core.endTx h ∧
      ledgerOf sess r.2 = ⟨none, (ledgerOf sess c).lasting ++ w.2⟩) ∨ ((∀ a, r.1 ≠ .ok a) ∧ r.2 = c ∧ c.cur ≠ some h)
  | .rollback h => ((ledgerOf sess c).tx ≠ none ∧ c.cur = some h ∧ r.1 = .ok () ∧ r.2.core = c.core.endTx h ∧
      ledgerOf sess r.2 = (ledgerOf sess c).drop) ∨ ((∀ a, r.1 ≠ .ok a) ∧ r.2 = c ∧ c.cur ≠ some h)
  | .makeIdle => (∃ h, (ledgerOf sess c).tx ≠ none ∧ c.cur = some h ∧ r.1 = .ok () ∧ r.2.core = c.core.endTx h ∧
      ledgerOf sess r.2 = (ledgerOf sess c).drop) ∨ (r = (.ok (), c) ∧ c.cur = none)
  | .close => (c.cur ≠ none → (ledgerOf sess c).tx ≠ none) ∧ Dead (fun w => (sess w).phase) r.2 ∧ (ledgerOf sess r.2).lasting = (ledgerOf sess c).lasting
  | .validateOpen => r.2.cur = c.cur ∧ r.2.txs = c.txs ∧ ledgerOf sess r.2 = ledgerOf sess c
  | .setChunkSize _ => r.2.cur = c.cur ∧ r.2.txs = c.txs ∧ ledgerOf sess r.2 = ledgerOf sess c
  | op => ∃ q, statementOf op = some q ∧ ((r.1 = .ok () ∧ r.2.core = c.core ∧ ledgerOf sess r.2 = (ledgerOf sess c).complete q (f op)) ∨ ((∀ a, r.1 ≠ .ok a) ∧ r.2 = c))

theorem step_ledger (fuel : Nat) {op : Op} {c : Conn σ} (ha : Alive (sess := sess) lo c) (hU : Understood env c.proto.codec W) (hop : op.Fine env c.proto.codec lo) :
    let r := step env W (fuel + 1) op c
    (Effect sess (fieldsOf env c.proto c.mode) op c r ∧ failures r.2.trace = failures c.trace) ∨ Broke sess c r := by
  dsimp only
  have hcl := ha.open_
  -- a statement, after the check of the database name
  have stmt : ∀ {α : Type} (q : Bytes) (ps : Entries) (db : Bytes) (inTx : Bool) (f : List (List Val) × Entries → CM σ α) (pt : PS), Sendable env c.proto.codec lo q ps db pt →
      (∀ x c, ∃ a, f x c = (.ok a, c)) →
      let r := (CM.void (checkDb db >>= fun _ => runQuery env W (fuel + 1) q ps db inTx >>= f)) c
      (((r.1 = .ok () ∧ r.2.core = c.core ∧ ledgerOf sess r.2 = (ledgerOf sess c).complete q (laterFields (runTree c.proto q (paramTree env c.proto ps) db c.mode inTx))) ∨ ((∀ a, r.1 ≠ .ok a) ∧ r.2 = c)) ∧ failures r.2.trace = failures c.trace) ∨
        Broke sess c r := by
    intro α q ps db inTx f pt hq hf
    dsimp only
    have hs := checkDb_snd db c
    match hx : checkDb db c with
    | (.ok (), c1) =>
      rw [show c1 = c by rw [hx] at hs; exact hs] at hx
      have e : (CM.void (checkDb db >>= fun _ => runQuery env W (fuel + 1) q ps db inTx >>= f)) c = (CM.void (runQuery env W (fuel + 1) q ps db inTx >>= f)) c := by
        unfold CM.void
        rw [CM.bind_apply, CM.bind_ok hx, ← CM.bind_apply]
      rw [e]
      rw [show paramTree env c.proto ps = pt by unfold paramTree; rw [hq.params]; rfl]
      rcases (runQuery_ledger env hT hlo fuel (inTx := inTx) hU hcl ⟨ha.low, ha.high⟩ ha.ready (ha.at env) (hq.mono ha.low ha.high)).1 with ⟨⟨a, h1⟩, h2, h3, h4⟩ | hb
      · obtain ⟨b, hb⟩ := hf a (runQuery env W (fuel + 1) q ps db inTx c).2
        have e1 := CM.bind_fst (f := f) h1
        rw [hb] at e1
        have e2 : (CM.void (runQuery env W (fuel + 1) q ps db inTx >>= f)) c = (.ok (), (runQuery env W (fuel + 1) q ps db inTx c).2) := CM.bind_ok e1
        rw [e2]
        exact .inl ⟨.inl ⟨rfl, h2, h3⟩, h4⟩
      · exact .inr (Broke.bind (Broke.bind hb))
    | (.err e, c1) =>
      rw [show c1 = c by rw [hx] at hs; exact hs] at hx
      have e1 : (CM.void (checkDb db >>= fun _ => runQuery env W (fuel + 1) q ps db inTx >>= f)) c = (.err e, c) := CM.bind_err (CM.bind_err hx)
      rw [e1]
      exact .inl ⟨.inr ⟨fun a => by simp, rfl⟩, rfl⟩
    | (.panic, c1) =>
      rw [show c1 = c by rw [hx] at hs; exact hs] at hx
      have e1 : (CM.void (checkDb db >>= fun _ => runQuery env W (fuel + 1) q ps db inTx >>= f)) c = (.panic, c) := CM.bind_panic (CM.bind_panic hx)
      rw [e1]
      exact .inl ⟨.inr ⟨fun a => by simp, rfl⟩, rfl⟩
    | (.fuel, c1) =>
      rw [show c1 = c by rw [hx] at hs; exact hs] at hx
      have e1 : (CM.void (checkDb db >>= fun _ => runQuery env W (fuel + 1) q ps db inTx >>= f)) c = (.fuel, c) := CM.bind_fuel (CM.bind_fuel hx)
      rw [e1]
      exact .inl ⟨.inr ⟨fun a => by simp, rfl⟩, rfl⟩
  have plain : ∀ (q : Bytes) (ps : Entries) (db : Bytes) (inTx : Bool), (checkDb db >>= fun _ => runQuery env W (fuel + 1) q ps db inTx) =
      (checkDb db >>= fun _ => runQuery env W (fuel + 1) q ps db inTx >>= Pure.pure) := by
    intro q ps db inTx
    funext c
    rw [CM.bind_apply, CM.bind_apply]
    match checkDb db c with
    | (.ok _, c1) =>
      show runQuery env W (fuel + 1) q ps db inTx c1 = (runQuery env W (fuel + 1) q ps db inTx >>= Pure.pure) c1
      rw [CM.bind_apply]
      match runQuery env W (fuel + 1) q ps db inTx c1 with
      | (.ok _, _) => rfl
      | (.err _, _) => rfl
      | (.panic, _) => rfl
      | (.fuel, _) => rfl
    | (.err _, _) => rfl
    | (.panic, _) => rfl
    | (.fuel, _) => rfl
  cases op with
  | query q ps db =>
    obtain ⟨pt, hq⟩ := hop
    have := stmt q ps db false Pure.pure pt hq (fun x c => ⟨x, rfl⟩)
    rw [← plain] at this
    exact this.imp (fun h => ⟨⟨q, rfl, h.1⟩, h.2⟩) id
  | exec q ps db =>
    obtain ⟨pt, hq⟩ := hop
    have := stmt q ps db false (fun r => Pure.pure r.2) pt hq (fun x c => ⟨x.2, rfl⟩)
    exact this.imp (fun h => ⟨⟨q, rfl, h.1⟩, h.2⟩) id
  | begin_ db =>
    show (Effect sess (fieldsOf env c.proto c.mode) (.begin_ db) c ((beginWithDatabase env W (fuel + 1) db).void c) ∧ _) ∨ _
    cases hc : c.cur with
    | none =>
      rcases begin_ledger env hT hlo fuel db ha hU hop hc with ⟨h1, h2, h3, h4, h5, h6⟩ | hb
      · have e : (beginWithDatabase env W (fuel + 1) db).void c = (.ok (), (beginWithDatabase env W (fuel + 1) db c).2) :=
          CM.bind_fst h2
        refine .inl ⟨.inl ?_, ?_⟩
        · rw [e]; exact ⟨h1, hc, rfl, h3, h4, h5⟩
        · show failures ((beginWithDatabase env W (fuel + 1) db).void c).2.trace = _
          rw [e]; exact h6
      · exact .inr (Broke.bind hb)
    | some n =>
      have e : (beginWithDatabase env W (fuel + 1) db).void c = (.err (.new "transaction already open"), c) := CM.bind_err (by rw [begin_apply, hc]; rfl)
      refine .inl ⟨.inr ?_, ?_⟩
      · rw [e]; exact ⟨fun a => by simp, rfl, by simp [hc]⟩
      · show failures ((beginWithDatabase env W (fuel + 1) db).void c).2.trace = _
        rw [e]
  | commit h =>
    by_cases hc : c.cur = some h
    · rcases commit_ledger env hT hlo fuel h ha hU hc with ⟨w, h1, h2, h3, h4, h5⟩ | hb
      · exact .inl ⟨.inl ⟨w, h1, hc, h2, h3, h4⟩, h5⟩
      · exact .inr hb
    · have e := (C37_closed_handle env W (fuel + 1) h c (fun ho => hc ((ha.inv.open_iff h).mp ho))).1
      show (Effect sess (fieldsOf env c.proto c.mode) (.commit h) c (commit env W (fuel + 1) h c) ∧ failures (commit env W (fuel + 1) h c).2.trace = _) ∨ _
      rw [e]
      exact .inl ⟨.inr ⟨fun a => by simp, rfl, hc⟩, rfl⟩
  | rollback h =>
    by_cases hc : c.cur = some h
    · rcases rollback_ledger env hT hlo fuel h ha hU hc with ⟨h1, h2, h3, h4, h5⟩ | hb
      · exact .inl ⟨.inl ⟨h1, hc, h2, h3, h4⟩, h5⟩
      · exact .inr hb
    · have e := (C37_closed_handle env W (fuel + 1) h c (fun ho => hc ((ha.inv.open_iff h).mp ho))).2
      show (Effect sess (fieldsOf env c.proto c.mode) (.rollback h) c (rollback env W (fuel + 1) h c) ∧ failures (rollback env W (fuel + 1) h c).2.trace = _) ∨ _
      rw [e]
      exact .inl ⟨.inr ⟨fun a => by simp, rfl, hc⟩, rfl⟩
  | txQuery h q ps db =>
    obtain ⟨pt, hq⟩ := hop
    have := stmt q ps db true Pure.pure pt hq (fun x c => ⟨x, rfl⟩)
    rw [← plain] at this
    exact this.imp (fun h => ⟨⟨q, rfl, h.1⟩, h.2⟩) id
  | txExec h q ps =>
    obtain ⟨pt, hq⟩ := hop
    have := stmt q ps [] false (fun r => Pure.pure r.2) pt hq (fun x c => ⟨x.2, rfl⟩)
    exact this.imp (fun h => ⟨⟨q, rfl, h.1⟩, h.2⟩) id
  | txExecDb h q ps db =>
    obtain ⟨pt, hq⟩ := hop
    have := stmt q ps db true (fun r => Pure.pure r.2) pt hq (fun x c => ⟨x.2, rfl⟩)
    exact this.imp (fun h => ⟨⟨q, rfl, h.1⟩, h.2⟩) id
  | close =>
    show (Effect sess (fieldsOf env c.proto c.mode) .close c (close env W (fuel + 1) c) ∧ failures (close env W (fuel + 1) c).2.trace = _) ∨ Broke sess c (close env W (fuel + 1) c)
    have e : close env W (fuel + 1) c = (endCur (rollback env W (fuel + 1)) >>= fun _ => goodbye env W) c := by
      show closeWith env W _ c = _
      rw [closeWith_apply, hcl, if_neg (by simp)]
    rw [e]
    cases hc : c.cur with
    | none =>
      have e1 : endCur (rollback env W (fuel + 1)) c = (.ok (), c) := by rw [endCur_apply, hc]
      rw [CM.bind_ok e1]
      obtain ⟨g1, g2, g3⟩ := goodbye_ledger env hT hlo ha hU
      exact .inl ⟨⟨fun h => absurd hc h, ⟨.inl g1, Idle.nil env (goodbye_kept env hT.follows c.proto hlo hU (ha.idle env)).1⟩, g2⟩, g3⟩
    | some h =>
      have e1 : endCur (rollback env W (fuel + 1)) c = rollback env W (fuel + 1) h c := by rw [endCur_apply, hc]
      rcases rollback_ledger env hT hlo fuel h ha hU hc with ⟨h1, h2, h3, h4, h5⟩ | hb
      · have hk := (rollback_kept env hT.follows c.proto hlo hU fuel h (ha.idle env)).1
        have hi := Keeps.rollback env W (fuel + 1) h c ha.inv
        rw [← e1] at h2 h3 h4 h5 hk hi
        rw [CM.bind_fst h2]
        have hpr : (endCur (rollback env W (fuel + 1)) c).2.proto = c.proto := congrArg Core.proto h3
        have hk' := (goodbye_kept env hT.follows c.proto hlo hU hk).1
        rcases Spec.idle_alive env hk hi with hd | hal
        · obtain ⟨g1, g2, g3⟩ := goodbye_dead env hT hd
          refine .inl ⟨⟨fun _ => h1, g1, ?_⟩, g3.trans h5⟩
          rw [g2, h4]; rfl
        · obtain ⟨g1, g2, g3⟩ := goodbye_ledger env hT hlo hal (by rw [hpr]; exact hU)
          refine .inl ⟨⟨fun _ => h1, ⟨.inl g1, Idle.nil env hk'⟩, g2.trans ?_⟩, g3.trans h5⟩
          rw [h4]; rfl
      · rw [← e1] at hb
        exact .inr (Broke.bind hb)
  | makeIdle =>
    show (Effect sess (fieldsOf env c.proto c.mode) .makeIdle c (makeIdle env W (fuel + 1) c) ∧ failures (makeIdle env W (fuel + 1) c).2.trace = _) ∨ Broke sess c (makeIdle env W (fuel + 1) c)
    rw [makeIdle_eq, endCur_apply]
    cases hc : c.cur with
    | none => exact .inl ⟨.inr ⟨rfl, hc⟩, rfl⟩
    | some h =>
      rcases rollback_ledger env hT hlo fuel h ha hU hc with ⟨h1, h2, h3, h4, h5⟩ | hb
      · exact .inl ⟨.inl ⟨h, h1, hc, h2, h3, h4⟩, h5⟩
      · exact .inr hb
  | validateOpen =>
    have e : (step env W (fuel + 1) .validateOpen c).2 = (validateOpen W c).2 := by
      show ((validateOpen W).void c).2 = _
      unfold CM.void
      rw [CM.bind_apply]
      match validateOpen W c with
      | (.ok _, _) => rfl
      | (.err _, _) => rfl
      | (.panic, _) => rfl
      | (.fuel, _) => rfl
    have h : (validateOpen W c).2.cur = c.cur ∧ (validateOpen W c).2.txs = c.txs ∧ ledgerOf sess (validateOpen W c).2 = ledgerOf sess c ∧
        failures (validateOpen W c).2.trace = failures c.trace := by
      unfold validateOpen
      split
      · exact ⟨rfl, rfl, rfl, rfl⟩
      · split
        · exact ⟨rfl, rfl, rfl, rfl⟩
        · exact ⟨rfl, rfl, rfl, rfl⟩
        · split <;> exact ⟨rfl, rfl, rfl, rfl⟩
    refine .inl ⟨?_, by rw [e]; exact h.2.2.2⟩
    show (step env W (fuel + 1) .validateOpen c).2.cur = _ ∧ (step env W (fuel + 1) .validateOpen c).2.txs = _ ∧ ledgerOf sess (step env W (fuel + 1) .validateOpen c).2 = _
    rw [e]
    exact ⟨h.1, h.2.1, h.2.2.1⟩
  | setChunkSize n => exact .inl ⟨⟨rfl, rfl, rfl⟩, rfl⟩

end
end Verif

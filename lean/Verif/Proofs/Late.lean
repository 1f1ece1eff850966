/-
Calls on a connection whose network delays what the server sends, compared with calls on one whose network does not.
-/
import Verif.Spec.Late
import Verif.Proofs.CM
import Verif.Proofs.ConnEv
import Verif.Proofs.Terminates
namespace Verif
open Spec

variable {σ : Type}

/-- The connections are in the same state, but for what is still in flight to the first. -/
structure Behind (d : Conn (Late σ)) (c : Conn σ) : Prop where
  proto : d.proto = c.proto
  version : d.version = c.version
  versionBytes : d.versionBytes = c.versionBytes
  mode : d.mode = c.mode
  chunkSize : d.chunkSize = c.chunkSize
  closed : d.closed = c.closed
  sock : d.sock = c.sock
  txs : d.txs = c.txs
  cur : d.cur = c.cur
  trace : d.trace = c.trace
  now : d.world.now = c.world
  segs : d.segs.flatten ++ d.world.flight.flatten = c.segs.flatten
  fin : d.world.flight = [] → d.fin = c.fin

/-- For every connection there is one that is behind it. -/
theorem Behind.exists (c : Conn σ) : ∃ d, Behind d c :=
  ⟨⟨c.proto, c.version, c.versionBytes, c.mode, c.chunkSize, c.closed, c.sock, c.txs, c.cur, ⟨c.world, [], []⟩, c.segs, c.fin, c.trace⟩,
    ⟨rfl, rfl, rfl, rfl, rfl, rfl, rfl, rfl, rfl, rfl, rfl, by simp, fun _ => rfl⟩⟩

/-- The call only adds to what has happened. -/
def Adds {α : Type} (n : CM σ α) : Prop := ∀ c, c.trace <+: (n c).2.trace

namespace Adds
variable {α β : Type}

theorem pure (a : α) : Adds (Pure.pure a : CM σ α) := fun _ => List.prefix_refl _
theorem fail (e : Err) : Adds (CM.fail e : CM σ α) := fun _ => List.prefix_refl _

theorem bind {m : CM σ α} {f : α → CM σ β} (h : Adds m) (hf : ∀ a, Adds (f a)) : Adds (m >>= f) := fun c => by
  rw [CM.bind_apply]
  have := h c
  match hm : m c with
  | (.ok a, c') => rw [hm] at this; exact this.trans (hf a c')
  | (.err _, c') => rw [hm] at this; exact this
  | (.panic, c') => rw [hm] at this; exact this
  | (.fuel, c') => rw [hm] at this; exact this

theorem mapErr {f : Err → Err} {m : CM σ α} (h : Adds m) : Adds (CM.mapErr f m) := fun c => by rw [CM.mapErr_snd]; exact h c
theorem thenFail {m : CM σ α} (h : Adds m) (e : Err) : Adds (CM.thenFail m e : CM σ β) := fun c => by rw [CM.thenFail_snd]; exact h c

end Adds

/-- The call with delays fails for the lack of something in flight, having done the first part of what it would do without them; or it does the same as the one without. -/
def LagAt {α : Type} (r : CRes α × Conn (Late σ)) (s : CRes α × Conn σ) : Prop :=
  ((∃ e, r.1 = .err e) ∧ r.2.world.flight ≠ [] ∧ r.2.trace <+: s.2.trace) ∨ r.1 = .fuel ∨ (r.1 = s.1 ∧ Behind r.2 s.2)

/-- The same for all states. -/
def Lag {α : Type} (m : CM (Late σ) α) (n : CM σ α) : Prop := (∀ d c, Behind d c → LagAt (m d) (n c)) ∧ Adds n

namespace Lag
variable {α β : Type}

theorem same {m : CM (Late σ) α} {n : CM σ α} (ha : Adds n) (h : ∀ d c, Behind d c → (m d).1 = (n c).1 ∧ Behind (m d).2 (n c).2) : Lag m n :=
  ⟨fun d c hb => .inr (.inr (h d c hb)), ha⟩

theorem pure (a : α) : Lag (Pure.pure a : CM (Late σ) α) (Pure.pure a : CM σ α) := same (.pure a) fun _ _ h => ⟨rfl, h⟩

theorem fail (e : Err) : Lag (CM.fail e : CM (Late σ) α) (CM.fail e : CM σ α) := same (.fail e) fun _ _ h => ⟨rfl, h⟩

theorem bindAt {m : CM (Late σ) α} {n : CM σ α} {f : α → CM (Late σ) β} {g : α → CM σ β} {d : Conn (Late σ)} {c : Conn σ} (h : LagAt (m d) (n c))
    (hf : ∀ a, Lag (f a) (g a)) : LagAt ((m >>= f) d) ((n >>= g) c) := by
  rw [CM.bind_apply, CM.bind_apply]
  rcases h with ⟨⟨e, h1⟩, h2⟩ | h1 | ⟨h1, h2⟩
  · match hm : m d with
    | (.err _, d') =>
      rw [hm] at h2
      refine .inl ⟨⟨_, rfl⟩, h2.1, h2.2.trans ?_⟩
      match n c with
      | (.ok a, c') => exact (hf a).2 c'
      | (.err _, c') => exact List.prefix_refl _
      | (.panic, c') => exact List.prefix_refl _
      | (.fuel, c') => exact List.prefix_refl _
    | (.ok _, d') => rw [hm] at h1; cases h1
    | (.panic, d') => rw [hm] at h1; cases h1
    | (.fuel, d') => rw [hm] at h1; cases h1
  · match hm : m d with
    | (.fuel, d') => exact .inr (.inl rfl)
    | (.ok _, d') => rw [hm] at h1; cases h1
    | (.panic, d') => rw [hm] at h1; cases h1
    | (.err _, d') => rw [hm] at h1; cases h1
  · match hm : m d, hn : n c with
    | (.ok a, d'), (r, c') =>
      rw [hm, hn] at h1 h2
      cases h1
      exact (hf a).1 d' c' h2
    | (.err e, d'), (r, c') =>
      rw [hm, hn] at h1 h2
      cases h1
      exact .inr (.inr ⟨rfl, h2⟩)
    | (.panic, d'), (r, c') =>
      rw [hm, hn] at h1 h2
      cases h1
      exact .inr (.inr ⟨rfl, h2⟩)
    | (.fuel, d'), (r, c') => exact .inr (.inl rfl)

theorem bind {m : CM (Late σ) α} {n : CM σ α} {f : α → CM (Late σ) β} {g : α → CM σ β} (h : Lag m n) (hf : ∀ a, Lag (f a) (g a)) :
    Lag (m >>= f) (n >>= g) := ⟨fun d c hb => bindAt (h.1 d c hb) hf, h.2.bind fun a => (hf a).2⟩

/-- A call that begins by looking at the connection. -/
theorem get {f : Conn (Late σ) → CM (Late σ) β} {g : Conn σ → CM σ β} (h : ∀ d c, Behind d c → Lag (f d) (g c)) :
    Lag (CM.get >>= f) (CM.get >>= g) := ⟨fun d c hb => (h d c hb).1 d c hb, fun c => let ⟨d, hd⟩ := Behind.exists c; (h d c hd).2 c⟩

/-- A call that depends on the connection. -/
theorem dep {f : Conn (Late σ) → CM (Late σ) β} {g : Conn σ → CM σ β} (h : ∀ d c, Behind d c → Lag (f d) (g c)) :
    Lag (fun d => f d d) (fun c => g c c) := ⟨fun d c hb => (h d c hb).1 d c hb, fun c => let ⟨d, hd⟩ := Behind.exists c; (h d c hd).2 c⟩

theorem mapErrAt {f : Err → Err} {m : CM (Late σ) α} {n : CM σ α} {d : Conn (Late σ)} {c : Conn σ} (h : LagAt (m d) (n c)) :
    LagAt (CM.mapErr f m d) (CM.mapErr f n c) := by
  unfold LagAt
  rw [CM.mapErr_snd, CM.mapErr_snd]
  unfold CM.mapErr
  rcases h with ⟨⟨e, h1⟩, h2⟩ | h1 | ⟨h1, h2⟩
  · match hm : m d with
    | (.err _, d') => rw [hm] at h2; exact .inl ⟨⟨_, rfl⟩, h2⟩
    | (.ok _, d') => rw [hm] at h1; cases h1
    | (.panic, d') => rw [hm] at h1; cases h1
    | (.fuel, d') => rw [hm] at h1; cases h1
  · match hm : m d with
    | (.fuel, d') => exact .inr (.inl rfl)
    | (.ok _, d') => rw [hm] at h1; cases h1
    | (.panic, d') => rw [hm] at h1; cases h1
    | (.err _, d') => rw [hm] at h1; cases h1
  · refine .inr (.inr ⟨?_, h2⟩)
    match hm : m d, hn : n c with
    | (.ok a, d'), (r, c') => rw [hm, hn] at h1; cases h1; rfl
    | (.err e, d'), (r, c') => rw [hm, hn] at h1; cases h1; rfl
    | (.panic, d'), (r, c') => rw [hm, hn] at h1; cases h1; rfl
    | (.fuel, d'), (r, c') => rw [hm, hn] at h1; cases h1; rfl

theorem mapErr {f : Err → Err} {m : CM (Late σ) α} {n : CM σ α} (h : Lag m n) : Lag (CM.mapErr f m) (CM.mapErr f n) := ⟨fun d c hb => mapErrAt (h.1 d c hb), h.2.mapErr⟩

theorem thenFail {m : CM (Late σ) α} {n : CM σ α} (h : Lag m n) (e : Err) : Lag (CM.thenFail m e : CM (Late σ) β) (CM.thenFail n e : CM σ β) := by
  refine ⟨fun d c hb => ?_, h.2.thenFail e⟩
  unfold LagAt
  rw [CM.thenFail_snd, CM.thenFail_snd]
  unfold CM.thenFail
  rcases h.1 d c hb with ⟨⟨e, h1⟩, h2⟩ | h1 | ⟨h1, h2⟩
  · match hm : m d with
    | (.err _, d') => rw [hm] at h2; exact .inl ⟨⟨_, rfl⟩, h2⟩
    | (.ok _, d') => rw [hm] at h1; cases h1
    | (.panic, d') => rw [hm] at h1; cases h1
    | (.fuel, d') => rw [hm] at h1; cases h1
  · match hm : m d with
    | (.fuel, d') => exact .inr (.inl rfl)
    | (.ok _, d') => rw [hm] at h1; cases h1
    | (.panic, d') => rw [hm] at h1; cases h1
    | (.err _, d') => rw [hm] at h1; cases h1
  · refine .inr (.inr ⟨?_, h2⟩)
    match hm : m d, hn : n c with
    | (.ok a, d'), (r, c') => rw [hm, hn] at h1; cases h1; rfl
    | (.err e, d'), (r, c') => rw [hm, hn] at h1; cases h1; rfl
    | (.panic, d'), (r, c') => rw [hm, hn] at h1; cases h1; rfl
    | (.fuel, d'), (r, c') => rw [hm, hn] at h1; cases h1; rfl

theorem modify {f : Conn (Late σ) → Conn (Late σ)} {g : Conn σ → Conn σ} (h : ∀ d c, Behind d c → Behind (f d) (g c)) (ht : ∀ c, (g c).trace = c.trace := by intro; rfl) :
    Lag (CM.modify f) (CM.modify g) := same (fun c => by rw [show (CM.modify g c).2.trace = c.trace from ht c]; exact List.prefix_refl _) fun d c hb => ⟨rfl, h d c hb⟩

end Lag

/-! ### The primitives -/

section
variable (env : Env) (W : World σ)

/-- What arrives of a message and what stays in flight. -/
theorem late_onSend (s : Late σ) (ws : List Bytes) :
    ((late W).onSend s ws).st.now = (W.onSend s.now ws).st ∧ ((late W).onSend s ws).ok = (W.onSend s.now ws).ok ∧
    ((late W).onSend s ws).segs ++ ((late W).onSend s ws).st.flight = s.flight ++ (W.onSend s.now ws).segs ∧
    (((late W).onSend s ws).st.flight = [] → ((late W).onSend s ws).fin = (W.onSend s.now ws).fin) := by
  refine ⟨rfl, rfl, List.take_append_drop _ _, fun h => ?_⟩
  exact if_pos h

theorem Behind.sent {d : Conn (Late σ)} {c : Conn σ} (h : Behind d c) (ws : List Bytes) :
    Behind { d with world := ((late W).onSend d.world ws).st, segs := d.segs ++ ((late W).onSend d.world ws).segs, fin := ((late W).onSend d.world ws).fin, trace := d.trace ++ [.sent ws] }
      { c with world := (W.onSend c.world ws).st, segs := c.segs ++ (W.onSend c.world ws).segs, fin := (W.onSend c.world ws).fin, trace := c.trace ++ [.sent ws] } := by
  obtain ⟨h1, _, h3, h4⟩ := late_onSend W d.world ws
  rw [h.now] at h1 h3 h4
  refine ⟨h.proto, h.version, h.versionBytes, h.mode, h.chunkSize, h.closed, h.sock, h.txs, h.cur, ?_, h1, ?_, h4⟩
  · show d.trace ++ _ = c.trace ++ _
    rw [h.trace]
  · show (d.segs ++ _).flatten ++ _ = (c.segs ++ _).flatten
    rw [List.flatten_append, List.append_assoc, ← List.flatten_append, h3, List.flatten_append, ← List.append_assoc, h.segs, List.flatten_append]

theorem adds_writeAll (ws : List Bytes) (e : Option Err) : Adds (writeAll W ws e) := fun c => by
  unfold writeAll
  dsimp only
  split
  · cases e <;> exact List.prefix_refl _
  · split
    · exact List.prefix_refl _
    · split
      · cases e <;> exact List.prefix_append _ _
      · exact List.prefix_append _ _

theorem adds_receive : Adds (receive env (σ := σ)) := fun c => by
  unfold receive
  split
  · exact List.prefix_refl _
  · split
    · exact List.prefix_refl _
    · split
      · exact List.prefix_append _ _
      · exact List.prefix_refl _
      · exact List.prefix_refl _
      · exact List.prefix_refl _

theorem adds_resetLoop {cl : CM σ Unit} (hc : Adds cl) : (n : Nat) → Adds (resetLoop env cl n)
  | 0 => fun _ => List.prefix_refl _
  | n + 1 => by
    unfold resetLoop
    refine (Adds.mapErr (adds_receive env)).bind fun v => ?_
    split
    · exact adds_resetLoop hc n
    · split
      · exact Adds.pure _
      · split
        · exact hc.thenFail _
        · exact hc.thenFail _

theorem adds_rowsLoop {m : CM σ Val} (hc : Adds m) : (n : Nat) → (out : List (List Val)) → Adds (rowsLoop m n out)
  | 0, _ => fun _ => List.prefix_refl _
  | n + 1, out => by
    unfold rowsLoop
    refine hc.bind fun v => ?_
    split
    · exact Adds.pure _
    · split
      · exact adds_rowsLoop hc n _
      · exact Adds.fail _

theorem lag_writeAll (ws : List Bytes) (e : Option Err) : Lag (writeAll (late W) ws e) (writeAll W ws e) := by
  refine Lag.same (adds_writeAll W ws e) ?_
  intro d c hb
  unfold writeAll
  by_cases hws : ws = []
  · rw [if_pos hws, if_pos hws]
    cases e <;> exact ⟨rfl, hb⟩
  rw [if_neg hws, if_neg hws]
  by_cases hs : c.sock = false
  · rw [if_pos hs, if_pos (hb.sock.trans hs)]
    exact ⟨rfl, hb⟩
  rw [if_neg hs, if_neg (by rw [hb.sock]; exact hs)]
  have hx := hb.sent W ws
  have ho : ((late W).onSend d.world ws).ok = (W.onSend c.world ws).ok := by rw [← hb.now]; rfl
  dsimp only
  rw [ho]
  split
  · cases e <;> exact ⟨rfl, hx⟩
  · exact ⟨rfl, hx⟩

theorem lag_send (v : Val) : Lag (sendMessage env (late W) v) (sendMessage env W v) := by
  refine ⟨fun d c hb => ?_, fun c => ?_⟩
  · unfold sendMessage
    rw [hb.proto, hb.chunkSize]
    exact (lag_writeAll W _ _).1 d c hb
  · unfold sendMessage
    exact adds_writeAll W _ _ c

theorem lag_receive : Lag (receive env (σ := Late σ)) (receive env (σ := σ)) := by
  refine ⟨fun d c hb => ?_, adds_receive env⟩
  unfold receive
  by_cases hs : c.sock = false
  · rw [if_pos hs, if_pos (hb.sock.trans hs)]
    exact .inr (.inr ⟨rfl, hb⟩)
  rw [if_neg hs, if_neg (by rw [hb.sock]; exact hs)]
  have key : ∀ {s : List Bytes} {t : List Bytes} (tr : List Ev), s.flatten ++ d.world.flight.flatten = t.flatten →
      Behind { d with segs := s, trace := d.trace ++ tr } { c with segs := t, trace := c.trace ++ tr } := fun tr h =>
    ⟨hb.proto, hb.version, hb.versionBytes, hb.mode, hb.chunkSize, hb.closed, hb.sock, hb.txs, hb.cur, by show d.trace ++ _ = c.trace ++ _; rw [hb.trace], hb.now, h, hb.fin⟩
  have key0 : ∀ {s : List Bytes} {t : List Bytes}, s.flatten ++ d.world.flight.flatten = t.flatten →
      Behind { d with segs := s } { c with segs := t } := fun h =>
    ⟨hb.proto, hb.version, hb.versionBytes, hb.mode, hb.chunkSize, hb.closed, hb.sock, hb.txs, hb.cur, hb.trace, hb.now, h, hb.fin⟩
  match hm : readMsg d.fin d.segs with
  | .ok p s =>
    obtain ⟨f, hf, he⟩ := readMsg_ok hm
    obtain ⟨t, h1, h2⟩ := readMsg_framed hf c.fin (segs := c.segs) (rest := s.flatten ++ d.world.flight.flatten) (by rw [← hb.segs, he, List.append_assoc])
    rw [h1]
    dsimp only
    rw [show decode env d.proto.codec p = decode env c.proto.codec p by rw [hb.proto]]
    match decode env c.proto.codec p with
    | .ok (v, _) => exact .inr (.inr ⟨rfl, key _ h2.symm⟩)
    | .err e => exact .inr (.inr ⟨rfl, key0 h2.symm⟩)
    | .panic => exact .inr (.inr ⟨rfl, key0 h2.symm⟩)
    | .fuel => exact .inr (.inl rfl)
  | .err e s =>
    by_cases hf : d.world.flight = []
    · have hseg : d.segs.flatten = c.segs.flatten := by rw [← hb.segs, hf]; simp
      have h1 := readMsg_flat d.fin d.segs
      have h2 := readMsg_flat c.fin c.segs
      rw [hb.fin hf, hseg, ← h2] at h1
      rw [← hb.fin hf] at h1
      match hn : readMsg c.fin c.segs with
      | .ok p t => rw [hb.fin hf] at h1 hm; rw [hm, hn] at h1; cases h1
      | .err e' t =>
        rw [hb.fin hf] at h1 hm; rw [hm, hn] at h1
        simp only [RRes.flat, FRes.err.injEq] at h1
        obtain ⟨rfl, h1⟩ := h1
        exact .inr (.inr ⟨rfl, key0 (by rw [hf]; simpa using h1)⟩)
    · refine .inl ⟨⟨_, rfl⟩, hf, ?_⟩
      show d.trace <+: _
      rw [hb.trace]
      have := adds_receive env c
      unfold receive at this
      rw [if_neg hs] at this
      exact this

theorem lag_closeSock : Lag (closeSock (late W)) (closeSock W) := by
  refine Lag.same (fun c => by unfold closeSock; dsimp only; split <;> exact List.prefix_append _ _) ?_
  intro d c hb
  have hx : Behind { d with sock := false, closed := true, trace := d.trace ++ [.closed] } { c with sock := false, closed := true, trace := c.trace ++ [.closed] } :=
    ⟨hb.proto, hb.version, hb.versionBytes, hb.mode, hb.chunkSize, rfl, rfl, hb.txs, hb.cur, by show d.trace ++ _ = c.trace ++ _; rw [hb.trace], hb.now, hb.segs, hb.fin⟩
  have ho : (late W).onClose d.world = W.onClose c.world := by rw [← hb.now]; rfl
  unfold closeSock
  dsimp only
  rw [ho]
  split <;> exact ⟨rfl, hx⟩

/-! ### The calls -/

theorem lag_consumeWith {r : CM (Late σ) Unit} {r' : CM σ Unit} (hr : Lag r r') : Lag (consumeWith env r) (consumeWith env r') := by
  unfold consumeWith
  refine (lag_receive env).bind fun v => ?_
  split
  · exact Lag.bind (Lag.mapErr hr) fun _ => Lag.fail _
  · exact Lag.pure _

theorem lag_resetLoop {cl : CM (Late σ) Unit} {cl' : CM σ Unit} (hc : Lag cl cl') : (n m : Nat) → n ≤ m → Lag (resetLoop env cl n) (resetLoop env cl' m)
  | 0, m, _ => ⟨fun _ _ _ => .inr (.inl rfl), adds_resetLoop env hc.2 m⟩
  | n + 1, 0, h => absurd h (by omega)
  | n + 1, m + 1, h => by
    unfold resetLoop
    refine Lag.bind (Lag.mapErr (lag_receive env)) fun v => ?_
    split
    · exact lag_resetLoop hc n m (by omega)
    · split
      · exact Lag.pure _
      · split
        · exact Lag.thenFail hc _
        · exact Lag.thenFail hc _

theorem Behind.streamLen {d : Conn (Late σ)} {c : Conn σ} (h : Behind d c) : streamLen d.segs ≤ streamLen c.segs := by
  rw [streamLen_eq, streamLen_eq, ← h.segs, List.length_append]
  omega

theorem lag_resetWith {cl : CM (Late σ) Unit} {cl' : CM σ Unit} (hc : Lag cl cl') : Lag (resetWith env (late W) cl) (resetWith env W cl') := by
  unfold resetWith
  refine Lag.bind (Lag.mapErr (lag_send env W _)) fun _ => ?_
  refine Lag.dep (f := fun d => resetLoop env cl (Verif.streamLen d.segs + 1)) (g := fun c => resetLoop env cl' (Verif.streamLen c.segs + 1)) fun d c hb => ?_
  exact lag_resetLoop env hc _ _ (by have := hb.streamLen; omega)

theorem lag_txExchange {m : CM (Late σ) Val} {m' : CM σ Val} (hc : Lag m m') (msg : Val) (what : String) :
    Lag (txExchange env (late W) m msg what) (txExchange env W m' msg what) := by
  unfold txExchange
  refine Lag.bind (lag_send env W _) fun _ => ?_
  split
  · refine Lag.bind hc fun run => ?_
    split
    · exact Lag.fail _
    · exact Lag.pure _
  · refine Lag.get fun d c hb => ?_
    rw [hb.proto]
    refine Lag.bind (lag_send env W _) fun _ => Lag.bind hc fun run => Lag.bind hc fun pull => ?_
    split
    · exact Lag.fail _
    · split
      · exact Lag.fail _
      · exact Lag.pure _

theorem Behind.endTx {d : Conn (Late σ)} {c : Conn σ} (hb : Behind d c) (h : Nat) : Behind (d.endTx h) (c.endTx h) :=
  ⟨hb.proto, hb.version, hb.versionBytes, hb.mode, hb.chunkSize, hb.closed, hb.sock, by show d.txs.set h true = c.txs.set h true; rw [hb.txs], rfl, hb.trace, hb.now, hb.segs, hb.fin⟩

theorem Behind.txClosed {d : Conn (Late σ)} {c : Conn σ} (hb : Behind d c) (h : Nat) : d.txClosed h = c.txClosed h := by
  unfold Conn.txClosed; rw [hb.txs]

theorem lag_rollbackWith {m : CM (Late σ) Val} {m' : CM σ Val} (hc : Lag m m') (h : Nat) :
    Lag (rollbackWith env (late W) m h) (rollbackWith env W m' h) := by
  unfold rollbackWith
  refine Lag.get fun d c hb => ?_
  rw [hb.txClosed]
  split
  · exact Lag.fail _
  · refine Lag.get fun d c hb => ?_
    rw [hb.proto]
    exact Lag.bind (lag_txExchange env W hc _ _) fun _ => Lag.modify fun d c hb => hb.endTx h

theorem lag_commitWith {m : CM (Late σ) Val} {m' : CM σ Val} (hc : Lag m m') (h : Nat) :
    Lag (commitWith env (late W) m h) (commitWith env W m' h) := by
  unfold commitWith
  refine Lag.get fun d c hb => ?_
  rw [hb.txClosed]
  split
  · exact Lag.fail _
  · refine Lag.get fun d c hb => ?_
    rw [hb.proto]
    exact Lag.bind (lag_txExchange env W hc _ _) fun _ => Lag.modify fun d c hb => hb.endTx h

theorem lag_closeWith {r : Nat → CM (Late σ) Unit} {r' : Nat → CM σ Unit} (hr : ∀ h, Lag (r h) (r' h)) :
    Lag (closeWith env (late W) r) (closeWith env W r') := by
  unfold closeWith
  refine Lag.get fun d c hb => ?_
  rw [hb.closed]
  split
  · exact Lag.fail _
  · refine Lag.get fun d c hb => ?_
    rw [hb.cur]
    have rest : Lag (do
        match (← CM.get).proto.closeMessage with
        | some m => sendMessage env (late W) m
        | none => Pure.pure ()
        closeSock (late W)) (do
        match (← CM.get).proto.closeMessage with
        | some m => sendMessage env W m
        | none => Pure.pure ()
        closeSock W) := by
      refine Lag.get fun d c hb => ?_
      rw [hb.proto]
      split
      · exact Lag.bind (lag_send env W _) fun _ => lag_closeSock W
      · exact Lag.bind (Lag.pure ()) fun _ => lag_closeSock W
    split
    · exact Lag.bind (hr _) fun _ => rest
    · exact Lag.bind (Lag.pure ()) fun _ => rest

theorem lag_reset : (fuel : Nat) → Lag (reset env (late W) fuel) (reset env W fuel)
  | 0 => ⟨fun _ _ _ => .inr (.inl rfl), fun _ => List.prefix_refl _⟩
  | fuel + 1 => lag_resetWith env W (lag_closeWith env W fun h => lag_rollbackWith env W (lag_consumeWith env (lag_reset fuel)) h)

theorem lag_consume (fuel : Nat) : Lag (consume env (late W) fuel) (consume env W fuel) := lag_consumeWith env (lag_reset env W fuel)

theorem lag_rollback (fuel h : Nat) : Lag (rollback env (late W) fuel h) (rollback env W fuel h) := lag_rollbackWith env W (lag_consume env W fuel) h

theorem lag_commit (fuel h : Nat) : Lag (commit env (late W) fuel h) (commit env W fuel h) := lag_commitWith env W (lag_consume env W fuel) h

theorem lag_close (fuel : Nat) : Lag (close env (late W) fuel) (close env W fuel) := lag_closeWith env W (lag_rollback env W fuel)

theorem lag_makeIdle (fuel : Nat) : Lag (makeIdle env (late W) fuel) (makeIdle env W fuel) := by
  unfold makeIdle
  refine Lag.get fun d c hb => ?_
  rw [hb.cur]
  split
  · exact lag_rollback env W fuel _
  · exact Lag.pure _

theorem lag_begin (fuel : Nat) (db : Bytes) : Lag (beginWithDatabase env (late W) fuel db) (beginWithDatabase env W fuel db) := by
  unfold beginWithDatabase
  refine Lag.get fun d c hb => ?_
  rw [hb.cur]
  split
  · exact Lag.fail _
  · refine Lag.get fun d c hb => ?_
    rw [hb.closed]
    split
    · exact Lag.fail _
    · refine Lag.get fun d c hb => ?_
      rw [hb.proto, hb.mode]
      refine Lag.bind (lag_txExchange env W (lag_consume env W fuel) _ _) fun _ => Lag.get fun d c hb => ?_
      rw [hb.txs]
      refine Lag.bind (Lag.modify fun d c hb => ?_) fun _ => Lag.pure _
      exact ⟨hb.proto, hb.version, hb.versionBytes, hb.mode, hb.chunkSize, hb.closed, hb.sock, by show d.txs ++ _ = c.txs ++ _; rw [hb.txs], rfl, hb.trace, hb.now, hb.segs, hb.fin⟩

theorem lag_rowsLoop {m : CM (Late σ) Val} {m' : CM σ Val} (hc : Lag m m') : (n k : Nat) → n ≤ k → (out : List (List Val)) → Lag (rowsLoop m n out) (rowsLoop m' k out)
  | 0, k, _, out => ⟨fun _ _ _ => .inr (.inl rfl), adds_rowsLoop hc.2 k out⟩
  | n + 1, 0, h, _ => absurd h (by omega)
  | n + 1, k + 1, h, out => by
    unfold rowsLoop
    refine Lag.bind hc fun v => ?_
    split
    · exact Lag.pure _
    · split
      · exact lag_rowsLoop hc n k (by omega) _
      · exact Lag.fail _

theorem lag_runQuery (fuel : Nat) (q : Bytes) (ps : Entries) (db : Bytes) (inTx : Bool) : Lag (runQuery env (late W) fuel q ps db inTx) (runQuery env W fuel q ps db inTx) := by
  unfold runQuery
  refine Lag.get fun d c hb => ?_
  rw [hb.closed]
  split
  · exact Lag.fail _
  · refine Lag.get fun d c hb => ?_
    rw [hb.proto, hb.mode]
    refine Lag.bind (lag_send env W _) fun _ => Lag.bind (lag_send env W _) fun _ => Lag.bind (lag_consume env W fuel) fun v => ?_
    split
    · exact Lag.fail _
    · refine Lag.dep (f := fun d => rowsLoop (consume env (late W) fuel) (Verif.streamLen d.segs + 1) []) (g := fun c => rowsLoop (consume env W fuel) (Verif.streamLen c.segs + 1) []) fun d c hb => ?_
      exact lag_rowsLoop (lag_consume env W fuel) _ _ (by have := hb.streamLen; omega) _

theorem lag_checkDb (db : Bytes) : Lag (checkDb (σ := Late σ) db) (checkDb (σ := σ) db) := by
  unfold checkDb
  refine Lag.get fun d c hb => ?_
  rw [hb.proto]
  split
  · exact Lag.fail _
  · exact Lag.pure _

theorem lag_queryWithDb (fuel : Nat) (q : Bytes) (ps : Entries) (db : Bytes) : Lag (queryWithDb env (late W) fuel q ps db) (queryWithDb env W fuel q ps db) :=
  Lag.bind (lag_checkDb db) fun _ => lag_runQuery env W fuel q ps db false

theorem lag_execWithDb (fuel : Nat) (q : Bytes) (ps : Entries) (db : Bytes) : Lag (execWithDb env (late W) fuel q ps db) (execWithDb env W fuel q ps db) :=
  Lag.bind (lag_checkDb db) fun _ => Lag.bind (lag_runQuery env W fuel q ps db false) fun _ => Lag.pure _

theorem lag_txQueryWithDb (fuel h : Nat) (q : Bytes) (ps : Entries) (db : Bytes) : Lag (txQueryWithDb env (late W) fuel h q ps db) (txQueryWithDb env W fuel h q ps db) :=
  Lag.bind (lag_checkDb db) fun _ => lag_runQuery env W fuel q ps db true

theorem lag_txExecWithDb (fuel h : Nat) (q : Bytes) (ps : Entries) (db : Bytes) : Lag (txExecWithDb env (late W) fuel h q ps db) (txExecWithDb env W fuel h q ps db) :=
  Lag.bind (lag_checkDb db) fun _ => Lag.bind (lag_runQuery env W fuel q ps db true) fun _ => Lag.pure _

theorem lag_txExec (fuel h : Nat) (q : Bytes) (ps : Entries) : Lag (txExec env (late W) fuel h q ps) (txExec env W fuel h q ps) := lag_execWithDb env W fuel q ps []

theorem lag_validateOpen (hp : ∀ w, W.probe w ≠ .data) : Lag (validateOpen (late W)) (validateOpen W) := by
  refine Lag.same (fun c => ?_) ?_
  · unfold validateOpen
    split
    · exact List.prefix_refl _
    · split
      · exact List.prefix_refl _
      · exact List.prefix_refl _
      · split <;> exact List.prefix_refl _
  intro d c hb
  have ho : (late W).probe d.world = W.probe c.world := by rw [← hb.now]; rfl
  unfold validateOpen
  rw [hb.closed, ho]
  split
  · exact ⟨rfl, hb⟩
  · match h : W.probe c.world with
    | .eof => exact ⟨rfl, hb⟩
    | .other => exact ⟨rfl, hb⟩
    | .data => exact absurd h (hp _)

theorem lag_setChunkSize (n : UInt16) : Lag (setChunkSize (σ := Late σ) n) (setChunkSize (σ := σ) n) :=
  Lag.modify fun _ _ hb => ⟨hb.proto, hb.version, hb.versionBytes, hb.mode, rfl, hb.closed, hb.sock, hb.txs, hb.cur, hb.trace, hb.now, hb.segs, hb.fin⟩

theorem Lag.void {α : Type} {m : CM (Late σ) α} {n : CM σ α} (h : Lag m n) : Lag m.void n.void := Lag.bind h fun _ => Lag.pure _

theorem lag_step (fuel : Nat) (op : Op) (hp : op = .validateOpen → ∀ w, W.probe w ≠ .data) : Lag (step env (late W) fuel op) (step env W fuel op) := by
  cases op with
  | query q ps db => exact (lag_queryWithDb env W fuel q ps db).void
  | exec q ps db => exact (lag_execWithDb env W fuel q ps db).void
  | begin_ db => exact (lag_begin env W fuel db).void
  | commit h => exact lag_commit env W fuel h
  | rollback h => exact lag_rollback env W fuel h
  | txQuery h q ps db => exact (lag_txQueryWithDb env W fuel h q ps db).void
  | txExec h q ps => exact (lag_txExec env W fuel h q ps).void
  | txExecDb h q ps db => exact (lag_txExecWithDb env W fuel h q ps db).void
  | close => exact lag_close env W fuel
  | makeIdle => exact lag_makeIdle env W fuel
  | validateOpen => exact (lag_validateOpen W (hp rfl)).void
  | setChunkSize n => exact lag_setChunkSize n

theorem readOnce_append {n : Nat} : {a b : List Bytes} → {got : Bytes} → {a' : List Bytes} → readOnce n a = some (got, a') → readOnce n (a ++ b) = some (got, a' ++ b)
  | [], _, _, _, h => by cases h
  | s :: a, b, got, a', h => by
    unfold readOnce at h
    rw [List.cons_append]
    unfold readOnce
    split at h
    · rename_i hs; rw [if_pos hs]; exact readOnce_append h
    · rename_i hs
      rw [if_neg hs]
      split at h
      · rename_i hl; rw [if_pos hl]; cases h; rfl
      · rename_i hl; rw [if_neg hl]; cases h; rfl

/-- The handshake on a connection that has received nothing yet. -/
theorem lag_handshake {d : Conn (Late σ)} {c : Conn σ} (hb : Behind d c) (h1 : d.segs = []) (h2 : d.world.flight = []) (h3 : c.segs = []) :
    LagAt (handshake (late W) d) (handshake W c) := by
  have hx := hb.sent W [handShake]
  have ho : ((late W).onSend d.world [handShake]).ok = (W.onSend c.world [handShake]).ok := by rw [← hb.now]; rfl
  obtain ⟨_, _, g3, g4⟩ := late_onSend W d.world [handShake]
  rw [hb.now, h2, List.nil_append] at g3
  rw [hb.now] at g4
  have key : ∀ {s t : List Bytes}, s.flatten ++ ((late W).onSend d.world [handShake]).st.flight.flatten = t.flatten →
      Behind { d with world := ((late W).onSend d.world [handShake]).st, segs := s, fin := ((late W).onSend d.world [handShake]).fin, trace := d.trace ++ [.sent [handShake]] }
        { c with world := (W.onSend c.world [handShake]).st, segs := t, fin := (W.onSend c.world [handShake]).fin, trace := c.trace ++ [.sent [handShake]] } := fun h =>
    ⟨hb.proto, hb.version, hb.versionBytes, hb.mode, hb.chunkSize, hb.closed, hb.sock, hb.txs, hb.cur, hx.trace, hx.now, h, hx.fin⟩
  unfold handshake
  dsimp only
  rw [ho]
  split
  · exact .inr (.inr ⟨rfl, hx⟩)
  · rw [h1, h3, List.nil_append, List.nil_append, ← g3]
    match hr : readOnce 4 ((late W).onSend d.world [handShake]).segs with
    | none =>
      by_cases hf : ((late W).onSend d.world [handShake]).st.flight = []
      · rw [hf, List.append_nil, hr]
        refine .inr (.inr ⟨?_, key ?_⟩)
        · show CRes.err _ = CRes.err _
          rw [g4 hf]
        · rw [hf]; rfl
      · refine .inl ⟨⟨_, rfl⟩, hf, ?_⟩
        show d.trace ++ _ <+: _
        rw [hb.trace]
        match readOnce 4 (((late W).onSend d.world [handShake]).segs ++ ((late W).onSend d.world [handShake]).st.flight) with
        | none => exact List.prefix_refl _
        | some (v, s) =>
          dsimp only
          split
          · exact List.prefix_refl _
          · split <;> exact List.prefix_refl _
    | some (v, s) =>
      rw [readOnce_append hr]
      have hk := key (s := s) (t := s ++ ((late W).onSend d.world [handShake]).st.flight) (by simp)
      dsimp only
      split
      · exact .inr (.inr ⟨rfl, hk⟩)
      · split
        · exact .inr (.inr ⟨rfl, hk⟩)
        · exact .inr (.inr ⟨rfl, hk⟩)

theorem lag_sendInit (fuel : Nat) (m : Val) : Lag (sendInit env (late W) fuel m) (sendInit env W fuel m) := by
  unfold sendInit
  refine Lag.bind (lag_send env W _) fun _ => Lag.bind (lag_consume env W fuel) fun v => ?_
  split
  · exact Lag.pure _
  · exact lag_close env W fuel

/-- `CreateBoltConn`. -/
theorem lag_create (fuel : Nat) (user password : Bytes) (w : σ) (pace : List Nat) :
    LagAt (createBoltConn env (late W) fuel user password ⟨w, [], pace⟩) (createBoltConn env W fuel user password w) := by
  unfold createBoltConn initConn
  cases hd : (W.dial w).2 with
  | false =>
    have e1 : createConnection (late W) (Conn.fresh (⟨w, [], pace⟩ : Late σ)) = (.err (.plain "dial"), { Conn.fresh (⟨w, [], pace⟩ : Late σ) with world := ⟨(W.dial w).1, [], pace⟩ }) := by
      unfold createConnection
      exact if_neg (by show ¬ (W.dial w).2 = true; rw [hd]; simp)
    have e2 : createConnection W (Conn.fresh w) = (.err (.plain "dial"), { Conn.fresh w with world := (W.dial w).1 }) := by
      unfold createConnection
      exact if_neg (by show ¬ (W.dial w).2 = true; rw [hd]; simp)
    rw [CM.bind_err e1, CM.bind_err e2]
    exact .inr (.inr ⟨rfl, ⟨rfl, rfl, rfl, rfl, rfl, rfl, rfl, rfl, rfl, rfl, rfl, rfl, fun _ => rfl⟩⟩)
  | true =>
    have e1 : createConnection (late W) (Conn.fresh (⟨w, [], pace⟩ : Late σ)) = (.ok (), { Conn.fresh (⟨w, [], pace⟩ : Late σ) with world := ⟨(W.dial w).1, [], pace⟩, sock := true, closed := false }) := by
      unfold createConnection
      exact if_pos hd
    have e2 : createConnection W (Conn.fresh w) = (.ok (), { Conn.fresh w with world := (W.dial w).1, sock := true, closed := false }) := by
      unfold createConnection
      exact if_pos hd
    rw [CM.bind_ok e1, CM.bind_ok e2]
    refine Lag.bindAt (Lag.mapErrAt (lag_handshake W ?_ rfl rfl rfl)) fun vb => ?_
    · exact ⟨rfl, rfl, rfl, rfl, rfl, rfl, rfl, rfl, rfl, rfl, rfl, rfl, fun _ => rfl⟩
    · split
      · exact Lag.bind (Lag.modify fun _ _ hb => ⟨rfl, rfl, rfl, hb.mode, hb.chunkSize, hb.closed, hb.sock, hb.txs, hb.cur, hb.trace, hb.now, hb.segs, hb.fin⟩) fun _ => lag_sendInit env W fuel _
      · exact Lag.fail _
      · exact Lag.fail _

end
end Verif

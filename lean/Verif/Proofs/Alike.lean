/-
Calls on two connections whose networks differ only in how they divide the bytes, or whose chunk sizes differ.
-/
import Verif.Spec.Alike
import Verif.Proofs.CM
import Verif.Proofs.Terminates
namespace Verif
open Spec

/-- What two connections have in common.
* `rel`: relates the states of network and server.
* `wr`: relates the writes of a message.
* `size`: relates the chunk sizes.
* `proto`: the protocol version of both. -/
structure Tie (σ τ : Type) where
  rel : σ → τ → Prop
  wr : List Bytes → List Bytes → Prop
  size : Nat → Nat → Prop
  proto : Proto

variable {σ τ : Type}

/-- The connections are in the same state up to the division of bytes. -/
structure Alike (T : Tie σ τ) (d : Conn σ) (c : Conn τ) : Prop where
  proto' : c.proto = T.proto
  proto : d.proto = c.proto
  version : d.version = c.version
  versionBytes : d.versionBytes = c.versionBytes
  mode : d.mode = c.mode
  chunkSize : T.size d.chunkSize c.chunkSize
  closed : d.closed = c.closed
  sock : d.sock = c.sock
  txs : d.txs = c.txs
  cur : d.cur = c.cur
  trace : SameEvents T.wr d.trace c.trace
  world : T.rel d.world c.world
  segs : d.segs.flatten = c.segs.flatten
  fin : d.fin = c.fin

/-- The calls have the same result and lead to the same state, up to the division of bytes. -/
def AlikeAt {α : Type} (T : Tie σ τ) (r : CRes α × Conn σ) (s : CRes α × Conn τ) : Prop := r.1 = s.1 ∧ Alike T r.2 s.2

/-- The same for all states. -/
def Mirror {α : Type} (T : Tie σ τ) (m : CM σ α) (n : CM τ α) : Prop := ∀ d c, Alike T d c → AlikeAt T (m d) (n c)

namespace Mirror
variable {α β : Type} {T : Tie σ τ}

theorem pure (a : α) : Mirror T (Pure.pure a : CM σ α) (Pure.pure a : CM τ α) := fun _ _ h => ⟨rfl, h⟩

theorem fail (e : Err) : Mirror T (CM.fail e : CM σ α) (CM.fail e : CM τ α) := fun _ _ h => ⟨rfl, h⟩

theorem bindAt {m : CM σ α} {n : CM τ α} {f : α → CM σ β} {g : α → CM τ β} {d : Conn σ} {c : Conn τ} (h : AlikeAt T (m d) (n c))
    (hf : ∀ a, Mirror T (f a) (g a)) : AlikeAt T ((m >>= f) d) ((n >>= g) c) := by
  rw [CM.bind_apply, CM.bind_apply]
  obtain ⟨h1, h2⟩ := h
  match hm : m d, hn : n c with
  | (.ok a, d'), (r, c') => rw [hm, hn] at h1 h2; cases h1; exact hf a d' c' h2
  | (.err e, d'), (r, c') => rw [hm, hn] at h1 h2; cases h1; exact ⟨rfl, h2⟩
  | (.panic, d'), (r, c') => rw [hm, hn] at h1 h2; cases h1; exact ⟨rfl, h2⟩
  | (.fuel, d'), (r, c') => rw [hm, hn] at h1 h2; cases h1; exact ⟨rfl, h2⟩

theorem bind {m : CM σ α} {n : CM τ α} {f : α → CM σ β} {g : α → CM τ β} (h : Mirror T m n) (hf : ∀ a, Mirror T (f a) (g a)) :
    Mirror T (m >>= f) (n >>= g) := fun d c hb => bindAt (h d c hb) hf

/-- A call that begins by looking at the connection. -/
theorem get {f : Conn σ → CM σ β} {g : Conn τ → CM τ β} (h : ∀ d c, Alike T d c → Mirror T (f d) (g c)) :
    Mirror T (CM.get >>= f) (CM.get >>= g) := fun d c hb => h d c hb d c hb

/-- A call that depends on the connection. -/
theorem dep {f : Conn σ → CM σ β} {g : Conn τ → CM τ β} (h : ∀ d c, Alike T d c → Mirror T (f d) (g c)) :
    Mirror T (fun d => f d d) (fun c => g c c) := fun d c hb => h d c hb d c hb

theorem mapErr {f : Err → Err} {m : CM σ α} {n : CM τ α} (h : Mirror T m n) : Mirror T (CM.mapErr f m) (CM.mapErr f n) := by
  intro d c hb
  unfold AlikeAt
  rw [CM.mapErr_snd, CM.mapErr_snd]
  unfold CM.mapErr
  obtain ⟨h1, h2⟩ := h d c hb
  refine ⟨?_, h2⟩
  match hm : m d, hn : n c with
  | (.ok a, d'), (r, c') => rw [hm, hn] at h1; cases h1; rfl
  | (.err e, d'), (r, c') => rw [hm, hn] at h1; cases h1; rfl
  | (.panic, d'), (r, c') => rw [hm, hn] at h1; cases h1; rfl
  | (.fuel, d'), (r, c') => rw [hm, hn] at h1; cases h1; rfl

theorem thenFail {m : CM σ α} {n : CM τ α} (h : Mirror T m n) (e : Err) : Mirror T (CM.thenFail m e : CM σ β) (CM.thenFail n e : CM τ β) := by
  intro d c hb
  unfold AlikeAt
  rw [CM.thenFail_snd, CM.thenFail_snd]
  unfold CM.thenFail
  obtain ⟨h1, h2⟩ := h d c hb
  refine ⟨?_, h2⟩
  match hm : m d, hn : n c with
  | (.ok a, d'), (r, c') => rw [hm, hn] at h1; cases h1; rfl
  | (.err e, d'), (r, c') => rw [hm, hn] at h1; cases h1; rfl
  | (.panic, d'), (r, c') => rw [hm, hn] at h1; cases h1; rfl
  | (.fuel, d'), (r, c') => rw [hm, hn] at h1; cases h1; rfl

theorem modify {f : Conn σ → Conn σ} {g : Conn τ → Conn τ} (h : ∀ d c, Alike T d c → Alike T (f d) (g c)) : Mirror T (CM.modify f) (CM.modify g) :=
  fun d c hb => ⟨rfl, h d c hb⟩

theorem void {m : CM σ α} {n : CM τ α} (h : Mirror T m n) : Mirror T m.void n.void := bind h fun _ => pure _

end Mirror

/-- The message is encoded to related writes, whatever the chunk sizes. -/
def GoesAlike (T : Tie σ τ) (env : Env) (v : Val) : Prop := ∀ cs cs', T.size cs cs' →
  (encodeMsg env T.proto.codec cs v).2 = (encodeMsg env T.proto.codec cs' v).2 ∧
  ((encodeMsg env T.proto.codec cs v).1 = [] ↔ (encodeMsg env T.proto.codec cs' v).1 = []) ∧
  T.wr (encodeMsg env T.proto.codec cs v).1 (encodeMsg env T.proto.codec cs' v).1

/-- The messages that do not depend on the arguments of the call. -/
structure Basics (T : Tie σ τ) (env : Env) : Prop where
  reset : GoesAlike T env newResetMessage
  pull : GoesAlike T env T.proto.pullAllMessage
  commit : GoesAlike T env T.proto.txCommitMessage
  rollback : GoesAlike T env T.proto.txRollbackMessage
  close : ∀ m, T.proto.closeMessage = some m → GoesAlike T env m

/-- The messages that depend on the arguments of the call. -/
def OpGoes (T : Tie σ τ) (env : Env) : Op → Prop
  | .query q ps db => ∀ mode, GoesAlike T env (T.proto.runMessage q ps db mode true)
  | .exec q ps db => ∀ mode, GoesAlike T env (T.proto.runMessage q ps db mode true)
  | .txQuery _ q ps db => ∀ mode, GoesAlike T env (T.proto.runMessage q ps db mode false)
  | .txExec _ q ps => ∀ mode, GoesAlike T env (T.proto.runMessage q ps [] mode true)
  | .txExecDb _ q ps db => ∀ mode, GoesAlike T env (T.proto.runMessage q ps db mode false)
  | .begin_ db => ∀ mode, GoesAlike T env (T.proto.txBeginMessage db mode)
  | .setChunkSize n => T.size n.toNat n.toNat
  | _ => True

section
variable {T : Tie σ τ} {env : Env} {W : World σ} {V : World τ} (hW : SameBytes T.rel T.wr W V)

section
include hW

theorem Alike.sent {d : Conn σ} {c : Conn τ} (h : Alike T d c) {ws ws' : List Bytes} (hw : T.wr ws ws') :
    Alike T { d with world := (W.onSend d.world ws).st, segs := d.segs ++ (W.onSend d.world ws).segs, fin := (W.onSend d.world ws).fin, trace := d.trace ++ [.sent ws] }
      { c with world := (V.onSend c.world ws').st, segs := c.segs ++ (V.onSend c.world ws').segs, fin := (V.onSend c.world ws').fin, trace := c.trace ++ [.sent ws'] } := by
  obtain ⟨h1, h2, h3, h4⟩ := hW.send _ _ _ _ h.world hw
  refine ⟨h.proto', h.proto, h.version, h.versionBytes, h.mode, h.chunkSize, h.closed, h.sock, h.txs, h.cur, h.trace.sent hw, h1, ?_, h4⟩
  show (d.segs ++ _).flatten = (c.segs ++ _).flatten
  rw [List.flatten_append, List.flatten_append, h.segs, h3]

theorem sim_send {v : Val} (hv : GoesAlike T env v) : Mirror T (sendMessage env W v) (sendMessage env V v) := by
  intro d c hb
  unfold sendMessage
  obtain ⟨g1, g2, g3⟩ := hv _ _ hb.chunkSize
  rw [hb.proto, hb.proto']
  dsimp only
  rw [g1]
  generalize (encodeMsg env T.proto.codec d.chunkSize v).1 = ws at g2 g3 ⊢
  generalize (encodeMsg env T.proto.codec c.chunkSize v).1 = ws' at g2 g3 ⊢
  generalize (encodeMsg env T.proto.codec c.chunkSize v).2 = e
  unfold writeAll
  by_cases hws : ws = []
  · rw [if_pos hws, if_pos (g2.mp hws)]
    cases e <;> exact ⟨rfl, hb⟩
  rw [if_neg hws, if_neg (fun h => hws (g2.mpr h))]
  by_cases hs : c.sock = false
  · rw [if_pos hs, if_pos (hb.sock.trans hs)]
    exact ⟨rfl, hb⟩
  rw [if_neg hs, if_neg (by rw [hb.sock]; exact hs)]
  have hx := hb.sent hW g3
  have ho := (hW.send _ _ _ _ hb.world g3).2.1
  dsimp only
  rw [ho]
  split
  · cases e <;> exact ⟨rfl, hx⟩
  · exact ⟨rfl, hx⟩

theorem sim_closeSock : Mirror T (closeSock W) (closeSock V) := by
  intro d c hb
  have hx : Alike T { d with sock := false, closed := true, trace := d.trace ++ [.closed] } { c with sock := false, closed := true, trace := c.trace ++ [.closed] } :=
    ⟨hb.proto', hb.proto, hb.version, hb.versionBytes, hb.mode, hb.chunkSize, rfl, rfl, hb.txs, hb.cur, hb.trace.snoc _, hb.world, hb.segs, hb.fin⟩
  have ho := hW.close _ _ hb.world
  unfold closeSock
  dsimp only
  rw [ho]
  split <;> exact ⟨rfl, hx⟩

end

theorem Alike.read {d : Conn σ} {c : Conn τ} (hb : Alike T d c) {s t : List Bytes} (h : s.flatten = t.flatten) : Alike T { d with segs := s } { c with segs := t } :=
  ⟨hb.proto', hb.proto, hb.version, hb.versionBytes, hb.mode, hb.chunkSize, hb.closed, hb.sock, hb.txs, hb.cur, hb.trace, hb.world, h, hb.fin⟩

theorem sim_receive : Mirror T (receive env (σ := σ)) (receive env (σ := τ)) := by
  intro d c hb
  unfold receive
  by_cases hs : c.sock = false
  · rw [if_pos hs, if_pos (hb.sock.trans hs)]
    exact ⟨rfl, hb⟩
  rw [if_neg hs, if_neg (by rw [hb.sock]; exact hs)]
  have h1 : (readMsg d.fin d.segs).flat = (readMsg c.fin c.segs).flat := by rw [readMsg_flat, readMsg_flat, hb.fin, hb.segs]
  match hm : readMsg d.fin d.segs, hn : readMsg c.fin c.segs with
  | .ok p s, .ok q t =>
    rw [hm, hn] at h1
    simp only [RRes.flat, FRes.ok.injEq] at h1
    obtain ⟨rfl, h1⟩ := h1
    dsimp only
    rw [show decode env d.proto.codec p = decode env c.proto.codec p by rw [hb.proto]]
    have hr := hb.read h1
    match decode env c.proto.codec p with
    | .ok (v, _) =>
      exact ⟨rfl, ⟨hr.proto', hr.proto, hr.version, hr.versionBytes, hr.mode, hr.chunkSize, hr.closed, hr.sock, hr.txs, hr.cur, hr.trace.snoc _, hr.world, hr.segs, hr.fin⟩⟩
    | .err e => exact ⟨rfl, hr⟩
    | .panic => exact ⟨rfl, hr⟩
    | .fuel => exact ⟨rfl, hr⟩
  | .ok p s, .err e t => rw [hm, hn] at h1; cases h1
  | .err e s, .ok p t => rw [hm, hn] at h1; cases h1
  | .err e s, .err e' t =>
    rw [hm, hn] at h1
    simp only [RRes.flat, FRes.err.injEq] at h1
    obtain ⟨rfl, h1⟩ := h1
    exact ⟨rfl, hb.read h1⟩

/-! ### The calls -/

theorem sim_consumeWith {r : CM σ Unit} {r' : CM τ Unit} (hr : Mirror T r r') : Mirror T (consumeWith env r) (consumeWith env r') := by
  unfold consumeWith
  refine sim_receive.bind fun v => ?_
  split
  · exact Mirror.bind (Mirror.mapErr hr) fun _ => Mirror.fail _
  · exact Mirror.pure _

theorem sim_resetLoop {cl : CM σ Unit} {cl' : CM τ Unit} (hc : Mirror T cl cl') : (n : Nat) → Mirror T (resetLoop env cl n) (resetLoop env cl' n)
  | 0 => fun _ _ h => ⟨rfl, h⟩
  | n + 1 => by
    unfold resetLoop
    refine Mirror.bind (Mirror.mapErr sim_receive) fun v => ?_
    split
    · exact sim_resetLoop hc n
    · split
      · exact Mirror.pure _
      · split
        · exact Mirror.thenFail hc _
        · exact Mirror.thenFail hc _

theorem Alike.streamLen {d : Conn σ} {c : Conn τ} (h : Alike T d c) : streamLen d.segs = streamLen c.segs := by
  rw [streamLen_eq, streamLen_eq, h.segs]

theorem Alike.endTx {d : Conn σ} {c : Conn τ} (hb : Alike T d c) (h : Nat) : Alike T (d.endTx h) (c.endTx h) :=
  ⟨hb.proto', hb.proto, hb.version, hb.versionBytes, hb.mode, hb.chunkSize, hb.closed, hb.sock, by show d.txs.set h true = c.txs.set h true; rw [hb.txs], rfl, hb.trace, hb.world, hb.segs, hb.fin⟩

theorem Alike.txClosed {d : Conn σ} {c : Conn τ} (hb : Alike T d c) (h : Nat) : d.txClosed h = c.txClosed h := by
  unfold Conn.txClosed; rw [hb.txs]

theorem sim_rowsLoop {m : CM σ Val} {m' : CM τ Val} (hc : Mirror T m m') : (n : Nat) → (out : List (List Val)) → Mirror T (rowsLoop m n out) (rowsLoop m' n out)
  | 0, _ => fun _ _ h => ⟨rfl, h⟩
  | n + 1, out => by
    unfold rowsLoop
    refine Mirror.bind hc fun v => ?_
    split
    · exact Mirror.pure _
    · split
      · exact sim_rowsLoop hc n _
      · exact Mirror.fail _

theorem sim_checkDb (db : Bytes) : Mirror T (checkDb (σ := σ) db) (checkDb (σ := τ) db) := by
  unfold checkDb
  refine Mirror.get fun d c hb => ?_
  rw [hb.proto]
  split
  · exact Mirror.fail _
  · exact Mirror.pure _

theorem sim_setChunkSize {n : UInt16} (hn : T.size n.toNat n.toNat) : Mirror T (setChunkSize (σ := σ) n) (setChunkSize (σ := τ) n) :=
  Mirror.modify fun _ _ hb => ⟨hb.proto', hb.proto, hb.version, hb.versionBytes, hb.mode, hn, hb.closed, hb.sock, hb.txs, hb.cur, hb.trace, hb.world, hb.segs, hb.fin⟩

variable (hB : Basics T env)

section
include hW

theorem sim_validateOpen : Mirror T (validateOpen W) (validateOpen V) := by
  intro d c hb
  have ho := hW.probe _ _ hb.world
  unfold validateOpen
  by_cases hcl : c.closed = true
  · rw [if_pos hcl, if_pos (hb.closed.trans hcl)]
    exact ⟨rfl, hb⟩
  · rw [if_neg hcl, if_neg (by rw [hb.closed]; exact hcl), ho]
    match V.probe c.world with
    | .eof => exact ⟨rfl, hb⟩
    | .other => exact ⟨rfl, hb⟩
    | .data =>
      dsimp only
      match hm : readOnce 1 d.segs, hn : readOnce 1 c.segs with
      | none, none => exact ⟨rfl, hb⟩
      | none, some (b, t) =>
        have h1 := readOnce_none.mp hm
        rw [hb.segs] at h1
        rw [(readOnce_none (n := 1)).mpr h1] at hn
        cases hn
      | some (a, s), none =>
        have h1 := readOnce_none.mp hn
        rw [← hb.segs] at h1
        rw [(readOnce_none (n := 1)).mpr h1] at hm
        cases hm
      | some (a, s), some (b, t) =>
        obtain ⟨a1, a2, a3⟩ := readOnce_some (by omega) hm
        obtain ⟨b1, b2, b3⟩ := readOnce_some (by omega) hn
        have la : a.length = 1 := by have := List.length_pos_iff.mpr a1; omega
        have lb : b.length = 1 := by have := List.length_pos_iff.mpr b1; omega
        refine ⟨rfl, hb.read ?_⟩
        have e : a ++ s.flatten = b ++ t.flatten := by rw [a3, b3, hb.segs]
        exact (List.append_inj e (by rw [la, lb])).2

include hB

theorem sim_resetWith {cl : CM σ Unit} {cl' : CM τ Unit} (hc : Mirror T cl cl') : Mirror T (resetWith env W cl) (resetWith env V cl') := by
  unfold resetWith
  refine Mirror.bind (Mirror.mapErr (sim_send hW hB.reset)) fun _ => ?_
  refine Mirror.dep (f := fun d => resetLoop env cl (Verif.streamLen d.segs + 1)) (g := fun c => resetLoop env cl' (Verif.streamLen c.segs + 1)) fun d c hb => ?_
  rw [hb.streamLen]
  exact sim_resetLoop hc _

theorem sim_txExchange {m : CM σ Val} {m' : CM τ Val} (hc : Mirror T m m') {msg : Val} (hm : GoesAlike T env msg) (what : String) :
    Mirror T (txExchange env W m msg what) (txExchange env V m' msg what) := by
  unfold txExchange
  refine Mirror.bind (sim_send hW hm) fun _ => ?_
  split
  · refine Mirror.bind hc fun run => ?_
    split
    · exact Mirror.fail _
    · exact Mirror.pure _
  · refine Mirror.get fun d c hb => ?_
    rw [hb.proto, hb.proto']
    refine Mirror.bind (sim_send hW hB.pull) fun _ => Mirror.bind hc fun run => Mirror.bind hc fun pull => ?_
    split
    · exact Mirror.fail _
    · split
      · exact Mirror.fail _
      · exact Mirror.pure _

theorem sim_rollbackWith {m : CM σ Val} {m' : CM τ Val} (hc : Mirror T m m') (h : Nat) :
    Mirror T (rollbackWith env W m h) (rollbackWith env V m' h) := by
  unfold rollbackWith
  refine Mirror.get fun d c hb => ?_
  rw [hb.txClosed]
  split
  · exact Mirror.fail _
  · refine Mirror.get fun d c hb => ?_
    rw [hb.proto, hb.proto']
    exact Mirror.bind (sim_txExchange hW hB hc hB.rollback _) fun _ => Mirror.modify fun d c hb => hb.endTx h

theorem sim_commitWith {m : CM σ Val} {m' : CM τ Val} (hc : Mirror T m m') (h : Nat) :
    Mirror T (commitWith env W m h) (commitWith env V m' h) := by
  unfold commitWith
  refine Mirror.get fun d c hb => ?_
  rw [hb.txClosed]
  split
  · exact Mirror.fail _
  · refine Mirror.get fun d c hb => ?_
    rw [hb.proto, hb.proto']
    exact Mirror.bind (sim_txExchange hW hB hc hB.commit _) fun _ => Mirror.modify fun d c hb => hb.endTx h

theorem sim_closeWith {r : Nat → CM σ Unit} {r' : Nat → CM τ Unit} (hr : ∀ h, Mirror T (r h) (r' h)) :
    Mirror T (closeWith env W r) (closeWith env V r') := by
  unfold closeWith
  refine Mirror.get fun d c hb => ?_
  rw [hb.closed]
  split
  · exact Mirror.fail _
  · refine Mirror.get fun d c hb => ?_
    rw [hb.cur]
    have rest : Mirror T (do
        match (← CM.get).proto.closeMessage with
        | some m => sendMessage env W m
        | none => Pure.pure ()
        closeSock W) (do
        match (← CM.get).proto.closeMessage with
        | some m => sendMessage env V m
        | none => Pure.pure ()
        closeSock V) := by
      refine Mirror.get fun d c hb => ?_
      rw [hb.proto, hb.proto']
      split
      · rename_i h
        exact Mirror.bind (sim_send hW (hB.close _ h)) fun _ => sim_closeSock hW
      · exact Mirror.bind (Mirror.pure ()) fun _ => sim_closeSock hW
    split
    · exact Mirror.bind (hr _) fun _ => rest
    · exact Mirror.bind (Mirror.pure ()) fun _ => rest

theorem sim_reset : (fuel : Nat) → Mirror T (reset env W fuel) (reset env V fuel)
  | 0 => fun _ _ h => ⟨rfl, h⟩
  | fuel + 1 => sim_resetWith hW hB (sim_closeWith hW hB fun h => sim_rollbackWith hW hB (sim_consumeWith (sim_reset fuel)) h)

theorem sim_consume (fuel : Nat) : Mirror T (consume env W fuel) (consume env V fuel) := sim_consumeWith (sim_reset hW hB fuel)

theorem sim_rollback (fuel h : Nat) : Mirror T (rollback env W fuel h) (rollback env V fuel h) := sim_rollbackWith hW hB (sim_consume hW hB fuel) h

theorem sim_commit (fuel h : Nat) : Mirror T (commit env W fuel h) (commit env V fuel h) := sim_commitWith hW hB (sim_consume hW hB fuel) h

theorem sim_close (fuel : Nat) : Mirror T (close env W fuel) (close env V fuel) := sim_closeWith hW hB (sim_rollback hW hB fuel)

theorem sim_makeIdle (fuel : Nat) : Mirror T (makeIdle env W fuel) (makeIdle env V fuel) := by
  unfold makeIdle
  refine Mirror.get fun d c hb => ?_
  rw [hb.cur]
  split
  · exact sim_rollback hW hB fuel _
  · exact Mirror.pure _

theorem sim_begin (fuel : Nat) {db : Bytes} (hm : ∀ mode, GoesAlike T env (T.proto.txBeginMessage db mode)) :
    Mirror T (beginWithDatabase env W fuel db) (beginWithDatabase env V fuel db) := by
  unfold beginWithDatabase
  refine Mirror.get fun d c hb => ?_
  rw [hb.cur]
  split
  · exact Mirror.fail _
  · refine Mirror.get fun d c hb => ?_
    rw [hb.closed]
    split
    · exact Mirror.fail _
    · refine Mirror.get fun d c hb => ?_
      rw [hb.proto, hb.proto', hb.mode]
      refine Mirror.bind (sim_txExchange hW hB (sim_consume hW hB fuel) (hm _) _) fun _ => Mirror.get fun d c hb => ?_
      rw [hb.txs]
      refine Mirror.bind (Mirror.modify fun d c hb => ?_) fun _ => Mirror.pure _
      exact ⟨hb.proto', hb.proto, hb.version, hb.versionBytes, hb.mode, hb.chunkSize, hb.closed, hb.sock, by show d.txs ++ _ = c.txs ++ _; rw [hb.txs], rfl, hb.trace, hb.world, hb.segs, hb.fin⟩

theorem sim_runQuery (fuel : Nat) {q : Bytes} {ps : Entries} {db : Bytes} {inTx : Bool} (hm : ∀ mode, GoesAlike T env (T.proto.runMessage q ps db mode (!inTx))) :
    Mirror T (runQuery env W fuel q ps db inTx) (runQuery env V fuel q ps db inTx) := by
  unfold runQuery
  refine Mirror.get fun d c hb => ?_
  rw [hb.closed]
  split
  · exact Mirror.fail _
  · refine Mirror.get fun d c hb => ?_
    rw [hb.proto, hb.proto', hb.mode]
    refine Mirror.bind (sim_send hW (hm _)) fun _ => Mirror.bind (sim_send hW hB.pull) fun _ => Mirror.bind (sim_consume hW hB fuel) fun v => ?_
    split
    · exact Mirror.fail _
    · refine Mirror.dep (f := fun d => rowsLoop (consume env W fuel) (Verif.streamLen d.segs + 1) []) (g := fun c => rowsLoop (consume env V fuel) (Verif.streamLen c.segs + 1) []) fun d c hb => ?_
      rw [hb.streamLen]
      exact sim_rowsLoop (sim_consume hW hB fuel) _ _

theorem sim_queryWithDb (fuel : Nat) {q : Bytes} {ps : Entries} {db : Bytes} (hm : ∀ mode, GoesAlike T env (T.proto.runMessage q ps db mode true)) :
    Mirror T (queryWithDb env W fuel q ps db) (queryWithDb env V fuel q ps db) :=
  Mirror.bind (sim_checkDb db) fun _ => sim_runQuery hW hB fuel hm

theorem sim_execWithDb (fuel : Nat) {q : Bytes} {ps : Entries} {db : Bytes} (hm : ∀ mode, GoesAlike T env (T.proto.runMessage q ps db mode true)) :
    Mirror T (execWithDb env W fuel q ps db) (execWithDb env V fuel q ps db) :=
  Mirror.bind (sim_checkDb db) fun _ => Mirror.bind (sim_runQuery hW hB fuel hm) fun _ => Mirror.pure _

theorem sim_txQueryWithDb (fuel h : Nat) {q : Bytes} {ps : Entries} {db : Bytes} (hm : ∀ mode, GoesAlike T env (T.proto.runMessage q ps db mode false)) :
    Mirror T (txQueryWithDb env W fuel h q ps db) (txQueryWithDb env V fuel h q ps db) :=
  Mirror.bind (sim_checkDb db) fun _ => sim_runQuery hW hB fuel hm

theorem sim_txExecWithDb (fuel h : Nat) {q : Bytes} {ps : Entries} {db : Bytes} (hm : ∀ mode, GoesAlike T env (T.proto.runMessage q ps db mode false)) :
    Mirror T (txExecWithDb env W fuel h q ps db) (txExecWithDb env V fuel h q ps db) :=
  Mirror.bind (sim_checkDb db) fun _ => Mirror.bind (sim_runQuery hW hB fuel hm) fun _ => Mirror.pure _

theorem sim_step (fuel : Nat) {op : Op} (ho : OpGoes T env op) : Mirror T (step env W fuel op) (step env V fuel op) := by
  cases op with
  | query q ps db => exact (sim_queryWithDb hW hB fuel ho).void
  | exec q ps db => exact (sim_execWithDb hW hB fuel ho).void
  | begin_ db => exact (sim_begin hW hB fuel ho).void
  | commit h => exact sim_commit hW hB fuel h
  | rollback h => exact sim_rollback hW hB fuel h
  | txQuery h q ps db => exact (sim_txQueryWithDb hW hB fuel h ho).void
  | txExec h q ps => exact (sim_execWithDb hW hB fuel ho).void
  | txExecDb h q ps db => exact (sim_txExecWithDb hW hB fuel h ho).void
  | close => exact sim_close hW hB fuel
  | makeIdle => exact sim_makeIdle hW hB fuel
  | validateOpen => exact (sim_validateOpen hW).void
  | setChunkSize n => exact sim_setChunkSize ho

theorem sim_yields (fuel : Nat) {op : Op} (ho : OpGoes T env op) {d : Conn σ} {c : Conn τ} (hb : Alike T d c) : yields env W fuel op d = yields env V fuel op c := by
  cases op with
  | query q ps db => exact congrArg (toRet _) (sim_queryWithDb hW hB fuel ho d c hb).1
  | exec q ps db => exact congrArg (toRet _) (sim_execWithDb hW hB fuel ho d c hb).1
  | begin_ db => exact congrArg (toRet _) (sim_begin hW hB fuel ho d c hb).1
  | commit h => exact congrArg (toRet _) (sim_commit hW hB fuel h d c hb).1
  | rollback h => exact congrArg (toRet _) (sim_rollback hW hB fuel h d c hb).1
  | txQuery h q ps db => exact congrArg (toRet _) (sim_txQueryWithDb hW hB fuel h ho d c hb).1
  | txExec h q ps => exact congrArg (toRet _) (sim_execWithDb hW hB fuel ho d c hb).1
  | txExecDb h q ps db => exact congrArg (toRet _) (sim_txExecWithDb hW hB fuel h ho d c hb).1
  | close => exact congrArg (toRet _) (sim_close hW hB fuel d c hb).1
  | makeIdle => exact congrArg (toRet _) (sim_makeIdle hW hB fuel d c hb).1
  | validateOpen => exact congrArg (toRet _) (sim_validateOpen hW d c hb).1
  | setChunkSize n => rfl

theorem sim_sendInit (fuel : Nat) {m : Val} (hm : GoesAlike T env m) : Mirror T (sendInit env W fuel m) (sendInit env V fuel m) := by
  unfold sendInit
  refine Mirror.bind (sim_send hW hm) fun _ => Mirror.bind (sim_consume hW hB fuel) fun v => ?_
  split
  · exact Mirror.pure _
  · exact sim_close hW hB fuel

/-- The same history. -/
theorem sim_run (fuel : Nat) : (ops : List Op) → (∀ op ∈ ops, OpGoes T env op) → {d : Conn σ} → {c : Conn τ} → Alike T d c → Alike T (run env W fuel ops d) (run env V fuel ops c)
  | [], _, _, _, hb => hb
  | op :: ops, ho, _, _, hb =>
    sim_run fuel ops (fun o h => ho o (List.mem_cons_of_mem _ h)) (sim_step hW hB fuel (ho op List.mem_cons_self) _ _ hb).2

end
end
end Verif

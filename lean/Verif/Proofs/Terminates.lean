/-
Calls end when the server sends finitely many bytes.
-/
import Verif.Proofs.StepsAll
import Verif.Proofs.Stream
import Verif.Props.C12
namespace Verif
open Spec

section
variable {σ : Type} (env : Env) (W : World σ)

/-- At most `n` bytes can still be read: those that have arrived and those that the server will send, whatever is written to it. -/
def Budget (c : Conn σ) (n : Nat) : Prop := ∀ wss, c.segs.flatten.length + (feed W c.world wss).2.length ≤ n

theorem Budget.mono {c : Conn σ} {m n : Nat} (h : Budget W c m) (hmn : m ≤ n) : Budget W c n := fun wss => Nat.le_trans (h wss) hmn

/-- No new bytes. -/
def Spends (c c' : Conn σ) : Prop := ∀ n, Budget W c n → Budget W c' n

theorem budget_shrink {c c' : Conn σ} (hw : c'.world = c.world) {k : Nat} (hl : c'.segs.flatten.length + k ≤ c.segs.flatten.length) {n : Nat}
    (h : Budget W c n) : k ≤ n ∧ Budget W c' (n - k) := by
  refine ⟨?_, ?_⟩
  · have := h []; omega
  · intro wss
    have := h wss
    rw [hw]; omega

theorem spends_same {c c' : Conn σ} (hw : c'.world = c.world) (hl : c'.segs.flatten.length ≤ c.segs.flatten.length) : Spends W c c' := by
  intro n h
  have := (budget_shrink W hw (k := 0) (by omega) h).2
  simpa using this

theorem readFlat_err (fin : StreamEnd) : (fuel : Nat) → (out s : Bytes) → (e : Err) → (rest : Bytes) → readFlat fin fuel out s = .err e rest → rest = []
  | 0, _, _, _, _, h => by cases h
  | fuel + 1, out, s, e, rest, h => by
    unfold readFlat at h
    split at h
    · cases h; rfl
    · split at h
      · cases h
      · split at h
        · exact readFlat_err fin fuel _ _ e rest h
        · cases h; rfl

theorem readMsg_err {fin : StreamEnd} {segs segs' : List Bytes} {e : Err} (h : readMsg fin segs = .err e segs') : segs'.flatten = [] := by
  have h1 := readMsg_flat fin segs
  rw [h] at h1
  exact readFlat_err fin _ _ _ e _ h1.symm

theorem receive_shrinks (c : Conn σ) : (receive env c).2.world = c.world ∧ (receive env c).2.segs.flatten.length ≤ c.segs.flatten.length := by
  unfold receive
  split
  · exact ⟨rfl, Nat.le_refl _⟩
  · split
    · rename_i e s h
      refine ⟨rfl, ?_⟩
      show s.flatten.length ≤ _
      rw [readMsg_err h]; simp
    · rename_i b s h
      obtain ⟨f, h1, h2⟩ := readMsg_ok h
      have hl : s.flatten.length ≤ c.segs.flatten.length := by rw [h2]; simp
      split <;> exact ⟨rfl, hl⟩

theorem receive_ok_shrinks {c c' : Conn σ} {v : Val} (h : receive env c = (.ok v, c')) :
    c'.world = c.world ∧ c'.segs.flatten.length + 2 ≤ c.segs.flatten.length := by
  obtain ⟨_, ⟨p, s, r, h1, h2, h3⟩, h4⟩ := receive_ok env h
  refine ⟨by rw [h4], ?_⟩
  have := framed_length h2
  rw [h1, List.length_append]; omega

theorem send_spends (v : Val) (c : Conn σ) : Spends W c (sendMessage env W v c).2 := by
  unfold sendMessage writeAll
  dsimp only
  split
  · split <;> exact fun n h => h
  · split
    · exact fun n h => h
    · have key : ∀ (c' : Conn σ) (ws : List Bytes), c'.world = (W.onSend c.world ws).st → c'.segs = c.segs ++ (W.onSend c.world ws).segs → Spends W c c' := by
        intro c' ws h1 h2 n h wss
        have := h (ws :: wss)
        rw [h1, h2]
        simp only [feed, List.length_append, List.flatten_append] at this ⊢
        omega
      split
      · split <;> exact key _ _ rfl rfl
      · exact key _ _ rfl rfl

theorem spends : Prim env W (Spends W) where
  refl c := fun n h => h
  trans h1 h2 := fun n h => h2 n (h1 n h)
  send v c := send_spends env W v c
  recv c := spends_same W (receive_shrinks env c).1 (receive_shrinks env c).2
  endTx h c := fun n h => h
  sock c := by
    unfold closeSock
    dsimp only
    split <;> exact fun n h => h
  addTx c := fun n h => h
  probe c := by
    unfold validateOpen
    split
    · exact fun n h => h
    · split
      · exact fun n h => h
      · exact fun n h => h
      · split
        · rename_i g s hr
          obtain ⟨_, _, h3⟩ := readOnce_some (by omega) hr
          exact spends_same W rfl (by show s.flatten.length ≤ _; rw [← h3]; simp)
        · exact fun n h => h
  chunk n c := fun n h => h

/-- `m` does not run out of fuel when at most `n` bytes can be read. -/
def NoFuel {α : Type} (n : Nat) (m : CM σ α) : Prop := ∀ c, Budget W c n → (m c).1 ≠ .fuel

namespace NoFuel
variable {α β : Type} {n : Nat}

theorem pure (a : α) : NoFuel W n (Pure.pure a : CM σ α) := fun c _ h => by cases h
theorem fail (e : Err) : NoFuel W n (CM.fail e : CM σ α) := fun c _ h => by cases h
theorem get : NoFuel W n (CM.get : CM σ (Conn σ)) := fun c _ h => by cases h

theorem bind {m : CM σ α} {f : α → CM σ β} (hm : NoFuel W n m) (hs : Steps (Spends W) m) (hf : ∀ a, NoFuel W n (f a)) : NoFuel W n (m >>= f) := by
  intro c hb
  rw [CM.bind_apply]
  have h1 := hm c hb
  have h2 := hs c n hb
  match h : m c with
  | (.ok a, c1) => rw [h] at h2; exact hf a c1 h2
  | (.err e, c1) => simp
  | (.panic, c1) => simp
  | (.fuel, c1) => rw [h] at h1; exact absurd rfl h1

theorem mapErr {f : Err → Err} {m : CM σ α} (hm : NoFuel W n m) : NoFuel W n (CM.mapErr f m) := by
  intro c hb
  have := hm c hb
  unfold CM.mapErr
  match h : m c with
  | (.ok a, c1) => simp
  | (.err e, c1) => simp
  | (.panic, c1) => simp
  | (.fuel, c1) => rw [h] at this; exact absurd rfl this

theorem thenFail {m : CM σ α} (hm : NoFuel W n m) (e : Err) : NoFuel W n (CM.thenFail m e : CM σ β) := by
  intro c hb
  have := hm c hb
  unfold CM.thenFail
  match h : m c with
  | (.ok a, c1) => simp
  | (.err e, c1) => simp
  | (.panic, c1) => simp
  | (.fuel, c1) => rw [h] at this; exact absurd rfl this

end NoFuel

theorem send_noFuel (v : Val) (n : Nat) : NoFuel W n (sendMessage env W v) := by
  intro c _
  unfold sendMessage writeAll
  dsimp only
  split
  · split <;> simp
  · split
    · simp
    · split
      · split <;> simp
      · simp

theorem receive_noFuel (n : Nat) : NoFuel W n (receive (σ := σ) env) := by
  intro c _
  unfold receive
  split
  · simp
  · split
    · simp
    · rename_i b s _
      split
      · simp
      · simp
      · simp
      · rename_i h
        exact absurd h (C12_decode_terminates env c.proto.codec b (b.length + 1) (by omega)).1

theorem consumeWith_noFuel {n : Nat} {reset : CM σ Unit} (hr : NoFuel W n reset) (hs : Steps (Spends W) reset) : NoFuel W n (consumeWith env reset) := by
  unfold consumeWith
  refine NoFuel.bind W (receive_noFuel env W n) (spends env W).recv fun v => ?_
  split
  · exact NoFuel.bind W (NoFuel.mapErr W hr) hs.mapErr fun _ => NoFuel.fail W _
  · exact NoFuel.pure W _

theorem txExchange_noFuel {n : Nat} {consume : CM σ Val} (hc : NoFuel W n consume) (hs : Steps (Spends W) consume) (msg : Val) (what : String) :
    NoFuel W n (txExchange env W consume msg what) := by
  unfold txExchange
  refine NoFuel.bind W (send_noFuel env W _ n) ((spends env W).send _) fun _ => ?_
  split
  · refine NoFuel.bind W hc hs fun v => ?_
    split
    · exact NoFuel.fail W _
    · exact NoFuel.pure W _
  · refine NoFuel.bind W (NoFuel.get W) (Steps.get (spends env W).toStepRel) fun c => ?_
    refine NoFuel.bind W (send_noFuel env W _ n) ((spends env W).send _) fun _ => ?_
    refine NoFuel.bind W hc hs fun v => ?_
    refine NoFuel.bind W hc hs fun v' => ?_
    split
    · exact NoFuel.fail W _
    · split
      · exact NoFuel.fail W _
      · exact NoFuel.pure W _

theorem endWith_noFuel {n : Nat} {consume : CM σ Val} (hc : NoFuel W n consume) (hs : Steps (Spends W) consume) (m : Proto → Val) (what : String) (h : Nat) :
    NoFuel W n (endWith env W consume m what h) := by
  unfold endWith
  refine NoFuel.bind W (NoFuel.get W) (Steps.get (spends env W).toStepRel) fun c => ?_
  split
  · exact NoFuel.fail W _
  · refine NoFuel.bind W (NoFuel.get W) (Steps.get (spends env W).toStepRel) fun c => ?_
    exact NoFuel.bind W (txExchange_noFuel env W hc hs _ _) ((spends env W).txExchange env W hs _ _) fun _ => fun c _ h => by cases h

theorem closeSock_noFuel (n : Nat) : NoFuel W n (closeSock (σ := σ) W) := by
  intro c _
  unfold closeSock
  dsimp only
  split <;> simp

theorem closeWith_noFuel {n : Nat} {rollback : Nat → CM σ Unit} (hr : ∀ h, NoFuel W n (rollback h)) (hs : ∀ h, Steps (Spends W) (rollback h)) :
    NoFuel W n (closeWith env W rollback) := by
  unfold closeWith
  have S := spends env W
  refine NoFuel.bind W (NoFuel.get W) (Steps.get S.toStepRel) fun c => ?_
  have hgo : ∀ c : Conn σ, NoFuel W n (match c.proto.closeMessage with
      | some m => do
        sendMessage env W m
        closeSock W
      | none => closeSock W) := by
    intro c
    split
    · exact NoFuel.bind W (send_noFuel env W _ n) (S.send _) fun _ => closeSock_noFuel W n
    · exact closeSock_noFuel W n
  split
  · exact NoFuel.fail W _
  · refine NoFuel.bind W (NoFuel.get W) (Steps.get S.toStepRel) fun c => ?_
    split
    · refine NoFuel.bind W (hr _) (hs _) fun _ => ?_
      exact NoFuel.bind W (NoFuel.get W) (Steps.get S.toStepRel) hgo
    · exact NoFuel.bind W (NoFuel.get W) (Steps.get S.toStepRel) hgo

theorem resetLoop_noFuel {n : Nat} {close : CM σ Unit} (hc : ∀ c, Budget W c n → 2 ≤ n → NoFuel W (n - 2) close) : (N : Nat) → (c : Conn σ) → Budget W c n →
    streamLen c.segs < N → (resetLoop env close N c).1 ≠ .fuel
  | 0, _, _, h => absurd h (Nat.not_lt_zero _)
  | N + 1, c, hb, hN => by
    unfold resetLoop
    have hrf : (CM.mapErr (fun e => e.wrap "An error occurred decoding reset message response") (receive env) c).1 ≠ .fuel :=
      NoFuel.mapErr W (receive_noFuel env W n) c hb
    match hr : CM.mapErr (fun e => e.wrap "An error occurred decoding reset message response") (receive env) c with
    | (.err e, c1) => rw [CM.bind_err hr]; simp
    | (.panic, c1) => rw [CM.bind_panic hr]; simp
    | (.fuel, c1) => rw [hr] at hrf; exact absurd rfl hrf
    | (.ok v, c1) =>
      rw [CM.bind_ok hr]
      obtain ⟨h1, h2⟩ := receive_ok_shrinks env (CM.mapErr_eq_ok.mp hr)
      obtain ⟨h3, h4⟩ := budget_shrink W h1 h2 hb
      rw [streamLen_eq] at hN
      split
      · exact resetLoop_noFuel hc N c1 (h4.mono W (by omega)) (by rw [streamLen_eq]; omega)
      · cases asSuccess v <;> cases asFailure v
        all_goals first | exact NoFuel.pure W () c1 h4 | exact NoFuel.thenFail W (hc c hb h3) _ c1 h4

theorem reset_noFuel : (fuel n : Nat) → n < fuel → NoFuel W n (reset env W fuel)
  | 0, _, h => absurd h (Nat.not_lt_zero _)
  | fuel + 1, n, hn => by
    unfold reset resetWith
    have S := spends env W
    refine NoFuel.bind W (NoFuel.mapErr W (send_noFuel env W _ n)) (Steps.mapErr (S.send _)) fun _ => ?_
    intro c hb
    refine resetLoop_noFuel env W (n := n) ?_ _ c hb (by omega)
    intro _ _ h2
    refine closeWith_noFuel env W (fun h => endWith_noFuel env W (consumeWith_noFuel env W (reset_noFuel fuel (n - 2) (by omega)) (S.reset env W fuel))
      (S.consumeWith env W (S.reset env W fuel)) _ _ h) fun h => S.endWith env W (S.consumeWith env W (S.reset env W fuel)) _ _ h

theorem consume_noFuel {fuel n : Nat} (h : n < fuel) : NoFuel W n (consume env W fuel) :=
  consumeWith_noFuel env W (reset_noFuel env W fuel n h) ((spends env W).reset env W fuel)

theorem rowsLoop_noFuel {fuel n : Nat} (hf : n < fuel) : (N : Nat) → (out : List (List Val)) → (c : Conn σ) → Budget W c n → streamLen c.segs < N →
    (rowsLoop (consume env W fuel) N out c).1 ≠ .fuel
  | 0, _, _, _, h => absurd h (Nat.not_lt_zero _)
  | N + 1, out, c, hb, hN => by
    unfold rowsLoop
    have h0 := consume_noFuel env W hf c hb
    match hr : consume env W fuel c with
    | (.err e, c1) => rw [CM.bind_err hr]; simp
    | (.panic, c1) => rw [CM.bind_panic hr]; simp
    | (.fuel, c1) => rw [hr] at h0; exact absurd rfl h0
    | (.ok v, c1) =>
      rw [CM.bind_ok hr]
      obtain ⟨h1, h2⟩ := receive_ok_shrinks env (consumeWith_ok env hr).1
      obtain ⟨h3, h4⟩ := budget_shrink W h1 h2 hb
      rw [streamLen_eq] at hN
      cases asSuccess v <;> cases asRecord v
      all_goals first
        | exact NoFuel.pure W _ c1 h4
        | exact rowsLoop_noFuel hf N _ c1 (h4.mono W (by omega)) (by rw [streamLen_eq]; omega)
        | exact NoFuel.fail W _ c1 h4

theorem runQuery_noFuel {fuel n : Nat} (hf : n < fuel) (q : Bytes) (ps : Entries) (db : Bytes) (inTx : Bool) :
    NoFuel W n (runQuery env W fuel q ps db inTx) := by
  unfold runQuery
  have S := spends env W
  refine NoFuel.bind W (NoFuel.get W) (Steps.get S.toStepRel) fun c => ?_
  split
  · exact NoFuel.fail W _
  · refine NoFuel.bind W (NoFuel.get W) (Steps.get S.toStepRel) fun c => ?_
    refine NoFuel.bind W (send_noFuel env W _ n) (S.send _) fun _ => ?_
    refine NoFuel.bind W (send_noFuel env W _ n) (S.send _) fun _ => ?_
    refine NoFuel.bind W (consume_noFuel env W hf) (S.consume env W fuel) fun v => ?_
    split
    · exact NoFuel.fail W _
    · intro c hb; exact rowsLoop_noFuel env W hf _ _ c hb (by omega)

theorem rollback_noFuel {fuel n : Nat} (hf : n < fuel) (h : Nat) : NoFuel W n (rollback env W fuel h) :=
  endWith_noFuel env W (consume_noFuel env W hf) ((spends env W).consume env W fuel) _ _ h

theorem close_noFuel {fuel n : Nat} (hf : n < fuel) : NoFuel W n (close env W fuel) :=
  closeWith_noFuel env W (fun h => rollback_noFuel env W hf h) fun h => (spends env W).rollback env W fuel h

theorem checkDb_noFuel (n : Nat) (db : Bytes) : NoFuel W n (checkDb (σ := σ) db) := by
  unfold checkDb
  intro c hb
  rw [CM.get_bind]
  split
  · exact NoFuel.fail W _ c hb
  · exact NoFuel.pure W _ c hb

theorem void_noFuel {α : Type} {n : Nat} {m : CM σ α} (h : NoFuel W n m) (hs : Steps (Spends W) m) : NoFuel W n m.void :=
  NoFuel.bind W h hs fun _ => NoFuel.pure W _

theorem step_noFuel {fuel n : Nat} (hf : n < fuel) (op : Op) : NoFuel W n (step env W fuel op) := by
  have S := spends env W
  have hq : ∀ q ps db inTx, NoFuel W n (checkDb db >>= fun _ => runQuery env W fuel q ps db inTx) := fun q ps db inTx =>
    NoFuel.bind W (checkDb_noFuel W n db) (S.checkDb env W db) fun _ => runQuery_noFuel env W hf q ps db inTx
  have he : ∀ q ps db inTx, NoFuel W n (do checkDb db; let r ← runQuery env W fuel q ps db inTx; Pure.pure r.2) := fun q ps db inTx =>
    NoFuel.bind W (checkDb_noFuel W n db) (S.checkDb env W db) fun _ =>
      NoFuel.bind W (runQuery_noFuel env W hf q ps db inTx) (S.runQuery env W fuel q ps db inTx) fun _ => NoFuel.pure W _
  have T := S.toStepRel
  cases op with
  | query q ps db => exact void_noFuel W (hq q ps db false) (Steps.bind T (S.checkDb env W db) fun _ => S.runQuery env W fuel q ps db false)
  | exec q ps db => exact void_noFuel W (he q ps db false) (Steps.bind T (S.checkDb env W db) fun _ =>
      Steps.bind T (S.runQuery env W fuel q ps db false) fun _ => Steps.pure T _)
  | begin_ db =>
    refine void_noFuel W ?_ (S.begin env W fuel db)
    intro c hb
    rw [begin_apply]
    split
    · simp
    · split
      · simp
      · exact NoFuel.bind W (txExchange_noFuel env W (consume_noFuel env W hf) (S.consume env W fuel) _ _) (S.txExchange env W (S.consume env W fuel) _ _)
          (fun _ => fun c _ h => by cases h) c hb
  | commit h => exact endWith_noFuel env W (consume_noFuel env W hf) (S.consume env W fuel) _ _ h
  | rollback h => exact rollback_noFuel env W hf h
  | txQuery h q ps db => exact void_noFuel W (hq q ps db true) (Steps.bind T (S.checkDb env W db) fun _ => S.runQuery env W fuel q ps db true)
  | txExec h q ps => exact void_noFuel W (he q ps [] false) (Steps.bind T (S.checkDb env W []) fun _ =>
      Steps.bind T (S.runQuery env W fuel q ps [] false) fun _ => Steps.pure T _)
  | txExecDb h q ps db => exact void_noFuel W (he q ps db true) (Steps.bind T (S.checkDb env W db) fun _ =>
      Steps.bind T (S.runQuery env W fuel q ps db true) fun _ => Steps.pure T _)
  | close => exact close_noFuel env W hf
  | makeIdle =>
    show NoFuel W n (makeIdle env W fuel)
    unfold makeIdle
    refine NoFuel.bind W (NoFuel.get W) (Steps.get T) fun c => ?_
    split
    · exact rollback_noFuel env W hf _
    · exact NoFuel.pure W _
  | validateOpen =>
    refine void_noFuel W ?_ S.probe
    intro c _
    unfold validateOpen
    split
    · simp
    · split
      · simp
      · simp
      · split <;> simp
  | setChunkSize n => intro c _ h; cases h

end
end Verif

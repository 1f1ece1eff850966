/-
C98  What the driver writes to the log does not reveal what it sends, in particular passwords and parameters.

False at the level trace-bytes.  Missing in `C98_below_partial`: that level.
-/
import Verif.Proofs.ConnLog
import Verif.Spec.LogHistory
import Verif.Spec.Scripted
import Verif.Proofs.EncodeConforms
import Verif.Props.C93
import Verif.Props.C32
namespace Verif

namespace Spec

/-- Messages that are the same in every run. -/
def fixedTexts : List String :=
  ["Consuming response from bolt stream", "Resetting session", "running query", "running pull all",
   "Using protocol version 1", "Using protocol version 2", "Using protocol version 3", "Using protocol version 4"]

/-- A text that tells nothing about what was sent: it is the same in every run, or it shows a message that came from the server, or an error that closing the connection gave. -/
inductive Harmless {σ : Type} (env : Env) (W : World σ) (L : LogEnv) (t : List Ev) : Bytes → Prop where
  | fixed (s : String) : s ∈ fixedTexts → Harmless env W L t (ascii s)
  | message (format : String) (v : Val) : .recv v ∈ t → Harmless env W L t (L.text format v)
  | closing (fuel : Nat) (c : Conn σ) (e : Err) : (close env W fuel c).1 = .err e → Harmless env W L t (L.errText e)

/-- The message is a SUCCESS. -/
def IsSuccess (v : Val) : Prop := ∃ md, v = .struct .success [.map md]

/-- The message is a FAILURE. -/
def IsFailure (v : Val) : Prop := ∃ md, v = .struct .failure [.map md]

/-- A text about something that went wrong: it shows a message from the server that is not a SUCCESS, or an error that closing the connection gave after a FAILURE. -/
inductive Trouble {σ : Type} (env : Env) (W : World σ) (L : LogEnv) (t : List Ev) : Bytes → Prop where
  | message (format : String) (v : Val) : .recv v ∈ t → ¬ IsSuccess v → Trouble env W L t (L.text format v)
  | closing (fuel : Nat) (c : Conn σ) (e : Err) (v : Val) : .recv v ∈ t → IsFailure v → (close env W fuel c).1 = .err e → Trouble env W L t (L.errText e)

/-- The text occurs in the value. -/
inductive Occurs (s : Bytes) : Val → Prop where
  | here : Occurs s (.str s)
  | item {k : Bool} {vs : List Val} {v : Val} : v ∈ vs → Occurs s v → Occurs s (.list k vs)
  | key {es : Entries} {v : Val} : (s, v) ∈ es → Occurs s (.map es)
  | value {es : Entries} {k : Bytes} {v : Val} : (k, v) ∈ es → Occurs s v → Occurs s (.map es)
  | field {k : StructKind} {fs : List Val} {v : Val} : k ≠ .discard → v ∈ fs → Occurs s v → Occurs s (.struct k fs)

/-- The level trace-bytes is not asked for. -/
def NotBytes (ops : List LogOp) : Prop := ∀ name, .setLevel name ∈ ops → ¬ Means name .traceBytes

end Spec

namespace C98
variable {σ : Type} (env : Env) (W : World σ) (L : LogEnv)
open Spec

theorem Harmless.mono {t t' : List Ev} {b : Bytes} (h : Harmless env W L t b) (ht : t <+: t') : Harmless env W L t' b := by
  cases h with
  | fixed s h => exact .fixed s h
  | message f v h => exact .message f v (ht.subset h)
  | closing fuel c e h => exact .closing fuel c e h

/-- A call into the log that prints only harmless texts below the level trace-bytes. -/
def Tells (t : List Ev) : LogCall → Prop
  | .error m => Trouble env W L t m
  | .info m => ∃ format v, .recv v ∈ t ∧ IsSuccess v ∧ m = L.text format v
  | .trace m => Harmless env W L t m
  | .dump _ => True
  | .dumpBuffer _ => True
  | .setLevel _ => False

theorem Tells.mono {t t' : List Ev} {l : LogCall} (h : Tells env W L t l) (ht : t <+: t') : Tells env W L t' l := by
  cases l with
  | setLevel => exact h
  | error =>
    cases h with
    | message f v h hv => exact .message f v (ht.subset h) hv
    | closing fuel c e v h hv hc => exact .closing fuel c e v (ht.subset h) hv hc
  | info => obtain ⟨f, v, h, hv, rfl⟩ := h; exact ⟨f, v, ht.subset h, hv, rfl⟩
  | trace => exact Harmless.mono env W L h ht
  | dump => trivial
  | dumpBuffer => trivial

/-- A call that prints only harmless texts. -/
def Quiet {α : Type} (pre : List Ev → Prop) (m : LM σ α) (post : List Ev → α → Prop) : Prop :=
  ∀ c, pre c.trace → c.trace <+: (m c).2.1.trace ∧ (∀ l ∈ (m c).2.2, Tells env W L (m c).2.1.trace l) ∧ ∀ a, (m c).1 = .ok a → post (m c).2.1.trace a

/-- Nothing is required. -/
def any {α : Type} (_ : List Ev) (_ : α) : Prop := True

variable {env W L} {α β : Type}

theorem Quiet.bind {pre : List Ev → Prop} {m : LM σ α} {mid : List Ev → α → Prop} {f : α → LM σ β} {post : List Ev → β → Prop}
    (hm : Quiet env W L pre m mid) (hf : ∀ a, Quiet env W L (mid · a) (f a) post) : Quiet env W L pre (m >>= f) post := by
  intro c hc
  obtain ⟨h1, h2, h3⟩ := hm c hc
  show _ <+: (LM.bind m f c).2.1.trace ∧ (∀ l ∈ (LM.bind m f c).2.2, Tells env W L (LM.bind m f c).2.1.trace l) ∧
    ∀ a, (LM.bind m f c).1 = .ok a → post (LM.bind m f c).2.1.trace a
  unfold LM.bind
  match h : m c with
  | (.ok a, c', l) =>
    rw [h] at h1 h2 h3
    obtain ⟨g1, g2, g3⟩ := hf a c' (h3 a rfl)
    refine ⟨h1.trans g1, ?_, g3⟩
    intro x hx
    rcases List.mem_append.1 hx with hx | hx
    · exact (h2 x hx).mono env W L g1
    · exact g2 x hx
  | (.err e, c', l) => rw [h] at h1 h2; exact ⟨h1, h2, fun a ha => by cases ha⟩
  | (.panic, c', l) => rw [h] at h1 h2; exact ⟨h1, h2, fun a ha => by cases ha⟩
  | (.fuel, c', l) => rw [h] at h1 h2; exact ⟨h1, h2, fun a ha => by cases ha⟩

theorem Quiet.weaken {pre pre' : List Ev → Prop} {m : LM σ α} {post post' : List Ev → α → Prop} (h : Quiet env W L pre m post)
    (h1 : ∀ t, pre' t → pre t) (h2 : ∀ t a, post t a → post' t a) : Quiet env W L pre' m post' :=
  fun c hc => ⟨(h c (h1 _ hc)).1, (h c (h1 _ hc)).2.1, fun a ha => h2 _ a ((h c (h1 _ hc)).2.2 a ha)⟩

theorem Quiet.pre {pre pre' : List Ev → Prop} {m : LM σ α} {post : List Ev → α → Prop} (h : Quiet env W L pre m post)
    (h1 : ∀ t, pre' t → pre t) : Quiet env W L pre' m post := h.weaken h1 fun _ _ h => h

theorem Quiet.pure {pre : List Ev → Prop} {post : List Ev → α → Prop} {a : α} (h : ∀ t, pre t → post t a) : Quiet env W L pre (Pure.pure a : LM σ α) post :=
  fun c hc => ⟨List.prefix_refl _, fun _ hl => absurd hl List.not_mem_nil, fun a' ha => by
    have : a = a' := by simpa using (show CRes.ok a = CRes.ok a' from ha)
    exact this ▸ h _ hc⟩

theorem Quiet.lift {pre : List Ev → Prop} {m : CM σ α} {post : List Ev → α → Prop} (h : ∀ c, pre c.trace → c.trace <+: (m c).2.trace)
    (h2 : ∀ c a, pre c.trace → (m c).1 = .ok a → post (m c).2.trace a) : Quiet env W L pre (LM.lift m) post :=
  fun c hc => ⟨h c hc, fun _ hl => absurd hl List.not_mem_nil, fun a ha => h2 c a hc ha⟩

theorem Quiet.say {pre : List Ev → Prop} {l : LogCall} (h : ∀ t, pre t → Tells env W L t l) : Quiet env W L pre (LM.say l : LM σ Unit) fun t _ => pre t :=
  fun c hc => ⟨List.prefix_refl _, fun x hx => by rw [List.mem_singleton.1 hx]; exact h _ hc, fun _ _ => hc⟩

theorem Quiet.last {pre : List Ev → Prop} {l : LogCall} (h : ∀ t, pre t → Tells env W L t l) : Quiet env W L pre (LM.say l : LM σ Unit) any :=
  fun c hc => ⟨List.prefix_refl _, fun x hx => by rw [List.mem_singleton.1 hx]; exact h _ hc, fun _ _ => trivial⟩

theorem Quiet.fail {pre : List Ev → Prop} {post : List Ev → α → Prop} (e : Err) : Quiet env W L pre (LM.fail e : LM σ α) post :=
  Quiet.lift (fun _ _ => List.prefix_refl _) fun _ _ _ h => by cases h

theorem Quiet.get {pre : List Ev → Prop} : Quiet env W L pre (LM.get : LM σ (Conn σ)) fun t _ => pre t :=
  Quiet.lift (fun _ _ => List.prefix_refl _) fun _ _ h _ => h

theorem Quiet.mapErr {pre : List Ev → Prop} {m : LM σ α} {post : List Ev → α → Prop} (f : Err → Err) (h : Quiet env W L pre m post) :
    Quiet env W L pre (LM.mapErr f m) post := by
  intro c hc
  obtain ⟨h1, h2, h3⟩ := h c hc
  unfold LM.mapErr
  match h : m c with
  | (.ok a, c', l) => rw [h] at h1 h2 h3; exact ⟨h1, h2, h3⟩
  | (.err e, c', l) => rw [h] at h1 h2; exact ⟨h1, h2, fun a ha => by cases ha⟩
  | (.panic, c', l) => rw [h] at h1 h2; exact ⟨h1, h2, fun a ha => by cases ha⟩
  | (.fuel, c', l) => rw [h] at h1 h2; exact ⟨h1, h2, fun a ha => by cases ha⟩

theorem Quiet.thenFail {pre : List Ev → Prop} {m : LM σ α} {mid : List Ev → α → Prop} {post : List Ev → β → Prop} {log : Err → List LogCall} (e : Err)
    (h : Quiet env W L pre m mid) (hl : ∀ c e', pre c.trace → (m c).1 = .err e' → ∀ t, c.trace <+: t → ∀ l ∈ log e', Tells env W L t l) :
    Quiet env W L pre (LM.thenFail m log e : LM σ β) post := by
  intro c hc
  obtain ⟨h1, h2, -⟩ := h c hc
  unfold LM.thenFail
  match h : m c with
  | (.ok a, c', l) => rw [h] at h1 h2; exact ⟨h1, h2, fun a ha => by cases ha⟩
  | (.err e', c', l) =>
    rw [h] at h1 h2
    refine ⟨h1, ?_, fun a ha => by cases ha⟩
    intro x hx
    rcases List.mem_append.1 hx with hx | hx
    · exact h2 x hx
    · exact hl c e' hc (by rw [h]) _ h1 x hx
  | (.panic, c', l) => rw [h] at h1 h2; exact ⟨h1, h2, fun a ha => by cases ha⟩
  | (.fuel, c', l) => rw [h] at h1 h2; exact ⟨h1, h2, fun a ha => by cases ha⟩

theorem Quiet.ite {p : Prop} [Decidable p] {pre : List Ev → Prop} {a b : LM σ α} {post : List Ev → α → Prop}
    (ha : Quiet env W L pre a post) (hb : Quiet env W L pre b post) : Quiet env W L pre (if p then a else b) post := by
  split
  · exact ha
  · exact hb

/-- The message was received. -/
def received (t : List Ev) (v : Val) : Prop := .recv v ∈ t

theorem quiet_receive {pre : List Ev → Prop} : Quiet env W L pre (LM.lift (receive env) : LM σ Val) received := by
  refine Quiet.lift ?_ ?_
  · intro c _
    unfold receive
    split
    · exact List.prefix_refl _
    · split
      · exact List.prefix_refl _
      · split
        · exact List.prefix_append _ _
        all_goals exact List.prefix_refl _
  · intro c v _ h
    unfold receive at h ⊢
    split at h
    · cases h
    · rename_i hs
      rw [if_neg hs]
      split at h
      · cases h
      · rename_i b s _
        split at h
        · cases h
          exact List.mem_append_right _ (List.mem_singleton_self _)
        all_goals cases h

theorem writeAll_trace (ws : List Bytes) (e : Option Err) (c : Conn σ) : c.trace <+: (writeAll W ws e c).2.trace := by
  unfold writeAll
  split
  · split <;> exact List.prefix_refl _
  · split
    · exact List.prefix_refl _
    · dsimp only
      split
      · split <;> exact List.prefix_append _ _
      · exact List.prefix_append _ _

theorem quiet_send {pre : List Ev → Prop} (v : Val) : Quiet env W L pre (logSend env W L v : LM σ Unit) any := by
  intro c _
  refine ⟨writeAll_trace _ _ c, ?_, fun _ _ => trivial⟩
  intro l hl
  have hd : l ∈ flushDump env c.proto.codec c.chunkSize v := by
    unfold logSend at hl
    dsimp only at hl
    split at hl
    · exact hl
    · exact absurd hl List.not_mem_nil
  unfold flushDump at hd
  split at hd
  · split at hd
    · rw [List.mem_singleton.1 hd]; trivial
    · exact absurd hd List.not_mem_nil
  · exact absurd hd List.not_mem_nil

theorem isSuccess_iff (v : Val) : IsSuccess v ↔ ∃ md, asSuccess v = some md := by
  constructor
  · rintro ⟨md, rfl⟩; exact ⟨md, rfl⟩
  · rintro ⟨md, h⟩
    unfold asSuccess at h
    split at h
    · exact ⟨_, rfl⟩
    · cases h

theorem isFailure_iff (v : Val) : IsFailure v ↔ ∃ md, asFailure v = some md := by
  constructor
  · rintro ⟨md, rfl⟩; exact ⟨md, rfl⟩
  · rintro ⟨md, h⟩
    unfold asFailure at h
    split at h
    · exact ⟨_, rfl⟩
    · cases h

theorem not_success {v : Val} (h : asSuccess v = none) : ¬ IsSuccess v := by
  rw [isSuccess_iff, h]; rintro ⟨_, h⟩; cases h

theorem failure_not_success {v : Val} (h : IsFailure v) : ¬ IsSuccess v := by
  obtain ⟨md, rfl⟩ := h; exact not_success rfl

theorem fixed_trace {t : List Ev} (s : String) (h : s ∈ fixedTexts) : Tells env W L t (.trace (ascii s)) := Harmless.fixed s h

theorem quiet_consumeWith {pre : List Ev → Prop} {reset : LM σ Unit} (h : Quiet env W L (fun _ => True) reset any) :
    Quiet env W L pre (logConsumeWith env L reset) received := by
  unfold logConsumeWith
  refine Quiet.bind (Quiet.say fun t _ => fixed_trace _ (by decide)) fun _ => ?_
  refine Quiet.bind quiet_receive fun v => ?_
  refine Quiet.bind (Quiet.say fun t ht => Harmless.message _ v ht) fun _ => ?_
  cases hf : asFailure v with
  | none => exact Quiet.pure fun _ h => h
  | some md =>
    refine Quiet.bind (Quiet.say fun t ht => Trouble.message _ v ht (failure_not_success ((isFailure_iff v).2 ⟨md, hf⟩))) fun _ => ?_
    exact Quiet.bind (Quiet.mapErr _ (h.pre fun _ _ => trivial)) fun _ => Quiet.fail _

theorem quiet_resetLoop {close : LM σ Unit} (h : Quiet env W L (fun _ => True) close any)
    (hc : ∃ fuel, close.erase = Verif.close env W fuel) (n : Nat) {pre : List Ev → Prop} :
    Quiet env W L pre (logResetLoop env L close n) any := by
  induction n generalizing pre with
  | zero => exact Quiet.lift (fun _ _ => List.prefix_refl _) fun _ _ _ h => by cases h
  | succ n ih =>
    unfold logResetLoop
    refine Quiet.bind (Quiet.mapErr _ quiet_receive) fun v => ?_
    refine Quiet.ite (Quiet.bind (Quiet.say fun t ht => Harmless.message _ v ht) fun _ => ih) ?_
    cases hs : asSuccess v with
    | some _ => exact Quiet.last fun t ht => Harmless.message _ v ht
    | none =>
      cases hf : asFailure v with
      | some md =>
        have hv : IsFailure v := (isFailure_iff v).2 ⟨md, hf⟩
        refine Quiet.bind (Quiet.say fun t ht => Trouble.message _ v ht (not_success hs)) fun _ => ?_
        refine Quiet.thenFail _ (h.pre fun _ _ => trivial) ?_
        intro c e hp he t ht l hl
        rw [List.mem_singleton.1 hl]
        obtain ⟨fuel, hf⟩ := hc
        refine Trouble.closing fuel c e v (ht.subset hp) hv ?_
        rw [← hf]; exact he
      | none =>
        refine Quiet.bind (Quiet.say fun t ht => Trouble.message _ v ht (not_success hs)) fun _ => ?_
        exact Quiet.thenFail _ (h.pre fun _ _ => trivial) fun _ _ _ _ _ _ _ hl => absurd hl List.not_mem_nil

theorem Quiet.of_apply {pre : List Ev → Prop} {m : Conn σ → LM σ α} {post : List Ev → α → Prop} (h : ∀ c, Quiet env W L pre (m c) post) :
    Quiet env W L pre (fun c => m c c) post := fun c hc => h c c hc

theorem quiet_resetWith {close : LM σ Unit} (h : Quiet env W L (fun _ => True) close any) (hc : ∃ fuel, close.erase = Verif.close env W fuel)
    {pre : List Ev → Prop} : Quiet env W L pre (logResetWith env W L close) any := by
  unfold logResetWith
  refine Quiet.bind (Quiet.say fun t _ => fixed_trace _ (by decide)) fun _ => ?_
  refine Quiet.bind (Quiet.mapErr _ (quiet_send _)) fun _ => ?_
  exact Quiet.of_apply (m := fun c => logResetLoop env L close (streamLen c.segs + 1)) fun c => quiet_resetLoop h hc _

theorem quiet_txExchange {consume : LM σ Val} (h : ∀ {pre}, Quiet env W L pre consume received) (msg : Val) (what : String) (said : Option String)
    {pre : List Ev → Prop} : Quiet env W L pre (logTxExchange env W L consume msg what said) any := by
  unfold logTxExchange
  refine Quiet.bind (quiet_send _) fun _ => ?_
  refine Quiet.ite ?_ ?_
  · refine Quiet.bind h fun run => ?_
    cases asSuccess run with
    | none => exact Quiet.fail _
    | some _ =>
      cases said with
      | none => exact Quiet.pure fun _ _ => trivial
      | some f => exact Quiet.last fun t ht => Harmless.message _ run ht
  · refine Quiet.bind Quiet.get fun c => ?_
    refine Quiet.bind (quiet_send _) fun _ => ?_
    refine Quiet.bind h fun run => ?_
    refine Quiet.bind (mid := fun t v => received t run ∧ received t v) ?_ fun pull => ?_
    · intro c hc
      obtain ⟨h1, h2, h3⟩ := h (pre := fun _ => True) c trivial
      exact ⟨h1, h2, fun a ha => ⟨h1.subset hc, h3 a ha⟩⟩
    · cases asSuccess run with
      | none => exact Quiet.fail _
      | some _ =>
        cases said with
        | none =>
          cases asSuccess pull with
          | none => exact Quiet.fail _
          | some _ => exact Quiet.pure fun _ _ => trivial
        | some f =>
          refine Quiet.bind (Quiet.say fun t ht => Harmless.message _ run ht.1) fun _ => ?_
          cases asSuccess pull with
          | none => exact Quiet.fail _
          | some _ => exact Quiet.last fun t ht => Harmless.message _ pull ht.2

theorem quiet_modify {pre : List Ev → Prop} {f : Conn σ → Conn σ} (h : ∀ c, (f c).trace = c.trace) :
    Quiet env W L pre (LM.lift (CM.modify f)) any := by
  refine Quiet.lift (fun c _ => ?_) fun _ _ _ _ => trivial
  show c.trace <+: (f c).trace
  rw [h c]
  exact List.prefix_refl _

theorem quiet_rollbackWith {consume : LM σ Val} (h : ∀ {pre}, Quiet env W L pre consume received) (hd : Nat) {pre : List Ev → Prop} :
    Quiet env W L pre (logRollbackWith env W L consume hd) any := by
  unfold logRollbackWith
  refine Quiet.bind Quiet.get fun c => Quiet.ite (Quiet.fail _) ?_
  refine Quiet.bind Quiet.get fun c => ?_
  exact Quiet.bind (quiet_txExchange h _ _ _) fun _ => quiet_modify fun _ => rfl

theorem quiet_commitWith {consume : LM σ Val} (h : ∀ {pre}, Quiet env W L pre consume received) (hd : Nat) {pre : List Ev → Prop} :
    Quiet env W L pre (logCommitWith env W L consume hd) any := by
  unfold logCommitWith
  refine Quiet.bind Quiet.get fun c => Quiet.ite (Quiet.fail _) ?_
  refine Quiet.bind Quiet.get fun c => ?_
  exact Quiet.bind (quiet_txExchange h _ _ _) fun _ => quiet_modify fun _ => rfl

theorem quiet_closeSock {pre : List Ev → Prop} : Quiet env W L pre (LM.lift (closeSock W)) any := by
  refine Quiet.lift (fun c _ => ?_) fun _ _ _ _ => trivial
  unfold closeSock
  dsimp only
  split <;> exact List.prefix_append _ _

theorem quiet_closeWith {rollback : Nat → LM σ Unit} (h : ∀ {pre} hd, Quiet env W L pre (rollback hd) any) {pre : List Ev → Prop} :
    Quiet env W L pre (logCloseWith env W L rollback) any := by
  unfold logCloseWith
  refine Quiet.bind Quiet.get fun c => Quiet.ite (Quiet.fail _) ?_
  refine Quiet.bind Quiet.get fun c => ?_
  have hk : ∀ {pre : List Ev → Prop}, Quiet env W L pre (do
      match (← LM.get).proto.closeMessage with
      | some m => logSend env W L m
      | none => Pure.pure ()
      LM.lift (closeSock W)) any := by
    intro pre
    refine Quiet.bind Quiet.get fun c => ?_
    cases c.proto.closeMessage with
    | none => exact quiet_closeSock
    | some m => exact Quiet.bind (quiet_send _) fun _ => quiet_closeSock
  cases c.cur with
  | none => exact hk
  | some hd => exact Quiet.bind (h hd) fun _ => hk

theorem quiet_reset (fuel : Nat) {pre : List Ev → Prop} : Quiet env W L pre (logReset env W L fuel) any := by
  induction fuel generalizing pre with
  | zero => exact Quiet.lift (fun _ _ => List.prefix_refl _) fun _ _ _ h => by cases h
  | succ n ih =>
    unfold logReset
    refine quiet_resetWith (quiet_closeWith fun hd => quiet_rollbackWith (quiet_consumeWith ih) hd) ⟨n, ?_⟩
    rw [erase_closeWith]
    simp only [erase_rollbackWith, erase_consumeWith, erase_reset]
    rfl

theorem quiet_consume (fuel : Nat) {pre : List Ev → Prop} : Quiet env W L pre (logConsume env W L fuel) received := quiet_consumeWith (quiet_reset fuel)

theorem quiet_rollback (fuel hd : Nat) {pre : List Ev → Prop} : Quiet env W L pre (logRollback env W L fuel hd) any :=
  quiet_rollbackWith (quiet_consume fuel) hd

theorem quiet_commit (fuel hd : Nat) {pre : List Ev → Prop} : Quiet env W L pre (logCommit env W L fuel hd) any :=
  quiet_commitWith (quiet_consume fuel) hd

theorem quiet_close (fuel : Nat) {pre : List Ev → Prop} : Quiet env W L pre (logClose env W L fuel) any :=
  quiet_closeWith fun hd => quiet_rollback fuel hd

theorem quiet_makeIdle (fuel : Nat) {pre : List Ev → Prop} : Quiet env W L pre (logMakeIdle env W L fuel) any := by
  unfold logMakeIdle
  refine Quiet.bind Quiet.get fun c => ?_
  cases c.cur with
  | none => exact Quiet.pure fun _ _ => trivial
  | some hd => exact quiet_rollback fuel hd

theorem quiet_begin (fuel : Nat) (db : Bytes) {pre : List Ev → Prop} : Quiet env W L pre (logBegin env W L fuel db) any := by
  unfold logBegin
  refine Quiet.bind Quiet.get fun c => Quiet.ite (Quiet.fail _) ?_
  refine Quiet.bind Quiet.get fun c => Quiet.ite (Quiet.fail _) ?_
  refine Quiet.bind Quiet.get fun c => ?_
  refine Quiet.bind (quiet_txExchange (quiet_consume fuel) _ _ _) fun _ => ?_
  refine Quiet.bind Quiet.get fun c => ?_
  exact Quiet.bind (quiet_modify fun _ => rfl) fun _ => Quiet.pure fun _ _ => trivial

theorem quiet_rowsLoop (fuel : Nat) (n : Nat) (out : List (List Val)) {pre : List Ev → Prop} :
    Quiet env W L pre (logRowsLoop L (logConsume env W L fuel) n out) any := by
  induction n generalizing out pre with
  | zero => exact Quiet.lift (fun _ _ => List.prefix_refl _) fun _ _ _ h => by cases h
  | succ n ih =>
    unfold logRowsLoop
    refine Quiet.bind (quiet_consume fuel) fun v => ?_
    cases asSuccess v with
    | some md => exact Quiet.bind (Quiet.say fun t ht => Harmless.message _ v ht) fun _ => Quiet.pure fun _ _ => trivial
    | none =>
      cases asRecord v with
      | some fs => exact Quiet.bind (Quiet.say fun t ht => Harmless.message _ v ht) fun _ => ih _
      | none => exact Quiet.fail _

theorem quiet_query (fuel : Nat) (q : Bytes) (ps : Entries) (db : Bytes) (inTx : Bool) {pre : List Ev → Prop} :
    Quiet env W L pre (logQueryWithDb env W L fuel q ps db inTx) any := by
  unfold logQueryWithDb
  refine Quiet.bind (mid := any) (Quiet.lift (fun c _ => ?_) fun _ _ _ _ => trivial) fun _ => ?_
  · show c.trace <+: (checkDb db c).2.trace
    have : (checkDb db c).2 = c := by
      unfold checkDb
      show ((if c.proto.supportsMultiDatabase = false ∧ db ≠ [] then _ else _ : CM σ Unit) c).2 = c
      split <;> rfl
    rw [this]
    exact List.prefix_refl _
  unfold logRunQuery
  refine Quiet.bind Quiet.get fun c => Quiet.ite (Quiet.fail _) ?_
  refine Quiet.bind Quiet.get fun c => ?_
  refine Quiet.bind (Quiet.say fun t _ => fixed_trace _ (by decide)) fun _ => ?_
  refine Quiet.bind (quiet_send _) fun _ => ?_
  refine Quiet.bind (Quiet.say fun t _ => fixed_trace _ (by decide)) fun _ => ?_
  refine Quiet.bind (quiet_send _) fun _ => ?_
  refine Quiet.bind (quiet_consume fuel) fun v => ?_
  refine Quiet.bind (Quiet.say fun t ht => Harmless.message _ v ht) fun _ => ?_
  cases asSuccess v with
  | none => exact Quiet.fail _
  | some _ => exact Quiet.of_apply (m := fun c => logRowsLoop L (logConsume env W L fuel) (streamLen c.segs + 1) []) fun c => quiet_rowsLoop fuel _ _

theorem quiet_void {pre : List Ev → Prop} {m : LM σ α} (h : Quiet env W L pre m any) : Quiet env W L pre m.void any :=
  Quiet.bind h fun _ => Quiet.pure fun _ _ => trivial

theorem quiet_step (fuel : Nat) (op : Op) {pre : List Ev → Prop} : Quiet env W L pre (logStep env W L fuel op) any := by
  cases op with
  | query q ps db => exact quiet_void (quiet_query fuel q ps db false)
  | exec q ps db => exact quiet_void (quiet_query fuel q ps db false)
  | begin_ db => exact quiet_void (quiet_begin fuel db)
  | commit h => exact quiet_commit fuel h
  | rollback h => exact quiet_rollback fuel h
  | txQuery h q ps db => exact quiet_void (quiet_query fuel q ps db true)
  | txExec h q ps => exact quiet_void (quiet_query fuel q ps [] false)
  | txExecDb h q ps db => exact quiet_void (quiet_query fuel q ps db true)
  | close => exact quiet_close fuel
  | makeIdle => exact quiet_makeIdle fuel
  | validateOpen =>
    refine quiet_void (Quiet.lift (fun c _ => ?_) fun _ _ _ _ => trivial)
    unfold validateOpen
    split
    · exact List.prefix_refl _
    · split
      · exact List.prefix_refl _
      · exact List.prefix_refl _
      · split <;> exact List.prefix_refl _
  | setChunkSize n => exact quiet_modify fun _ => rfl

theorem quiet_init (fuel : Nat) (user password : Bytes) {pre : List Ev → Prop} : Quiet env W L pre (logInit env W L fuel user password) any := by
  unfold logInit
  refine Quiet.bind (mid := any) (Quiet.lift (fun c _ => ?_) fun _ _ _ _ => trivial) fun _ => ?_
  · unfold createConnection
    dsimp only
    split <;> exact List.prefix_refl _
  refine Quiet.bind (mid := any) (Quiet.mapErr _ (Quiet.lift (fun c _ => ?_) fun _ _ _ _ => trivial)) fun v => ?_
  · unfold handshake
    dsimp only
    split
    · exact List.prefix_append _ _
    · split
      · exact List.prefix_append _ _
      · split
        · exact List.prefix_append _ _
        · split <;> exact List.prefix_append _ _
  rcases getProtocol v with ⟨_ | p, n, _ | e⟩
  · exact Quiet.fail _
  · exact Quiet.fail _
  all_goals
    refine Quiet.bind (Quiet.say fun t _ => ?_) fun _ => ?_
    · cases p
      · exact fixed_trace "Using protocol version 1" (by decide)
      · exact fixed_trace "Using protocol version 2" (by decide)
      · exact fixed_trace "Using protocol version 3" (by decide)
      · exact fixed_trace "Using protocol version 4" (by decide)
    refine Quiet.bind (quiet_modify fun _ => rfl) fun _ => ?_
    unfold logSendInit
    refine Quiet.bind (quiet_send _) fun _ => ?_
    refine Quiet.bind (quiet_consume fuel) fun v => ?_
    cases hs : asSuccess v with
    | some md => exact Quiet.last fun t ht => ⟨_, v, ht, (isSuccess_iff v).2 ⟨md, hs⟩, rfl⟩
    | none => exact Quiet.bind (Quiet.say fun t ht => Trouble.message _ v ht (not_success hs)) fun _ => quiet_close fuel

theorem history_tells (fuel : Nat) (ops : List LogOp) (c : Conn σ) :
    c.trace <+: (logHistory env W L fuel ops c).1.trace ∧
      ∀ l ∈ (logHistory env W L fuel ops c).2, Tells env W L (logHistory env W L fuel ops c).1.trace l ∨ ∃ name, l = .setLevel name ∧ .setLevel name ∈ ops := by
  induction ops generalizing c with
  | nil => exact ⟨List.prefix_refl _, fun _ h => absurd h List.not_mem_nil⟩
  | cons op ops ih =>
    cases op with
    | call op =>
      obtain ⟨h1, h2, -⟩ := quiet_step (env := env) (W := W) (L := L) fuel op (pre := fun _ => True) c trivial
      obtain ⟨g1, g2⟩ := ih (logStep env W L fuel op c).2.1
      refine ⟨h1.trans g1, ?_⟩
      intro l hl
      rcases List.mem_append.1 hl with hl | hl
      · exact .inl ((h2 l hl).mono env W L g1)
      · rcases g2 l hl with h | ⟨n, h, hn⟩
        · exact .inl h
        · exact .inr ⟨n, h, List.mem_cons_of_mem _ hn⟩
    | setLevel name =>
      obtain ⟨g1, g2⟩ := ih c
      refine ⟨g1, ?_⟩
      intro l hl
      rcases List.mem_cons.1 hl with rfl | hl
      · exact .inr ⟨name, rfl, List.mem_cons_self⟩
      · rcases g2 l hl with h | ⟨n, h, hn⟩
        · exact .inl h
        · exact .inr ⟨n, h, List.mem_cons_of_mem _ hn⟩

theorem session_tells (fuel : Nat) (user password : Bytes) (ops : List LogOp) (w : σ) :
    ∀ l ∈ (logSession env W L fuel user password ops w).2,
      Tells env W L (logSession env W L fuel user password ops w).1.trace l ∨ ∃ name, l = .setLevel name ∧ .setLevel name ∈ ops := by
  obtain ⟨h1, h2, -⟩ := quiet_init (env := env) (W := W) (L := L) fuel user password (pre := fun _ => True) (Conn.fresh w) trivial
  unfold logSession logCreate
  match h : logInit env W L fuel user password (Conn.fresh w) with
  | (.ok _, c, l) =>
    rw [h] at h1 h2
    obtain ⟨g1, g2⟩ := history_tells (env := env) (W := W) (L := L) fuel ops c
    intro x hx
    rcases List.mem_append.1 hx with hx | hx
    · exact .inl ((h2 x hx).mono env W L g1)
    · exact g2 x hx
  | (.err e, c, l) => rw [h] at h2; exact fun x hx => .inl (h2 x hx)
  | (.panic, c, l) => rw [h] at h2; exact fun x hx => .inl (h2 x hx)
  | (.fuel, c, l) => rw [h] at h2; exact fun x hx => .inl (h2 x hx)

theorem printed_harmless {t : List Ev} (calls : List LogCall) (s : LogState)
    (h : ∀ l ∈ calls, Tells env W L t l ∨ ∃ name, l = .setLevel name ∧ levelNamed name ≠ .traceBytes) (hs : s.level ≠ .traceBytes)
    (ho : ∀ p ∈ s.out, Harmless env W L t p.2) : ∀ p ∈ (logRun calls s).out, Harmless env W L t p.2 := by
  induction calls generalizing s with
  | nil => exact ho
  | cons l calls ih =>
    have hnb : ¬ LogLevel.traceBytes.number ≤ s.level.number := by
      cases hl : s.level <;> simp [LogLevel.number, hl] at hs ⊢
    have step : (l.run s).level ≠ .traceBytes ∧ ∀ p ∈ (l.run s).out, Harmless env W L t p.2 := by
      rcases h l List.mem_cons_self with hl | ⟨name, rfl, hn⟩
      · have snoc : ∀ g m, Harmless env W L t m → ∀ p ∈ s.out ++ [(g, m)], Harmless env W L t p.2 := by
          intro g m hm p hp
          rcases List.mem_append.1 hp with hp | hp
          · exact ho p hp
          · rw [List.mem_singleton.1 hp]; exact hm
        cases l with
        | setLevel => exact absurd hl id
        | error m =>
          have hl : Harmless env W L t m := by
            cases hl with
            | message f v hr _ => exact .message f v hr
            | closing fuel c e v _ _ hc => exact .closing fuel c e hc
          unfold LogCall.run; dsimp only; split <;> first | exact ⟨hs, snoc _ m hl⟩ | exact ⟨hs, ho⟩
        | info m =>
          have hl : Harmless env W L t m := by
            obtain ⟨f, v, hr, -, rfl⟩ := hl
            exact .message f v hr
          unfold LogCall.run; dsimp only; split <;> first | exact ⟨hs, snoc _ m hl⟩ | exact ⟨hs, ho⟩
        | trace m => unfold LogCall.run; dsimp only; split <;> first | exact ⟨hs, snoc _ m hl⟩ | exact ⟨hs, ho⟩
        | dump b => simp only [LogCall.run, traceBytes, if_neg hnb]; exact ⟨hs, ho⟩
        | dumpBuffer b =>
          cases b with
          | none => exact ⟨hs, ho⟩
          | some b => simp only [LogCall.run, traceBytes, if_neg hnb]; exact ⟨hs, ho⟩
      · exact ⟨hn, ho⟩
    exact ih _ (fun x hx => h x (List.mem_cons_of_mem _ hx)) step.1 step.2

theorem seq_left {s : Bytes} {a b : Enc} (h : a.2 = none) (hs : s <:+: a.1.flatten) : s <:+: (a.seq b).1.flatten := by
  rw [Enc.seq_ok h, List.flatten_append]
  exact hs.trans (List.prefix_append _ _).isInfix

theorem seq_right {s : Bytes} {a b : Enc} (h : a.2 = none) (hs : s <:+: b.1.flatten) : s <:+: (a.seq b).1.flatten := by
  rw [Enc.seq_ok h, List.flatten_append]
  exact hs.trans (List.suffix_append _ _).isInfix

theorem string_shown {s : Bytes} (h : (encodeString s).2 = none) : s <:+: (encodeString s).1.flatten := by
  have key : ∀ pre : List Bytes, s <:+: (pre ++ [s]).flatten := fun pre => by
    rw [List.flatten_append]
    simpa using (List.suffix_append pre.flatten s).isInfix
  revert h
  unfold encodeString
  dsimp only
  split
  · exact fun _ => key [_]
  · split
    · exact fun _ => key [_, _]
    · split
      · exact fun _ => key [_, _]
      · split
        · exact fun _ => key [_, _]
        · exact fun h => by cases h

theorem items_shown {s : Bytes} {ver : Ver} {v : Val} (ih : (encode env ver v).2 = none → s <:+: (encode env ver v).1.flatten) {vs : List Val} (hv : v ∈ vs)
    (h : (encodeItems env ver vs).2 = none) : s <:+: (encodeItems env ver vs).1.flatten := by
  induction vs with
  | nil => cases hv
  | cons x vs ihv =>
    rw [encodeItems, Enc.seq_none] at h
    rw [encodeItems]
    rcases List.mem_cons.1 hv with rfl | hv
    · exact seq_left h.1 (ih h.1)
    · exact seq_right h.1 (ihv hv h.2)

theorem fields_shown {s : Bytes} {ver : Ver} {v : Val} (ih : (encode env ver v).2 = none → s <:+: (encode env ver v).1.flatten) {vs : List Val} (hv : v ∈ vs)
    (h : (encodeFields env ver vs).2 = none) : s <:+: (encodeFields env ver vs).1.flatten := by
  induction vs with
  | nil => cases hv
  | cons x vs ihv =>
    rw [encodeFields, Enc.seq_none] at h
    rw [encodeFields]
    rcases List.mem_cons.1 hv with rfl | hv
    · exact seq_left h.1 (ih (wrapField_none.1 h.1))
    · exact seq_right h.1 (ihv hv h.2)

theorem entries_shown {s : Bytes} {ver : Ver} {k : Bytes} {v : Val} {es : Entries} (hv : (k, v) ∈ es)
    (ih : (encodeString k).2 = none → (encode env ver v).2 = none → s <:+: ((encodeString k).seq (encode env ver v)).1.flatten)
    (h : (encodeEntries env ver es).2 = none) : s <:+: (encodeEntries env ver es).1.flatten := by
  induction es with
  | nil => cases hv
  | cons e es ihv =>
    obtain ⟨k', v'⟩ := e
    rw [encodeEntries, Enc.seq_none, Enc.seq_none] at h
    rw [encodeEntries]
    rcases List.mem_cons.1 hv with e | hv
    · cases e
      exact seq_left (Enc.seq_none.2 h.1) (ih h.1.1 h.1.2)
    · exact seq_right (Enc.seq_none.2 h.1) (ihv hv h.2)

theorem occurs_shown {s : Bytes} {ver : Ver} {v : Val} (ho : Occurs s v) (h : (encode env ver v).2 = none) : s <:+: (encode env ver v).1.flatten := by
  induction ho with
  | here => rw [encode] at h ⊢; exact string_shown h
  | item hv _ ih =>
    rw [encode, Enc.seq_none] at h
    rw [encode]
    exact seq_right h.1 (items_shown ih hv h.2)
  | key hv =>
    rw [encode, Enc.seq_none] at h
    rw [encode]
    exact seq_right h.1 (entries_shown hv (fun h1 h2 => seq_left h1 (string_shown h1)) h.2)
  | value hv _ ih =>
    rw [encode, Enc.seq_none] at h
    rw [encode]
    exact seq_right h.1 (entries_shown hv (fun h1 h2 => seq_right h1 (ih h2)) h.2)
  | field hk hv _ ih =>
    rename_i k fs v _
    by_cases hs : k.isStructure = true
    · rw [encode_struct_eq env ver k fs hk hs, Enc.seq_none] at h
      rw [encode_struct_eq env ver k fs hk hs]
      exact seq_right h.1 (fields_shown ih hv h.2)
    · exfalso
      have : encode env ver (.struct k fs) = unrecognized := by
        cases k <;> first | exact absurd rfl hk | (simp [encode, hs]) | exact absurd rfl hs
      rw [this] at h
      cases h

theorem small_buf {cs : Nat} (ps : List Bytes) (b : Bytes) (o : List Bytes) (h : b.length + ps.flatten.length < cs) : chunkWrites cs ⟨b, o⟩ ps = ⟨b ++ ps.flatten, o⟩ := by
  induction ps generalizing b with
  | nil => simp [chunkWrites]
  | cons p ps ih =>
    simp only [List.flatten_cons, List.length_append] at h
    have : chunkWrite cs ⟨b, o⟩ p = ⟨b ++ p, o⟩ := by
      unfold chunkWrite
      rw [if_neg]
      simp only [List.length_append]; omega
    show chunkWrites cs (chunkWrite cs ⟨b, o⟩ p) ps = _
    rw [this, ih _ (by simp only [List.length_append]; omega)]
    simp

/-- What is dumped of a message shorter than a chunk. -/
theorem send_dumps {v : Val} {c : Conn σ} (hc : c.proto ≠ .v1) (he : (encode env .v2 v).2 = none) (h0 : payload env .v2 v ≠ [])
    (hl : (payload env .v2 v).length < c.chunkSize) : (logSend env W L v c).2.2 = [.dumpBuffer (some (payload env .v2 v))] := by
  have hco : c.proto.codec = .v2 := by
    cases hp : c.proto <;> first | exact absurd hp hc | rfl
  have hb := small_buf (cs := c.chunkSize) (encode env .v2 v).1 [] [] (by rw [List.length_nil, Nat.zero_add]; exact hl)
  unfold logSend
  dsimp only
  rw [hco, hb]
  simp only [List.isEmpty_nil, Bool.or_true, Bool.true_or, if_true]
  unfold flushDump
  rw [he]
  dsimp only
  rw [hb, if_pos]
  · rfl
  · exact List.length_pos_iff.2 h0

/-- A printed dump shows the bytes. -/
theorem dump_shows {calls : List LogCall} {b s : Bytes} (h : .dumpBuffer (some b) ∈ calls) (hs : s <:+: b) (hn : ∀ name, .setLevel name ∉ calls) (st : LogState)
    (hl : st.level = .traceBytes) : ∃ line ∈ (logRun calls st).out, s <:+: line.2 := by
  have keep : ∀ (calls : List LogCall) (st : LogState), st.out <+: (logRun calls st).out := by
    intro calls
    induction calls with
    | nil => exact fun st => List.prefix_refl _
    | cons l calls ih =>
      intro st
      refine List.IsPrefix.trans ?_ (ih (l.run st))
      cases l with
      | setLevel => exact List.prefix_refl _
      | error => unfold LogCall.run; dsimp only; split <;> first | exact List.prefix_append _ _ | exact List.prefix_refl _
      | info => unfold LogCall.run; dsimp only; split <;> first | exact List.prefix_append _ _ | exact List.prefix_refl _
      | trace => unfold LogCall.run; dsimp only; split <;> first | exact List.prefix_append _ _ | exact List.prefix_refl _
      | dump => unfold LogCall.run traceBytes; dsimp only; split <;> first | exact List.prefix_append _ _ | exact List.prefix_refl _
      | dumpBuffer b => cases b <;> (unfold LogCall.run; try unfold traceBytes) <;> dsimp only <;> (try split) <;> first | exact List.prefix_append _ _ | exact List.prefix_refl _
  induction calls generalizing st with
  | nil => cases h
  | cons l calls ih =>
    rcases List.mem_cons.1 h with rfl | h
    · refine ⟨(.bytes, sprintByteHex b), ?_, ?_⟩
      · refine (keep calls _).subset ?_
        simp only [LogCall.run, traceBytes, hl, Nat.le_refl, if_true]
        exact List.mem_append_right _ (by simp)
      · refine hs.trans ?_
        simp only [sprintByteHex]
        refine ⟨ascii "\n", ascii "\n\t" ++ dumpFrom 0 b ++ ascii "\n", ?_⟩
        simp
    · refine ih h (fun n hm => hn n (List.mem_cons_of_mem _ hm)) (l.run st) ?_
      cases l with
      | setLevel n => exact absurd List.mem_cons_self (hn n)
      | dumpBuffer b => cases b <;> (unfold LogCall.run; try unfold traceBytes) <;> dsimp only <;> (try split) <;> exact hl
      | dump => unfold LogCall.run traceBytes; dsimp only; split <;> exact hl
      | error => unfold LogCall.run; dsimp only; split <;> exact hl
      | info => unfold LogCall.run; dsimp only; split <;> exact hl
      | trace => unfold LogCall.run; dsimp only; split <;> exact hl

theorem bind_log {m : LM σ α} {f : α → LM σ β} {c c' : Conn σ} {a : α} {l : List LogCall} (h : m c = (.ok a, c', l)) : ((m >>= f) c).2.2 = l ++ (f a c').2.2 := by
  show (LM.bind m f c).2.2 = _
  unfold LM.bind
  rw [h]

theorem bind_log_first {m : LM σ α} {f : α → LM σ β} {c : Conn σ} {x : LogCall} (h : x ∈ (m c).2.2) : x ∈ ((m >>= f) c).2.2 := by
  show x ∈ (LM.bind m f c).2.2
  unfold LM.bind
  match hm : m c with
  | (.ok a, c', l) => rw [hm] at h; exact List.mem_append_left _ h
  | (.err e, c', l) => rw [hm] at h; exact h
  | (.panic, c', l) => rw [hm] at h; exact h
  | (.fuel, c', l) => rw [hm] at h; exact h

theorem string_size (s : Bytes) : (encodeString s).1.flatten.length ≤ 5 + s.length := by
  unfold encodeString
  dsimp only
  repeat' split
  all_goals simp [Enc.ok]
  all_goals omega

theorem init_encodes {p : Proto} (hp : p ≠ .v1) {user password : Bytes} (hl : user.length + password.length ≤ 65000) :
    (encode env .v2 (p.initMessage clientID (buildAuthTokenBasic user password))).2 = none ∧
      payload env .v2 (p.initMessage clientID (buildAuthTokenBasic user password)) ≠ [] ∧
      (payload env .v2 (p.initMessage clientID (buildAuthTokenBasic user password))).length < 65535 ∧
      Occurs password (p.initMessage clientID (buildAuthTokenBasic user password)) := by
  have hu : (encodeString user).2 = none := encodeString_none.2 (by omega)
  have hw : (encodeString password).2 = none := encodeString_none.2 (by omega)
  have su := string_size user
  have sw := string_size password
  have h1 : (encodeString (ascii "scheme")).2 = none := by decide +kernel
  have h2 : (encodeString (ascii "basic")).2 = none := by decide +kernel
  have h3 : (encodeString (ascii "principal")).2 = none := by decide +kernel
  have h4 : (encodeString (ascii "credentials")).2 = none := by decide +kernel
  have h5 : (encodeString (ascii "user_agent")).2 = none := by decide +kernel
  have h6 : (encodeString clientID).2 = none := by decide +kernel
  have l1 : (encodeString (ascii "scheme")).1.flatten.length ≤ 20 := by decide +kernel
  have l2 : (encodeString (ascii "basic")).1.flatten.length ≤ 20 := by decide +kernel
  have l3 : (encodeString (ascii "principal")).1.flatten.length ≤ 20 := by decide +kernel
  have l4 : (encodeString (ascii "credentials")).1.flatten.length ≤ 20 := by decide +kernel
  have l5 : (encodeString (ascii "user_agent")).1.flatten.length ≤ 20 := by decide +kernel
  have l6 : (encodeString clientID).1.flatten.length ≤ 20 := by decide +kernel
  have h7 : (encodeString (ascii "realm")).2 = none := by decide +kernel
  have l7 : (encodeString (ascii "realm")).1.flatten.length ≤ 20 := by decide +kernel
  have h8 : (encodeString []).2 = none := by decide +kernel
  have l8 : (encodeString []).1.flatten.length ≤ 20 := by decide +kernel
  have str : ∀ {k s : Bytes}, (encodeString k).2 = none → (encodeString s).2 = none →
      ((encodeString k).seq (encode env .v2 (.str s))).2 = none ∧
        ((encodeString k).seq (encode env .v2 (.str s))).1.flatten.length = (encodeString k).1.flatten.length + (encodeString s).1.flatten.length := by
    intro k s hk hs
    rw [encode]
    exact ⟨Enc.seq_none.2 ⟨hk, hs⟩, by rw [Enc.seq_flatten hk, List.length_append]⟩
  have cons : ∀ {k s : Bytes} {es : Entries}, (encodeString k).2 = none → (encodeString s).2 = none → (encodeEntries env .v2 es).2 = none →
      (encodeEntries env .v2 ((k, .str s) :: es)).2 = none ∧ (encodeEntries env .v2 ((k, .str s) :: es)).1.flatten.length =
        (encodeString k).1.flatten.length + (encodeString s).1.flatten.length + (encodeEntries env .v2 es).1.flatten.length := by
    intro k s es hk hs he
    rw [encodeEntries]
    exact ⟨Enc.seq_none.2 ⟨(str hk hs).1, he⟩, by rw [Enc.seq_flatten (str hk hs).1, List.length_append, (str hk hs).2]⟩
  have nil : (encodeEntries env .v2 []).2 = none ∧ (encodeEntries env .v2 []).1.flatten.length = 0 := by rw [encodeEntries]; exact ⟨rfl, rfl⟩
  have map : ∀ {es : Entries}, es.length ≤ 15 → (encodeEntries env .v2 es).2 = none →
      (encode env .v2 (.map es)).2 = none ∧ (encode env .v2 (.map es)).1.flatten.length = 1 + (encodeEntries env .v2 es).1.flatten.length := by
    intro es hl he
    rw [encode]
    have hh : (mapHeader es.length).2 = none := mapHeader_none.2 (by omega)
    refine ⟨Enc.seq_none.2 ⟨hh, he⟩, ?_⟩
    rw [Enc.seq_flatten hh, List.length_append]
    simp [mapHeader, hl, Enc.ok]
  have occ : ∀ es : Entries, (ascii "credentials", .str password) ∈ es → Occurs password (.map es) := fun es h => .value h .here
  have init : ∀ es : Entries, es.length ≤ 15 → (encodeEntries env .v2 es).2 = none → (encodeEntries env .v2 es).1.flatten.length < 65500 → (ascii "credentials", .str password) ∈ es →
      (encode env .v2 (newInitMessage clientID es)).2 = none ∧ payload env .v2 (newInitMessage clientID es) ≠ [] ∧
        (payload env .v2 (newInitMessage clientID es)).length < 65535 ∧ Occurs password (newInitMessage clientID es) := by
    intro es hl he hs hm
    obtain ⟨m1, m2⟩ := map hl he
    have e1 : (encode env .v2 (.str clientID)).2 = none ∧ (encode env .v2 (.str clientID)).1.flatten.length ≤ 20 := by rw [encode]; exact ⟨h6, l6⟩
    have hf : (encodeFields env .v2 [.str clientID, .map es]).2 = none ∧ (encodeFields env .v2 [.str clientID, .map es]).1.flatten.length < 65522 := by
      simp only [encodeFields, Enc.seq_none, wrapField_none]
      refine ⟨⟨e1.1, m1, rfl⟩, ?_⟩
      rw [Enc.seq_flatten (wrapField_none.2 e1.1), Enc.seq_flatten (wrapField_none.2 m1)]
      simp only [wrapField_fst, List.length_append, Enc.ok_fst, List.flatten_nil, List.length_nil]
      omega
    have hst : ((structHeader 2).seq (.ok [[StructKind.init.sig]])).2 = none := by decide +kernel
    have heq : encode env .v2 (newInitMessage clientID es) = ((structHeader 2).seq (.ok [[StructKind.init.sig]])).seq (encodeFields env .v2 [.str clientID, .map es]) :=
      encode_struct_eq env .v2 .init [.str clientID, .map es] (by decide) rfl
    have hsl : ((structHeader 2).seq (.ok [[StructKind.init.sig]])).1.flatten.length = 2 := by decide +kernel
    have hpl : (payload env .v2 (newInitMessage clientID es)).length = 2 + (encodeFields env .v2 [.str clientID, .map es]).1.flatten.length := by
      unfold payload
      rw [heq, Enc.seq_flatten hst, List.length_append, hsl]
    refine ⟨?_, ?_, by rw [hpl]; omega, .field (by decide) (List.mem_cons_of_mem _ (List.mem_singleton_self _)) (occ es hm)⟩
    · rw [heq]; exact Enc.seq_none.2 ⟨hst, hf.1⟩
    · intro h0; rw [h0] at hpl; simp at hpl; omega
  have hello : ∀ es : Entries, es.length ≤ 15 → (encodeEntries env .v2 es).2 = none → (encodeEntries env .v2 es).1.flatten.length < 65500 → (ascii "credentials", .str password) ∈ es →
      (encode env .v2 (newHelloMessage es)).2 = none ∧ payload env .v2 (newHelloMessage es) ≠ [] ∧
        (payload env .v2 (newHelloMessage es)).length < 65535 ∧ Occurs password (newHelloMessage es) := by
    intro es hl he hs hm
    obtain ⟨m1, m2⟩ := map hl he
    have hf : (encodeFields env .v2 [.map es]).2 = none ∧ (encodeFields env .v2 [.map es]).1.flatten.length < 65522 := by
      simp only [encodeFields, Enc.seq_none, wrapField_none]
      refine ⟨⟨m1, rfl⟩, ?_⟩
      rw [Enc.seq_flatten (wrapField_none.2 m1)]
      simp only [wrapField_fst, List.length_append, Enc.ok_fst, List.flatten_nil, List.length_nil]
      omega
    have hst : ((structHeader 1).seq (.ok [[StructKind.hello.sig]])).2 = none := by decide +kernel
    have heq : encode env .v2 (newHelloMessage es) = ((structHeader 1).seq (.ok [[StructKind.hello.sig]])).seq (encodeFields env .v2 [.map es]) :=
      encode_struct_eq env .v2 .hello [.map es] (by decide) rfl
    have hsl : ((structHeader 1).seq (.ok [[StructKind.hello.sig]])).1.flatten.length = 2 := by decide +kernel
    have hpl : (payload env .v2 (newHelloMessage es)).length = 2 + (encodeFields env .v2 [.map es]).1.flatten.length := by
      unfold payload
      rw [heq, Enc.seq_flatten hst, List.length_append, hsl]
    refine ⟨?_, ?_, by rw [hpl]; omega, .field (by decide) (List.mem_singleton_self _) (occ es hm)⟩
    · rw [heq]; exact Enc.seq_none.2 ⟨hst, hf.1⟩
    · intro h0; rw [h0] at hpl; simp at hpl; omega
  have a0 := cons h5 h6 nil.1
  have a1 := cons h7 h8 nil.1
  have a2 := cons h4 hw a1.1
  have a3 := cons h3 hu a2.1
  have a4 := cons h1 h2 a3.1
  have b1 := cons h7 h8 a0.1
  have b2 := cons h4 hw b1.1
  have b3 := cons h3 hu b2.1
  have b4 := cons h1 h2 b3.1
  cases p with
  | v1 => exact absurd rfl hp
  | v2 =>
    rw [Proto.initMessage, auth_eq]
    exact init _ (by simp) a4.1 (by omega) (by simp)
  | v3 =>
    rw [Proto.initMessage, auth_mapInsert]
    exact hello _ (by simp) b4.1 (by omega) (by simp)
  | v4 =>
    rw [Proto.initMessage, auth_mapInsert]
    exact hello _ (by simp) b4.1 (by omega) (by simp)

theorem erase_step (fuel : Nat) (op : Op) : (logStep env W L fuel op).erase = step env W fuel op := by
  have hv : ∀ {α : Type} (m : LM σ α), m.void.erase = m.erase.void := fun m => by
    unfold LM.void CM.void; rw [LM.erase_bind]; rfl
  have hx : ∀ (q : Bytes) (ps : Entries) (db : Bytes) (b : Bool),
      (checkDb db >>= fun _ => runQuery env W fuel q ps db b : CM σ _).void = (checkDb db >>= fun _ => runQuery env W fuel q ps db b >>= fun r => Pure.pure r.2 : CM σ _).void := by
    intro q ps db b
    funext c
    show CM.bind (CM.bind (checkDb db) _) _ c = CM.bind (CM.bind (checkDb db) fun _ => CM.bind (runQuery env W fuel q ps db b) _) _ c
    simp only [CM.bind]
    rcases checkDb db c with ⟨_ | _ | _ | _, c'⟩
    · dsimp only
      rcases runQuery env W fuel q ps db b c' with ⟨_ | _ | _ | _, c''⟩ <;> rfl
    all_goals rfl
  cases op with
  | query q ps db => simp only [logStep, hv, erase_queryWithDb]; rfl
  | exec q ps db => simp only [logStep, hv, erase_queryWithDb, hx]; rfl
  | begin_ db => simp only [logStep, hv, erase_begin]; rfl
  | commit h => exact erase_commit env W L fuel h
  | rollback h => exact erase_rollback env W L fuel h
  | txQuery h q ps db => simp only [logStep, hv, erase_queryWithDb]; rfl
  | txExec h q ps => simp only [logStep, hv, erase_queryWithDb, hx]; rfl
  | txExecDb h q ps db => simp only [logStep, hv, erase_queryWithDb, hx]; rfl
  | close => exact erase_close env W L fuel
  | makeIdle => exact erase_makeIdle env W L fuel
  | validateOpen => simp only [logStep, hv, LM.erase_lift]; rfl
  | setChunkSize n => rfl

end C98

section
variable {σ : Type} (env : Env) (W : World σ) (L : LogEnv)
open Spec C98

/-- Writing to the log and changing the log level do not change what calls do. -/
theorem C98_same (fuel : Nat) (user password : Bytes) (w : σ) (ops : List LogOp) (c : Conn σ) :
    (logHistory env W L fuel ops c).1 = run env W fuel (LogOp.calls ops) c ∧
      ((logCreate env W L fuel user password w).1, (logCreate env W L fuel user password w).2.1) = createBoltConn env W fuel user password w := by
  constructor
  · induction ops generalizing c with
    | nil => rfl
    | cons op ops ih =>
      cases op with
      | call op =>
        show (logHistory env W L fuel ops (logStep env W L fuel op c).2.1).1 = run env W fuel (LogOp.calls ops) (step env W fuel op c).2
        rw [ih, ← erase_step (L := L)]; rfl
      | setLevel name => exact ih c
  · rw [createBoltConn, ← erase_init env W L]; rfl

/-- C98 without the level trace-bytes. -/
theorem C98_below_partial (fuel : Nat) (user password : Bytes) (ops : List LogOp) (w : σ) (s : LogState) (h0 : s.out = []) (h1 : s.level ≠ .traceBytes) (hn : NotBytes ops) :
    ∀ line ∈ (logRun (logSession env W L fuel user password ops w).2 s).out, Harmless env W L (logSession env W L fuel user password ops w).1.trace line.2 := by
  refine printed_harmless _ s ?_ h1 (by rw [h0]; exact fun _ h => absurd h List.not_mem_nil)
  intro l hl
  rcases session_tells (env := env) (W := W) (L := L) fuel user password ops w l hl with h | ⟨name, rfl, hm⟩
  · exact .inl h
  · exact .inr ⟨name, rfl, fun h => hn name hm ((C93.means_iff name _).2 h)⟩

/-- C98 for one session and one log level. -/
def C98_statement : Prop := ∀ (σ : Type) (env : Env) (W : World σ) (L : LogEnv) (fuel : Nat) (user password : Bytes) (ops : List LogOp) (w : σ) (s : LogState), s.out = [] →
  ∀ line ∈ (logRun (logSession env W L fuel user password ops w).2 s).out, Harmless env W L (logSession env W L fuel user password ops w).1.trace line.2

/-- At the level trace-bytes, connecting to a server that chooses version 2, 3 or 4 prints the password. -/
theorem C98_password (fuel : Nat) (user password : Bytes) (w : σ) (p : Proto) (hp : p ≠ .v1) (c1 c2 : Conn σ) (hd : createConnection W (Conn.fresh w) = (.ok (), c1))
    (hh : handshake W c1 = (.ok (protocolVersionBytes p), c2)) (hl : user.length + password.length ≤ 65000) (s : LogState) (hs : s.level = .traceBytes) :
    ∃ line ∈ (logRun (logCreate env W L fuel user password w).2.2 s).out, password <:+: line.2 := by
  obtain ⟨e1, e2, e3, e4⟩ := init_encodes (env := env) hp hl
  have hcs : c2.chunkSize = 65535 := by
    have h1 : c1.chunkSize = 65535 := by
      unfold createConnection at hd
      dsimp only at hd
      split at hd
      · cases hd; rfl
      · cases hd
    unfold handshake at hh
    dsimp only at hh
    split at hh
    · cases hh
    · split at hh
      · cases hh
      · split at hh
        · cases hh
        · split at hh
          · cases hh
          · cases hh; exact h1
  have hg : getProtocol (protocolVersionBytes p) = (some p, p.number, none) := by cases p <;> rfl
  have hm : .dumpBuffer (some (payload env .v2 (p.initMessage clientID (buildAuthTokenBasic user password)))) ∈ (logCreate env W L fuel user password w).2.2 := by
    unfold logCreate logInit
    rw [bind_log (l := []) (c' := c1) (a := ()) (by unfold LM.lift; rw [hd])]
    refine List.mem_append_right _ ?_
    rw [bind_log (l := []) (c' := c2) (a := protocolVersionBytes p) (by unfold LM.mapErr LM.lift; rw [hh])]
    refine List.mem_append_right _ ?_
    rw [hg]
    dsimp only
    rw [bind_log (l := [.trace (versionText p)]) (c' := c2) (a := ()) rfl]
    refine List.mem_append_right _ ?_
    rw [bind_log (l := []) (c' := { c2 with proto := p, version := p.number, versionBytes := protocolVersionBytes p }) (a := ()) rfl]
    refine List.mem_append_right _ ?_
    unfold logSendInit
    refine bind_log_first ?_
    rw [send_dumps (c := { c2 with proto := p, version := p.number, versionBytes := protocolVersionBytes p }) hp e1 e2 (by show _ < c2.chunkSize; rw [hcs]; exact e3)]
    exact List.mem_singleton_self _
  refine dump_shows hm (occurs_shown e4 e1) ?_ s hs
  intro name hn
  exact (quiet_init (env := env) (W := W) (L := L) fuel user password (pre := fun _ => True) (Conn.fresh w) trivial).2.1 _ hn

/-- At the level trace-bytes, running a query on a connection that uses version 2, 3 or 4 prints the statement and the parameters, if they fit into one chunk. -/
theorem C98_parameters (fuel : Nat) (q : Bytes) (ps : Entries) (db : Bytes) (inTx : Bool) (c : Conn σ) (hc : c.closed = false) (hp : c.proto ≠ .v1) (hdb : c.proto = .v4 ∨ db = [])
    (he : (encode env .v2 (c.proto.runMessage q ps db c.mode (!inTx))).2 = none)
    (hl : (payload env .v2 (c.proto.runMessage q ps db c.mode (!inTx))).length < c.chunkSize) (s : LogState) (hs : s.level = .traceBytes) (b : Bytes) (hb : b = q ∨ Occurs b (.map ps)) :
    ∃ line ∈ (logRun (logQueryWithDb env W L fuel q ps db inTx c).2.2 s).out, b <:+: line.2 := by
  have ho : Occurs b (c.proto.runMessage q ps db c.mode (!inTx)) := by
    have key : ∀ (k : StructKind) (fs : List Val), k ≠ .discard → Occurs b (.struct k (.str q :: .map ps :: fs)) := by
      intro k fs hk
      rcases hb with rfl | hb
      · exact .field hk List.mem_cons_self .here
      · exact .field hk (List.mem_cons_of_mem _ List.mem_cons_self) hb
    cases c.proto with
    | v1 => exact key .run [] (by decide)
    | v2 => exact key .run [] (by decide)
    | v3 => cases inTx <;> exact key .runWithMetadata [_] (by decide)
    | v4 => cases inTx <;> exact key .runWithMetadata [_] (by decide)
  have h0 : payload env .v2 (c.proto.runMessage q ps db c.mode (!inTx)) ≠ [] := by
    have key : ∀ (k : StructKind) (fs : List Val), k ≠ .discard → k.isStructure = true → fs.length ≤ 15 → payload env .v2 (.struct k fs) ≠ [] := by
      intro k fs hk hs hl h
      unfold payload at h
      have hh : (structHeader fs.length).2 = none := structHeader_none.2 (by omega)
      have hh2 : ((structHeader fs.length).seq (.ok [[k.sig]])).2 = none := Enc.seq_none.2 ⟨hh, rfl⟩
      rw [encode_struct_eq env .v2 k fs hk hs, Enc.seq_flatten hh2, Enc.seq_flatten hh] at h
      simp [Enc.ok] at h
    cases c.proto with
    | v1 => exact key .run [_, _] (by decide) rfl (by simp)
    | v2 => exact key .run [_, _] (by decide) rfl (by simp)
    | v3 => cases inTx <;> exact key .runWithMetadata [_, _, _] (by decide) rfl (by simp)
    | v4 => cases inTx <;> exact key .runWithMetadata [_, _, _] (by decide) rfl (by simp)
  have hm : .dumpBuffer (some (payload env .v2 (c.proto.runMessage q ps db c.mode (!inTx)))) ∈ (logQueryWithDb env W L fuel q ps db inTx c).2.2 := by
    unfold logQueryWithDb
    have hck : checkDb db c = (.ok (), c) := by
      unfold checkDb
      show (if c.proto.supportsMultiDatabase = false ∧ db ≠ [] then CM.fail _ else Pure.pure () : CM σ Unit) c = _
      rw [if_neg]
      · rfl
      · rintro ⟨h1, h2⟩
        rcases hdb with h | h
        · rw [h] at h1; cases h1
        · exact h2 h
    rw [bind_log (l := []) (c' := c) (a := ()) (by unfold LM.lift; rw [hck])]
    refine List.mem_append_right _ ?_
    unfold logRunQuery
    rw [bind_log (l := []) (c' := c) (a := c) rfl, hc]
    refine List.mem_append_right _ ?_
    show _ ∈ ((LM.get >>= _ : LM σ _) c).2.2
    rw [bind_log (l := []) (c' := c) (a := c) rfl]
    refine List.mem_append_right _ ?_
    rw [bind_log (l := [.trace (ascii "running query")]) (c' := c) (a := ()) rfl]
    refine List.mem_append_right _ ?_
    refine bind_log_first ?_
    rw [send_dumps hp he h0 hl]
    exact List.mem_singleton_self _
  refine dump_shows hm (occurs_shown ho he) ?_ s hs
  intro name hn
  exact (quiet_query (env := env) (W := W) (L := L) fuel q ps db inTx (pre := fun _ => True) c trivial).2.1 _ hn

end

namespace C98

/-- Every message is shown as "m", every error as "e". -/
def shortTexts : LogEnv := ⟨fun _ _ => ascii "m", fun _ => ascii "e", fun _ => true⟩

/-- A password. -/
def secret : Bytes := ascii "correct horse battery staple correct horse"

theorem connects : createConnection scripted (Conn.fresh sOpen4) = (.ok (), (createConnection scripted (Conn.fresh sOpen4)).2) ∧
    handshake scripted (createConnection scripted (Conn.fresh sOpen4)).2 = (.ok (protocolVersionBytes .v4), (handshake scripted (createConnection scripted (Conn.fresh sOpen4)).2).2) :=
  ⟨rfl, rfl⟩

end C98

open C98 in
theorem C98_refuted : ¬ C98_statement := by
  intro h
  obtain ⟨line, hl, hp⟩ := C98_password env0 scripted shortTexts 3 (ascii "neo4j") secret sOpen4 .v4 (by decide) _ _ connects.1 connects.2 (by decide +kernel) ⟨.traceBytes, []⟩ rfl
  have hs : (logSession env0 scripted shortTexts 3 (ascii "neo4j") secret [] sOpen4).2 = (logCreate env0 scripted shortTexts 3 (ascii "neo4j") secret sOpen4).2.2 := by
    unfold logSession
    match logCreate env0 scripted shortTexts 3 (ascii "neo4j") secret sOpen4 with
    | (.ok _, c, l) => exact List.append_nil l
    | (.err e, c, l) => rfl
    | (.panic, c, l) => rfl
    | (.fuel, c, l) => rfl
  have hh := h _ env0 scripted shortTexts 3 (ascii "neo4j") secret [] sOpen4 ⟨.traceBytes, []⟩ rfl line (by rw [hs]; exact hl)
  have hlen : line.2.length < secret.length := by
    generalize line.2 = b at hh
    cases hh with
    | fixed s hs => revert s; decide +kernel
    | message f v _ => exact (by decide +kernel : (ascii "m").length < secret.length)
    | closing fuel c e _ => exact (by decide +kernel : (ascii "e").length < secret.length)
  have := hp.length_le
  omega

/-- A session at the level trace: connecting, a query and its row are logged. -/
example : Spec.NotBytes [.setLevel (ascii "Trace"), .call (.query (ascii "RETURN $x") [(ascii "x", .str C98.secret)] [])] ∧
    (logRun (logSession env0 scripted C98.shortTexts 3 (ascii "neo4j") C98.secret [.setLevel (ascii "Trace"), .call (.query (ascii "RETURN $x") [(ascii "x", .str C98.secret)] [])]
      (sOpen4 ++ [[], sSuccess ++ sOneRow])).2 ⟨.info, []⟩).out.map (·.1) =
      [.info, .trace, .trace, .trace, .trace, .trace, .trace, .trace, .trace, .trace, .trace, .trace] := by
  constructor
  · intro name hn hm
    have : name = ascii "Trace" := by simpa using hn
    rw [C93.means_iff, this] at hm
    exact absurd hm (by decide +kernel)
  · decide +kernel

/-- The same query at the level trace-bytes prints its parameter. -/
example : ∃ line ∈ (logRun (logQueryWithDb env0 scripted C98.shortTexts 3 (ascii "RETURN $x") [(ascii "x", .str C98.secret)] [] false (opened sOpen4).2).2.2 ⟨.traceBytes, []⟩).out,
    C98.secret <:+: line.2 :=
  C98_parameters env0 scripted C98.shortTexts 3 _ _ _ false _ (by decide +kernel) (by decide +kernel) (.inr rfl) (by decide +kernel) (by decide +kernel) _ rfl _
    (.inr (.value List.mem_cons_self .here))

end Verif

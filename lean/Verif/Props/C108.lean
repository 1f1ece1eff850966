/-
C108  At the level trace-bytes the log shows the bytes of every message that is sent, in order, and no other bytes: false.  Version 1 shows none, and of a message in several chunks only
the last one is shown.  No other bytes are shown.
-/
import Verif.Proofs.LogSteps
import Verif.Props.C107
namespace Verif

namespace Spec

/-- What was written to the server, message by message (each a list of `Write` calls). -/
def writtenIn : List Ev → List (List Bytes)
  | [] => []
  | .sent ws :: t => ws :: writtenIn t
  | _ :: t => writtenIn t

/-- The message in these writes: chunks, each after its header, and the end marker. -/
def wholeMessage : List Bytes → Option Bytes
  | [e] => if e = [0x00, 0x00] then some [] else none
  | _ :: b :: ws => (wholeMessage ws).map (b ++ ·)
  | [] => none

/-- The message in these writes, if it is one chunk that is not full. -/
def oneChunk : List Bytes → Option Bytes
  | [_, b, e] => if e = [0x00, 0x00] ∧ b.length < 65535 then some b else none
  | _ => none

/-- The last chunk of the message in these writes, unless its length is that of a full chunk. -/
def lastChunk : List Bytes → Option Bytes
  | [_, b, e] => if e = [0x00, 0x00] ∧ b.length ≠ 65535 then some b else none
  | _ :: _ :: ws => lastChunk ws
  | _ => none

/-- The writes end with this chunk and the end marker. -/
def EndsWith (ws : List Bytes) (b : Bytes) : Prop := ∃ pre, ws = pre ++ [be 2 b.length, b, [0x00, 0x00]]

/-- The lines of the byte log, without those around each message. -/
def byteLines : List (Logger × Bytes) → List Bytes
  | [] => []
  | (.bytes, m) :: out => if m = ascii "start byte printout" ∨ m = ascii "end byte printout" then byteLines out else m :: byteLines out
  | _ :: out => byteLines out

/-- The line shows these bytes. -/
def ShowsBytes (b : Bytes) (line : Logger × Bytes) : Prop := line = (.bytes, sprintByteHex b)

end Spec

open Spec

/-- Full statement, of what is sent: it is shown. -/
def C108_statement : Prop :=
  ∀ (σ : Type) (env : Env) (W : World σ) (L : LogEnv) (fuel : Nat) (user password : Bytes) (ops : List LogOp) (w : σ) (s : LogState), s.out = [] → Always (· = .traceBytes) s ops →
    InOrder ShowsBytes ((writtenIn (logSession env W L fuel user password ops w).1.trace).filterMap wholeMessage)
      (logRun (logSession env W L fuel user password ops w).2 s).out

namespace C108

theorem written_append (t t' : List Ev) : writtenIn (t ++ t') = writtenIn t ++ writtenIn t' := by
  induction t with
  | nil => rfl
  | cons e t ih => cases e <;> simp only [List.cons_append, writtenIn, ih]

/-- The call into the log dumps these bytes. -/
def Dumps (b : Bytes) (l : LogCall) : Prop := l = .dumpBuffer (some b)

/-- Chunks with their headers. -/
def pairs (cs : Nat) (cks : List Bytes) : List Bytes := cks.flatMap fun c => [be 2 cs, c]

theorem pairs_snoc (cs : Nat) (cks : List Bytes) (c : Bytes) : pairs cs (cks ++ [c]) = pairs cs cks ++ [be 2 cs, c] := by
  simp [pairs]

theorem chunkWrites_pairs (cs : Nat) (ps : List Bytes) (st : ChunkSt) (h : ∃ cks, st.out = pairs cs cks ∧ ∀ c ∈ cks, c.length = cs) :
    ∃ cks, (chunkWrites cs st ps).out = pairs cs cks ∧ ∀ c ∈ cks, c.length = cs := by
  induction ps generalizing st with
  | nil => exact h
  | cons p ps ih =>
    refine ih (chunkWrite cs st p) ?_
    unfold chunkWrite
    dsimp only
    split
    · rename_i hl
      obtain ⟨cks, h1, h2⟩ := h
      refine ⟨cks ++ [(st.buf ++ p).take cs], by rw [pairs_snoc, h1], ?_⟩
      intro c hc
      rcases List.mem_append.1 hc with hc | hc
      · exact h2 c hc
      · rw [List.mem_singleton.1 hc, List.length_take]; omega
    · exact h

theorem lastChunk_skip (h c x y z : Bytes) (r : List Bytes) : lastChunk (h :: c :: x :: y :: z :: r) = lastChunk (x :: y :: z :: r) := by
  rw [lastChunk]
  intros; simp_all

theorem lastChunk_pairs (cs : Nat) (cks : List Bytes) (x y z : Bytes) (r : List Bytes) : lastChunk (pairs cs cks ++ x :: y :: z :: r) = lastChunk (x :: y :: z :: r) := by
  induction cks with
  | nil => rfl
  | cons c cks ih =>
    show lastChunk (be 2 cs :: c :: (pairs cs cks ++ x :: y :: z :: r)) = _
    cases cks with
    | nil => exact lastChunk_skip _ _ _ _ _ _
    | cons c' cks =>
      show lastChunk (be 2 cs :: c :: be 2 cs :: c' :: (pairs cs cks ++ x :: y :: z :: r)) = _
      cases hp : pairs cs cks ++ x :: y :: z :: r with
      | nil => cases cks <;> cases hp
      | cons a t =>
        rw [lastChunk_skip, ← hp]
        exact ih

theorem lastChunk_end (cks : List Bytes) (e : Bytes) (h : ∀ c ∈ cks, c.length = 65535) : lastChunk (pairs 65535 cks ++ [e]) = none := by
  induction cks with
  | nil => rfl
  | cons c cks ih =>
    cases cks with
    | nil =>
      show lastChunk [_, c, e] = none
      rw [lastChunk, if_neg]
      exact fun hc => hc.2 (h c List.mem_cons_self)
    | cons c' cks =>
      show lastChunk (_ :: c :: be 2 65535 :: c' :: (pairs 65535 cks ++ [e])) = none
      cases hp : pairs 65535 cks ++ [e] with
      | nil => cases cks <;> cases hp
      | cons a t =>
        rw [lastChunk_skip, ← hp]
        exact ih fun c hc => h c (List.mem_cons_of_mem _ hc)

theorem lastChunk_none (cs : Nat) (cks : List Bytes) : lastChunk (pairs cs cks) = none := by
  induction cks with
  | nil => rfl
  | cons c cks ih =>
    cases cks with
    | nil => rfl
    | cons c' cks =>
      cases hp : pairs cs cks with
      | nil =>
        show lastChunk (_ :: c :: _ :: c' :: pairs cs cks) = none
        rw [hp]; rfl
      | cons a t =>
        show lastChunk (_ :: c :: be 2 cs :: c' :: pairs cs cks) = none
        rw [hp, lastChunk_skip, ← hp]
        exact ih

theorem oneChunk_le {ws : List Bytes} {b : Bytes} (h : oneChunk ws = some b) : lastChunk ws = some b := by
  unfold oneChunk at h
  split at h
  · rename_i x b' e
    split at h
    · rename_i hc
      cases h
      rw [lastChunk, if_pos ⟨hc.1, by omega⟩]
    · cases h
  · cases h

variable {σ : Type} {env : Env} {W : World σ} {L : LogEnv}

/-- What `lastChunk` finds in a message is what is dumped. -/
theorem lastChunk_encode (v : Val) (b : Bytes) (h : lastChunk (encodeMsg env .v2 65535 v).1 = some b) :
    flushDump env .v2 65535 v = [.dumpBuffer (some b)] ∧ (oneChunk (encodeMsg env .v2 65535 v).1 = some b → (chunkWrites 65535 ⟨[], []⟩ (encode env .v2 v).1).out = []) := by
  obtain ⟨cks, h1, h2⟩ := chunkWrites_pairs 65535 (encode env .v2 v).1 ⟨[], []⟩ ⟨[], rfl, fun _ h => absurd h List.not_mem_nil⟩
  unfold flushDump
  unfold encodeMsg at h ⊢
  dsimp only at h ⊢
  cases he : (encode env .v2 v).2 with
  | some e => rw [he, h1, lastChunk_none] at h; cases h
  | none =>
    rw [he] at h
    dsimp only at h ⊢
    unfold flush at h ⊢
    by_cases hb : (chunkWrites 65535 ⟨[], []⟩ (encode env .v2 v).1).buf.length > 0
    · rw [if_pos hb, h1, List.append_assoc] at h
      rw [List.cons_append, List.cons_append, List.nil_append, lastChunk_pairs, lastChunk] at h
      rw [if_pos hb]
      split at h
      · cases h
        refine ⟨rfl, fun ho => ?_⟩
        rw [if_pos hb, h1] at ho
        rw [h1]
        cases cks with
        | nil => rfl
        | cons c cks => cases cks <;> cases ho
      · cases h
    · rw [if_neg hb, h1, lastChunk_end cks _ h2] at h
      cases h

/-- What is sent is dumped; for `sel` as below. -/
def Rel (sel : List Bytes → Option Bytes) (c : Conn σ) (l : List LogCall) (c' : Conn σ) : Prop :=
  c'.proto = c.proto ∧ c'.chunkSize = c.chunkSize ∧ ∃ evs, c'.trace = c.trace ++ evs ∧
    (c.proto ≠ .v1 → c.chunkSize = 65535 → InOrder Dumps ((writtenIn evs).filterMap sel) l)

theorem Rel.quiet {sel : List Bytes → Option Bytes} {c c' : Conn σ} (l : List LogCall) (h1 : c'.proto = c.proto) (h2 : c'.chunkSize = c.chunkSize) (evs : List Ev) (h3 : c'.trace = c.trace ++ evs)
    (h4 : writtenIn evs = []) : Rel sel c l c' := ⟨h1, h2, evs, h3, fun _ _ => by rw [h4]; exact C107.InOrder.none _⟩

theorem prim {sel : List Bytes → Option Bytes} (hsel : ∀ (v : Val) (c : Conn σ), c.proto ≠ .v1 → c.chunkSize = 65535 → c.sock = true → ∀ b, sel (encodeMsg env .v2 65535 v).1 = some b →
    .dumpBuffer (some b) ∈ (logSend env W L v c).2.2) : LPrim env W L (Rel (σ := σ) sel) where
  refl c := Rel.quiet _ rfl rfl [] (List.append_nil _).symm rfl
  trans h h' := by
    obtain ⟨a1, a2, evs, a3, a4⟩ := h
    obtain ⟨b1, b2, evs', b3, b4⟩ := h'
    refine ⟨b1.trans a1, b2.trans a2, evs ++ evs', by rw [b3, a3, List.append_assoc], fun hp hc => ?_⟩
    rw [written_append, List.filterMap_append]
    exact C107.InOrder.append (a4 hp hc) (b4 (by rw [a1]; exact hp) (by rw [a2]; exact hc))
  say c l _ := Rel.quiet _ rfl rfl [] (List.append_nil _).symm rfl
  send v c := by
    have hs : (logSend env W L v c).2.1 = (sendMessage env W v c).2 := rfl
    have hcore := sendMessage_core env W v c
    have h1 : (logSend env W L v c).2.1.proto = c.proto := congrArg Core.proto hcore
    have h2 : (logSend env W L v c).2.1.chunkSize = c.chunkSize := congrArg Core.chunkSize hcore
    by_cases hw : (encodeMsg env c.proto.codec c.chunkSize v).1 = []
    · refine Rel.quiet _ h1 h2 [] ?_ rfl
      rw [hs, List.append_nil]
      unfold sendMessage writeAll
      dsimp only
      rw [if_pos hw]
      split <;> rfl
    · cases hk : c.sock with
      | false =>
        refine Rel.quiet _ h1 h2 [] ?_ rfl
        rw [hs, List.append_nil]
        unfold sendMessage writeAll
        dsimp only
        rw [if_neg hw, if_pos hk]
      | true =>
        refine ⟨h1, h2, [.sent (encodeMsg env c.proto.codec c.chunkSize v).1], ?_, ?_⟩
        · rw [hs]
          unfold sendMessage writeAll
          dsimp only
          rw [if_neg hw, if_neg (by rw [hk]; nofun)]
          split
          · split <;> rfl
          · rfl
        · intro hp hc
          have hco : c.proto.codec = .v2 := by
            cases hp' : c.proto <;> first | exact absurd hp' hp | rfl
          have hsel := hsel v c hp hc hk
          rw [← hc, ← hco] at hsel
          show InOrder Dumps (List.filterMap sel [_]) _
          cases hb : sel (encodeMsg env c.proto.codec c.chunkSize v).1 with
          | none => simp only [List.filterMap_cons, hb, List.filterMap_nil]; exact C107.InOrder.none _
          | some b =>
            simp only [List.filterMap_cons, hb, List.filterMap_nil]
            exact C107.InOrder.one (hsel b hb) rfl
  recv c := by
    have hcore := receive_core env c
    rcases C107.receive_adds (env := env) c with ⟨v, _, h⟩ | ⟨_, h⟩
    · exact Rel.quiet _ (congrArg Core.proto hcore) (congrArg Core.chunkSize hcore) [.recv v] h rfl
    · exact Rel.quiet _ (congrArg Core.proto hcore) (congrArg Core.chunkSize hcore) [] (by rw [List.append_nil]; exact h) rfl
  endTx h c := Rel.quiet _ rfl rfl [] (List.append_nil _).symm rfl
  newTx c h := Rel.quiet _ rfl rfl [] (List.append_nil _).symm rfl
  sock c := by
    unfold closeSock
    dsimp only
    split <;> exact Rel.quiet _ rfl rfl [.closed] rfl rfl
  probe c := by
    unfold validateOpen
    split
    · exact Rel.quiet _ rfl rfl [] (List.append_nil _).symm rfl
    · split
      · exact Rel.quiet _ rfl rfl [] (List.append_nil _).symm rfl
      · exact Rel.quiet _ rfl rfl [] (List.append_nil _).symm rfl
      · split <;> exact Rel.quiet _ rfl rfl [] (List.append_nil _).symm rfl

theorem send_one (v : Val) (c : Conn σ) (hp : c.proto ≠ .v1) (hc : c.chunkSize = 65535) (b : Bytes) (h : oneChunk (encodeMsg env .v2 65535 v).1 = some b) :
    .dumpBuffer (some b) ∈ (logSend env W L v c).2.2 := by
  have hco : c.proto.codec = .v2 := by
    cases hp' : c.proto <;> first | exact absurd hp' hp | rfl
  obtain ⟨h1, h2⟩ := lastChunk_encode v b (oneChunk_le h)
  unfold logSend
  dsimp only
  rw [hco, hc, h2 h, h1]
  simp

theorem send_last (hW : ∀ s ws, (W.onSend s ws).ok = true) (v : Val) (c : Conn σ) (hp : c.proto ≠ .v1) (hc : c.chunkSize = 65535) (hk : c.sock = true) (b : Bytes)
    (h : lastChunk (encodeMsg env .v2 65535 v).1 = some b) : .dumpBuffer (some b) ∈ (logSend env W L v c).2.2 := by
  have hco : c.proto.codec = .v2 := by
    cases hp' : c.proto <;> first | exact absurd hp' hp | rfl
  obtain ⟨h1, -⟩ := lastChunk_encode v b h
  unfold logSend
  dsimp only
  rw [hco, hc, hk, hW, h1]
  simp

theorem session_dumps {sel : List Bytes → Option Bytes} (P : LPrim env W L (Rel (σ := σ) sel)) (h0 : sel [handShake] = none) (fuel : Nat) (user password : Bytes) (ops : List LogOp) (w : σ)
    (hops : ∀ n, .call (.setChunkSize n) ∉ ops) (hp : (logSession env W L fuel user password ops w).1.proto ≠ .v1) :
    InOrder Dumps ((writtenIn (logSession env W L fuel user password ops w).1.trace).filterMap sel) (logSession env W L fuel user password ops w).2 := by
  rcases P.session env W L fuel user password ops w (fun ⟨n, h⟩ => absurd h (hops n)) (fun name _ c => Rel.quiet _ rfl rfl [] (List.append_nil _).symm rfl) with
    ⟨h1, h2 | h2⟩ | ⟨c, l, l', h1, h2, h3, ⟨g1, g2, evs, g3, g4⟩, h5⟩
  · rw [h2]; exact C107.InOrder.none _
  · rw [h2]
    simp only [writtenIn, List.filterMap_cons, h0, List.filterMap_nil]
    exact C107.InOrder.none _
  · rw [h5, g3, h3]
    simp only [List.cons_append, List.nil_append, writtenIn, List.filterMap_cons, h0]
    exact .skip (g4 (by rw [← g1]; exact hp) h1)

/-- What is dumped is printed at the level trace-bytes. -/
theorem printed_dumps {bs : List Bytes} {calls : List LogCall} (h : InOrder Dumps bs calls) (s : LogState) (hs : s.level = .traceBytes)
    (hl : ∀ name, .setLevel name ∈ calls → levelNamed name = .traceBytes) : ∃ new, (logRun calls s).out = s.out ++ new ∧ InOrder ShowsBytes bs new := by
  induction h generalizing s with
  | nil => exact ⟨[], (List.append_nil _).symm, .nil⟩
  | @skip as l ls h ih =>
    obtain ⟨new, hn⟩ := C107.run_adds l s
    obtain ⟨new', h1, h2⟩ := ih (l.run s) (C107.run_level (P := (· = .traceBytes)) hs fun name e => hl name (e ▸ List.mem_cons_self)) fun name hm => hl name (List.mem_cons_of_mem _ hm)
    refine ⟨new ++ new', ?_, C107.InOrder.skips new h2⟩
    show (logRun ls (l.run s)).out = _
    rw [h1, hn, List.append_assoc]
  | @take v as l ls hr h ih =>
    cases hr
    obtain ⟨new', h1, h2⟩ := ih (LogCall.run (.dumpBuffer (some v)) s) (C107.run_level (P := (· = .traceBytes)) hs fun name e => by cases e)
      fun name hm => hl name (List.mem_cons_of_mem _ hm)
    refine ⟨[(.bytes, ascii "start byte printout"), (.bytes, sprintByteHex v), (.bytes, ascii "end byte printout")] ++ new', ?_, .skip (.take (show ShowsBytes v _ from rfl) (.skip h2))⟩
    show (logRun ls (LogCall.run (.dumpBuffer (some v)) s)).out = _
    rw [h1, ← List.append_assoc]
    congr 1
    simp [LogCall.run, traceBytes, hs]

/-- What is dumped. -/
def dumped : List LogCall → List Bytes
  | [] => []
  | .dump b :: ls => b :: dumped ls
  | .dumpBuffer (some b) :: ls => b :: dumped ls
  | _ :: ls => dumped ls

theorem dumped_append (l l' : List LogCall) : dumped (l ++ l') = dumped l ++ dumped l' := by
  fun_induction dumped l with
  | case1 => rfl
  | case2 b ls ih => simp only [List.cons_append, dumped, ih]
  | case3 b ls ih => simp only [List.cons_append, dumped, ih]
  | case4 x ls h1 h2 ih =>
    rw [List.cons_append, dumped]
    · exact ih
    · exact h1
    · exact h2

theorem dumped_text {l : LogCall} (h : l.IsText) : dumped [l] = [] := by cases l <;> first | rfl | exact absurd h id

theorem dumped_texts {ls : List LogCall} (h : ∀ l ∈ ls, l.IsText) : dumped ls = [] := by
  induction ls with
  | nil => rfl
  | cons x ls ih =>
    rw [show x :: ls = [x] ++ ls from rfl, dumped_append, dumped_text (h x List.mem_cons_self), ih fun y hy => h y (List.mem_cons_of_mem _ hy)]
    rfl

/-- What is dumped is sent, in order. -/
def Sent (c : Conn σ) (l : List LogCall) (c' : Conn σ) : Prop := ∃ evs, c'.trace = c.trace ++ evs ∧ InOrder (fun b ws => EndsWith ws b) (dumped l) (writtenIn evs)

theorem Sent.quiet {c c' : Conn σ} {l : List LogCall} (evs : List Ev) (h : c'.trace = c.trace ++ evs) (hl : dumped l = []) : Sent c l c' :=
  ⟨evs, h, by rw [hl]; exact C107.InOrder.none _⟩

theorem Sent.refl (c : Conn σ) : Sent c [] c := Sent.quiet [] (List.append_nil _).symm rfl

theorem Sent.trans {c c' c'' : Conn σ} {l l' : List LogCall} (h : Sent c l c') (h' : Sent c' l' c'') : Sent c (l ++ l') c'' := by
  obtain ⟨evs, a1, a2⟩ := h
  obtain ⟨evs', b1, b2⟩ := h'
  refine ⟨evs ++ evs', by rw [b1, a1, List.append_assoc], ?_⟩
  rw [dumped_append, written_append]
  exact C107.InOrder.append a2 b2

variable {α β : Type}

/-- On an open connection the call dumps what it sends; if it returns no error and `keep`, the connection is still open. -/
def Safe (keep : Bool) (m : LM σ α) : Prop :=
  ∀ c, c.sock = true → Sent c (m c).2.2 (m c).2.1 ∧ (keep = true → ∀ a, (m c).1 = .ok a → (m c).2.1.sock = true)

theorem Safe.bind {keep : Bool} {m : LM σ α} {f : α → LM σ β} (hm : Safe true m) (hf : ∀ a, Safe keep (f a)) : Safe keep (m >>= f) := by
  intro c hc
  obtain ⟨h1, h2⟩ := hm c hc
  show Sent c (LM.bind m f c).2.2 (LM.bind m f c).2.1 ∧ (keep = true → ∀ a, (LM.bind m f c).1 = .ok a → (LM.bind m f c).2.1.sock = true)
  unfold LM.bind
  match h : m c with
  | (.ok a, c', l) =>
    rw [h] at h1 h2
    obtain ⟨g1, g2⟩ := hf a c' (h2 rfl a rfl)
    exact ⟨Sent.trans h1 g1, g2⟩
  | (.err e, c', l) => rw [h] at h1; exact ⟨h1, fun _ _ h => by (cases h)⟩
  | (.panic, c', l) => rw [h] at h1; exact ⟨h1, fun _ _ h => by (cases h)⟩
  | (.fuel, c', l) => rw [h] at h1; exact ⟨h1, fun _ _ h => by (cases h)⟩

theorem Safe.weaken {m : LM σ α} (h : Safe true m) : Safe false m := fun c hc => ⟨(h c hc).1, fun h => by cases h⟩

theorem Safe.pure {keep : Bool} (a : α) : Safe keep (Pure.pure a : LM σ α) := fun c hc => ⟨Sent.refl c, fun _ _ _ => hc⟩

theorem Safe.fail {keep : Bool} (e : Err) : Safe keep (LM.fail e : LM σ α) := fun c _ => ⟨Sent.refl c, fun _ _ h => by cases h⟩

theorem Safe.fuel {keep : Bool} : Safe keep (LM.lift fun c => (.fuel, c) : LM σ α) := fun c _ => ⟨Sent.refl c, fun _ _ h => by cases h⟩

theorem Safe.get {keep : Bool} : Safe keep (LM.get : LM σ (Conn σ)) := fun c hc => ⟨Sent.refl c, fun _ _ _ => hc⟩

theorem Safe.text {keep : Bool} {l : LogCall} (h : l.IsText) : Safe keep (LM.say l : LM σ Unit) :=
  fun c hc => ⟨Sent.quiet [] (List.append_nil _).symm (dumped_text h), fun _ _ _ => hc⟩

theorem Safe.ite {keep : Bool} {p : Prop} [Decidable p] {m m' : LM σ α} (h : Safe keep m) (h' : Safe keep m') : Safe keep (if p then m else m') := by
  split
  · exact h
  · exact h'

theorem Safe.modify {keep : Bool} {f : Conn σ → Conn σ} (h : ∀ c, (f c).trace = c.trace) (hk : ∀ c, (f c).sock = c.sock) : Safe keep (LM.lift (CM.modify f)) :=
  fun c hc => ⟨Sent.quiet [] (by rw [List.append_nil]; exact h c) rfl, fun _ _ _ => (hk c).trans hc⟩

theorem Safe.mapErr {keep : Bool} {m : LM σ α} (f : Err → Err) (h : Safe keep m) : Safe keep (LM.mapErr f m) := by
  intro c hc
  obtain ⟨h1, h2⟩ := h c hc
  unfold LM.mapErr
  match h : m c with
  | (.ok a, c', l) => rw [h] at h1 h2; exact ⟨h1, h2⟩
  | (.err e, c', l) => rw [h] at h1; exact ⟨h1, fun _ _ h => by (cases h)⟩
  | (.panic, c', l) => rw [h] at h1; exact ⟨h1, fun _ _ h => by (cases h)⟩
  | (.fuel, c', l) => rw [h] at h1; exact ⟨h1, fun _ _ h => by (cases h)⟩

theorem Safe.thenFail {keep : Bool} {m : LM σ α} {log : Err → List LogCall} (hl : ∀ e, ∀ l ∈ log e, l.IsText) (e : Err) (h : Safe false m) : Safe keep (LM.thenFail m log e : LM σ β) := by
  intro c hc
  obtain ⟨h1, -⟩ := h c hc
  unfold LM.thenFail
  match h : m c with
  | (.ok a, c', l) => rw [h] at h1; exact ⟨h1, fun _ _ h => by (cases h)⟩
  | (.err e', c', l) =>
    rw [h] at h1
    exact ⟨Sent.trans h1 (Sent.quiet [] (List.append_nil _).symm (dumped_texts (hl e'))), fun _ _ h => by (cases h)⟩
  | (.panic, c', l) => rw [h] at h1; exact ⟨h1, fun _ _ h => by (cases h)⟩
  | (.fuel, c', l) => rw [h] at h1; exact ⟨h1, fun _ _ h => by (cases h)⟩

theorem Safe.receive {keep : Bool} : Safe keep (LM.lift (receive env) : LM σ Val) := by
  intro c hc
  have hk : (Verif.receive env c).2.sock = c.sock := congrArg Core.sock (receive_core env c)
  refine ⟨?_, fun _ _ _ => hk.trans hc⟩
  rcases C107.receive_adds (env := env) c with ⟨v, _, h⟩ | ⟨_, h⟩
  · exact Sent.quiet [.recv v] h rfl
  · exact Sent.quiet [] (by rw [List.append_nil]; exact h) rfl

theorem flushDump_ends {ver : Ver} {cs : Nat} {v : Val} {l : LogCall} (h : l ∈ flushDump env ver cs v) : ∃ b, l = .dumpBuffer (some b) ∧ EndsWith (encodeMsg env ver cs v).1 b := by
  unfold flushDump at h
  split at h
  · rename_i _ _ he
    split at h
    · rename_i hb
      refine ⟨_, List.mem_singleton.1 h, ?_⟩
      unfold encodeMsg
      dsimp only
      rw [he]
      unfold flush
      dsimp only
      rw [if_pos hb]
      exact ⟨_, by rw [List.append_assoc]; rfl⟩
    · cases h
  · cases h

theorem flushDump_dumped (ver : Ver) (cs : Nat) (v : Val) : InOrder (fun b ws => EndsWith ws b) (dumped (flushDump env ver cs v)) [(encodeMsg env ver cs v).1] := by
  match hf : flushDump env ver cs v with
  | [] => exact C107.InOrder.none _
  | [l] =>
    obtain ⟨b, rfl, hb⟩ := flushDump_ends (env := env) (ver := ver) (cs := cs) (v := v) (l := l) (by rw [hf]; exact List.mem_cons_self)
    exact .take hb .nil
  | l :: l' :: ls =>
    unfold flushDump at hf
    split at hf
    · split at hf <;> cases hf
    · cases hf

theorem Safe.send {keep : Bool} (v : Val) : Safe keep (logSend env W L v) := by
  intro c hk
  have hs : (logSend env W L v c).2.1 = (sendMessage env W v c).2 := rfl
  have hsock : (logSend env W L v c).2.1.sock = c.sock := congrArg Core.sock (sendMessage_core env W v c)
  refine ⟨?_, fun _ _ _ => hsock.trans hk⟩
  by_cases hw : (encodeMsg env c.proto.codec c.chunkSize v).1 = []
  · refine Sent.quiet [] ?_ ?_
    · rw [hs, List.append_nil]
      unfold sendMessage writeAll
      dsimp only
      rw [if_pos hw]
      split <;> rfl
    · unfold logSend
      dsimp only
      split
      · match hf : flushDump env c.proto.codec c.chunkSize v with
        | [] => rfl
        | l :: ls =>
          obtain ⟨b, -, pre, h⟩ := flushDump_ends (env := env) (ver := c.proto.codec) (cs := c.chunkSize) (v := v) (l := l) (by rw [hf]; exact List.mem_cons_self)
          rw [hw] at h
          cases pre <;> cases h
      · rfl
  · refine ⟨[.sent (encodeMsg env c.proto.codec c.chunkSize v).1], ?_, ?_⟩
    · rw [hs]
      unfold sendMessage writeAll
      dsimp only
      rw [if_neg hw, if_neg (by rw [hk]; nofun)]
      split
      · split <;> rfl
      · rfl
    · unfold logSend
      dsimp only
      split
      · exact flushDump_dumped _ _ _
      · exact C107.InOrder.none _

theorem safe_consumeWith {reset : LM σ Unit} (h : Safe true reset) : Safe true (logConsumeWith env L reset) := by
  unfold logConsumeWith
  refine Safe.bind (Safe.text trivial) fun _ => ?_
  refine Safe.bind Safe.receive fun v => ?_
  refine Safe.bind (Safe.text trivial) fun _ => ?_
  cases asFailure v with
  | none => exact Safe.pure _
  | some md =>
    refine Safe.bind (Safe.text trivial) fun _ => ?_
    exact Safe.bind (Safe.mapErr _ h) fun _ => Safe.fail _

theorem safe_resetLoop {close : LM σ Unit} (h : Safe false close) (n : Nat) : Safe true (logResetLoop env L close n) := by
  induction n with
  | zero => exact Safe.fuel
  | succ n ih =>
    unfold logResetLoop
    refine Safe.bind (Safe.mapErr _ Safe.receive) fun v => ?_
    refine Safe.ite (Safe.bind (Safe.text trivial) fun _ => ih) ?_
    cases asSuccess v with
    | some md => exact Safe.text trivial
    | none =>
      cases asFailure v with
      | some md => exact Safe.bind (Safe.text trivial) fun _ => Safe.thenFail (fun e l hl => by rw [List.mem_singleton.1 hl]; trivial) _ h
      | none => exact Safe.bind (Safe.text trivial) fun _ => Safe.thenFail (fun e l hl => absurd hl List.not_mem_nil) _ h

theorem safe_resetWith {close : LM σ Unit} (h : Safe false close) : Safe true (logResetWith env W L close) := by
  unfold logResetWith
  refine Safe.bind (Safe.text trivial) fun _ => ?_
  refine Safe.bind (Safe.mapErr _ (Safe.send _)) fun _ => ?_
  exact fun c => safe_resetLoop h _ c

theorem safe_txExchange {consume : LM σ Val} (h : Safe true consume) (msg : Val) (what : String) (said : Option String) :
    Safe true (logTxExchange env W L consume msg what said) := by
  unfold logTxExchange
  refine Safe.bind (Safe.send _) fun _ => ?_
  refine Safe.ite ?_ ?_
  · refine Safe.bind h fun run => ?_
    cases asSuccess run with
    | none => exact Safe.fail _
    | some _ =>
      cases said with
      | none => exact Safe.pure _
      | some f => exact Safe.text trivial
  · refine Safe.bind Safe.get fun c => ?_
    refine Safe.bind (Safe.send _) fun _ => ?_
    refine Safe.bind h fun run => ?_
    refine Safe.bind h fun pull => ?_
    cases asSuccess run with
    | none => exact Safe.fail _
    | some _ =>
      cases said with
      | none =>
        cases asSuccess pull with
        | none => exact Safe.fail _
        | some _ => exact Safe.pure _
      | some f =>
        refine Safe.bind (Safe.text trivial) fun _ => ?_
        cases asSuccess pull with
        | none => exact Safe.fail _
        | some _ => exact Safe.text trivial

theorem safe_rollbackWith {consume : LM σ Val} (h : Safe true consume) (hd : Nat) : Safe true (logRollbackWith env W L consume hd) := by
  unfold logRollbackWith
  refine Safe.bind Safe.get fun c => Safe.ite (Safe.fail _) ?_
  refine Safe.bind Safe.get fun c => ?_
  exact Safe.bind (safe_txExchange h _ _ _) fun _ => Safe.modify (fun _ => rfl) fun _ => rfl

theorem safe_commitWith {consume : LM σ Val} (h : Safe true consume) (hd : Nat) : Safe true (logCommitWith env W L consume hd) := by
  unfold logCommitWith
  refine Safe.bind Safe.get fun c => Safe.ite (Safe.fail _) ?_
  refine Safe.bind Safe.get fun c => ?_
  exact Safe.bind (safe_txExchange h _ _ _) fun _ => Safe.modify (fun _ => rfl) fun _ => rfl

theorem safe_closeSock : Safe false (LM.lift (closeSock W)) := by
  intro c _
  refine ⟨Sent.quiet [.closed] ?_ rfl, fun h => by cases h⟩
  unfold LM.lift closeSock
  dsimp only
  split <;> rfl

theorem safe_closeWith {rollback : Nat → LM σ Unit} (h : ∀ hd, Safe true (rollback hd)) : Safe false (logCloseWith env W L rollback) := by
  unfold logCloseWith
  refine Safe.bind Safe.get fun c => Safe.ite (Safe.fail _) ?_
  refine Safe.bind Safe.get fun c => ?_
  have hk : Safe false (do
      match (← LM.get).proto.closeMessage with
      | some m => logSend env W L m
      | none => Pure.pure ()
      LM.lift (closeSock W)) := by
    refine Safe.bind Safe.get fun c => ?_
    cases c.proto.closeMessage with
    | none => exact safe_closeSock
    | some m => exact Safe.bind (Safe.send _) fun _ => safe_closeSock
  cases c.cur with
  | none => exact hk
  | some hd => exact Safe.bind (h hd) fun _ => hk

theorem safe_reset (fuel : Nat) : Safe true (logReset env W L fuel) := by
  induction fuel with
  | zero => exact Safe.fuel
  | succ n ih =>
    unfold logReset
    exact safe_resetWith (safe_closeWith fun hd => safe_rollbackWith (safe_consumeWith ih) hd)

theorem safe_consume (fuel : Nat) : Safe true (logConsume env W L fuel) := safe_consumeWith (safe_reset fuel)

theorem safe_rollback (fuel hd : Nat) : Safe true (logRollback env W L fuel hd) := safe_rollbackWith (safe_consume fuel) hd

theorem safe_commit (fuel hd : Nat) : Safe true (logCommit env W L fuel hd) := safe_commitWith (safe_consume fuel) hd

theorem safe_close (fuel : Nat) : Safe false (logClose env W L fuel) := safe_closeWith fun hd => safe_rollback fuel hd

theorem safe_makeIdle (fuel : Nat) : Safe true (logMakeIdle env W L fuel) := by
  unfold logMakeIdle
  refine Safe.bind Safe.get fun c => ?_
  cases c.cur with
  | none => exact Safe.pure _
  | some hd => exact safe_rollback fuel hd

theorem safe_begin (fuel : Nat) (db : Bytes) : Safe true (logBegin env W L fuel db) := by
  unfold logBegin
  refine Safe.bind Safe.get fun c => Safe.ite (Safe.fail _) ?_
  refine Safe.bind Safe.get fun c => Safe.ite (Safe.fail _) ?_
  refine Safe.bind Safe.get fun c => ?_
  refine Safe.bind (safe_txExchange (safe_consume fuel) _ _ _) fun _ => ?_
  refine Safe.bind Safe.get fun c => ?_
  exact Safe.bind (Safe.modify (fun _ => rfl) fun _ => rfl) fun _ => Safe.pure _

theorem safe_rowsLoop (fuel : Nat) (n : Nat) (out : List (List Val)) : Safe true (logRowsLoop L (logConsume env W L fuel) n out) := by
  induction n generalizing out with
  | zero => exact Safe.fuel
  | succ n ih =>
    unfold logRowsLoop
    refine Safe.bind (safe_consume fuel) fun v => ?_
    cases asSuccess v with
    | some md => exact Safe.bind (Safe.text trivial) fun _ => Safe.pure _
    | none =>
      cases asRecord v with
      | some fs => exact Safe.bind (Safe.text trivial) fun _ => ih _
      | none => exact Safe.fail _

theorem safe_query (fuel : Nat) (q : Bytes) (ps : Entries) (db : Bytes) (inTx : Bool) : Safe true (logQueryWithDb env W L fuel q ps db inTx) := by
  unfold logQueryWithDb
  refine Safe.bind (m := LM.lift (checkDb db)) (fun c hc => ?_) fun _ => ?_
  · have hx : (LM.lift (checkDb db) c : CRes Unit × Conn σ × List LogCall).2 = (c, []) := by
      show ((checkDb db c).2, []) = _
      rw [checkDb_snd]
    rw [hx]
    exact ⟨Sent.refl c, fun _ _ _ => hc⟩
  unfold logRunQuery
  refine Safe.bind Safe.get fun c => Safe.ite (Safe.fail _) ?_
  refine Safe.bind Safe.get fun c => ?_
  refine Safe.bind (Safe.text trivial) fun _ => ?_
  refine Safe.bind (Safe.send _) fun _ => ?_
  refine Safe.bind (Safe.text trivial) fun _ => ?_
  refine Safe.bind (Safe.send _) fun _ => ?_
  refine Safe.bind (safe_consume fuel) fun v => ?_
  refine Safe.bind (Safe.text trivial) fun _ => ?_
  cases asSuccess v with
  | none => exact Safe.fail _
  | some _ => exact fun c => safe_rowsLoop fuel _ _ c

theorem safe_void {m : LM σ α} (h : Safe true m) : Safe false m.void := Safe.bind h fun _ => Safe.pure _

theorem safe_sendInit (fuel : Nat) (m : Val) : Safe false (logSendInit env W L fuel m) := by
  unfold logSendInit
  refine Safe.bind (Safe.send _) fun _ => ?_
  refine Safe.bind (safe_consume fuel) fun v => ?_
  cases asSuccess v with
  | some _ => exact Safe.text trivial
  | none => exact Safe.bind (Safe.text trivial) fun _ => safe_close fuel

theorem safe_step (fuel : Nat) (op : Op) : Safe false (logStep env W L fuel op) := by
  cases op with
  | query q ps db => exact safe_void (safe_query fuel q ps db false)
  | exec q ps db => exact safe_void (safe_query fuel q ps db false)
  | begin_ db => exact safe_void (safe_begin fuel db)
  | commit h => exact (safe_commit fuel h).weaken
  | rollback h => exact (safe_rollback fuel h).weaken
  | txQuery h q ps db => exact safe_void (safe_query fuel q ps db true)
  | txExec h q ps => exact safe_void (safe_query fuel q ps [] false)
  | txExecDb h q ps db => exact safe_void (safe_query fuel q ps db true)
  | close => exact safe_close fuel
  | makeIdle => exact (safe_makeIdle fuel).weaken
  | validateOpen =>
    refine safe_void (m := LM.lift (validateOpen W)) fun c hc => ?_
    have h1 : (validateOpen W c).2.trace = c.trace := by
      unfold validateOpen
      split
      · rfl
      · split
        · rfl
        · rfl
        · split <;> rfl
    have h2 : (validateOpen W c).2.sock = c.sock := by
      unfold validateOpen
      split
      · rfl
      · split
        · rfl
        · rfl
        · split <;> rfl
    exact ⟨Sent.quiet [] (by rw [List.append_nil]; exact h1) rfl, fun _ _ _ => h2.trans hc⟩
  | setChunkSize n => exact Safe.modify (fun _ => rfl) fun _ => rfl

theorem get_bind (f : Conn σ → LM σ α) (c : Conn σ) : (LM.get >>= f) c = f c c := rfl

/-- The call returns at once. -/
def Idle (m : LM σ α) (c : Conn σ) : Prop := ∃ r, m c = (r, c, [])

theorem Idle.get {f : Conn σ → LM σ α} {c : Conn σ} (h : Idle (f c) c) : Idle (LM.get >>= f) c := h

theorem Idle.fail {c : Conn σ} (e : Err) : Idle (LM.fail e : LM σ α) c := ⟨_, rfl⟩

theorem Idle.bind {m : LM σ α} {f : α → LM σ β} {c : Conn σ} (h : Idle m c) (hf : ∀ a, Idle (f a) c) : Idle (m >>= f) c := by
  obtain ⟨r, h⟩ := h
  show ∃ r, LM.bind m f c = (r, c, [])
  unfold LM.bind
  rw [h]
  cases r with
  | ok a =>
    obtain ⟨r, h⟩ := hf a
    exact ⟨r, by dsimp only; rw [h]; rfl⟩
  | err e => exact ⟨_, rfl⟩
  | panic => exact ⟨_, rfl⟩
  | fuel => exact ⟨_, rfl⟩

theorem Idle.void {m : LM σ α} {c : Conn σ} (h : Idle m c) : Idle m.void c := Idle.bind h fun _ => ⟨_, rfl⟩

theorem Idle.yes {p : Prop} [Decidable p] {m m' : LM σ α} {c : Conn σ} (hp : p) (h : Idle m c) : Idle (if p then m else m') c := by rw [if_pos hp]; exact h

theorem Idle.no {p : Prop} [Decidable p] {m m' : LM σ α} {c : Conn σ} (hp : ¬ p) (h : Idle m' c) : Idle (if p then m else m') c := by rw [if_neg hp]; exact h

/-- A closed connection writes nothing to the log. -/
theorem closed_step (fuel : Nat) (op : Op) {c : Conn σ} (hi : c.core.Inv) (hk : c.sock = false) : Sent c (logStep env W L fuel op c).2.2 (logStep env W L fuel op c).2.1 := by
  have hc : c.closed = true := by
    have : c.closed = !c.sock := hi.sock
    rw [this, hk]; rfl
  have hn : c.cur = none := hi.closed_cur hc
  have ht : ∀ h, c.txClosed h = true := by
    intro h
    cases hh : c.txClosed h with
    | true => rfl
    | false =>
      have : c.cur = some h := (hi.open_iff h).1 (txClosed_false.1 hh)
      rw [hn] at this; cases this
  have done : ∀ {α : Type} {m : LM σ α}, Idle m c → Sent c (m c).2.2 (m c).2.1 := fun ⟨r, h⟩ => by rw [h]; exact Sent.refl c
  have query : ∀ (q : Bytes) (ps : Entries) (db : Bytes) (inTx : Bool), Idle (logQueryWithDb env W L fuel q ps db inTx) c := by
    intro q ps db inTx
    unfold logQueryWithDb
    refine Idle.bind ⟨(checkDb db c).1, ?_⟩ fun _ => ?_
    · show ((checkDb db c).1, (checkDb db c).2, []) = _
      rw [checkDb_snd]
    · unfold logRunQuery
      exact Idle.get (Idle.yes hc (Idle.fail _))
  cases op with
  | query q ps db => exact done (query q ps db false).void
  | exec q ps db => exact done (query q ps db false).void
  | begin_ db =>
    refine done (Idle.void (m := logBegin env W L fuel db) ?_)
    unfold logBegin
    refine Idle.get (Idle.no (by rw [hn]; nofun) ?_)
    exact Idle.get (Idle.yes hc (Idle.fail _))
  | commit h =>
    refine done (m := logCommit env W L fuel h) ?_
    unfold logCommit logCommitWith
    exact Idle.get (Idle.yes (ht h) (Idle.fail _))
  | rollback h =>
    refine done (m := logRollback env W L fuel h) ?_
    unfold logRollback logRollbackWith
    exact Idle.get (Idle.yes (ht h) (Idle.fail _))
  | txQuery h q ps db => exact done (query q ps db true).void
  | txExec h q ps => exact done (query q ps [] false).void
  | txExecDb h q ps db => exact done (query q ps db true).void
  | close =>
    refine done (m := logClose env W L fuel) ?_
    unfold logClose logCloseWith
    exact Idle.get (Idle.yes hc (Idle.fail _))
  | makeIdle =>
    refine done (m := logMakeIdle env W L fuel) ?_
    unfold logMakeIdle
    refine Idle.get ?_
    rw [hn]
    exact ⟨_, rfl⟩
  | validateOpen =>
    refine done (Idle.void (m := LM.lift (validateOpen W)) ⟨(validateOpen W c).1, ?_⟩)
    show ((validateOpen W c).1, (validateOpen W c).2, []) = _
    unfold validateOpen
    rw [if_pos hc]
  | setChunkSize n => exact Sent.quiet [] (List.append_nil _).symm rfl

theorem sent_history (fuel : Nat) (ops : List LogOp) {c : Conn σ} (hi : c.core.Inv) : Sent c (logHistory env W L fuel ops c).2 (logHistory env W L fuel ops c).1 := by
  induction ops generalizing c with
  | nil => exact Sent.refl c
  | cons op ops ih =>
    cases op with
    | setLevel name =>
      obtain ⟨evs, h1, h2⟩ := ih hi
      exact ⟨evs, h1, h2⟩
    | call op =>
      have hi' : (logStep env W L fuel op c).2.1.core.Inv := by
        have := Keeps.step env W fuel op c hi
        rw [← C98.erase_step (L := L)] at this
        exact this
      refine Sent.trans ?_ (ih hi')
      cases hk : c.sock with
      | true => exact (safe_step fuel op c hk).1
      | false => exact closed_step fuel op hi hk

theorem sent_session (fuel : Nat) (user password : Bytes) (ops : List LogOp) (w : σ) :
    InOrder (fun b ws => EndsWith ws b) (dumped (logSession env W L fuel user password ops w).2) (writtenIn (logSession env W L fuel user password ops w).1.trace) := by
  have key : Sent (Conn.fresh w) (logSession env W L fuel user password ops w).2 (logSession env W L fuel user password ops w).1 := by
    have hcr : Sent (Conn.fresh w) (logCreate env W L fuel user password w).2.2 (logCreate env W L fuel user password w).2.1 := by
      rcases logCreate_cases (env := env) (W := W) (L := L) fuel user password w with ⟨h1, -, h2⟩ | ⟨p, c, l, -, -, hk, ht, he⟩
      · rw [h1]
        exact Sent.quiet _ rfl rfl
      · rw [he]
        have : Sent (Conn.fresh w) [.trace l] c := Sent.quiet c.trace rfl rfl
        exact Sent.trans this (safe_sendInit fuel _ c hk).1
    unfold logSession
    match h : logCreate env W L fuel user password w with
    | (.ok u, c, l) =>
      rw [h] at hcr
      have hi : c.core.Inv := by
        refine create_inv env W (fuel := fuel) (user := user) (password := password) (w := w) ?_
        have := congrFun (erase_init (env := env) (W := W) (L := L) fuel user password) (Conn.fresh w)
        have he : (logInit env W L fuel user password).erase (Conn.fresh w) = (.ok u, c) := by
          show ((logCreate env W L fuel user password w).1, (logCreate env W L fuel user password w).2.1) = _
          rw [h]
        rw [he] at this
        exact this.symm
      exact Sent.trans hcr (sent_history fuel ops hi)
    | (.err e, c, l) => rw [h] at hcr; exact hcr
    | (.panic, c, l) => rw [h] at hcr; exact hcr
    | (.fuel, c, l) => rw [h] at hcr; exact hcr
  obtain ⟨evs, h1, h2⟩ := key
  rw [h1]
  exact h2

theorem byteLines_append (o o' : List (Logger × Bytes)) : byteLines (o ++ o') = byteLines o ++ byteLines o' := by
  induction o with
  | nil => rfl
  | cons x o ih =>
    obtain ⟨lg, m⟩ := x
    cases lg with
    | bytes =>
      rw [List.cons_append]
      simp only [byteLines, ih]
      split <;> rfl
    | _ => exact ih

theorem hex_line (b : Bytes) : byteLines [(.bytes, ascii "start byte printout"), (.bytes, sprintByteHex b), (.bytes, ascii "end byte printout")] = [sprintByteHex b] := by
  have h1 : ∀ m : Bytes, m.head? = some 10 → m ≠ ascii "start byte printout" ∧ m ≠ ascii "end byte printout" := by
    intro m hm
    constructor <;> (rintro rfl; revert hm; decide +kernel)
  have h2 := h1 (sprintByteHex b) (by unfold sprintByteHex; rw [show ascii "\n" = [10] from by decide +kernel]; rfl)
  unfold byteLines
  rw [if_pos (.inl rfl)]
  unfold byteLines
  rw [if_neg fun h => h.elim h2.1 h2.2]
  unfold byteLines
  rw [if_pos (.inr rfl)]
  rfl

theorem InOrder.comp {A B C : Type} {R : A → B → Prop} {S : B → C → Prop} {T : A → C → Prop} (hT : ∀ a b c, R a b → S b c → T a c) {as : List A} {bs : List B} {cs : List C}
    (h : InOrder R as bs) (h' : InOrder S bs cs) : InOrder T as cs := by
  induction h' generalizing as with
  | nil => cases h; exact .nil
  | skip _ ih => exact .skip (ih h)
  | take hs _ ih =>
    cases h with
    | skip h => exact .skip (ih h)
    | take hr h => exact .take (hT _ _ _ hr hs) (ih h)

theorem printed_lines (calls : List LogCall) (s : LogState) :
    ∃ ms, byteLines (logRun calls s).out = byteLines s.out ++ ms ∧ InOrder (fun m b => m = sprintByteHex b) ms (dumped calls) := by
  induction calls generalizing s with
  | nil => exact ⟨[], (List.append_nil _).symm, .nil⟩
  | cons l calls ih =>
    obtain ⟨ms, h1, h2⟩ := ih (l.run s)
    have one : ∀ (lg : Logger) (m : Bytes) (P : Prop) [Decidable P], lg ≠ .bytes → byteLines (if P then { s with out := s.out ++ [(lg, m)] } else s : LogState).out = byteLines s.out := by
      intro lg m P _ hne
      split
      · rw [byteLines_append]
        cases lg with
        | bytes => exact absurd rfl hne
        | _ => exact List.append_nil _
      · rfl
    have tb : ∀ b, byteLines (traceBytes b s).out = byteLines s.out ++ [sprintByteHex b] ∨ byteLines (traceBytes b s).out = byteLines s.out := by
      intro b
      unfold traceBytes
      split
      · rw [byteLines_append, hex_line]; exact .inl rfl
      · exact .inr rfl
    have dump : ∀ b, byteLines (logRun calls (traceBytes b s)).out = byteLines (traceBytes b s).out ++ ms →
        ∃ ms, byteLines (logRun calls (traceBytes b s)).out = byteLines s.out ++ ms ∧ InOrder (fun m b => m = sprintByteHex b) ms (b :: dumped calls) := by
      intro b h
      rcases tb b with h' | h' <;> rw [h'] at h
      · exact ⟨_ :: ms, by rw [h, List.append_assoc]; rfl, .take rfl h2⟩
      · exact ⟨ms, h, .skip h2⟩
    cases l with
    | setLevel name => exact ⟨ms, h1, h2⟩
    | error m => exact ⟨ms, by rw [show byteLines (LogCall.run (.error m) s).out = byteLines s.out from one _ _ _ (by nofun)] at h1; exact h1, h2⟩
    | info m => exact ⟨ms, by rw [show byteLines (LogCall.run (.info m) s).out = byteLines s.out from one _ _ _ (by nofun)] at h1; exact h1, h2⟩
    | trace m => exact ⟨ms, by rw [show byteLines (LogCall.run (.trace m) s).out = byteLines s.out from one _ _ _ (by nofun)] at h1; exact h1, h2⟩
    | dump b => exact dump b h1
    | dumpBuffer ob =>
      cases ob with
      | none => exact ⟨ms, h1, h2⟩
      | some b => exact dump b h1

end C108

section
variable {σ : Type} (env : Env) (W : World σ) (L : LogEnv)

/-- On a connection of version 2, 3 or 4 with its first chunk size, messages in one chunk are shown. -/
theorem C108_partial (fuel : Nat) (user password : Bytes) (ops : List LogOp) (w : σ) (s : LogState) (h0 : s.out = []) (hs : Always (· = .traceBytes) s ops)
    (hops : ∀ n, .call (.setChunkSize n) ∉ ops) (hp : (logSession env W L fuel user password ops w).1.proto ≠ .v1) :
    InOrder ShowsBytes ((writtenIn (logSession env W L fuel user password ops w).1.trace).filterMap oneChunk) (logRun (logSession env W L fuel user password ops w).2 s).out := by
  obtain ⟨new, h1, h2⟩ := C108.printed_dumps (C108.session_dumps (C108.prim fun v c hp hc _ b h => C108.send_one v c hp hc b h) (by decide) fuel user password ops w hops hp) s hs.1
    (C107.session_levels hs)
  rw [h1, h0]
  exact h2

/-- The same, of longer messages, if writing does not fail: the last chunk is shown, unless it is full. -/
theorem C108_last_partial (hW : ∀ s ws, (W.onSend s ws).ok = true) (fuel : Nat) (user password : Bytes) (ops : List LogOp) (w : σ) (s : LogState) (h0 : s.out = [])
    (hs : Always (· = .traceBytes) s ops) (hops : ∀ n, .call (.setChunkSize n) ∉ ops) (hp : (logSession env W L fuel user password ops w).1.proto ≠ .v1) :
    InOrder ShowsBytes ((writtenIn (logSession env W L fuel user password ops w).1.trace).filterMap lastChunk) (logRun (logSession env W L fuel user password ops w).2 s).out := by
  obtain ⟨new, h1, h2⟩ := C108.printed_dumps (C108.session_dumps (C108.prim fun v c hp hc hk b h => C108.send_last hW v c hp hc hk b h) (by decide) fuel user password ops w hops hp) s hs.1
    (C107.session_levels hs)
  rw [h1, h0]
  exact h2

/-- Whatever the level: what the byte log shows are the last chunks of messages that were sent, in order, each once at most. -/
theorem C108_only (fuel : Nat) (user password : Bytes) (ops : List LogOp) (w : σ) (s : LogState) (h0 : s.out = []) :
    InOrder (fun line ws => ∃ b, EndsWith ws b ∧ line = sprintByteHex b) (byteLines (logRun (logSession env W L fuel user password ops w).2 s).out)
      (writtenIn (logSession env W L fuel user password ops w).1.trace) := by
  obtain ⟨ms, h1, h2⟩ := C108.printed_lines (logSession env W L fuel user password ops w).2 s
  rw [h0] at h1
  rw [h1]
  exact C108.InOrder.comp (fun _ b _ h h' => ⟨b, h', h⟩) h2 (C108.sent_session fuel user password ops w)

end

/-- Version 1 shows nothing. -/
theorem C108_refuted : ¬ C108_statement := by
  intro h
  have h := h _ env0 scripted C98.shortTexts 3 [] [] [] sOpen1 ⟨.traceBytes, []⟩ rfl ⟨rfl, fun _ h => absurd h List.not_mem_nil⟩
  have h1 : ((writtenIn (logSession env0 scripted C98.shortTexts 3 [] [] [] sOpen1).1.trace).filterMap wholeMessage).length = 1 := by decide +kernel
  have h2 : ((logRun (logSession env0 scripted C98.shortTexts 3 [] [] [] sOpen1).2 ⟨.traceBytes, []⟩).out.map (·.1)) = [.trace, .trace, .trace, .info] := by decide +kernel
  obtain ⟨b, hb⟩ := List.exists_mem_of_length_pos (by rw [h1]; decide : 0 < ((writtenIn (logSession env0 scripted C98.shortTexts 3 [] [] [] sOpen1).1.trace).filterMap wholeMessage).length)
  obtain ⟨line, hl, he⟩ := C107.InOrder.mem h hb
  have : line.1 ∈ ((logRun (logSession env0 scripted C98.shortTexts 3 [] [] [] sOpen1).2 ⟨.traceBytes, []⟩).out.map (·.1)) := List.mem_map_of_mem hl
  rw [h2, he] at this
  simp at this

/-- Version 4 with chunks of 3 bytes: there are messages whose bytes are not shown. -/
theorem C108_chunks_refuted :
    let ops : List LogOp := [.call (.setChunkSize 3), .call (.query (ascii "RETURN") [] [])]
    let r := logSession env0 scripted C98.shortTexts 3 [] [] ops (sOpen4 ++ [[], sSuccess ++ sSuccess])
    Always (· = .traceBytes) ⟨.traceBytes, []⟩ ops ∧ r.1.proto ≠ .v1 ∧
      ¬ InOrder ShowsBytes ((writtenIn r.1.trace).filterMap wholeMessage) (logRun r.2 ⟨.traceBytes, []⟩).out := by
  refine ⟨⟨rfl, fun name h => by simp at h⟩, by decide +kernel, fun h => ?_⟩
  have h1 : ∃ b ∈ (writtenIn (logSession env0 scripted C98.shortTexts 3 [] [] [.call (.setChunkSize 3), .call (.query (ascii "RETURN") [] [])] (sOpen4 ++ [[], sSuccess ++ sSuccess])).1.trace).filterMap wholeMessage,
      (Logger.bytes, sprintByteHex b) ∉ (logRun (logSession env0 scripted C98.shortTexts 3 [] [] [.call (.setChunkSize 3), .call (.query (ascii "RETURN") [] [])] (sOpen4 ++ [[], sSuccess ++ sSuccess])).2
        ⟨.traceBytes, []⟩).out := by decide +kernel
  obtain ⟨b, hb, hn⟩ := h1
  obtain ⟨line, hl, he⟩ := C107.InOrder.mem h hb
  rw [he] at hl
  exact hn hl

/-- A session of version 4 at this level: four messages, each of one chunk and shown. -/
example :
    let ops : List LogOp := [.call (.query (ascii "RETURN 1") [] []), .call .close]
    let r := logSession env0 scripted C98.shortTexts 3 (ascii "neo4j") C98.secret ops (sOpen4 ++ [[], sSuccess ++ sOneRow])
    Always (· = .traceBytes) ⟨.traceBytes, []⟩ ops ∧ (∀ n, .call (.setChunkSize n) ∉ ops) ∧ r.1.proto ≠ .v1 ∧ r.1.closed = true ∧
      ((writtenIn r.1.trace).filterMap oneChunk).length = 4 ∧ ((writtenIn r.1.trace).filterMap lastChunk).length = 4 ∧ (byteLines (logRun r.2 ⟨.traceBytes, []⟩).out).length = 4 := by
  refine ⟨⟨rfl, fun name h => by simp at h⟩, by simp, ?_⟩
  decide +kernel

/-- Writing to the scripted server does not fail. -/
example : ∀ s ws, (scripted.onSend s ws).ok = true := by intro s ws; cases s <;> rfl

end Verif

/-
C110  A session that the server accepts is opened.
-/
import Verif.Proofs.Stream
import Verif.Proofs.Aligned
import Verif.Props.C28
namespace Verif
open Spec

section
variable {σ : Type} (env : Env) (W : World σ)

/-- The server accepts the session: after the version number `n` of protocol `p` it sends `more`, and to an initialisation message with these
credentials it answers SUCCESS, framed in any way and with any metadata that the version can carry.  `rest` is what it sends after that. -/
structure AcceptsSession (user password : Bytes) (w : σ) (n : UInt8) (p : Proto) (more rest : Bytes) : Prop where
  dial : (W.dial w).2 = true
  offer : offered n p
  taken : (firstAnswer W w).ok = true
  answer : (firstAnswer W w).segs.flatten = [0, 0, 0, n] ++ more
  init : ∀ ws, InitSent p user password ws → (W.onSend (firstAnswer W w).st ws).ok = true ∧
    ∃ m v, Answers [Spec.success m] (more ++ (W.onSend (firstAnswer W w).st ws).segs.flatten) rest ∧ interp env p.codec (Spec.success m) = some v

/-- A new connection: open, in the negotiated version, without a transaction, with nothing sent but the preamble and the initialisation message, and
nothing read but the answer to it. -/
structure IsNew (user password : Bytes) (w : σ) (p : Proto) (rest : Bytes) (c : Conn σ) : Prop where
  proto : c.proto = p
  open_ : c.closed = false
  sock : c.sock = true
  idle : c.cur = none
  chunk : c.chunkSize = 65535
  unread : c.segs.flatten = rest
  events : ∃ ws m v, InitSent p user password ws ∧ interp env p.codec (Spec.success m) = some v ∧ c.trace = [.sent [preamble], .sent ws, .recv v] ∧
    c.world = (W.onSend (firstAnswer W w).st ws).st ∧ c.fin = (W.onSend (firstAnswer W w).st ws).fin

end

/-- C110: a session that the server accepts is opened. -/
def C110_statement : Prop := ∀ (σ : Type) (env : Env) (W : World σ) (fuel : Nat) (user password : Bytes) (w : σ) (n : UInt8) (p : Proto) (more rest : Bytes),
  user.length ≤ 65535 → password.length ≤ 65535 → AcceptsSession env W user password w n p more rest →
  ∃ c, createBoltConn env W fuel user password w = (.ok (), c) ∧ IsNew env W user password w p rest c

section
variable {σ : Type} (env : Env) (W : World σ)

/-- It is if the version number arrives in one piece. -/
theorem C110_partial (fuel : Nat) {user password : Bytes} {w : σ} {n : UInt8} {p : Proto} {more rest more' : Bytes} {segs : List Bytes}
    (hu : user.length ≤ 65535) (hp : password.length ≤ 65535) (h : AcceptsSession env W user password w n p more rest)
    (hs : (firstAnswer W w).segs = ([0, 0, 0, n] ++ more') :: segs) :
    ∃ c, createBoltConn env W fuel user password w = (.ok (), c) ∧ IsNew env W user password w p rest c := by
  obtain ⟨h1, h2, h3, h4, h5⟩ := h
  have hc := accepts_init env W fuel user password w h1 n p h2 more' segs h3 hs
  have hm : (if more' = [] then segs else more' :: segs).flatten = more := by
    have : more' ++ segs.flatten = more := by
      rw [hs, List.flatten_cons, List.append_assoc] at h4
      exact List.append_cancel_left h4
    rw [← this]
    split
    · rename_i h; rw [h]; rfl
    · rfl
  rw [hc]
  generalize (if more' = [] then segs else more' :: segs) = segs' at hm
  obtain ⟨e1, e2⟩ := init_sent env p hu hp
  obtain ⟨g1, m, v, g2, g3⟩ := h5 _ e2
  obtain ⟨md, hv⟩ := interp_success_inv env g3
  subst hv
  have hsend := sendMessage_good env W (v := p.initMessage clientID (buildAuthTokenBasic user password)) (c := afterHandshake W w segs' p) rfl e1 g1
  have hr : Reads env p.codec [successV md] ((afterHandshake W w segs' p).sent env W (p.initMessage clientID (buildAuthTokenBasic user password))).segs.flatten rest := by
    have : ((afterHandshake W w segs' p).sent env W (p.initMessage clientID (buildAuthTokenBasic user password))).segs.flatten =
        more ++ (W.onSend (firstAnswer W w).st (encodeMsg env p.codec 65535 (p.initMessage clientID (buildAuthTokenBasic user password))).1).segs.flatten := by
      simp only [Conn.sent, afterHandshake, List.flatten_append, hm]
      rfl
    rw [this]
    exact Answers.reads env g2 ⟨g3, trivial⟩
  obtain ⟨segs'', k1, k2⟩ := consume_reads env (reset := reset env W fuel) (c := (afterHandshake W w segs' p).sent env W (p.initMessage clientID (buildAuthTokenBasic user password))) rfl
    (by rfl) hr
  refine ⟨((afterHandshake W w segs' p).sent env W (p.initMessage clientID (buildAuthTokenBasic user password))).got [successV md] segs'', ?_, ?_⟩
  · unfold sendInit
    rw [CM.bind_ok hsend]
    show (consumeWith env (reset env W fuel) >>= _) _ = _
    rw [CM.bind_ok k1]
    rfl
  · exact ⟨rfl, rfl, rfl, rfl, rfl, k2, _, m, _, e2, g3, rfl, rfl, rfl⟩

end

/-- A server that accepts version `n` and then the session. -/
theorem accepts_scripted {n : UInt8} {p : Proto} (h : offered n p) (user password : Bytes) (first : List Bytes) (hf : first.flatten = [0, 0, 0, n])
    (script : List (List Bytes)) : AcceptsSession env0 scripted user password (first :: sSuccess :: script) n p [] [] where
  dial := rfl
  offer := h
  taken := rfl
  answer := by rw [List.append_nil, ← hf]; rfl
  init ws _ := ⟨rfl, [], .struct .success [.map []], ⟨[0xB1, 0x70, 0xA0], sSuccess.flatten, [], rfl, ⟨[[0xB1, 0x70, 0xA0]], by simp [GoodChunks], rfl, rfl⟩,
    ⟨[0xB1], [0xA0], Or.inl ⟨by decide, rfl⟩, ⟨[0xA0], [], ⟨[0xA0], [], Or.inl ⟨by decide, rfl⟩, rfl, rfl⟩, rfl, rfl⟩, rfl⟩, rfl⟩, by cases p <;> rfl⟩

/-- Not if it arrives in two: the rest of the version number is not waited for. -/
theorem C110_refuted : ¬ C110_statement := by
  intro h
  obtain ⟨c, h1, _⟩ := h _ env0 scripted 3 [0x75] [0x70] ([[0, 0], [0, 3]] :: sSuccess :: []) 3 .v3 [] [] (by decide) (by decide)
    (accepts_scripted ⟨by decide, by decide, rfl⟩ _ _ _ rfl _)
  have h2 : (createBoltConn env0 scripted 3 [0x75] [0x70] ([[0, 0], [0, 3]] :: sSuccess :: [])).1.kind = 1 := by decide +kernel
  rw [h1] at h2
  cases h2

/-- A server for which it is opened, whatever it does afterwards. -/
example (script : List (List Bytes)) : ∃ c, createBoltConn env0 scripted 3 [0x75] [0x70] ([[0, 0, 0, 3]] :: sSuccess :: script) = (.ok (), c) ∧
    IsNew env0 scripted [0x75] [0x70] ([[0, 0, 0, 3]] :: sSuccess :: script) .v3 [] c :=
  C110_partial env0 scripted 3 (by decide) (by decide) (accepts_scripted ⟨by decide, by decide, rfl⟩ _ _ _ rfl _) (more' := []) rfl

end Verif

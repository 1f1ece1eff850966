/-
C117  Only a malformed message from the server can make a call panic.

`C117`: whatever the arguments of the calls and the history of the connection, a call panics only while it reads a message that arrived from the server, is complete, and contains a string or
list header with a length of at least 2^7, 2^15 or 2^31 (depending on the header), or a node, relationship or path with something else in the place of an integer (`Spec.Hazard`).
`C117_connect`: the same for opening the connection.  `C117_safe`: connections to servers that send no such message never panic.
-/
import Verif.Proofs.EndsAll
import Verif.Proofs.Aligned
import Verif.Proofs.PanicSrc
import Verif.Proofs.Terminates
import Verif.Spec.Server
import Verif.Spec.History
import Verif.Spec.Scripted
namespace Verif
open Spec

section
variable {σ : Type} (env : Env) (W : World σ)

/-- `arrived` contains a complete message that makes the decoder panic, just before `rest`. -/
def Spec.Poisoned (ver : Ver) (arrived rest : Bytes) : Prop :=
  ∃ pre p f, arrived = pre ++ (f ++ rest) ∧ Framed p f ∧ decode env ver p = .panic ∧ Hazard p

/-- What a call does to the stream from the server: it writes messages, the answers arrive, and it reads the first part of what is there.  If it panics, the last message read is the cause. -/
def Took (ver : Ver) (c : Conn σ) (panicked : Bool) (c' : Conn σ) : Prop :=
  c.proto.codec = ver → c'.proto.codec = ver ∧ ∃ evs, c'.trace = c.trace ++ evs ∧ c'.world = (feed W c.world (sents evs)).1 ∧
    (∃ pre, c.segs.flatten ++ (feed W c.world (sents evs)).2 = pre ++ c'.segs.flatten) ∧
    (panicked = true → Poisoned env ver (c.segs.flatten ++ (feed W c.world (sents evs)).2) c'.segs.flatten)

theorem Took.same {ver : Ver} {c c' : Conn σ} (h1 : c'.proto = c.proto) (h2 : c'.trace = c.trace) (h3 : c'.world = c.world) (h4 : ∃ pre, c.segs.flatten = pre ++ c'.segs.flatten) :
    Took env W ver c false c' := by
  intro hv
  obtain ⟨pre, h4⟩ := h4
  exact ⟨by rw [h1, hv], [], by simp [h2], by simp [sents, feed, h3], ⟨pre, by simp [sents, feed, h4]⟩, by simp⟩

theorem took (ver : Ver) : EPrim env W (Took env W ver) where
  refl c := Took.same env W rfl rfl rfl ⟨[], rfl⟩
  trans := by
    intro a b c x h1 h2 hv
    obtain ⟨hv1, e1, t1, w1, ⟨p1, s1⟩, -⟩ := h1 hv
    obtain ⟨hv2, e2, t2, w2, ⟨p2, s2⟩, k2⟩ := h2 hv1
    have e : a.segs.flatten ++ (feed W a.world (sents (e1 ++ e2))).2 = p1 ++ (b.segs.flatten ++ (feed W b.world (sents e2)).2) := by
      rw [sents_append, feed_append, ← List.append_assoc, s1, ← w1, List.append_assoc]
    refine ⟨hv2, e1 ++ e2, by rw [t2, t1, List.append_assoc], ?_, ⟨p1 ++ p2, ?_⟩, ?_⟩
    · rw [sents_append, feed_append, w2, w1]
    · rw [e, s2, List.append_assoc]
    · intro hx
      obtain ⟨pre, p, f, g1, g2⟩ := k2 hx
      exact ⟨p1 ++ pre, p, f, by rw [e, g1, List.append_assoc], g2⟩
  send v c := by
    have hs : ∀ ws (c' : Conn σ), c' = { c with world := (W.onSend c.world ws).st, segs := c.segs ++ (W.onSend c.world ws).segs, fin := (W.onSend c.world ws).fin, trace := c.trace ++ [.sent ws] } →
        Took env W ver c false c' := by
      rintro ws c' rfl hv
      exact ⟨hv, [.sent ws], rfl, by simp [sents, feed], ⟨[], by simp [sents, feed]⟩, by simp⟩
    have hr : Took env W ver c false c := Took.same env W rfl rfl rfl ⟨[], rfl⟩
    unfold sendMessage writeAll
    dsimp only
    split
    · split <;> exact hr
    · split
      · exact hr
      · split
        · split <;> exact hs _ _ rfl
        · exact hs _ _ rfl
  recv c := by
    unfold receive
    split
    · exact Took.same env W rfl rfl rfl ⟨[], rfl⟩
    · split
      · rename_i e s h
        exact Took.same env W rfl rfl rfl ⟨c.segs.flatten, by show _ = _ ++ s.flatten; rw [readMsg_err h]; simp⟩
      · rename_i b s h
        obtain ⟨f, hf, hs⟩ := readMsg_ok h
        split
        · intro hv
          exact ⟨hv, [.recv _], rfl, by simp [sents, feed], ⟨f, by simpa [sents, feed] using hs⟩, by simp [CRes.panicked]⟩
        · exact Took.same env W rfl rfl rfl ⟨f, hs⟩
        · rename_i hd
          intro hv
          rw [hv] at hd
          exact ⟨hv, [], by simp, by simp [sents, feed], ⟨f, by simpa [sents, feed] using hs⟩, fun _ => ⟨[], b, f, by simpa [sents, feed] using hs, hf, hd, ((decodeF_panic env ver _) b).1 hd⟩⟩
        · exact Took.same env W rfl rfl rfl ⟨f, hs⟩
  endTx h c := Took.same env W rfl rfl rfl ⟨[], rfl⟩
  sock c := by
    unfold closeSock
    dsimp only
    split <;> exact fun hv => ⟨hv, [.closed], rfl, by simp [sents, feed], ⟨[], by simp [sents, feed]⟩, by simp [CRes.panicked]⟩
  probe c := by
    unfold validateOpen
    split
    · exact Took.same env W rfl rfl rfl ⟨[], rfl⟩
    · split
      · exact Took.same env W rfl rfl rfl ⟨[], rfl⟩
      · exact Took.same env W rfl rfl rfl ⟨[], rfl⟩
      · split
        · rename_i h
          exact Took.same env W rfl rfl rfl ⟨_, (readOnce_some (by decide) h).2.2.symm⟩
        · exact Took.same env W rfl rfl rfl ⟨[], rfl⟩
  chunk n c := Took.same env W rfl rfl rfl ⟨[], rfl⟩
  addTx c := Took.same env W rfl rfl rfl ⟨[], rfl⟩

/-- Everything the server has sent, in a session that began with the network in state `w` and in which the events of `trace` happened. -/
def Spec.arrived (w : σ) (trace : List Ev) : Bytes := (feed W (W.dial w).1 (sents trace)).2

/-- What opening a connection does to the stream from the server. -/
theorem create_took {fuel : Nat} {user password : Bytes} {w : σ} {r : CRes Unit} {c : Conn σ} (h : createBoltConn env W fuel user password w = (r, c)) :
    c.world = (feed W (W.dial w).1 (sents c.trace)).1 ∧ (∃ pre, arrived W w c.trace = pre ++ c.segs.flatten) ∧
      (r.panicked = true → Poisoned env c.proto.codec (arrived W w c.trace) c.segs.flatten) := by
  unfold createBoltConn initConn at h
  rw [CM.bind_apply] at h
  cases hd : (W.dial w).2 with
  | false =>
    have e : createConnection W (Conn.fresh w) = (.err (.plain "dial"), { Conn.fresh w with world := (W.dial w).1 }) := by
      unfold createConnection
      rw [show (Conn.fresh w).world = w from rfl]
      simp [hd]
    rw [e] at h
    cases h
    exact ⟨rfl, ⟨[], rfl⟩, by simp [CRes.panicked]⟩
  | true =>
    have e : createConnection W (Conn.fresh w) = (.ok (), { Conn.fresh w with world := (W.dial w).1, sock := true, closed := false }) := by
      unfold createConnection
      rw [show (Conn.fresh w).world = w from rfl]
      simp [hd]
    rw [e] at h
    dsimp only at h
    -- the handshake
    have hh : ∀ (c : Conn σ), ∃ pre, (handshake W c).2.trace = c.trace ++ [.sent [handShake]] ∧ (handshake W c).2.world = (W.onSend c.world [handShake]).st ∧
        c.segs.flatten ++ (W.onSend c.world [handShake]).segs.flatten = pre ++ (handshake W c).2.segs.flatten ∧ (handshake W c).1.panicked = false := by
      intro c
      unfold handshake
      dsimp only
      split
      · exact ⟨[], rfl, rfl, by simp, rfl⟩
      · split
        · rename_i hn
          exact ⟨_, rfl, rfl, by simp; rfl, rfl⟩
        · rename_i hv
          have := (readOnce_some (by decide) hv).2.2
          rw [List.flatten_append] at this
          split
          · exact ⟨_, rfl, rfl, this.symm, rfl⟩
          · split
            · exact ⟨_, rfl, rfl, this.symm, rfl⟩
            · exact ⟨_, rfl, rfl, this.symm, rfl⟩
    obtain ⟨pre, t1, w1, s1, n1⟩ := hh { Conn.fresh w with world := (W.dial w).1, sock := true, closed := false }
    have hfail : ∀ c1 : Conn σ, c1 = (handshake W { Conn.fresh w with world := (W.dial w).1, sock := true, closed := false }).2 →
        c1.world = (feed W (W.dial w).1 (sents c1.trace)).1 ∧ (∃ pre, arrived W w c1.trace = pre ++ c1.segs.flatten) := by
      rintro c1 rfl
      rw [t1, w1]
      exact ⟨rfl, pre, by rw [← s1]; simp [arrived, sents, feed, Conn.fresh]⟩
    rw [CM.bind_apply] at h
    unfold CM.mapErr at h
    cases hs : handshake W { Conn.fresh w with world := (W.dial w).1, sock := true, closed := false } with
    | mk r1 c1 =>
      rw [hs] at h n1 hfail
      obtain ⟨f1, f2⟩ := hfail c1 rfl
      cases r1 with
      | panic => simp [CRes.panicked] at n1
      | err e => cases h; exact ⟨f1, f2, by simp [CRes.panicked]⟩
      | fuel => cases h; exact ⟨f1, f2, by simp [CRes.panicked]⟩
      | ok v =>
        dsimp only at h
        rcases hp : getProtocol v with ⟨_ | p, version, _ | x⟩ <;> rw [hp] at h <;> dsimp only at h
        · cases h; exact ⟨f1, f2, by simp [CRes.panicked]⟩
        · cases h; exact ⟨f1, f2, by simp [CRes.panicked]⟩
        all_goals
          have h2 : sendInit env W fuel (p.initMessage clientID (buildAuthTokenBasic user password)) { c1 with proto := p, version := version, versionBytes := v } = (r, c) := h
          have hr := congrArg Prod.fst h2
          have hc := congrArg Prod.snd h2
          dsimp only at hr hc
          have := (took env W p.codec).sendInit env W fuel (p.initMessage clientID (buildAuthTokenBasic user password)) { c1 with proto := p, version := version, versionBytes := v } rfl
          rw [hr, hc] at this
          obtain ⟨v1, evs, g1, g2, ⟨pre2, g3⟩, g4⟩ := this
          obtain ⟨pre1, f2⟩ := f2
          dsimp only at g1 g2 g3 g4
          have e : arrived W w (c1.trace ++ evs) = pre1 ++ (c1.segs.flatten ++ (feed W c1.world (sents evs)).2) := by
            unfold arrived at f2 ⊢
            rw [sents_append, feed_append, f2, ← f1, List.append_assoc]
          rw [g1]
          refine ⟨?_, ⟨pre1 ++ pre2, by rw [e, g3, List.append_assoc]⟩, fun hx => ?_⟩
          · rw [sents_append, feed_append, g2, f1]
          · obtain ⟨pre, q, f, k1, k2⟩ := g4 hx
            rw [v1]
            exact ⟨pre1 ++ pre, q, f, by rw [e, k1, List.append_assoc], k2⟩

theorem Took.calm {ver : Ver} {c c' : Conn σ} {b : Bool} (h : Took env W ver c b c') : Took env W ver c false c' := by
  intro hv
  obtain ⟨h1, evs, h2, h3, h4, -⟩ := h hv
  exact ⟨h1, evs, h2, h3, h4, by simp⟩

theorem run_took (ver : Ver) (fuel : Nat) : (ops : List Op) → (c : Conn σ) → Took env W ver c false (run env W fuel ops c)
  | [], c => (took env W ver).refl c
  | op :: ops, c => (took env W ver).trans ((took env W ver).step env W fuel op c).calm (run_took ver fuel ops _)

/-- Opening a connection panics only because of a malformed message from the server. -/
theorem C117_connect (fuel : Nat) (user password : Bytes) (w : σ) (c : Conn σ) (h : createBoltConn env W fuel user password w = (.panic, c)) :
    Poisoned env c.proto.codec (arrived W w c.trace) c.segs.flatten :=
  (create_took env W h).2.2 rfl

/-- A call on a connection panics only because of a malformed message from the server: whatever calls with whatever arguments were made before. -/
theorem C117 (fuel : Nat) (user password : Bytes) (w : σ) (c0 c c' : Conn σ) (ops : List Op) (op : Op)
    (h0 : createBoltConn env W fuel user password w = (.ok (), c0)) (h1 : run env W fuel ops c0 = c) (h2 : step env W fuel op c = (.panic, c')) :
    Poisoned env c'.proto.codec (arrived W w c'.trace) c'.segs.flatten := by
  obtain ⟨f1, ⟨pre1, f2⟩, -⟩ := create_took env W h0
  have t : Took env W c0.proto.codec c0 true c' := by
    have h3 := (took env W c0.proto.codec).step env W fuel op c
    rw [h2] at h3
    have h4 := run_took env W c0.proto.codec fuel ops c0
    rw [h1] at h4
    exact (took env W _).trans h4 h3
  obtain ⟨v1, evs, g1, g2, -, g4⟩ := t rfl
  obtain ⟨pre, q, f, k1, k2⟩ := g4 rfl
  rw [v1, g1]
  refine ⟨pre1 ++ pre, q, f, ?_, k2⟩
  unfold arrived at f2 ⊢
  rw [sents_append, feed_append, f2, ← f1, List.append_assoc, k1, List.append_assoc]

/-- On a connection to a server none of whose messages is hazardous no call panics. -/
theorem C117_safe (fuel : Nat) (user password : Bytes) (w : σ) (c0 : Conn σ) (ops : List Op) (op : Op)
    (hW : ∀ evs pre p f post, arrived W w evs = pre ++ (f ++ post) → Framed p f → ¬ Hazard p)
    (h0 : createBoltConn env W fuel user password w = (.ok (), c0)) : (step env W fuel op (run env W fuel ops c0)).1.panicked = false := by
  cases hs : step env W fuel op (run env W fuel ops c0) with
  | mk r c' =>
    cases r with
    | panic =>
      obtain ⟨pre, p, f, k1, k2, -, k3⟩ := C117 env W fuel user password w c0 _ c' ops op h0 rfl hs
      exact absurd k3 (hW c'.trace pre p f _ k1 k2)
    | ok a => rfl
    | err e => rfl
    | fuel => rfl

end

/-- Bytes that occur in every hazardous message. -/
def C117.suspects : Bytes := [0xD0, 0xD1, 0xD2, 0xD4, 0xD5, 0xD6, 0x4E, 0x50, 0x52, 0x72]

theorem C117.harmless {b : Bytes} (h : ∀ x ∈ b, x ∉ suspects) : ¬ Hazard b := by
  rintro ⟨pre, post, rfl, ⟨m, k, lb, rest, hm, rfl, _, _⟩ | ⟨hd, sig, rest, rfl, _, hs⟩⟩
  · refine h m (by simp) ?_
    simp only [strMarkers, listMarkers, List.cons_append, List.nil_append, List.mem_cons, Prod.mk.injEq, List.not_mem_nil, or_false] at hm
    rcases hm with ⟨rfl, _⟩ | ⟨rfl, _⟩ | ⟨rfl, _⟩ | ⟨rfl, _⟩ | ⟨rfl, _⟩ | ⟨rfl, _⟩ <;> decide
  · refine h sig (by simp) ?_
    rcases hs with ⟨hs, -⟩ | ⟨rfl, -⟩ | ⟨rfl, -⟩
    · simp only [List.mem_cons, List.not_mem_nil, or_false] at hs
      rcases hs with rfl | rfl <;> decide
    · decide
    · decide

theorem C117.framed_mem {p f : Bytes} (h : Framed p f) {x : UInt8} (hx : x ∈ p) : x ∈ f := by
  obtain ⟨cks, -, rfl, rfl⟩ := h
  obtain ⟨ck, h1, h2⟩ := List.mem_flatten.mp hx
  unfold frame
  refine List.mem_append_left _ (List.mem_flatten.mpr ⟨chunk ck, List.mem_map_of_mem h1, ?_⟩)
  unfold chunk
  simp [h2]

theorem C117.scripted_mem : (wss : List (List Bytes)) → (w : List (List Bytes)) → ∀ x ∈ (feed scripted w wss).2, x ∈ w.flatten.flatten
  | [], w, x, h => by simp [feed] at h
  | ws :: wss, [], x, h => by
    simp only [feed, scripted, List.flatten_nil, List.nil_append] at h
    simpa using scripted_mem wss [] x h
  | ws :: wss, r :: rs, x, h => by
    have h : x ∈ r.flatten ++ (feed scripted rs wss).2 := h
    rw [List.mem_append] at h
    rw [List.flatten_cons, List.flatten_append, List.mem_append]
    rcases h with h | h
    · exact .inl h
    · exact .inr (scripted_mem wss rs x h)

/-- A server that answers a query with one row sends nothing that makes a call panic. -/
example : let script := sOpen4 ++ [[], sSuccess ++ sOneRow]
    (opened script).1.kind = 0 ∧ ∀ evs pre p f post, arrived scripted script evs = pre ++ (f ++ post) → Framed p f → ¬ Hazard p := by
  refine ⟨by decide +kernel, fun evs pre p f post h hf => C117.harmless fun x hx => ?_⟩
  have h1 : x ∈ arrived scripted (sOpen4 ++ [[], sSuccess ++ sOneRow]) evs := by
    rw [h]; simp [C117.framed_mem hf hx]
  have h2 := C117.scripted_mem _ _ x h1
  exact (by decide : ∀ x ∈ (sOpen4 ++ [[], sSuccess ++ sOneRow]).flatten.flatten, x ∉ C117.suspects) x h2

/-- A server that announces a string of 128 bytes in its answer to a query makes the call panic; the connection worked before. -/
example : let script := sOpen4 ++ [[], sSuccess ++ sOneRow, [], [[0x00, 0x02, 0xD0, 0x80, 0x00, 0x00]]]
    (opened script).1.kind = 0 ∧ (step env0 scripted 3 (.query (ascii "RETURN 1") [] []) (opened script).2).1.kind = 0 ∧
    (step env0 scripted 3 (.query (ascii "RETURN 1") [] []) (run env0 scripted 3 [.query (ascii "RETURN 1") [] []] (opened script).2)).1.kind = 2 := by decide +kernel

/-- A node whose id is null, in the answer to the authentication, makes opening the connection panic. -/
example : (opened [[[0x00, 0x00, 0x00, 0x04]], [[0x00, 0x03, 0xB3, 0x4E, 0xC0, 0x00, 0x00]]]).1.kind = 2 := by decide +kernel

end Verif

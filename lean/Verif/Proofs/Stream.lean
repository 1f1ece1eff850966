/-
Reading the answers of a request from the stream.
-/
import Verif.Proofs.Exchange
import Verif.Proofs.DecodeEnc
namespace Verif
open Spec

/-- Values the decoder produces for the answers of a server. -/
def successV (md : Entries) : Val := .struct .success [.map md]
def failureV (md : Entries) : Val := .struct .failure [.map md]
def recordV (fs : List Val) : Val := .struct .record [.list true fs]

section
variable {σ : Type} (env : Env) (W : World σ)

/-- The stream `s` starts with messages, framed in any way, that are encodings of the trees `ts`, followed by `rest`. -/
def Answers : List PS → Bytes → Bytes → Prop
  | [], s, rest => s = rest
  | t :: ts, s, rest => ∃ p f s', s = f ++ s' ∧ Framed p f ∧ Spec.Enc signed t p ∧ Answers ts s' rest

/-- The trees `ts` mean the values `vs`. -/
def Means (ver : Ver) : List PS → List Val → Prop
  | [], [] => True
  | t :: ts, v :: vs => interp env ver t = some v ∧ Means ver ts vs
  | _, _ => False

theorem Means.append {ver : Ver} : {ts us : List PS} → {vs ws : List Val} → Means env ver ts vs → Means env ver us ws →
    Means env ver (ts ++ us) (vs ++ ws)
  | [], _, [], _, _, h => h
  | _ :: _, _, _ :: _, _, ⟨h1, h2⟩, h => ⟨h1, Means.append h2 h⟩

theorem Answers.reads {ver : Ver} : {ts : List PS} → {vs : List Val} → {s rest : Bytes} → Answers ts s rest → Means env ver ts vs →
    Reads env ver vs s rest
  | [], [], _, _, h, _ => h
  | t :: _, v :: _, _, _, ⟨p, f, s', h1, h2, h3, h4⟩, ⟨h5, h6⟩ => by
    refine ⟨p, f, s', [], h1, h2, ?_, Answers.reads h4 h6⟩
    have := decode_enc env ver h5 h3 []
    rwa [List.append_nil] at this

theorem framed_length {p f : Bytes} (h : Framed p f) : 2 ≤ f.length := by
  obtain ⟨cks, _, _, rfl⟩ := h
  simp [frame]

theorem Reads.length {ver : Ver} : {vs : List Val} → {s rest : Bytes} → Reads env ver vs s rest → 2 * vs.length + rest.length ≤ s.length
  | [], _, _, h => by cases h; simp
  | _ :: vs, _, _, ⟨p, f, s', r, h1, h2, h3, h4⟩ => by
    have := Reads.length h4
    have := framed_length h2
    rw [h1]
    simp only [List.length_cons, List.length_append]
    omega

/-- The state after the messages `vs` were read. -/
def Conn.got (c : Conn σ) (vs : List Val) (segs : List Bytes) : Conn σ := { c with segs := segs, trace := c.trace ++ vs.map .recv }

theorem got_nil (c : Conn σ) : c.got [] c.segs = c := by simp [Conn.got]

theorem got_got (c : Conn σ) (vs ws : List Val) (s s' : List Bytes) : (c.got vs s).got ws s' = c.got (vs ++ ws) s' := by simp [Conn.got]

theorem receive_reads {c : Conn σ} {v : Val} {vs : List Val} {rest : Bytes} (hs : c.sock = true)
    (h : Reads env c.proto.codec (v :: vs) c.segs.flatten rest) :
    ∃ segs', receive env c = (.ok v, c.got [v] segs') ∧ Reads env c.proto.codec vs segs'.flatten rest := by
  obtain ⟨p, f, s', r, h1, h2, h3, h4⟩ := h
  obtain ⟨segs', g1, g2⟩ := receive_next env hs (c := c) ⟨p, f, r, h1, h2, h3⟩
  exact ⟨segs', g2, by rw [g1]; exact h4⟩

theorem consume_reads {reset : CM σ Unit} {c : Conn σ} {v : Val} {vs : List Val} {rest : Bytes} (hs : c.sock = true) (hf : asFailure v = none)
    (h : Reads env c.proto.codec (v :: vs) c.segs.flatten rest) :
    ∃ segs', consumeWith env reset c = (.ok v, c.got [v] segs') ∧ Reads env c.proto.codec vs segs'.flatten rest := by
  obtain ⟨segs', g1, g2⟩ := receive_reads env hs h
  refine ⟨segs', ?_, g2⟩
  unfold consumeWith
  rw [CM.bind_ok g1, hf]
  rfl

/-- FAILURE: the answer is read, then the session is reset. -/
theorem consume_failure {reset : CM σ Unit} {c : Conn σ} {md : Entries} {vs : List Val} {rest : Bytes} (hs : c.sock = true)
    (h : Reads env c.proto.codec (failureV md :: vs) c.segs.flatten rest) :
    ∃ segs', Reads env c.proto.codec vs segs'.flatten rest ∧
      consumeWith env reset c = CM.bind (CM.mapErr (fun _ => (GoErr.failure md).wrap "reset failed") reset)
        (fun _ => CM.fail ((GoErr.failure md).wrap "Neo4J reported a failure for the runQuery")) (c.got [failureV md] segs') := by
  obtain ⟨segs', g1, g2⟩ := receive_reads env hs h
  refine ⟨segs', g2, ?_⟩
  unfold consumeWith
  rw [CM.bind_ok g1]
  rfl

/-- Reading rows up to the final SUCCESS. -/
theorem rowsLoop_reads {reset : CM σ Unit} : (rows : List (List Val)) → (n : Nat) → (out : List (List Val)) → (c : Conn σ) → (md : Entries) → (vs : List Val) →
    (rest : Bytes) → c.sock = true → rows.length < n → Reads env c.proto.codec (rows.map recordV ++ successV md :: vs) c.segs.flatten rest →
    ∃ segs', rowsLoop (consumeWith env reset) n out c = (.ok (out ++ rows, md), c.got (rows.map recordV ++ [successV md]) segs') ∧
      Reads env c.proto.codec vs segs'.flatten rest
  | [], n + 1, out, c, md, vs, rest, hs, _, h => by
    obtain ⟨segs', g1, g2⟩ := consume_reads env (reset := reset) hs (by rfl) h
    refine ⟨segs', ?_, g2⟩
    unfold rowsLoop
    rw [CM.bind_ok g1]
    simp only [asSuccess, successV]
    rw [List.append_nil]
    rfl
  | r :: rows, n + 1, out, c, md, vs, rest, hs, hn, h => by
    obtain ⟨segs', g1, g2⟩ := consume_reads env (reset := reset) hs (by rfl) h
    obtain ⟨segs'', k1, k2⟩ := rowsLoop_reads rows n (out ++ [r]) (c.got [recordV r] segs') md vs rest hs
      (by simp at hn; omega) g2
    refine ⟨segs'', ?_, k2⟩
    unfold rowsLoop
    rw [CM.bind_ok g1]
    simp only [asSuccess, asRecord, recordV] at k1 ⊢
    rw [k1]
    simp [got_got, recordV]
  | _, 0, _, _, _, _, _, _, hn, _ => absurd hn (Nat.not_lt_zero _)

/-- Rows followed by FAILURE: the call continues with the reset, and fails. -/
theorem rowsLoop_failure {reset : CM σ Unit} : (rows : List (List Val)) → (n : Nat) → (out : List (List Val)) → (c : Conn σ) → (md : Entries) → (vs : List Val) →
    (rest : Bytes) → c.sock = true → rows.length < n → Reads env c.proto.codec (rows.map recordV ++ failureV md :: vs) c.segs.flatten rest →
    ∃ segs', Reads env c.proto.codec vs segs'.flatten rest ∧
      rowsLoop (consumeWith env reset) n out c = CM.bind (CM.mapErr (fun _ => (GoErr.failure md).wrap "reset failed") reset)
        (fun _ => CM.fail ((GoErr.failure md).wrap "Neo4J reported a failure for the runQuery")) (c.got (rows.map recordV ++ [failureV md]) segs')
  | [], n + 1, out, c, md, vs, rest, hs, _, h => by
    obtain ⟨segs', g1, g2⟩ := consume_failure env (reset := reset) hs h
    refine ⟨segs', g1, ?_⟩
    unfold rowsLoop
    rw [CM.bind_apply, g2]
    simp only [List.map_nil, List.nil_append]
    unfold CM.bind CM.mapErr CM.fail
    match reset (c.got [failureV md] segs') with
    | (.ok _, _) => rfl
    | (.err _, _) => rfl
    | (.panic, _) => rfl
    | (.fuel, _) => rfl
  | r :: rows, n + 1, out, c, md, vs, rest, hs, hn, h => by
    obtain ⟨segs', g1, g2⟩ := consume_reads env (reset := reset) hs (by rfl) h
    obtain ⟨segs'', k1, k2⟩ := rowsLoop_failure rows n (out ++ [r]) (c.got [recordV r] segs') md vs rest hs
      (by simp at hn; omega) g2
    refine ⟨segs'', k1, ?_⟩
    unfold rowsLoop
    rw [CM.bind_ok g1]
    simp only [asSuccess, asRecord, recordV] at k2 ⊢
    rw [k2]
    simp [got_got, recordV]
  | _, 0, _, _, _, _, _, _, hn, _ => absurd hn (Nat.not_lt_zero _)

theorem asSuccess_some {v : Val} {md : Entries} (h : asSuccess v = some md) : v = successV md := by
  unfold asSuccess at h
  split at h
  · cases h; rfl
  · cases h

theorem asFailure_some {v : Val} {md : Entries} (h : asFailure v = some md) : v = failureV md := by
  unfold asFailure at h
  split at h
  · cases h; rfl
  · cases h

/-- What a successful loop has read. -/
theorem rowsLoop_ok {reset : CM σ Unit} {wss : List (List Bytes)} {c0 : Conn σ} : (n : Nat) → (out : List (List Val)) → (c c' : Conn σ) → (rs : List Val) →
    (rows : List (List Val)) → (md : Entries) → c.proto = c0.proto → Exchanged env W c0 c wss rs →
    rowsLoop (consumeWith env reset) n out c = (.ok (rows, md), c') →
    ∃ recs : List Val, ∃ new, recs.map asRecord = new.map some ∧ rows = out ++ new ∧ c'.core = c.core ∧
      Exchanged env W c0 c' wss (rs ++ (recs ++ [successV md]))
  | 0, _, _, _, _, _, _, _, _, h => by cases h
  | n + 1, out, c, c', rs, rows, md, hp, hx, h => by
    unfold rowsLoop at h
    obtain ⟨v, c1, k1, k2⟩ := CM.bind_eq_ok.mp h
    obtain ⟨k3, k4⟩ := consumeWith_ok env k1
    have hx1 := hx.recv env W hp k3
    have hk := receive_core_ok env k3
    cases hs : asSuccess v with
    | some md' =>
      rw [hs] at k2
      replace k2 : (CRes.ok (out, md'), c1) = (CRes.ok (rows, md), c') := k2
      cases k2
      refine ⟨[], [], rfl, by simp, hk, ?_⟩
      rw [asSuccess_some hs] at hx1
      exact hx1
    | none =>
      rw [hs] at k2
      cases hr : asRecord v with
      | none => rw [hr] at k2; cases k2
      | some fs =>
        rw [hr] at k2
        obtain ⟨recs, new, g1, g2, g3, g4⟩ := rowsLoop_ok n (out ++ [fs]) c1 c' (rs ++ [v]) rows md ((congrArg Core.proto hk).trans hp) hx1 k2
        refine ⟨v :: recs, fs :: new, by simp [hr, g1], by simp [g2], g3.trans hk, ?_⟩
        rw [List.append_assoc] at g4
        exact g4

end
end Verif

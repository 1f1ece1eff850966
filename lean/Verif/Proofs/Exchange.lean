/-
Lemmas on `Exchanged`.
-/
import Verif.Spec.Exchange
import Verif.Proofs.ConnEv
namespace Verif
open Spec

section
variable {σ : Type} (env : Env) (W : World σ)

theorem feed_append (w : σ) : (a b : List (List Bytes)) →
    feed W w (a ++ b) = ((feed W (feed W w a).1 b).1, (feed W w a).2 ++ (feed W (feed W w a).1 b).2)
  | [], b => by simp [feed]
  | ws :: a, b => by
    simp only [List.cons_append, feed, feed_append _ a b, List.append_assoc]

theorem Reads.append {ver : Ver} : {vs ws : List Val} → {s t u : Bytes} → Reads env ver vs s t → Reads env ver ws t u → Reads env ver (vs ++ ws) s u
  | [], _, _, _, _, h1, h2 => by cases h1; exact h2
  | _ :: vs, _, _, _, _, ⟨p, f, s', r, h1, h2, h3, h4⟩, h5 => ⟨p, f, s', r, h1, h2, h3, Reads.append h4 h5⟩

theorem Reads.extend {ver : Ver} : {vs : List Val} → {s t : Bytes} → (u : Bytes) → Reads env ver vs s t → Reads env ver vs (s ++ u) (t ++ u)
  | [], _, _, _, h => by cases h; rfl
  | _ :: vs, _, _, u, ⟨p, f, s', r, h1, h2, h3, h4⟩ => ⟨p, f, s' ++ u, r, by rw [h1, List.append_assoc], h2, h3, Reads.extend u h4⟩

theorem Reads.split {ver : Ver} : {vs ws : List Val} → {s u : Bytes} → Reads env ver (vs ++ ws) s u →
    ∃ t, Reads env ver vs s t ∧ Reads env ver ws t u
  | [], _, s, _, h => ⟨s, rfl, h⟩
  | _ :: vs, _, _, _, ⟨p, f, s', r, h1, h2, h3, h4⟩ => by
    obtain ⟨t, g1, g2⟩ := Reads.split h4
    exact ⟨t, ⟨p, f, s', r, h1, h2, h3, g1⟩, g2⟩

theorem Exchanged.nil (c : Conn σ) : Exchanged env W c c [] [] := ⟨by simp, rfl, by simp [Reads, feed]⟩

theorem Exchanged.send {c c1 c2 : Conn σ} {wss : List (List Bytes)} {v : Val} (h : Exchanged env W c c1 wss [])
    (hs : sendMessage env W v c1 = (.ok (), c2)) :
    Exchanged env W c c2 (wss ++ [(encodeMsg env c1.proto.codec c1.chunkSize v).1]) [] := by
  obtain ⟨_, _, _, rfl⟩ := sendMessage_ok env W hs
  refine ⟨by simp [Conn.sent, h.trace], ?_, ?_⟩
  · rw [feed_append]; simp [Conn.sent, feed, h.world]
  · have := h.reads
    simp only [Reads] at this ⊢
    rw [feed_append, ← List.append_assoc, this]
    simp [Conn.sent, feed, h.world]

theorem Exchanged.recv {c c1 c2 : Conn σ} {wss : List (List Bytes)} {rs : List Val} {v : Val} (h : Exchanged env W c c1 wss rs)
    (hp : c1.proto = c.proto) (hr : receive env c1 = (.ok v, c2)) : Exchanged env W c c2 wss (rs ++ [v]) := by
  obtain ⟨_, ⟨p, s, r, h1, h2, h3⟩, h4⟩ := receive_ok env hr
  rw [hp] at h3
  refine ⟨by rw [h4]; simp [h.trace], by rw [h4]; exact h.world, ?_⟩
  exact Reads.append env h.reads ⟨p, s, _, r, h1, h2, h3, rfl⟩

/-- A successful exchange of a transaction message: everything sent was answered with SUCCESS. -/
theorem txExchange_exchanged {reset : CM σ Unit} {msg : Val} {what : String} {c c' : Conn σ}
    (h : txExchange env W (consumeWith env reset) msg what c = (.ok (), c')) :
    ∃ rs, Exchanged env W c c' ((if isTxMsg msg then [msg] else [msg, c.proto.pullAllMessage]).map fun m =>
        (encodeMsg env c.proto.codec c.chunkSize m).1) rs ∧
      rs.length = (if isTxMsg msg then 1 else 2) ∧ (∀ r ∈ rs, ∃ md, r = .struct .success [.map md]) ∧
      (∀ m ∈ (if isTxMsg msg then [msg] else [msg, c.proto.pullAllMessage]), (encodeMsg env c.proto.codec c.chunkSize m).2 = none) := by
  have hsucc : ∀ {v md}, asSuccess v = some md → v = .struct .success [.map md] := by
    intro v md h
    unfold asSuccess at h
    split at h
    · cases h; rfl
    · cases h
  rcases txExchange_ok env W h with ⟨ht, c1, v, md, h1, h2, h3⟩ | ⟨ht, c1, c2, c3, v, md, v', md', h1, h2, h3, h4, h5, h6⟩
  · rw [ht]
    have k1 := sendMessage_core_ok env W h1
    have e1 := (sendMessage_ok env W h1).2.1
    have x := ((Exchanged.nil env W c).send env W h1).recv env W (congrArg Core.proto k1) h2
    refine ⟨[v], x, rfl, ?_, ?_⟩
    · intro r hr; rw [List.mem_singleton] at hr; rw [hr]; exact ⟨md, hsucc h3⟩
    · intro m hm; simp at hm; rw [hm]; exact e1
  · rw [ht]
    have k1 := sendMessage_core_ok env W h1
    have k2 := sendMessage_core_ok env W h2
    have k3 := receive_core_ok env h3
    have e1 := (sendMessage_ok env W h1).2.1
    have e2 := (sendMessage_ok env W h2).2.1
    have p1 : c1.proto = c.proto := congrArg Core.proto k1
    have s1 : c1.chunkSize = c.chunkSize := congrArg Core.chunkSize k1
    have x1 := (Exchanged.nil env W c).send env W h1
    have x2 := x1.send env W h2
    rw [p1, s1] at x2 e2
    have x3 := x2.recv env W (congrArg Core.proto (k2.trans k1)) h3
    have x4 := x3.recv env W (congrArg Core.proto (k3.trans (k2.trans k1))) h5
    refine ⟨[v, v'], x4, rfl, ?_, ?_⟩
    · intro r hr
      simp only [List.mem_cons, List.not_mem_nil, or_false] at hr
      rcases hr with rfl | rfl
      · exact ⟨md, hsucc h4⟩
      · exact ⟨md', hsucc h6⟩
    · intro m hm; simp at hm; rcases hm with rfl | rfl
      · exact e1
      · exact e2

end
end Verif

/-
C104  The protocol version that a session reports is the one the server chose and the one it speaks.
-/
import Verif.Props.C102
namespace Verif
open Spec

namespace C104
section
variable {σ : Type} (env : Env) (W : World σ)

/-- No call changes the version. -/
theorem version_rel : Prim env W (fun (c c' : Conn σ) => c'.proto = c.proto ∧ c'.version = c.version ∧ c'.versionBytes = c.versionBytes) where
  refl c := ⟨rfl, rfl, rfl⟩
  trans h1 h2 := ⟨h2.1.trans h1.1, h2.2.1.trans h1.2.1, h2.2.2.trans h1.2.2⟩
  send v c := by
    unfold sendMessage writeAll
    dsimp only
    split
    · split <;> exact ⟨rfl, rfl, rfl⟩
    · split
      · exact ⟨rfl, rfl, rfl⟩
      · split
        · split <;> exact ⟨rfl, rfl, rfl⟩
        · exact ⟨rfl, rfl, rfl⟩
  recv c := by
    unfold receive
    split
    · exact ⟨rfl, rfl, rfl⟩
    · split
      · exact ⟨rfl, rfl, rfl⟩
      · split <;> exact ⟨rfl, rfl, rfl⟩
  endTx h c := ⟨rfl, rfl, rfl⟩
  sock c := by
    unfold closeSock
    dsimp only
    split <;> exact ⟨rfl, rfl, rfl⟩
  addTx c := ⟨rfl, rfl, rfl⟩
  probe c := by
    unfold validateOpen
    split
    · exact ⟨rfl, rfl, rfl⟩
    · split
      · exact ⟨rfl, rfl, rfl⟩
      · exact ⟨rfl, rfl, rfl⟩
      · split <;> exact ⟨rfl, rfl, rfl⟩
  chunk n c := ⟨rfl, rfl, rfl⟩

end
end C104

section
variable {σ : Type} (env : Env) (W : World σ)

/-- The first four bytes from the server are the version 0, 0, 0, n, with n one of 1 to 4, and in every state of the session GetProtocolVersionBytes returns these bytes,
GetProtocolVersionNumber returns n, and asking changes nothing. -/
theorem C104_reports {fuel : Nat} {user password : Bytes} {w : σ} {c : Conn σ} (h : createBoltConn env W fuel user password w = (.ok (), c)) (fuel' : Nat) (ops : List Op) :
    let c' := run env W fuel' ops c
    ∃ n rest, 1 ≤ n ∧ n ≤ 4 ∧ (firstAnswer W w).segs.flatten = [0, 0, 0, n] ++ rest ∧
      getProtocolVersionNumber c' = (.ok (n.toNat : Int), c') ∧ getProtocolVersionBytes c' = (.ok [0, 0, 0, n], c') ∧ offered n c'.proto := by
  intro c'
  have hd : (W.dial w).2 = true := by
    cases hx : (W.dial w).2 with
    | true => rfl
    | false => obtain ⟨⟨e, he⟩, _⟩ := C28_dial_fails env W fuel user password w hx; rw [h] at he; cases he
  rcases handshake_cases env W fuel user password w hd with ⟨n, p, segs', h1, h2, h3, h4⟩ | ⟨_, ⟨e, he⟩, _⟩
  · have P := C104.version_rel env W
    have hc := P.sendInit env W fuel (p.initMessage clientID (buildAuthTokenBasic user password)) (afterHandshake W w segs' p)
    rw [← h4, h] at hc
    have hr := P.run env W fuel' ops c
    refine ⟨n, segs'.flatten, h1.1, h1.2.1, (readOnce_some (by omega) h3).2.2.symm, ?_, ?_, ?_⟩
    · unfold getProtocolVersionNumber
      rw [show c'.version = p.number from hr.2.1.trans hc.2.1, h1.2.2]
    · unfold getProtocolVersionBytes
      rw [show c'.versionBytes = _ from hr.2.2.trans hc.2.2]
      show (CRes.ok [0, 0, 0, UInt8.ofNat p.number.toNat], c') = _
      rw [← offered_byte h1]
    · rw [show c'.proto = p from hr.1.trans hc.1]
      exact h1
  · rw [h] at he; cases he

/-- Everything the session sends after the handshake is a message of the version it reports. -/
theorem C104_speaks {fuel : Nat} {user password : Bytes} (hu : user.length ≤ 65535) (hpw : password.length ≤ 65535) {w : σ} {c : Conn σ}
    (h : createBoltConn env W fuel user password w = (.ok (), c)) {lo : Nat} (hlo : 8 ≤ lo) (hlo' : lo ≤ 65535) {fuel' : Nat} {ops : List Op}
    (hops : ∀ o ∈ ops, o.Fine env c.proto.codec lo) {ws : List Bytes} (hs : .sent ws ∈ (run env W fuel' ops c).trace) :
    ws = [preamble] ∨ ∃ p : Proto, getProtocolVersionNumber (run env W fuel' ops c) = (.ok p.number, run env W fuel' ops c) ∧
      ∃ t, (C102.Opening p user password t ∨ Recovery p t ∨ ∃ op ∈ ops, MaySend env p op t) ∧ Carries t ws := by
  rcases C102_session env W hu hpw h hlo hlo' ops hops ws hs with rfl | h1
  · exact .inl rfl
  · refine .inr ⟨c.proto, ?_, h1⟩
    obtain ⟨n, rest, _, _, _, g1, _, g2⟩ := C104_reports env W h fuel' ops
    rw [g1, g2.2.2]
    rw [((C104.version_rel env W).run env W fuel' ops c).1]

end

/-- A session with a server that chooses version 4, after a query. -/
example :
    let c := (createBoltConn env0 scripted 3 [] [] (sOpen4 ++ [[], sSuccess ++ sSuccess])).2
    (createBoltConn env0 scripted 3 [] [] (sOpen4 ++ [[], sSuccess ++ sSuccess])).1.kind = 0 ∧
    (run env0 scripted 3 [.query (ascii "RETURN 1") [] []] c).version = 4 ∧ (run env0 scripted 3 [.query (ascii "RETURN 1") [] []] c).versionBytes = [0, 0, 0, 4] ∧
    (run env0 scripted 3 [.query (ascii "RETURN 1") [] []] c).trace.length = 7 := by
  decide +kernel

end Verif

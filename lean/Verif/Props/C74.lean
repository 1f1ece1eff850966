/-
C74  Close says goodbye.
-/
import Verif.Props.C38
import Verif.Proofs.Requests
import Verif.Proofs.ConnEv
namespace Verif
open Spec

section
variable {σ : Type} (env : Env) (W : World σ)

/-- What Close does on the network after the open transaction, if any, has been rolled back: in versions 3 and 4 one GOODBYE message and then the end of the connection,
in versions 1 and 2 (which have no such message) only the latter. -/
def Spec.Parting (p : Proto) (evs : List Ev) : Prop :=
  match p with
  | .v1 | .v2 => evs = [.closed]
  | .v3 | .v4 => ∃ ws, Carries (.struct 0x02 []) ws ∧ evs = [.sent ws, .closed]

theorem makeIdle_ok_core {fuel : Nat} {c c' : Conn σ} (h : makeIdle env W fuel c = (.ok (), c')) :
    c'.proto = c.proto ∧ c'.chunkSize = c.chunkSize ∧ c'.cur = none := by
  rw [makeIdle_eq] at h
  have h0 : endCur (rollbackWith env W (consumeWith env (reset env W fuel))) c = (.ok (), c') := h
  refine ⟨?_, ?_, endCur_ok_cur env W h0⟩
  all_goals
    rw [endCur_apply] at h0
    cases hc : c.cur with
    | none => simp only [hc] at h0; cases h0; rfl
    | some n =>
      simp only [hc, rollbackWith_eq] at h0
      have := (endWith_ok_core env W h0).2
      first | exact congrArg Core.proto this | exact congrArg Core.chunkSize this

/-- C74: a successful Close first does what MakeIdle does (roll back), successfully, and then says goodbye and closes the socket; nothing else. -/
theorem C74_goodbye {fuel : Nat} {c c' : Conn σ} (h1 : 1 ≤ c.chunkSize) (hcs : c.chunkSize ≤ 65535) (h : close env W fuel c = (.ok (), c')) :
    ∃ c1 evs, makeIdle env W fuel c = (.ok (), c1) ∧ Spec.Parting c.proto evs ∧ c'.trace = c1.trace ++ evs ∧ c'.closed = true ∧ c'.sock = false := by
  unfold close at h
  rw [closeWith_apply] at h
  split at h
  · cases h
  · obtain ⟨_, c1, k1, k2⟩ := CM.bind_eq_ok.mp h
    obtain ⟨p1, p2, _⟩ := makeIdle_ok_core env W (show makeIdle env W fuel c = (.ok (), c1) from k1)
    have hsock : ∀ {d d' : Conn σ}, closeSock W d = (.ok (), d') → d'.trace = d.trace ++ [.closed] ∧ d'.closed = true ∧ d'.sock = false := by
      intro d d' hd
      unfold closeSock at hd
      dsimp only at hd
      split at hd
      · cases hd; exact ⟨rfl, rfl, rfl⟩
      · cases hd
    rw [goodbye_apply] at k2
    have hbye : ∀ {d d' : Conn σ}, d.chunkSize = c.chunkSize → (sendMessage env W newGoodbyeMessage >>= fun _ => closeSock W) d = (.ok (), d') →
        ∃ ws, Carries (.struct 0x02 []) ws ∧ d'.trace = d.trace ++ [.sent ws, .closed] ∧ d'.closed = true ∧ d'.sock = false := by
      intro d d' hd hx
      obtain ⟨_, d1, j1, j2⟩ := CM.bind_eq_ok.mp hx
      obtain ⟨_, _, _, rfl⟩ := sendMessage_ok env W j1
      obtain ⟨t1, t2, t3⟩ := hsock j2
      refine ⟨_, carries_goodbye env d.proto.codec (hd ▸ h1) (hd ▸ hcs), ?_, t2, t3⟩
      rw [t1]
      unfold Conn.sent
      simp
    refine ⟨c1, ?_⟩
    cases hp : c.proto with
    | v1 =>
      rw [p1, hp] at k2
      obtain ⟨t1, t2, t3⟩ := hsock k2
      exact ⟨_, k1, rfl, t1, t2, t3⟩
    | v2 =>
      rw [p1, hp] at k2
      obtain ⟨t1, t2, t3⟩ := hsock k2
      exact ⟨_, k1, rfl, t1, t2, t3⟩
    | v3 =>
      rw [p1, hp] at k2
      obtain ⟨ws, t0, t1, t2, t3⟩ := hbye p2 k2
      exact ⟨_, k1, ⟨ws, t0, rfl⟩, t1, t2, t3⟩
    | v4 =>
      rw [p1, hp] at k2
      obtain ⟨ws, t0, t1, t2, t3⟩ := hbye p2 k2
      exact ⟨_, k1, ⟨ws, t0, rfl⟩, t1, t2, t3⟩

/-- Without an open transaction, and if the network accepts what is written and the socket can be closed, Close does succeed. -/
theorem C74_succeeds {fuel : Nat} {c : Conn σ} (hcl : c.closed = false) (hs : c.sock = true) (hcur : c.cur = none)
    (hw : ∀ w ws, (W.onSend w ws).ok = true) (hx : ∀ w, W.onClose w = true) : ∃ c', close env W fuel c = (.ok (), c') := by
  unfold close
  rw [closeWith_apply, if_neg (by simp [hcl])]
  have h0 : endCur (rollback env W fuel) c = (.ok (), c) := by rw [endCur_apply, hcur]
  rw [CM.bind_ok h0, goodbye_apply]
  have hsock : ∀ d : Conn σ, ∃ d', closeSock W d = (.ok (), d') := by
    intro d
    unfold closeSock
    dsimp only
    rw [if_pos (hx _)]
    exact ⟨_, rfl⟩
  have hbye : ∃ d', (sendMessage env W newGoodbyeMessage >>= fun _ => closeSock W) c = (.ok (), d') := by
    have he : (encodeMsg env c.proto.codec c.chunkSize newGoodbyeMessage).2 = none := by
      cases c.proto.codec <;> rfl
    rw [CM.bind_ok (sendMessage_good env W hs he (hw _ _))]
    exact hsock _
  cases hp : c.proto with
  | v1 => exact hsock c
  | v2 => exact hsock c
  | v3 => exact hbye
  | v4 => exact hbye

/-- Closing a version 4 connection and a version 1 connection. -/
example : (close env0 scripted 3 (opened (sOpen4 ++ [sSuccess, sSuccess])).2).1.kind = 0 ∧ (opened (sOpen4 ++ [sSuccess, sSuccess])).2.proto = .v4 ∧
    (close env0 scripted 3 (opened (sOpen4 ++ [sSuccess, sSuccess])).2).2.trace.length = (opened (sOpen4 ++ [sSuccess, sSuccess])).2.trace.length + 2 := by
  decide +kernel
example : (close env0 scripted 3 (opened (sOpen1 ++ [sSuccess, sSuccess])).2).1.kind = 0 ∧ (opened (sOpen1 ++ [sSuccess, sSuccess])).2.proto = .v1 ∧
    (close env0 scripted 3 (opened (sOpen1 ++ [sSuccess, sSuccess])).2).2.trace.length = (opened (sOpen1 ++ [sSuccess, sSuccess])).2.trace.length + 1 := by
  decide +kernel

end
end Verif

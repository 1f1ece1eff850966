/-
C37  Commit reports success only if the server acknowledged it.
-/
import Verif.Proofs.Requests
import Verif.Props.C36
namespace Verif
open Spec

section
variable {σ : Type} (env : Env) (W : World σ)

/-- Between `c` and `c'` the requests `ts` were sent, each as one framed message, and each of them was answered with SUCCESS: the answers are the next
messages in the stream. -/
def Acknowledged (c c' : Conn σ) (ts : List PS) : Prop :=
  ∃ wss rs, Exchanged env W c c' wss rs ∧ wss.length = ts.length ∧ (∀ x ∈ ts.zip wss, Carries x.1 x.2) ∧
    rs.length = ts.length ∧ ∀ r ∈ rs, ∃ md, r = .struct .success [.map md]

theorem acknowledged_one {reset : CM σ Unit} {msg : Val} {what : String} {c c' : Conn σ} {t : PS}
    (h : txExchange env W (consumeWith env reset) msg what c = (.ok (), c')) (hm : isTxMsg msg = true)
    (ht : Carries t (encodeMsg env c.proto.codec c.chunkSize msg).1) : Acknowledged env W c c' [t] := by
  obtain ⟨rs, h1, h2, h3, h4⟩ := txExchange_exchanged env W h
  rw [hm] at h1 h2
  refine ⟨_, rs, h1, rfl, ?_, h2, h3⟩
  intro x hx
  simp at hx
  subst hx
  exact ht

theorem acknowledged_two {reset : CM σ Unit} {msg : Val} {what : String} {c c' : Conn σ} {t t' : PS}
    (h : txExchange env W (consumeWith env reset) msg what c = (.ok (), c')) (hm : isTxMsg msg = false)
    (ht : Carries t (encodeMsg env c.proto.codec c.chunkSize msg).1)
    (ht' : Carries t' (encodeMsg env c.proto.codec c.chunkSize c.proto.pullAllMessage).1) : Acknowledged env W c c' [t, t'] := by
  obtain ⟨rs, h1, h2, h3, h4⟩ := txExchange_exchanged env W h
  rw [hm] at h1 h2
  refine ⟨_, rs, h1, rfl, ?_, h2, h3⟩
  intro x hx
  simp at hx
  rcases hx with rfl | rfl
  · exact ht
  · exact ht'

/-- `endTx` is invisible on the network. -/
theorem Acknowledged.endTx {c c' : Conn σ} {ts : List PS} (h : Acknowledged env W c c' ts) (n : Nat) : Acknowledged env W c (c'.endTx n) ts := by
  obtain ⟨wss, rs, h1, h2⟩ := h
  exact ⟨wss, rs, ⟨h1.trace, h1.world, h1.reads⟩, h2⟩

/-- For every server and network, version and state: `Commit` returns nil only if the handle was open, exactly the commit requests were sent, and the
next messages in the stream were SUCCESS, one for each; then the handle is closed and the connection has no transaction.  Missing from the full
statement: that the messages that were read are the answers to these requests.  They are not if answers to earlier requests come late
(`C37_refuted` in C111); they are if no call failed for that reason (`C111_success_partial`). -/
theorem C37_commit_partial {fuel h : Nat} {c c' : Conn σ} (hcs : 1 ≤ c.chunkSize) (hcs' : c.chunkSize ≤ 65535)
    (hok : commit env W fuel h c = (.ok (), c')) :
    c.isOpen h ∧ Acknowledged env W c c' (commitTrees c.proto) ∧ ¬ c'.isOpen h ∧ c'.cur = none := by
  obtain ⟨h1, c1, h2, rfl⟩ := endWith_ok env W (show endWith env W _ _ _ h c = _ from hok)
  have ho := txClosed_false.mp h1
  have hk := txExchange_ok_core env W h2
  refine ⟨ho, Acknowledged.endTx env W ?_ h, ?_, rfl⟩
  · unfold commitTrees endTxTrees
    cases hp : c.proto <;> rw [hp] at h2
    · exact acknowledged_two env W h2 rfl (by rw [hp]; exact carries_runVerb env _ hcs hcs' _ (by simp)) (by
        rw [hp]; exact carries_pullAll env _ hcs hcs')
    · exact acknowledged_two env W h2 rfl (by rw [hp]; exact carries_runVerb env _ hcs hcs' _ (by simp)) (by
        rw [hp]; exact carries_pullAll env _ hcs hcs')
    · exact acknowledged_one env W h2 rfl (by rw [hp]; exact carries_commit env _ hcs hcs')
    · exact acknowledged_one env W h2 rfl (by rw [hp]; exact carries_commit env _ hcs hcs')
  · rw [Conn.isOpen]
    show (c1.txs.set h true)[h]? ≠ some false
    rw [List.getElem?_set]
    simp only [if_true]
    split <;> simp

/-- The same for `Rollback`. -/
theorem C37_rollback_partial {fuel h : Nat} {c c' : Conn σ} (hcs : 1 ≤ c.chunkSize) (hcs' : c.chunkSize ≤ 65535)
    (hok : rollback env W fuel h c = (.ok (), c')) :
    c.isOpen h ∧ Acknowledged env W c c' (rollbackTrees c.proto) ∧ ¬ c'.isOpen h ∧ c'.cur = none := by
  obtain ⟨h1, c1, h2, rfl⟩ := endWith_ok env W (show endWith env W _ _ _ h c = _ from hok)
  have ho := txClosed_false.mp h1
  have hk := txExchange_ok_core env W h2
  refine ⟨ho, Acknowledged.endTx env W ?_ h, ?_, rfl⟩
  · unfold rollbackTrees endTxTrees
    cases hp : c.proto <;> rw [hp] at h2
    · exact acknowledged_two env W h2 rfl (by rw [hp]; exact carries_runVerb env _ hcs hcs' _ (by simp)) (by
        rw [hp]; exact carries_pullAll env _ hcs hcs')
    · exact acknowledged_two env W h2 rfl (by rw [hp]; exact carries_runVerb env _ hcs hcs' _ (by simp)) (by
        rw [hp]; exact carries_pullAll env _ hcs hcs')
    · exact acknowledged_one env W h2 rfl (by rw [hp]; exact carries_rollback env _ hcs hcs')
    · exact acknowledged_one env W h2 rfl (by rw [hp]; exact carries_rollback env _ hcs hcs')
  · rw [Conn.isOpen]
    show (c1.txs.set h true)[h]? ≠ some false
    rw [List.getElem?_set]
    simp only [if_true]
    split <;> simp

/-- `Begin` returns a handle only if the server answered the begin requests (which name the database in versions 3 and 4) with SUCCESS. -/
theorem C37_begin_partial {fuel h : Nat} {db : Bytes} {c c' : Conn σ} (h8 : 8 ≤ c.chunkSize) (hcs' : c.chunkSize ≤ 65535) (hdb : db.length ≤ c.chunkSize)
    (hok : beginWithDatabase env W fuel db c = (.ok h, c')) :
    c.cur = none ∧ c.closed = false ∧ Acknowledged env W c c' (beginTrees c.proto db c.mode) := by
  rw [begin_apply] at hok
  split at hok
  · cases hok
  · rename_i h1
    split at hok
    · cases hok
    · rename_i h2
      obtain ⟨_, c1, h3, h4⟩ := CM.bind_eq_ok.mp hok
      have ha : Acknowledged env W c c1 (beginTrees c.proto db c.mode) := by
        unfold beginTrees
        cases hp : c.proto <;> rw [hp] at h3
        · exact acknowledged_two env W h3 rfl (by rw [hp]; exact carries_runVerb env _ (by omega) hcs' _ (by simp)) (by
            rw [hp]; exact carries_pullAll env _ (by omega) hcs')
        · exact acknowledged_two env W h3 rfl (by rw [hp]; exact carries_runVerb env _ (by omega) hcs' _ (by simp)) (by
            rw [hp]; exact carries_pullAll env _ (by omega) hcs')
        · exact acknowledged_one env W h3 rfl (by rw [hp]; exact carries_begin env _ h8 hcs' db c.mode hdb)
        · exact acknowledged_one env W h3 rfl (by rw [hp]; exact carries_begin env _ h8 hcs' db c.mode hdb)
      unfold addTx at h4
      cases h4
      obtain ⟨wss, rs, x1, x2⟩ := ha
      refine ⟨by cases hc : c.cur <;> simp_all, by simpa using h2, wss, rs, ⟨x1.trace, x1.world, x1.reads⟩, x2⟩

/-- `Commit` and `Rollback` on a handle that is not open fail and change nothing (in particular nothing is sent). -/
theorem C37_closed_handle (fuel h : Nat) (c : Conn σ) (hc : ¬ c.isOpen h) :
    commit env W fuel h c = (.err (.new "Transaction already closed"), c) ∧
    rollback env W fuel h c = (.err (.new "Transaction already closed"), c) := by
  have hcl : c.txClosed h = true := by
    cases hx : c.txClosed h with
    | true => rfl
    | false => exact absurd (txClosed_false.mp hx) hc
  constructor
  · show endWith env W _ _ _ h c = _
    rw [endWith_apply, hcl]; rfl
  · show endWith env W _ _ _ h c = _
    rw [endWith_apply, hcl]; rfl

end

/-- A commit that succeeds, in version 4 and in version 1. -/
example : (commit env0 scripted 3 0 (run env0 scripted 3 [.begin_ []] (opened (sOpen4 ++ [sSuccess, sSuccess])).2)).1.kind = 0 := by decide +kernel
example : (commit env0 scripted 3 0 (run env0 scripted 3 [.begin_ []]
    (opened (sOpen1 ++ [sSuccess, sSuccess, sSuccess, sSuccess])).2)).1.kind = 0 := by decide +kernel
/-- A commit that the server ignores fails. -/
example : (commit env0 scripted 3 0 (run env0 scripted 3 [.begin_ []] (opened (sOpen4 ++ [sSuccess, sIgnored])).2)).1.kind = 1 := by decide +kernel

end Verif

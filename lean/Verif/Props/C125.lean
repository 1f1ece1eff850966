/-
C125  The routing pool over a network on which connections are lost.
-/
import Verif.Props.C120
import Verif.Props.C122
namespace Verif
open Spec

/-- A lost connection is still one with the same server. -/
theorem placed_lossy {σ : Type} {W : World σ} {net : Net σ} {place : σ → Endpoint} (h : Placed W net place) (fate : Nat → Nat × Loss) :
    Placed (lossy W) (lossyNet net fate) (fun w => place w.now) where
  reached n e := h.reached n e
  dialled w := h.dialled w.now
  sent w ws := by
    obtain ⟨now, line, how⟩ := w
    cases line with
    | up n =>
      cases n with
      | zero =>
        show place (if how.arrives = true then _ else _) = _
        split
        · exact h.sent _ _
        · rfl
      | succ n => exact h.sent _ _
    | down k => rfl

section
variable {σ : Type} {env : Env} {W : World σ} {place : σ → Endpoint} {sess : σ → Session} {D : Database} {semi : Bool} {fuel : Nat} {net : Net σ} {fate : Nat → Nat × Loss} {ids : Nat → Bytes}
  {lo : Nat} (hT : TServes D W sess) (hD : Durable W sess) (hP : Placed W net place) (hlo : 28 ≤ lo) (hlo' : lo ≤ 65535) (hU : ∀ ver, Understood env ver W)
  {connStr user tls : Bytes} {size : Int} {pool : RPool (Live (Lossy σ))}
  (ho : openRoutingPool (liveWorld env (lossy W) semi (fuel + 1) (lossyNet net fate) ids) connStr size user tls ⟨fun _ => none, 0, 0⟩ = .ok (.ok (), pool))
  {ms : List LMove} (hms : OrderlyUse env lo ms) (hc : Considerate env (lossy W) semi (fuel + 1) (lossyNet net fate) ids (PSys.fresh pool) ms)
  {s : PSys (Live (Lossy σ))} (hs : s = (PSys.fresh pool).lives env (lossy W) semi (fuel + 1) (lossyNet net fate) ids ms) (hid : IdsDiffer s.pool.log)
  (hmod : ∀ str, MadeWith s.pool.log str → Modest semi str)
include hT hD hP hlo hlo' hU ho hms hc hs hid hmod

/-- A connection that is lent is lost, or agrees with the account of a new user. -/
theorem routing_renewed {m : LMove} {write : Bool} {r : ConnRef} (hl : LendsFor env (lossy W) semi (fuel + 1) (lossyNet net fate) ids s m write r) :
    ∃ d str, s.pool.world.conns r.ref = some d ∧ .created r.ref r.id str write ∈ s.pool.log ∧ LeadsTo semi net str (place d.world.now) ∧ Renewed env W sess lo d := by
  have hk := endures_keeps env hT hD fuel net fate (lo := lo) (by omega) hlo' hU
  have hg : LiveGood semi (Endures env W sess lo) (fun w => place w.now) (lossyNet net fate) s.pool := by
    rw [hs]
    exact lives_good fuel ids hk (placed_lossy hP fate) hlo hlo' ms hms (open_good fuel ids hk (placed_lossy hP fate) hlo hlo' ho) fun _ h => absurd h List.not_mem_nil
  obtain ⟨d, str, hcn, hi, hcur, hcr⟩ := routing_lent ⟨connStr, size, user, tls, pool, ho, rfl, hs⟩ hc hid hl
  obtain ⟨d', hcn', hle⟩ := hg.placed _ _ _ _ hcr
  cases hcn.symm.trans hcn'
  refine ⟨d, str, hcn, hcr, hle, (hg.tallied hmod _ d hcn).renewed env fun h hx => ?_⟩
  have := (hi.open_iff h).mp hx
  rw [show Core.cur _ = none from hcur] at this
  cases this

/-- **C125**: connections can be lost at any moment, each at its own and in its own manner.  A connection that the routing pool lends for writing (or for reading) has no open
transaction and belongs to a server that was reported as the leader (or as another member) before the connection was made; if it works, nothing is open or unread at
the server either.  Whatever its new user does with it, the server then has what it had, together with what the calls of that user mean, and with the effect of the one
call in which the connection was lost, or nothing of it; if it still works, exactly the transaction and the statements of the account. -/
theorem C125 (hr : NoRestart ms) {m : LMove} {write : Bool} {r : ConnRef} (hl : LendsFor env (lossy W) semi (fuel + 1) (lossyNet net fate) ids s m write r) :
    ∃ d, s.pool.world.conns r.ref = some d ∧ (∃ str, MadeForMember s.pool.log user tls r write str ∧ LeadsTo semi net str (place d.world.now)) ∧ (∀ h, ¬ d.isOpen h) ∧
      (Working sess d → (sess d.world.now).phase = .ready ∧ (sess d.world.now).ledger.tx = none ∧ d.segs.flatten = []) ∧
      ∀ ops, (∀ op ∈ ops, op.Fine env d.proto.codec lo) → PlainCall ops →
        let f := fieldsOf env d.proto d.mode
        let at_ := fun os => run env (lossy W) (fuel + 1) os d
        let said := fun os => account env (lossy W) f (fuel + 1) os (.next d.txs.length) d
        (∃ doubt, (sess (at_ ops).world.now).ledger.lasting = (sess d.world.now).ledger.lasting ++ (said ops).lasting ++ doubt ∧
          (doubt ≠ [] → ∃ before op after, ops = before ++ op :: after ∧ (at_ before).world.line.isUp = true ∧ (at_ (before ++ [op])).world.line.isUp = false ∧
            (∃ e, (step env (lossy W) (fuel + 1) op (at_ before)).1 = .err e) ∧ doubt = inDoubt f (said before) op)) ∧
        (Working sess (at_ ops) → (sess (at_ ops).world.now).ledger = (said ops).ledger (sess d.world.now).ledger.lasting) := by
  obtain ⟨d, str, hcn, hcr, hle, hd⟩ := routing_renewed hT hD hP hlo hlo' hU ho hms hc hs hid hmod hl
  obtain ⟨a, b, hlog⟩ := List.append_of_mem hcr
  obtain ⟨nodes, role, n, h1, h2, h3, h4, _⟩ := C57_live ho hr (hs ▸ hlog)
  exact ⟨d, hcn, ⟨str, ⟨a, b, nodes, role, n, hlog, h1, h2, h3, h4⟩, hle⟩, hd.1, hd.clean env, hd.changes env hT hD fuel (by omega) hU⟩

/-- A connection that the routing pool lends may be lost already, and it may be lost later: then nothing that is called on it changes anything at any server, and every
call that needs the server fails. -/
theorem C125_lost {m : LMove} {write : Bool} {r : ConnRef} (hl : LendsFor env (lossy W) semi (fuel + 1) (lossyNet net fate) ids s m write r) :
    ∃ d, s.pool.world.conns r.ref = some d ∧ ∀ ops, (∀ op ∈ ops, op.Fine env d.proto.codec lo) → PlainCall ops →
      let d' := run env (lossy W) (fuel + 1) ops d
      d'.world.line.isUp = false → ∀ ops', let d'' := run env (lossy W) (fuel + 1) ops' d'
        d''.world.now = d'.world.now ∧ ∀ op, needsServer op → ∀ x, (step env (lossy W) (fuel + 1) op d'').1 ≠ .ok x := by
  obtain ⟨d, _, hcn, _, _, hd⟩ := routing_renewed hT hD hP hlo hlo' hU ho hms hc hs hid hmod hl
  exact ⟨d, hcn, hd.lost env hT hD fuel (by omega) hU⟩

/-- A statement that gives a result to the new user gives what the database says after what was permanent and the statements of that user. -/
theorem C125_result {m : LMove} {write : Bool} {r : ConnRef} (hl : LendsFor env (lossy W) semi (fuel + 1) (lossyNet net fate) ids s m write r) :
    ∃ d, s.pool.world.conns r.ref = some d ∧ ∀ ops op q, (∀ o ∈ ops ++ [op], o.Fine env d.proto.codec lo) → PlainCall (ops ++ [op]) → statementOf op = some q →
      let lg := (account env (lossy W) (fieldsOf env d.proto d.mode) (fuel + 1) ops (.next d.txs.length) d).ledger (sess d.world.now).ledger.lasting
      ∀ x, resultOf env (lossy W) (fuel + 1) op (run env (lossy W) (fuel + 1) ops d) = .ok x →
        ∃ o, D lg (lg.stmt q (fieldsOf env d.proto d.mode op)) o ∧ Conveys env d.proto.codec (withRows op) o (.ok x) := by
  obtain ⟨d, _, hcn, _, _, hd⟩ := routing_renewed hT hD hP hlo hlo' hU ho hms hc hs hid hmod hl
  exact ⟨d, hcn, hd.result env hT hD fuel (by omega) hU⟩

end

/-! ### A concrete cluster -/

namespace C125

theorem servers_durable : Durable C120.servers (·.2) := by
  have key : ∀ s t, (∃ more, (C120.answer s t).1.ledger.lasting = s.ledger.lasting ++ more) ∧ ((C120.answer s t).2 = [] → (C120.answer s t).1.ledger.lasting = s.ledger.lasting) := by
    intro s t
    rcases C120.answer_cases s t with ⟨_, _, _, h⟩ | h
    · rw [h]
      exact ⟨complete_grows _ _ _, fun h => absurd (show C120.overview = [] from h) (by decide +kernel)⟩
    · rw [h]
      exact tAnswer_grows s t
  refine ⟨fun w ws => ?_, fun _ => rfl, fun w ws => ?_, fun w ws h => ?_⟩
  · unfold C120.servers
    dsimp only
    split
    · rfl
    · split
      · rfl
      · split <;> rfl
  · unfold C120.servers
    dsimp only
    split
    · exact ⟨[], by simp⟩
    · split
      · exact ⟨[], by simp⟩
      · split
        · exact (key w.2 _).1
        · exact ⟨[], by simp⟩
  · unfold C120.servers at h ⊢
    dsimp only at h ⊢
    split
    · rfl
    · rename_i h1
      rw [if_neg h1] at h
      split
      · rfl
      · rename_i h2
        rw [if_neg h2] at h
        split
        · rename_i t ht
          rw [ht] at h
          exact (key w.2 t).2 (by simpa using h)
        · rfl

/-- The connection with the leader is lost with its tenth message, the Rollback of the first user: it arrives and is answered, and nobody notices the loss. -/
def fate : Nat → Nat × Loss := fun n => (if n = 1 then 9 else 100, ⟨true, 1000, 5, .eof, false⟩)

def net : Net (Lossy (Endpoint × Session)) := lossyNet C120.net fate

/-- The start of the pool. -/
def opened : Option (RPool (Live (Lossy (Endpoint × Session)))) :=
  match openRoutingPool (liveWorld env0 (lossy C120.servers) false (1 + 1) net C68.ids) (ascii "bolt+routing://u:p@a:7687") 2 (ascii "u:p") [] ⟨fun _ => none, 0, 0⟩ with
  | .ok (.ok (), pool) => some pool
  | _ => none

theorem start {pool : RPool (Live (Lossy (Endpoint × Session)))} (h : opened = some pool) :
    openRoutingPool (liveWorld env0 (lossy C120.servers) false (1 + 1) net C68.ids) (ascii "bolt+routing://u:p@a:7687") 2 (ascii "u:p") [] ⟨fun _ => none, 0, 0⟩ = .ok (.ok (), pool) := by
  unfold opened at h
  generalize openRoutingPool (liveWorld env0 (lossy C120.servers) false (1 + 1) net C68.ids) (ascii "bolt+routing://u:p@a:7687") 2 (ascii "u:p") [] ⟨fun _ => none, 0, 0⟩ = o at h ⊢
  match o, h with
  | .ok (.ok (), pool'), h => cases h; rfl

/-- What is left to be computed about the final state: the next user gets the connection with the leader, which is lost, and on which A is permanent. -/
def goodEnd (s : PSys (Live (Lossy (Endpoint × Session)))) : Bool :=
  decide ((made s.pool.log).map (·.2)).Nodup && (C120.strings s.pool.log).all (fun str => C118.short (connectionConfig false str)) &&
    decide ((C120.next s).map (fun x => (x.1, x.2.ref)) = some (true, 1)) &&
    decide ((s.pool.world.conns 1).map (fun d => (d.closed, d.world.line.isUp, d.world.now.1, d.world.now.2.ledger.lasting.map (·.text))) =
      some (false, false, tcpTo (ascii "a") 7687, [ascii "A"]))

/-- What the kernel computes. -/
def checks : Option (RPool (Live (Lossy (Endpoint × Session)))) → Bool
  | none => false
  | some pool => C120.tidy (lossy C120.servers) net (PSys.fresh pool) C120.history &&
    goodEnd ((PSys.fresh pool).lives env0 (lossy C120.servers) false (1 + 1) net C68.ids C120.history)

theorem checked : checks opened = true := by decide +kernel

end C125

/-- The concrete cluster meets the hypotheses of `C125` and `C125_lost`: the second user gets the lost connection with a:7687, on which A is permanent and B is not, and whatever
they call changes nothing. -/
example : ∃ pool, openRoutingPool (liveWorld env0 (lossy C120.servers) false (1 + 1) C125.net C68.ids) (ascii "bolt+routing://u:p@a:7687") 2 (ascii "u:p") [] ⟨fun _ => none, 0, 0⟩ = .ok (.ok (), pool) ∧
    ∃ s r d, s = (PSys.fresh pool).lives env0 (lossy C120.servers) false (1 + 1) C125.net C68.ids C120.history ∧ LendsFor env0 (lossy C120.servers) false (1 + 1) C125.net C68.ids s (.pool (.step 0)) true r ∧
      s.pool.world.conns r.ref = some d ∧ d.world.now.1 = tcpTo (ascii "a") 7687 ∧ (∀ h, ¬ d.isOpen h) ∧ d.world.now.2.ledger.lasting.map (·.text) = [ascii "A"] ∧
      ∀ ops, (run env0 (lossy C120.servers) (1 + 1) ops d).world.now = d.world.now := by
  have hk := C125.checked
  cases ho : C125.opened with
  | none => rw [ho] at hk; cases hk
  | some pool =>
    rw [ho] at hk
    refine ⟨pool, C125.start ho, (PSys.fresh pool).lives env0 (lossy C120.servers) false (1 + 1) C125.net C68.ids C120.history, ?_⟩
    unfold C125.checks at hk
    generalize hs : (PSys.fresh pool).lives env0 (lossy C120.servers) false (1 + 1) C125.net C68.ids C120.history = s
    dsimp only at hk
    rw [hs] at hk
    rw [Bool.and_eq_true] at hk
    obtain ⟨k1, hk⟩ := hk
    unfold C125.goodEnd at hk
    simp only [Bool.and_eq_true] at hk
    obtain ⟨⟨⟨k2, k3⟩, k4⟩, k5⟩ := hk
    replace k2 := of_decide_eq_true k2
    replace k4 := of_decide_eq_true k4
    replace k5 := of_decide_eq_true k5
    cases hn : C120.next s with
    | none => rw [hn] at k4; cases k4
    | some x =>
      obtain ⟨w, r⟩ := x
      rw [hn] at k4
      simp only [Option.map_some, Option.some.injEq, Prod.mk.injEq] at k4
      obtain ⟨rfl, k4⟩ := k4
      have hmod : ∀ str, MadeWith s.pool.log str → Modest false str := fun str hm cfg hc => by
        have := List.all_eq_true.1 k3 str (C120.mem_strings hm)
        rw [hc] at this
        exact of_decide_eq_true this
      obtain ⟨d, h1, _, h3, _⟩ := C125 C120.serves C125.servers_durable C120.placed (fate := C125.fate) (lo := 28) (by decide) (by decide) (C120.understood env0) (C125.start ho) C120.orderly
        (C120.considerate k1) hs.symm ((idsDiffer_iff _).2 k2) hmod C120.noRestarts (C120.lends hn)
      obtain ⟨d', h1', h5⟩ := C125_lost C120.serves C125.servers_durable C120.placed (fate := C125.fate) (lo := 28) (by decide) (by decide) (C120.understood env0) (C125.start ho) C120.orderly
        (C120.considerate k1) hs.symm ((idsDiffer_iff _).2 k2) hmod (C120.lends hn)
      cases h1.symm.trans h1'
      refine ⟨r, d, rfl, C120.lends hn, h1, ?_⟩
      rw [k4] at h1
      rw [h1] at k5
      simp only [Option.map_some, Option.some.injEq, Prod.mk.injEq] at k5
      exact ⟨k5.2.2.1, h3, k5.2.2.2, fun ops => (h5 [] (by simp) (fun op h => by cases h) k5.2.1 ops).1⟩

end Verif

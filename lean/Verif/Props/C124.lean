/-
C124  No user of the pool gets the rows of another user's statement.

The network is reliable here; for delays see C111.
-/
import Verif.Props.C118
import Verif.Props.C111
import Verif.Props.C35
namespace Verif
open Spec

/-- C124: what a statement returns on a connection just lent by the pool is something that the database gives for a statement with that text, whatever
other users did with the connection before. -/
def C124_statement : Prop := ∀ (σ : Type) (env : Env) (D : Database) (W : World σ) (sess : σ → Session) (semi : Bool) (fuel : Nat) (net : Net σ) (connStr : Bytes)
  (ms : List DMove) (calls : List FCall) (answer : Except Err PObj) (r : Nat) (s : DPool σ) (c : Conn σ) (op : Op) (q : Bytes), TServes D W sess → Modest semi connStr → Orderly env 8 ms →
  AllProper env W semi (fuel + 1) net (newDriverPool connStr) (ms ++ [.open calls answer]) →
  dOpen W (borrowed env W semi (fuel + 1) net calls answer) (dRun env W semi (fuel + 1) net ms (newDriverPool connStr)) = (.ok r, s) → s.conns[r]? = some c →
  op.Fine env c.proto.codec 8 → statementOf op = some q → q ∉ controlVerbs →
  ∀ a, resultOf env W (fuel + 1) op c = .ok a → ∃ l fs b o, D l ⟨q, fs, b⟩ o ∧ Conveys env c.proto.codec (withRows op) o (.ok a)

/-- What holds: the claim, if the codec can read all that the server answers.  Missing: servers that send a value which the codec cannot read
(`C124_refuted`), as for example a date-time in a time zone that is not known to the client (C21). -/
theorem C124_partial {σ : Type} (env : Env) {D : Database} {W : World σ} {sess : σ → Session} (hT : TServes D W sess) (hU : ∀ ver, Understood env ver W) (semi : Bool) (fuel : Nat)
    (net : Net σ) {connStr : Bytes} (hm : Modest semi connStr) {ms : List DMove} (hms : Orderly env 8 ms) {calls : List FCall} {answer : Except Err PObj}
    (hp : AllProper env W semi (fuel + 1) net (newDriverPool connStr) (ms ++ [.open calls answer])) {r : Nat} {s : DPool σ} {c : Conn σ}
    (ho : dOpen W (borrowed env W semi (fuel + 1) net calls answer) (dRun env W semi (fuel + 1) net ms (newDriverPool connStr)) = (.ok r, s)) (hc : s.conns[r]? = some c)
    {op : Op} {q : Bytes} (hop : op.Fine env c.proto.codec 8) (hq : statementOf op = some q) (hpl : q ∉ controlVerbs) (a : Option (List (List Val)) × Entries)
    (h : resultOf env W (fuel + 1) op c = .ok a) : ∃ l fs b o, D l ⟨q, fs, b⟩ o ∧ Conveys env c.proto.codec (withRows op) o (.ok a) := by
  obtain ⟨c', hc', k⟩ := C118_result env hT semi fuel net (lo := 8) (by decide) (by decide) hU hm hms hp ho
  rw [hc] at hc'
  cases hc'
  have := k [] op q (by simpa using hop) (fun o ho q' hq' => by
    rw [List.nil_append, List.mem_singleton] at ho
    subst ho
    rw [hq] at hq'
    cases hq'
    exact hpl) hq
  rcases this with ⟨_, h1⟩ | ⟨_, _, e, h1⟩ | ⟨o, h1, h2⟩
  · exact absurd h (h1 a)
  · change resultOf env W (fuel + 1) op c = _ at h1
    rw [h] at h1; cases h1
  · change Conveys _ _ _ _ (resultOf env W (fuel + 1) op c) at h2
    rw [h] at h2
    exact ⟨_, _, _, o, h1, h2⟩

/-! ### A concrete server -/

namespace C124

/-- "X" fails; "P" has two rows, the first of which contains a structure that the codec does not know; every other statement tells whether it is "S". -/
def outcome (q : Bytes) : Outcome :=
  if q = ascii "X" then .failed [] else if q = ascii "P" then .rows [[.struct 0x09 [.int 1]], [.bool true]] [] else .rows [[.bool (q == ascii "S")]] []

def db : Database := fun _ s o => o = outcome s.text

def answer (s : Session) (t : PS) : Session × Bytes :=
  match s.phase, t with
  | .streaming true, .struct 0x3F _ =>
    if s.running.1 = ascii "X" then ({ s with phase := .failed }, sFailure.flatten)
    else if s.running.1 = ascii "P" then
      ({ s with phase := .ready, ledger := s.ledger.complete s.running.1 s.running.2 }, strangeRecord ++ (cRecord true ++ sSuccess.flatten))
    else ({ s with phase := .ready, ledger := s.ledger.complete s.running.1 s.running.2 }, cRecord (s.running.1 == ascii "S") ++ sSuccess.flatten)
  | _, _ => tAnswer s t

/-- The server, for connections of protocol version 4. -/
def server : World Session where
  dial s := ({ s with phase := .new, ledger := s.ledger.drop }, true)
  onSend s ws :=
    if s.phase = .new then ⟨{ s with phase := .connected }, true, [[0, 0, 0, 4]], .broken⟩
    else if s.phase = .defunct then ⟨s, true, [], .broken⟩
    else match requestOf ws with
      | some t => ⟨(answer s t).1, true, [(answer s t).2], .broken⟩
      | none => ⟨s, true, [], .broken⟩
  onClose _ := true
  probe _ := .other

theorem sends_poison : Sends [Spec.record [.struct 0x09 [.int 1]], Spec.record [.bool true], Spec.success []] (strangeRecord ++ (cRecord true ++ sSuccess.flatten)) :=
  Spec.Sends.append (ts := [Spec.record [.struct 0x09 [.int 1]]]) sends_strange (sends_record true)

theorem answer_reply {s : Session} {ph' : Phase} {t : PS} {ts : List PS} (h : Reply s.phase t ts ph') : ∃ ts, TReply db s t ts (answer s t).1 ∧ Sends ts (answer s t).2 := by
  by_cases hp : s.phase = .streaming true ∧ ∃ fs, t = .struct 0x3F fs
  · obtain ⟨hs, fs, rfl⟩ := hp
    have e : answer s (.struct 0x3F fs) = if s.running.1 = ascii "X" then ({ s with phase := .failed }, sFailure.flatten)
        else if s.running.1 = ascii "P" then
          ({ s with phase := .ready, ledger := s.ledger.complete s.running.1 s.running.2 }, strangeRecord ++ (cRecord true ++ sSuccess.flatten))
        else ({ s with phase := .ready, ledger := s.ledger.complete s.running.1 s.running.2 }, cRecord (s.running.1 == ascii "S") ++ sSuccess.flatten) := by
      unfold answer
      rw [hs]
      rfl
    rw [e]
    split
    · rename_i hx
      refine ⟨_, TReply.pullFailure s true fs [] [] hs (fun h => by cases h) (fun _ => ?_), sends_failure⟩
      show _ = outcome s.running.1
      unfold outcome
      rw [if_pos hx]
    · rename_i hx
      split
      · rename_i hy
        refine ⟨_, TReply.pull s true fs [[.struct 0x09 [.int 1]], [.bool true]] [] hs (fun h => by cases h) (fun _ => ?_), sends_poison⟩
        show _ = outcome s.running.1
        unfold outcome
        rw [if_neg hx, if_pos hy]
      · rename_i hy
        refine ⟨_, TReply.pull s true fs [[.bool (s.running.1 == ascii "S")]] [] hs (fun h => by cases h) (fun _ => ?_), sends_record _⟩
        show _ = outcome s.running.1
        unfold outcome
        rw [if_neg hx, if_neg hy]
  · have e : answer s t = tAnswer s t := by
      unfold answer
      split
      · rename_i h1
        exact absurd ⟨h1, _, rfl⟩ hp
      · rfl
    rw [e]
    refine tServer_reply (fun l fs b => ?_) (fun h1 fs h2 => absurd ⟨h1, fs, h2⟩ hp) h
    show _ = outcome (ascii "X")
    rfl

/-- The server follows the protocol, and gives what the database says. -/
theorem server_serves : TServes db server id where
  reply w ws t hc hd hl := by
    obtain ⟨ts, ph, hl⟩ := hl
    obtain ⟨ts', h1, h2⟩ := answer_reply (s := w) hl
    have hn : w.phase ≠ .new := reply_not_new hl
    have e : server.onSend w ws = ⟨(answer w t).1, true, [(answer w t).2], .broken⟩ := by
      simp only [server, if_neg hn, if_neg (show w.phase ≠ .defunct from hd), requestOf_carries hc]
    rw [e]
    exact ⟨rfl, ts', h1, by simpa using h2⟩
  silent w ws h := by
    have hw : w.phase = .defunct := h
    have hn : w.phase ≠ .new := by rw [hw]; simp
    have e : server.onSend w ws = ⟨w, true, [], .broken⟩ := by
      simp only [server, if_neg hn, if_pos hw]
    rw [e]
    exact ⟨rfl, rfl⟩
  greet w pre _ _ := ⟨rfl, rfl, rfl⟩

/-- The calls of the library between two users. -/
def handOver : List DMove := [.reclaim (some 0) [.passivate 0] none, .open [.validate 0, .activate 0] (.ok (.conn 0))]

/-- Four users, one after the other, get the same connection: the first runs "P" and gets an error, the second calls Begin and gets an error, the third runs "S". -/
def history : List DMove :=
  [.open [.make] (.ok (.conn 0)), .user 0 (ask "P")] ++ handOver ++ [.user 0 (.begin_ [])] ++ handOver ++ [.user 0 (ask "S"), .reclaim (some 0) [.passivate 0] none]

/-- The connection that the fourth user gets. -/
def lent : CRes Nat × DPool Session := dOpen server (borrowed env0 server false (1 + 1) C118.net [.validate 0, .activate 0] (.ok (.conn 0)))
  (dRun env0 server false (1 + 1) C118.net history (newDriverPool (ascii "bolt://u:p@host:7687")))

theorem ask_fine (ver : Ver) {q : String} (hq : (ascii q).length ≤ 8) : (ask q).Fine env0 ver 8 :=
  ⟨.map [], by omega, by omega, hq, by simp, by cases ver <;> rfl, by simp [PS.Fits, PS.FitsWith, FitsEntries], by simp [Val.All, AllEntries, strAtMost]⟩

theorem orderly : Orderly env0 8 history := by
  intro r op hm
  simp only [history, handOver, List.cons_append, List.nil_append, List.mem_cons, List.not_mem_nil, or_false, reduceCtorEq, false_or, DMove.user.injEq] at hm
  rcases hm with ⟨_, rfl⟩ | ⟨_, rfl⟩ | ⟨_, rfl⟩
  · exact ⟨fun ver => ask_fine _ (by decide), fun q hq => by cases hq; decide⟩
  · exact ⟨fun _ => Nat.zero_le _, fun q hq => by cases hq⟩
  · exact ⟨fun ver => ask_fine _ (by decide), fun q hq => by cases hq; decide⟩

theorem proper : AllProper env0 server false (1 + 1) C118.net (newDriverPool (ascii "bolt://u:p@host:7687")) (history ++ [.open [.validate 0, .activate 0] (.ok (.conn 0))]) :=
  ⟨fun _ => by decide +kernel, by show custody _ 0 = _; decide +kernel, by show custody _ 0 = _; decide +kernel, fun _ => by decide +kernel, by show custody _ 0 = _; decide +kernel,
    by show custody _ 0 = _; decide +kernel, fun _ => by decide +kernel, by show custody _ 0 = _; decide +kernel, by show custody _ 0 = _; decide +kernel, fun _ => by decide +kernel, trivial⟩

theorem lent_ok : lent.1 = .ok 0 := by
  have h : C118.number lent.1 = some 0 := by decide +kernel
  generalize lent.1 = x at h
  cases x <;> cases h
  rfl

/-- What the four users get: an error, an error, no rows, and the row of the third user's statement. -/
example : (dRun env0 server false 2 C118.net [.open [.make] (.ok (.conn 0))] (newDriverPool (ascii "bolt://u:p@host:7687"))).conns.map (fun c => (step env0 server 2 (ask "P") c).1.kind) = [1] ∧
    lent.2.conns.map (fun c => told (resultOf env0 server (1 + 1) (ask "Q") c)) = [some true] ∧ outcome (ascii "Q") = .rows [[.bool false]] [] := by
  refine ⟨by decide +kernel, by decide +kernel, rfl⟩

end C124

/-- The full statement is false. -/
theorem C124_refuted : ¬ C124_statement := by
  intro h
  have e : ∀ x : CRes Nat × DPool Session, x.1 = .ok 0 → x = (.ok 0, x.2) := fun x h => Prod.ext h rfl
  have h1 : (C124.lent.2.conns[0]?.map fun c => (told (resultOf env0 C124.server (1 + 1) (ask "Q") c), decide (c.proto = .v4))) = some (some true, true) := by decide +kernel
  have k := h Session env0 C124.db C124.server id false 1 C118.net (ascii "bolt://u:p@host:7687") C124.history [.validate 0, .activate 0] (.ok (.conn 0)) 0 C124.lent.2
  cases hc : C124.lent.2.conns[0]? with
  | none => rw [hc] at h1; cases h1
  | some c =>
    rw [hc, Option.map_some, Option.some.injEq, Prod.mk.injEq] at h1
    have k2 := k c (ask "Q") (ascii "Q") C124.server_serves C118.modest C124.orderly C124.proper (e _ C124.lent_ok) hc (C124.ask_fine _ (by decide)) rfl (by decide)
    cases hr : resultOf env0 C124.server (1 + 1) (ask "Q") c with
    | ok a =>
      obtain ⟨l, fs, b, o, h2, h3⟩ := k2 a hr
      rw [show o = .rows [[.bool false]] [] from h2] at h3
      obtain ⟨rows, md, h4, _, h5⟩ := h3
      have h6 : rows = [[.bool false]] := by
        cases rows with
        | nil => exact h4.elim
        | cons v vs =>
          cases vs with
          | nil =>
            have h7 : some [Val.bool false] = some v := h4.1
            cases h7
            rfl
          | cons w ws => exact h4.2.elim
      rw [hr] at h1
      cases h5
      rw [h6] at h1
      cases h1.1
    | err e => rw [hr] at h1; cases h1.1
    | panic => rw [hr] at h1; cases h1.1
    | fuel => rw [hr] at h1; cases h1.1

end Verif

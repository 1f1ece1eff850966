/-
A network on which what the server sends may be late.
-/
import Verif.Model.Conn
import Verif.Spec.History
namespace Verif.Spec

/-- State of a server and of the network that delays what it sends.
* `now`: the state of the server.
* `flight`: what the server has sent and what has not arrived yet.
* `pace`: after each of the next messages of the driver, how many of the segments in flight arrive in time, that is before a read gives up; after these
messages, all of them. -/
structure Late (σ : Type) where
  now : σ
  flight : List Bytes
  pace : List Nat

/-- The server `W` behind a network that may delay what it sends, but loses, changes and reorders nothing.  A read that finds nothing more to read gives up
(its deadline passes) if something is in flight; otherwise it ends as it would without the delays. -/
def late {σ : Type} (W : World σ) : World (Late σ) where
  dial s := ({ s with now := (W.dial s.now).1 }, (W.dial s.now).2)
  onSend s ws :=
    let o := W.onSend s.now ws
    let sent := s.flight ++ o.segs
    let k := s.pace.head?.getD sent.length
    ⟨⟨o.st, sent.drop k, s.pace.tail⟩, o.ok, sent.take k, if sent.drop k = [] then o.fin else .broken⟩
  onClose s := W.onClose s.now
  probe s := W.probe s.now

/-- Every call of this history succeeded, or nothing was in flight after it.  (`fuel` is large enough for the calls to end; see C45.) -/
def Timely {σ : Type} (env : Env) (W : World σ) (fuel : Nat) : List Op → Conn (Late σ) → Prop
  | [], _ => True
  | op :: ops, d => let r := step env (late W) fuel op d
    (r.1 = .ok () ∨ r.1 ≠ .fuel ∧ r.2.world.flight = []) ∧ Timely env W fuel ops r.2

end Verif.Spec

/-
What a session does about a FAILURE: the events between the first request of a call and its return.
-/
import Verif.Spec.Requests
import Verif.Spec.Exchange
namespace Verif.Spec.Recover

/-- Where a session is.
* `normal`: no FAILURE is pending.
* `failed`: a FAILURE was received.
* `resetting`: RESET was sent, and nothing but IGNORED was received since.
* `refused`: RESET was answered with something else than SUCCESS.
* `leaving`: after that, GOODBYE was sent.
* `over`: the socket was closed. -/
inductive Stage where
  | normal | failed | resetting | refused | leaving | over
  deriving DecidableEq, Repr

/-- `v` is a FAILURE message. -/
def IsFailure (v : Val) : Prop := ∃ md, v = .struct .failure [.map md]

/-- `v` is a SUCCESS message. -/
def IsSuccess (v : Val) : Prop := ∃ md, v = .struct .success [.map md]

/-- `v` is an IGNORED message. -/
def IsIgnored (v : Val) : Prop := ∃ fs, v = .struct .ignored fs

/-- The request RESET. -/
def resetTree : PS := .struct 0x0F []

/-- What may happen at each stage, in protocol version `p`, in a call made while a transaction was open (`tx`) or not.
* After a FAILURE, RESET is sent before anything else.
* Before RESET is answered with SUCCESS nothing else is sent.
* If it is answered with something else the session is given up: the connection is closed, in versions 3 and 4 after GOODBYE; if a transaction is open it is
  rolled back first. -/
inductive Moves (p : Proto) (tx : Bool) : Stage → Ev → Stage → Prop
  | send {ws : List Bytes} (h : ¬ Carries resetTree ws) : Moves p tx .normal (.sent ws) .normal
  | recv {v : Val} (h : ¬ IsFailure v) : Moves p tx .normal (.recv v) .normal
  | failure {v : Val} (h : IsFailure v) : Moves p tx .normal (.recv v) .failed
  | reset {ws : List Bytes} (h : Carries resetTree ws) : Moves p tx .failed (.sent ws) .resetting
  | ignored {v : Val} (h : IsIgnored v) : Moves p tx .resetting (.recv v) .resetting
  | success {v : Val} (h : IsSuccess v) : Moves p tx .resetting (.recv v) .normal
  | refused {v : Val} (h : ¬ IsIgnored v) (h' : ¬ IsSuccess v) : Moves p tx .resetting (.recv v) .refused
  | rollback {ws : List Bytes} {t : PS} {ts : List PS} (ht : tx = true) (h : rollbackTrees p = t :: ts) (hc : Carries t ws) : Moves p tx .refused (.sent ws) .normal
  | goodbye {ws : List Bytes} (ht : tx = false) (hp : p = .v3 ∨ p = .v4) (h : Carries (.struct 0x02 []) ws) : Moves p tx .refused (.sent ws) .leaving
  | giveUp (ht : tx = false) (hp : p = .v1 ∨ p = .v2) : Moves p tx .refused .closed .over
  | leave : Moves p tx .leaving .closed .over
  | close : Moves p tx .normal .closed .over

/-- A sequence of events. -/
inductive Follows (p : Proto) (tx : Bool) : Stage → List Ev → Stage → Prop
  | nil {s : Stage} : Follows p tx s [] s
  | cons {s s' s'' : Stage} {ev : Ev} {evs : List Ev} (h : Moves p tx s ev s') (h' : Follows p tx s' evs s'') : Follows p tx s (ev :: evs) s''

end Verif.Spec.Recover

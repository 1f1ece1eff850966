/-
Concrete servers for examples and counterexamples: the answer to the k-th message is fixed in advance.
-/
import Verif.Spec.History
import Verif.Proofs.ValEq
namespace Verif

/-- The answers to the messages still to come, each a list of segments.  Dialling, writing and closing always succeed. -/
def scripted : World (List (List Bytes)) where
  dial s := (s, true)
  onSend s _ :=
    match s with
    | [] => ⟨[], true, [], .broken⟩
    | r :: rs => ⟨rs, true, r, .broken⟩
  onClose _ := true
  probe _ := .other

/-- SUCCESS {} -/
def sSuccess : List Bytes := [[0x00, 0x03, 0xB1, 0x70, 0xA0, 0x00, 0x00]]
/-- FAILURE {} -/
def sFailure : List Bytes := [[0x00, 0x03, 0xB1, 0x7F, 0xA0, 0x00, 0x00]]
/-- IGNORED -/
def sIgnored : List Bytes := [[0x00, 0x02, 0xB0, 0x7E, 0x00, 0x00]]
/-- RECORD [1] in two segments, then SUCCESS {} -/
def sOneRow : List Bytes := [[0x00, 0x04, 0xB1], [0x71, 0x91, 0x01, 0x00, 0x00]] ++ sSuccess
/-- The server accepts version 4, then the session. -/
def sOpen4 : List (List Bytes) := [[[0x00, 0x00, 0x00, 0x04]], sSuccess]
/-- The server accepts version 1, then the session. -/
def sOpen1 : List (List Bytes) := [[[0x00, 0x00, 0x00, 0x01]], sSuccess]

/-- A connection to the scripted server. -/
def opened (script : List (List Bytes)) : CRes Unit × Conn (List (List Bytes)) := createBoltConn env0 scripted 3 [0x75] [0x70] script

/-- The outcome of a call, without the error. -/
def CRes.kind {α : Type} : CRes α → Nat
  | .ok _ => 0
  | .err _ => 1
  | .panic => 2
  | .fuel => 3

theorem CRes.kind_ok {σ : Type} {r : CRes Unit × Conn σ} (h : r.1.kind = 0) : r = (.ok (), r.2) := by
  obtain ⟨a, c⟩ := r
  cases a with
  | ok a => rfl
  | err e => cases h
  | panic => cases h
  | fuel => cases h

theorem opened_inUse {script : List (List Bytes)} (h : (opened script).1.kind = 0) (ops : List Op) :
    InUse env0 scripted (run env0 scripted 3 ops (opened script).2) :=
  ⟨3, [0x75], [0x70], script, (opened script).2, ops, CRes.kind_ok h, rfl⟩

end Verif

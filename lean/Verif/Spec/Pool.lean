/-
Vocabulary for properties of the routing pool.
-/
import Verif.Model.PoolSys
namespace Verif
namespace Spec
variable {ω : Type}

/-- `s` is reached in some history of a pool of `size` connections: the pool was opened, and any number of moves happened, of kinds allowed by `ok`. -/
def Reached (W : PWorld ω) (size : Int) (ok : PMove → Prop) (s : PSys ω) : Prop :=
  ∃ connStr userPart tlsPart w pool fuel ms, openRoutingPool W connStr size userPart tlsPart w = .ok (.ok (), pool) ∧
    (∀ m ∈ ms, ok m) ∧ s = (PSys.fresh pool).moves W fuel ms

/-- All moves. -/
def anything : PMove → Prop := fun _ => True

/-- All moves but further calls of `Start`. -/
def noRestart : PMove → Prop := fun m => m ≠ .call .start

/-- The random ids of two connections are never equal. -/
def IdsDiffer (log : List PEv) : Prop :=
  ∀ (i j : Nat) r r' id str str' w w', log[i]? = some (PEv.created r id str w) → log[j]? = some (PEv.created r' id str' w') → i = j

/-- Connection `r` was created for writing (`w = true`) or for reading. -/
def madeFor (log : List PEv) (w : Bool) (r : Nat) : Bool := log.any fun
  | .created r' _ _ w' => r' == r && w' == w
  | _ => false

/-- The documented share of `n` connections: half of them, and for writing the odd one. -/
def share (n : Nat) (w : Bool) : Nat := if w then n - n / 2 else n / 2

/-- An execution of a call among others: at each of its actions it finds some state and leaves another; in between anything may happen to the pool. -/
inductive Exec {S α : Type} : PProg S α → List (S × S) → CRes α → Prop where
  | done {r} : Exec (.done r) [] r
  | act {acc en g k s tr r} : en s = true → Exec (k s) tr r → Exec (.act acc en g k) ((s, g s) :: tr) r

/-- The events caused by the call itself. -/
def own (tr : List (RPool ω × RPool ω)) : List PEv := tr.flatMap fun p => p.2.log.drop p.1.log.length

/-- The actions are moves of the history `ms` that starts in `s`. -/
def During (W : PWorld ω) (fuel : Nat) (s : PSys ω) (ms : List PMove) (tr : List (RPool ω × RPool ω)) : Prop :=
  ∀ p ∈ tr, ∃ before m after, ms = before ++ m :: after ∧ p = ((s.moves W fuel before).pool, (s.moves W fuel (before ++ [m])).pool)

end Spec

/-- A world for examples; its state is a clock.  `alive`: the outcome of `ValidateOpen` of a connection at a time; `closing`: the errors of `Close`; `rows`: the cluster overview;
`refuse`: whether a connection to an address cannot be made. -/
structure Script where
  rows : Nat → List (List Val)
  alive : Nat → Nat → Bool := fun _ _ => true
  closing : Nat → Option Err := fun _ => none
  refuse : Nat → Bytes → Bool := fun _ _ => false

/-- Ids are two bytes of the clock. -/
def Script.world (s : Script) : PWorld Nat where
  create w _ str := (w + 1, if s.refuse w str then some (.plain "refused") else none)
  random w := (w + 1, [UInt8.ofNat (w / 256), UInt8.ofNat w])
  validate w r := (w + 1, s.alive w r)
  close w r := (w + 1, s.closing r)
  version _ _ := 4
  query w _ _ _ := (w + 1, .ok (s.rows w))

/-- A row of the overview. -/
def memberRow (id address role : String) : List Val :=
  [.str (ascii id), .list true [.str (ascii address)], .map [(ascii "system", .str (ascii role))], .nil]

/-- A leader, a follower and a read replica. -/
def threeMembers : List (List Val) := [memberRow "1" "bolt://a" "LEADER", memberRow "2" "bolt://b" "FOLLOWER", memberRow "3" "bolt://c" "READ_REPLICA"]

end Verif

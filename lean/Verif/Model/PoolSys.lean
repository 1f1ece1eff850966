/-
Goroutines sharing a routing pool (/repo/driver_routing_pool.go, /repo/routing/pool.go).
-/
import Verif.Model.Pool
namespace Verif

/-- A call of the pool.  (The driver calls `Start` once, before the pool is shared: `openRoutingPool`.) -/
inductive PReq where
  | borrow (write : Bool)
  | reclaim (c : ConnRef)
  | start
  | stop
  | refresh
  deriving DecidableEq

/-- What a call returns: a connection, or nothing. -/
abbrev PRet := Option ConnRef

/-- Pool, calls in progress, connections in the hands of the users of the pool, and the calls that returned, with their results. -/
structure PSys (ω : Type) where
  pool : RPool ω
  calls : List (PReq × PProg (RPool ω) PRet)
  lent : List ConnRef
  returned : List (PReq × CRes PRet)

section
variable {ω : Type} (W : PWorld ω) (fuel : Nat)

/-- The program of a call.  `refresh` is a round of the goroutine started in pool.go 400; it can happen at any time, also after `Stop` (the goroutine notices only after its round). -/
def PReq.prog : PReq → PProg (RPool ω) PRet
  | .borrow false => do return some (← borrowR W fuel)
  | .borrow true => do return some (← borrowRW W fuel)
  | .reclaim c => do
    Verif.reclaim W c
    return none
  | .start => do
    Verif.start W
    return none
  | .stop => do
    Verif.stop W fuel
    return none
  | .refresh => do
    refreshRound W fuel
    return none

/-- What can happen next: a goroutine makes a call (`reclaim c` only of a connection somebody holds, which is then given up), or the `k`th call in progress makes a step. -/
inductive PMove where
  | call (r : PReq)
  | step (k : Nat)
  deriving DecidableEq

/-- The connection a call returned to its caller. -/
def lentBy : CRes PRet → List ConnRef
  | .ok (some c) => [c]
  | _ => []

/-- Perform a move; a call that cannot be made or has to wait changes nothing.  A step of a call that has come to its end returns to the caller. -/
def PSys.move (s : PSys ω) : PMove → PSys ω
  | .call (.reclaim c) =>
    if c ∈ s.lent then { s with calls := s.calls ++ [(.reclaim c, PReq.prog W fuel (.reclaim c))], lent := s.lent.erase c } else s
  | .call r => { s with calls := s.calls ++ [(r, PReq.prog W fuel r)] }
  | .step k =>
    match s.calls[k]? with
    | none => s
    | some (r, .done res) => { s with calls := s.calls.eraseIdx k, lent := s.lent ++ lentBy res, returned := s.returned ++ [(r, res)] }
    | some (r, .act _ en g p) => if en s.pool then { s with pool := g s.pool, calls := s.calls.set k (r, p s.pool) } else s

/-- Any number of moves. -/
def PSys.moves (s : PSys ω) (ms : List PMove) : PSys ω := ms.foldl (fun s m => s.move W fuel m) s

/-- A pool that has just been started (driver_routing_pool.go 17-36): nobody uses it yet. -/
def PSys.fresh (s : RPool ω) : PSys ω := ⟨s, [], [], []⟩

/-- driver_routing_pool.go 17-36 `newRoutingPool`, given the connection string, credentials and TLS part of the client (lines 22-23). -/
def openRoutingPool (connStr : Bytes) (size : Int) (userPart tlsPart : Bytes) (w : ω) : Except Err (CRes Unit × RPool ω) :=
  match newRoutingPool connStr size userPart tlsPart w with
  | .error e => .error e
  | .ok s => .ok ((start W).run s)

end
end Verif

/-
Goroutines sharing a pool without routing (/repo/driver_pool.go), and the choice between the pools (/repo/client.go).

Here connections are only numbers; what is done to them is the subject of `Verif.Model.DriverPool`.
-/
import Verif.Model.PoolConns
namespace Verif

/-- The library github.com/jolestar/go-commons-pool as the driver uses it; `Λ` is its state.
* `borrow`: `BorrowObject`; `none` if it has to wait (driver_pool.go 30: `BlockWhenExhausted`).
* `giveBack`: `ReturnObject`.
* `shut`: `Close`.
* `alive`: `ValidateOpen` of a connection that the library has returned. -/
structure PoolLib (Λ : Type) where
  borrow : Λ → Option (Except Err Nat × Λ)
  giveBack : Nat → Λ → Option Err × Λ
  shut : Λ → Λ
  alive : Nat → Λ → Bool × Λ

/-- What happened: the library was asked for a connection, and `Close` of the library was called. -/
inductive ShEv where
  | asked
  | shut
  deriving DecidableEq

/-- driver_pool.go 12-18 `driverPool`; `locked`: whether somebody holds `refLock`. -/
structure Shared (Λ : Type) where
  locked : Bool
  closed : Bool
  lib : Λ
  log : List ShEv

/-- A call. -/
abbrev SP (Λ α : Type) := PProg (Shared Λ) α

section
variable {Λ : Type} (L : PoolLib Λ)

/-- `d.refLock.Lock()`. -/
def shLock : SP Λ Unit := .act [] (fun s => !s.locked) (fun s => { s with locked := true }) fun _ => .done (.ok ())

/-- `d.refLock.Unlock()`. -/
def shUnlock (s : Shared Λ) : Shared Λ := { s with locked := false }

/-- `d.closed`. -/
def shClosed : SP Λ Bool := .prim [] fun s => (s.closed, s)

/-- `d.pool.BorrowObject(context.Background())`: waits, for as long as it takes. -/
def shBorrow : SP Λ (Except Err Nat) :=
  .act [] (fun s => (L.borrow s.lib).isSome)
    (fun s => match L.borrow s.lib with
      | none => s
      | some r => { s with lib := r.2, log := s.log ++ [.asked] })
    fun s => match L.borrow s.lib with
      | none => .done .fuel
      | some r => .done (.ok r.1)

/-- `conn.ValidateOpen()`. -/
def shAlive (r : Nat) : SP Λ Bool := .prim [] fun s => ((L.alive r s.lib).1, { s with lib := (L.alive r s.lib).2 })

/-- driver_pool.go 44-65 `open`.  Objects that are not connections are left out here (`dOpen`). -/
def shOpen : SP Λ (Option Nat) := do
  shLock
  PProg.deferred shUnlock (do
    if ← shClosed then PProg.fail (.new "Driver pool has been closed")
    else
      match ← shBorrow L with
      | .error e => PProg.fail e
      | .ok r => if ← shAlive L r then pure (some r) else PProg.fail (.new "pool returned dead connection"))

/-- driver_pool.go 67-84 `close`.  (`d.pool` is never nil.) -/
def shClose : SP Λ (Option Nat) := do
  shLock
  PProg.deferred shUnlock (do
    if ← shClosed then PProg.fail (errClosed.wrap "internalDriver pool is already closed")
    else
      PProg.prim [] fun s => ((), { s with lib := L.shut s.lib, log := s.log ++ [.shut] })
      PProg.prim [] fun s => ((), { s with closed := true })
      pure none)

/-- driver_pool.go 86-92 `reclaim`, of a connection that is not nil: no lock is taken. -/
def shReclaim (r : Nat) : SP Λ (Option Nat) := do
  match ← PProg.prim [] fun s => ((L.giveBack r s.lib).1, { s with lib := (L.giveBack r s.lib).2 }) with
  | none => pure none
  | some e => PProg.fail e

/-- The methods of the pool. -/
inductive ShReq where
  | open | close | reclaim (r : Nat)
  deriving DecidableEq

/-- Their programs. -/
def ShReq.prog : ShReq → SP Λ (Option Nat)
  | .open => shOpen L
  | .close => shClose L
  | .reclaim r => shReclaim L r

/-- Pool, calls in progress, and results of the calls that have returned. -/
structure ShSys (Λ : Type) where
  pool : Shared Λ
  calls : List (ShReq × SP Λ (Option Nat))
  returned : List (ShReq × CRes (Option Nat))

/-- What can happen next: a goroutine makes a call, or the `k`th call in progress goes on. -/
inductive ShMove where
  | call (r : ShReq)
  | step (k : Nat)
  deriving DecidableEq

/-- Perform a move; a call that has to wait changes nothing. -/
def ShSys.move (s : ShSys Λ) : ShMove → ShSys Λ
  | .call r => { s with calls := s.calls ++ [(r, r.prog L)] }
  | .step k =>
    match s.calls[k]? with
    | none => s
    | some (r, .done res) => { s with calls := s.calls.eraseIdx k, returned := s.returned ++ [(r, res)] }
    | some (r, .act _ en g p) => if en s.pool then { s with pool := g s.pool, calls := s.calls.set k (r, p s.pool) } else s

/-- Any number of moves. -/
def ShSys.moves (s : ShSys Λ) (ms : List ShMove) : ShSys Λ := ms.foldl (fun s m => s.move L m) s

/-- driver_pool.go 20-42 `newDriverPool`: nobody uses it yet. -/
def ShSys.fresh (lib : Λ) : ShSys Λ := ⟨⟨false, false, lib, []⟩, [], []⟩

end

/-- A value of type `IDriverPool`: nil, a nil pointer to a `RoutingDriverPool` (which is not nil), or a pool. -/
inductive PoolValue (σ ω : Type) where
  | nil
  | nilRouting
  | routing (p : RPool ω)
  | plain (p : DPool σ)

/-- `pool == nil`. -/
def PoolValue.isNil {σ ω : Type} : PoolValue σ ω → Bool
  | .nil => true
  | _ => false

/-- client.go 219-232 `NewDriverPool`: pool and error.  In line 221 the nil pointer that `newRoutingPool` returns with an error becomes an interface value that is not nil. -/
def Client.newDriverPool {σ ω : Type} (W : PWorld ω) (semi : Bool) (c : Client) (size : Int) (w : ω) : CRes (PoolValue σ ω × Option Err) :=
  if c.routing then
    match c.openRouting W semi size w with
    | .error e => .ok (.nilRouting, some e)
    | .ok (.err e, _) => .ok (.nilRouting, some e)
    | .ok (.ok (), p) => .ok (.routing p, none)
    | .ok (.panic, _) => .panic
    | .ok (.fuel, _) => .fuel
  else .ok (.plain (Verif.newDriverPool c.connStr), none)

/-- driver_routing_pool.go 50-52 and driver_pool.go 108-110 `Close`: the pool whose `Close` is called, if there is one; otherwise the call panics. -/
def PoolValue.closes {σ ω : Type} : PoolValue σ ω → Bool
  | .nil => false
  | .nilRouting => false
  | .routing _ => true
  | .plain _ => true

end Verif

/-
The routing pool (/repo/routing/pool.go) with connections of `Verif.Model.Conn`, and with users who make calls of the connections they have borrowed.
-/
import Verif.Model.PoolSys
import Verif.Model.DriverPool
import Verif.Spec.History
namespace Verif

/-- The connections of a pool by number, the number of attempts to connect, and the number of ids chosen so far. -/
structure Live (σ : Type) where
  conns : Nat → Option (Conn σ)
  dials : Nat
  ids : Nat

/-- Replace a connection. -/
def Live.put {σ : Type} (w : Live σ) (r : Nat) (c : Conn σ) : Live σ := { w with conns := fun r' => if r' = r then some c else w.conns r' }

/-- The error of a call.  A panic or unbounded recursion inside a connection (see C15, C45) is treated as an error here. -/
def CRes.error? {α : Type} : CRes α → Option Err
  | .ok _ => none
  | .err e => some e
  | .panic => some (.plain "panic")
  | .fuel => some (.plain "fuel")

/-- The result of a call that returns a bool. -/
def CRes.isTrue : CRes Bool → Bool
  | .ok b => b
  | _ => false

/-- client.go 219-221, driver_routing_pool.go 17-36 `newRoutingPool`: the pool of a client that routes. -/
def Client.openRouting {ω : Type} (W : PWorld ω) (semi : Bool) (c : Client) (size : Int) (w : ω) : Except Err (CRes Unit × RPool ω) :=
  openRoutingPool W c.connStr size c.getUsernamePassword (c.getTlsPortion semi) w

section
variable {σ : Type} (env : Env) (W : World σ) (semi : Bool) (fuel : Nat) (net : Net σ) (ids : Nat → Bytes)

/-- The calls the pool makes of its connections (pool.go 106-107, 172, 193-201, 269, 447, 521, 533; routing_handler.go 96-115), for connections as modelled in `Verif.Model.Conn`.
`ids n`: the outcome of the `n`th call of `stringWithCharset`. -/
def liveWorld : PWorld (Live σ) where
  create w r str :=
    match createFrom env W semi fuel net str w.dials with
    | .error e => ({ w with dials := w.dials + 1 }, some e)
    | .ok res =>
      match res.1.error? with
      | none => ({ w.put r res.2 with dials := w.dials + 1 }, none)
      | some e => ({ w with dials := w.dials + 1 }, some e)
  random w := ({ w with ids := w.ids + 1 }, ids w.ids)
  validate w r :=
    match w.conns r with
    | none => (w, false)
    | some c => (w.put r (validateOpen W c).2, (validateOpen W c).1.isTrue)
  close w r :=
    match w.conns r with
    | none => (w, some (.plain "no connection"))
    | some c => (w.put r (close env W fuel c).2, (close env W fuel c).1.error?)
  version w r :=
    match w.conns r with
    | none => 0
    | some c => c.proto.number.toNat
  query w r q db :=
    match w.conns r with
    | none => (w, .error (.plain "no connection"))
    | some c =>
      let res := queryWithDb env W fuel q [] db c
      (w.put r res.2,
        match res.1 with
        | .ok rows => .ok rows.1
        | .err e => .error e
        | .panic => .error (.plain "panic")
        | .fuel => .error (.plain "fuel"))

/-- What can happen next: something in the pool, or a call of connection `r` by a user. -/
inductive LMove where
  | pool (m : PMove)
  | user (r : Nat) (op : Op)

/-- The effect; only connections in the hands of users are called by users. -/
def PSys.live (s : PSys (Live σ)) : LMove → PSys (Live σ)
  | .pool m => s.move (liveWorld env W semi fuel net ids) fuel m
  | .user r op =>
    if s.lent.any (·.ref = r) then
      match s.pool.world.conns r with
      | none => s
      | some c => { s with pool := { s.pool with world := s.pool.world.put r (step env W fuel op c).2 } }
    else s

/-- Any number of moves. -/
def PSys.lives (s : PSys (Live σ)) (ms : List LMove) : PSys (Live σ) := ms.foldl (fun s m => s.live env W semi fuel net ids m) s

end
end Verif

/-
The pool without routing (/repo/driver_pool.go, connection_pool_factory.go).

The objects are kept by the library github.com/jolestar/go-commons-pool, which is not part of the repository.  The model leaves it open what the library does: during each of its
methods it may make any calls of the factory, and `BorrowObject` may return anything.  Connections are those of `Verif.Model.Conn`; a connection is known by its number.
-/
import Verif.Model.Conn
import Verif.Model.Dial
namespace Verif

/-- The content of a `*pool.PooledObject`, as the factory inspects it: the pointer is nil, the field `Object` is nil, it holds something that is not a connection, or connection `r`. -/
inductive PObj where
  | nilPointer | nilObject | foreign | conn (r : Nat)
  deriving DecidableEq

/-- What happened to the connections of the pool.
* `passivated r ok`: `PassivateObject` was called for an object with connection `r`; whether it returned nil.
* `opened r`, `reclaimed r`: `Open` returned connection `r`; somebody gave it back. -/
inductive DEv where
  | passivated (r : Nat) (ok : Bool)
  | opened (r : Nat)
  | reclaimed (r : Nat)
  deriving DecidableEq

/-- driver_pool.go 12-18 `driverPool`, with the connections created so far (`conns`), the objects made by the factory so far (`objs`), the number of attempts to
connect (`dials`), and a record of events (`log`).  Not modelled: `maxConns` (only passed to the library), the mutex (`Open` and `Close` hold it until they return, so
that they do not overlap). -/
structure DPool (σ : Type) where
  connStr : Bytes
  closed : Bool
  dials : Nat
  conns : List (Conn σ)
  objs : List PObj
  log : List DEv

/-- A computation on a pool. -/
abbrev DM (σ α : Type) := DPool σ → CRes α × DPool σ

section
variable {σ : Type} (env : Env) (W : World σ) (semi : Bool) (fuel : Nat) (net : Net σ)

/-- `CreateBoltConn(c.connectionString)`: the new connection has the next number. -/
def dCreate : DM σ Nat := fun s =>
  match createFrom env W semi fuel net s.connStr s.dials with
  | .error e => (.err e, { s with dials := s.dials + 1 })
  | .ok (.ok (), c) => (.ok s.conns.length, { s with dials := s.dials + 1, conns := s.conns ++ [c] })
  | .ok (.err e, _) => (.err e, { s with dials := s.dials + 1 })
  | .ok (.panic, _) => (.panic, { s with dials := s.dials + 1 })
  | .ok (.fuel, _) => (.fuel, { s with dials := s.dials + 1 })

/-- A call of connection `r`.  (There is no call of a connection that does not exist.) -/
def onConn {α : Type} (r : Nat) (m : CM σ α) : DM σ α := fun s =>
  match s.conns[r]? with
  | none => (.panic, s)
  | some c => ((m c).1, { s with conns := s.conns.set r (m c).2 })

/-- connection_pool_factory.go 15-22 `MakeObject`. -/
def makeObject : DM σ Nat := fun s =>
  match dCreate env W semi fuel net s with
  | (.ok r, s') => (.ok s'.objs.length, { s' with objs := s'.objs ++ [.conn r] })
  | (.err e, s') => (.err e, s')
  | (.panic, s') => (.panic, s')
  | (.fuel, s') => (.fuel, s')

/-- connection_pool_factory.go 24-43 `DestroyObject`. -/
def destroyObject : PObj → DM σ Unit
  | .nilPointer => fun s => (.err (.new "pooled object wrapper can not be nil"), s)
  | .nilObject => fun s => (.err (.new "pooled object can not be nil"), s)
  | .foreign => fun s => (.err (.plain "unable to cast"), s)
  | .conn r => fun s =>
    match onConn r (validateOpen W) s with
    | (.ok true, s') => onConn r (close env W fuel) s'
    | (.ok false, s') => (.ok (), s')
    | (.err e, s') => (.err e, s')
    | (.panic, s') => (.panic, s')
    | (.fuel, s') => (.fuel, s')

/-- connection_pool_factory.go 45-60 `ValidateObject`. -/
def validateObject : PObj → DM σ Bool
  | .conn r => onConn r (validateOpen W)
  | _ => fun s => (.ok false, s)

/-- connection_pool_factory.go 62-88 `ActivateObject` of object `o`, whose content is given. -/
def activateObject (o : Nat) : PObj → DM σ Unit
  | .nilPointer => fun s => (.err (.new "pooled object wrapper can not be nil"), s)
  | .nilObject => fun s => (.err (.new "pooled object can not be nil"), s)
  | .foreign => fun s => (.err (.plain "unable to cast"), s)
  | .conn r => fun s =>
    match onConn r (validateOpen W) s with
    | (.ok true, s') => (.ok (), s')
    | (.ok false, s') =>
      match dCreate env W semi fuel net s' with
      | (.ok r', s'') => (.ok (), { s'' with objs := s''.objs.set o (.conn r') })
      | (.err e, s'') => (.err e, s'')
      | (.panic, s'') => (.panic, s'')
      | (.fuel, s'') => (.fuel, s'')
    | (.err e, s') => (.err e, s')
    | (.panic, s') => (.panic, s')
    | (.fuel, s') => (.fuel, s')

/-- Whether a call returned nil. -/
def CRes.isOk {α : Type} : CRes α → Bool
  | .ok _ => true
  | _ => false

/-- connection_pool_factory.go 90-105 `PassivateObject`. -/
def passivateObject : PObj → DM σ Unit
  | .nilPointer => fun s => (.err (.new "pooled object wrapper can not be nil"), s)
  | .nilObject => fun s => (.err (.new "pooled object can not be nil"), s)
  | .foreign => fun s => (.err (.plain "unable to cast"), s)
  | .conn r => fun s =>
    let res := onConn r (makeIdle env W fuel) s
    (res.1, { res.2 with log := res.2.log ++ [.passivated r res.1.isOk] })

/-- A call of the factory by the library; `o` is the number of an object (0, 1, ... in the order in which they were made). -/
inductive FCall where
  | make
  | destroy (o : Nat)
  | validate (o : Nat)
  | activate (o : Nat)
  | passivate (o : Nat)
  deriving DecidableEq

/-- Object number `o`; the library has no other objects than those made by the factory. -/
def DPool.obj (s : DPool σ) (o : Nat) : PObj := s.objs.getD o .nilPointer

/-- The effect of a call of the factory. -/
def FCall.run : FCall → DPool σ → DPool σ
  | .make, s => (makeObject env W semi fuel net s).2
  | .destroy o, s => (destroyObject env W fuel (s.obj o) s).2
  | .validate o, s => (validateObject W (s.obj o) s).2
  | .activate o, s => (activateObject env W semi fuel net o (s.obj o) s).2
  | .passivate o, s => (passivateObject env W fuel (s.obj o) s).2

/-- What a method of the library does: some calls of the factory. -/
def library (calls : List FCall) (s : DPool σ) : DPool σ := calls.foldl (fun s c => c.run env W semi fuel net s) s

/-- driver_pool.go 44-65 `open`; `borrow` is `d.pool.BorrowObject`. -/
def dOpen (borrow : DM σ PObj) : DM σ Nat := fun s =>
  if s.closed then (.err (.new "Driver pool has been closed"), s)
  else
    match borrow s with
    | (.ok (.conn r), s') =>
      match onConn r (validateOpen W) s' with
      | (.ok true, s'') => (.ok r, { s'' with log := s''.log ++ [.opened r] })
      | (.ok false, s'') => (.err (.new "pool returned dead connection"), s'')
      | (.err e, s'') => (.err e, s'')
      | (.panic, s'') => (.panic, s'')
      | (.fuel, s'') => (.fuel, s'')
    | (.ok _, s') => (.err ((GoErr.new "bolt driver internal error").wrap "cannot cast to [IConnection]"), s')
    | (.err e, s') => (.err e, s')
    | (.panic, s') => (.panic, s')
    | (.fuel, s') => (.fuel, s')

/-- driver_pool.go 67-84 `close`; `shut` is `d.pool.Close`.  (`d.pool` is not nil after `newDriverPool`.) -/
def dClose (shut : DPool σ → DPool σ) : DM σ Unit := fun s =>
  if s.closed then (.err (errClosed.wrap "internalDriver pool is already closed"), s)
  else (.ok (), { shut s with closed := true })

/-- driver_pool.go 86-92 `reclaim`; `none` is nil; `giveBack` is `d.pool.ReturnObject`. -/
def dReclaim (giveBack : Nat → DM σ Unit) : Option Nat → DM σ Unit
  | none => fun s => (.err (.new "cannot reclaim nil connection"), s)
  | some r => fun s => giveBack r { s with log := s.log ++ [.reclaimed r] }

/-- driver_pool.go 20-42 `newDriverPool`. -/
def newDriverPool (connStr : Bytes) : DPool σ := ⟨connStr, false, 0, [], [], []⟩

end
end Verif

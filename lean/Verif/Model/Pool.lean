/-
The routing pool (/repo/routing/pool.go, pool_wrapper.go).

The pool is used by many goroutines: borrowers, and one goroutine that refreshes it.  A call is a program of atomic actions on the pool; goroutines interleave between the actions
(`Verif.Model.PoolSys`).  Connections are known by a number; what they answer is left to a world.  Not modelled: the fields `borrowed`, `numBorrows` of a wrapper and `updating` of the
pool, which no code reads; logging; overflow of the counters.
-/
import Verif.Model.Handler
import Verif.Model.Conn
namespace Verif

/-- A connection as the pool's users see it: which one it is, and its connection id (connection.go 155-161). -/
structure ConnRef where
  ref : Nat
  id : Bytes
  deriving DecidableEq

/-- pool_wrapper.go 8-15 `connectionPoolWrapper`.  `ConnType` is `WriteMode` or `ReadMode`.  `markForDeletion` is kept in the pool (`RPool.marked`), since wrappers are shared by reference. -/
structure Wrap where
  conn : ConnRef
  connStr : Bytes
  write : Bool
  deriving DecidableEq

/-- What happens outside the pool, with state `ω`: connections are numbered by the caller.
* `create w r str`: `CreateBoltConn(str)`, the connection gets the number `r`; the error, if any.
* `random w`: `stringWithCharset(50, charset)` (util.go 11-17).
* `validate`, `close`, `version`, `query`: `ValidateOpen`, `Close`, `GetProtocolVersionNumber`, `Query`/`QueryWithDb` (rows only) of a connection. -/
structure PWorld (ω : Type) where
  create : ω → Nat → Bytes → ω × Option Err
  random : ω → ω × Bytes
  validate : ω → Nat → ω × Bool
  close : ω → Nat → ω × Option Err
  version : ω → Nat → Nat
  query : ω → Nat → Bytes → Bytes → ω × Except Err (List (List Val))

/-- Observable events.
* `created r id str write`: a connection of the pool was created.
* `dialled r str`: a connection for refreshing was created.
* `checked r ok`: `ValidateOpen` returned `ok`.
* `closed r`: `Close` was called.
* `overview v answer`: the cluster overview was requested over a connection of protocol version `v`. -/
inductive PEv where
  | created (r : Nat) (id str : Bytes) (write : Bool)
  | dialled (r : Nat) (str : Bytes)
  | checked (r : Nat) (ok : Bool)
  | closed (r : Nat)
  | overview (version : Nat) (answer : Except Err (List (List Val)))

/-- A Go map from connection ids to wrappers. -/
abbrev ConnMap := List (Bytes × Wrap)

/-- `delete(m, k)`. -/
def ConnMap.del (m : ConnMap) (k : Bytes) : ConnMap := m.filter fun e => e.1 ≠ k

/-- `m[k] = x`. -/
def ConnMap.put (m : ConnMap) (k : Bytes) (x : Wrap) : ConnMap := (k, x) :: m.del k

/-- `x, ok := m[k]`. -/
def ConnMap.get? (m : ConnMap) (k : Bytes) : Option Wrap := (m.find? fun e => e.1 = k).map (·.2)

/-- pool.go 16-52 `routingPool`.  `refreshInterval` is not modelled (a refresh can happen at any time).  Of the mutex the model keeps whether a writer holds it and the number of readers.
The queues are lists (C67).  `marked`: the wrappers whose field `markForDeletion` is set.
Ghosts: `next`, the number of the next connection; `log`. -/
structure RPool (ω : Type) where
  userPassPart : Bytes
  tlsInfo : Bytes
  leaderConnStr : Bytes
  writer : Bool
  readers : Nat
  running : Bool
  totalConns : Int
  minWriteIdle : Int
  maxWriteIdle : Int
  minReadIdle : Int
  maxReadIdle : Int
  handler : Handler
  connStrLookup : List (Bytes × List Nat)
  borrowedConns : ConnMap
  heldConns : ConnMap
  rwStrings : List Bytes
  rwIndex : Nat
  writeQueue : List Wrap
  readStrings : List Bytes
  readIndex : Nat
  readQueue : List Wrap
  marked : List Nat
  world : ω
  next : Nat
  log : List PEv

/-- Variables shared by the goroutines.  (`running` is accessed atomically, pool.go 485-495.)  `queue w`: the field `writeQueue`/`readQueue`; `items w`: the field `items` of that queue.
`rand`: the random number generator `seededRand` (util.go 8-9), which belongs to the package and not to a pool. -/
inductive Var where
  | borrowed | held | queue (w : Bool) | items (w : Bool) | strings | index | handler | marks | rand
  deriving DecidableEq

/-- An access to a variable.  `locked`: under the mutex of the queue (queue.go 27, 34). -/
structure Access where
  var : Var
  write : Bool
  locked : Bool := false
  deriving DecidableEq

/-- What is left to do of a call: it has returned, or it will perform an atomic action as soon as it is enabled (`enabled`), and continue depending on the state it found.
`acc` lists the shared variables the action accesses. -/
inductive PProg (S α : Type) where
  | done (r : CRes α)
  | act (acc : List Access) (enabled : S → Bool) (g : S → S) (k : S → PProg S α)

namespace PProg
variable {S α β : Type}

/-- Go's `x, err := m; if err != nil { return err }; f(x)`. -/
def bind : PProg S α → (α → PProg S β) → PProg S β
  | done (.ok a), f => f a
  | done (.err e), _ => done (.err e)
  | done .panic, _ => done .panic
  | done .fuel, _ => done .fuel
  | act acc en g k, f => act acc en g fun s => bind (k s) f

instance : Monad (PProg S) where
  pure a := .done (.ok a)
  bind := PProg.bind

/-- `return err`. -/
def fail (e : Err) : PProg S α := .done (.err e)

/-- An action that is always enabled. -/
def prim (acc : List Access) (m : S → α × S) : PProg S α := .act acc (fun _ => true) (fun s => (m s).2) fun s => .done (.ok (m s).1)

/-- The error of a call as a value: `err := m`. -/
def attempt : PProg S Unit → PProg S (Option Err)
  | done (.ok _) => done (.ok none)
  | done (.err e) => done (.ok (some e))
  | done .panic => done .panic
  | done .fuel => done .fuel
  | act acc en g k => act acc en g fun s => attempt (k s)

/-- `defer`: an action performed when the call returns or panics. -/
def deferred (f : S → S) : PProg S α → PProg S α
  | done r => .act [] (fun _ => true) f fun _ => .done r
  | act acc en g k => .act acc en g fun s => deferred f (k s)

/-- Execute without interruption.  A call that waits for a lock nobody will release does not return (`fuel`). -/
def run : PProg S α → S → CRes α × S
  | done r, s => (r, s)
  | act _ en g k, s => if en s then run (k s) (g s) else (.fuel, s)

end PProg

section
variable {ω : Type} (W : PWorld ω)

/-- A call on a pool. -/
abbrev PP (ω α : Type) := PProg (RPool ω) α

/-- `r.mutex.RLock()`: waits for a writer. -/
def rlock : PP ω Unit := .act [] (fun s => !s.writer) (fun s => { s with readers := s.readers + 1 }) fun _ => .done (.ok ())

/-- `r.mutex.RUnlock()`. -/
def runlock (s : RPool ω) : RPool ω := { s with readers := s.readers - 1 }

/-- `r.mutex.Lock()`: waits for a writer and for all readers. -/
def lock : PP ω Unit := .act [] (fun s => !s.writer && s.readers = 0) (fun s => { s with writer := true }) fun _ => .done (.ok ())

/-- `r.mutex.Unlock()`. -/
def unlock (s : RPool ω) : RPool ω := { s with writer := false }

/-- `conn.ValidateOpen()`. -/
def pValidate (c : ConnRef) : PP ω Bool := .prim [] fun s =>
  ((W.validate s.world c.ref).2, { s with world := (W.validate s.world c.ref).1, log := s.log ++ [.checked c.ref (W.validate s.world c.ref).2] })

/-- `conn.Close()`: the error, if any. -/
def pClose (r : Nat) : PP ω (Option Err) := .prim [] fun s =>
  ((W.close s.world r).2, { s with world := (W.close s.world r).1, log := s.log ++ [.closed r] })

/-- `delete(r.heldConns, id)`. -/
def delHeld (id : Bytes) : PP ω Unit := .prim [⟨.held, true, false⟩] fun s => ((), { s with heldConns := s.heldConns.del id })

/-- `r.heldConns[id] = x`. -/
def putHeld (x : Wrap) : PP ω Unit := .prim [⟨.held, true, false⟩] fun s => ((), { s with heldConns := s.heldConns.put x.conn.id x })

/-- The queue for writing or for reading. -/
def RPool.queueOf (s : RPool ω) (w : Bool) : List Wrap := if w then s.writeQueue else s.readQueue

/-- Replace it. -/
def RPool.setQueue (s : RPool ω) (w : Bool) (q : List Wrap) : RPool ω := if w then { s with writeQueue := q } else { s with readQueue := q }

/-- `r.writeQueue.Enqueue(x)`, `r.readQueue.Enqueue(x)`. -/
def pEnqueue (w : Bool) (x : Wrap) : PP ω Unit := .prim [⟨.queue w, false, false⟩, ⟨.items w, true, true⟩] fun s => ((), s.setQueue w (s.queueOf w ++ [x]))

/-- `r.writeQueue.Dequeue()`, `r.readQueue.Dequeue()`; `none` is nil. -/
def pDequeue (w : Bool) : PP ω (Option Wrap) := .prim [⟨.queue w, false, false⟩, ⟨.items w, true, true⟩] fun s =>
  match s.queueOf w with
  | [] => (none, s)
  | x :: q => (some x, s.setQueue w q)

/-- `r.writeQueue.Size()`, `r.readQueue.Size()`: does not take the mutex of the queue (queue.go 59-61). -/
def pSize (w : Bool) : PP ω Nat := .prim [⟨.queue w, false, false⟩, ⟨.items w, false, false⟩] fun s => ((s.queueOf w).length, s)

/-- `conn.markForDeletion`. -/
def pMarked (c : ConnRef) : PP ω Bool := .prim [⟨.marks, false, false⟩] fun s => (s.marked.contains c.ref, s)

/-- pool.go 54-99 `NewRoutingPool`. -/
def newRoutingPool (leaderConnStr : Bytes) (numConns : Int) (authPart tlsInfo : Bytes) (w : ω) : Except Err (RPool ω) :=
  if leaderConnStr = [] then .error (.plain "leaderConnStr can not be nil")
  else if numConns = 0 ∨ numConns = 1 then .error (.plain "number of connections must be greater than 1")
  else .ok { userPassPart := authPart, tlsInfo := tlsInfo, leaderConnStr := replaceAll (ascii "+routing") leaderConnStr, writer := false, readers := 0, running := false,
             totalConns := numConns, minWriteIdle := 0, maxWriteIdle := 0, minReadIdle := 0, maxReadIdle := 0, handler := .empty, connStrLookup := [], borrowedConns := [],
             heldConns := [], rwStrings := [], rwIndex := 0, writeQueue := [], readStrings := [], readIndex := 0, readQueue := [], marked := [], world := w, next := 0, log := [] }
where
  /-- `strings.Replace(s, t, "", -1)` for a non-empty `t`. -/
  replaceAll (t : Bytes) (s : Bytes) : Bytes := removeF t (s.length + 1) s
  /-- With a bound on the number of steps. -/
  removeF (t : Bytes) : Nat → Bytes → Bytes
    | 0, s => s
    | _ + 1, [] => []
    | n + 1, x :: s => if t.isPrefixOf (x :: s) then removeF t n ((x :: s).drop t.length) else x :: removeF t n s

/-- pool.go 101-115 `removeConn`. -/
def removeConn : Option Wrap → PP ω Unit
  | none => .fail (.plain "invalid connection, can not be nil")
  | some x => do
    let ok ← pValidate W x.conn
    if ok then delHeld x.conn.id
    else do
      match ← pClose W x.conn.ref with
      | some e => .fail e
      | none => delHeld x.conn.id

/-- pool.go 171-190 `newConnection`.  Creating the connection, and choosing its id (`makeConnID`, lines 167-169: the mode, a dash, 50 random letters), is one action: nobody else knows the
connection yet.  Drawing the letters changes the generator (util.go 14), if the connection could be made. -/
def newConnection (write : Bool) (connStr : Bytes) : PP ω Wrap := do
  let r ← (.prim [⟨.rand, true, false⟩] fun s =>
    match W.create s.world s.next connStr with
    | (w, some e) => (.error e, { s with world := w, next := s.next + 1 })
    | (w, none) =>
      let (w', rnd) := W.random w
      let id := (if write then ascii "1-" else ascii "0-") ++ rnd
      (.ok ⟨⟨s.next, id⟩, connStr, write⟩, { s with world := w', next := s.next + 1, log := s.log ++ [.created s.next id connStr write] }) : PP ω (Except Err Wrap))
  match r with
  | .error e => .fail e
  | .ok x => do
    putHeld x
    pure x

/-- pool.go 117-140 `addWriteConn`. -/
def addWriteConn : PP ω Unit := do
  let str ← (.prim [⟨.strings, false, false⟩, ⟨.index, true, false⟩] fun s =>
    if s.rwStrings = [] then (.error (.err (.plain "no connection strings")), s)
    else
      let i := if s.rwIndex + 1 = s.rwStrings.length then 0 else s.rwIndex + 1
      (match s.rwStrings[i]? with
        | some str => .ok str
        | none => .error .panic,
       { s with rwIndex := i }) : PP ω (Except (CRes Unit) Bytes))
  match str with
  | .error r => .done r
  | .ok str => do
    let x ← newConnection W true str
    pEnqueue true x

/-- pool.go 142-165 `addReadConn`. -/
def addReadConn : PP ω Unit := do
  let str ← (.prim [⟨.strings, false, false⟩, ⟨.index, true, false⟩] fun s =>
    if s.readStrings = [] then (.error (.err (.plain "no connection strings")), s)
    else
      let i := if s.readIndex + 1 = s.readStrings.length then 0 else s.readIndex + 1
      (match s.readStrings[i]? with
        | some str => .ok str
        | none => .error .panic,
       { s with readIndex := i }) : PP ω (Except (CRes Unit) Bytes))
  match str with
  | .error r => .done r
  | .ok str => do
    let x ← newConnection W false str
    pEnqueue false x

/-- pool.go 553-561 `addAuthInfoToConnStr`. -/
def addAuthInfoToConnStr (userPassPart tlsInfo connStr : Bytes) : Bytes :=
  if userPassPart = [] ∧ tlsInfo = [] then connStr
  else ascii "bolt://" ++ userPassPart ++ ascii "@" ++ newRoutingPool.replaceAll (ascii "bolt://") connStr ++ tlsInfo

/-- pool.go 227-233, 235-240: append the strings that are not yet there, with credentials. -/
def addNew (userPassPart tlsInfo : Bytes) (actual : List Bytes) : List Bytes → List Bytes
  | [] => actual
  | newStr :: rest =>
    let str := addAuthInfoToConnStr userPassPart tlsInfo newStr
    addNew userPassPart tlsInfo (if stringSliceContains actual str then actual else actual ++ [str]) rest

/-- pool.go 203-261: the part of `refreshConnections` after the overview.  The list of dead strings, and the connections marked because `connStrLookup` lists them under a dead string. -/
def RPool.takeStrings (s : RPool ω) : RPool ω :=
  let newWriteStrs := s.handler.getWriteConnectionStrings
  let newReadStrs := s.handler.getReadOnlyConnectionString
  let deadStrs := s.rwStrings.filter (fun str => !stringSliceContains newWriteStrs str) ++ s.readStrings.filter (fun str => !stringSliceContains newReadStrs str)
  let actualWrites := s.rwStrings.filter fun str => stringSliceContains newWriteStrs str
  let actualReads := s.readStrings.filter fun str => stringSliceContains newReadStrs str
  { s with
    marked := s.marked ++ deadStrs.flatMap fun str => ((s.connStrLookup.find? fun e => e.1 = str).map (·.2)).getD []
    rwStrings := addNew s.userPassPart s.tlsInfo actualWrites newWriteStrs
    readStrings := addNew s.userPassPart s.tlsInfo actualReads newReadStrs }

/-- pool.go 192-262 `refreshConnections`.  The error of `refreshClusterInfo` is dropped (line 201).  The fields it changes are accessed by holders of the lock only (and by `Start`),
so that changing them is one action. -/
def refreshConnections : PP ω Unit := do
  let conn ← (.prim [] fun s =>
    match W.create s.world s.next s.leaderConnStr with
    | (w, some _) => (none, { s with world := w, next := s.next + 1 })
    | (w, none) => (some s.next, { s with world := w, next := s.next + 1, log := s.log ++ [.dialled s.next s.leaderConnStr] }) : PP ω (Option Nat))
  match conn with
  | none => pure ()
  | some r => do
    (.prim [⟨.handler, true, false⟩] fun s =>
      let v := W.version s.world r
      let q := W.query s.world r clusterOverview (overviewDb v)
      ((), { s with world := q.1, log := s.log ++ [.overview v q.2], handler := (s.handler.refreshClusterInfo v q.2).1 }) : PP ω Unit)
    (.prim [⟨.handler, false, false⟩, ⟨.strings, true, false⟩, ⟨.marks, true, false⟩] fun s => ((), s.takeStrings) : PP ω Unit)
    let _ ← pClose W r
    pure ()

/-- pool.go 267-277: the loop over the read queue: the wrappers that are kept. -/
def pruneReads : List Wrap → List Wrap → PP ω (List Wrap)
  | [], reads => pure reads
  | x :: xs, reads => do
    let m ← pMarked x.conn
    if m then do
      let _ ← pClose W x.conn.ref
      pruneReads xs reads
    else pruneReads xs (reads ++ [x])

/-- pool.go 279-289: the loop over the write queue. -/
def pruneWrites : List Wrap → List Wrap → PP ω (List Wrap)
  | [], writes => pure writes
  | x :: xs, writes => do
    let m ← pMarked x.conn
    if m then do
      let _ ← (removeConn W (some x)).attempt
      pruneWrites xs writes
    else pruneWrites xs (writes ++ [x])

/-- `r.readQueue.items`, `r.writeQueue.items`. -/
def pItems (w : Bool) : PP ω (List Wrap) := .prim [⟨.queue w, false, false⟩, ⟨.items w, false, false⟩] fun s => (s.queueOf w, s)

/-- `r.writeQueue = NewQueueFromSlice(q...)`, `r.readQueue = NewQueueFromSlice(q...)`. -/
def pSetQueue (w : Bool) (q : List Wrap) : PP ω Unit := .prim [⟨.queue w, true, false⟩] fun s => ((), s.setQueue w q)

/-- pool.go 264-293 `prune`. -/
def prune : PP ω Unit := do
  let rs ← pItems false
  let reads ← pruneReads W rs []
  let ws ← pItems true
  let writes ← pruneWrites W ws []
  pSetQueue true writes
  pSetQueue false reads

/-- `for r.readQueue.Size() == n { err := step; if err != nil { continue } }` (pool.go 297-303 and similar). -/
def whileSize (w : Bool) (n : RPool ω → Int) (step : PP ω Unit) : Nat → PP ω Unit
  | 0 => .done .fuel
  | fuel + 1 => do
    let go ← (.prim [⟨.queue w, false, false⟩, ⟨.items w, false, false⟩] fun s => (decide (((s.queueOf w).length : Int) = n s), s) : PP ω Bool)
    if go then do
      let _ ← step.attempt
      whileSize w n step fuel
    else pure ()

/-- How the size of a queue compares with its limits: `Size() < min`, otherwise `Size() > max`. -/
def pCompare (w : Bool) : PP ω Ordering := .prim [⟨.queue w, false, false⟩, ⟨.items w, false, false⟩] fun s =>
  let n : Int := (s.queueOf w).length
  let lo := if w then s.minWriteIdle else s.minReadIdle
  let hi := if w then s.maxWriteIdle else s.maxReadIdle
  (if n < lo then .lt else if n > hi then .gt else .eq, s)

/-- pool.go 295-343 `balance`. -/
def balance (fuel : Nat) : PP ω Unit := do
  match ← pCompare false with
  | .lt => whileSize false (·.minReadIdle) (addReadConn W) fuel
  | _ => pure ()
  match ← pCompare true with
  | .lt => whileSize true (·.minWriteIdle) (addWriteConn W) fuel
  | .gt => whileSize true (·.maxWriteIdle) (do removeConn W (← pDequeue true)) fuel
  | .eq => pure ()
  match ← pCompare false with
  | .lt => whileSize false (·.minReadIdle) (addReadConn W) fuel
  | .gt => whileSize false (·.maxReadIdle) (do removeConn W (← pDequeue false)) fuel
  | .eq => pure ()

/-- pool.go 349-356: one round of `refreshHandler`. -/
def refreshRound (fuel : Nat) : PP ω Unit := do
  lock
  refreshConnections W
  prune W
  balance W fuel
  (.prim [] fun s => ((), unlock s) : PP ω Unit)

/-- `for i := 0; i < n; i++ { err := step; if err != nil { return err } }` (pool.go 386-398). -/
def times : Nat → PP ω Unit → PP ω Unit
  | 0, _ => pure ()
  | n + 1, step => do
    step
    times n step

/-- pool.go 365-374: the first part of `Start`.  (Go's `/` and `%` truncate.) -/
def RPool.startHead (s : RPool ω) : RPool ω :=
  if s.totalConns.tmod 2 = 0 then { s with running := true, maxWriteIdle := s.totalConns.tdiv 2, maxReadIdle := s.totalConns.tdiv 2 }
  else { s with running := true, maxWriteIdle := (s.totalConns - 1).tdiv 2 + 1, maxReadIdle := (s.totalConns - 1).tdiv 2 }

/-- pool.go 383-398: the rest of `Start`. -/
def startRest (maxWrite maxRead : Int) : PP ω Unit := do
  refreshConnections W
  times maxWrite.toNat (addWriteConn W)
  times maxRead.toNat (addReadConn W)

/-- pool.go 360-403 `Start`, without starting the refreshing goroutine (line 400: see `PoolSys`). -/
def start : PP ω Unit := do
  let ok ← (.prim [] fun s => (s.running, s) : PP ω Bool)
  if ok then .fail (.plain "pool already running")
  else do
    let (w, r) ← (.prim [] fun s => ((s.startHead.maxWriteIdle, s.startHead.maxReadIdle), s.startHead) : PP ω (Int × Int))
    startRest W w r

/-- `for q.Size() != 0 { err := r.removeConn(q.Dequeue()); if err != nil { return err } }` (pool.go 412-424). -/
def drain (w : Bool) : Nat → PP ω Unit
  | 0 => .done .fuel
  | fuel + 1 => do
    let n ← pSize w
    if n = 0 then pure ()
    else do
      removeConn W (← pDequeue w)
      drain w fuel

/-- pool.go 405-427 `Stop`. -/
def stop (fuel : Nat) : PP ω Unit := do
  let ok ← (.prim [] fun s => (s.running, s) : PP ω Bool)
  if ok then do
    (.prim [] fun s => ((), { s with running := false }) : PP ω Unit)
    drain W false fuel
    drain W true fuel
  else .fail (.plain "routingPool is not running")

/-- pool.go 429-459 `internalBorrow`. -/
def internalBorrow (w : Bool) : Nat → PP ω Wrap
  | 0 => .done .fuel
  | fuel + 1 => do
    match ← pDequeue w with
    | none => .fail (.plain "stale queue")
    | some x => do
      let m ← pMarked x.conn
      if m then do
        removeConn W (some x)
        internalBorrow w fuel
      else do
        let ok ← pValidate W x.conn
        if ok then do
          delHeld x.conn.id
          (.prim [⟨.borrowed, true, false⟩] fun s => ((), { s with borrowedConns := s.borrowedConns.put x.conn.id x }) : PP ω Unit)
          pure x
        else do
          removeConn W (some x)
          internalBorrow w fuel

/-- pool.go 461-471 `BorrowRConnection`. -/
def borrowR (fuel : Nat) : PP ω ConnRef := do
  rlock
  .deferred runlock do
    let x ← internalBorrow W false fuel
    pure x.conn

/-- pool.go 473-483 `BorrowRWConnection`. -/
def borrowRW (fuel : Nat) : PP ω ConnRef := do
  rlock
  .deferred runlock do
    let x ← internalBorrow W true fuel
    pure x.conn

/-- pool.go 509-551 `Reclaim` of a connection that is not nil. -/
def reclaim (c : ConnRef) : PP ω Unit := do
  lock
  .deferred unlock do
    let ok ← (.prim [] fun s => (s.running, s) : PP ω Bool)
    if !ok then .fail (.plain "pool is not running")
    else do
      let found ← (.prim [⟨.borrowed, false, false⟩] fun s => (s.borrowedConns.get? c.id, s) : PP ω (Option Wrap))
      match found with
      | none =>
        match ← pClose W c.ref with
        | some e => .fail (e.wrap "connection not found; also had error closing connection")
        | none => .fail (.plain "connection not found")
      | some x => do
        (.prim [⟨.borrowed, true, false⟩] fun s => ((), { s with borrowedConns := s.borrowedConns.del c.id }) : PP ω Unit)
        (.prim [⟨.held, true, false⟩] fun s => ((), { s with heldConns := s.heldConns.put c.id x }) : PP ω Unit)
        let ok ← pValidate W x.conn
        let bad ← (if ok then pure none else (removeConn W (some x)).attempt : PP ω (Option Err))
        match bad with
        | some _ => if x.write then addWriteConn W else addReadConn W
        | none => pEnqueue x.write x

/-- driver_routing_pool.go 38-44 `Open`. -/
def routingOpen (fuel : Nat) (mode : AccessMode) : PP ω ConnRef := if mode = readMode then borrowR W fuel else borrowRW W fuel

end
end Verif

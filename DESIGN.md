# Design

Subject: the Go Bolt driver in /repo (mindstand/go-bolt). The code is read as
text; nothing from it is built or run. The model is a set of total computable
Lean 4 functions that follow the Go functions one by one; every definition
cites the file and lines it models and states its simplifications.

## Layout

* `lean/Verif/Model/*`  - executable model of the Go code.
* `lean/Verif/Spec/*`   - what the properties are stated with: PackStream wire
  grammar, chunk framing, conforming server, histories of calls, custody of pooled
  connections ... The specifications of the wire formats (`PackStream`, `Tree`,
  `Interp`, `Framing`, `Requests`) do not use the encoder, decoder or
  connection. The vocabularies for histories (`History`, `Pool`, `DriverPool`) name the
  calls of the model and quantify over everything that may happen between them.
  `Scripted` holds concrete servers for examples and counterexamples.
* `lean/Verif/Proofs/*` - helper lemmas.
* `lean/Verif/Props/*`  - the theorems of each property, with an
  `example` beside each theorem showing that its hypotheses are met by a
  concrete non-trivial case. Some files hold related properties: C29 is in `C30`, the refutation of C43 in
  `C42`, C53 and C55 in `C52`, C60/C62/C64 in `C59`, C72 in `C33`, C78 in `C76`; `C73_refuted` is in `C46`, the goroutine version of C70 in `C96`.

Naming: `Verif.Cnn_*` is the full property; `Verif.Cnn_*_partial` is a weaker
statement (the file says what is missing); `Verif.Cnn_*_refuted` is the
negation of the property, with a concrete witness, where the code does not
satisfy it.

| Go | model |
|----|-------|
| encoding/encoding_v1, encoding_v2: encoder | `Encode`, `Chunk` |
| encoding/encoding_v1, encoding_v2: decoder | `Decode`, `Frame` |
| structures/*, structures/messages/* | `Val`, `Messages` |
| protocol/* | `Protocol` |
| connection/connection.go, transaction.go, result.go | `Conn`, `Result` |
| the connection's mutex and goroutines | `Threads` |
| errors/* | `Errors` |
| net/url, strconv (as used) | `Url` |
| client.go, opt.go, driver.go, connection string | `Client` |
| connection.go: files, TLS settings, dialling | `Dial` |
| routing/routing_handler.go, util.go | `Handler` |
| routing/queue.go | `Queue` |
| routing/pool.go | `Pool` (calls as programs of atomic actions), `PoolSys` (goroutines), `PoolConns` (with real connections and users) |
| driver_pool.go, connection_pool_factory.go | `DriverPool`, `DriverPoolSys` (goroutines, choice of pool) |
| log/log.go | `Log` |
| what connections write to the log | `ConnLog` |
| texts of errors for connection strings | `ErrText` |
| network operations of connections, with deadlines | `ConnNet` |
| types for parameters and rows | `Params` |

## Trusted base

* The Lean 4.33.0 kernel. No axioms beyond `propext`, `Classical.choice`,
  `Quot.sound`; no `sorry`, `native_decide`, `bv_decide`.
* The correspondence between the Go text and the model, recorded in
  the comments of `Verif/Model`.
* Semantics of the Go standard library as modelled: `bytes.Buffer`
  (Write/Next/Read/ReadByte/ReadRune), `encoding/binary`, integer conversions,
  map iteration (any order), `net.Conn` (a stream of segments, ended by EOF or by
  another error), `net/url` (as far as cited), `sync` locks (as mutual exclusion).
* IEEE-754 arithmetic is not modelled. Float values are 64-bit patterns that are
  copied; results of float arithmetic (`float32 -> float64`, `Duration.Hours()`)
  are carried in the value as data and universally quantified.
* `time.Time` is modelled as (unix seconds, nanoseconds, zone offset); time zones as
  functions from instants to offsets; calendar arithmetic is outside the model.
* `gotime` (Date, Clock, LocalClock, LocalTime) values are modelled by the integers
  that the codec transmits.
* Go scheduling: interleavings of atomic steps of lock-protected code.

Not modelled: logging output formats, TLS record layer, DNS, real timeouts (a timeout is
a read error), the internals of `jolestar/go-commons-pool` (only the calls made by the
factory and the wrapper are modelled), memory exhaustion (C26 counts requested slots).

## Codec (C01-C26)

Values are an inductive `Val` covering every dynamic type the encoder's type switch names
plus `other` for everything else. Maps are association lists in *iteration order*;
theorems quantify over every list, hence every order. The encoder returns the list of
`Write` calls it makes and an optional error. The chunk writer folds the writes.
The decoder works on the unread bytes of the de-chunked buffer and returns
`ok / err / panic / fuel`; fuel is proved irrelevant (C12).

Spec: `PS` trees and an inductive wire grammar `Repr` parameterised by which
length fields are legal (`full`: unsigned; `signed`: the lengths the decoder can read).

| id | how |
|----|-----|
| C01 | structural induction on values: encoder conforms to grammar, decoder inverts grammar |
| C02 | case split over boundaries with `omega`, minimality against every grammar encoding |
| C03 | proved for uint64, refuted for uint (wraps) |
| C04 | refuted (128..255, 32768..65535), partial: exact set of lengths that do round-trip |
| C05 | induction on values against `Repr full` |
| C06 | induction on `Repr`: unique reading |
| C07 | induction on the writes: the chunks carry the bytes in order (strings longer than the buffer are the subject of C09) |
| C08 | from C07 |
| C09 | refuted with a parametric family of lengths; exact condition |
| C10 | induction on segments |
| C11 | induction on message lists |
| C12 | fuel bound by buffer length; C123: exact number of nested calls (levels of the tree), no limit |
| C13 | refuted with witnesses; partial: a panic needs one of the patterns of `Spec/Hazards.lean` |
| C14 | refuted for strings (short reads accepted); partial: all other cut points |
| C15 | characterisation of encodable values, both directions |
| C16 | refuted (first chunk already sent); partial: nothing written if the payload prefix is shorter than the chunk size |
| C17 | permutation relation on values |
| C18 | induction on entries |
| C19 | instance of C01 with an explicit statement |
| C20 | integer arithmetic with wrap-around |
| C21 | refuted near transitions; partial: zones constant over the window |
| C22 | refuted; shows every encoded duration is undecodable |
| C23 | first half proved, second half refuted |
| C24 | induction |
| C25 | frame lemma for the decoder |
| C26 | refuted (5 bytes ask for 2^31-1 slots) |

## Protocol and messages (C27-C32, C75)

Direct functional models, theorems over all arguments. C29 is refuted (inverted test),
C31 refuted for DISCARD.

## Connection (C33-C49, C72-C74, C76-C78, C80, C81, C105)

The connection is a state machine on bytes: incoming segments, end-of-stream
kind, sent messages, closed flags, transaction handles. Calls are programs in a state and
error monad (`CM`: ok / error / panic / out of fuel). The server and the network are a reactive
`World`: a function from its state and the bytes of a message to the bytes it appends to the
stream. For safety properties (C36-C38, C45, C47) it is arbitrary; for alignment and
result properties (C33-C35) it is constrained by `Spec/Server`, `Spec/Exchange`.

* Invariants of histories: `Proofs/StepsAll` reduces a relation that holds for the
  primitives (send, receive, close, probe) to all calls; instances are the transaction
  invariant (`ConnInv`), events (`ConnEv`), closedness (`Closed`), absence of
  transactions (`NoTx`).
* Requests (C72) and alignment (C35): simulation of the call by the exchange the
  specification prescribes (`Requests`, `Aligned`, `Failure`).
* What may be sent (C102): `Spec/MaySend` lists the requests of each call; every primitive send is shown to
  carry one of them, whatever the server answers.
* Lost sockets (C103): an invariant of the pool's histories (a connection is held by an object or closed), which
  fails exactly where the server closes its side; then the socket provably stays open for good.
* Termination (C45): fuel bounded by the number of bytes in flight; `C45_diverges` shows
  that a server that never stops keeps a call from returning.
* Transactions at the server (C80, C81): `Spec/TxServer` describes a server that keeps
  transactions as a ledger of permanent and pending statements; `Proofs/Ledger` shows what
  each call does to the ledger, and the history theorems are inductions over it.
* Results (C105): what a statement gives is a relation `Database` between the ledger, the
  statement (text, parameters, metadata) and the outcome, which the server's answers obey. The
  caller's book, kept from the calls alone, is shown to be the server's ledger.
* Concurrency (C46, C73, C119): goroutines make atomic actions in any order; serializability for
  calls under the mutex, a witness for those that do not take it. Every action is labelled with
  the fields of the connection it reads and writes; C119 is the exact table of the kinds of calls
  that can race, with a scripted witness for each pair that can.

## Client (C50-C55, C79, C89-C92, C99, C101)

Options are functions on the client record; the connection string is built and
parsed by modelled string functions (`Url` follows net/url). C54 and C79 are
characterisations over all strings.

`Dial` computes from a connection string what is dialled (TCP or TLS, with which settings and
timeout); `createFrom` is the connection that results, for any file system and any network
(`Net`). C89-C92 say "connects to X and to nothing else" as noninterference: the result does not
change when everything but X is replaced. Who a connection authenticates as is read off the
messages it has sent (`Spec.Introduced`, `C89_unique`).

## Routing (C56-C69, C82-C88)

A call of the pool is a `PProg`: a tree of atomic actions, each with its enabling condition
(locks) and the shared variables it accesses. `PSys.move` interleaves any number of calls.
Cluster, servers and random ids are an arbitrary `PWorld`.

* C59, C60, C62, C64: ghost-state program logic (`PoolLogic`, `PoolSafe`): each call owns tokens
  (connections it took out) and permissions to create connections; the sum is invariant.
* C57, C58, C65, C66: every call consists of actions of a fixed list (`PoolActs`), invariants are
  checked per action; C58 follows the lock holder through its program (`PoolMembers`).
* C61: a property of a single call under arbitrary interference (`Spec.Exec`); `C61_live` (in
  `C61Live`) for the connections of `Conn` and users who do anything with them.
* C69: lock discipline per access (`PoolLocks`); witnesses for the races.
* C68: the world of the pool is instantiated with connections of `Conn` (`PoolConns`), on which
  users make calls.
* C82: opening is sequential (`run`); queue lengths are followed through `startRest`.
* C83: the connection string for asking is an invariant (`PoolActs`); the question is identified by
  noninterference: replacing all other answers changes no run.
* C84: what calls know while they are under way (`PoolKnow`): a stop that has drained a queue knows
  that it stays empty. The full statement is refuted by a refresh that overlaps.
* C85: a program that has made a connection for asking will close it on every path (`WillClose`,
  `ClosesAsked`); all other programs make none (`PActD W false`).
* C86: opening is sequential; an invariant of its actions says what has not been closed.
* C87: the search of `Borrow` followed through the queue; that the lock is free comes from C88.
* C88: `PoolBlock` says when a call waits and what it holds (`Uses`); counting holders gives progress.
  `PoolCosts` bounds the rounds of the loops by what can be taken out of the queues (`Costs`: a claim
  of rounds and a permission to put connections back). Termination: the relation "a call makes a
  step" on lists of calls is well-founded.

C97 follows a fetch of the members down to the network: `liveWorld` of `PoolConns` makes the pool's
connections those of `Conn`, so that C33 says what is written and read.

## Pool without routing (C68, C70, C71, C95, C96, C100)

The library that keeps the objects is not part of the repository. It is
modelled as an environment that makes any calls of the factory and returns
anything from `BorrowObject`.

C70 (for goroutines) and C96: `DriverPoolSys` interleaves calls; the library is any `PoolLib`, which
may make borrowers wait. Every call is at a stage of a fixed list; the invariant counts the stages
that hold the lock.

## Time (C109)

`ConnNet` repeats the functions of `Conn` in a monad that collects the operations on the network with
their deadlines; `erase` gives back the functions of `Conn` (`Proofs/ConnNet`). How long an operation
can take is only limited by its deadline (`Spec/NetTime`: `CanTake`, `Lasts`), so nothing is assumed
about the network or the server. `Proofs/NetSteps` is the induction over the primitive operations, as
`StepsAll` is for `Conn`. Not modelled: what TLS does below a read or write; setting a deadline failing.

## Delays (C111, C37)

`Spec/Late` puts a network between any world and the connection: what the server sends is in flight for
as long as the network likes, nothing is lost or reordered, and a read that finds nothing fails as at
the timeout. `Proofs/Late` compares the run over it with the run without it: `Behind` says that the
delayed connection differs only in what is in flight, and `Lag` that a call keeps this or fails while
something is in flight. `C111` follows by induction over the history. The refutations are concrete
networks and servers; `C37_refuted` (Commit reports success for a commit the server ignored) is in the
file of C111. Absolute times are not modelled: the network chooses what has arrived at each read.

## Lost connections (C121)

`Spec/Lossy` puts a network between any world and the connection on which the connection is lost with some message: `Loss` says whether the message arrives, how much of the
answer is heard, how many more writes succeed and what reads say afterwards. `Proofs/Lossy` compares the run over it with the run without loss: `Both` says that the two connections agree
but for what the server did or said since the loss, and `Loses` that a call keeps this or fails with the connection `Severed` (nothing unread, or no write can succeed), at some moment of the
other run (`Mid`). In `Props/C121` every call is compared with the same call without loss, of which C116 says what it does; Commit has one message that makes its statements permanent
(`commit_atomic`), a statement adds at most one, so a moment of a call has all or nothing of its effect. Writes that fail although a later write succeeds are outside of this model.

C122 carries this through the pool without routing. `Proofs/PoolKeeps` lifts any property that calls keep and new connections have (`DKeeps`) to all moves of that pool; here the property is
`Endures`: lost, or in agreement with an account. Every connection has its own moment and manner of loss (`lossyNet`).
C125 does the same for the routing pool: the invariant of C120 (`LiveGood`) is stated for any property that `DKeeps`, and C120 and C125 are its two instances; what follows for a new user is shared with C122 (`Renewed`).

C126 closes the circle of the codec: values that were received are encodable again. The induction is over the received tree (`echo`), carrying what C01 and C15 need of the value (`Echo`); `pointless` is the converse, that only points are refused.

C127 says that encodings are as short as the format allows: `encode_least` is an induction over the value against every encoding (`Spec.Enc`) of its tree; the number of chunks follows from the
chunker's invariant that only the last chunk is not full.
C128 gives up what the other properties on lossy networks assume (that after a failed write nothing arrives): the world keeps the bytes that have arrived, and the server may find any
messages in them. The counterexample has a server that reassembles messages and runs them.

C129 is the converse of C101: C101 starts from the parts and writes the string, C129 starts from any accepted string. `Points` and `Addresses` are the grammar; `parse_points` follows `Url.parse`
through its cuts, and uniqueness is proved of the grammar alone.

C130 is C121 for late answers instead of lost ones. `Proofs/Late` (for C111) also keeps that a call which times out has done a first part of what it does without the delays (`LagAt`, `Adds`), so
that the server is at some moment (`Mid`) of the call without delays, of which `doubt_of_step` says what can be permanent. After a timeout the connection stays in use, and the claim is false.

C131 is C115 for the pool without routing: it puts together C89, C110, C118 and the place of a connection (C120), from the options to the rows.

C132 covers the methods of the types for parameters and rows (`Params`): `GetKeys` with its loop over a slice of fixed
length, and a link to the codec (C01, C17).

C133 is about the random number generator of the ids, which all pools of a program share (`Var.rand`): the action that makes a
connection accesses it, so that C69 covers it for one pool; for two pools the states of two systems are looked at together.

C134 asks whether a pool recovers from connections that broke. `Proofs/PoolStarve.lean` is a program logic for invariants of the pool (`Under I A p`: every action of `p` keeps `I`,
and results meet `A`), used for `Starved`: the least numbers of idle connections are never set (pool.go 79-82), so the loops of the refresh add none, and connections
are made only in `Start` and in `Reclaim` of a lent one.

C135 looks at Stop and Start of a pool in any reached state, as calls that are not interrupted (`Proofs/PoolRun`, and the lemmas of C82, whose `Fits` counts from any moment on).

C136 follows every connection of a pool in use. `Proofs/PoolOwn.lean` gives every call in progress a ghost `Hand` (whether it has the mutex, its copies of the queues, the connections it holds,
what it saw in the log); `Acct` says that each connection ever made is in somebody's hands, idle, or closed, and `Own` that a program keeps this whatever the others do. The limits of the queues (C64), the
missing marks (C65) and the map of borrowed connections (C60) enter as `Sound`. The actions of `Proofs/PoolActs` now say which of them start or stop the pool.

C137 is about calls that are not interrupted, after any history: a borrow and the return of what was borrowed turn the queue by one place (`turns_run`); the modular arithmetic of many turns is in `rotate_get`.

## Recovery from failures (C112)

`Spec/Recover.lean` is a small automaton over the events of a call: after a FAILURE comes RESET, then IGNORED
messages, then SUCCESS, or something else and then GOODBYE and the end of the connection (or, in a transaction,
the rollback request). The proof in `Props/C112.lean` is a program logic over the monad of the connection: `Body s m`
says that `m`, started at stage `s`, follows the automaton and ends at stage `normal` if it succeeds; `Last` is the
same for the end of a call, where `Close` may have closed the connection. The nesting
Close → Rollback → consume → reset → Close is handled by induction on the fuel of the model.

## Division into segments and chunks (C113, C114)

`Spec/Alike.lean` relates two networks that do the same up to the division of bytes (`SameBytes`), with the relation between
the writes as a parameter: equal writes for C113, writes with the same contents for C114. `Proofs/Alike.lean` proves that every
call keeps two connections alike (`Mirror`): equal but for the division of what has arrived, the chunk sizes, and the division of what
was sent. The requests enter through `GoesAlike`, which says that a message is encoded to related writes; for C113 this is
trivial, for C114 it is C07.

## Panics (C13, C117)

`Spec/Hazards.lean` describes the byte patterns that can make the decoder panic: a string or list length with its sign bit set, and a graph structure with something else in the place of
an integer. C13 shows that a panicking payload contains one of them. C117 carries this to sessions with a second lifting of the model of connections, `Proofs/EndsAll.lean`, which
relates the state before a call, whether it panicked, and the state afterwards: the only source of panics on a connection is a message that was read completely.

## Whole sessions (C115, C116, C118, C120)

C116 gives the exact meaning of every history: `Spec.account` is computed from the calls, their success, and the failures the server reported, and
agrees with the server's ledger (`Accounts`, an invariant of `run`). Where no failure occurs inside a transaction it is the `Book` of C80/C105. C115 composes
C89 (from the options to the address and credentials), C110 (opening the session), C105 and C116 (statements).
C118 carries C116 through the pool without routing: every connection agrees with some account (`Tallied`, kept by all moves of a pool), calls of the factory leave the permanent statements as
they are, and with C68 a connection that is lent agrees with the empty account.
C124 says the same in terms of users of the pool (nobody gets rows of another user's statement) without assuming that the codec reads all answers; it is false then, by a history of four users on a concrete server.

C120 does the same for the routing pool: `LiveGood` is kept by every action of the pool (`PAct`) and every call of a user; besides the accounts it says that a connection made with a string
belongs to the server of that string (`Placed`: the state of the world tells with whom one is connected). `C57_live` is C57 for pools whose users call connections in between.

## Log (C93, C94, C98, C107, C108) and error texts (C99)

The level names, which messages are printed, and the byte dump.

C98: `ConnLog` repeats the functions of `Conn` in a monad that also collects the calls into the log;
`erase` forgets these, and gives back the functions of `Conn` (`Proofs/ConnLog`). What printing a
value with `%#v` gives is a parameter (`LogEnv`). `Spec/LogHistory` runs sessions of calls with
changes of the level between them. C107 relates the lines printed to the messages received, in order
(`Spec.InOrder`), C108 the dumped bytes to the messages written (`Proofs/LogSteps`: induction over
the logged functions).

C99: `ErrText` has the texts of the errors, which `Errors` does not keep; the reason that `net/url`
gives and stack traces are parameters.

## Status

`MANIFEST.json` holds the status of each property; `seeded/LOG.jsonl` holds the mutation tests.

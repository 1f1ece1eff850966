/-
From a connection string to the network: /repo/connection/connection.go 92-104, 172-234, and /repo/driver.go.

Not modelled: the cryptography of TLS.  What a TLS connection is asked to be is an observable (`TlsConfig`); the network decides what becomes of it.
-/
import Verif.Model.Client
namespace Verif

/-- The file system, as far as the driver looks at it.
* `read`: `ioutil.ReadFile` (connection.go 206).
* `pem`: the certificates found by `AppendCertsFromPEM` in the content of a file (connection.go 211); how many there are is not reported.
* `keyPair`: `tls.LoadX509KeyPair` of a certificate file and a key file (connection.go 221). -/
structure Files where
  read : Bytes → Option Bytes
  pem : Bytes → List Bytes
  keyPair : Bytes → Bytes → Option Bytes

/-- connection.go 198-234: the fields of `tls.Config` that are set.  `roots = none`: those of the operating system. -/
structure TlsConfig where
  minVersion : Nat
  maxVersion : Nat
  roots : Option (List Bytes)
  certificates : List Bytes
  skipVerify : Bool
  deriving DecidableEq

/-- A call of `net.DialTimeout` or `tls.Dial` (connection.go 181, 186). -/
inductive Endpoint where
  | tcp (hostPort : Bytes) (timeout : Int)
  | tls (hostPort : Bytes) (config : TlsConfig)
  deriving DecidableEq

/-- connection.go 204-214: the certificate authorities. -/
def Config.roots (files : Files) (c : Config) : Except Err (Option (List Bytes)) :=
  if c.caCertFile = [] then .ok none
  else match files.read c.caCertFile with
    | none => .error (.plain "ioutil.ReadFile")
    | some b => .ok (some (files.pem b))

/-- connection.go 216-227: the certificates of the client. -/
def Config.certificates (files : Files) (c : Config) : Except Err (List Bytes) :=
  if c.certFile = [] then .ok []
  else if c.keyFile = [] then .error (.new "If you're providing a cert file, you must also provide a key file")
  else match files.keyPair c.certFile c.keyFile with
    | none => .error (.plain "tls.LoadX509KeyPair")
    | some p => .ok [p]

/-- connection.go 198-234 `tlsConfig`. -/
def Config.tlsConfig (files : Files) (c : Config) : Except Err TlsConfig := do
  let roots ← c.roots files
  let certs ← c.certificates files
  return ⟨0x0301, 0x0303, roots, certs, c.tlsNoVerify⟩

/-- connection.go 172-191: what `createConnection` dials, if it gets so far. -/
def Config.endpoint (files : Files) (c : Config) : Except Err Endpoint :=
  if c.useTLS then do
    let t ← c.tlsConfig files
    return .tls c.hostPort t
  else .ok (.tcp c.hostPort c.timeout)

/-- Files and network.  `reach n e`: network and server as found by the attempt number `n` to connect, which dials `e`. -/
structure Net (σ : Type) where
  files : Files
  reach : Nat → Endpoint → σ

section
variable {σ : Type} (env : Env) (W : World σ) (semi : Bool) (fuel : Nat) (net : Net σ)

/-- connection.go 92-104 `CreateBoltConn`, the attempt number `n`: an error before anything is dialled, or the result and the connection that was made. -/
def createFrom (connStr : Bytes) (n : Nat) : Except Err (CRes Unit × Conn σ) := do
  let cfg ← connectionConfig semi connStr
  let e ← cfg.endpoint net.files
  return createBoltConn env W fuel cfg.user cfg.password (net.reach n e)

/-- client.go 207-217 `NewDriver`, driver.go 20-22 `Open`, the attempt number `n`. -/
def Client.driverOpen (c : Client) (n : Nat) : Except Err (CRes Unit × Conn σ) := do
  let connStr ← c.newDriver
  createFrom env W semi fuel net connStr n

end
end Verif

/-
Client configuration: /repo/opt.go, /repo/client.go, the parsing of connection strings in /repo/connection/connection.go 106-153, and /repo/driver.go.

`semi` is the behaviour of the Go version's query parser (see Model/Url).  Durations are nanoseconds (int64).
-/
import Verif.Model.Url
import Verif.Model.Conn
namespace Verif

/-- client.go 21-43 `Client`.  `pooled`, `maxConnections` and `serverVersionBytes` are never set. -/
structure Client where
  connStr : Bytes := []
  host : Bytes := []
  port : Int := 0
  routing : Bool := false
  negotiateVersion : Bool := false
  user : Bytes := []
  password : Bytes := []
  serverVersion : Int := 0
  timeout : Int := 0
  chunkSize : Nat := 0
  useTLS : Bool := false
  certFile : Bytes := []
  caCertFile : Bytes := []
  keyFile : Bytes := []
  tlsNoVerify : Bool := false
  protocolGreaterThan : Int := 0
  protocolLessThan : Int := 0

/-- The options of opt.go.  (An `Opt` is a function; one written outside the package cannot set the fields of a client.) -/
inductive ClientOpt where
  | connectionString (s : Bytes)
  | hostPort (host : Bytes) (port : Int)
  | routing
  | chunkSize (n : UInt16)
  | basicAuth (user password : Bytes)
  | tls (cacert cert key : Bytes) (noVerify : Bool)
  | negotiation
  | greaterThan (v : Int)
  | lessThan (v : Int)
  | strict (v : Int)
  | timeout (d : Int)

/-- errors/defaults.go `ErrConfiguration`. -/
def errConfiguration : Err := .new "bolt configuration error"

/-- Apply an option: opt.go 11-25, 27-42, 44-58, 60-70, 72-84, 86-100, 102-111, 113-126, 128-142, 144-158, 160-169. -/
def ClientOpt.apply (c : Client) : ClientOpt → Except Err Client
  | .connectionString s =>
    if c.host ≠ [] ∨ c.port ≠ 0 then .error (errConfiguration.wrap "can not call WithConnectionString and WithHostPort")
    else .ok { c with connStr := s }
  | .hostPort h p =>
    if c.connStr ≠ [] then .error (errConfiguration.wrap "can not call WithHostPort and WithConnectionString")
    else .ok { c with host := h, port := p }
  | .routing =>
    if c.connStr ≠ [] then .error (errConfiguration.wrap "can not call WithRouting and WithConnectionString")
    else .ok { c with routing := true }
  | .chunkSize n => .ok { c with chunkSize := n.toNat }
  | .basicAuth u p => .ok { c with user := u, password := p }
  | .tls ca cert key nv => .ok { c with caCertFile := ca, certFile := cert, keyFile := key, useTLS := true, tlsNoVerify := nv }
  | .negotiation => .ok { c with negotiateVersion := true }
  | .greaterThan v =>
    if v < 1 ∨ 3 < v then .error (errConfiguration.wrap "protocol greater than version must between 1 and 3")
    else .ok { c with protocolGreaterThan := v }
  | .lessThan v =>
    if v < 2 ∨ 4 < v then .error (errConfiguration.wrap "protocol greater than version must between 2 and 4")
    else .ok { c with protocolLessThan := v }
  | .strict v =>
    if v < 1 ∨ 4 < v then .error (errConfiguration.wrap "strict version must between 1 and 4")
    else .ok { c with serverVersion := v }
  | .timeout d => .ok { c with timeout := d }

/-- client.go 52-61: apply the options in order; `none` is a nil option. -/
def applyOpts : Client → List (Option ClientOpt) → Except Err Client
  | c, [] => .ok c
  | _, none :: _ => .error (errConfiguration.wrap "found nil option function in new client")
  | c, some o :: os =>
    match o.apply c with
    | .ok c' => applyOpts c' os
    | .error _ => .error (errConfiguration.wrap "option failed")

/-- client.go 64-72: the defaults for timeout and chunk size. -/
def Client.withDefaults (c : Client) : Client :=
  { c with timeout := if c.timeout = 0 then 60 * 1000000000 else c.timeout, chunkSize := if c.chunkSize = 0 then 65535 else c.chunkSize }

/-- `strings.HasPrefix(strings.ToLower(s), "t") || s == "1"` (client.go 149, 156; connection.go 141, 148). -/
def isTrue (s : Bytes) : Bool := (Url.toLower s).head? = some 0x74 || s = [0x31]

/-- client.go 103-104, 166-167: "?tls_cert_file=%s&tls_key_file=%s&tls_ca_cert_file=%s&tls_no_verify=%s". -/
def tlsPortion (cert key ca noVerify : Bytes) : Bytes :=
  ascii "?tls_cert_file=" ++ cert ++ ascii "&tls_key_file=" ++ key ++ ascii "&tls_ca_cert_file=" ++ ca ++ ascii "&tls_no_verify=" ++ noVerify

/-- client.go 98: "%s://%s:%s@%s:%v". -/
def baseStr (scheme user password host : Bytes) (port : Nat) : Bytes :=
  scheme ++ ascii "://" ++ user ++ ascii ":" ++ password ++ ascii "@" ++ host ++ ascii ":" ++ Url.decimal port

/-- client.go 75-106: the connection string made from the options. -/
def Client.build (c : Client) : Except Err Client :=
  if c.host = [] then .error (errConfiguration.wrap "host can not be empty")
  else if c.port ≤ 0 then .error (errConfiguration.wrap "invalid port")
  else if c.user = [] then .error (errConfiguration.wrap "user can not be empty")
  else
    let s := baseStr (if c.routing then ascii "bolt+routing" else ascii "bolt") c.user c.password c.host c.port.toNat
    .ok { c with connStr := if c.useTLS then s ++ tlsPortion c.certFile c.keyFile c.caCertFile (Url.showBool c.tlsNoVerify) else s }

section
variable (semi : Bool)

/-- client.go 116-128: host and port of the connection string. -/
def Client.takeHost (c : Client) (hostPort : Bytes) : Except Err Client :=
  if hostPort.contains 0x3A then
    match Url.splitAll 0x3A hostPort with
    | [h, p] =>
      match Url.atoi p with
      | none => .error (.plain "strconv.ParseInt")
      | some n => .ok { c with host := h, port := n }
    | _ => .error (.new "host/port invalid")
  else .ok c

/-- client.go 130-137: user and password of the connection string. -/
def Client.takeUser (c : Client) : Url.Userinfo → Except Err Client
  | none => .ok c
  | some (_, none) => .error (.new "must specify password when passing user")
  | some (u, some p) => .ok { c with user := u, password := p }

/-- client.go 139-147, connection.go 130-138: the timeout of the connection string, or the given one. -/
def timeoutOf (u : Url.URL) (default : Int) : Except Err Int :=
  let t := Url.get semi u (ascii "timeout")
  if t = [] then .ok default
  else match Url.atoi t with
    | none => .error (.plain "Invalid format for timeout")
    | some n => .ok (wrap64 (n * 1000000000))

/-- client.go 108-159: take the configuration from the connection string. -/
def Client.takeUrl (c : Client) : Except Err Client :=
  match Url.parse c.connStr with
  | none => .error (.plain "an error occurred parsing bolt URL")
  | some u =>
    if Url.toLower u.scheme ≠ ascii "bolt" ∧ Url.toLower u.scheme ≠ ascii "bolt+routing" then .error (.plain "unsupported connection string scheme")
    else do
      let c ← Client.takeHost { c with routing := Url.contains (ascii "+routing") c.connStr } u.host
      let c ← c.takeUser u.user
      let t ← timeoutOf semi u c.timeout
      let c := { c with timeout := t, useTLS := isTrue (Url.get semi u (ascii "tls")) }
      if c.useTLS then
        .ok { c with
          certFile := Url.get semi u (ascii "tls_cert_file"), keyFile := Url.get semi u (ascii "tls_key_file"),
          caCertFile := Url.get semi u (ascii "tls_ca_cert_file"), tlsNoVerify := isTrue (Url.get semi u (ascii "tls_no_verify")) }
      else .ok c

/-- client.go 45-162 `NewClient`. -/
def newClient (opts : List (Option ClientOpt)) : Except Err Client :=
  if opts = [] then .error (errConfiguration.wrap "no options for client")
  else do
    let c ← applyOpts {} opts
    let c := c.withDefaults
    if c.connStr = [] then c.build else c.takeUrl semi

/-- The settings of a `Connection` (connection.go 56-90) that come from the connection string. -/
structure Config where
  hostPort : Bytes
  user : Bytes
  password : Bytes
  timeout : Int
  chunkSize : Nat
  useTLS : Bool
  certFile : Bytes
  keyFile : Bytes
  caCertFile : Bytes
  tlsNoVerify : Bool
  deriving DecidableEq

/-- connection.go 106-153 `newConnectionFromConnectionString`. -/
def connectionConfig (connStr : Bytes) : Except Err Config :=
  match Url.parse connStr with
  | none => .error (.plain "an error occurred parsing bolt URL")
  | some u =>
    if Url.toLower u.scheme ≠ ascii "bolt" ∧ Url.toLower u.scheme ≠ ascii "bolt+routing" then .error (.plain "unsupported connection string scheme")
    else do
      let (user, password) ← match u.user with
        | none => .ok ([], [])
        | some (_, none) => .error (GoErr.new "must specify password when passing user")
        | some (user, some p) => .ok (user, p)
      let t ← timeoutOf semi u (60 * 1000000000)
      let tls := isTrue (Url.get semi u (ascii "tls"))
      let opt := fun (k : String) => if tls then Url.get semi u (ascii k) else []
      .ok ⟨u.host, user, password, t, 65535, tls, opt "tls_cert_file", opt "tls_key_file", opt "tls_ca_cert_file", tls && isTrue (Url.get semi u (ascii "tls_no_verify"))⟩

/-- client.go 207-217 `NewDriver`: the connection string `Open` will use (driver.go 20-22). -/
def Client.newDriver (c : Client) : Except Err Bytes :=
  if c.routing then .error (.new "can not open non pooled driver with routing enabled") else .ok c.connStr

/-- The settings of the connections opened by a driver: `CreateBoltConn(client.connStr)` (driver.go 20-22, connection.go 92-97). -/
def Client.openConfig (c : Client) : Except Err Config := connectionConfig semi c.connStr

/-- client.go 164-187 `getTlsPortion` (the error is always nil). -/
def Client.getTlsPortion (c : Client) : Bytes :=
  if c.certFile ≠ [] then tlsPortion c.certFile c.keyFile c.caCertFile (Url.showBool c.tlsNoVerify)
  else match Url.parse c.connStr with
    | none => []
    | some u =>
      if Url.get semi u (ascii "tls_cert_file") = [] then []
      else tlsPortion (Url.get semi u (ascii "tls_cert_file")) (Url.get semi u (ascii "tls_key_file")) (Url.get semi u (ascii "tls_ca_cert_file"))
        (Url.get semi u (ascii "tls_no_verify"))

/-- client.go 189-205 `getUsernamePassword` (the error is always nil). -/
def Client.getUsernamePassword (c : Client) : Bytes :=
  match Url.parse c.connStr with
  | none => []
  | some u =>
    match u.user with
    | none => []
    | some (name, p) => if name = [] then [] else name ++ ascii ":" ++ p.getD []

end
end Verif

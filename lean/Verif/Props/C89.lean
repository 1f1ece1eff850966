/-
C89: every connection goes to the configured address and authenticates with the configured credentials.
-/
import Verif.Props.C28
import Verif.Props.C52
import Verif.Props.C79
import Verif.Props.C83
import Verif.Proofs.NoTx
import Verif.Proofs.Parse
import Verif.Props.C58
import Verif.Proofs.DriverPool
import Verif.Model.PoolConns
namespace Verif

namespace Spec

/-- A connection that began with the preamble, followed by the initialisation message with the given credentials. -/
def Introduced (user password : Bytes) (trace : List Ev) : Prop :=
  ∃ p ws t, trace = .sent [preamble] :: .sent ws :: t ∧ InitSent p user password ws

/-- An attempt to connect: the connection was introduced with the given credentials, or there was an error and nothing but the preamble was sent. -/
def Attempt {σ : Type} (user password : Bytes) (r : CRes Unit × Conn σ) : Prop :=
  Introduced user password r.2.trace ∨ ((∃ e, r.1 = .err e) ∧ (r.2.trace = [] ∨ r.2.trace = [.sent [preamble]]))

/-- Something that connects to `e`, and to nothing else (its result depends on nothing else), with the given credentials. -/
def Connects {σ : Type} (connect : Net σ → Nat → Except Err (CRes Unit × Conn σ)) (e : Endpoint) (user password : Bytes) : Prop :=
  ∀ net n, ∃ r, connect net n = .ok r ∧ Attempt user password r ∧ ∀ net', net'.reach n e = net.reach n e → connect net' n = .ok r

/-- The address of a member, as servers report it: bolt://host:port -/
def PlainAddress (host : Bytes) (port : Nat) (a : Bytes) : Prop := PlainHost host ∧ a = ascii "bolt://" ++ host ++ ascii ":" ++ Url.decimal port

/-- host:port over TCP, with the default timeout. -/
def tcpTo (host : Bytes) (port : Nat) : Endpoint := .tcp (host ++ ascii ":" ++ Url.decimal port) 60000000000

/-- A client made from plain options. -/
structure PlainClient (semi : Bool) (opts : List (Option ClientOpt)) (c : Client) : Prop where
  noString : ¬ GivesString opts
  made : newClient semi opts = .ok c
  host : PlainHost c.host
  user : PlainUser c.user
  password : PlainPassword c.password
  paths : PlainPath c.certFile ∧ PlainPath c.keyFile ∧ PlainPath c.caCertFile
  short : c.user.length ≤ 65535 ∧ c.password.length ≤ 65535

end Spec

namespace C89
section
variable {σ : Type} (env : Env) (W : World σ) (semi : Bool) (fuel : Nat) (net : Net σ)

theorem attempt {user password : Bytes} (hu : user.length ≤ 65535) (hp : password.length ≤ 65535) (w : σ) : Spec.Attempt user password (createBoltConn env W fuel user password w) := by
  cases hd : (W.dial w).2 with
  | true =>
    rcases C28_handshake env W fuel user password hu hp w hd with ⟨n, p, rest, ws, t, _, _, _, h1, h2⟩ | ⟨h1, h2⟩
    · exact .inl ⟨p, ws, t, h1, h2⟩
    · exact .inr ⟨h1, .inr h2⟩
  | false =>
    obtain ⟨h1, h2⟩ := C28_dial_fails env W fuel user password w hd
    exact .inr ⟨h1, .inl h2⟩

theorem createFrom_tcp {str : Bytes} {cfg : Config} (h : connectionConfig semi str = .ok cfg) (ht : cfg.useTLS = false) (n : Nat) :
    createFrom env W semi fuel net str n = .ok (createBoltConn env W fuel cfg.user cfg.password (net.reach n (.tcp cfg.hostPort cfg.timeout))) := by
  unfold createFrom
  rw [h]
  show (cfg.endpoint net.files >>= _) = _
  unfold Config.endpoint
  rw [if_neg (by simp [ht])]
  rfl

theorem connects {str : Bytes} {cfg : Config} (h : connectionConfig semi str = .ok cfg) (ht : cfg.useTLS = false) (hu : cfg.user.length ≤ 65535) (hp : cfg.password.length ≤ 65535) :
    Spec.Connects (fun net n => createFrom env W semi fuel net str n) (.tcp cfg.hostPort cfg.timeout) cfg.user cfg.password := by
  intro net n
  refine ⟨_, createFrom_tcp env W semi fuel net h ht n, attempt env W fuel hu hp _, fun net' h' => ?_⟩
  dsimp only
  rw [createFrom_tcp env W semi fuel net' h ht n, h']

theorem introduced_of_ok {user password : Bytes} {c : Conn σ} (h : Spec.Attempt user password (CRes.ok (), c)) : Spec.Introduced user password c.trace := by
  rcases h with h | ⟨⟨e, h⟩, _⟩
  · exact h
  · cases h

theorem introduced_mono {user password : Bytes} {t t' : List Ev} (h : Spec.Introduced user password t) (ht : t <+: t') : Spec.Introduced user password t' := by
  obtain ⟨p, ws, s, rfl, h2⟩ := h
  obtain ⟨s', rfl⟩ := ht
  exact ⟨p, ws, s ++ s', rfl, h2⟩

/-- All connections of the pool have been introduced. -/
def AllIn (user password str : Bytes) (s : DPool σ) : Prop := s.connStr = str ∧ ∀ c ∈ s.conns, Spec.Introduced user password c.trace

theorem allIn_onConn {user password str : Bytes} {α : Type} {m : CM σ α} (hm : Steps (fun c c' => c.trace <+: c'.trace) m) (r : Nat) (s : DPool σ)
    (h : AllIn user password str s) : AllIn user password str (onConn r m s).2 := by
  unfold onConn
  split
  · exact h
  · rename_i c hc
    refine ⟨h.1, fun c' hc' => ?_⟩
    rcases List.mem_or_eq_of_mem_set hc' with h' | rfl
    · exact h.2 c' h'
    · exact introduced_mono (h.2 c (List.mem_of_getElem? hc)) (hm c)

theorem allIn_rel {user password str : Bytes} (hc : ∀ n r, createFrom env W semi fuel net str n = .ok r → Spec.Attempt user password r) :
    DRel env W semi fuel net (fun (s s' : DPool σ) => AllIn user password str s → AllIn user password str s') where
  refl _ h := h
  trans h1 h2 h := h2 (h1 h)
  dial s h := by
    unfold dCreate
    rw [h.1]
    split
    · exact ⟨rfl, h.2⟩
    · rename_i c hd
      refine ⟨rfl, fun c' hc' => ?_⟩
      rcases List.mem_append.1 hc' with h' | h'
      · exact h.2 c' h'
      · rw [List.mem_singleton.1 h']
        exact introduced_of_ok (hc _ _ hd)
    · exact ⟨rfl, h.2⟩
    · exact ⟨rfl, h.2⟩
    · exact ⟨rfl, h.2⟩
  probe r s := allIn_onConn ((grows env W).probe) r s
  shut r s := allIn_onConn ((grows env W).close env W fuel) r s
  idle r s h := allIn_onConn ((grows env W).makeIdle env W fuel) r s h
  objs _ _ h := h

theorem allIn_move {user password str : Bytes} (hc : ∀ n r, createFrom env W semi fuel net str n = .ok r → Spec.Attempt user password r) (m : DMove) (s : DPool σ)
    (h : AllIn user password str s) : AllIn user password str (m.run env W semi fuel net s) := by
  have P := allIn_rel env W semi fuel net hc
  cases m with
  | «open» calls answer =>
    show AllIn _ _ _ (dOpen W _ s).2
    unfold dOpen
    split
    · exact h
    · have hl := P.library calls s h
      unfold borrowed
      cases answer with
      | error e => exact hl
      | ok x =>
        cases x with
        | conn r =>
          have h2 := P.probe r _ hl
          dsimp only
          split <;> rename_i hy <;> rw [hy] at h2 <;> exact h2
        | _ => exact hl
  | reclaim r calls answer =>
    cases r with
    | none => exact h
    | some r => exact P.library calls _ ⟨h.1, h.2⟩
  | close calls =>
    show AllIn _ _ _ (dClose _ s).2
    unfold dClose
    split
    · exact h
    · exact ⟨(P.library calls s h).1, (P.library calls s h).2⟩
  | evict calls => exact P.library calls s h
  | user r op => exact allIn_onConn ((grows env W).step env W fuel op) r s h

theorem allIn_run {user password str : Bytes} (hc : ∀ n r, createFrom env W semi fuel net str n = .ok r → Spec.Attempt user password r) (ms : List DMove) (s : DPool σ)
    (h : AllIn user password str s) : AllIn user password str (dRun env W semi fuel net ms s) := by
  unfold dRun
  induction ms generalizing s with
  | nil => exact h
  | cons m ms ih => exact ih _ (allIn_move env W semi fuel net hc m s h)

end

/-- The end of a connection string that is nothing or the TLS part of the driver. -/
theorem config_tail {semi : Bool} {scheme user password host : Bytes} {port : Nat} {c : Client} (hs : Url.OurScheme scheme) (hu : Spec.PlainUser user) (hp : Spec.PlainPassword password)
    (hh : Spec.PlainHost host) (hc : c.useTLS = true → C54.PlainPaths c) :
    connectionConfig semi (scheme ++ 0x3A :: 0x2F :: 0x2F :: (C54.auth user password host (Url.decimal port) ++ C54.tailOf c)) =
      .ok ⟨host ++ 0x3A :: Url.decimal port, user, password, 60 * 1000000000, 65535, false, [], [], [], false⟩ := by
  unfold connectionConfig
  rw [C54.parse_plain hs hu hp hh (C54.tail_ok hc)]
  dsimp only
  rw [Url.toLower_ours hs, if_neg (by rcases hs with e | e <;> rw [e] <;> simp)]
  unfold timeoutOf
  rw [C54.tail_get hc semi _ rfl (.inr rfl), C54.tail_get hc semi _ rfl (.inl rfl)]
  rfl

/-- The connection string of a plain client. -/
theorem client_str {semi : Bool} {opts : List (Option ClientOpt)} {c : Client} (h : Spec.PlainClient semi opts c) :
    c.connStr = (if c.routing then ascii "bolt+routing" else ascii "bolt") ++ 0x3A :: 0x2F :: 0x2F ::
      (C54.auth c.user c.password c.host (Url.decimal c.port.toNat) ++ C54.tailOf c) := by
  obtain ⟨_, _, _, hstr⟩ := newClient_connStr h.noString h.made
  rw [hstr, C54.baseStr_eq]
  unfold C54.tailOf
  simp

theorem tcpTo_eq (host : Bytes) (port : Nat) : Spec.tcpTo host port = .tcp (host ++ 0x3A :: Url.decimal port) (60 * 1000000000) := by
  unfold Spec.tcpTo
  simp [ascii]

theorem client_connects {σ : Type} (env : Env) (W : World σ) (fuel : Nat) {semi : Bool} {opts : List (Option ClientOpt)} {c : Client} (h : Spec.PlainClient semi opts c) :
    Spec.Connects (fun net n => createFrom env W semi fuel net c.connStr n) (Spec.tcpTo c.host c.port.toNat) c.user c.password := by
  rw [tcpTo_eq]
  exact connects env W semi fuel (plain_parse h.noString h.made h.host h.user h.password fun _ => h.paths) rfl h.short.1 h.short.2

theorem connects_attempt {σ : Type} {f : Net σ → Nat → Except Err (CRes Unit × Conn σ)} {e : Endpoint} {user password : Bytes} (h : Spec.Connects f e user password) (net : Net σ) (n : Nat)
    (r : CRes Unit × Conn σ) (hr : f net n = .ok r) : Spec.Attempt user password r := by
  obtain ⟨r', h1, h2, _⟩ := h net n
  rw [hr] at h1
  cases h1
  exact h2

end C89

section
variable {σ : Type} (env : Env) (W : World σ) (fuel : Nat)

/-- **C89**, without pool: `Open` connects to the configured host and port and to nothing else, and authenticates with the configured credentials. -/
theorem C89_driver {semi : Bool} {opts : List (Option ClientOpt)} {c : Client} (h : Spec.PlainClient semi opts c) (hr : c.routing = false) :
    Spec.Connects (fun net n => c.driverOpen env W semi fuel net n) (Spec.tcpTo c.host c.port.toNat) c.user c.password := by
  have := C89.client_connects env W fuel h
  unfold Client.driverOpen Client.newDriver
  rw [if_neg (by simp [hr])]
  exact this

/-- **C89**, with a pool without routing: every connection it has ever made was introduced with the configured credentials. -/
theorem C89_pool {semi : Bool} {opts : List (Option ClientOpt)} {c : Client} (h : Spec.PlainClient semi opts c) (net : Net σ) (ms : List DMove) :
    ∀ conn ∈ (dRun env W semi fuel net ms (newDriverPool c.connStr)).conns, Spec.Introduced c.user c.password conn.trace :=
  (C89.allIn_run env W semi fuel net (fun n r hr => C89.connects_attempt (C89.client_connects env W fuel h) net n r hr) ms (newDriverPool c.connStr) ⟨rfl, fun _ h => absurd h List.not_mem_nil⟩).2

/-- The address dialled. -/
def Spec.Endpoint.hostPort : Endpoint → Bytes
  | .tcp a _ => a
  | .tls a _ => a

/-- **C89**, for connection strings with plain parts, with or without TLS: what does connect connects to the given host and port and authenticates with the given credentials. -/
theorem C89_string {semi : Bool} {scheme user password host : Bytes} {port : Nat} {ps : List (Bytes × Bytes)} (h : Spec.Plain scheme user password host ps)
    (hl : user.length ≤ 65535 ∧ password.length ≤ 65535) {net : Net σ} {n : Nat} {r : CRes Unit × Conn σ}
    (hr : createFrom env W semi fuel net (Spec.connString scheme user password host port ps) n = .ok r) :
    Spec.Attempt user password r ∧ ∃ e : Endpoint, Spec.Endpoint.hostPort e = host ++ ascii ":" ++ Url.decimal port ∧
      ∀ net', net'.files = net.files → net'.reach n e = net.reach n e → createFrom env W semi fuel net' (Spec.connString scheme user password host port ps) n = .ok r := by
  obtain ⟨cfg, e, h1, h2, rfl⟩ := createFrom_eq env W hr
  have hcfg := h1
  rw [C79.config_plain semi port h] at h1
  have hc : cfg.user = user ∧ cfg.password = password ∧ cfg.hostPort = host ++ 0x3A :: Url.decimal port := by
    revert h1
    generalize timeoutOf semi _ _ = t
    cases t with
    | error e => intro h; cases h
    | ok t => intro h; cases h; exact ⟨rfl, rfl, rfl⟩
  refine ⟨?_, e, ?_, fun net' hf hn => ?_⟩
  · rw [← hc.1] at hl ⊢
    rw [← hc.2.1] at hl ⊢
    exact C89.attempt env W fuel hl.1 hl.2 _
  · have : host ++ ascii ":" ++ Url.decimal port = cfg.hostPort := by rw [hc.2.2]; simp [ascii]
    rw [this]
    unfold Config.endpoint at h2
    split at h2
    · cases ht : cfg.tlsConfig net.files with
      | error x => rw [ht] at h2; cases h2
      | ok x => rw [ht] at h2; cases h2; rfl
    · cases h2; rfl
  · unfold createFrom
    rw [hcfg]
    show (cfg.endpoint net'.files >>= _) = _
    rw [hf, h2, ← hn]
    rfl

end

namespace C89

theorem framed_unique {b b' s : Bytes} (h : Spec.Framed b s) (h' : Spec.Framed b' s) : b = b' := by
  obtain ⟨_, h1, _⟩ := readMsg_framed (rest := []) h .eof (segs := [s]) (by simp)
  obtain ⟨_, h2, _⟩ := readMsg_framed (rest := []) h' .eof (segs := [s]) (by simp)
  rw [h1] at h2
  cases h2
  rfl

theorem auth_inj {u p u' p' : Bytes} {es : List (Bytes × Spec.PS)} {l l' : List (Bytes × Spec.PS)} (hl' : ∀ e ∈ l', e.1 = ascii "user_agent")
    (h : es.Perm (l ++ authEntries u p)) (h' : es.Perm (l' ++ authEntries u' p')) : u = u' ∧ p = p' := by
  have hp := h.symm.trans h'
  have n1 : ascii "principal" ≠ ascii "user_agent" := by decide
  have n2 : ascii "credentials" ≠ ascii "user_agent" := by decide
  constructor
  · have := (hp.mem_iff (a := (ascii "principal", Spec.PS.str u))).1 (List.mem_append_right _ (by simp [authEntries]))
    rcases List.mem_append.1 this with hm | hm
    · exact absurd (hl' _ hm) n1
    · simpa [authEntries, ascii] using hm
  · have := (hp.mem_iff (a := (ascii "credentials", Spec.PS.str p))).1 (List.mem_append_right _ (by simp [authEntries]))
    rcases List.mem_append.1 this with hm | hm
    · exact absurd (hl' _ hm) n2
    · simpa [authEntries, ascii] using hm

theorem init_unique {p p' : Proto} {user password user' password' : Bytes} {ws : List Bytes} (h : InitSent p user password ws) (h' : InitSent p' user' password' ws) :
    user = user' ∧ password = password' := by
  obtain ⟨b, f, h⟩ := h
  obtain ⟨b', f', h'⟩ := h'
  obtain rfl := framed_unique f f'
  have key : ∀ {t t' : Spec.PS}, Spec.Enc Spec.full t b → Spec.Enc Spec.full t' b → t = t' := fun a a' => (Enc_unique (r := []) (r' := []) a a' rfl).1
  have ua : ∀ e ∈ [(ascii "user_agent", Spec.PS.str (ascii "GoBolt/0.1"))], e.1 = ascii "user_agent" := by intro e he; rw [List.mem_singleton.1 he]
  have no : ∀ e ∈ ([] : List (Bytes × Spec.PS)), e.1 = ascii "user_agent" := by intro e he; cases he
  cases p <;> cases p' <;> obtain ⟨es, hp, he⟩ := h <;> obtain ⟨es', hp', he'⟩ := h' <;> have ht := key he he' <;> cases ht
  all_goals first | exact auth_inj (l := []) no hp hp' | exact auth_inj (l := [_]) ua hp hp'

end C89

/-- What was introduced with some credentials was not introduced with others. -/
theorem C89_unique {user password user' password' : Bytes} {trace : List Ev} (h : Spec.Introduced user password trace) (h' : Spec.Introduced user' password' trace) :
    user = user' ∧ password = password' := by
  obtain ⟨p, ws, t, rfl, h⟩ := h
  obtain ⟨p', ws', t', e, h'⟩ := h'
  cases e
  exact C89.init_unique h h'

/-! ### The routing pool -/

namespace C89

/-- Something without a certain byte lies on one side of it. -/
theorem infix_sep {t x y : Bytes} {c : UInt8} (hc : c ∉ t) (h : t <:+: x ++ c :: y) : t <:+: x ∨ t <:+: y := by
  obtain ⟨l, r, h⟩ := h
  rw [List.append_assoc, List.append_eq_append_iff] at h
  rcases h with ⟨a, rfl, h⟩ | ⟨a, rfl, h⟩
  · rw [List.append_eq_append_iff] at h
    rcases h with ⟨b, rfl, h⟩ | ⟨b, rfl, h⟩
    · exact .inl ⟨l, b, by simp⟩
    · cases b with
      | nil => exact .inl ⟨l, [], by simp⟩
      | cons d b => cases h; exact absurd (by simp) hc
  · cases a with
    | nil =>
      cases t with
      | nil => exact .inr ⟨[], y, rfl⟩
      | cons d t => cases h; exact absurd (by simp) hc
    | cons d a => cases h; exact .inr ⟨a, r, by simp⟩

theorem infix_clean {t x : Bytes} {c : UInt8} (hc : c ∈ t) (hx : c ∉ x) : ¬ t <:+: x := fun h => hx (h.subset hc)

theorem without_clean {t s : Bytes} (h : ¬ t <:+: s) : Spec.Without t s s := by
  induction s with
  | nil => exact .nil
  | cons y s ih => exact .keep (fun hp => h hp.isInfix) (ih fun hi => h (hi.trans (List.suffix_cons y s).isInfix))

/-- The mark of routing. -/
def mark : Bytes := ascii "+routing"

theorem auth_clean {user password host : Bytes} {port : Nat} (hu : ¬ mark <:+: user) (hp : ¬ mark <:+: password) (hh : Spec.PlainHost host) :
    ¬ mark <:+: C54.auth user password host (Url.decimal port) := by
  intro h
  unfold C54.auth at h
  rcases infix_sep (by decide) h with h | h
  · rcases infix_sep (by decide) h with h | h
    · exact hu h
    · exact hp h
  · have plus : ∀ b : UInt8, (Spec.alnum b = true ∨ b ∈ ascii "-._") → b ≠ 0x2B := by
      refine C54.allBytes ?_
      decide +kernel
    refine infix_clean (c := 0x2B) (by decide) (fun hm => ?_) h
    rcases List.mem_append.1 hm with hm | hm
    · exact plus _ (hh _ hm) rfl
    · rcases List.mem_cons.1 hm with hm | hm
      · cases hm
      · exact plus _ (.inl ((C54.chars _).2.1 (Url.decimal_digits port _ hm))) rfl

theorem tail_clean {c : Client} (h1 : ¬ mark <:+: c.certFile) (h2 : ¬ mark <:+: c.keyFile) (h3 : ¬ mark <:+: c.caCertFile) :
    C54.tailOf c = [] ∨ ∃ t, C54.tailOf c = 0x3F :: t ∧ ¬ mark <:+: t := by
  unfold C54.tailOf
  split
  · right
    rw [C54.tlsPortion_eq]
    refine ⟨_, rfl, fun h => ?_⟩
    have lit : ∀ k ∈ [ascii "tls_cert_file", ascii "tls_key_file", ascii "tls_ca_cert_file", ascii "tls_no_verify", Url.showBool true, Url.showBool false], ¬ mark <:+: k := by
      intro k hk
      refine infix_clean (c := 0x2B) (by decide) ?_
      revert k
      decide
    rcases infix_sep (by decide) h with h | h
    · rcases infix_sep (by decide) h with h | h
      · exact lit _ (by simp) h
      · exact h1 h
    · rcases infix_sep (by decide) h with h | h
      · rcases infix_sep (by decide) h with h | h
        · exact lit _ (by simp) h
        · exact h2 h
      · rcases infix_sep (by decide) h with h | h
        · rcases infix_sep (by decide) h with h | h
          · exact lit _ (by simp) h
          · exact h3 h
        · rcases infix_sep (by decide) h with h | h
          · exact lit _ (by simp) h
          · exact lit _ (by cases c.tlsNoVerify <;> simp) h
  · exact .inl rfl

theorem getUser {semi : Bool} {opts : List (Option ClientOpt)} {c : Client} (h : Spec.PlainClient semi opts c) : c.getUsernamePassword = c.user ++ ascii ":" ++ c.password := by
  have hours : Url.OurScheme (if c.routing then ascii "bolt+routing" else ascii "bolt") := by
    cases c.routing
    · exact .inl rfl
    · exact .inr rfl
  obtain ⟨_, hne, _, _⟩ := newClient_connStr h.noString h.made
  unfold Client.getUsernamePassword
  rw [client_str h, C54.parse_plain hours h.user h.password h.host (C54.tail_ok fun _ => ⟨h.paths.1, h.paths.2.1, h.paths.2.2⟩)]
  dsimp only
  rw [if_neg hne]
  rfl

/-- The TLS part is empty, or that of a client. -/
theorem getTls {semi : Bool} {opts : List (Option ClientOpt)} {c : Client} (h : Spec.PlainClient semi opts c) : ∃ c', C54.PlainPaths c' ∧ c.getTlsPortion semi = C54.tailOf c' := by
  have hpp : C54.PlainPaths c := ⟨h.paths.1, h.paths.2.1, h.paths.2.2⟩
  have hours : Url.OurScheme (if c.routing then ascii "bolt+routing" else ascii "bolt") := by
    cases c.routing
    · exact .inl rfl
    · exact .inr rfl
  unfold Client.getTlsPortion
  split
  · exact ⟨{ c with useTLS := true }, ⟨hpp.cert, hpp.key, hpp.ca⟩, rfl⟩
  · rename_i hcert
    refine ⟨{ c with useTLS := false }, ⟨hpp.cert, hpp.key, hpp.ca⟩, ?_⟩
    rw [client_str h, C54.parse_plain hours h.user h.password h.host (C54.tail_ok fun _ => hpp)]
    dsimp only
    rw [if_pos]
    · rfl
    · rw [ne_eq, Classical.not_not] at hcert
      unfold Url.get
      dsimp only
      unfold C54.tailOf
      cases c.useTLS
      case true =>
        have first : [ascii "tls_cert_file" ++ 0x3D :: []].filterMap (Url.parsePair semi) = [(ascii "tls_cert_file", [])] := by cases semi <;> decide +kernel
        rw [if_pos rfl, C54.tlsPortion_eq, hcert, List.drop_succ_cons, List.drop_zero, Url.pairs_cons semi _ (by decide) (by decide), first, List.cons_append,
          List.find?_cons_of_pos (by decide)]
      case false => cases semi <;> rfl

theorem str_eq (user password host tls : Bytes) (port : Nat) :
    ascii "bolt://" ++ (user ++ ascii ":" ++ password) ++ ascii "@" ++ (host ++ ascii ":" ++ Url.decimal port) ++ tls =
      ascii "bolt" ++ 0x3A :: 0x2F :: 0x2F :: (C54.auth user password host (Url.decimal port) ++ tls) := by
  unfold C54.auth
  simp [ascii]

theorem address_without {host a : Bytes} {port : Nat} (h : Spec.PlainAddress host port a) : Spec.Without (ascii "bolt://") a (host ++ ascii ":" ++ Url.decimal port) := by
  obtain ⟨hh, rfl⟩ := h
  rw [List.append_assoc, List.append_assoc, ← List.append_assoc host]
  refine .cut (without_clean (infix_clean (c := 0x2F) (by decide) fun hm => ?_))
  rw [show host ++ ascii ":" ++ Url.decimal port = host ++ 0x3A :: Url.decimal port by simp [ascii]] at hm
  exact (C54.hostPort_char hh port hm).2.2.1 rfl

end C89

section
variable {σ ω : Type} (env : Env) (W : World σ) (fuel : Nat) {P : PWorld ω}

/-- **C89**, with routing: as long as the members report plain addresses, every connection string for which the pool makes a connection that it lends stands for the address of a
reported member and the configured credentials. -/
theorem C89_members {semi : Bool} {opts : List (Option ClientOpt)} {c : Client} (h : Spec.PlainClient semi opts c)
    {size : Int} {w : ω} {pool : RPool ω} (ho : c.openRouting P semi size w = .ok (.ok (), pool)) (fuel' : Nat) (moves : List PMove) (hr : ∀ m ∈ moves, Spec.noRestart m)
    {r : Nat} {id str : Bytes} {write : Bool} (hm : .created r id str write ∈ ((PSys.fresh pool).moves P fuel' moves).pool.log)
    (ha : ∀ a, Spec.Reported ((PSys.fresh pool).moves P fuel' moves).pool.log a → ∃ host port, Spec.PlainAddress host port a) :
    ∃ host port a, Spec.Reported ((PSys.fresh pool).moves P fuel' moves).pool.log a ∧ Spec.PlainAddress host port a ∧
      Spec.Connects (fun net n => createFrom env W semi fuel net str n) (Spec.tcpTo host port) c.user c.password := by
  obtain ⟨x, y, hl⟩ := List.append_of_mem hm
  obtain ⟨_, _, _, _, _, _, _, a, ha', hc⟩ := C57 ho fuel' moves hr hl
  have hrep : Spec.Reported ((PSys.fresh pool).moves P fuel' moves).pool.log a := by
    obtain ⟨v, rows, ms, role, n, h1, h2, h3, h4⟩ := ha'
    exact ⟨v, rows, ms, role, n, by rw [hl]; exact List.mem_append_left _ h1, h2, h3, h4⟩
  obtain ⟨host, port, hp⟩ := ha a hrep
  refine ⟨host, port, a, hrep, hp, ?_⟩
  obtain ⟨c', hpp, htls⟩ := C89.getTls h
  rw [C89.getUser h, htls] at hc
  rcases hc with ⟨h1, _, _⟩ | ⟨_, host', h1, h2⟩
  · simp [ascii] at h1
  · rw [without_unique (by decide) h1 (C89.address_without hp), C89.str_eq] at h2
    rw [h2, C89.tcpTo_eq]
    exact C89.connects env W semi fuel (C89.config_tail (.inl rfl) h.user h.password hp.1 fun _ => hpp) rfl h.short.1 h.short.2

/-- **C89**, asking the cluster: the connections for fetching the members go to the configured host and port, with the configured credentials.  Partial: if no part of the configuration
contains the text "+routing", which the pool removes wherever it finds it. -/
theorem C89_asking_partial {semi : Bool} {opts : List (Option ClientOpt)} {c : Client} (h : Spec.PlainClient semi opts c) (hr : c.routing = true)
    (hclean : ∀ x ∈ [c.user, c.password, c.certFile, c.keyFile, c.caCertFile], ¬ ascii "+routing" <:+: x)
    {size : Int} {w : ω} {pool : RPool ω} (ho : c.openRouting P semi size w = .ok (.ok (), pool)) (fuel' : Nat) (moves : List PMove)
    {r : Nat} {str : Bytes} (hm : .dialled r str ∈ ((PSys.fresh pool).moves P fuel' moves).pool.log) :
    Spec.Connects (fun net n => createFrom env W semi fuel net str n) (Spec.tcpTo c.host c.port.toNat) c.user c.password := by
  have hw := C83_address ho fuel' moves hm
  have hpp : C54.PlainPaths c := ⟨h.paths.1, h.paths.2.1, h.paths.2.2⟩
  have hs : str = ascii "bolt" ++ 0x3A :: 0x2F :: 0x2F :: (C54.auth c.user c.password c.host (Url.decimal c.port.toNat) ++ C54.tailOf c) := by
    refine without_unique (by decide) hw ?_
    rw [C89.client_str h, hr, if_pos rfl]
    have hk : ∀ {x : UInt8} {s u : Bytes}, x ≠ 0x2B → Spec.Without (ascii "+routing") s u → Spec.Without (ascii "+routing") (x :: s) (x :: u) :=
      fun hx h => .keep (fun ⟨t, ht⟩ => hx (List.cons.inj ht).1.symm) h
    have hauth := C89.auth_clean (port := c.port.toNat) (hclean c.user (by simp)) (hclean c.password (by simp)) h.host
    have hrest : ¬ C89.mark <:+: C54.auth c.user c.password c.host (Url.decimal c.port.toNat) ++ C54.tailOf c := by
      rcases C89.tail_clean (hclean c.certFile (by simp)) (hclean c.keyFile (by simp)) (hclean c.caCertFile (by simp)) with ht | ⟨t, ht, hn⟩
      · rw [ht, List.append_nil]; exact hauth
      · rw [ht]
        intro hi
        rcases C89.infix_sep (by decide) hi with hi | hi
        · exact hauth hi
        · exact hn hi
    refine hk (by decide) (hk (by decide) (hk (by decide) (hk (by decide) (.cut (t := ascii "+routing") ?_))))
    exact hk (by decide) (hk (by decide) (hk (by decide) (C89.without_clean hrest)))
  rw [hs, C89.tcpTo_eq]
  exact C89.connects env W semi fuel (C89.config_tail (.inl rfl) h.user h.password h.host fun _ => hpp) rfl h.short.1 h.short.2

end

/-- The full claim about the connections for fetching the members. -/
def C89_asking_statement : Prop :=
  ∀ (σ ω : Type) (env : Env) (W : World σ) (fuel : Nat) (P : PWorld ω) semi opts c, Spec.PlainClient semi opts c → c.routing = true →
    ∀ size w pool, c.openRouting P semi size w = .ok (.ok (), pool) → ∀ fuel' moves r str, .dialled r str ∈ ((PSys.fresh pool).moves P fuel' moves).pool.log →
    Spec.Connects (fun net n => createFrom env W semi fuel net str n) (Spec.tcpTo c.host c.port.toNat) c.user c.password

namespace C89

/-- Options of a client that routes. -/
def options (password : String) : List (Option ClientOpt) :=
  [some (.hostPort (ascii "h") 7687), some (.basicAuth (ascii "u") (ascii password)), some .routing, some (.tls (ascii "/ca") (ascii "/cert") (ascii "/key") false)]

/-- The client they make. -/
def client (password : String) : Client where
  connStr := ascii "bolt+routing://u:" ++ ascii password ++ ascii "@h:7687?tls_cert_file=/cert&tls_key_file=/key&tls_ca_cert_file=/ca&tls_no_verify=false"
  host := ascii "h"
  port := 7687
  routing := true
  user := ascii "u"
  password := ascii password
  timeout := 60000000000
  chunkSize := 65535
  useTLS := true
  certFile := ascii "/cert"
  keyFile := ascii "/key"
  caCertFile := ascii "/ca"

deriving instance DecidableEq for Client

theorem made_of {opts : List (Option ClientOpt)} {c : Client} (h : (match newClient true opts with | .ok c' => decide (c' = c) | .error _ => false) = true) : newClient true opts = .ok c := by
  split at h
  · rename_i hc; rw [hc, of_decide_eq_true h]
  · cases h

/-- A password that contains the mark. -/
theorem bad_client : Spec.PlainClient true (options "p+routing") (client "p+routing") where
  noString := by rintro ⟨s, h⟩; simp [options] at h
  made := made_of (by decide +kernel)
  host := by unfold Spec.PlainHost; decide +kernel
  user := by unfold Spec.PlainUser Spec.PlainChar; decide +kernel
  password := by unfold Spec.PlainPassword Spec.PlainChar; decide +kernel
  paths := by unfold Spec.PlainPath; decide +kernel
  short := by decide +kernel

/-- A password without. -/
theorem good_client : Spec.PlainClient true (options "p:w@d") (client "p:w@d") where
  noString := by rintro ⟨s, h⟩; simp [options] at h
  made := made_of (by decide +kernel)
  host := by unfold Spec.PlainHost; decide +kernel
  user := by unfold Spec.PlainUser Spec.PlainChar; decide +kernel
  password := by unfold Spec.PlainPassword Spec.PlainChar; decide +kernel
  paths := by unfold Spec.PlainPath; decide +kernel
  short := by decide +kernel

/-- Three members with plain addresses. -/
def members : List (List Val) := [memberRow "1" "bolt://a:1" "LEADER", memberRow "2" "bolt://b.x:20" "FOLLOWER", memberRow "3" "bolt://c-1:300" "READ_REPLICA"]

/-- A cluster of them. -/
def cluster : PWorld Nat := Script.world { rows := fun _ => members }

/-- The connections made for the client when its pool is opened. -/
def made (password : String) : List (Bytes × Bool) :=
  match (client password).openRouting cluster true 3 0 with
  | .ok (.ok (), pool) => pool.log.filterMap fun | .dialled _ str => some (str, false) | .created _ _ str _ => some (str, true) | _ => none
  | _ => []

/-- The hypotheses of the theorems about routing are met: such a pool opens, asks the cluster and connects to its members. -/
example : made "p:w@d" =
    [(ascii "bolt://u:p:w@d@h:7687?tls_cert_file=/cert&tls_key_file=/key&tls_ca_cert_file=/ca&tls_no_verify=false", false),
     (ascii "bolt://u:p:w@d@a:1?tls_cert_file=/cert&tls_key_file=/key&tls_ca_cert_file=/ca&tls_no_verify=false", true),
     (ascii "bolt://u:p:w@d@a:1?tls_cert_file=/cert&tls_key_file=/key&tls_ca_cert_file=/ca&tls_no_verify=false", true),
     (ascii "bolt://u:p:w@d@c-1:300?tls_cert_file=/cert&tls_key_file=/key&tls_ca_cert_file=/ca&tls_no_verify=false", true)] := by decide +kernel

example : Spec.PlainAddress (ascii "b.x") 20 (ascii "bolt://b.x:20") := by
  unfold Spec.PlainAddress Spec.PlainHost
  decide +kernel

/-- Without routing, a server that accepts the credentials. -/
example : ∃ opts c, Spec.PlainClient true opts c ∧ c.routing = false ∧
    (match c.driverOpen env0 scripted true 5 (noFiles fun _ e => if e = Spec.tcpTo (ascii "h") 7687 then sOpen4 else []) 0 with
      | .ok r => r.1.kind
      | .error _ => 9) = 0 := by
  refine ⟨[some (.hostPort (ascii "h") 7687), some (.basicAuth (ascii "u") (ascii "p"))],
    { connStr := ascii "bolt://u:p@h:7687", host := ascii "h", port := 7687, user := ascii "u", password := ascii "p", timeout := 60000000000, chunkSize := 65535 }, ?_, rfl, by decide +kernel⟩
  exact ⟨by rintro ⟨s, h⟩; simp at h, made_of (by decide +kernel), by unfold Spec.PlainHost; decide +kernel, by unfold Spec.PlainUser Spec.PlainChar; decide +kernel,
    by unfold Spec.PlainPassword Spec.PlainChar; decide +kernel, by unfold Spec.PlainPath; decide +kernel, by decide +kernel⟩

end C89

/-- False: the text "+routing" is removed from the password, too, and the cluster is asked with the rest of it. -/
theorem C89_asking_refuted : ¬ C89_asking_statement := by
  intro h
  have hx : (match (C89.client "p+routing").openRouting C89.cluster true 3 0 with
      | .ok (.ok (), pool) => pool.log.any fun
        | .dialled r str => r = 0 && str = ascii "bolt://u:p@h:7687?tls_cert_file=/cert&tls_key_file=/key&tls_ca_cert_file=/ca&tls_no_verify=false"
        | _ => false
      | _ => false) = true := by decide +kernel
  split at hx
  · rename_i pool ho
    obtain ⟨e, he, hx⟩ := List.any_eq_true.1 hx
    split at hx
    case h_2 => cases hx
    rename_i r str
    rw [Bool.and_eq_true, decide_eq_true_eq, decide_eq_true_eq] at hx
    obtain ⟨rfl, rfl⟩ := hx
    have hc := h (List (List Bytes)) Nat env0 scripted 5 C89.cluster true _ _ C89.bad_client rfl 3 0 pool ho 0 [] 0 _ he
    obtain ⟨r, h1, h2, _⟩ := hc (noFiles fun _ _ => sOpen4) 0
    have hcfg := C89.config_tail (semi := true) (scheme := ascii "bolt") (user := ascii "u") (password := ascii "p") (host := ascii "h") (port := 7687) (c := C89.client "p+routing") (.inl rfl)
      (by unfold Spec.PlainUser Spec.PlainChar; decide +kernel) (by unfold Spec.PlainPassword Spec.PlainChar; decide +kernel) (by unfold Spec.PlainHost; decide +kernel)
      fun _ => ⟨C89.bad_client.paths.1, C89.bad_client.paths.2.1, C89.bad_client.paths.2.2⟩
    have hs : ascii "bolt" ++ 0x3A :: 0x2F :: 0x2F :: (C54.auth (ascii "u") (ascii "p") (ascii "h") (Url.decimal 7687) ++ C54.tailOf (C89.client "p+routing")) =
        ascii "bolt://u:p@h:7687?tls_cert_file=/cert&tls_key_file=/key&tls_ca_cert_file=/ca&tls_no_verify=false" := by decide +kernel
    rw [hs] at hcfg
    have h3 := C89.connects_attempt (C89.connects env0 scripted true 5 hcfg rfl (by decide +kernel) (by decide +kernel)) (noFiles fun _ _ => sOpen4) 0 r h1
    have hok : (match createFrom env0 scripted true 5 (noFiles fun _ _ => sOpen4) (ascii "bolt://u:p@h:7687?tls_cert_file=/cert&tls_key_file=/key&tls_ca_cert_file=/ca&tls_no_verify=false") 0 with
      | .ok r => r.1.kind
      | .error _ => 9) = 0 := by decide +kernel
    dsimp only at h1
    rw [h1] at hok
    obtain ⟨a, c⟩ := r
    dsimp only at hok
    cases a with
    | ok _ =>
      have := (C89_unique (C89.introduced_of_ok h2) (C89.introduced_of_ok h3)).2
      exact absurd this (by decide +kernel)
    | _ => cases hok
  · cases hx

end Verif

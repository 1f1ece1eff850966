/-
C91: the TLS settings of a connection string.
-/
import Verif.Props.C90
namespace Verif

namespace Spec

/-- A file that is needed cannot be used: that of the certificate authorities, or the certificate and the key of the client (which go together). -/
def Unusable (files : Files) (ps : List (Bytes × Bytes)) : Prop :=
  (param ps "tls_ca_cert_file" ≠ [] ∧ files.read (param ps "tls_ca_cert_file") = none) ∨
  (param ps "tls_cert_file" ≠ [] ∧ (param ps "tls_key_file" = [] ∨ files.keyPair (param ps "tls_cert_file") (param ps "tls_key_file") = none))

/-- The TLS connection is as the parameters say: versions 1.0 to 1.2, the authorities of the file or of the system, the certificate of the client if there is one, and the certificate
of the server is verified unless that has been switched off. -/
structure Settled (files : Files) (ps : List (Bytes × Bytes)) (t : TlsConfig) : Prop where
  versions : t.minVersion = 0x0301 ∧ t.maxVersion = 0x0303
  system : param ps "tls_ca_cert_file" = [] → t.roots = none
  authorities : ∀ b, param ps "tls_ca_cert_file" ≠ [] → files.read (param ps "tls_ca_cert_file") = some b → t.roots = some (files.pem b)
  anonymous : param ps "tls_cert_file" = [] → t.certificates = []
  certificate : ∀ p, param ps "tls_cert_file" ≠ [] → files.keyPair (param ps "tls_cert_file") (param ps "tls_key_file") = some p → t.certificates = [p]
  verified : t.skipVerify = true ↔ Truthy (param ps "tls_no_verify")

end Spec

section
variable {σ : Type} (env : Env) (W : World σ) {semi : Bool} (fuel : Nat)

/-- **C91**, errors: if a file cannot be used, there is an error before anything is dialled. -/
theorem C91_refuses {scheme user password host : Bytes} {port : Nat} {ps : List (Bytes × Bytes)} (h : Spec.Plain scheme user password host ps)
    (ht : Spec.Truthy (Spec.param ps "tls")) (files : Files) (hf : Spec.Unusable files ps) :
    ∃ e, ∀ (reach : Nat → Endpoint → σ) (n : Nat), createFrom env W semi fuel ⟨files, reach⟩ (Spec.connString scheme user password host port ps) n = .error e := by
  unfold createFrom
  rcases C90.config_tls semi (port := port) h ht with ⟨e, he⟩ | ⟨t, he⟩
  · rw [he]; exact ⟨e, fun _ _ => rfl⟩
  · rw [he]
    suffices hx : ∀ cfg : Config, cfg.useTLS = true → cfg.caCertFile = Spec.param ps "tls_ca_cert_file" → cfg.certFile = Spec.param ps "tls_cert_file" →
        cfg.keyFile = Spec.param ps "tls_key_file" → ∃ e, cfg.endpoint files = .error e by
      obtain ⟨e, hx⟩ := hx ⟨host ++ 0x3A :: Url.decimal port, user, password, t, 65535, true, Spec.param ps "tls_cert_file", Spec.param ps "tls_key_file",
        Spec.param ps "tls_ca_cert_file", isTrue (Spec.param ps "tls_no_verify")⟩ rfl rfl rfl rfl
      refine ⟨e, fun reach n => ?_⟩
      show (Config.endpoint files _ >>= _) = _
      rw [hx]
      rfl
    intro cfg h0 h1 h2 h3
    have key : ∃ e, cfg.tlsConfig files = .error e := by
      unfold Config.tlsConfig Config.roots Config.certificates
      rw [h1, h2, h3]
      rcases hf with ⟨a, b⟩ | ⟨a, b⟩
      · rw [if_neg a, b]
        exact ⟨_, rfl⟩
      · have hr : ∀ x : Except Err (Option (List Bytes)), (∃ e, (x >>= fun roots => (if Spec.param ps "tls_cert_file" = [] then .ok []
            else if Spec.param ps "tls_key_file" = [] then .error (.new "If you're providing a cert file, you must also provide a key file")
            else match files.keyPair (Spec.param ps "tls_cert_file") (Spec.param ps "tls_key_file") with
              | none => .error (.plain "tls.LoadX509KeyPair")
              | some p => .ok [p]) >>= fun certs => pure (TlsConfig.mk 0x0301 0x0303 roots certs cfg.tlsNoVerify)) = .error e) := by
          intro x
          cases x with
          | error e => exact ⟨e, rfl⟩
          | ok x =>
            rw [if_neg a]
            rcases b with b | b
            · rw [if_pos b]; exact ⟨_, rfl⟩
            · split
              · exact ⟨_, rfl⟩
              · rw [b]; exact ⟨_, rfl⟩
        exact hr _
    obtain ⟨e, key⟩ := key
    refine ⟨e, ?_⟩
    unfold Config.endpoint
    rw [if_pos h0, key]
    rfl

/-- **C91**, settings: otherwise the given host and port is dialled with these settings, and nothing else; the connection authenticates with the given credentials. -/
theorem C91_settings {scheme user password host : Bytes} {port : Nat} {ps : List (Bytes × Bytes)} (h : Spec.Plain scheme user password host ps)
    (hl : user.length ≤ 65535 ∧ password.length ≤ 65535) (ht : Spec.Truthy (Spec.param ps "tls")) (files : Files) (hf : ¬ Spec.Unusable files ps)
    (hto : Spec.param ps "timeout" = [] ∨ ∃ n : Int, Spec.SignedNumeral (Spec.param ps "timeout") n ∧ - 2 ^ 63 ≤ n ∧ n < 2 ^ 63) :
    ∃ t, Spec.Settled files ps t ∧ ∀ (reach : Nat → Endpoint → σ) (n : Nat), ∃ r,
      createFrom env W semi fuel ⟨files, reach⟩ (Spec.connString scheme user password host port ps) n = .ok r ∧ Spec.Attempt user password r ∧
      ∀ reach' : Nat → Endpoint → σ, reach' n (.tls (host ++ ascii ":" ++ Url.decimal port) t) = reach n (.tls (host ++ ascii ":" ++ Url.decimal port) t) →
        createFrom env W semi fuel ⟨files, reach'⟩ (Spec.connString scheme user password host port ps) n = .ok r := by
  obtain ⟨cfg, hcfg⟩ := (C79_accepted semi scheme user password host port ps h).2 hto
  obtain ⟨c1, c2, c3, c4, c5⟩ := C79_tls semi scheme user password host port ps h cfg hcfg
  obtain ⟨d1, d2, d3, d4⟩ := c5 ht
  have key : ∃ t, cfg.tlsConfig files = .ok t ∧ Spec.Settled files ps t := by
    unfold Spec.Unusable at hf
    rw [not_or, not_and, not_and, not_or] at hf
    obtain ⟨f1, f2⟩ := hf
    have k1 : ∃ roots, cfg.roots files = .ok roots ∧ (Spec.param ps "tls_ca_cert_file" = [] → roots = none) ∧
        ∀ b, Spec.param ps "tls_ca_cert_file" ≠ [] → files.read (Spec.param ps "tls_ca_cert_file") = some b → roots = some (files.pem b) := by
      unfold Config.roots
      rw [d3]
      by_cases ha : Spec.param ps "tls_ca_cert_file" = []
      · rw [if_pos ha]
        exact ⟨_, rfl, fun _ => rfl, fun _ hn => absurd ha hn⟩
      · rw [if_neg ha]
        cases hb : files.read (Spec.param ps "tls_ca_cert_file") with
        | none => exact absurd hb (f1 ha)
        | some b => exact ⟨_, rfl, fun h => absurd h ha, fun b' _ hb' => by cases hb'; rfl⟩
    have k2 : ∃ certs, cfg.certificates files = .ok certs ∧ (Spec.param ps "tls_cert_file" = [] → certs = []) ∧
        ∀ p, Spec.param ps "tls_cert_file" ≠ [] → files.keyPair (Spec.param ps "tls_cert_file") (Spec.param ps "tls_key_file") = some p → certs = [p] := by
      unfold Config.certificates
      rw [d1, d2]
      by_cases ha : Spec.param ps "tls_cert_file" = []
      · rw [if_pos ha]
        exact ⟨_, rfl, fun _ => rfl, fun _ hn => absurd ha hn⟩
      · rw [if_neg ha, if_neg (f2 ha).1]
        cases hb : files.keyPair (Spec.param ps "tls_cert_file") (Spec.param ps "tls_key_file") with
        | none => exact absurd hb (f2 ha).2
        | some b => exact ⟨_, rfl, fun h => absurd h ha, fun b' _ hb' => by cases hb'; rfl⟩
    obtain ⟨roots, r1, r2, r3⟩ := k1
    obtain ⟨certs, s1, s2, s3⟩ := k2
    refine ⟨⟨0x0301, 0x0303, roots, certs, cfg.tlsNoVerify⟩, ?_, ⟨rfl, rfl⟩, r2, r3, s2, s3, d4⟩
    unfold Config.tlsConfig
    rw [r1, s1]
    rfl
  obtain ⟨t, htls, hs⟩ := key
  refine ⟨t, hs, fun reach n => ?_⟩
  have hrun : ∀ reach : Nat → Endpoint → σ, createFrom env W semi fuel ⟨files, reach⟩ (Spec.connString scheme user password host port ps) n =
      .ok (createBoltConn env W fuel user password (reach n (.tls (host ++ ascii ":" ++ Url.decimal port) t))) := by
    intro reach
    unfold createFrom
    rw [hcfg]
    show (cfg.endpoint files >>= _) = _
    unfold Config.endpoint
    rw [if_pos (c4.2 ht), htls, ← c1, ← c2, ← c3]
    rfl
  exact ⟨_, hrun reach, C89.attempt env W fuel hl.1 hl.2 _, fun reach' hr => by rw [hrun reach', hr]⟩

end

namespace C91

/-- Parameters with all files. -/
def params : List (Bytes × Bytes) :=
  [(ascii "tls", ascii "1"), (ascii "tls_ca_cert_file", ascii "/ca"), (ascii "tls_cert_file", ascii "/cert"), (ascii "tls_key_file", ascii "/key"), (ascii "tls_no_verify", ascii "no")]

theorem plain : Spec.Plain (ascii "bolt") (ascii "u") (ascii "p") (ascii "h") params where
  scheme := .inl rfl
  user := by unfold Spec.PlainUser Spec.PlainChar; decide +kernel
  password := by unfold Spec.PlainPassword Spec.PlainChar; decide +kernel
  host := by unfold Spec.PlainHost; decide +kernel
  params := by unfold Spec.PlainName Spec.PlainValue; decide +kernel

theorem truthy : Spec.Truthy (Spec.param params "tls") := .inl (by decide +kernel)

/-- Files that are there, and files without the key. -/
def files : Files := ⟨fun f => if f = ascii "/ca" then some (ascii "PEM") else none, fun b => [b], fun c k => if c = ascii "/cert" ∧ k = ascii "/key" then some (ascii "pair") else none⟩
def noKey : Files := { files with keyPair := fun _ _ => none }

example : ¬ Spec.Unusable files params ∧ Spec.Unusable noKey params ∧ Spec.param params "timeout" = [] := by
  unfold Spec.Unusable
  decide +kernel

/-- The server is reached with the settings of the theorem. -/
example : C90.outcome (createFrom env0 scripted true 5
      ⟨files, fun _ e => if e = .tls (ascii "h:7687") ⟨0x0301, 0x0303, some [ascii "PEM"], [ascii "pair"], false⟩ then sOpen4 else []⟩
      (Spec.connString (ascii "bolt") (ascii "u") (ascii "p") (ascii "h") 7687 params) 0) = 0 := by decide +kernel

end C91
end Verif

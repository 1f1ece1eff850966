/-
C92: the timeout of a connection string limits how long connecting takes.
-/
import Verif.Props.C91
namespace Verif

namespace Spec

/-- The timeout of a connection string in nanoseconds: that of the parameter, which is in seconds, or 60 s. -/
def Waits (ps : List (Bytes × Bytes)) (t : Int) : Prop :=
  (param ps "timeout" = [] ∧ t = 60 * 10 ^ 9) ∨ ∃ n : Int, SignedNumeral (param ps "timeout") n ∧ t = n * 10 ^ 9 ∧ - 2 ^ 63 ≤ t ∧ t < 2 ^ 63

/-- How long dialling may take; `none`: as long as the operating system likes. -/
def Endpoint.timeout : Endpoint → Option Int
  | .tcp _ t => some t
  | .tls _ _ => none

end Spec

section
variable {σ : Type} (env : Env) (W : World σ) {semi : Bool} (fuel : Nat)

/-- **C92**, without TLS: the connection is made with the given timeout, to the given host and port with the given credentials. -/
theorem C92_tcp_partial {scheme user password host : Bytes} {port : Nat} {ps : List (Bytes × Bytes)} (h : Spec.Plain scheme user password host ps)
    (hl : user.length ≤ 65535 ∧ password.length ≤ 65535) (ht : ¬ Spec.Truthy (Spec.param ps "tls")) {t : Int} (hw : Spec.Waits ps t) :
    Spec.Connects (fun (net : Net σ) n => createFrom env W semi fuel net (Spec.connString scheme user password host port ps) n)
      (.tcp (host ++ ascii ":" ++ Url.decimal port) t) user password := by
  have hto : Spec.param ps "timeout" = [] ∨ ∃ n : Int, Spec.SignedNumeral (Spec.param ps "timeout") n ∧ - 2 ^ 63 ≤ n ∧ n < 2 ^ 63 := by
    rcases hw with ⟨hw, _⟩ | ⟨n, h1, h2, h3, h4⟩
    · exact .inl hw
    · exact .inr ⟨n, h1, by omega, by omega⟩
  obtain ⟨cfg, hcfg⟩ := (C79_accepted semi scheme user password host port ps h).2 hto
  obtain ⟨c1, c2, c3, c4, _⟩ := C79_tls semi scheme user password host port ps h cfg hcfg
  obtain ⟨t1, t2⟩ := C79_timeout semi scheme user password host port ps h cfg hcfg
  have htime : cfg.timeout = t := by
    rcases hw with ⟨hw, rfl⟩ | ⟨n, h1, rfl, h3, h4⟩
    · exact t1 hw
    · exact t2 n h1 h3 h4
  have := C89.connects env W semi fuel hcfg (by simpa using mt c4.1 ht) (by rw [c2]; exact hl.1) (by rw [c3]; exact hl.2)
  rwa [c1, c2, c3, htime] at this

end

/-- The full claim: with and without TLS. -/
def C92_statement : Prop :=
  ∀ (σ : Type) (env : Env) (W : World σ) semi fuel scheme user password host port ps t, Spec.Plain scheme user password host ps →
    user.length ≤ 65535 ∧ password.length ≤ 65535 → Spec.Waits ps t → ∀ (files : Files), ¬ Spec.Unusable files ps →
    ∃ e : Endpoint, Spec.Endpoint.timeout e = some t ∧ ∀ (reach reach' : Nat → Endpoint → σ) n, reach' n e = reach n e →
      createFrom env W semi fuel ⟨files, reach'⟩ (Spec.connString scheme user password host port ps) n =
        createFrom env W semi fuel ⟨files, reach⟩ (Spec.connString scheme user password host port ps) n

namespace C92

/-- Parameters with a timeout, with and without TLS. -/
def params (tls : String) : List (Bytes × Bytes) := [(ascii "tls", ascii tls), (ascii "timeout", ascii "5")]

theorem plain_of (v : Bytes) (hv : Spec.PlainValue v) : Spec.Plain (ascii "bolt") (ascii "u") (ascii "p") (ascii "h") [(ascii "tls", v), (ascii "timeout", ascii "5")] where
  scheme := .inl rfl
  user := by unfold Spec.PlainUser Spec.PlainChar; decide +kernel
  password := by unfold Spec.PlainPassword Spec.PlainChar; decide +kernel
  host := by unfold Spec.PlainHost; decide +kernel
  params := by
    intro p hp
    simp only [List.mem_cons, List.not_mem_nil, or_false] at hp
    rcases hp with rfl | rfl
    · exact ⟨(by unfold Spec.PlainName Spec.PlainValue; decide +kernel : Spec.PlainName (ascii "tls")), hv⟩
    · unfold Spec.PlainName Spec.PlainValue; decide +kernel

theorem waits (v : Bytes) : Spec.Waits [(ascii "tls", v), (ascii "timeout", ascii "5")] (5 * 10 ^ 9) := by
  refine .inr ⟨5, ?_, rfl, by decide, by decide⟩
  have : Spec.param [(ascii "tls", v), (ascii "timeout", ascii "5")] "timeout" = [0x35] := by
    simp [Spec.param, ascii]
  rw [this]
  exact .unsigned (n := 5) (.one (.mk 5))

/-- The hypotheses are met, and a server reached within 5 s accepts the connection. -/
example : ¬ Spec.Truthy (Spec.param (params "no") "tls") ∧ Spec.Waits (params "no") (5 * 10 ^ 9) ∧ Spec.Plain (ascii "bolt") (ascii "u") (ascii "p") (ascii "h") (params "no") ∧
    C90.outcome (createFrom env0 scripted true 5 (noFiles fun _ e => if e = .tcp (ascii "h:7687") 5000000000 then sOpen4 else [])
      (Spec.connString (ascii "bolt") (ascii "u") (ascii "p") (ascii "h") 7687 (params "no")) 0) = 0 := by
  refine ⟨fun h => ?_, waits _, plain_of _ (by unfold Spec.PlainValue; decide +kernel), by decide +kernel⟩
  have := (C79.isTrue_iff _).2 h
  revert this
  decide +kernel

end C92

/-- False: with TLS the timeout is not passed on, and connecting may take arbitrarily long. -/
theorem C92_refuted : ¬ C92_statement := by
  intro h
  obtain ⟨e, he, h⟩ := h (List (List Bytes)) env0 scripted true 5 (ascii "bolt") (ascii "u") (ascii "p") (ascii "h") 7687 [(ascii "tls", ascii "true"), (ascii "timeout", ascii "5")] (5 * 10 ^ 9)
    (C92.plain_of _ (by unfold Spec.PlainValue; decide +kernel)) (by decide +kernel) (C92.waits _) ⟨fun _ => none, fun _ => [], fun _ _ => none⟩ (by unfold Spec.Unusable; decide +kernel)
  cases e with
  | tls a t => cases he
  | tcp a t =>
    have := congrArg C90.outcome (h (fun _ e => match e with | .tls _ _ => sOpen4 | .tcp _ _ => []) (fun _ _ => []) 0 rfl)
    revert this
    decide +kernel

end Verif

/-
C90: a connection string that asks for TLS never leads to an unencrypted connection.
-/
import Verif.Props.C89
namespace Verif

namespace Spec

/-- Two networks with the same files that agree on everything reached with TLS. -/
structure SameTls {σ : Type} (net net' : Net σ) : Prop where
  files : net'.files = net.files
  reach : ∀ n a t, net'.reach n (.tls a t) = net.reach n (.tls a t)

end Spec

namespace C90
section
variable {σ : Type} (env : Env) (W : World σ) (semi : Bool) (fuel : Nat)

theorem config_tls {scheme user password host : Bytes} {port : Nat} {ps : List (Bytes × Bytes)} (h : Spec.Plain scheme user password host ps) (ht : Spec.Truthy (Spec.param ps "tls")) :
    (∃ e, connectionConfig semi (Spec.connString scheme user password host port ps) = .error e) ∨
    ∃ t, connectionConfig semi (Spec.connString scheme user password host port ps) =
      .ok ⟨host ++ 0x3A :: Url.decimal port, user, password, t, 65535, true, Spec.param ps "tls_cert_file", Spec.param ps "tls_key_file", Spec.param ps "tls_ca_cert_file",
        isTrue (Spec.param ps "tls_no_verify")⟩ := by
  rw [C79.config_plain semi port h, (C79.isTrue_iff _).2 ht]
  generalize timeoutOf semi _ _ = t
  cases t with
  | error e => exact .inl ⟨e, rfl⟩
  | ok t => exact .inr ⟨t, by simp [Except.bind]⟩

theorem createFrom_same {net net' : Net σ} (hn : Spec.SameTls net net') {str : Bytes} (h : ∀ cfg, connectionConfig semi str = .ok cfg → cfg.useTLS = true) (n : Nat) :
    createFrom env W semi fuel net' str n = createFrom env W semi fuel net str n := by
  unfold createFrom
  cases hc : connectionConfig semi str with
  | error e => rfl
  | ok cfg =>
    show (cfg.endpoint net'.files >>= _) = (cfg.endpoint net.files >>= _)
    have he : ∀ files : Files, cfg.endpoint files = (cfg.tlsConfig files >>= fun t => pure (.tls cfg.hostPort t)) := fun files => if_pos (h cfg hc)
    rw [he, he, hn.files]
    cases cfg.tlsConfig net.files with
    | error e => rfl
    | ok t =>
      show (Except.ok (createBoltConn env W fuel cfg.user cfg.password (net'.reach n (.tls cfg.hostPort t))) : Except Err _) = .ok _
      rw [hn.reach]

theorem dCreate_same {net net' : Net σ} {s : DPool σ} (h : ∀ n, createFrom env W semi fuel net' s.connStr n = createFrom env W semi fuel net s.connStr n) :
    dCreate env W semi fuel net' s = dCreate env W semi fuel net s := by
  unfold dCreate
  rw [h]

/-- The factory does not change the connection string. -/
theorem sameString (net : Net σ) : DRel env W semi fuel net (fun (s s' : DPool σ) => s'.connStr = s.connStr) where
  refl _ := rfl
  trans h1 h2 := h2.trans h1
  dial s := by unfold dCreate; split <;> rfl
  probe r s := by unfold onConn; split <;> rfl
  shut r s := by unfold onConn; split <;> rfl
  idle r s := by
    show (onConn r _ s).2.connStr = _
    unfold onConn; split <;> rfl
  objs _ _ := rfl

variable {str : Bytes} {net net' : Net σ} (hf : ∀ n, createFrom env W semi fuel net' str n = createFrom env W semi fuel net str n)
include hf

theorem call_same (c : FCall) (s : DPool σ) (h : s.connStr = str) : c.run env W semi fuel net' s = c.run env W semi fuel net s := by
  cases c with
  | make =>
    show (makeObject env W semi fuel net' s).2 = (makeObject env W semi fuel net s).2
    unfold makeObject
    rw [dCreate_same env W semi fuel (by rw [h]; exact hf)]
  | destroy o => rfl
  | validate o => rfl
  | activate o =>
    show (activateObject env W semi fuel net' o (s.obj o) s).2 = (activateObject env W semi fuel net o (s.obj o) s).2
    cases s.obj o with
    | conn r =>
      have hs := (sameString env W semi fuel net).probe r s
      unfold activateObject
      dsimp only
      split <;> rename_i hc <;> rw [hc] at hs
      rename_i s'
      have hs : s'.connStr = s.connStr := hs
      rw [dCreate_same env W semi fuel (by rw [hs, h]; exact hf)]
    | _ => rfl
  | passivate o => rfl

theorem library_same (calls : List FCall) (s : DPool σ) (h : s.connStr = str) : library env W semi fuel net' calls s = library env W semi fuel net calls s := by
  unfold library
  induction calls generalizing s with
  | nil => rfl
  | cons c cs ih =>
    rw [List.foldl_cons, List.foldl_cons, call_same env W semi fuel hf c s h]
    exact ih _ (((sameString env W semi fuel net).call c s).trans h)

theorem move_same (m : DMove) (s : DPool σ) (h : s.connStr = str) : m.run env W semi fuel net' s = m.run env W semi fuel net s ∧ (m.run env W semi fuel net s).connStr = str := by
  have hl := fun calls s h => library_same env W semi fuel hf calls s h
  have hk := fun calls (s : DPool σ) (h : s.connStr = str) => ((sameString env W semi fuel net).library calls s).trans h
  cases m with
  | «open» calls answer =>
    have hb : borrowed env W semi fuel net' calls answer s = borrowed env W semi fuel net calls answer s := by
      unfold borrowed
      rw [hl calls s h]
    constructor
    · show (dOpen W _ s).2 = (dOpen W _ s).2
      unfold dOpen
      rw [hb]
    · show (dOpen W _ s).2.connStr = str
      unfold dOpen
      split
      · exact h
      · unfold borrowed
        cases answer with
        | error e => exact hk calls s h
        | ok x =>
          cases x with
          | conn r =>
            have h2 := ((sameString env W semi fuel net).probe r _).trans (hk calls s h)
            dsimp only
            split <;> rename_i hy <;> rw [hy] at h2 <;> exact h2
          | _ => exact hk calls s h
  | reclaim r calls answer =>
    cases r with
    | none => exact ⟨rfl, h⟩
    | some r => exact ⟨hl calls { s with log := s.log ++ [.reclaimed r] } h, hk calls { s with log := s.log ++ [.reclaimed r] } h⟩
  | close calls =>
    show (dClose _ s).2 = (dClose _ s).2 ∧ (dClose _ s).2.connStr = str
    unfold dClose
    split
    · exact ⟨rfl, h⟩
    · dsimp only
      rw [hl calls s h]
      exact ⟨rfl, hk calls s h⟩
  | evict calls => exact ⟨hl calls s h, hk calls s h⟩
  | user r op =>
    refine ⟨rfl, Eq.trans ?_ h⟩
    show (onConn r _ s).2.connStr = _
    unfold onConn; split <;> rfl

theorem run_same (ms : List DMove) (s : DPool σ) (h : s.connStr = str) : dRun env W semi fuel net' ms s = dRun env W semi fuel net ms s := by
  unfold dRun
  induction ms generalizing s with
  | nil => rfl
  | cons m ms ih =>
    obtain ⟨h1, h2⟩ := move_same env W semi fuel hf m s h
    rw [List.foldl_cons, List.foldl_cons, h1]
    exact ih _ h2

end
end C90

section
variable {σ : Type} (env : Env) (W : World σ) {semi : Bool} (fuel : Nat)

/-- **C90**: what becomes of an attempt to connect does not depend on anything that is reached without TLS. -/
theorem C90_connection {scheme user password host : Bytes} {port : Nat} {ps : List (Bytes × Bytes)} (h : Spec.Plain scheme user password host ps)
    (ht : Spec.Truthy (Spec.param ps "tls")) {net net' : Net σ} (hn : Spec.SameTls net net') (n : Nat) :
    createFrom env W semi fuel net' (Spec.connString scheme user password host port ps) n = createFrom env W semi fuel net (Spec.connString scheme user password host port ps) n := by
  refine C90.createFrom_same env W semi fuel hn (fun cfg hc => ?_) n
  rcases C90.config_tls semi (port := port) h ht with ⟨e, he⟩ | ⟨t, he⟩
  · rw [he] at hc; cases hc
  · rw [he] at hc; cases hc; rfl

/-- The same for everything a pool without routing does, whatever its users do. -/
theorem C90_pool {scheme user password host : Bytes} {port : Nat} {ps : List (Bytes × Bytes)} (h : Spec.Plain scheme user password host ps)
    (ht : Spec.Truthy (Spec.param ps "tls")) {net net' : Net σ} (hn : Spec.SameTls net net') (ms : List DMove) :
    dRun env W semi fuel net' ms (newDriverPool (Spec.connString scheme user password host port ps)) =
      dRun env W semi fuel net ms (newDriverPool (Spec.connString scheme user password host port ps)) := by
  exact C90.run_same env W semi fuel (fun n => C90_connection env W fuel h ht hn n) ms _ rfl

end

/-- The claim for the pool with routing. -/
def C90_routing_statement : Prop :=
  ∀ (σ ω : Type) (env : Env) (W : World σ) (fuel : Nat) (P : PWorld ω) semi user password host port ps c, Spec.Plain (ascii "bolt+routing") user password host ps →
    Spec.Truthy (Spec.param ps "tls") → newClient semi [some (.connectionString (Spec.connString (ascii "bolt+routing") user password host port ps))] = .ok c →
    ∀ size w pool, c.openRouting P semi size w = .ok (.ok (), pool) → ∀ r id str write, .created r id str write ∈ pool.log →
    ∀ (net net' : Net σ), Spec.SameTls net net' → ∀ n, createFrom env W semi fuel net' str n = createFrom env W semi fuel net str n

namespace C90

/-- A connection string that asks for TLS. -/
def str : Bytes := Spec.connString (ascii "bolt+routing") (ascii "u") (ascii "p") (ascii "h") 7687 [(ascii "tls", ascii "true")]

theorem plain (scheme : Bytes) (hs : scheme = ascii "bolt" ∨ scheme = ascii "bolt+routing") : Spec.Plain scheme (ascii "u") (ascii "p") (ascii "h") [(ascii "tls", ascii "true")] where
  scheme := hs
  user := by unfold Spec.PlainUser Spec.PlainChar; decide +kernel
  password := by unfold Spec.PlainPassword Spec.PlainChar; decide +kernel
  host := by unfold Spec.PlainHost; decide +kernel
  params := by unfold Spec.PlainName Spec.PlainValue; decide +kernel

theorem truthy : Spec.Truthy (Spec.param [(ascii "tls", ascii "true")] "tls") := .inr ⟨ascii "rue", .inl (by decide +kernel)⟩

/-- Servers reached with TLS only, and by all means. -/
def onlyTls : Net (List (List Bytes)) := noFiles fun _ e => match e with | .tls _ _ => sOpen4 | .tcp _ _ => []
def anyhow : Net (List (List Bytes)) := noFiles fun _ _ => sOpen4

theorem same : Spec.SameTls anyhow onlyTls := ⟨rfl, fun _ _ _ => rfl⟩

/-- How an attempt ended. -/
def outcome {σ : Type} (r : Except Err (CRes Unit × Conn σ)) : Nat :=
  match r with
  | .ok r => r.1.kind
  | .error _ => 9

/-- The hypotheses of C90 are met; the server that speaks TLS accepts the connection. -/
example : outcome (createFrom env0 scripted true 5 onlyTls (Spec.connString (ascii "bolt") (ascii "u") (ascii "p") (ascii "h") 7687 [(ascii "tls", ascii "true")]) 0) = 0 := by decide +kernel

end C90

/-- False: the connections to the members are not encrypted, because the pool does not pass the parameter on. -/
theorem C90_routing_refuted : ¬ C90_routing_statement := by
  intro h
  have hx : (match newClient true [some (.connectionString C90.str)] with
      | .ok c => (match c.openRouting C89.cluster true 3 0 with
        | .ok (.ok (), pool) => pool.log.any fun
          | .created _ _ str _ => str = ascii "bolt://u:p@a:1"
          | _ => false
        | _ => false)
      | _ => false) = true := by decide +kernel
  split at hx
  case h_2 => cases hx
  rename_i c hc
  split at hx
  case h_2 => cases hx
  rename_i pool ho
  obtain ⟨e, he, hx⟩ := List.any_eq_true.1 hx
  split at hx
  case h_2 => cases hx
  rw [decide_eq_true_eq] at hx
  subst hx
  have := congrArg C90.outcome (h (List (List Bytes)) Nat env0 scripted 5 C89.cluster true (ascii "u") (ascii "p") (ascii "h") 7687 [(ascii "tls", ascii "true")] c (C90.plain _ (.inr rfl)) C90.truthy hc 3 0 pool ho _ _ _ _ he C90.anyhow C90.onlyTls C90.same 0)
  revert this
  decide +kernel

end Verif

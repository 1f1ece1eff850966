/-
C52: `WithTLS`.  C53: `WithTimeout` and `WithChunkSize`.  C55: routing.
-/
import Verif.Props.C54
namespace Verif

/-! ### C52 -/

/-- The full claim. -/
def C52_statement : Prop :=
  ∀ semi opts c cfg, (∃ ca cert key nv, some (.tls ca cert key nv) ∈ opts) → newClient semi opts = .ok c → c.openConfig semi = .ok cfg →
    cfg.useTLS = true

/-- The parsed connection string of a plain client. -/
theorem plain_parse {semi : Bool} {opts : List (Option ClientOpt)} {c : Client} (hs : ¬ Spec.GivesString opts) (h : newClient semi opts = .ok c)
    (hh : Spec.PlainHost c.host) (hu : Spec.PlainUser c.user) (hpw : Spec.PlainPassword c.password)
    (hp : c.useTLS = true → Spec.PlainPath c.certFile ∧ Spec.PlainPath c.keyFile ∧ Spec.PlainPath c.caCertFile) :
    c.openConfig semi = .ok ⟨c.host ++ 0x3A :: Url.decimal c.port.toNat, c.user, c.password, 60 * 1000000000, 65535, false, [], [], [], false⟩ := by
  obtain ⟨_, hne, _, hstr⟩ := newClient_connStr hs h
  have hours : Url.OurScheme (if c.routing then ascii "bolt+routing" else ascii "bolt") := by
    cases c.routing
    · exact .inl rfl
    · exact .inr rfl
  have hp' : c.useTLS = true → C54.PlainPaths c := fun ht => ⟨(hp ht).1, (hp ht).2.1, (hp ht).2.2⟩
  have hstr' : c.connStr = (if c.routing then ascii "bolt+routing" else ascii "bolt") ++ 0x3A :: 0x2F :: 0x2F ::
      (C54.auth c.user c.password c.host (Url.decimal c.port.toNat) ++ C54.tailOf c) := by
    rw [hstr, C54.baseStr_eq]
    unfold C54.tailOf
    simp
  unfold Client.openConfig connectionConfig
  rw [hstr', C54.parse_plain hours hu hpw hh (C54.tail_ok hp')]
  dsimp only
  rw [Url.toLower_ours hours]
  rw [if_neg (by rcases hours with e | e <;> rw [e] <;> simp)]
  unfold timeoutOf
  rw [C54.tail_get hp' semi _ rfl (.inr rfl), C54.tail_get hp' semi _ rfl (.inl rfl)]
  rfl

/-- The opposite of the claim holds in general: with plain names, credentials and paths, a client made with or without `WithTLS` opens unencrypted connections. -/
theorem C52_never (semi : Bool) (opts : List (Option ClientOpt)) (c : Client) (hs : ¬ Spec.GivesString opts) (h : newClient semi opts = .ok c)
    (hh : Spec.PlainHost c.host) (hu : Spec.PlainUser c.user) (hpw : Spec.PlainPassword c.password)
    (hp : c.useTLS = true → Spec.PlainPath c.certFile ∧ Spec.PlainPath c.keyFile ∧ Spec.PlainPath c.caCertFile) :
    ∃ cfg, c.openConfig semi = .ok cfg ∧ cfg.useTLS = false :=
  ⟨_, plain_parse hs h hh hu hpw hp, rfl⟩

/-- Partial: TLS asked for in the connection string (tls=1, or a value starting with t or T) is used, and nothing else makes a connection use it.  Missing: `WithTLS`, for which the claim is false. -/
theorem C52_connection_string_partial (semi : Bool) (s : Bytes) (u : Url.URL) (cfg : Config) (hu : Url.parse s = some u) (h : connectionConfig semi s = .ok cfg) :
    cfg.useTLS = true ↔ Url.get semi u (ascii "tls") = ascii "1" ∨
      ∃ b rest, Url.get semi u (ascii "tls") = b :: rest ∧ (b = 0x74 ∨ b = 0x54) := by
  have key : cfg.useTLS = isTrue (Url.get semi u (ascii "tls")) := by
    unfold connectionConfig at h
    rw [hu] at h
    dsimp only at h
    split at h
    · cases h
    · match huu : u.user with
      | some (_, none) => rw [huu] at h; cases h
      | none =>
        rw [huu] at h
        cases ht : timeoutOf semi u (60 * 1000000000) with
        | error e => rw [ht] at h; cases h
        | ok t => rw [ht] at h; cases h; rfl
      | some (us, some pw) =>
        rw [huu] at h
        cases ht : timeoutOf semi u (60 * 1000000000) with
        | error e => rw [ht] at h; cases h
        | ok t => rw [ht] at h; cases h; rfl
  rw [key]
  unfold isTrue
  have hb : ∀ b : UInt8, (if Url.isUpper b then b + 0x20 else b) = 0x74 ↔ b = 0x74 ∨ b = 0x54 := by
    refine C54.allBytes ?_
    decide +kernel
  cases hg : Url.get semi u (ascii "tls") with
  | nil => simp [Url.toLower, ascii]
  | cons b rest =>
    simp only [Url.toLower, List.map_cons, List.head?_cons, Option.some.injEq, Bool.or_eq_true, decide_eq_true_eq]
    rw [hb]
    constructor
    · rintro (h | h)
      · exact .inr ⟨b, rest, rfl, h⟩
      · exact .inl h
    · rintro (h | ⟨b', rest', h, h'⟩)
      · exact .inr h
      · cases h; exact .inl h'

/-- Whether the connections of a client use TLS; `none` if there is no client or no connection. -/
def clientTLS (semi : Bool) (opts : List (Option ClientOpt)) : Option (Option Bool) :=
  match newClient semi opts with
  | .ok c => match c.openConfig semi with
    | .ok cfg => some (some cfg.useTLS)
    | .error _ => some none
  | .error _ => none

example : (Url.parse (ascii "bolt://u:p@h:7687?tls=True&timeout=5")).isSome = true ∧
    clientTLS true [some (.connectionString (ascii "bolt://u:p@h:7687?tls=True&timeout=5"))] = some (some true) ∧
    clientTLS true [some (.connectionString (ascii "bolt://u:p@h:7687?tls=yes&timeout=5"))] = some (some false) := by decide +kernel

/-- A client asking for TLS. -/
def C52.opts : List (Option ClientOpt) :=
  [some (.hostPort (ascii "h") 7687), some (.basicAuth (ascii "u") (ascii "p")), some (.tls (ascii "/ca.pem") (ascii "/cert.pem") (ascii "/key.pem") false)]

/-- False: `NewClient` leaves "tls=" out of the connection string, so `WithTLS` is ignored. -/
theorem C52_refuted : ¬ C52_statement := by
  intro h
  have hf : clientTLS true C52.opts = some (some false) := by decide +kernel
  unfold clientTLS at hf
  split at hf
  · next c hc =>
    split at hf
    · next cfg hcfg =>
      have := h true C52.opts c cfg ⟨_, _, _, _, List.mem_cons_of_mem _ (List.mem_cons_of_mem _ (List.mem_singleton.mpr rfl))⟩ hc hcfg
      rw [this] at hf
      cases hf
    · cases hf
  · cases hf

/-! ### C53 -/

/-- The full claim: the last `WithTimeout` and the last `WithChunkSize` take effect. -/
def C53_statement : Prop :=
  ∀ semi opts c cfg d n, newClient semi (some (.timeout d) :: some (.chunkSize n) :: opts) = .ok c →
    (∀ d', some (.timeout d') ∉ opts) → (∀ n', some (.chunkSize n') ∉ opts) → d ≠ 0 → n ≠ 0 → c.openConfig semi = .ok cfg →
    cfg.timeout = d ∧ cfg.chunkSize = n.toNat

/-- Not `WithTimeout` and not `WithChunkSize`. -/
def Spec.other : Option ClientOpt → Bool
  | some (.timeout _) => false
  | some (.chunkSize _) => false
  | _ => true

/-- Forget timeout and chunk size. -/
def strip (c : Client) : Client := { c with timeout := 0, chunkSize := 0 }

theorem map_ite (f : Client → Client) {P Q : Prop} [Decidable P] [Decidable Q] (h : P ↔ Q) {a b a' b' : Except Err Client} (ha : a.map f = a'.map f)
    (hb : b.map f = b'.map f) : (if P then a else b).map f = (if Q then a' else b').map f := by
  by_cases hp : P
  · rw [if_pos hp, if_pos (h.mp hp), ha]
  · rw [if_neg hp, if_neg (fun q => hp (h.mpr q)), hb]

theorem apply_strip (c : Client) (o : ClientOpt) :
    (o.apply c).map strip = if Spec.other (some o) then (o.apply (strip c)).map strip else .ok (strip c) := by
  cases o <;> simp only [Spec.other, if_true, if_false, Bool.false_eq_true]
  all_goals first | rfl | exact map_ite strip Iff.rfl rfl rfl

theorem applyOpts_strip (opts : List (Option ClientOpt)) : ∀ c c' : Client, strip c = strip c' →
    (applyOpts c opts).map strip = (applyOpts c' (opts.filter Spec.other)).map strip := by
  induction opts with
  | nil => intro c c' h; simp only [List.filter_nil, applyOpts, Except.map, h]
  | cons o os ih =>
    intro c c' h
    match o with
    | none => rfl
    | some o =>
      have h1 := apply_strip c o
      have h2 := apply_strip c' o
      rw [List.filter_cons]
      by_cases ho : Spec.other (some o) = true
      · rw [if_pos ho] at h1 h2 ⊢
        rw [h] at h1
        rw [← h2] at h1
        unfold applyOpts
        cases e1 : o.apply c with
        | error e =>
          cases e2 : o.apply c' with
          | error e' => rfl
          | ok d' => rw [e1, e2] at h1; cases h1
        | ok d =>
          cases e2 : o.apply c' with
          | error e' => rw [e1, e2] at h1; cases h1
          | ok d' =>
            rw [e1, e2] at h1
            exact ih d d' (Except.ok.inj h1)
      · rw [if_neg ho] at h1 ⊢
        conv => lhs; unfold applyOpts
        cases e1 : o.apply c with
        | error e => rw [e1] at h1; cases h1
        | ok d =>
          rw [e1] at h1
          exact ih d c' ((Except.ok.inj h1).trans h)

theorem build_connStr {c c' : Client} (h : strip c = strip c') : (c.build).map Client.connStr = (c'.build).map Client.connStr := by
  have hb : ∀ c : Client, (c.build).map Client.connStr = ((strip c).build).map Client.connStr := by
    intro c
    unfold Client.build strip
    dsimp only
    split
    · rfl
    · split
      · rfl
      · split <;> rfl
  rw [hb c, hb c', h]

theorem takeUrl_cases (semi : Bool) (c : Client) : (∃ e, ∀ t n, ({ c with timeout := t, chunkSize := n } : Client).takeUrl semi = .error e) ∨
    ∀ t n, ∃ d, ({ c with timeout := t, chunkSize := n } : Client).takeUrl semi = .ok d ∧ d.connStr = c.connStr := by
  unfold Client.takeUrl
  dsimp only
  cases Url.parse c.connStr with
  | none => exact .inl ⟨_, fun _ _ => rfl⟩
  | some u =>
    dsimp only
    by_cases hsch : Url.toLower u.scheme ≠ ascii "bolt" ∧ Url.toLower u.scheme ≠ ascii "bolt+routing"
    · simp only [if_pos hsch]
      exact .inl ⟨_, fun _ _ => rfl⟩
    · simp only [if_neg hsch]
      -- host
      have hhost : (∃ e, ∀ c : Client, c.takeHost u.host = .error e) ∨ ∃ (h : Client → Bytes) (p : Client → Int), ∀ c : Client, c.takeHost u.host = .ok { c with host := h c, port := p c } := by
        unfold Client.takeHost
        cases u.host.contains 0x3A with
        | false => exact .inr ⟨Client.host, Client.port, fun c => rfl⟩
        | true =>
          simp only [if_true]
          match Url.splitAll 0x3A u.host with
          | [] => exact .inl ⟨_, fun _ => rfl⟩
          | [_] => exact .inl ⟨_, fun _ => rfl⟩
          | [h, p] =>
            dsimp only
            cases Url.atoi p with
            | none => exact .inl ⟨_, fun _ => rfl⟩
            | some n => exact .inr ⟨fun _ => h, fun _ => n, fun _ => rfl⟩
          | _ :: _ :: _ :: _ => exact .inl ⟨_, fun _ => rfl⟩
      rcases hhost with ⟨e, he⟩ | ⟨h, p, hh⟩
      · exact .inl ⟨e, fun t n => by rw [he]; rfl⟩
      · simp only [hh]
        have huser : (∃ e, ∀ c : Client, c.takeUser u.user = .error e) ∨ ∃ (a b : Client → Bytes), ∀ c : Client, c.takeUser u.user = .ok { c with user := a c, password := b c } := by
          match u.user with
          | none => exact .inr ⟨Client.user, Client.password, fun c => rfl⟩
          | some (_, none) => exact .inl ⟨_, fun _ => rfl⟩
          | some (a, some b) => exact .inr ⟨fun _ => a, fun _ => b, fun _ => rfl⟩
        rcases huser with ⟨e, he⟩ | ⟨a, b, hu⟩
        · refine .inl ⟨e, fun t n => ?_⟩
          change (Client.takeUser _ _ >>= _) = _
          rw [he]
          rfl
        · have htime : (∃ e, ∀ t, timeoutOf semi u t = .error e) ∨ ∃ f : Int → Int, ∀ t, timeoutOf semi u t = .ok (f t) := by
            unfold timeoutOf
            by_cases hg : Url.get semi u (ascii "timeout") = []
            · simp only [if_pos hg]; exact .inr ⟨id, fun _ => rfl⟩
            · simp only [if_neg hg]
              cases Url.atoi (Url.get semi u (ascii "timeout")) with
              | none => exact .inl ⟨_, fun _ => rfl⟩
              | some n => exact .inr ⟨fun _ => wrap64 (n * 1000000000), fun _ => rfl⟩
          rcases htime with ⟨e, he⟩ | ⟨f, hf⟩
          · refine .inl ⟨e, fun t n => ?_⟩
            change (Client.takeUser _ _ >>= _) = _
            rw [hu]
            change (timeoutOf semi u _ >>= _) = _
            rw [he]
            rfl
          · refine .inr fun t n => ?_
            change ∃ d, (Client.takeUser _ _ >>= _) = .ok d ∧ _
            rw [hu]
            change ∃ d, (timeoutOf semi u _ >>= _) = .ok d ∧ _
            rw [hf]
            simp only [bind, Except.bind]
            split
            · exact ⟨_, rfl, rfl⟩
            · exact ⟨_, rfl, rfl⟩

/-- A client's connections depend on its options only through those that are not `WithTimeout` and `WithChunkSize`: leaving these out changes nothing, neither success nor the settings
of the connections. -/
theorem C53_ignored (semi : Bool) (opts : List (Option ClientOpt)) (hne : opts.filter Spec.other ≠ []) :
    (newClient semi opts >>= fun c => c.openConfig semi) = (newClient semi (opts.filter Spec.other) >>= fun c => c.openConfig semi) := by
  unfold newClient
  rw [if_neg hne, if_neg (by rintro rfl; exact hne rfl)]
  have h := applyOpts_strip opts {} {} rfl
  cases e1 : applyOpts {} opts with
  | error e =>
    cases e2 : applyOpts {} (opts.filter Spec.other) with
    | error e' => rw [e1, e2] at h; cases h; rfl
    | ok c' => rw [e1, e2] at h; cases h
  | ok c =>
    cases e2 : applyOpts {} (opts.filter Spec.other) with
    | error e' => rw [e1, e2] at h; cases h
    | ok c' =>
      rw [e1, e2] at h
      have h : strip c = strip c' := Except.ok.inj h
      have hw : ∀ c : Client, strip c.withDefaults = strip c := fun _ => rfl
      have hcs : c.connStr = c'.connStr := by have := congrArg Client.connStr h; exact this
      change ((if c.connStr = [] then c.withDefaults.build else c.withDefaults.takeUrl semi) >>= _) =
        ((if c'.connStr = [] then c'.withDefaults.build else c'.withDefaults.takeUrl semi) >>= _)
      rw [← hcs]
      split
      · have hb := build_connStr ((hw c).trans (h.trans (hw c').symm))
        cases b1 : c.withDefaults.build with
        | error e =>
          cases b2 : c'.withDefaults.build with
          | error e' => rw [b1, b2] at hb; cases hb; rfl
          | ok d' => rw [b1, b2] at hb; cases hb
        | ok d =>
          cases b2 : c'.withDefaults.build with
          | error e' => rw [b1, b2] at hb; cases hb
          | ok d' =>
            rw [b1, b2] at hb
            have : d.connStr = d'.connStr := Except.ok.inj hb
            change connectionConfig semi d.connStr = connectionConfig semi d'.connStr
            rw [this]
      · have hc : c.withDefaults = { strip c with timeout := c.withDefaults.timeout, chunkSize := c.withDefaults.chunkSize } := rfl
        have hc' : c'.withDefaults = { strip c' with timeout := c'.withDefaults.timeout, chunkSize := c'.withDefaults.chunkSize } := rfl
        rw [hc, hc', ← h]
        rcases takeUrl_cases semi (strip c) with ⟨e, he⟩ | hd
        · rw [he, he]
        · obtain ⟨d, hd1, hd2⟩ := hd c.withDefaults.timeout c.withDefaults.chunkSize
          obtain ⟨d', hd1', hd2'⟩ := hd c'.withDefaults.timeout c'.withDefaults.chunkSize
          rw [hd1, hd1']
          change connectionConfig semi d.connStr = connectionConfig semi d'.connStr
          rw [hd2, hd2']

example : [some (ClientOpt.timeout 5), some (.hostPort (ascii "h") 7687), some (.chunkSize 10)].filter Spec.other ≠ [] := by decide

/-- Every connection that is opened has the largest chunk size, and a timeout of 60 seconds unless its connection string asks for another. -/
theorem C53_settings (semi : Bool) (s : Bytes) (u : Url.URL) (cfg : Config) (hu : Url.parse s = some u) (h : connectionConfig semi s = .ok cfg) :
    cfg.chunkSize = 65535 ∧
    (Url.get semi u (ascii "timeout") = [] → cfg.timeout = 60 * 1000000000) ∧
    (∀ n, Url.get semi u (ascii "timeout") ≠ [] → Url.atoi (Url.get semi u (ascii "timeout")) = some n → cfg.timeout = wrap64 (n * 1000000000)) := by
  have key : ∃ t, timeoutOf semi u (60 * 1000000000) = .ok t ∧ cfg.timeout = t ∧ cfg.chunkSize = 65535 := by
    unfold connectionConfig at h
    rw [hu] at h
    dsimp only at h
    split at h
    · cases h
    · match huu : u.user with
      | some (_, none) => rw [huu] at h; cases h
      | none =>
        rw [huu] at h
        cases ht : timeoutOf semi u (60 * 1000000000) with
        | error e => rw [ht] at h; cases h
        | ok t => rw [ht] at h; cases h; exact ⟨t, rfl, rfl, rfl⟩
      | some (us, some pw) =>
        rw [huu] at h
        cases ht : timeoutOf semi u (60 * 1000000000) with
        | error e => rw [ht] at h; cases h
        | ok t => rw [ht] at h; cases h; exact ⟨t, rfl, rfl, rfl⟩
  obtain ⟨t, ht, h1, h2⟩ := key
  refine ⟨h2, fun hg => ?_, fun n hg hn => ?_⟩
  · unfold timeoutOf at ht
    rw [if_pos hg] at ht
    cases ht
    exact h1
  · unfold timeoutOf at ht
    rw [if_neg hg, hn] at ht
    cases ht
    exact h1

/-- Timeout and chunk size of the connections of a client. -/
def clientSettings (semi : Bool) (opts : List (Option ClientOpt)) : Option (Option (Int × Nat)) :=
  match newClient semi opts with
  | .ok c => match c.openConfig semi with
    | .ok cfg => some (some (cfg.timeout, cfg.chunkSize))
    | .error _ => some none
  | .error _ => none

/-- A timeout in the connection string is used. -/
example : clientSettings true [some (.connectionString (ascii "bolt://u:p@h:7687?timeout=5"))] = some (some (5000000000, 65535)) := by decide +kernel

/-- A client asking for one second and chunks of 1000 bytes. -/
def C53.opts : List (Option ClientOpt) := [some (.hostPort (ascii "h") 7687), some (.basicAuth (ascii "u") (ascii "p"))]

/-- False: the two options set fields of the client that nothing reads. -/
theorem C53_refuted : ¬ C53_statement := by
  intro h
  have hf : clientSettings true (some (.timeout 1000000000) :: some (.chunkSize 1000) :: C53.opts) = some (some (60000000000, 65535)) := by decide +kernel
  unfold clientSettings at hf
  split at hf
  · next c hc =>
    split at hf
    · next cfg hcfg =>
      have := h true C53.opts c cfg 1000000000 1000 hc (by intro d hd; simp [C53.opts] at hd) (by intro d hd; simp [C53.opts] at hd) (by decide) (by decide) hcfg
      rw [this.1] at hf
      simp at hf
    · cases hf
  · cases hf

/-! ### C55 -/

/-- The full claim: routing exactly if `WithRouting` was given or the scheme of the connection string is bolt+routing (upper or lower case), and no unpooled driver for routing clients. -/
def C55_statement : Prop :=
  ∀ semi opts c, newClient semi opts = .ok c →
    (c.routing = true ↔ some .routing ∈ opts ∨ ∃ s u, some (.connectionString s) ∈ opts ∧ Url.parse s = some u ∧ u.scheme = ascii "bolt+routing") ∧
    (c.routing = true → ∃ e, c.newDriver = .error e)

/-- `NewDriver` refuses exactly the routing clients. -/
theorem C55_new_driver (c : Client) : (c.routing = true → ∃ e, c.newDriver = .error e) ∧ (c.routing = false → c.newDriver = .ok c.connStr) := by
  unfold Client.newDriver
  refine ⟨fun h => ⟨_, if_pos h⟩, fun h => if_neg (by rw [h]; decide)⟩

theorem applyOpts_routing {c c' : Client} {opts : List (Option ClientOpt)} (h : applyOpts c opts = .ok c') :
    (c'.routing = true ↔ c.routing = true ∨ some .routing ∈ opts) ∧
    (∀ s, (c.connStr = s ∨ some (.connectionString s) ∈ opts) → (∀ s', some (.connectionString s') ∈ opts → s' = s) → c'.connStr = s) := by
  induction opts generalizing c with
  | nil => cases h; simp
  | cons o os ih =>
    match o with
    | none => cases h
    | some o =>
      unfold applyOpts at h
      cases ho : o.apply c with
      | error e => rw [ho] at h; cases h
      | ok c1 =>
        rw [ho] at h
        obtain ⟨ih1, ih2⟩ := ih h
        constructor
        · rw [ih1]
          cases o <;> simp only [ClientOpt.apply] at ho
          all_goals (first | cases ho | (split at ho <;> cases ho))
          all_goals simp
        · intro s h0 hu
          refine ih2 s ?_ fun s' hs' => hu s' (List.mem_cons_of_mem _ hs')
          cases o <;> simp only [ClientOpt.apply] at ho
          case connectionString s1 =>
            have : s1 = s := hu s1 (List.mem_cons_self ..)
            split at ho
            · cases ho
            · cases ho; exact .inl this
          all_goals (first | cases ho | (split at ho <;> cases ho))
          all_goals
            rcases h0 with h0 | h0
            · exact .inl h0
            · rcases List.mem_cons.mp h0 with h0 | h0
              · cases h0
              · exact .inr h0

theorem takeUrl_routing {semi : Bool} {c c' : Client} (h : c.takeUrl semi = .ok c') : c'.routing = Url.contains (ascii "+routing") c.connStr := by
  unfold Client.takeUrl at h
  cases hp : Url.parse c.connStr with
  | none => rw [hp] at h; cases h
  | some u =>
    rw [hp] at h
    dsimp only at h
    split at h
    · cases h
    · have hh : ∀ (c d : Client) (x : Bytes), c.takeHost x = .ok d → d.routing = c.routing := by
        intro c d x hx
        unfold Client.takeHost at hx
        split at hx
        · split at hx
          · split at hx <;> cases hx
            rfl
          · cases hx
        · cases hx; rfl
      have hu : ∀ (c d : Client) (x : Url.Userinfo), c.takeUser x = .ok d → d.routing = c.routing := by
        intro c d x hx
        unfold Client.takeUser at hx
        split at hx <;> cases hx <;> rfl
      cases h1 : Client.takeHost { c with routing := Url.contains (ascii "+routing") c.connStr } u.host with
      | error e => rw [h1] at h; cases h
      | ok d1 =>
        rw [h1] at h
        change (d1.takeUser u.user >>= _) = _ at h
        cases h2 : d1.takeUser u.user with
        | error e => rw [h2] at h; cases h
        | ok d2 =>
          rw [h2] at h
          change (timeoutOf semi u d2.timeout >>= _) = _ at h
          cases h3 : timeoutOf semi u d2.timeout with
          | error e => rw [h3] at h; cases h
          | ok t =>
            rw [h3] at h
            have e1 := hh _ _ _ h1
            have e2 := hu _ _ _ h2
            simp only [bind, Except.bind] at h
            split at h
            · cases h; exact e2.trans e1
            · cases h; exact e2.trans e1

/-- Without a connection string: a routing client exactly if `WithRouting` was given. -/
theorem C55_options (semi : Bool) (opts : List (Option ClientOpt)) (c : Client) (hs : ¬ Spec.GivesString opts) (h : newClient semi opts = .ok c) :
    c.routing = true ↔ some .routing ∈ opts := by
  unfold newClient at h
  split at h
  · cases h
  · cases ha : applyOpts {} opts with
    | error e => rw [ha] at h; cases h
    | ok c1 =>
      rw [ha] at h
      obtain ⟨h1, h2⟩ := applyOpts_routing ha
      have hc := h2 [] (.inl rfl) fun s' hs' => absurd ⟨s', hs'⟩ hs
      change (if c1.connStr = [] then _ else _) = _ at h
      rw [if_pos hc] at h
      have hb : c.routing = c1.routing := by
        unfold Client.build at h
        split at h
        · cases h
        · split at h
          · cases h
          · split at h
            · cases h
            · cases h; rfl
      rw [hb, h1]
      simp

theorem contains_iff (p s : Bytes) : Url.contains p s = true ↔ p <:+: s := by
  induction s with
  | nil => simp [Url.contains]
  | cons b s ih => simp [Url.contains, ih, List.infix_cons_iff]

/-- With a connection string: a routing client exactly if the text "+routing" occurs in it, anywhere. -/
theorem C55_connection_string_partial (semi : Bool) (opts : List (Option ClientOpt)) (c : Client) (s : Bytes) (hm : some (.connectionString s) ∈ opts) (hne : s ≠ [])
    (hu : ∀ s', some (.connectionString s') ∈ opts → s' = s) (h : newClient semi opts = .ok c) : c.routing = true ↔ ascii "+routing" <:+: s := by
  unfold newClient at h
  split at h
  · cases h
  · cases ha : applyOpts {} opts with
    | error e => rw [ha] at h; cases h
    | ok c1 =>
      rw [ha] at h
      have hc := (applyOpts_routing ha).2 s (.inr hm) hu
      change (if c1.connStr = [] then _ else _) = _ at h
      rw [if_neg (by rw [hc]; exact hne)] at h
      rw [takeUrl_routing h, contains_iff]
      exact iff_of_eq (congrArg _ hc)

/-- Whether a client could be made, and whether it routes. -/
def clientRouting (semi : Bool) (opts : List (Option ClientOpt)) : Option Bool :=
  match newClient semi opts with
  | .ok c => some c.routing
  | .error _ => none

example : clientRouting true (some .routing :: C53.opts) = some true ∧ clientRouting true C53.opts = some false ∧
    clientRouting true [some (.connectionString (ascii "bolt+routing://u:p@h:7687"))] = some true := by decide +kernel

/-- `WithRouting` followed by a connection string is accepted, and routing is off. -/
def C55.lost : List (Option ClientOpt) := [some .routing, some (.connectionString (ascii "bolt://u:p@h:7687"))]

/-- False: the connection string overwrites what `WithRouting` set. -/
theorem C55_refuted : ¬ C55_statement := by
  intro h
  have hf : clientRouting true C55.lost = some false := by decide +kernel
  unfold clientRouting at hf
  split at hf
  · next c hc =>
    have := (h true C55.lost c hc).1.mpr (.inl (List.mem_cons_self ..))
    rw [this] at hf
    cases hf
  · cases hf

/-- Nor is the text only looked for in the scheme, and case matters: a password can turn routing on, and an upper case scheme is accepted without routing. -/
example : clientRouting true [some (.connectionString (ascii "bolt://u:a+routing@h:7687"))] = some true ∧
    clientRouting true [some (.connectionString (ascii "bolt+ROUTING://u:p@h:7687"))] = some false := by decide +kernel

end Verif

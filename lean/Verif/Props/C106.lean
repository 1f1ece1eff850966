/-
C106  An authentication token says what it was built from, and the initialisation message carries it.
-/
import Verif.Props.C32
import Verif.Proofs.Parse
import Verif.Proofs.RoundTrip
import Verif.Proofs.ValEq
namespace Verif
open Spec

namespace Spec

/-- Who someone claims to be. -/
inductive Claim where
  | basic (user password realm : Bytes)
  | kerberos (ticket : Bytes)

/-- The entries by which a server recognises a claim (Bolt specification, "authentication token"). -/
def Claim.entries : Claim → List (Bytes × Bytes)
  | .basic user password realm =>
    [(ascii "scheme", ascii "basic"), (ascii "principal", user), (ascii "credentials", password), (ascii "realm", realm)]
  | .kerberos ticket => [(ascii "scheme", ascii "kerberos"), (ascii "principal", []), (ascii "credentials", ticket)]

/-- The strings fit their length fields. -/
def Claim.Short (c : Claim) : Prop := ∀ e ∈ c.entries, e.2.length < 2 ^ 32

/-- `bs` is an initialisation message with exactly these entries and the user agent: INIT with the two as fields for versions 1 and 2, HELLO with one map for
versions 3 and 4. -/
def Introduces (p : Proto) (agent : Bytes) (es : List (Bytes × Bytes)) (bs : Bytes) : Prop :=
  match p with
  | .v1 | .v2 => ∃ fs, fs.Perm (es.map fun e => (e.1, PS.str e.2)) ∧ Enc full (.struct 0x01 [.str agent, .map fs]) bs
  | .v3 | .v4 => ∃ fs, fs.Perm (((ascii "user_agent", agent) :: es).map fun e => (e.1, PS.str e.2)) ∧ Enc full (.struct 0x01 [.map fs]) bs

end Spec

/-- The token that the driver builds for a claim. -/
def tokenFor : Spec.Claim → Entries
  | .basic user password realm => buildAuthTokenBasicWithRealm user password realm
  | .kerberos ticket => buildAuthTokenKerberos ticket

/-- Full statement: for every claim and protocol version, the initialisation message with the token built for the claim is accepted by the encoder and carries
exactly the claim and the user agent. -/
def C106_statement : Prop := ∀ (env : Env) (p : Proto) (agent : Bytes) (c : Claim), agent.length < 2 ^ 32 → c.Short →
  (encode env p.codec (p.initMessage agent (tokenFor c))).2 = none ∧ Introduces p agent c.entries (payload env p.codec (p.initMessage agent (tokenFor c)))

/-- A map entry whose value is a string. -/
def strEntry (e : Bytes × Bytes) : Bytes × Val := (e.1, .str e.2)

/-- The initialisation message carries any token of few strings. -/
theorem init_carries (env : Env) (p : Proto) {agent : Bytes} {es : List (Bytes × Bytes)} (ha : agent.length < 2 ^ 32) (hl : es.length < 15)
    (hs : ∀ e ∈ es, e.1.length < 2 ^ 32 ∧ e.2.length < 2 ^ 32) (hn : ascii "user_agent" ∉ es.map Prod.fst) :
    (encode env p.codec (p.initMessage agent (es.map strEntry))).2 = none ∧ Introduces p agent es (payload env p.codec (p.initMessage agent (es.map strEntry))) := by
  have hk : (ascii "user_agent").length = 10 := by decide
  have tr : ∀ (l : List (Bytes × Bytes)) ver, ((l.map strEntry).map fun e => (e.1, (tree env ver e.2).getD .null)) = l.map fun e => (e.1, PS.str e.2) := by
    intro l ver
    rw [List.map_map]
    rfl
  have h12 : ∀ ver, (encode env ver (newInitMessage agent (es.map strEntry))).2 = none ∧
      ∃ fs, fs.Perm (es.map fun e => (e.1, PS.str e.2)) ∧ Spec.Enc full (.struct 0x01 [.str agent, .map fs]) (payload env ver (newInitMessage agent (es.map strEntry))) := by
    intro ver
    obtain ⟨h1, h2⟩ := strEntries_wire env ver (es.map strEntry) (by rw [List.length_map]; omega) (fun e he => by
      obtain ⟨x, hx, rfl⟩ := List.mem_map.mp he
      exact ⟨x.2, rfl, hs x hx⟩)
    rw [tr] at h1 h2
    have hw := wire_of_tree env ver (v := newInitMessage agent (es.map strEntry)) (t := .struct 0x01 [.str agent, .map (es.map fun e => (e.1, PS.str e.2))])
      (by simp only [newInitMessage, tree, trees, h1, tag, Option.map_some]) (by
        simp only [PS.Fits, PS.FitsWith, FitsList, List.length_cons, List.length_nil, and_true] at h2 ⊢
        exact ⟨by omega, ha, h2⟩)
    exact ⟨hw.1, _, List.Perm.refl _, hw.2⟩
  have h34 : ∀ ver, (encode env ver (newHelloMessage (mapInsert (es.map strEntry) (ascii "user_agent") (.str agent)))).2 = none ∧
      ∃ fs, fs.Perm (((ascii "user_agent", agent) :: es).map fun e => (e.1, PS.str e.2)) ∧
        Spec.Enc full (.struct 0x01 [.map fs]) (payload env ver (newHelloMessage (mapInsert (es.map strEntry) (ascii "user_agent") (.str agent)))) := by
    intro ver
    have e : mapInsert (es.map strEntry) (ascii "user_agent") (.str agent) = (es ++ [(ascii "user_agent", agent)]).map strEntry := by
      rw [mapInsert_new (by rw [List.map_map]; exact hn), List.map_append]; rfl
    rw [e]
    obtain ⟨h1, h2⟩ := strEntries_wire env ver ((es ++ [(ascii "user_agent", agent)]).map strEntry) (by rw [List.length_map, List.length_append, List.length_singleton]; omega) (fun e he => by
      obtain ⟨x, hx, rfl⟩ := List.mem_map.mp he
      refine ⟨x.2, rfl, ?_⟩
      rcases List.mem_append.mp hx with h | h
      · exact hs x h
      · rw [List.mem_singleton] at h; subst h; exact ⟨by show (ascii "user_agent").length < _; omega, ha⟩)
    rw [tr] at h1 h2
    have hw := wire_of_tree env ver (v := newHelloMessage ((es ++ [(ascii "user_agent", agent)]).map strEntry))
      (t := .struct 0x01 [.map ((es ++ [(ascii "user_agent", agent)]).map fun e => (e.1, PS.str e.2))])
      (by simp only [newHelloMessage, tree, trees, h1, tag, Option.map_some]) (by
        simp only [PS.Fits, PS.FitsWith, FitsList, List.length_cons, List.length_nil, and_true] at h2 ⊢
        exact ⟨by omega, h2⟩)
    refine ⟨hw.1, _, List.Perm.map _ ?_, hw.2⟩
    exact List.perm_append_comm
  cases p
  · exact h12 _
  · exact h12 _
  · exact h34 _
  · exact h34 _

/-- The strings of the tokens themselves are short. -/
theorem auth_words : ∀ s ∈ [ascii "scheme", ascii "principal", ascii "credentials", ascii "realm", ascii "basic", ascii "kerberos"], s.length < 2 ^ 32 := by
  have : ∀ s ∈ [ascii "scheme", ascii "principal", ascii "credentials", ascii "realm", ascii "basic", ascii "kerberos"], s.length ≤ 20 := by decide
  intro s hs; have := this s hs; omega

theorem entries_short {c : Claim} (h : c.Short) : ∀ e ∈ c.entries, e.1.length < 2 ^ 32 ∧ e.2.length < 2 ^ 32 := by
  intro e he
  refine ⟨?_, h e he⟩
  cases c with
  | basic u w r =>
    simp only [Claim.entries, List.mem_cons, List.not_mem_nil, or_false] at he
    rcases he with rfl | rfl | rfl | rfl <;> exact auth_words _ (by simp)
  | kerberos t =>
    simp only [Claim.entries, List.mem_cons, List.not_mem_nil, or_false] at he
    rcases he with rfl | rfl | rfl <;> exact auth_words _ (by simp)

/-- True unless a realm is given.  Missing from the full statement: basic authentication with a realm. -/
theorem C106_partial (env : Env) (p : Proto) {agent : Bytes} {c : Claim} (ha : agent.length < 2 ^ 32) (hs : c.Short) (hr : ∀ u w r, c = .basic u w r → r = []) :
    (encode env p.codec (p.initMessage agent (tokenFor c))).2 = none ∧ Introduces p agent c.entries (payload env p.codec (p.initMessage agent (tokenFor c))) := by
  cases c with
  | basic u w r =>
    obtain rfl := hr u w r rfl
    have e : tokenFor (.basic u w []) = (Claim.basic u w []).entries.map strEntry := auth_eq u w
    rw [e]
    exact init_carries env p ha (by simp [Claim.entries]) (entries_short hs) (show ascii "user_agent" ∉ [ascii "scheme", ascii "principal", ascii "credentials", ascii "realm"] by decide)
  | kerberos t =>
    have e : tokenFor (.kerberos t) = (Claim.kerberos t).entries.map strEntry := rfl
    rw [e]
    exact init_carries env p ha (by simp [Claim.entries]) (entries_short hs) (show ascii "user_agent" ∉ [ascii "scheme", ascii "principal", ascii "credentials"] by decide)

/-- A realm that is given is not sent: the message says the same, whatever the realm, and has no entry for it. -/
theorem C106_realm_lost (env : Env) (p : Proto) {agent user password realm : Bytes} (ha : agent.length < 2 ^ 32) (hs : (Claim.basic user password realm).Short) (hr : realm ≠ []) :
    Introduces p agent [(ascii "scheme", ascii "basic"), (ascii "principal", user), (ascii "credentials", password)]
      (payload env p.codec (p.initMessage agent (tokenFor (.basic user password realm)))) := by
  have e : tokenFor (.basic user password realm) = [(ascii "scheme", ascii "basic"), (ascii "principal", user), (ascii "credentials", password)].map strEntry := by
    show putIf _ _ _ _ = _
    unfold putIf
    rw [if_neg (by simpa using hr)]
    rfl
  rw [e]
  refine (init_carries env p (es := [(ascii "scheme", ascii "basic"), (ascii "principal", user), (ascii "credentials", password)]) ha (by simp) (fun x hx => ?_) (show ascii "user_agent" ∉ [ascii "scheme", ascii "principal", ascii "credentials"] by decide)).2
  refine entries_short hs x ?_
  simp only [Claim.entries, List.mem_cons, List.not_mem_nil, or_false] at hx ⊢
  rcases hx with h | h | h <;> simp [h]

theorem Spec.Introduces.length_eq {p : Proto} {agent : Bytes} {es es' : List (Bytes × Bytes)} {bs : Bytes} (h : Introduces p agent es bs) (h' : Introduces p agent es' bs) :
    es.length = es'.length := by
  have key : ∀ {fs fs' : List PS}, Spec.Enc full (.struct 0x01 fs) bs → Spec.Enc full (.struct 0x01 fs') bs → fs = fs' := by
    intro fs fs' h1 h2
    have := (Enc_unique h1 h2 (r := []) (r' := []) rfl).1
    cases this; rfl
  have h12 : (∃ fs, fs.Perm (es.map fun e => (e.1, PS.str e.2)) ∧ Spec.Enc full (.struct 0x01 [.str agent, .map fs]) bs) →
      (∃ fs, fs.Perm (es'.map fun e => (e.1, PS.str e.2)) ∧ Spec.Enc full (.struct 0x01 [.str agent, .map fs]) bs) → es.length = es'.length := by
    rintro ⟨fs, h1, h2⟩ ⟨fs', h3, h4⟩
    cases key h2 h4
    have a := h1.length_eq
    have b := h3.length_eq
    rw [List.length_map] at a b
    omega
  have h34 : (∃ fs, fs.Perm (((ascii "user_agent", agent) :: es).map fun e => (e.1, PS.str e.2)) ∧ Spec.Enc full (.struct 0x01 [.map fs]) bs) →
      (∃ fs, fs.Perm (((ascii "user_agent", agent) :: es').map fun e => (e.1, PS.str e.2)) ∧ Spec.Enc full (.struct 0x01 [.map fs]) bs) → es.length = es'.length := by
    rintro ⟨fs, h1, h2⟩ ⟨fs', h3, h4⟩
    cases key h2 h4
    have a := h1.length_eq
    have b := h3.length_eq
    rw [List.length_map, List.length_cons] at a b
    omega
  cases p
  · exact h12 h h'
  · exact h12 h h'
  · exact h34 h h'
  · exact h34 h h'

/-- The full statement is false: the realm "r" of user "u" with password "p" is not sent. -/
theorem C106_refuted : ¬ C106_statement := by
  intro h
  have hs : (Claim.basic [0x75] [0x70] [0x72]).Short := by
    intro e he
    simp only [Claim.entries, List.mem_cons, List.not_mem_nil, or_false] at he
    rcases he with rfl | rfl | rfl | rfl
    · exact auth_words _ (by simp)
    · simp
    · simp
    · simp
  have h1 := (h env0 .v4 [0x61] (.basic [0x75] [0x70] [0x72]) (by simp) hs).2
  have h2 := C106_realm_lost env0 .v4 (agent := [0x61]) (by simp) hs (by simp)
  have := h1.length_eq h2
  simp [Claim.entries] at this

/-- The hypotheses of `C106_partial` are met, by a user without realm and by a ticket. -/
example : (Claim.kerberos [0x54, 0x3D]).Short ∧ ∀ u w r, Claim.kerberos [0x54, 0x3D] = .basic u w r → r = [] := by
  refine ⟨fun e he => ?_, fun u w r h => by cases h⟩
  simp only [Claim.entries, List.mem_cons, List.not_mem_nil, or_false] at he
  rcases he with rfl | rfl | rfl
  · exact auth_words _ (by simp)
  · simp
  · simp

end Verif

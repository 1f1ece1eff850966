/-
C32  Credentials are sent verbatim.
-/
import Verif.Proofs.Wire
import Verif.Model.Conn
namespace Verif
open Spec

/-- The authentication entries that the server must see. -/
def authEntries (user password : Bytes) : List (Bytes × PS) :=
  [(ascii "scheme", .str (ascii "basic")), (ascii "principal", .str user), (ascii "credentials", .str password), (ascii "realm", .str [])]

/-- `bs` is an initialisation message on the wire: for versions 1 and 2, `INIT user_agent auth`; for versions 3 and 4, `HELLO` with a map
of the authentication entries and the user agent. -/
def isInitFor (p : Proto) (agent user password : Bytes) (bs : Bytes) : Prop :=
  match p with
  | .v1 | .v2 => ∃ es, es.Perm (authEntries user password) ∧ Spec.Enc full (.struct 0x01 [.str agent, .map es]) bs
  | .v3 | .v4 => ∃ es, es.Perm ((ascii "user_agent", .str agent) :: authEntries user password) ∧ Spec.Enc full (.struct 0x01 [.map es]) bs

theorem auth_mapInsert (user password agent : Bytes) :
    mapInsert (buildAuthTokenBasic user password) (ascii "user_agent") (.str agent) =
      [(ascii "scheme", .str (ascii "basic")), (ascii "principal", .str user), (ascii "credentials", .str password),
       (ascii "realm", .str []), (ascii "user_agent", .str agent)] := by
  have e1 : ascii "scheme" ≠ ascii "user_agent" := by decide
  have e2 : ascii "principal" ≠ ascii "user_agent" := by decide
  have e3 : ascii "credentials" ≠ ascii "user_agent" := by decide
  have e4 : ascii "realm" ≠ ascii "user_agent" := by decide
  have e5 : ascii "scheme" ≠ ascii "realm" := by decide
  have e6 : ascii "principal" ≠ ascii "realm" := by decide
  have e7 : ascii "credentials" ≠ ascii "realm" := by decide
  simp [buildAuthTokenBasic, buildAuthTokenBasicWithRealm, putIf, mapInsert, e1, e2, e3, e4, e5, e6, e7]

theorem auth_eq (user password : Bytes) : buildAuthTokenBasic user password =
    [(ascii "scheme", .str (ascii "basic")), (ascii "principal", .str user), (ascii "credentials", .str password), (ascii "realm", .str [])] := by
  have e5 : ascii "scheme" ≠ ascii "realm" := by decide
  have e6 : ascii "principal" ≠ ascii "realm" := by decide
  have e7 : ascii "credentials" ≠ ascii "realm" := by decide
  simp [buildAuthTokenBasic, buildAuthTokenBasicWithRealm, putIf, mapInsert, e5, e6, e7]

/-- String-valued entries in any order. -/
theorem strEntries_wire (env : Env) (ver : Ver) (es : Entries) (hl : es.length < 16)
    (h : ∀ e ∈ es, ∃ s, e.2 = .str s ∧ e.1.length < 2 ^ 32 ∧ s.length < 2 ^ 32) :
    treeEntries env ver es = some (es.map fun e => (e.1, (tree env ver e.2).getD .null)) ∧
    (PS.map (es.map fun e => (e.1, (tree env ver e.2).getD .null))).Fits := by
  constructor
  · refine treeEntries_map env ver (fun v => (tree env ver v).getD .null) es fun e he => ?_
    obtain ⟨s, hs, _⟩ := h e he
    rw [hs]; rfl
  · simp only [PS.Fits, PS.FitsWith, List.length_map]
    refine ⟨by omega, fitsEntries_iff.mpr ?_⟩
    intro e he
    rw [List.mem_map] at he
    obtain ⟨e', he', rfl⟩ := he
    obtain ⟨s, hs, h1, h2⟩ := h e' he'
    simp only [hs, tree, Option.getD_some, PS.FitsWith]
    exact ⟨h1, h2⟩

/-- For every protocol version, every user name and password (any bytes shorter than `2^32`), and every order in which the authentication map
is iterated: the initialisation message is accepted by the encoder and its bytes carry exactly these credentials and the client's user
agent. -/
theorem C32_credentials (env : Env) (p : Proto) (agent user password : Bytes) (ha : agent.length < 2 ^ 32) (hu : user.length < 2 ^ 32)
    (hp : password.length < 2 ^ 32) (auth : Entries) (hauth : auth.Perm (buildAuthTokenBasic user password)) :
    ∀ msg, (match p with
      | .v1 | .v2 => msg = .struct .init [.str agent, .map auth]
      | .v3 | .v4 => ∃ m, m.Perm (mapInsert auth (ascii "user_agent") (.str agent)) ∧ msg = .struct .hello [.map m]) →
    (encode env p.codec msg).2 = none ∧ isInitFor p agent user password (payload env p.codec msg) := by
  intro msg hmsg
  have hk : ∀ s ∈ [ascii "scheme", ascii "principal", ascii "credentials", ascii "realm", ascii "user_agent", ascii "basic"], s.length < 2 ^ 32 := by
    have : ∀ s ∈ [ascii "scheme", ascii "principal", ascii "credentials", ascii "realm", ascii "user_agent", ascii "basic"], s.length ≤ 20 := by
      decide
    intro s hs; have := this s hs; omega
  have hbase : ∀ e ∈ [((ascii "scheme", .str (ascii "basic")) : Bytes × Val), (ascii "principal", .str user), (ascii "credentials", .str password),
       (ascii "realm", .str []), (ascii "user_agent", .str agent)], ∃ s, e.2 = .str s ∧ e.1.length < 2 ^ 32 ∧ s.length < 2 ^ 32 := by
    intro e he
    simp only [List.mem_cons, List.not_mem_nil, or_false] at he
    rcases he with rfl | rfl | rfl | rfl | rfl
    · exact ⟨_, rfl, hk _ (by simp), hk _ (by simp)⟩
    · exact ⟨_, rfl, hk _ (by simp), hu⟩
    · exact ⟨_, rfl, hk _ (by simp), hp⟩
    · exact ⟨_, rfl, hk _ (by simp), by simp⟩
    · exact ⟨_, rfl, hk _ (by simp), ha⟩
  rw [auth_eq] at hauth
  have hv12 : msg = .struct .init [.str agent, .map auth] → ∀ ver, (encode env ver msg).2 = none ∧
      ∃ es, es.Perm (authEntries user password) ∧ Spec.Enc full (.struct 0x01 [.str agent, .map es]) (payload env ver msg) := by
    rintro rfl ver
    obtain ⟨h1, h2⟩ := strEntries_wire env ver auth (by rw [hauth.length_eq]; simp) (fun e he => hbase e (by
      have := hauth.mem_iff.mp he
      simp only [List.mem_cons, List.not_mem_nil, or_false] at this ⊢
      rcases this with h | h | h | h <;> simp [h]))
    have hw := wire_of_tree env ver (v := .struct .init [.str agent, .map auth])
      (t := .struct 0x01 [.str agent, .map (auth.map fun e => (e.1, (tree env ver e.2).getD .null))])
      (by simp only [tree, trees, h1, tag, Option.map_some]) (by
        simp only [PS.Fits, PS.FitsWith, FitsList, List.length_cons, List.length_nil, and_true] at h2 ⊢
        exact ⟨by omega, ha, h2⟩)
    refine ⟨hw.1, _, ?_, hw.2⟩
    exact (hauth.map _).trans (List.Perm.of_eq rfl)
  have hv34 : (∃ m, m.Perm (mapInsert auth (ascii "user_agent") (.str agent)) ∧ msg = .struct .hello [.map m]) → ∀ ver,
      (encode env ver msg).2 = none ∧ ∃ es, es.Perm ((ascii "user_agent", .str agent) :: authEntries user password) ∧
        Spec.Enc full (.struct 0x01 [.map es]) (payload env ver msg) := by
    rintro ⟨m, hm, rfl⟩ ver
    have hins : (mapInsert auth (ascii "user_agent") (.str agent)).Perm ((ascii "user_agent", .str agent) :: auth) := by
      have hnk : ascii "user_agent" ∉ auth.map Prod.fst := by
        intro h
        rw [(hauth.map Prod.fst).mem_iff] at h
        exact absurd h (show ascii "user_agent" ∉ [ascii "scheme", ascii "principal", ascii "credentials", ascii "realm"] by decide)
      have : ∀ l : Entries, ascii "user_agent" ∉ l.map Prod.fst → mapInsert l (ascii "user_agent") (.str agent) = l ++ [(ascii "user_agent", .str agent)] := by
        intro l
        induction l with
        | nil => intro _; rfl
        | cons e l ih =>
          obtain ⟨k, v⟩ := e
          intro h
          simp only [List.map_cons, List.mem_cons, not_or] at h
          simp only [mapInsert]
          rw [if_neg (fun h' => h.1 h'.symm), ih h.2]; rfl
      rw [this auth hnk]
      exact List.perm_append_comm
    have hm2 := hm.trans (hins.trans (hauth.cons _))
    obtain ⟨h1, h2⟩ := strEntries_wire env ver m (by rw [hm2.length_eq]; simp) (fun e he => hbase e (by
      have := hm2.mem_iff.mp he
      simp only [List.mem_cons, List.not_mem_nil, or_false] at this ⊢
      rcases this with h | h | h | h | h <;> simp [h]))
    have hw := wire_of_tree env ver (v := .struct .hello [.map m])
      (t := .struct 0x01 [.map (m.map fun e => (e.1, (tree env ver e.2).getD .null))])
      (by simp only [tree, trees, h1, tag, Option.map_some]) (by
        simp only [PS.Fits, PS.FitsWith, FitsList, List.length_cons, List.length_nil, and_true] at h2 ⊢
        exact ⟨by omega, h2⟩)
    refine ⟨hw.1, _, ?_, hw.2⟩
    exact (hm2.map _).trans (List.Perm.of_eq rfl)
  cases p
  · exact hv12 hmsg _
  · exact hv12 hmsg _
  · exact hv34 hmsg _
  · exact hv34 hmsg _

/-- The message of the model is one of these. -/
theorem C32_message (env : Env) (p : Proto) (user password : Bytes) (hu : user.length < 2 ^ 32) (hp : password.length < 2 ^ 32) :
    let msg := p.initMessage clientID (buildAuthTokenBasic user password)
    (encode env p.codec msg).2 = none ∧ isInitFor p (ascii "GoBolt/0.1") user password (payload env p.codec msg) := by
  have hc : clientID = ascii "GoBolt/0.1" := by decide
  have ha : (ascii "GoBolt/0.1").length < 2 ^ 32 := by
    have : (ascii "GoBolt/0.1").length = 10 := by decide
    omega
  refine C32_credentials env p (ascii "GoBolt/0.1") user password ha hu hp (buildAuthTokenBasic user password) (List.Perm.refl _) _ ?_
  rw [hc]
  cases p
  · rfl
  · rfl
  · exact ⟨_, List.Perm.refl _, rfl⟩
  · exact ⟨_, List.Perm.refl _, rfl⟩

/-- A user name with a colon and a password with a zero byte. -/
example : ([0x61, 0x3A, 0x62] : Bytes).length < 2 ^ 32 ∧ ([0x00, 0xFF, 0x40] : Bytes).length < 2 ^ 32 := by
  constructor <;> (simp only [List.length_cons, List.length_nil]; omega)

end Verif

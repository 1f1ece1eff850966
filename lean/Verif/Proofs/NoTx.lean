/-
Calls that do not begin a transaction.
-/
import Verif.Proofs.StepsAll
import Verif.Model.DriverPool
namespace Verif

section
variable {σ : Type} (env : Env) (W : World σ)

/-- Only `Begin` gives a connection a transaction. -/
theorem noTx : Prim₀ env W (fun (c c' : Conn σ) => c.cur = none → c'.cur = none) where
  refl _ h := h
  trans h1 h2 h := h2 (h1 h)
  send v c h := (congrArg Core.cur (sendMessage_core env W v c)).trans h
  recv c h := (congrArg Core.cur (receive_core env c)).trans h
  endTx _ _ _ := rfl
  sock c h := by
    have := congrArg Core.cur (closeSock_core W c)
    exact Eq.trans this h
  probe c h := by
    unfold validateOpen
    split
    · exact h
    · split
      · exact h
      · exact h
      · split <;> exact h
  chunk _ _ h := h

/-- A new connection has no transaction. -/
theorem create_noTx {fuel : Nat} {user password : Bytes} {w : σ} {c : Conn σ} (h : createBoltConn env W fuel user password w = (.ok (), c)) : c.cur = none := by
  obtain ⟨c1, vb, c2, p, n, h1, h2, h3, _, h4⟩ := initConn_ok env W h
  obtain ⟨_, rfl⟩ := createConnection_ok W h1
  have hk := handshake_core W { Conn.fresh w with world := (W.dial w).1, sock := true, closed := false }
  rw [show (Conn.fresh w).world = w from rfl] at h2
  rw [h2] at hk
  have hc : c2.cur = none := congrArg Core.cur hk
  have := (noTx env W).sendInit env W fuel (p.initMessage clientID (buildAuthTokenBasic user password)) { c2 with proto := p, version := n, versionBytes := vb } hc
  rw [h4] at this
  exact this

theorem createFrom_eq {semi : Bool} {fuel : Nat} {net : Net σ} {connStr : Bytes} {n : Nat} {r : CRes Unit × Conn σ}
    (h : createFrom env W semi fuel net connStr n = .ok r) : ∃ cfg e, connectionConfig semi connStr = .ok cfg ∧ cfg.endpoint net.files = .ok e ∧
      r = createBoltConn env W fuel cfg.user cfg.password (net.reach n e) := by
  unfold createFrom at h
  cases hc : connectionConfig semi connStr with
  | error e => rw [hc] at h; cases h
  | ok cfg =>
    rw [hc] at h
    cases he : cfg.endpoint net.files with
    | error e =>
      change (cfg.endpoint net.files >>= _) = _ at h
      rw [he] at h; cases h
    | ok e =>
      change (cfg.endpoint net.files >>= _) = _ at h
      rw [he] at h
      cases h
      exact ⟨cfg, e, rfl, he, rfl⟩

theorem createFrom_noTx {semi : Bool} {fuel : Nat} {net : Net σ} {connStr : Bytes} {n : Nat} {c : Conn σ}
    (h : createFrom env W semi fuel net connStr n = .ok (.ok (), c)) : c.cur = none ∧ c.core.Inv := by
  obtain ⟨cfg, e, _, _, h⟩ := createFrom_eq env W h
  exact ⟨create_noTx env W h.symm, create_inv env W h.symm⟩

theorem step_query_noTx (fuel : Nat) (q : Bytes) (ps : Entries) (db : Bytes) (c : Conn σ) (h : c.cur = none) : (queryWithDb env W fuel q ps db c).2.cur = none := by
  have P := noTx env W
  exact Steps.bind P.toStepRel (P.checkDb env W db) (fun _ => P.runQuery env W fuel q ps db false) c h

end
end Verif

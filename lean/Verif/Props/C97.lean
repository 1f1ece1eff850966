/-
C97: what the routing pool asks a cluster member on the network, and what it makes of the answer.
-/
import Verif.Props.C61Live
import Verif.Props.C75
import Verif.Props.C83
namespace Verif
open PProg

namespace Spec

/-- The question for the members: the procedure of the server, without parameters; in version 4 it is asked of the database "system". -/
def overviewTree (p : Proto) (mode : AccessMode) : PS :=
  runTree p (ascii "call dbms.cluster.overview()") (.map []) (if p = .v4 then ascii "system" else []) mode false

end Spec

section
variable {σ : Type} (env : Env) (W : World σ) (semi : Bool) (fuel : Nat) (net : Net σ) (ids : Nat → Bytes)

/-- Connecting for the members. -/
theorem live_create {w w' : Live σ} {r : Nat} {str : Bytes} (h : (liveWorld env W semi fuel net ids).create w r str = (w', none)) :
    ∃ c user password e, createFrom env W semi fuel net str w.dials = .ok (.ok (), c) ∧ createBoltConn env W fuel user password (net.reach w.dials e) = (.ok (), c) ∧ w'.conns r = some c := by
  unfold liveWorld at h
  dsimp only at h
  cases hc : createFrom env W semi fuel net str w.dials with
  | error e => rw [hc] at h; cases h
  | ok res =>
    rw [hc] at h
    dsimp only at h
    obtain ⟨res, c⟩ := res
    cases res with
    | ok u =>
      simp only [CRes.error?, Prod.mk.injEq, and_true] at h
      subst h
      have hc' := hc
      unfold createFrom at hc
      cases h1 : connectionConfig semi str with
      | error e => rw [h1] at hc; cases hc
      | ok cfg =>
        rw [h1] at hc
        replace hc : (cfg.endpoint net.files >>= fun e => Except.ok (createBoltConn env W fuel cfg.user cfg.password (net.reach w.dials e))) = _ := hc
        cases h2 : cfg.endpoint net.files with
        | error e => rw [h2] at hc; cases hc
        | ok e =>
          rw [h2] at hc
          exact ⟨c, cfg.user, cfg.password, e, rfl, Except.ok.inj hc, by simp [Live.put]⟩
    | _ => cases h

/-- A new connection that is open can be used, and has the default size of chunks. -/
theorem create_usable {user password : Bytes} {w : σ} {c : Conn σ} (h : createBoltConn env W fuel user password w = (.ok (), c)) (ho : c.closed = false) :
    c.sock = true ∧ c.chunkSize = 65535 := by
  obtain ⟨c1, vb, c2, p, nv, h1, h2, h3, _, h4⟩ := initConn_ok env W h
  obtain ⟨hd, _⟩ := createConnection_ok W h1
  rcases handshake_cases env W fuel user password w hd with ⟨n, p', segs', g1, g2, g3, g4⟩ | ⟨_, ⟨e, he⟩, _⟩
  · rw [g4] at h
    unfold sendInit at h
    obtain ⟨_, d1, k1, j1⟩ := CM.bind_eq_ok.mp h
    obtain ⟨v, d2, k2, j2⟩ := CM.bind_eq_ok.mp j1
    obtain ⟨k3, k4⟩ := consumeWith_ok env k2
    obtain ⟨_, _, _, rfl⟩ := sendMessage_ok env W k1
    obtain ⟨_, _, k5⟩ := receive_ok env k3
    cases hs : asSuccess v with
    | some md =>
      rw [hs] at j2
      replace j2 : (CRes.ok (), d2) = (CRes.ok (), c) := j2
      simp only [Prod.mk.injEq, true_and] at j2
      subst j2
      exact ⟨by rw [k5]; rfl, by rw [k5]; rfl⟩
    | none =>
      rw [hs] at j2
      obtain ⟨q1, _⟩ := close_ok env W j2
      rw [q1] at ho
      cases ho
  · rw [h] at he; cases he

/-- The question can be sent. -/
theorem overview_sendable (p : Proto) : Sendable env p.codec 65535 (ascii "call dbms.cluster.overview()") [] (if p = .v4 then ascii "system" else []) (.map []) := by
  refine ⟨by omega, by omega, by decide +kernel, by cases p <;> decide +kernel, rfl, ⟨by decide, trivial⟩, ⟨fun _ h => absurd h List.not_mem_nil, trivial⟩⟩

/-- The question of the pool, for a connection that exists. -/
theorem live_query {w : Live σ} {r : Nat} {c : Conn σ} (h : w.conns r = some c) :
    (liveWorld env W semi fuel net ids).query w r clusterOverview (overviewDb ((liveWorld env W semi fuel net ids).version w r)) =
      (w.put r (runQuery env W fuel (ascii "call dbms.cluster.overview()") [] (if c.proto = .v4 then ascii "system" else []) false c).2,
        match (runQuery env W fuel (ascii "call dbms.cluster.overview()") [] (if c.proto = .v4 then ascii "system" else []) false c).1 with
        | .ok rows => .ok rows.1
        | .err e => .error e
        | .panic => .error (.plain "panic")
        | .fuel => .error (.plain "fuel")) := by
  have hv : overviewDb ((liveWorld env W semi fuel net ids).version w r) = if c.proto = .v4 then ascii "system" else [] := by
    simp only [liveWorld, h, overviewDb]
    cases c.proto <;> rfl
  rw [hv]
  have hd := (C33_calls env W fuel 0 clusterOverview [] (if c.proto = .v4 then ascii "system" else []) c (by
    by_cases hp : c.proto = .v4
    · exact .inr hp
    · exact .inl (if_neg hp))).1
  simp only [liveWorld, h, hd]
  rfl

/-- Fetching the members, step by step, if the connection could be made. -/
theorem live_refresh {s : RPool (Live σ)} {w' : Live σ} (h : (liveWorld env W semi fuel net ids).create s.world s.next s.leaderConnStr = (w', none)) :
    ∃ s', (refreshConnections (liveWorld env W semi fuel net ids)).run s = (.ok (), s') ∧
      let v := (liveWorld env W semi fuel net ids).version w' s.next
      let q := (liveWorld env W semi fuel net ids).query w' s.next clusterOverview (overviewDb v)
      s'.log = s.log ++ [.dialled s.next s.leaderConnStr, .overview v q.2, .closed s.next] ∧ s'.handler = (s.handler.refreshClusterInfo v q.2).1 ∧
      s'.world = ((liveWorld env W semi fuel net ids).close q.1 s.next).1 := by
  unfold refreshConnections
  simp only [Bind.bind, PProg.bind, PProg.prim, PProg.run, h, if_true, Pure.pure, pClose]
  exact ⟨_, rfl, by simp [RPool.takeStrings], rfl, rfl⟩

/-- **C97**: if the connection for the members could be made and is open, then the first thing written on it is the question, and if the server answers it with SUCCESS, records and SUCCESS,
however cut into chunks and segments, exactly the records are taken for the overview, and the members they describe are known from then on. -/
theorem C97_asks {s : RPool (Live σ)} {c : Conn σ} (hc : createFrom env W semi fuel net s.leaderConnStr s.world.dials = .ok (.ok (), c)) (ho : c.closed = false) :
    ∃ w1 w2 s' c', Carries (Spec.overviewTree c.proto c.mode) w1 ∧ Carries (Spec.pullTree c.proto) w2 ∧
      (refreshConnections (liveWorld env W semi fuel net ids)).run s = (.ok (), s') ∧ s'.world.conns s.next = some c' ∧ c.trace ++ [.sent w1] <+: c'.trace ∧
      ∀ {m0 m1 : List (Bytes × Spec.PS)} {recs : List (List Spec.PS)} {md0 md : Entries} {rows : List (List Val)} {rest : Bytes},
        Spec.interpEntries env c.proto.codec m0 [] = some md0 → Spec.interpEntries env c.proto.codec m1 [] = some md → RowsMean env c.proto.codec recs rows →
        Delivered W c.world [w1, w2] → Answers (resultTrees m0 recs m1) (c.segs.flatten ++ (feed W c.world [w1, w2]).2) rest →
        s'.log = s.log ++ [.dialled s.next s.leaderConnStr, .overview c.proto.number.toNat (.ok rows), .closed s.next] ∧
        c.trace ++ [.sent w1, .sent w2] <+: c'.trace ∧
        ∀ ms, Spec.All2 (Spec.RowsMean c.proto.number.toNat) rows ms → s'.handler = Spec.cluster ms ∧ Spec.Members s'.log ms := by
  have hcr : ∃ w', (liveWorld env W semi fuel net ids).create s.world s.next s.leaderConnStr = (w', none) := by
    simp only [liveWorld, hc, CRes.error?]
    exact ⟨_, rfl⟩
  obtain ⟨w', hw⟩ := hcr
  obtain ⟨c', user, password, e, h1, h2, h3⟩ := live_create env W semi fuel net ids hw
  cases hc.symm.trans h1
  obtain ⟨hs, hk⟩ := create_usable env W fuel h2 ho
  obtain ⟨s', g1, g2, g3, g4⟩ := live_refresh env W semi fuel net ids hw
  have hsend := overview_sendable env c.proto
  rw [← hk] at hsend
  have hq := live_query env W semi fuel net ids h3
  have hv : (liveWorld env W semi fuel net ids).version w' s.next = c.proto.number.toNat := by simp only [liveWorld, h3]
  rw [hq] at g2 g3 g4
  rw [hv] at g2 g3
  obtain ⟨w1, w2, k1, k2, k3, k4⟩ := C33_rows env W (fuel := fuel) (inTx := false) ho hs hsend
  generalize hr : runQuery env W fuel (ascii "call dbms.cluster.overview()") [] (if c.proto = .v4 then ascii "system" else []) false c = res at *
  obtain ⟨res, c1⟩ := res
  have hclose : s'.world.conns s.next = some (close env W fuel c1).2 := by
    rw [g4]
    simp [liveWorld, Live.put]
  have hgrow : c1.trace <+: (close env W fuel c1).2.trace := (grows env W).close env W fuel c1
  refine ⟨w1, w2, s', (close env W fuel c1).2, k1, k2, g1, hclose, k3.trans hgrow, fun h0 h1 h2 hd ha => ?_⟩
  obtain ⟨c2, j1, _, j3⟩ := k4 h0 h1 h2 hd ha
  cases j1
  refine ⟨g2, List.IsPrefix.trans ?_ hgrow, fun ms hm => ?_⟩
  · rw [j3.trace]
    simp
  · rw [g3, (C56_taken_over s.handler _ _ ms hm)]
    refine ⟨rfl, s.log ++ [.dialled s.next s.leaderConnStr], _, _, [.closed s.next], by rw [g2]; simp, hm, fun _ _ _ h => ?_⟩
    cases List.mem_singleton.1 h

/-- **C97**, conversely and for all servers: rows that the pool takes for the overview are the records that the server has sent in answer to the question, between two SUCCESS; and unless all of
them are understood, the known members stay. -/
theorem C97_only {s s' : RPool (Live σ)} (hr : (refreshConnections (liveWorld env W semi fuel net ids)).run s = (.ok (), s')) :
    (∀ {v : Nat} {rows : List (List Val)}, .overview v (.ok rows) ∈ s'.log.drop s.log.length →
      ∃ c c' w1 w2 md0 md recs, createFrom env W semi fuel net s.leaderConnStr s.world.dials = .ok (.ok (), c) ∧ v = c.proto.number.toNat ∧ Carries (Spec.overviewTree c.proto c.mode) w1 ∧
        Exchanged env W c c' [w1, w2] (successV md0 :: (recs ++ [successV md])) ∧ RecordsFor recs rows) ∧
    (s'.handler = s.handler ∨ ∃ v rows ms, .overview v (.ok rows) ∈ s'.log.drop s.log.length ∧ Spec.All2 (Spec.RowsMean v) rows ms ∧ s'.handler = Spec.cluster ms) := by
  generalize hcr : (liveWorld env W semi fuel net ids).create s.world s.next s.leaderConnStr = cr
  obtain ⟨w', err⟩ := cr
  cases err with
  | some e =>
    unfold refreshConnections at hr
    simp only [Bind.bind, PProg.bind, PProg.prim, PProg.run, hcr, if_true, Pure.pure, Prod.mk.injEq, true_and] at hr
    subst hr
    simp
  | none =>
    obtain ⟨c, user, password, e, h1, h2, h3⟩ := live_create env W semi fuel net ids hcr
    obtain ⟨s₁, g1, g2, g3, _⟩ := live_refresh env W semi fuel net ids hcr
    cases hr.symm.trans g1
    have hv : (liveWorld env W semi fuel net ids).version w' s.next = c.proto.number.toNat := by simp only [liveWorld, h3]
    rw [live_query env W semi fuel net ids h3] at g2 g3
    rw [hv] at g2 g3
    rw [g2, List.drop_left]
    constructor
    · intro v rows hm
      simp only [List.mem_cons, reduceCtorEq, false_or, or_false, PEv.overview.injEq, List.not_mem_nil] at hm
      obtain ⟨rfl, hm⟩ := hm
      generalize hq : runQuery env W fuel (ascii "call dbms.cluster.overview()") [] (if c.proto = .v4 then ascii "system" else []) false c = res at hm
      obtain ⟨res, c'⟩ := res
      cases res with
      | ok r =>
        obtain ⟨rows', md⟩ := r
        cases hm
        have ho : c.closed = false := by
          cases hx : c.closed with
          | false => rfl
          | true => rw [runQuery_closed env W fuel _ _ _ false hx] at hq; cases hq
        obtain ⟨hs, hk⟩ := create_usable env W fuel h2 ho
        have hsend := overview_sendable env c.proto
        rw [← hk] at hsend
        obtain ⟨w1, w2, md0, recs, j1, j2, _⟩ := C33_only env W hq
        obtain ⟨u1, u2, k1, _, k3, _⟩ := C33_rows env W (fuel := fuel) (inTx := false) ho hs hsend
        rw [hq] at k3
        have hw : w1 = u1 := by
          have := j2.trace
          obtain ⟨t, ht⟩ := k3
          rw [this] at ht
          simp only [List.append_assoc, List.append_cancel_left_eq, List.map_cons, List.cons_append, List.nil_append, List.cons.injEq, Ev.sent.injEq] at ht
          exact ht.1.symm
        exact ⟨c, c', w1, w2, md0, md, recs, h1, rfl, hw ▸ k1, j2, j1⟩
      | _ => cases hm
    · rw [g3]
      generalize (match (runQuery env W fuel (ascii "call dbms.cluster.overview()") [] (if c.proto = .v4 then ascii "system" else []) false c).1 with
        | .ok rows => (.ok rows.1 : Except Err (List (List Val)))
        | .err e => .error e
        | .panic => .error (.plain "panic")
        | .fuel => .error (.plain "fuel")) = ans
      rcases C56_cases c.proto.number.toNat ans with h | h | ⟨rows, ms, rfl, hm⟩
      · obtain ⟨e, he⟩ := C56_nothing s.handler c.proto.number.toNat ans (.inl h)
        exact .inl (by rw [he])
      · obtain ⟨e, he⟩ := C56_nothing s.handler c.proto.number.toNat ans (.inr h)
        exact .inl (by rw [he])
      · refine .inr ⟨_, rows, ms, by simp, hm, ?_⟩
        rw [C56_taken_over s.handler _ _ ms hm]

end

/-- The hypotheses are met: the connection of `C68.net` for the members, a record of which comes in a segment of its own; the question is what is asked, and the members are known. -/
example : (match newRoutingPool (ascii "bolt+routing://h") 2 [] [] (⟨fun _ => none, 0, 0⟩ : Live (List (List Bytes))) with
    | .ok s => match createFrom env0 scripted false 3 C68.net s.leaderConnStr s.world.dials with
      | .ok (.ok (), c) => decide (c.closed = false ∧ c.proto = .v4 ∧ c.segs.flatten = []) &&
        (match (refreshConnections (liveWorld env0 scripted false 3 C68.net C68.ids)).run s with
        | (.ok (), s') => decide (s'.handler.leaders.map (·.boltString) = [ascii "bolt://a"] ∧ s'.handler.followers.map (·.boltString) = [ascii "bolt://b"])
        | _ => false)
      | _ => false
    | .error _ => false) = true := by decide +kernel

end Verif

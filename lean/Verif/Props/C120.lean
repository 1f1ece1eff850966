/-
C120  What the routing pool lends is as good as new, and belongs to the right server.
-/
import Verif.Props.C57
import Verif.Props.C68Routing
import Verif.Props.C89
import Verif.Proofs.PoolKeeps
namespace Verif
open Spec

namespace Spec

/-- The calls that the users of a routing pool make are those of which the other claims speak: what they send can be framed in either version of the encoding, and
no statement begins or ends a transaction by its text. -/
def OrderlyUse (env : Env) (lo : Nat) (ms : List LMove) : Prop :=
  ∀ r op, LMove.user r op ∈ ms → (∀ ver, op.Fine env ver lo) ∧ ∀ q, statementOf op = some q → q ∉ controlVerbs

/-- `place` tells which server one is connected with. -/
structure Placed {σ : Type} (W : World σ) (net : Net σ) (place : σ → Endpoint) : Prop where
  reached : ∀ n e, place (net.reach n e) = e
  dialled : ∀ w, place (W.dial w).1 = place w
  sent : ∀ w bs, place (W.onSend w bs).st = place w

/-- A connection was made with this string. -/
def MadeWith (log : List PEv) (str : Bytes) : Prop := (∃ r id w, .created r id str w ∈ log) ∨ ∃ r, .dialled r str ∈ log

/-- The next move returns connection `r` to somebody who asked for one for writing (or for reading). -/
def LendsFor {σ : Type} (env : Env) (W : World σ) (semi : Bool) (fuel : Nat) (net : Net σ) (ids : Nat → Bytes) (s : PSys (Live σ)) (m : LMove) (write : Bool) (r : ConnRef) : Prop :=
  (s.live env W semi fuel net ids m).returned = s.returned ++ [(.borrow write, .ok (some r))]

/-- The string `str` makes a connection with the server at `e`. -/
def LeadsTo {σ : Type} (semi : Bool) (net : Net σ) (str : Bytes) (e : Endpoint) : Prop := ∃ cfg, connectionConfig semi str = .ok cfg ∧ cfg.endpoint net.files = .ok e

end Spec

section
variable {σ : Type} (env : Env) {W : World σ} {place : σ → Endpoint} (semi : Bool) (fuel : Nat) {net : Net σ} (ids : Nat → Bytes)

/-- No call moves a connection to another server. -/
theorem samePlace (hP : Placed W net place) : Prim env W (fun (c c' : Conn σ) => place c'.world = place c.world) where
  refl c := rfl
  trans h1 h2 := h2.trans h1
  send v c := by
    unfold sendMessage writeAll
    dsimp only
    split
    · split <;> rfl
    · split
      · rfl
      · split
        · split <;> exact hP.sent _ _
        · exact hP.sent _ _
  recv c := by
    unfold receive
    split
    · rfl
    · split
      · rfl
      · split <;> rfl
  endTx h c := rfl
  sock c := by
    unfold closeSock
    dsimp only
    split <;> rfl
  addTx c := rfl
  probe c := by
    unfold validateOpen
    split
    · rfl
    · split
      · rfl
      · rfl
      · split <;> rfl
  chunk n c := rfl

theorem create_place (hP : Placed W net place) {fuel : Nat} {user password : Bytes} {w : σ} {c : Conn σ} (h : createBoltConn env W fuel user password w = (.ok (), c)) :
    place c.world = place w := by
  obtain ⟨c1, vb, c2, p, n, h1, h2, _, _, h4⟩ := initConn_ok env W h
  have e1 : place c1.world = place w := by
    obtain ⟨_, rfl⟩ := createConnection_ok W h1
    exact hP.dialled _
  have e2 : place c2.world = place c1.world := by
    unfold handshake at h2
    dsimp only at h2
    split at h2
    · cases h2
    · split at h2
      · cases h2
      · split at h2
        · cases h2
        · split at h2
          · cases h2
          · cases h2; exact hP.sent _ _
  have e3 := (samePlace env hP).sendInit env W fuel (p.initMessage clientID (buildAuthTokenBasic user password)) { c2 with proto := p, version := n, versionBytes := vb }
  rw [h4] at e3
  exact e3.trans (e2.trans e1)

/-- Every attempt to connect, whether it succeeds or not, is a new one: what it meets depends on the number of attempts before it (`Net.reach`), and none has the number of another. -/
theorem C120_attempts (ids : Nat → Bytes) (fuel : Nat) (w : Live σ) (r : Nat) (str : Bytes) : ((liveWorld env W semi fuel net ids).create w r str).1.dials = w.dials + 1 := by
  unfold liveWorld
  dsimp only
  split
  · rfl
  · split <;> rfl

theorem createFrom_place (hP : Placed W net place) {fuel : Nat} {str : Bytes} {n : Nat} {c : Conn σ} (h : createFrom env W semi fuel net str n = .ok (.ok (), c)) :
    LeadsTo semi net str (place c.world) := by
  obtain ⟨cfg, e, h1, h2, h3⟩ := createFrom_eq env W h
  refine ⟨cfg, h1, h2.trans (congrArg _ ?_)⟩
  rw [create_place env hP h3.symm, hP.reached]

/-- What is true of the connections of a pool: they have the property `P`, and what was made with a string belongs to its server. -/
structure LiveGood (P : Conn σ → Prop) (place : σ → Endpoint) (net : Net σ) (s : RPool (Live σ)) : Prop where
  tallied : (∀ str, MadeWith s.log str → Modest semi str) → ∀ (r : Nat) (c : Conn σ), s.world.conns r = some c → P c
  placed : ∀ (r : Nat) (id str : Bytes) (w : Bool), .created r id str w ∈ s.log → ∃ c : Conn σ, s.world.conns r = some c ∧ LeadsTo semi net str (place c.world)
  below : ∀ (r : Nat) (id str : Bytes) (w : Bool), .created r id str w ∈ s.log → r < s.next

variable {env semi} {P : Conn σ → Prop} {lo : Nat}

theorem LiveGood.same {s s' : RPool (Live σ)} (h : LiveGood semi P place net s) (e1 : s'.world.conns = s.world.conns) (e2 : s.next ≤ s'.next)
    (e3 : s'.log = s.log ∨ ∃ e, s'.log = s.log ++ [e] ∧ ∀ r id str w, e ≠ .created r id str w) : LiveGood semi P place net s' := by
  have old : ∀ {r id str w}, PEv.created r id str w ∈ s'.log → .created r id str w ∈ s.log := by
    intro r id str w hm
    rcases e3 with e | ⟨e, e', hne⟩
    · exact e ▸ hm
    · rw [e'] at hm
      rcases List.mem_append.1 hm with hm | hm
      · exact hm
      · exact absurd (List.mem_singleton.1 hm).symm (hne _ _ _ _)
  have sub : ∀ e ∈ s.log, e ∈ s'.log := by
    intro e hm
    rcases e3 with e | ⟨e, e', _⟩
    · exact e.symm ▸ hm
    · rw [e']; exact List.mem_append_left _ hm
  refine ⟨fun hM r c hc => h.tallied (fun str hs => hM str ?_) r c (e1 ▸ hc), fun r id str w hm => ?_, fun r id str w hm => Nat.lt_of_lt_of_le (h.below r id str w (old hm)) e2⟩
  · rcases hs with ⟨r, id, w, hs⟩ | ⟨r, hs⟩
    · exact .inl ⟨r, id, w, sub _ hs⟩
    · exact .inr ⟨r, sub _ hs⟩
  · rw [e1]; exact h.placed r id str w (old hm)

/-- A call of an existing connection. -/
theorem LiveGood.put {s s' : RPool (Live σ)} (h : LiveGood semi P place net s) {r : Nat} {c c' : Conn σ} (hc : s.world.conns r = some c)
    (ht : P c → P c') (hp : place c'.world = place c.world) (e1 : s'.world.conns = (s.world.put r c').conns) (e2 : s'.next = s.next)
    (e3 : s'.log = s.log ∨ ∃ e, s'.log = s.log ++ [e] ∧ ∀ r id str w, e ≠ .created r id str w) : LiveGood semi P place net s' := by
  have mid : LiveGood semi P place net { s with world := s.world.put r c' } := by
    refine ⟨fun hM r' d hd => ?_, fun r' id str w hm => ?_, h.below⟩
    · dsimp only [Live.put] at hd
      split at hd
      · cases hd
        exact ht (h.tallied hM r c hc)
      · exact h.tallied hM r' d hd
    · obtain ⟨d, hd, he⟩ := h.placed r' id str w hm
      dsimp only [Live.put]
      split
      · rename_i hr
        subst hr
        rw [hc] at hd
        cases hd
        exact ⟨c', rfl, by rw [hp]; exact he⟩
      · exact ⟨d, hd, he⟩
  exact mid.same e1 (Nat.le_of_eq e2.symm) e3

/-- A new connection, with a new number. -/
theorem LiveGood.fresh {s s' : RPool (Live σ)} (h : LiveGood semi P place net s) {c : Conn σ} {e : PEv} {str : Bytes}
    (ht : Modest semi str → P c) (hp : LeadsTo semi net str (place c.world)) (e1 : s'.world.conns = (s.world.put s.next c).conns) (e2 : s'.next = s.next + 1)
    (e3 : s'.log = s.log ++ [e]) (e4 : (∃ id w, e = .created s.next id str w) ∨ e = .dialled s.next str) : LiveGood semi P place net s' := by
  refine ⟨fun hM r d hd => ?_, fun r id str' w hm => ?_, fun r id str' w hm => ?_⟩
  · rw [e1] at hd
    dsimp only [Live.put] at hd
    rw [e3] at hM
    split at hd
    · cases hd
      refine ht (hM str ?_)
      rcases e4 with ⟨id, w, rfl⟩ | rfl
      · exact .inl ⟨_, id, w, List.mem_append_right _ List.mem_cons_self⟩
      · exact .inr ⟨_, List.mem_append_right _ List.mem_cons_self⟩
    · refine h.tallied (fun str' hs => hM str' ?_) r d hd
      rcases hs with ⟨r, id, w, hs⟩ | ⟨r, hs⟩
      · exact .inl ⟨r, id, w, List.mem_append_left _ hs⟩
      · exact .inr ⟨r, List.mem_append_left _ hs⟩
  · rw [e3] at hm
    rw [e1]
    dsimp only [Live.put]
    rcases List.mem_append.1 hm with hm | hm
    · have := h.below r id str' w hm
      rw [if_neg (by omega)]
      exact h.placed r id str' w hm
    · rcases e4 with ⟨id, w, rfl⟩ | rfl
      · cases List.mem_singleton.1 hm
        exact ⟨c, if_pos rfl, hp⟩
      · cases List.mem_singleton.1 hm
  · rw [e3] at hm
    rcases List.mem_append.1 hm with hm | hm
    · have := h.below r id str' w hm; omega
    · rcases e4 with ⟨id, w, rfl⟩ | rfl
      · cases List.mem_singleton.1 hm; omega
      · cases List.mem_singleton.1 hm

theorem void_state {α : Type} (m : CM σ α) (c : Conn σ) : (m.void c).2 = (m c).2 := by
  show (CM.bind _ _ c).2 = _
  unfold CM.bind
  split <;> rename_i hx <;> rw [hx] <;> rfl

variable {Q : Conn σ → Conn σ → Prop} (hk : DKeeps env W (fuel + 1) net lo P Q) (hP : Placed W net place) (hlo : 28 ≤ lo) (hlo' : lo ≤ 65535)

theorem overview_fine (env : Env) (ver : Ver) {lo : Nat} (hlo : 28 ≤ lo) (hlo' : lo ≤ 65535) (n : Nat) : (Op.query clusterOverview [] (overviewDb n)).Fine env ver lo := by
  have h1 : clusterOverview.length = 28 := by decide +kernel
  have h2 : (overviewDb n).length ≤ 6 := by unfold overviewDb; split <;> decide +kernel
  exact ⟨.map [], by omega, by omega, by omega, by omega, by cases ver <;> rfl, by simp [PS.Fits, PS.FitsWith, FitsEntries], by simp [Val.All, AllEntries, strAtMost]⟩

include hk hP hlo hlo' in
theorem liveGood_acts : ∀ acc f, PAct (liveWorld env W semi (fuel + 1) net ids) acc f → ∀ s, LiveGood semi P place net s → LiveGood semi P place net (f s) := by
  have S := samePlace env hP
  intro acc f ha s h
  have op_ok : ∀ {op : Op} {c : Conn σ}, (∀ ver, op.Fine env ver lo) → (∀ q, statementOf op = some q → q ∉ controlVerbs) → P c →
      P (step env W (fuel + 1) op c).2 := fun h1 h2 => hk.user h1 h2
  have new_ok : ∀ {str : Bytes} {n : Nat} {res : CRes Unit × Conn σ}, createFrom env W semi (fuel + 1) net str n = .ok res → res.1.error? = none →
      (Modest semi str → P res.2) ∧ LeadsTo semi net str (place res.2.world) := by
    intro str n res hr he
    have hr' := hr.trans (congrArg Except.ok (ok_of_error? he))
    refine ⟨fun hm => ?_, createFrom_place env semi hP hr'⟩
    obtain ⟨cfg, e, h1, _, h3⟩ := createFrom_eq env W hr'
    obtain ⟨u, p⟩ := hm cfg h1
    exact hk.made u p h3.symm
  cases ha with
  | look _ => exact h
  | rlock => exact h.same rfl (Nat.le_refl _) (.inl rfl)
  | runlock => exact h.same rfl (Nat.le_refl _) (.inl rfl)
  | lock => exact h.same rfl (Nat.le_refl _) (.inl rfl)
  | unlock => exact h.same rfl (Nat.le_refl _) (.inl rfl)
  | validate r =>
    dsimp only [liveWorld]
    cases hc : s.world.conns r with
    | none => exact h.same rfl (Nat.le_refl _) (.inr ⟨_, rfl, by simp⟩)
    | some c =>
      have e : (validateOpen W c).2 = (step env W (fuel + 1) .validateOpen c).2 := (void_state _ c).symm
      exact h.put hc (fun ht => e ▸ op_ok (op := .validateOpen) (fun _ => trivial) (fun q hq => by cases hq) ht) (S.probe c) rfl rfl (.inr ⟨_, rfl, by simp⟩)
  | close r =>
    dsimp only [liveWorld]
    cases hc : s.world.conns r with
    | none => exact h.same rfl (Nat.le_refl _) (.inr ⟨_, rfl, by simp⟩)
    | some c =>
      exact h.put hc (op_ok (op := .close) (fun _ => trivial) (fun q hq => by cases hq)) (S.close env W (fuel + 1) c) rfl rfl (.inr ⟨_, rfl, by simp⟩)
  | delHeld _ => exact h.same rfl (Nat.le_refl _) (.inl rfl)
  | putHeld _ _ => exact h.same rfl (Nat.le_refl _) (.inl rfl)
  | delBorrowed _ => exact h.same rfl (Nat.le_refl _) (.inl rfl)
  | putBorrowed _ => exact h.same rfl (Nat.le_refl _) (.inl rfl)
  | enqueue w _ => cases w <;> exact h.same rfl (Nat.le_refl _) (.inl rfl)
  | dequeue w =>
    dsimp only
    split
    · exact h
    · cases w <;> exact h.same rfl (Nat.le_refl _) (.inl rfl)
  | setQueue w _ => cases w <;> exact h.same rfl (Nat.le_refl _) (.inl rfl)
  | create w str =>
    dsimp only [liveWorld]
    cases hr : createFrom env W semi (fuel + 1) net str s.world.dials with
    | error e => exact h.same rfl (Nat.le_succ _) (.inl rfl)
    | ok res =>
    dsimp only
    cases he : res.1.error? with
    | some e => exact h.same rfl (Nat.le_succ _) (.inl rfl)
    | none =>
      obtain ⟨h1, h2⟩ := new_ok hr he
      exact h.fresh h1 h2 rfl rfl rfl (.inl ⟨_, _, rfl⟩)
  | indexW =>
    dsimp only
    split
    · exact h
    · exact h.same rfl (Nat.le_refl _) (.inl rfl)
  | indexR =>
    dsimp only
    split
    · exact h
    · exact h.same rfl (Nat.le_refl _) (.inl rfl)
  | dial =>
    dsimp only [liveWorld]
    cases hr : createFrom env W semi (fuel + 1) net s.leaderConnStr s.world.dials with
    | error e => exact h.same rfl (Nat.le_succ _) (.inl rfl)
    | ok res =>
    dsimp only
    cases he : res.1.error? with
    | some e => exact h.same rfl (Nat.le_succ _) (.inl rfl)
    | none =>
      obtain ⟨h1, h2⟩ := new_ok hr he
      exact h.fresh h1 h2 rfl rfl rfl (.inr rfl)
  | overview r =>
    dsimp only [liveWorld]
    cases hc : s.world.conns r with
    | none => exact h.same rfl (Nat.le_refl _) (.inr ⟨_, rfl, by simp⟩)
    | some c =>
      have e : ∀ db, (queryWithDb env W (fuel + 1) clusterOverview [] db c).2 = (step env W (fuel + 1) (.query clusterOverview [] db) c).2 := fun db => (void_state _ c).symm
      refine h.put hc (c' := (queryWithDb env W (fuel + 1) clusterOverview [] (overviewDb c.proto.number.toNat) c).2) (fun ht => ?_) ?_ rfl rfl (.inr ⟨_, rfl, by simp⟩)
      · rw [e]
        exact op_ok (fun ver => overview_fine env ver hlo hlo' _) (fun q hq => by cases hq; decide +kernel) ht
      · rw [e]
        exact S.step env W (fuel + 1) _ c
  | take => exact h.same rfl (Nat.le_refl _) (.inl rfl)
  | stopped => exact h.same rfl (Nat.le_refl _) (.inl rfl)
  | startHead =>
    unfold RPool.startHead
    split <;> exact h.same rfl (Nat.le_refl _) (.inl rfl)

include hk hP hlo hlo' in
theorem lives_good : ∀ (ms : List LMove) {s : PSys (Live σ)}, OrderlyUse env lo ms → LiveGood semi P place net s.pool →
    (∀ e ∈ s.calls, OfActs (liveWorld env W semi (fuel + 1) net ids) e.2) → LiveGood semi P place net (s.lives env W semi (fuel + 1) net ids ms).pool
  | [], _, _, h, _ => h
  | m :: ms, s, ho, h, ha => by
    have one : LiveGood semi P place net (s.live env W semi (fuel + 1) net ids m).pool ∧
        ∀ e ∈ (s.live env W semi (fuel + 1) net ids m).calls, OfActs (liveWorld env W semi (fuel + 1) net ids) e.2 := by
      cases m with
      | pool m => exact moves_of_acts (W := liveWorld env W semi (fuel + 1) net ids) (liveGood_acts fuel ids hk hP hlo hlo') (fuel + 1) [m] s h ha
      | user r op =>
        unfold PSys.live
        dsimp only
        split
        · cases hcn : s.pool.world.conns r with
          | none => exact ⟨h, ha⟩
          | some c =>
            obtain ⟨h1, h2⟩ := ho r op List.mem_cons_self
            exact ⟨h.put hcn (hk.user h1 h2) ((samePlace env hP).step env W (fuel + 1) op c) rfl rfl (.inl rfl), ha⟩
        · exact ⟨h, ha⟩
    exact lives_good ms (fun r op hm => ho r op (List.mem_cons_of_mem _ hm)) one.1 one.2

include hk hP hlo hlo' in
theorem open_good {connStr user tls : Bytes} {size : Int} {pool : RPool (Live σ)}
    (ho : openRoutingPool (liveWorld env W semi (fuel + 1) net ids) connStr size user tls ⟨fun _ => none, 0, 0⟩ = .ok (.ok (), pool)) : LiveGood semi P place net pool := by
  unfold openRoutingPool at ho
  cases hn : newRoutingPool connStr size user tls (⟨fun _ => none, 0, 0⟩ : Live σ) with
  | error e => rw [hn] at ho; cases ho
  | ok s₀ =>
    rw [hn] at ho
    simp only [Except.ok.injEq] at ho
    have h0 : LiveGood semi P place net s₀ := by
      unfold newRoutingPool at hn
      split at hn
      · cases hn
      · split at hn
        · cases hn
        · simp only [Except.ok.injEq] at hn
          subst hn
          exact ⟨fun _ r c h => (by cases h), fun _ _ _ _ h => absurd h List.not_mem_nil, fun _ _ _ _ h => absurd h List.not_mem_nil⟩
    have := run_of_acts (W := liveWorld env W semi (fuel + 1) net ids) (liveGood_acts fuel ids hk hP hlo hlo') acts_start h0
    rw [ho] at this
    exact this

end

section
variable {σ : Type} {env : Env} {W : World σ} {semi : Bool} {fuel : Nat} {net : Net σ} {ids : Nat → Bytes} {user tls : Bytes}

/-- No move starts the pool a second time. -/
def Spec.NoRestart (ms : List LMove) : Prop := ∀ m, LMove.pool m ∈ ms → noRestart m

theorem lives_members : ∀ (ms : List LMove) {s : PSys (Live σ)}, NoRestart ms → CallsInv (MInv true user tls) s → CallsInv (MInv true user tls) (s.lives env W semi fuel net ids ms)
  | [], _, _, h => h
  | m :: ms, s, hr, h => by
    refine lives_members ms (fun m hm => hr m (List.mem_cons_of_mem _ hm)) ?_
    cases m with
    | pool m =>
      exact callsInv_move (g₀ := ({} : Gm)) _ (fun _ _ _ h i => i.perm h) (fun _ _ i => m_begin i) fuel m
        (fun r he => m_prog _ fuel r fun e => hr m List.mem_cons_self (by rw [he, e])) h
    | user r op =>
      unfold PSys.live
      dsimp only
      split
      · split
        · exact h
        · obtain ⟨L, dead, hL, hi, hs⟩ := h
          refine ⟨L, dead, hL, ?_, hs⟩
          refine Plain.inv (s := s.pool) ?_ hi
          exact ⟨rfl, rfl, rfl, rfl, fun w => by cases w <;> rfl, .inl rfl⟩
      · exact h

/-- C57, with connections that users call in between. -/
theorem C57_live {connStr : Bytes} {size : Int} {w : Live σ} {pool : RPool (Live σ)} (ho : openRoutingPool (liveWorld env W semi fuel net ids) connStr size user tls w = .ok (.ok (), pool))
    {ms : List LMove} (hr : NoRestart ms) {a b : List PEv} {r : Nat} {id str : Bytes} {write : Bool}
    (hl : ((PSys.fresh pool).lives env W semi fuel net ids ms).pool.log = a ++ .created r id str write :: b) :
    ∃ nodes role n, Members a nodes ∧ some (role, n) ∈ nodes ∧ (write = true ↔ role = .leader) ∧ (str = n.boltString ∨ Spec.Carries user tls n.boltString str) ∧
      ∃ a', Spec.Reported a a' ∧ Spec.Carries user tls a' str := by
  have hc : CallsInv (MInv true user tls) (PSys.fresh pool) := ⟨[], [], rfl, open_members ho, fun _ h => absurd h List.not_mem_nil⟩
  obtain ⟨L, dead, _, hi, _⟩ := lives_members (env := env) (W := W) (semi := semi) (fuel := fuel) (net := net) (ids := ids) ms hr hc
  obtain ⟨⟨x, hx, hs⟩, a', ha', hk⟩ := hi.made a r id str write b hl
  rcases clusterOf_members a with he | ⟨nodes, hms, he⟩
  · rw [he] at hx
    cases write <;> cases hx
  · rw [he] at hx
    obtain ⟨role, n, hm, rfl, hw⟩ := mem_addrs_cluster hx
    refine ⟨nodes, role, n, hms, hm, hw, hs.imp (fun h => h) fun h => ?_, a', seen_reported ha', hk ▸ carries_addAuth user tls a'⟩
    rw [h]
    exact carries_addAuth user tls _

end

namespace Spec

/-- When the connection with the string `str` was made for writing (or for reading), the string was the address of a member, with the credentials or as it was reported,
that was the leader (or was not), as far as the pool had been told. -/
def MadeForMember (log : List PEv) (user tls : Bytes) (r : ConnRef) (write : Bool) (str : Bytes) : Prop :=
  ∃ a b nodes role n, log = a ++ .created r.ref r.id str write :: b ∧ Members a nodes ∧ some (role, n) ∈ nodes ∧ (write = true ↔ role = .leader) ∧
    (str = n.boltString ∨ Spec.Carries user tls n.boltString str)

end Spec

section
variable {σ : Type} {env : Env} {W : World σ} {place : σ → Endpoint} {sess : σ → Session} {D : Database} {semi : Bool} {fuel : Nat} {net : Net σ} {ids : Nat → Bytes} {lo : Nat}
  (hT : TServes D W sess) (hP : Placed W net place) (hlo : 28 ≤ lo) (hlo' : lo ≤ 65535) (hU : ∀ ver, Understood env ver W)
  {connStr user tls : Bytes} {size : Int} {pool : RPool (Live σ)}
  (ho : openRoutingPool (liveWorld env W semi (fuel + 1) net ids) connStr size user tls ⟨fun _ => none, 0, 0⟩ = .ok (.ok (), pool))
  {ms : List LMove} (hms : OrderlyUse env lo ms) (hc : Considerate env W semi (fuel + 1) net ids (PSys.fresh pool) ms)
  {s : PSys (Live σ)} (hs : s = (PSys.fresh pool).lives env W semi (fuel + 1) net ids ms) (hid : IdsDiffer s.pool.log) (hmod : ∀ str, MadeWith s.pool.log str → Modest semi str)
include hT hP hlo hlo' hU ho hms hc hs hid hmod

/-- A connection that is lent agrees with the account of a new user. -/
theorem routing_accounts {m : LMove} {write : Bool} {r : ConnRef} (hl : LendsFor env W semi (fuel + 1) net ids s m write r) :
    ∃ c str, s.pool.world.conns r.ref = some c ∧ c.cur = none ∧ .created r.ref r.id str write ∈ s.pool.log ∧ LeadsTo semi net str (place c.world) ∧
      Accounts (sess := sess) env c.proto c.mode lo (sess c.world).ledger.lasting (.next c.txs.length) c := by
  have hk : DKeeps env W (fuel + 1) net lo (Tallied env sess lo) (fun _ _ => True) :=
    ⟨fun _ => trivial, fun _ _ => trivial, fun u p h => ⟨_, _, create_accounts env hT (by omega) u p h (hU _) hlo'⟩,
      fun hop h => ⟨order_step env hT fuel (by omega) hU (fun ver => by rcases hop with rfl | rfl | rfl <;> exact trivial)
        (fun q hq => by rcases hop with rfl | rfl | rfl <;> cases hq) h, trivial⟩, fun h1 h2 h => order_step env hT fuel (by omega) hU h1 h2 h⟩
  have hg : LiveGood semi (Tallied env sess lo) place net s.pool := by
    rw [hs]
    exact lives_good fuel ids hk hP hlo hlo' ms hms (open_good fuel ids hk hP hlo hlo' ho) fun _ h => absurd h List.not_mem_nil
  obtain ⟨c, str, hcn, _, hcur, hcr⟩ := routing_lent ⟨connStr, size, user, tls, pool, ho, rfl, hs⟩ hc hid hl
  obtain ⟨c', hcn', hle⟩ := hg.placed _ _ _ _ hcr
  cases hcn.symm.trans hcn'
  obtain ⟨L, a, ha⟩ := hg.tallied hmod _ c hcn
  refine ⟨c, str, hcn, hcur, hcr, hle, ha.inv, ha.mode, ha.idle, (List.append_nil _).symm, ha.rest.imp id fun ⟨_, r2, r3, r4⟩ => ⟨rfl, hcur, ?_, fun _ => rfl⟩⟩
  rw [r3]
  exact r4 (r2.symm.trans hcur)

/-- **C120**: a connection that the routing pool lends for writing (or for reading), after any history of the pool and its users, is connected with a server that was
reported as the leader (or as another member) before the connection was made; it has nothing open or unread on either side, unless the session is over; and whatever
its new user does with it, that server then has what it had, together with what the calls of that user mean. -/
theorem C120 (hr : NoRestart ms) {m : LMove} {write : Bool} {r : ConnRef} (hl : LendsFor env W semi (fuel + 1) net ids s m write r) :
    ∃ c, s.pool.world.conns r.ref = some c ∧ (∃ str, MadeForMember s.pool.log user tls r write str ∧ LeadsTo semi net str (place c.world)) ∧ (∀ h, ¬ c.isOpen h) ∧
      (Ongoing sess c → (sess c.world).phase = .ready ∧ (sess c.world).ledger.tx = none ∧ c.segs.flatten = []) ∧
      ∀ ops, (∀ op ∈ ops, op.Fine env c.proto.codec lo) → PlainCall ops →
        let a := account env W (fieldsOf env c.proto c.mode) (fuel + 1) ops (.next c.txs.length) c
        let w' := (run env W (fuel + 1) ops c).world
        place w' = place c.world ∧ (sess w').ledger.lasting = (sess c.world).ledger.lasting ++ a.lasting ∧
          (Ongoing sess (run env W (fuel + 1) ops c) → (sess w').ledger = a.ledger (sess c.world).ledger.lasting) := by
  obtain ⟨c, str, hcn, hcur, hcr, hle, ha⟩ := routing_accounts hT hP hlo hlo' hU ho hms hc hs hid hmod hl
  obtain ⟨a, b, hlog⟩ := List.append_of_mem hcr
  obtain ⟨nodes, role, n, h1, h2, h3, h4, _⟩ := C57_live ho hr (hs ▸ hlog)
  refine ⟨c, hcn, ⟨str, ⟨a, b, nodes, role, n, hlog, h1, h2, h3, h4⟩, hle⟩, fun h hx => ?_, fun hg => ?_, fun ops h1 h2 => ?_⟩
  · have := (ha.inv.open_iff h).mp hx
    rw [show Core.cur _ = none from hcur] at this
    cases this
  · have hal := not_dead env ha.idle ha.inv hg
    exact ⟨hal.ready, by rw [ledger_accounts env ha hg]; rfl, hal.nil⟩
  · have hb := run_accounts env hT (by omega) fuel (hU _) ops h1 h2 _ _ ha
    exact ⟨(samePlace env hP).run env W (fuel + 1) ops c, hb.lasting, ledger_accounts env hb⟩

/-- What a statement of the new user gives: what the database says after the permanent statements and those of the new user. -/
theorem C120_result {m : LMove} {write : Bool} {r : ConnRef} (hl : LendsFor env W semi (fuel + 1) net ids s m write r) :
    ∃ c, s.pool.world.conns r.ref = some c ∧ ∀ ops op q, (∀ o ∈ ops ++ [op], o.Fine env c.proto.codec lo) → PlainCall (ops ++ [op]) → statementOf op = some q →
      let c' := run env W (fuel + 1) ops c
      let res := resultOf env W (fuel + 1) op c'
      let l := (account env W (fieldsOf env c.proto c.mode) (fuel + 1) ops (.next c.txs.length) c).ledger (sess c.world).ledger.lasting
      (¬ Ongoing sess c' ∧ ∀ x, res ≠ .ok x) ∨ (c.proto ≠ .v4 ∧ dbOf op ≠ [] ∧ ∃ e, res = .err e) ∨
        ∃ o, D l (l.stmt q (fieldsOf env c.proto c.mode op)) o ∧ Conveys env c.proto.codec (withRows op) o res := by
  obtain ⟨c, _, hcn, _, _, _, ha⟩ := routing_accounts hT hP hlo hlo' hU ho hms hc hs hid hmod hl
  refine ⟨c, hcn, fun ops op q h1 h2 hq => ?_⟩
  have hb := run_accounts env hT (by omega) fuel (hU _) ops (fun o ho => h1 o (by simp [ho])) (fun o ho => h2 o (by simp [ho])) _ _ ha
  exact result_accounts env hT (by omega) fuel (hU _) (h1 op (by simp)) (h2 op (by simp)) hq hb

end
namespace C120

theorem plain_endpoint {σ : Type} {semi : Bool} {net : Net σ} {opts : List (Option ClientOpt)} {cl : Client} (h : PlainClient semi opts cl) {host a str : Bytes} {port : Nat}
    (hp : PlainAddress host port a) (hc : Spec.Carries cl.getUsernamePassword (cl.getTlsPortion semi) a str) {e : Endpoint} (he : LeadsTo semi net str e) : e = tcpTo host port := by
  obtain ⟨c', hpp, htls⟩ := C89.getTls h
  rw [C89.getUser h, htls] at hc
  rcases hc with ⟨h1, _, _⟩ | ⟨_, host', h1, h2⟩
  · simp [ascii] at h1
  · rw [without_unique (by decide) h1 (C89.address_without hp), C89.str_eq] at h2
    obtain ⟨cfg, h3, h4⟩ := he
    rw [h2, C89.config_tail (.inl rfl) h.user h.password hp.1 fun _ => hpp] at h3
    cases h3
    rw [C89.tcpTo_eq]
    cases h4
    rfl

/-- A string with credentials is not a plain address. -/
theorem not_plain {semi : Bool} {opts : List (Option ClientOpt)} {cl : Client} (h : PlainClient semi opts cl) {a str host : Bytes} {port : Nat}
    (hc : Spec.Carries cl.getUsernamePassword (cl.getTlsPortion semi) a str) : ¬ PlainAddress host port str := by
  rintro ⟨hh, hs⟩
  rw [C89.getUser h] at hc
  rcases hc with ⟨h1, _, _⟩ | ⟨_, host', _, h2⟩
  · simp [ascii] at h1
  · rw [hs, List.append_assoc, List.append_assoc] at h2
    simp only [List.append_assoc] at h2
    have h3 := List.append_cancel_left h2
    have hm : (0x40 : UInt8) ∈ host ++ 0x3A :: Url.decimal port := by
      rw [show host ++ 0x3A :: Url.decimal port = host ++ (ascii ":" ++ Url.decimal port) by simp [ascii], h3]
      simp [ascii]
    exact (C54.hostPort_char hh port hm).2.2.2.1 rfl

end C120

section
variable {σ : Type} {env : Env} {W : World σ} {place : σ → Endpoint} {sess : σ → Session} {D : Database} {semi : Bool} {fuel : Nat} {net : Net σ} {ids : Nat → Bytes} {lo : Nat}

/-- For a client made from plain options and a cluster that reports plain addresses: a connection that is lent for writing (or for reading) is one with the host and the port of a member
that was reported as the leader (or as another member) before the connection was made. -/
theorem C120_plain (hT : TServes D W sess) (hP : Placed W net place) (hlo : 28 ≤ lo) (hlo' : lo ≤ 65535) (hU : ∀ ver, Understood env ver W)
    {opts : List (Option ClientOpt)} {cl : Client} (hcl : PlainClient semi opts cl) {size : Int} {pool : RPool (Live σ)}
    (ho : cl.openRouting (liveWorld env W semi (fuel + 1) net ids) semi size ⟨fun _ => none, 0, 0⟩ = .ok (.ok (), pool))
    {ms : List LMove} (hms : OrderlyUse env lo ms) (hc : Considerate env W semi (fuel + 1) net ids (PSys.fresh pool) ms)
    {s : PSys (Live σ)} (hs : s = (PSys.fresh pool).lives env W semi (fuel + 1) net ids ms) (hid : IdsDiffer s.pool.log) (hmod : ∀ str, MadeWith s.pool.log str → Modest semi str)
    (hr : NoRestart ms) (ha : ∀ a, Spec.Reported s.pool.log a → ∃ host port, PlainAddress host port a)
    {m : LMove} {write : Bool} {r : ConnRef} (hl : LendsFor env W semi (fuel + 1) net ids s m write r) :
    ∃ c a b str nodes role n host port, s.pool.world.conns r.ref = some c ∧ s.pool.log = a ++ .created r.ref r.id str write :: b ∧ Members a nodes ∧ some (role, n) ∈ nodes ∧
      (write = true ↔ role = .leader) ∧ PlainAddress host port n.boltString ∧ place c.world = tcpTo host port := by
  obtain ⟨c, str, hcn, _, hcr, hle, _⟩ := routing_accounts hT hP hlo hlo' hU ho hms hc hs hid hmod hl
  obtain ⟨a, b, hlog⟩ := List.append_of_mem hcr
  obtain ⟨nodes, role, n, h1, h2, h3, h4, a', _, h5⟩ := C57_live ho hr (hs ▸ hlog)
  obtain ⟨host, port, hp⟩ := ha n.boltString (by
    obtain ⟨x, v, rows, y, rfl, hu, _⟩ := h1
    exact ⟨v, rows, nodes, role, n, by rw [hlog]; simp, hu, h2, rfl⟩)
  refine ⟨c, a, b, str, nodes, role, n, host, port, hcn, hlog, h1, h2, h3, hp, ?_⟩
  rcases h4 with h4 | h4
  · exact absurd (h4 ▸ hp) (C120.not_plain hcl h5)
  · exact C120.plain_endpoint hcl hp h4 hle

end

/-! ### A concrete cluster -/

namespace C120

/-- What one row of the overview says: the member `id` has the address and is, for the database "system", leader or follower. -/
def member (id address role : String) : PS := Spec.record [.str (ascii id), .list [.str (ascii address)], .map [(ascii "system", .str (ascii role))], .null]

/-- Its encoding. -/
def short (s : String) : Bytes := UInt8.ofNat (0x80 + (ascii s).length) :: ascii s

/-- The message. -/
def payload (id address role : String) : Bytes := [0xB1] ++ 0x71 :: ([0x94] ++ (short id ++ ([0x91] ++ short address ++ ([0xA1] ++ (short "system" ++ short role) ++ [0xC0]))))

theorem short_enc {lim : Limit} {s : String} (h : (ascii s).length < 16) : StrEnc lim (ascii s) (short s) := ⟨[UInt8.ofNat (0x80 + (ascii s).length)], .inl ⟨by omega, rfl⟩, rfl⟩

theorem member_enc {lim : Limit} {id address role : String} (h1 : (ascii id).length < 16) (h2 : (ascii address).length < 16) (h3 : (ascii role).length < 16) :
    Spec.Enc lim (member id address role) (payload id address role) := by
  refine ⟨[0xB1], _, .inl ⟨by simp, rfl⟩, ⟨_, [], ⟨[0x94], _, .inl ⟨by simp, rfl⟩, ⟨_, _, short_enc h1, ⟨_, _, ⟨[0x91], _, .inl ⟨by simp, rfl⟩, ⟨_, [], short_enc h2, rfl, rfl⟩, rfl⟩,
    ⟨_, _, ⟨[0xA1], _, .inl ⟨by simp, rfl⟩, ⟨_, _, [], short_enc (by decide), short_enc h3, rfl, rfl⟩, rfl⟩, ⟨_, [], rfl, rfl, rfl⟩, rfl⟩, rfl⟩, rfl⟩, rfl⟩, rfl, (List.append_nil _).symm⟩, by simp [payload]⟩

/-- The messages of the overview: a leader and a follower. -/
def overview : Bytes := frame [payload "1" "bolt://a:7687" "LEADER"] ++ (frame [payload "2" "bolt://b:7687" "FOLLOWER"] ++ sSuccess.flatten)

/-- What they say. -/
def rows : List (List PS) := [[.str (ascii "1"), .list [.str (ascii "bolt://a:7687")], .map [(ascii "system", .str (ascii "LEADER"))], .null],
  [.str (ascii "2"), .list [.str (ascii "bolt://b:7687")], .map [(ascii "system", .str (ascii "FOLLOWER"))], .null]]

theorem framed_one {p : Bytes} (h : p ≠ [] ∧ p.length ≤ 65535) : Framed p (frame [p]) := by
  refine ⟨[p], fun c hc => ?_, by simp, rfl⟩
  rw [List.mem_singleton.1 hc]
  exact h

theorem overview_sends : Sends (rows.map Spec.record ++ [Spec.success []]) overview :=
  ⟨_, _, _, rfl, framed_one (by decide +kernel), member_enc (id := "1") (address := "bolt://a:7687") (role := "LEADER") (by decide) (by decide) (by decide), _, _, _, rfl,
    framed_one (by decide +kernel), member_enc (id := "2") (address := "bolt://b:7687") (role := "FOLLOWER") (by decide) (by decide) (by decide), sends_success⟩

/-- A server like `tServer`, which tells about the cluster. -/
def answer (s : Session) (t : PS) : Session × Bytes :=
  match s.phase, t with
  | .streaming true, .struct 0x3F _ =>
    if s.running.1 = clusterOverview then ({ s with phase := .ready, ledger := s.ledger.complete s.running.1 s.running.2 }, overview) else tAnswer s t
  | _, _ => tAnswer s t

/-- The servers; the state tells which one. -/
def servers : World (Endpoint × Session) where
  dial s := ((s.1, { s.2 with phase := .new, ledger := s.2.ledger.drop }), true)
  onSend s ws :=
    if s.2.phase = .new then ⟨(s.1, { s.2 with phase := .connected }), true, [[0, 0, 0, 4]], .broken⟩
    else if s.2.phase = .defunct then ⟨s, true, [], .broken⟩
    else match requestOf ws with
      | some t => ⟨(s.1, (answer s.2 t).1), true, [(answer s.2 t).2], .broken⟩
      | none => ⟨s, true, [], .broken⟩
  onClose _ := true
  probe _ := .other

theorem answer_cases (s : Session) (t : PS) : (s.phase = .streaming true ∧ (∃ fs, t = .struct 0x3F fs) ∧ s.running.1 = clusterOverview ∧
      answer s t = ({ s with phase := .ready, ledger := s.ledger.complete s.running.1 s.running.2 }, overview)) ∨ answer s t = tAnswer s t := by
  unfold answer
  split
  · rename_i h1
    split
    · rename_i h2
      exact .inl ⟨h1, ⟨_, rfl⟩, h2, rfl⟩
    · exact .inr rfl
  · exact .inr rfl

theorem serves : TServes anyDatabase servers (·.2) where
  reply w ws t hc hd hl := by
    obtain ⟨ts, ph, hl⟩ := hl
    have hn : w.2.phase ≠ .new := reply_not_new hl
    have e : servers.onSend w ws = ⟨(w.1, (answer w.2 t).1), true, [(answer w.2 t).2], .broken⟩ := by
      simp only [servers, if_neg hn, if_neg (show w.2.phase ≠ .defunct from hd), requestOf_carries hc]
    rw [e]
    refine ⟨rfl, ?_⟩
    rcases answer_cases w.2 t with ⟨h1, ⟨fs, rfl⟩, _, h3⟩ | h3
    · rw [h3]
      exact ⟨_, TReply.pull w.2 true fs rows [] h1 (fun h => by cases h) (fun _ => trivial), by simpa using overview_sends⟩
    · rw [h3]
      obtain ⟨ts', g1, g2⟩ := tServer_reply (D := anyDatabase) (fun _ _ _ => trivial) (fun _ _ _ => trivial) hl
      exact ⟨ts', g1, by simpa using g2⟩
  silent w ws h := by
    have hw : w.2.phase = .defunct := h
    have hn : w.2.phase ≠ .new := by rw [hw]; simp
    have e : servers.onSend w ws = ⟨w, true, [], .broken⟩ := by simp only [servers, if_neg hn, if_pos hw]
    rw [e]
    exact ⟨rfl, rfl⟩
  greet w pre _ _ := ⟨rfl, rfl, rfl⟩

theorem understood (env : Env) (ver : Ver) : Understood env ver servers := by
  intro w ws ts h
  by_cases hp : servers.onSend w ws = ⟨(w.1, { w.2 with phase := .ready, ledger := w.2.ledger.complete w.2.running.1 w.2.running.2 }), true, [overview], .broken⟩
  · rw [hp] at h ⊢
    have e : [overview].flatten = overview := by simp
    rw [e] at h ⊢
    rw [sends_unique h overview_sends]
    refine ⟨?_, [_, _, _], rfl, rfl, rfl, trivial⟩
    refine ⟨_, _, _, rfl, framed_one (by decide +kernel), member_enc (id := "1") (address := "bolt://a:7687") (role := "LEADER") (by decide) (by decide) (by decide), _, _, _, rfl,
      framed_one (by decide +kernel), member_enc (id := "2") (address := "bolt://b:7687") (role := "FOLLOWER") (by decide) (by decide) (by decide),
      [0xB1, 0x70, 0xA0], sSuccess.flatten, [], by simp, ⟨[[0xB1, 0x70, 0xA0]], ?_, rfl, rfl⟩, ?_, rfl⟩
    · intro c hc; simp at hc; subst hc; simp
    · exact ⟨[0xB1], [0xA0], .inl ⟨by simp, rfl⟩, ⟨[0xA0], [], ⟨[0xA0], [], .inl ⟨by simp, rfl⟩, rfl, rfl⟩, rfl, rfl⟩, rfl⟩
  · have e : (servers.onSend w ws).segs.flatten = ((tServer 4).onSend w.2 ws).segs.flatten := by
      simp only [servers, tServer] at hp ⊢
      split
      · rfl
      · split
        · rfl
        · rename_i h1 h2
          rw [if_neg h1, if_neg h2] at hp
          cases hq : requestOf ws with
          | none => rfl
          | some t =>
            rw [hq] at hp
            rcases answer_cases w.2 t with ⟨_, _, _, h3⟩ | h3
            · simp only [h3, not_true_eq_false] at hp
            · simp only [h3]
    rw [e] at h ⊢
    exact tServer_understood env ver 4 w.2 ws ts h

/-- Every server can be reached. -/
def net : Net (Endpoint × Session) := noFiles fun _ e => (e, ⟨.new, ([], []), ⟨none, []⟩⟩)

theorem placed : Placed servers net (·.1) where
  reached _ _ := rfl
  dialled _ := rfl
  sent w ws := by
    simp only [servers]
    split
    · rfl
    · split
      · rfl
      · split <;> rfl

/-- One user borrows the connection for writing, commits a transaction with A, rolls back one with B, and returns the connection; then another one borrows a connection. -/
def history : List LMove :=
  [.pool (.call (.borrow true))] ++ List.replicate 8 (.pool (.step 0)) ++
    ([.begin_ [], inTx 0 "A", .commit 0, .begin_ [], inTx 1 "B", .rollback 1] : List Op).map (.user 1) ++ [.pool (.call (.reclaim ⟨1, ascii "1-" ++ C68.ids 0⟩))] ++
    List.replicate 9 (.pool (.step 0)) ++ [.pool (.call (.borrow true))] ++ List.replicate 7 (.pool (.step 0))

/-- The start of the pool. -/
def opened : Option (RPool (Live (Endpoint × Session))) :=
  match openRoutingPool (liveWorld env0 servers false (1 + 1) net C68.ids) (ascii "bolt+routing://u:p@a:7687") 2 (ascii "u:p") [] ⟨fun _ => none, 0, 0⟩ with
  | .ok (.ok (), pool) => some pool
  | _ => none

/-- The state after the history. -/
def final : Option (PSys (Live (Endpoint × Session))) := opened.map fun pool => (PSys.fresh pool).lives env0 servers false (1 + 1) net C68.ids history

/-- The connection a borrower is about to be given, when there is no other call. -/
def next {σ : Type} (s : PSys (Live σ)) : Option (Bool × ConnRef) :=
  match s.calls with
  | [(.borrow w, .done (.ok (some r)))] => some (w, r)
  | _ => none

theorem lends {σ : Type} {W : World σ} {net : Net σ} {s : PSys (Live σ)} {w : Bool} {r : ConnRef} (h : next s = some (w, r)) : LendsFor env0 W false (1 + 1) net C68.ids s (.pool (.step 0)) w r := by
  unfold next at h
  split at h
  · rename_i w' r' hc
    cases h
    unfold LendsFor
    simp only [PSys.live, PSys.move, hc, List.getElem?_cons_zero]
  · cases h

theorem start {pool : RPool (Live (Endpoint × Session))} (h : opened = some pool) :
    openRoutingPool (liveWorld env0 servers false (1 + 1) net C68.ids) (ascii "bolt+routing://u:p@a:7687") 2 (ascii "u:p") [] ⟨fun _ => none, 0, 0⟩ = .ok (.ok (), pool) := by
  unfold opened at h
  generalize openRoutingPool (liveWorld env0 servers false (1 + 1) net C68.ids) (ascii "bolt+routing://u:p@a:7687") 2 (ascii "u:p") [] ⟨fun _ => none, 0, 0⟩ = o at h ⊢
  match o, h with
  | .ok (.ok (), pool'), h => cases h; rfl

theorem orderly : OrderlyUse env0 28 history := by
  intro r op hm
  have key : op ∈ ([.begin_ [], inTx 0 "A", .commit 0, .begin_ [], inTx 1 "B", .rollback 1] : List Op) := by
    simp only [history, List.mem_append, List.mem_replicate, List.mem_singleton, reduceCtorEq, and_false, or_false, false_or, List.mem_map, LMove.user.injEq] at hm
    obtain ⟨op', h1, _, rfl⟩ := hm
    exact h1
  have fine : ∀ (h : Nat) (q : String), (ascii q).length ≤ 28 → ∀ ver, (inTx h q).Fine env0 ver 28 := fun h q hq ver =>
    ⟨.map [], by omega, by omega, hq, by simp, by cases ver <;> rfl, by simp [PS.Fits, PS.FitsWith, FitsEntries], by simp [Val.All, AllEntries, strAtMost]⟩
  simp only [List.mem_cons, List.not_mem_nil, or_false] at key
  rcases key with rfl | rfl | rfl | rfl | rfl | rfl
  · exact ⟨fun _ => Nat.zero_le _, fun q hq => by cases hq⟩
  · exact ⟨fine 0 "A" (by decide), fun q hq => by cases hq; decide⟩
  · exact ⟨fun _ => trivial, fun q hq => by cases hq⟩
  · exact ⟨fun _ => Nat.zero_le _, fun q hq => by cases hq⟩
  · exact ⟨fine 1 "B" (by decide), fun q hq => by cases hq; decide⟩
  · exact ⟨fun _ => trivial, fun q hq => by cases hq⟩

theorem noRestarts : NoRestart history := by
  intro m hm
  simp only [history, List.mem_append, List.mem_replicate, List.mem_singleton, List.mem_map, reduceCtorEq, and_false, exists_const, exists_false, or_false, LMove.pool.injEq] at hm
  rcases hm with ((((rfl | ⟨_, rfl⟩) | rfl) | ⟨_, rfl⟩) | rfl) | ⟨_, rfl⟩ <;> simp [noRestart]

/-- Whether connections are returned without open transaction. -/
def tidy {σ : Type} (W : World σ) (net : Net σ) (s : PSys (Live σ)) : List LMove → Bool
  | [] => true
  | m :: ms => (match m with
    | .pool (.call (.reclaim r)) => (match s.pool.world.conns r.ref with
      | some c => c.txs.all (·)
      | none => true)
    | _ => true) && tidy W net (s.live env0 W false (1 + 1) net C68.ids m) ms

theorem considerate {σ : Type} {W : World σ} {net : Net σ} : ∀ {ms : List LMove} {s : PSys (Live σ)}, tidy W net s ms = true → Considerate env0 W false (1 + 1) net C68.ids s ms
  | [], _, _ => trivial
  | m :: ms, s, h => by
    unfold tidy at h
    rw [Bool.and_eq_true] at h
    refine ⟨fun r hm c hc k hk => ?_, considerate h.2⟩
    subst hm
    have h1 := h.1
    dsimp only at h1
    rw [hc] at h1
    have := List.all_eq_true.1 h1 false (List.mem_of_getElem? hk)
    cases this

/-- The strings with which connections were made. -/
def strings (log : List PEv) : List Bytes := log.filterMap fun | .dialled _ str => some str | .created _ _ str _ => some str | _ => none

theorem mem_strings {log : List PEv} {str : Bytes} (h : MadeWith log str) : str ∈ strings log := by
  rcases h with ⟨r, id, w, h⟩ | ⟨r, h⟩
  · exact List.mem_filterMap.2 ⟨_, h, rfl⟩
  · exact List.mem_filterMap.2 ⟨_, h, rfl⟩

/-- What is left to be computed about the final state. -/
def goodEnd (s : PSys (Live (Endpoint × Session))) : Bool :=
  decide ((made s.pool.log).map (·.2)).Nodup && (strings s.pool.log).all (fun str => C118.short (connectionConfig false str)) &&
    decide ((next s).map (fun x => (x.1, x.2.ref)) = some (true, 1)) &&
    decide ((s.pool.world.conns 1).map (fun c => (c.closed, c.txs, c.world.1, c.world.2.ledger.lasting.map (·.text))) =
      some (false, [true, true], tcpTo (ascii "a") 7687, [ascii "A"]))

/-- What the kernel computes. -/
def checks : Option (RPool (Live (Endpoint × Session))) → Bool
  | none => false
  | some pool => tidy servers net (PSys.fresh pool) history && goodEnd ((PSys.fresh pool).lives env0 servers false (1 + 1) net C68.ids history)

theorem checked : checks opened = true := by decide +kernel

end C120

/-- The concrete cluster meets the hypotheses of `C120`: the second user gets the connection with a:7687, on which A is permanent and B is not. -/
example : ∃ pool, openRoutingPool (liveWorld env0 C120.servers false (1 + 1) C120.net C68.ids) (ascii "bolt+routing://u:p@a:7687") 2 (ascii "u:p") [] ⟨fun _ => none, 0, 0⟩ = .ok (.ok (), pool) ∧
    ∃ s r c, s = (PSys.fresh pool).lives env0 C120.servers false (1 + 1) C120.net C68.ids C120.history ∧ LendsFor env0 C120.servers false (1 + 1) C120.net C68.ids s (.pool (.step 0)) true r ∧
      s.pool.world.conns r.ref = some c ∧ c.world.1 = tcpTo (ascii "a") 7687 ∧ (Ongoing (σ := Endpoint × Session) (·.2) c → c.world.2.ledger.tx = none) ∧
      c.world.2.ledger.lasting.map (·.text) = [ascii "A"] := by
  have hk := C120.checked
  cases ho : C120.opened with
  | none => rw [ho] at hk; cases hk
  | some pool =>
    rw [ho] at hk
    refine ⟨pool, C120.start ho, (PSys.fresh pool).lives env0 C120.servers false (1 + 1) C120.net C68.ids C120.history, ?_⟩
    unfold C120.checks at hk
    generalize hs : (PSys.fresh pool).lives env0 C120.servers false (1 + 1) C120.net C68.ids C120.history = s
    dsimp only at hk
    rw [hs] at hk
    rw [Bool.and_eq_true] at hk
    obtain ⟨k1, hk⟩ := hk
    unfold C120.goodEnd at hk
    simp only [Bool.and_eq_true] at hk
    obtain ⟨⟨⟨k2, k3⟩, k4⟩, k5⟩ := hk
    replace k2 := of_decide_eq_true k2
    replace k4 := of_decide_eq_true k4
    replace k5 := of_decide_eq_true k5
    cases hn : C120.next s with
    | none => rw [hn] at k4; cases k4
    | some x =>
      obtain ⟨w, r⟩ := x
      rw [hn] at k4
      simp only [Option.map_some, Option.some.injEq, Prod.mk.injEq] at k4
      obtain ⟨rfl, k4⟩ := k4
      obtain ⟨c, h1, _, _, h4, _⟩ := C120 C120.serves C120.placed (lo := 28) (by decide) (by decide) (C120.understood env0) (C120.start ho) C120.orderly (C120.considerate k1) hs.symm
        ((idsDiffer_iff _).2 k2) (fun str hm cfg hc => by
          have := List.all_eq_true.1 k3 str (C120.mem_strings hm)
          rw [hc] at this
          exact of_decide_eq_true this) C120.noRestarts (C120.lends hn)
      refine ⟨r, c, rfl, C120.lends hn, h1, ?_⟩
      rw [k4] at h1
      rw [h1] at k5
      simp only [Option.map_some, Option.some.injEq, Prod.mk.injEq] at k5
      exact ⟨k5.2.2.1, fun hg => (h4 hg).2.1, k5.2.2.2⟩

namespace C120

/-- The options of the client whose pool this is. -/
def options : List (Option ClientOpt) := [some (.hostPort (ascii "a") 7687), some (.basicAuth (ascii "u") (ascii "p")), some .routing]

/-- The client. -/
def client : Client where
  connStr := ascii "bolt+routing://u:p@a:7687"
  host := ascii "a"
  port := 7687
  routing := true
  user := ascii "u"
  password := ascii "p"
  timeout := 60000000000
  chunkSize := 65535

theorem plain : PlainClient false options client where
  noString := by rintro ⟨s, h⟩; simp [options] at h
  made := by
    have h : (match newClient false options with | .ok c' => decide (c' = client) | .error _ => false) = true := by decide +kernel
    split at h
    · rename_i hc; rw [hc, of_decide_eq_true h]
    · cases h
  host := by unfold Spec.PlainHost; decide +kernel
  user := by unfold Spec.PlainUser Spec.PlainChar; decide +kernel
  password := by unfold Spec.PlainPassword Spec.PlainChar; decide +kernel
  paths := by unfold Spec.PlainPath; decide +kernel
  short := by decide +kernel

theorem client_opens : client.openRouting (liveWorld env0 servers false (1 + 1) net C68.ids) false 2 ⟨fun _ => none, 0, 0⟩ =
    openRoutingPool (liveWorld env0 servers false (1 + 1) net C68.ids) (ascii "bolt+routing://u:p@a:7687") 2 (ascii "u:p") [] ⟨fun _ => none, 0, 0⟩ := by
  have h1 : client.getUsernamePassword = ascii "u:p" := by decide +kernel
  have h2 : client.getTlsPortion false = [] := by decide +kernel
  unfold Client.openRouting
  rw [h1, h2]
  rfl

/-- The addresses in the overviews. -/
def addresses (log : List PEv) : List Bytes := log.flatMap fun
  | .overview v ans =>
    let h := (Handler.empty.refreshClusterInfo v ans).1
    (h.leaders ++ h.followers ++ h.readReplicas).map (·.boltString)
  | _ => []

theorem reported {log : List PEv} {a : Bytes} (h : Spec.Reported log a) : a ∈ addresses log := by
  obtain ⟨v, rows, ms, role, n, h1, h2, h3, rfl⟩ := h
  refine List.mem_flatMap.2 ⟨_, h1, ?_⟩
  dsimp only
  rw [C56_taken_over _ _ _ _ h2]
  refine List.mem_map.2 ⟨n, ?_, rfl⟩
  have : ∀ p : Role → Bool, p role = true → n ∈ having p ms := fun p hp => mem_having.2 ⟨role, hp, h3⟩
  cases role with
  | leader => exact List.mem_append_left _ (List.mem_append_left _ (this _ rfl))
  | follower => exact List.mem_append_left _ (List.mem_append_right _ (this _ rfl))
  | readReplica => exact List.mem_append_right _ (this _ rfl)

/-- Only a and b are reported. -/
def known : Option (RPool (Live (Endpoint × Session))) → Bool
  | none => false
  | some pool => (addresses ((PSys.fresh pool).lives env0 servers false (1 + 1) net C68.ids history).pool.log).all fun x => x = ascii "bolt://a:7687" || x = ascii "bolt://b:7687"

theorem all_known : known opened = true := by decide +kernel

end C120

/-- It is the pool of a plain client, and meets the hypotheses of `C120_plain` as well. -/
example {pool : RPool (Live (Endpoint × Session))} (ho : C120.opened = some pool) :
    C120.client.openRouting (liveWorld env0 C120.servers false (1 + 1) C120.net C68.ids) false 2 ⟨fun _ => none, 0, 0⟩ = .ok (.ok (), pool) ∧ PlainClient false C120.options C120.client ∧
    ∀ a, Spec.Reported ((PSys.fresh pool).lives env0 C120.servers false (1 + 1) C120.net C68.ids C120.history).pool.log a → ∃ host port, PlainAddress host port a := by
  refine ⟨C120.client_opens.trans (C120.start ho), C120.plain, fun a ha => ?_⟩
  have hk := C120.all_known
  rw [ho] at hk
  have := List.all_eq_true.1 hk a (C120.reported ha)
  rw [Bool.or_eq_true, decide_eq_true_eq, decide_eq_true_eq] at this
  rcases this with rfl | rfl
  · exact ⟨ascii "a", 7687, by unfold Spec.PlainHost; decide +kernel, by decide +kernel⟩
  · exact ⟨ascii "b", 7687, by unfold Spec.PlainHost; decide +kernel, by decide +kernel⟩

end Verif

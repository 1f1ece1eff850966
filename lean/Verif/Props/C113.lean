/-
C113  How the network divides what the server sends makes no difference to a session.
-/
import Verif.Proofs.Alike
import Verif.Props.C105
namespace Verif
open Spec

/-- C113: two networks that deliver the same bytes, divided differently, cannot be told apart: creating a connection has the same result, and after any calls every
call returns the same, and the same messages have been exchanged. -/
def C113_statement : Prop := ∀ (σ τ : Type) (rel : σ → τ → Prop) (env : Env) (W : World σ) (V : World τ), SameBytes rel Eq W V →
  ∀ (w : σ) (v : τ), rel w v → ∀ (fuel : Nat) (user password : Bytes),
    (createBoltConn env W fuel user password w).1 = (createBoltConn env V fuel user password v).1 ∧
    ∀ (ops : List Op) (op : Op),
      yields env W fuel op (run env W fuel ops (createBoltConn env W fuel user password w).2) =
        yields env V fuel op (run env V fuel ops (createBoltConn env V fuel user password v).2) ∧
      (run env W fuel ops (createBoltConn env W fuel user password w).2).trace = (run env V fuel ops (createBoltConn env V fuel user password v).2).trace

namespace Spec

/-- The first segment that is not empty has the four bytes of a version, if there is one. -/
def FirstWhole (segs : List Bytes) : Prop := ∀ s rest, segs.dropWhile (· = []) = s :: rest → 4 ≤ s.length

end Spec

namespace C113

theorem readOnce_eq (n : Nat) : (segs : List Bytes) → readOnce n segs = match segs.dropWhile (· = []) with
    | [] => none
    | s :: rest => if s.length ≤ n then some (s, rest) else some (s.take n, s.drop n :: rest)
  | [] => rfl
  | s :: segs => by
    unfold readOnce
    by_cases h : s = []
    · rw [if_pos h, readOnce_eq n segs, List.dropWhile_cons_of_pos (by simp [h])]
    · rw [if_neg h, List.dropWhile_cons_of_neg (by simp [h])]

theorem readOnce_whole {segs : List Bytes} (h : FirstWhole segs) {got : Bytes} {rest : List Bytes} (hr : readOnce 4 segs = some (got, rest)) : got.length = 4 := by
  rw [readOnce_eq] at hr
  match hd : segs.dropWhile (· = []) with
  | [] => rw [hd] at hr; cases hr
  | s :: r =>
    have := h s r hd
    rw [hd] at hr
    dsimp only at hr
    split at hr
    · cases hr; omega
    · cases hr; rw [List.length_take]; omega

variable {σ τ : Type} {rel : σ → τ → Prop} {env : Env} {W : World σ} {V : World τ}

/-- Equal writes, equal chunk sizes. -/
abbrev tie (rel : σ → τ → Prop) (p : Proto) : Tie σ τ := ⟨rel, Eq, Eq, p⟩

theorem all_go (p : Proto) (v : Val) : GoesAlike (tie rel p) env v := by
  rintro cs cs' (rfl : cs = cs')
  exact ⟨rfl, Iff.rfl, rfl⟩

theorem basics (p : Proto) : Basics (tie rel p) env := ⟨all_go p _, all_go p _, all_go p _, all_go p _, fun _ _ => all_go p _⟩

theorem ops_go (p : Proto) : (op : Op) → OpGoes (tie rel p) env op
  | .query _ _ _ => fun _ => all_go p _
  | .exec _ _ _ => fun _ => all_go p _
  | .txQuery _ _ _ _ => fun _ => all_go p _
  | .txExec _ _ _ => fun _ => all_go p _
  | .txExecDb _ _ _ _ => fun _ => all_go p _
  | .begin_ _ => fun _ => all_go p _
  | .setChunkSize _ => rfl
  | .commit _ => trivial
  | .rollback _ => trivial
  | .close => trivial
  | .makeIdle => trivial
  | .validateOpen => trivial

theorem events {l l' : List Ev} (h : SameEvents Eq l l') : l = l' := by
  induction h with
  | refl l => rfl
  | snoc e _ ih => rw [ih]
  | sent _ hw ih => rw [ih, hw]

theorem Alike.toProto {p q : Proto} {d : Conn σ} {c : Conn τ} (h : Alike (tie rel p) d c) (ver : Int) (vb : Bytes) :
    Alike (tie rel q) { d with proto := q, version := ver, versionBytes := vb } { c with proto := q, version := ver, versionBytes := vb } :=
  ⟨rfl, rfl, rfl, rfl, h.mode, h.chunkSize, h.closed, h.sock, h.txs, h.cur, h.trace, h.world, h.segs, h.fin⟩

variable (hW : SameBytes rel Eq W V)
include hW

/-- The handshake, if both read the version in one piece. -/
theorem handshake_alike {p : Proto} {d : Conn σ} {c : Conn τ} (hb : Alike (tie rel p) d c) (hd : d.segs = []) (hc : c.segs = [])
    (h1 : FirstWhole (W.onSend d.world [handShake]).segs) (h2 : FirstWhole (V.onSend c.world [handShake]).segs) :
    AlikeAt (tie rel p) (handshake W d) (handshake V c) := by
  have hx := hb.sent (W := W) (V := V) hW (ws := [handShake]) rfl
  obtain ⟨_, ho, hsegs, hfin⟩ := hW.send _ _ [handShake] _ hb.world rfl
  have key : ∀ {s t : List Bytes}, s.flatten = t.flatten → Alike (tie rel p)
      { d with world := (W.onSend d.world [handShake]).st, segs := s, fin := (W.onSend d.world [handShake]).fin, trace := d.trace ++ [.sent [handShake]] }
      { c with world := (V.onSend c.world [handShake]).st, segs := t, fin := (V.onSend c.world [handShake]).fin, trace := c.trace ++ [.sent [handShake]] } := fun h =>
    hx.read h
  unfold handshake
  dsimp only
  rw [ho]
  split
  · exact ⟨rfl, hx⟩
  · rw [hd, hc, List.nil_append, List.nil_append]
    match hm : readOnce 4 (W.onSend d.world [handShake]).segs, hn : readOnce 4 (V.onSend c.world [handShake]).segs with
    | none, none => exact ⟨by show CRes.err _ = CRes.err _; rw [hfin], key rfl⟩
    | none, some (b, t) =>
      have e := readOnce_none.mp hm
      rw [hsegs] at e
      rw [(readOnce_none (n := 4)).mpr e] at hn
      cases hn
    | some (a, s), none =>
      have e := readOnce_none.mp hn
      rw [← hsegs] at e
      rw [(readOnce_none (n := 4)).mpr e] at hm
      cases hm
    | some (a, s), some (b, t) =>
      have la := readOnce_whole h1 hm
      have lb := readOnce_whole h2 hn
      have e : a ++ s.flatten = b ++ t.flatten := by rw [(readOnce_some (by omega) hm).2.2, (readOnce_some (by omega) hn).2.2, hsegs]
      obtain ⟨rfl, e2⟩ := List.append_inj e (by rw [la, lb])
      dsimp only
      split
      · exact ⟨rfl, key e2⟩
      · split
        · exact ⟨rfl, key e2⟩
        · exact ⟨rfl, key e2⟩

/-- `CreateBoltConn`, if both read the version in one piece. -/
theorem create_alike (fuel : Nat) (user password : Bytes) {w : σ} {v : τ} (hwv : rel w v)
    (h1 : FirstWhole (W.onSend (W.dial w).1 [handShake]).segs) (h2 : FirstWhole (V.onSend (V.dial v).1 [handShake]).segs) :
    ∃ p, AlikeAt (tie rel p) (createBoltConn env W fuel user password w) (createBoltConn env V fuel user password v) := by
  obtain ⟨r1, r2⟩ := hW.dial w v hwv
  have fresh : ∀ (b b' : Bool), Alike (tie rel .v1) { Conn.fresh w with world := (W.dial w).1, sock := b, closed := b' } { Conn.fresh v with world := (V.dial v).1, sock := b, closed := b' } :=
    fun _ _ => ⟨rfl, rfl, rfl, rfl, rfl, rfl, rfl, rfl, rfl, rfl, .refl _, r1, rfl, rfl⟩
  unfold createBoltConn initConn
  cases hd : (W.dial w).2 with
  | false =>
    have e1 : createConnection W (Conn.fresh w) = (.err (.plain "dial"), { Conn.fresh w with world := (W.dial w).1 }) := by
      unfold createConnection
      exact if_neg (by show ¬ (W.dial w).2 = true; rw [hd]; simp)
    have e2 : createConnection V (Conn.fresh v) = (.err (.plain "dial"), { Conn.fresh v with world := (V.dial v).1 }) := by
      unfold createConnection
      exact if_neg (by show ¬ (V.dial v).2 = true; rw [← r2, hd]; simp)
    rw [CM.bind_err e1, CM.bind_err e2]
    exact ⟨.v1, rfl, fresh false false⟩
  | true =>
    have e1 : createConnection W (Conn.fresh w) = (.ok (), { Conn.fresh w with world := (W.dial w).1, sock := true, closed := false }) := by
      unfold createConnection
      exact if_pos hd
    have e2 : createConnection V (Conn.fresh v) = (.ok (), { Conn.fresh v with world := (V.dial v).1, sock := true, closed := false }) := by
      unfold createConnection
      exact if_pos (r2.symm.trans hd)
    rw [CM.bind_ok e1, CM.bind_ok e2]
    obtain ⟨g1, g2⟩ := handshake_alike hW (fresh true false) rfl rfl h1 h2
    match hm : handshake W { Conn.fresh w with world := (W.dial w).1, sock := true, closed := false },
      hn : handshake V { Conn.fresh v with world := (V.dial v).1, sock := true, closed := false } with
    | (.ok vb, d), (r, c) =>
      rw [hm, hn] at g1 g2
      cases g1
      rw [CM.bind_ok (m := CM.mapErr _ (handshake W)) (by unfold CM.mapErr; rw [hm]), CM.bind_ok (m := CM.mapErr _ (handshake V)) (by unfold CM.mapErr; rw [hn])]
      match getProtocol vb with
      | (some q, ver, _) => exact ⟨q, sim_sendInit hW (basics q) fuel (all_go q _) _ _ (Alike.toProto g2 ver vb)⟩
      | (none, _, some e) => exact ⟨_, rfl, g2⟩
      | (none, _, none) => exact ⟨_, rfl, g2⟩
    | (.err e, d), (r, c) =>
      rw [hm, hn] at g1 g2
      cases g1
      rw [CM.bind_err (m := CM.mapErr _ (handshake W)) (by unfold CM.mapErr; rw [hm]), CM.bind_err (m := CM.mapErr _ (handshake V)) (by unfold CM.mapErr; rw [hn])]
      exact ⟨_, rfl, g2⟩
    | (.panic, d), (r, c) =>
      rw [hm, hn] at g1 g2
      cases g1
      rw [CM.bind_apply, CM.bind_apply]
      unfold CM.mapErr
      rw [hm, hn]
      exact ⟨_, rfl, g2⟩
    | (.fuel, d), (r, c) =>
      rw [hm, hn] at g1 g2
      cases g1
      rw [CM.bind_apply, CM.bind_apply]
      unfold CM.mapErr
      rw [hm, hn]
      exact ⟨_, rfl, g2⟩

end C113

open C113 in
/-- The statement for networks that deliver the four bytes of the version in one piece.  Missing from the full statement: networks that divide them. -/
theorem C113_partial {σ τ : Type} {rel : σ → τ → Prop} (env : Env) {W : World σ} {V : World τ} (hW : SameBytes rel Eq W V) {w : σ} {v : τ} (hwv : rel w v)
    (h1 : FirstWhole (W.onSend (W.dial w).1 [handShake]).segs) (h2 : FirstWhole (V.onSend (V.dial v).1 [handShake]).segs) (fuel : Nat) (user password : Bytes) :
    (createBoltConn env W fuel user password w).1 = (createBoltConn env V fuel user password v).1 ∧
    ∀ (ops : List Op) (op : Op),
      yields env W fuel op (run env W fuel ops (createBoltConn env W fuel user password w).2) =
        yields env V fuel op (run env V fuel ops (createBoltConn env V fuel user password v).2) ∧
      (run env W fuel ops (createBoltConn env W fuel user password w).2).trace = (run env V fuel ops (createBoltConn env V fuel user password v).2).trace := by
  obtain ⟨p, h3, h4⟩ := create_alike (env := env) hW fuel user password hwv h1 h2
  refine ⟨h3, fun ops op => ?_⟩
  have hr := sim_run (env := env) hW (basics p) fuel ops (fun _ _ => ops_go p _) h4
  exact ⟨sim_yields hW (basics p) fuel (ops_go p op) hr, events hr.trace⟩

/-! ### Networks that divide what they deliver -/

namespace Spec

/-- The network delivers every byte by itself, except the answers to the first `s.2` messages of the driver. -/
def crumbled {σ : Type} (W : World σ) : World (σ × Nat) where
  dial s := (((W.dial s.1).1, s.2), (W.dial s.1).2)
  onSend s ws := let o := W.onSend s.1 ws
    ⟨(o.st, s.2 - 1), o.ok, if s.2 = 0 then o.segs.flatten.map (fun b => [b]) else o.segs, o.fin⟩
  onClose s := W.onClose s.1
  probe s := W.probe s.1

end Spec

theorem crumbled_same {σ : Type} (W : World σ) : SameBytes (fun w s => s.1 = w) Eq W (crumbled W) where
  dial := by rintro w s rfl; exact ⟨rfl, rfl⟩
  send := by
    rintro w s ws ws' rfl rfl
    refine ⟨rfl, rfl, ?_, rfl⟩
    show _ = List.flatten (if _ then _ else _)
    split
    · generalize (W.onSend s.1 ws).segs.flatten = l
      induction l with
      | nil => rfl
      | cons a l ih => rw [List.map_cons, List.flatten_cons, ← ih]; rfl
    · rfl
  close := by rintro w s rfl; rfl
  probe := by rintro w s rfl; rfl

/-- The server of C105 for version 4 behind a network that delivers every byte by itself after the first `n` messages. -/
def crumbledOpened (n : Nat) : CRes Unit × Conn (Session × Nat) := createBoltConn env0 (crumbled (cServer 4)) 2 [0x75] [0x70] (⟨.new, ([], []), ⟨none, []⟩⟩, n)

/-- The full statement is false: the version is read with one `Read`, so a network that divides it makes `CreateBoltConn` fail. -/
theorem C113_refuted : ¬ C113_statement := by
  intro h
  have h1 := (h _ _ _ env0 (cServer 4) (crumbled (cServer 4)) (crumbled_same _) ⟨.new, ([], []), ⟨none, []⟩⟩ (⟨.new, ([], []), ⟨none, []⟩⟩, 0) rfl 2 [0x75] [0x70]).1
  have h2 : (cOpened 4).1.kind = 0 := by decide +kernel
  have h3 : (crumbledOpened 0).1.kind = 1 := by decide +kernel
  unfold cOpened at h2
  unfold crumbledOpened at h3
  rw [h1, h3] at h2
  cases h2

/-- The hypotheses of `C113_partial`: after the handshake every byte comes by itself. -/
example : FirstWhole ((cServer 4).onSend ((cServer 4).dial ⟨.new, ([], []), ⟨none, []⟩⟩).1 [handShake]).segs ∧
    FirstWhole ((crumbled (cServer 4)).onSend ((crumbled (cServer 4)).dial (⟨.new, ([], []), ⟨none, []⟩⟩, 1)).1 [handShake]).segs ∧
    (crumbledOpened 1).1.kind = 0 ∧ told (resultOf env0 (crumbled (cServer 4)) 2 (.query (ascii "Y") [] []) (crumbledOpened 1).2) = some true := by
  have key : ∀ segs : List Bytes, segs = [[0, 0, 0, 4]] → FirstWhole segs := by
    rintro _ rfl s rest h
    have e : ([[0, 0, 0, 4]] : List Bytes).dropWhile (· = []) = [[0, 0, 0, 4]] := by decide
    rw [e] at h
    cases h
    decide
  exact ⟨key _ (by decide +kernel), key _ (by decide +kernel), by decide +kernel, by decide +kernel⟩

end Verif

/-
C28  Handshake.  C32 (connection level): the initialisation message follows it.
-/
import Verif.Proofs.StepsAll
import Verif.Proofs.ConnEv
import Verif.Props.C27
import Verif.Props.C32
import Verif.Spec.Scripted
namespace Verif
open Spec

/-- The Bolt preamble: magic number, then four proposed versions, most preferred first. -/
def preamble : Bytes := [0x60, 0x60, 0xB0, 0x17, 0, 0, 0, 4, 0, 0, 0, 3, 0, 0, 0, 2, 0, 0, 0, 1]

section
variable {σ : Type} (env : Env) (W : World σ)

/-- What the server sends in answer to the preamble. -/
def firstAnswer (w : σ) : SendOut σ := W.onSend (W.dial w).1 [preamble]

/-- Version number `n` and protocol `p` correspond. -/
def offered (n : UInt8) (p : Proto) : Prop := 1 ≤ n ∧ n ≤ 4 ∧ (n.toNat : Int) = p.number

theorem getProtocol_offered {vb : Bytes} {p : Proto} (h : (getProtocol vb).1 = some p) : ∃ n, vb = [0, 0, 0, n] ∧ offered n p := by
  obtain ⟨n, h1, h2⟩ := ((C27_exact vb).1 p).mp h
  refine ⟨n, h1, ?_, ?_, h2⟩ <;> rw [UInt8.le_iff_toNat_le] <;> cases p <;> simp only [Proto.number] at h2 <;> simp <;> omega

theorem offered_byte {n : UInt8} {p : Proto} (h : offered n p) : n = UInt8.ofNat p.number.toNat := by
  apply UInt8.toNat_inj.mp
  rw [← h.2.2, Int.toNat_natCast]
  simp

theorem getProtocol_number {vb : Bytes} {p : Proto} {n : Int} {e : Option Err} (h : getProtocol vb = (some p, n, e)) : n = p.number := by
  unfold getProtocol at h
  repeat' split at h
  all_goals first | (cases h; done) | (cases h; rfl)

/-- The state in which the initialisation message is sent. -/
def afterHandshake (w : σ) (segs' : List Bytes) (p : Proto) : Conn σ :=
  { (Conn.fresh (firstAnswer W w).st : Conn σ) with
    sock := true, proto := p, version := p.number, versionBytes := [0, 0, 0, UInt8.ofNat p.number.toNat], segs := segs', fin := (firstAnswer W w).fin, trace := [.sent [preamble]] }

/-- The two outcomes of the handshake. -/
theorem handshake_cases (fuel : Nat) (user password : Bytes) (w : σ) (hd : (W.dial w).2 = true) :
    (∃ n p segs', offered n p ∧ (firstAnswer W w).ok = true ∧ readOnce 4 (firstAnswer W w).segs = some ([0, 0, 0, n], segs') ∧
      createBoltConn env W fuel user password w =
        sendInit env W fuel (p.initMessage clientID (buildAuthTokenBasic user password)) (afterHandshake W w segs' p)) ∨
    ((∀ n p segs', offered n p → (firstAnswer W w).ok = true → readOnce 4 (firstAnswer W w).segs ≠ some ([0, 0, 0, n], segs')) ∧
      (∃ e, (createBoltConn env W fuel user password w).1 = .err e) ∧
      (createBoltConn env W fuel user password w).2.trace = [.sent [preamble]]) := by
  have hcreate : createConnection W (Conn.fresh w) = (.ok (), { Conn.fresh w with world := (W.dial w).1, sock := true, closed := false }) := by
    unfold createConnection
    dsimp only
    rw [show (Conn.fresh w).world = w from rfl, if_pos hd]
  have hgo : createBoltConn env W fuel user password w = (CM.mapErr (fun e => e.wrap "handshake failed") (handshake W) >>= fun vb =>
      match getProtocol vb with
      | (some p, version, _) => do
        CM.modify fun c => { c with proto := p, version := version, versionBytes := vb }
        sendInit env W fuel (p.initMessage clientID (buildAuthTokenBasic user password))
      | (none, _, some e) => CM.fail e
      | (none, _, none) => CM.fail (.plain "unreachable")) { Conn.fresh w with world := (W.dial w).1, sock := true, closed := false } := by
    unfold createBoltConn initConn
    rw [CM.bind_ok hcreate]
    rfl
  have hpre : handShake = preamble := by decide
  have ho : W.onSend (W.dial w).1 [handShake] = firstAnswer W w := by rw [hpre]; rfl
  have hsh : handshake W { Conn.fresh w with world := (W.dial w).1, sock := true, closed := false } =
      let c' : Conn σ := { Conn.fresh (firstAnswer W w).st with sock := true, segs := (firstAnswer W w).segs, fin := (firstAnswer W w).fin,
                                                                trace := [.sent [preamble]] }
      if (firstAnswer W w).ok = false then (.err .badConn, c')
      else match readOnce 4 (firstAnswer W w).segs with
        | none => (.err c'.fin.err, { c' with segs := [] })
        | some (version, s) =>
          if version.length ≠ 4 then (.err (.plain "expected [4] bytes"), { c' with segs := s })
          else if version = noVersionSupported then (.err (.new "server responded with no supported version"), { c' with segs := s })
          else (.ok version, { c' with segs := s }) := by
    unfold handshake
    dsimp only
    rw [ho, hpre]
    rfl
  rw [hgo]
  dsimp only at hsh
  have herr : ∀ {e c'}, handshake W { Conn.fresh w with world := (W.dial w).1, sock := true, closed := false } = (.err e, c') →
      ∀ {β : Type} (f : Bytes → CM σ β), (CM.mapErr (fun e => e.wrap "handshake failed") (handshake W) >>= f)
        { Conn.fresh w with world := (W.dial w).1, sock := true, closed := false } = (.err (e.wrap "handshake failed"), c') := by
    intro e c' h β f
    exact CM.bind_err (by unfold CM.mapErr; rw [h])
  by_cases hok : (firstAnswer W w).ok = false
  · right
    rw [if_pos hok] at hsh
    refine ⟨fun n p segs' _ h => by simp [hok] at h, ?_, ?_⟩
    · rw [herr hsh]; exact ⟨_, rfl⟩
    · rw [herr hsh]
  · rw [if_neg hok] at hsh
    have hok' : (firstAnswer W w).ok = true := by simpa using hok
    cases hr : readOnce 4 (firstAnswer W w).segs with
    | none =>
      right
      simp only [hr] at hsh
      refine ⟨fun n p segs' _ _ h => (by cases h), ?_, ?_⟩
      · rw [herr hsh]; exact ⟨_, rfl⟩
      · rw [herr hsh]
    | some x =>
      obtain ⟨version, s⟩ := x
      simp only [hr] at hsh
      cases hp : (getProtocol version).1 with
      | some p =>
        obtain ⟨n, hv, hoff⟩ := getProtocol_offered hp
        left
        refine ⟨n, p, s, hoff, hok', by rw [hv], ?_⟩
        have hne : version ≠ noVersionSupported := by
          rw [hv]
          intro h
          simp only [noVersionSupported, List.cons.injEq, and_true, true_and] at h
          subst h
          exact absurd hoff.1 (by decide)
        rw [if_neg (by rw [hv]; simp), if_neg hne] at hsh
        have hmap : CM.mapErr (fun e => e.wrap "handshake failed") (handshake W)
            { Conn.fresh w with world := (W.dial w).1, sock := true, closed := false } = _ := CM.mapErr_eq_ok.mpr hsh
        rw [CM.bind_ok hmap]
        match hg : getProtocol version with
        | (some p', a, b) =>
          rw [hg] at hp
          cases hp
          have ha := getProtocol_number hg
          have hb : version = [0, 0, 0, UInt8.ofNat p.number.toNat] := by rw [hv, offered_byte hoff]
          subst ha hb
          rfl
        | (none, a, b) => rw [hg] at hp; cases hp
      | none =>
        right
        refine ⟨?_, ?_⟩
        · intro n p segs' hoff _ h
          simp only [Option.some.injEq, Prod.mk.injEq] at h
          have := ((C27_exact version).1 p).mpr ⟨n, h.1, hoff.2.2⟩
          rw [hp] at this
          cases this
        · by_cases hl : version.length ≠ 4
          · rw [if_pos hl] at hsh
            rw [herr hsh]
            exact ⟨⟨_, rfl⟩, rfl⟩
          · by_cases hn : version = noVersionSupported
            · rw [if_neg hl, if_pos hn] at hsh
              rw [herr hsh]
              exact ⟨⟨_, rfl⟩, rfl⟩
            · rw [if_neg hl, if_neg hn] at hsh
              have hmap : CM.mapErr (fun e => e.wrap "handshake failed") (handshake W)
                  { Conn.fresh w with world := (W.dial w).1, sock := true, closed := false } = _ := CM.mapErr_eq_ok.mpr hsh
              rw [CM.bind_ok hmap]
              match hg : getProtocol version with
              | (some p', a, b) => rw [hg] at hp; cases hp
              | (none, a, some e) => exact ⟨⟨_, rfl⟩, rfl⟩
              | (none, a, none) => exact ⟨⟨_, rfl⟩, rfl⟩

/-- The initialisation message in the format of version `p`, with the given credentials, was written in the calls `ws`. -/
def InitSent (p : Proto) (user password : Bytes) (ws : List Bytes) : Prop :=
  ∃ b, Framed b ws.flatten ∧ isInitFor p (ascii "GoBolt/0.1") user password b

theorem init_strAtMost (p : Proto) {user password : Bytes} (hu : user.length ≤ 65535) (hp : password.length ≤ 65535) :
    (p.initMessage clientID (buildAuthTokenBasic user password)).All (strAtMost 65535) := by
  have l1 : clientID.length = 10 := by decide
  have l2 : (ascii "scheme").length = 6 := by decide
  have l3 : (ascii "principal").length = 9 := by decide
  have l4 : (ascii "credentials").length = 11 := by decide
  have l5 : (ascii "realm").length = 5 := by decide
  have l6 : (ascii "user_agent").length = 10 := by decide
  have l7 : (ascii "basic").length = 5 := by decide
  cases p <;> simp only [Proto.initMessage, newInitMessage, newHelloMessage, auth_mapInsert] <;> (try rw [auth_eq]) <;>
    simp [Val.All, AllList, AllEntries, strAtMost, l1, l2, l3, l4, l5, l6, l7, hu, hp]

theorem init_sent (p : Proto) {user password : Bytes} (hu : user.length ≤ 65535) (hp : password.length ≤ 65535) :
    (encodeMsg env p.codec 65535 (p.initMessage clientID (buildAuthTokenBasic user password))).2 = none ∧
    InitSent p user password (encodeMsg env p.codec 65535 (p.initMessage clientID (buildAuthTokenBasic user password))).1 := by
  obtain ⟨h1, h2⟩ := C32_message env p user password (by omega) (by omega)
  obtain ⟨h3, h4⟩ := encodeMsg_framed env p.codec (by omega) (Nat.le_refl 65535) (init_strAtMost p hu hp) h1
  exact ⟨h3, _, h4, h2⟩

/-- On an open socket an encodable message is always written (the write may then fail). -/
theorem sendMessage_trace {v : Val} {c : Conn σ} (hs : c.sock = true) (he : (encodeMsg env c.proto.codec c.chunkSize v).2 = none) :
    (sendMessage env W v c).2.trace = c.trace ++ [.sent (encodeMsg env c.proto.codec c.chunkSize v).1] := by
  unfold sendMessage writeAll
  dsimp only
  rw [if_neg (encodeMsg_ne_nil env he), if_neg (by simp [hs])]
  split
  · split <;> rfl
  · rfl

/-- A call that starts by sending `v` leaves `v` as the first new event. -/
theorem first_sent {α : Type} {v : Val} {c : Conn σ} {f : Unit → CM σ α} (hs : c.sock = true)
    (he : (encodeMsg env c.proto.codec c.chunkSize v).2 = none) (hf : Steps (fun c c' => c.trace <+: c'.trace) (f ())) :
    ∃ t, ((sendMessage env W v >>= f) c).2.trace = c.trace ++ .sent (encodeMsg env c.proto.codec c.chunkSize v).1 :: t := by
  have ht := sendMessage_trace env W hs he
  match h : sendMessage env W v c with
  | (.ok (), c1) =>
    rw [h] at ht
    rw [CM.bind_ok h]
    obtain ⟨t, h2⟩ := hf c1
    refine ⟨t, ?_⟩
    rw [← h2, ht]; simp
  | (.err e, c1) => rw [h] at ht; rw [CM.bind_err h]; exact ⟨[], ht⟩
  | (.panic, c1) => rw [h] at ht; rw [CM.bind_panic h]; exact ⟨[], ht⟩
  | (.fuel, c1) => rw [h] at ht; rw [CM.bind_fuel h]; exact ⟨[], ht⟩

theorem init_events (fuel : Nat) {user password : Bytes} (hu : user.length ≤ 65535) (hp : password.length ≤ 65535) (w : σ) (segs' : List Bytes) (p : Proto) :
    ∃ ws t, (sendInit env W fuel (p.initMessage clientID (buildAuthTokenBasic user password)) (afterHandshake W w segs' p)).2.trace = .sent [preamble] :: .sent ws :: t ∧
      InitSent p user password ws := by
  obtain ⟨e1, e2⟩ := init_sent env p hu hp
  have hgr : Steps (fun (c c' : Conn σ) => c.trace <+: c'.trace) (do
      let resp ← consume env W fuel
      match asSuccess resp with
      | some _ => Pure.pure ()
      | none => close env W fuel) := by
    refine Steps.bind (grows env W).toStepRel ((grows env W).consume env W fuel) fun v => ?_
    split
    · exact Steps.pure (grows env W).toStepRel _
    · exact (grows env W).close env W fuel
  obtain ⟨t, ht⟩ := first_sent env W (c := afterHandshake W w segs' p) (v := p.initMessage clientID (buildAuthTokenBasic user password)) rfl e1
    (f := fun _ => _) hgr
  exact ⟨_, t, ht, e2⟩

/-- After dialling, for every server behaviour: either the server's answer starts with one of the four offered versions `n`, the connection uses that
version, and the events start with the preamble and the initialisation message of that version with exactly the configured credentials; or
`CreateBoltConn` returns an error and nothing but the preamble was ever sent. -/
theorem C28_handshake (fuel : Nat) (user password : Bytes) (hu : user.length ≤ 65535) (hp : password.length ≤ 65535) (w : σ)
    (hd : (W.dial w).2 = true) :
    let r := createBoltConn env W fuel user password w
    (∃ n p rest ws t, offered n p ∧ (firstAnswer W w).segs.flatten = [0, 0, 0, n] ++ rest ∧ r.2.proto = p ∧
      r.2.trace = .sent [preamble] :: .sent ws :: t ∧ InitSent p user password ws) ∨
    ((∃ e, r.1 = .err e) ∧ r.2.trace = [.sent [preamble]]) := by
  rcases handshake_cases env W fuel user password w hd with ⟨n, p, segs', h1, h2, h3, h4⟩ | ⟨_, h2, h3⟩
  · left
    simp only [h4]
    have hpr := ((sameProto env W).sendInit env W fuel (p.initMessage clientID (buildAuthTokenBasic user password)) (afterHandshake W w segs' p)).1
    obtain ⟨ws, t, ht, e2⟩ := init_events env W fuel hu hp w segs' p
    obtain ⟨_, _, hfl⟩ := readOnce_some (by omega) h3
    exact ⟨n, p, segs'.flatten, ws, t, h1, hfl.symm, hpr, ht, e2⟩
  · right
    exact ⟨h2, h3⟩

/-- If dialling fails, nothing is sent and the error is returned. -/
theorem C28_dial_fails (fuel : Nat) (user password : Bytes) (w : σ) (hd : (W.dial w).2 = false) :
    (∃ e, (createBoltConn env W fuel user password w).1 = .err e) ∧ (createBoltConn env W fuel user password w).2.trace = [] := by
  have hcreate : createConnection W (Conn.fresh w) = (.err (.plain "dial"), { Conn.fresh w with world := (W.dial w).1 }) := by
    unfold createConnection
    dsimp only
    rw [show (Conn.fresh w).world = w from rfl, if_neg (by simp [hd])]
  unfold createBoltConn initConn
  rw [CM.bind_err hcreate]
  exact ⟨⟨_, rfl⟩, rfl⟩

theorem accepts_init (fuel : Nat) (user password : Bytes) (w : σ) (hd : (W.dial w).2 = true) (n : UInt8) (p : Proto) (hn : offered n p)
    (more : Bytes) (segs : List Bytes) (hok : (firstAnswer W w).ok = true) (hs : (firstAnswer W w).segs = ([0, 0, 0, n] ++ more) :: segs) :
    createBoltConn env W fuel user password w =
      sendInit env W fuel (p.initMessage clientID (buildAuthTokenBasic user password))
        (afterHandshake W w (if more = [] then segs else more :: segs) p) := by
  have hr : readOnce 4 (firstAnswer W w).segs = some ([0, 0, 0, n], if more = [] then segs else more :: segs) := by
    rw [hs]
    unfold readOnce
    rw [if_neg (by simp)]
    by_cases hm : more = []
    · subst hm; simp
    · have : more.length ≠ 0 := fun h => hm (List.length_eq_zero_iff.mp h)
      rw [if_neg (by simp; omega), if_neg hm]
      rfl
  rcases handshake_cases env W fuel user password w hd with ⟨n', p', segs', h1, h2, h3, h4⟩ | ⟨h1, _⟩
  · rw [hr] at h3
    simp only [Option.some.injEq, Prod.mk.injEq, List.cons.injEq, true_and, and_true] at h3
    obtain ⟨rfl, rfl⟩ := h3
    have hpp : p' = p := by
      have := h1.2.2.symm.trans hn.2.2
      cases p <;> cases p' <;> first | rfl | (simp [Proto.number] at this)
    subst hpp
    exact h4
  · exact absurd hr (h1 n p _ hn hok)

/-- If the answer of the server (its first segment) consists of an offered version followed by anything, that version is used, and the initialisation message is
sent. -/
theorem C28_accepts (fuel : Nat) (user password : Bytes) (hu : user.length ≤ 65535) (hp : password.length ≤ 65535) (w : σ) (hd : (W.dial w).2 = true) (n : UInt8) (p : Proto)
    (hn : offered n p) (more : Bytes) (segs : List Bytes) (hok : (firstAnswer W w).ok = true) (hs : (firstAnswer W w).segs = ([0, 0, 0, n] ++ more) :: segs) :
    let r := createBoltConn env W fuel user password w
    r.2.proto = p ∧ ∃ ws t, r.2.trace = .sent [preamble] :: .sent ws :: t ∧ InitSent p user password ws := by
  have h := accepts_init env W fuel user password w hd n p hn more segs hok hs
  have hpr : (createBoltConn env W fuel user password w).2.proto = p := by rw [h]; exact ((sameProto env W).sendInit env W fuel _ _).1
  refine ⟨hpr, ?_⟩
  show ∃ ws t, (createBoltConn env W fuel user password w).2.trace = _ ∧ _
  rw [h]
  exact init_events env W fuel hu hp w _ p

end

/-- A server that speaks version 3, and one that answers with an unknown version. -/
example : (opened [[[0, 0, 0, 3]], sSuccess]).2.proto = .v3 := by decide +kernel
example : (opened [[[0, 0, 0, 5]], sSuccess]).1.kind = 1 ∧ (opened [[[0, 0, 0, 5]], sSuccess]).2.trace.length = 1 := by decide +kernel

end Verif

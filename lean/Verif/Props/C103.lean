/-
C103  The pool without routing loses no open network connection.

Whether the probing read of ValidateOpen can return EOF depends on the connection (C77): Go's net package lets a read whose deadline has passed fail before it looks at the connection, so
over plain TCP `hW` below holds and nothing is lost (but a dead connection is not noticed either); a TLS connection that has already read the server's close_notify returns EOF.
-/
import Verif.Props.C71
import Verif.Props.C100
namespace Verif
open Spec

section
variable {σ : Type}

/-- Connection `r` of the pool is held by none of its objects: the pool cannot use it any more, nor close it. -/
def Spec.Dropped (s : DPool σ) (r : Nat) : Prop := ∀ o, ¬ Holds s o r

/-- The network connection of connection `r` is open on this side. -/
def Spec.SocketOpen (s : DPool σ) (r : Nat) : Prop := ∃ c, s.conns[r]? = some c ∧ c.sock = true

end

/-- Full statement: after any history, a connection that the pool has dropped is closed, and one whose object is destroyed without an error is closed afterwards. -/
def C103_statement : Prop := ∀ (σ : Type) (env : Env) (W : World σ) (semi : Bool) (fuel : Nat) (net : Net σ) (connStr : Bytes) (ms : List DMove) (r : Nat),
  (Dropped (dRun env W semi fuel net ms (newDriverPool connStr)) r → ¬ SocketOpen (dRun env W semi fuel net ms (newDriverPool connStr)) r) ∧
  ((destroyObject env W fuel (.conn r) (dRun env W semi fuel net ms (newDriverPool connStr))).1 = .ok () →
    ¬ SocketOpen (destroyObject env W fuel (.conn r) (dRun env W semi fuel net ms (newDriverPool connStr))).2 r)

namespace C103
section
variable {σ : Type} (env : Env) (W : World σ)

/-- A closed connection has no open socket. -/
def Sound (c : Conn σ) : Prop := c.closed = true → c.sock = false

theorem sound_rel : Prim env W (fun (c c' : Conn σ) => (Sound c → Sound c') ∧ (c.closed = true → c'.closed = true) ∧ (c.sock = false → c'.sock = false)) where
  refl c := ⟨id, id, id⟩
  trans h1 h2 := ⟨fun h => h2.1 (h1.1 h), fun h => h2.2.1 (h1.2.1 h), fun h => h2.2.2 (h1.2.2 h)⟩
  send v c := by
    unfold sendMessage writeAll
    dsimp only
    split
    · split <;> exact ⟨id, id, id⟩
    · split
      · exact ⟨id, id, id⟩
      · split
        · split <;> exact ⟨id, id, id⟩
        · exact ⟨id, id, id⟩
  recv c := by
    unfold receive
    split
    · exact ⟨id, id, id⟩
    · split
      · exact ⟨id, id, id⟩
      · split <;> exact ⟨id, id, id⟩
  endTx h c := ⟨id, id, id⟩
  sock c := by
    unfold closeSock
    dsimp only
    split <;> exact ⟨fun _ _ => rfl, fun _ => rfl, fun _ => rfl⟩
  addTx c := ⟨id, id, id⟩
  probe c := by
    unfold validateOpen
    split
    · exact ⟨id, id, id⟩
    · split
      · exact ⟨id, id, id⟩
      · exact ⟨id, id, id⟩
      · split <;> exact ⟨id, id, id⟩
  chunk n c := ⟨id, id, id⟩

theorem create_sound {fuel : Nat} {user password : Bytes} {w : σ} {c : Conn σ} (h : createBoltConn env W fuel user password w = (.ok (), c)) : Sound c := by
  have hd : (W.dial w).2 = true := by
    cases hx : (W.dial w).2 with
    | true => rfl
    | false => obtain ⟨⟨e, he⟩, _⟩ := C28_dial_fails env W fuel user password w hx; rw [h] at he; cases he
  rcases handshake_cases env W fuel user password w hd with ⟨n, p, segs', h1, h2, h3, h4⟩ | ⟨_, ⟨e, he⟩, _⟩
  · have := ((sound_rel env W).sendInit env W fuel (p.initMessage clientID (buildAuthTokenBasic user password)) (afterHandshake W w segs' p)).1 (fun h => by cases h)
    rw [← h4, h] at this
    exact this
  · rw [h] at he; cases he

variable (semi : Bool) (fuel : Nat) (net : Net σ)

theorem onConn_other {α : Type} {r r' : Nat} (h : r ≠ r') (m : CM σ α) (s : DPool σ) : (onConn r m s).2.conns[r']? = s.conns[r']? := by
  unfold onConn
  split
  · rfl
  · exact List.getElem?_set_ne h

theorem onConn_at {α : Type} {r : Nat} {c : Conn σ} (m : CM σ α) {s : DPool σ} (h : s.conns[r]? = some c) : (onConn r m s).2.conns[r]? = some (m c).2 := by
  unfold onConn
  rw [h]
  exact List.getElem?_set_self (List.getElem?_eq_some_iff.mp h).1

theorem onConn_objs {α : Type} (r : Nat) (m : CM σ α) (s : DPool σ) : (onConn r m s).2.objs = s.objs := by
  unfold onConn
  split <;> rfl

/-- Making a connection leaves the others alone. -/
theorem dCreate_other {r : Nat} {s : DPool σ} (h : r < s.conns.length) : (dCreate env W semi fuel net s).2.conns[r]? = s.conns[r]? := by
  unfold dCreate
  split
  · rfl
  · exact List.getElem?_append_left h
  · rfl
  · rfl
  · rfl

/-- The factory does not touch a connection that no object holds. -/
theorem call_other {r : Nat} {s : DPool σ} (hr : r < s.conns.length) (hn : Dropped s r) (c : FCall) : (c.run env W semi fuel net s).conns[r]? = s.conns[r]? := by
  have hne : ∀ {o x}, s.obj o = .conn x → x ≠ r := by
    intro o x hx e
    subst e
    refine hn o ?_
    unfold DPool.obj at hx
    unfold Holds
    rw [List.getD_eq_getElem?_getD] at hx
    cases ho : s.objs[o]? with
    | none => rw [ho] at hx; cases hx
    | some y => rw [ho] at hx; exact congrArg some hx
  cases c with
  | make =>
    show (makeObject env W semi fuel net s).2.conns[r]? = _
    have h := dCreate_other env W semi fuel net hr
    unfold makeObject
    split <;> rename_i hc <;> rw [hc] at h <;> exact h
  | destroy o =>
    show (destroyObject env W fuel (s.obj o) s).2.conns[r]? = _
    cases hx : s.obj o with
    | conn x =>
      have h := onConn_other (hne hx) (validateOpen W) s
      unfold destroyObject
      dsimp only
      split <;> rename_i hc <;> rw [hc] at h
      · rw [onConn_other (hne hx)]; exact h
      · exact h
      · exact h
      · exact h
      · exact h
    | _ => rfl
  | validate o =>
    show (validateObject W (s.obj o) s).2.conns[r]? = _
    cases hx : s.obj o with
    | conn x => exact onConn_other (hne hx) (validateOpen W) s
    | _ => rfl
  | activate o =>
    show (activateObject env W semi fuel net o (s.obj o) s).2.conns[r]? = _
    cases hx : s.obj o with
    | conn x =>
      have h := onConn_other (hne hx) (validateOpen W) s
      have hl := (C100.fresh_onConn x (validateOpen W) s).len
      unfold activateObject
      dsimp only
      split <;> rename_i hc <;> rw [hc] at h hl
      · exact h
      · have h2 := dCreate_other env W semi fuel net (Nat.lt_of_lt_of_le hr hl)
        split <;> rename_i hd <;> rw [hd] at h2 <;> exact h2.trans h
      · exact h
      · exact h
      · exact h
    | _ => rfl
  | passivate o =>
    show (passivateObject env W fuel (s.obj o) s).2.conns[r]? = _
    cases hx : s.obj o with
    | conn x => exact onConn_other (hne hx) (makeIdle env W fuel) s
    | _ => rfl

theorem library_other {r : Nat} (calls : List FCall) : {s : DPool σ} → r < s.conns.length → Dropped s r →
    (library env W semi fuel net calls s).conns[r]? = s.conns[r]? ∧ Dropped (library env W semi fuel net calls s) r := by
  induction calls with
  | nil => exact fun _ hn => ⟨rfl, hn⟩
  | cons c cs ih =>
    intro s hr hn
    have hf := C100.fresh_call env W semi fuel net c s
    have hn' : Dropped (c.run env W semi fuel net s) r := fun o ho => by
      rcases hf.old o r ho with h | h
      · exact hn o h
      · omega
    have := ih (Nat.lt_of_lt_of_le hr hf.len) hn'
    exact ⟨this.1.trans (call_other env W semi fuel net hr hn c), this.2⟩

theorem validate_sock (c : Conn σ) : (validateOpen W c).2.sock = c.sock := by
  unfold validateOpen
  split
  · rfl
  · split
    · rfl
    · rfl
    · split <;> rfl

/-- Whoever has dropped an open connection does not close it later. -/
theorem stays_open {r : Nat} (m : DMove) (hm : ∀ op, m ≠ .user r op) {s : DPool σ} (hn : Dropped s r) (ho : SocketOpen s r) : SocketOpen (m.run env W semi fuel net s) r := by
  obtain ⟨c, hc, hs⟩ := ho
  have hr : r < s.conns.length := (List.getElem?_eq_some_iff.mp hc).1
  cases m with
  | «open» calls answer =>
    show SocketOpen (dOpen W _ s).2 r
    unfold dOpen
    split
    · exact ⟨c, hc, hs⟩
    · have hl := (library_other env W semi fuel net calls hr hn).1.trans hc
      unfold borrowed
      cases answer with
      | error e => exact ⟨c, hl, hs⟩
      | ok x =>
        cases x with
        | conn r' =>
          have h2 : ∃ c', (onConn r' (validateOpen W) (library env W semi fuel net calls s)).2.conns[r]? = some c' ∧ c'.sock = true := by
            by_cases e : r' = r
            · subst e; exact ⟨_, onConn_at _ hl, by rw [validate_sock]; exact hs⟩
            · exact ⟨c, by rw [onConn_other e]; exact hl, hs⟩
          dsimp only
          split <;> rename_i hy <;> rw [hy] at h2 <;> exact h2
        | _ => exact ⟨c, hl, hs⟩
  | reclaim x calls answer =>
    cases x with
    | none => exact ⟨c, hc, hs⟩
    | some x =>
      exact ⟨c, (library_other env W semi fuel net calls (s := { s with log := s.log ++ [.reclaimed x] }) hr hn).1.trans hc, hs⟩
  | close calls =>
    show SocketOpen (dClose _ s).2 r
    unfold dClose
    split
    · exact ⟨c, hc, hs⟩
    · exact ⟨c, (library_other env W semi fuel net calls hr hn).1.trans hc, hs⟩
  | evict calls => exact ⟨c, (library_other env W semi fuel net calls hr hn).1.trans hc, hs⟩
  | user x op =>
    have hx : x ≠ r := fun e => hm op (by rw [e])
    exact ⟨c, (onConn_other hx _ s).trans hc, hs⟩

/-- What is true after every history if servers do not close their side. -/
structure Kept (s : DPool σ) : Prop where
  sound : ∀ (r : Nat) (c : Conn σ), s.conns[r]? = some c → Sound c
  held : ∀ (r : Nat) (c : Conn σ), s.conns[r]? = some c → (∃ o, Holds s o r) ∨ c.closed = true

theorem keeps_onConn {α : Type} {m : CM σ α}
    (hm : Steps (fun (c c' : Conn σ) => (Sound c → Sound c') ∧ (c.closed = true → c'.closed = true) ∧ (c.sock = false → c'.sock = false)) m) (r : Nat) {s : DPool σ}
    (h : Kept s) : Kept (onConn r m s).2 := by
  have key : ∀ (r' : Nat) (c' : Conn σ), (onConn r m s).2.conns[r']? = some c' → ∃ c, s.conns[r']? = some c ∧ (Sound c → Sound c') ∧ (c.closed = true → c'.closed = true) := by
    intro r' c' hc'
    by_cases e : r = r'
    · subst e
      cases hc : s.conns[r]? with
      | none =>
        have : (onConn r m s).2.conns[r]? = none := by unfold onConn; rw [hc]; exact hc
        rw [this] at hc'; cases hc'
      | some c =>
        rw [onConn_at m hc] at hc'
        cases hc'
        exact ⟨c, rfl, (hm c).1, (hm c).2.1⟩
    · rw [onConn_other e] at hc'
      exact ⟨c', hc', id, id⟩
  refine ⟨fun r' c' hc' => ?_, fun r' c' hc' => ?_⟩
  · obtain ⟨c, hc, h1, _⟩ := key r' c' hc'
    exact h1 (h.sound r' c hc)
  · obtain ⟨c, hc, _, h2⟩ := key r' c' hc'
    rcases h.held r' c hc with ⟨o, ho⟩ | hcl
    · refine .inl ⟨o, ?_⟩
      unfold Holds at ho ⊢
      rw [onConn_objs]
      exact ho
    · exact .inr (h2 hcl)

/-- The outcome of making a connection. -/
theorem dCreate_keeps (s : DPool σ) (h : Kept s) :
    (dCreate env W semi fuel net s).2.objs = s.objs ∧
    ((∃ c, (dCreate env W semi fuel net s).1 = .ok s.conns.length ∧ (dCreate env W semi fuel net s).2.conns = s.conns ++ [c] ∧ Sound c) ∨
      ((∀ r, (dCreate env W semi fuel net s).1 ≠ .ok r) ∧ (dCreate env W semi fuel net s).2.conns = s.conns)) := by
  unfold dCreate
  split
  · exact ⟨rfl, .inr ⟨by simp, rfl⟩⟩
  · rename_i c hd
    obtain ⟨cfg, e, _, _, h⟩ := createFrom_eq env W hd
    exact ⟨rfl, .inl ⟨c, rfl, rfl, create_sound env W h.symm⟩⟩
  · exact ⟨rfl, .inr ⟨by simp, rfl⟩⟩
  · exact ⟨rfl, .inr ⟨by simp, rfl⟩⟩
  · exact ⟨rfl, .inr ⟨by simp, rfl⟩⟩

/-- The new connection is put into object `o`, which held a closed connection or nothing. -/
theorem Kept.put {s s' : DPool σ} (h : Kept s) {c : Conn σ} (hc : s'.conns = s.conns ++ [c]) (hs : Sound c) {o : Nat} (ho : Holds s' o s.conns.length)
    (h1 : ∀ o' r, o' ≠ o → Holds s o' r → Holds s' o' r) (h2 : ∀ r c, Holds s o r → s.conns[r]? = some c → c.closed = true) : Kept s' := by
  have key : ∀ (r : Nat) (x : Conn σ), s'.conns[r]? = some x → s.conns[r]? = some x ∨ (r = s.conns.length ∧ x = c) := by
    intro r x hx
    rw [hc] at hx
    by_cases hr : r < s.conns.length
    · rw [List.getElem?_append_left hr] at hx; exact .inl hx
    · rw [List.getElem?_append_right (by omega)] at hx
      cases hy : r - s.conns.length with
      | zero => rw [hy] at hx; cases hx; exact .inr ⟨by omega, rfl⟩
      | succ n => rw [hy] at hx; cases hx
  refine ⟨fun r x hx => ?_, fun r x hx => ?_⟩
  · rcases key r x hx with hx | ⟨_, rfl⟩
    · exact h.sound r x hx
    · exact hs
  · rcases key r x hx with hx | ⟨rfl, _⟩
    · rcases h.held r x hx with ⟨o', ho'⟩ | hcl
      · by_cases e : o' = o
        · subst e; exact .inr (h2 r x ho' hx)
        · exact .inl ⟨o', h1 o' r e ho'⟩
      · exact .inr hcl
    · exact .inl ⟨o, ho⟩

theorem keeps_same {s s' : DPool σ} (h : Kept s) (h1 : s'.conns = s.conns) (h2 : s'.objs = s.objs) : Kept s' := by
  refine ⟨fun r c hc => h.sound r c (h1 ▸ hc), fun r c hc => ?_⟩
  rcases h.held r c (h1 ▸ hc) with ⟨o, ho⟩ | hcl
  · refine .inl ⟨o, ?_⟩
    unfold Holds at ho ⊢
    rw [h2]; exact ho
  · exact .inr hcl

theorem keeps_call (hW : ∀ w, W.probe w ≠ .eof) (c : FCall) (s : DPool σ) (h : Kept s) : Kept (c.run env W semi fuel net s) := by
  have P := sound_rel env W
  cases c with
  | make =>
    show Kept (makeObject env W semi fuel net s).2
    obtain ⟨ho, hc⟩ := dCreate_keeps env W semi fuel net s h
    unfold makeObject
    split <;> rename_i r s' hd <;> rw [hd] at ho hc <;> dsimp only at ho hc
    · rcases hc with ⟨c, hr, hcs, hs⟩ | ⟨hn, _⟩
      · cases hr
        refine h.put (o := s.objs.length) hcs hs ?_ ?_ ?_
        · unfold Holds; dsimp only; rw [ho]; simp
        · intro o' r _ h'
          unfold Holds at h' ⊢
          dsimp only
          rw [ho, List.getElem?_append_left (List.getElem?_eq_some_iff.mp h').1]
          exact h'
        · intro r c h' _
          unfold Holds at h'
          rw [List.getElem?_eq_none (Nat.le_refl _)] at h'
          cases h'
      · exact absurd rfl (hn r)
    all_goals
      rcases hc with ⟨c, hr, _⟩ | ⟨_, hcs⟩
      · cases hr
      · exact keeps_same h hcs ho
  | destroy o =>
    show Kept (destroyObject env W fuel (s.obj o) s).2
    cases s.obj o with
    | conn r =>
      have h1 := keeps_onConn P.probe r h
      unfold destroyObject
      dsimp only
      split <;> rename_i hc <;> rw [hc] at h1
      · exact keeps_onConn (P.close env W fuel) r h1
      · exact h1
      · exact h1
      · exact h1
      · exact h1
    | _ => exact h
  | validate o =>
    show Kept (validateObject W (s.obj o) s).2
    cases s.obj o with
    | conn r => exact keeps_onConn P.probe r h
    | _ => exact h
  | activate o =>
    show Kept (activateObject env W semi fuel net o (s.obj o) s).2
    cases hx : s.obj o with
    | conn r =>
      have h1 := keeps_onConn P.probe r h
      unfold activateObject
      dsimp only
      split <;> rename_i hc <;> rw [hc] at h1
      · exact h1
      · rename_i s'
        have hdead : ∀ c, s'.conns[r]? = some c → c.closed = true := by
          intro c' hc'
          cases hs : s.conns[r]? with
          | none => simp only [onConn, hs] at hc; cases hc
          | some c =>
            obtain ⟨b, s2, g1, g2⟩ := onConn_validate W hs
            rw [g1] at hc
            cases hc
            have hcl : c.closed = true := by
              cases hcl : c.closed with
              | true => rfl
              | false => exact absurd (g2.mpr ⟨hcl, hW _⟩) (by simp)
            have hat := onConn_at (validateOpen W) hs
            rw [g1, hc'] at hat
            cases hat
            exact (P.probe c).2.1 hcl
        have hobjs : s'.objs = s.objs := by have := onConn_objs r (validateOpen W) s; rw [hc] at this; exact this
        obtain ⟨ho, hcr⟩ := dCreate_keeps env W semi fuel net s' h1
        have hat : s'.objs[o]? = some (.conn r) := by
          rw [hobjs]
          unfold DPool.obj at hx
          rw [List.getD_eq_getElem?_getD] at hx
          cases hy : s.objs[o]? with
          | none => rw [hy] at hx; cases hx
          | some y => rw [hy] at hx; exact congrArg some hx
        split <;> rename_i r' s'' hd <;> rw [hd] at ho hcr <;> dsimp only at ho hcr
        · rcases hcr with ⟨c, hr, hcs, hs⟩ | ⟨hn, _⟩
          · cases hr
            refine h1.put (o := o) hcs hs ?_ ?_ ?_
            · unfold Holds; dsimp only; rw [ho]
              exact List.getElem?_set_self (List.getElem?_eq_some_iff.mp hat).1
            · intro o' x hne h'
              unfold Holds at h' ⊢
              dsimp only
              rw [ho, List.getElem?_set_ne (Ne.symm hne)]
              exact h'
            · intro x c h' hxc
              unfold Holds at h'
              rw [hat] at h'
              cases h'
              exact hdead c hxc
          · exact absurd rfl (hn r')
        all_goals
          rcases hcr with ⟨c, hr, _⟩ | ⟨_, hcs⟩
          · cases hr
          · exact keeps_same h1 hcs ho
      · exact h1
      · exact h1
      · exact h1
    | _ => exact h
  | passivate o =>
    show Kept (passivateObject env W fuel (s.obj o) s).2
    cases s.obj o with
    | conn r => exact keeps_same (keeps_onConn (P.makeIdle env W fuel) r h) rfl rfl
    | _ => exact h

end
end C103

section
variable {σ : Type} (env : Env) (W : World σ) (semi : Bool) (fuel : Nat) (net : Net σ)

/-- What every history keeps if no server closes its side. -/
theorem C103.kept (hW : ∀ w, W.probe w ≠ .eof) (connStr : Bytes) (ms : List DMove) : C103.Kept (dRun env W semi fuel net ms (newDriverPool connStr)) :=
  have P := C103.sound_rel env W
  C100.keeps_run env W semi fuel net (P := C103.Kept) (C103.keeps_call env W semi fuel net hW) (fun r s h => C103.keeps_onConn P.probe r h)
    (fun r op s h => C103.keeps_onConn (P.step env W fuel op) r h) (fun s l b h => C103.keeps_same h rfl rfl) ms _ ⟨fun r c h => (by cases h), fun r c h => (by cases h)⟩

/-- A connection that is dropped while its socket is open is lost: unless a user who still has it closes it, it stays open whatever happens. -/
theorem C103_lost {s : DPool σ} {r : Nat} (hd : Dropped s r) (ho : SocketOpen s r) (ms : List DMove) (hms : ∀ op, .user r op ∉ ms) :
    Dropped (dRun env W semi fuel net ms s) r ∧ SocketOpen (dRun env W semi fuel net ms s) r := by
  obtain ⟨c, hc, hs⟩ := ho
  have hr : r < s.conns.length := (List.getElem?_eq_some_iff.mp hc).1
  refine ⟨fun o => C100_gone env W semi fuel net hr hd ms o, ?_⟩
  have : ∀ (ms : List DMove) (s : DPool σ), (∀ op, .user r op ∉ ms) → Dropped s r → SocketOpen s r → SocketOpen (dRun env W semi fuel net ms s) r := by
    intro ms
    induction ms with
    | nil => exact fun s _ _ h => h
    | cons m ms ih =>
      intro s hm hd ho
      have hr : r < s.conns.length := by obtain ⟨c, hc, _⟩ := ho; exact (List.getElem?_eq_some_iff.mp hc).1
      refine ih _ (fun op h => hm op (List.mem_cons_of_mem _ h)) (fun o => C100_gone env W semi fuel net hr hd [m] o) ?_
      exact C103.stays_open env W semi fuel net m (fun op e => hm op (by rw [e]; exact List.mem_cons_self)) hd ho
  exact this ms s hms hd ⟨c, hc, hs⟩

/-- ActivateObject drops every connection whose server has closed its side, without closing it, whenever a new one can be made. -/
theorem C103_activate {s s' : DPool σ} {o r : Nat} {c : Conn σ} (hb : ∀ o r, Holds s o r → r < s.conns.length) (hown : ∀ o o' r, Holds s o r → Holds s o' r → o = o')
    (hh : Holds s o r) (hc : s.conns[r]? = some c) (hcl : c.closed = false) (hs : c.sock = true) (hp : W.probe c.world = .eof)
    (h : activateObject env W semi fuel net o (s.obj o) s = (.ok (), s')) : Dropped s' r ∧ SocketOpen s' r := by
  have hobj : s.obj o = .conn r := by unfold DPool.obj; rw [List.getD_eq_getElem?_getD, hh]; rfl
  have hlt : r < s.conns.length := (List.getElem?_eq_some_iff.mp hc).1
  have hv : validateOpen W c = (.ok false, c) := by
    unfold validateOpen
    rw [if_neg (by simp [hcl]), hp]
  have hon : onConn r (validateOpen W) s = (.ok false, { s with conns := s.conns.set r c }) := by
    unfold onConn
    rw [hc]
    dsimp only
    rw [hv]
  have hset : s.conns.set r c = s.conns := by
    apply List.ext_getElem?
    intro i
    by_cases e : r = i
    · subst e; rw [List.getElem?_set_self hlt, hc]
    · rw [List.getElem?_set_ne e]
  rw [hset] at hon
  rw [hobj] at h
  unfold activateObject at h
  dsimp only at h
  rw [hon] at h
  dsimp only at h
  obtain ⟨ho, hcr⟩ := C100.dCreate_shape env W semi fuel net s
  have hother := C103.dCreate_other env W semi fuel net hlt
  split at h
  · rename_i r' s'' hd
    rw [hd] at ho hcr hother
    dsimp only at ho hcr hother
    cases h
    rcases hcr with ⟨x, hr, hx, _⟩ | ⟨hn, _⟩
    · cases hr
      refine ⟨fun o' h' => ?_, c, hother.trans hc, hs⟩
      unfold Holds at h'
      dsimp only at h'
      rw [ho] at h'
      by_cases e : o = o'
      · subst e
        rw [List.getElem?_set_self (List.getElem?_eq_some_iff.mp hh).1] at h'
        cases h'
        omega
      · rw [List.getElem?_set_ne e] at h'
        exact e (hown o o' r hh h')
    · exact absurd rfl (hn r')
  · cases h
  · cases h
  · cases h

/-- DestroyObject: if it returns nil and the server has not closed its side, the connection's socket is closed.  If the server has, it returns nil and closes nothing. -/
theorem C103_destroy {s : DPool σ} {r : Nat} {c : Conn σ} (hc : s.conns[r]? = some c) (hk : c.closed = true → c.sock = false) :
    (W.probe c.world ≠ .eof → (destroyObject env W fuel (.conn r) s).1 = .ok () → ¬ SocketOpen (destroyObject env W fuel (.conn r) s).2 r) ∧
    (W.probe c.world = .eof → c.sock = true → (destroyObject env W fuel (.conn r) s).1 = .ok () ∧ SocketOpen (destroyObject env W fuel (.conn r) s).2 r) := by
  obtain ⟨d1, d2⟩ := C71_destroy env W fuel hc
  constructor
  · intro hp hok
    cases hcl : c.closed with
    | true =>
      have := (d2 fun h => by have := h.1; rw [hcl] at this; cases this).2
      rintro ⟨c', hc', hs⟩
      rw [this] at hc'
      cases hc'
      rw [hk hcl] at hs
      cases hs
    | false =>
      obtain ⟨c1, hc1, g1, g2⟩ := d1 ⟨hcl, hp⟩
      rw [hok] at g1
      rintro ⟨c', hc', hs⟩
      rw [g2] at hc'
      cases hc'
      have := (close_ok env W (c := c1) (c' := (close env W fuel c1).2) (fuel := fuel) (Prod.ext g1.symm rfl)).2.1
      rw [this] at hs
      cases hs
  · intro hp hs
    obtain ⟨g1, g2⟩ := d2 fun h => h.2 hp
    exact ⟨g1, c, g2, hs⟩

/-- True if no server ever closes its side of a connection: then whatever the users and the library do, a connection that no object holds is closed, and so is one whose object
has been destroyed.  Missing from the full statement: connections closed by the server. -/
theorem C103_partial (hW : ∀ w, W.probe w ≠ .eof) (connStr : Bytes) (ms : List DMove) (r : Nat) :
    (Dropped (dRun env W semi fuel net ms (newDriverPool connStr)) r → ¬ SocketOpen (dRun env W semi fuel net ms (newDriverPool connStr)) r) ∧
    ((destroyObject env W fuel (.conn r) (dRun env W semi fuel net ms (newDriverPool connStr))).1 = .ok () →
      ¬ SocketOpen (destroyObject env W fuel (.conn r) (dRun env W semi fuel net ms (newDriverPool connStr))).2 r) := by
  have hk := C103.kept env W semi fuel net hW connStr ms
  constructor
  · rintro hd ⟨c, hc, hs⟩
    rcases hk.held r c hc with ⟨o, ho⟩ | hcl
    · exact hd o ho
    · rw [hk.sound r c hc hcl] at hs
      cases hs
  · intro hok ho
    cases hc : (dRun env W semi fuel net ms (newDriverPool connStr)).conns[r]? with
    | some c => exact (C103_destroy env W fuel hc (hk.sound r c hc)).1 (hW _) hok ho
    | none =>
      have : (destroyObject env W fuel (.conn r) (dRun env W semi fuel net ms (newDriverPool connStr))).1 ≠ .ok () := by
        unfold destroyObject onConn
        dsimp only
        rw [hc]
        simp
      exact this hok

end

/-- A server that answers as its script says, and then closes its side. -/
def C103.leaving : World (List (List Bytes)) := { scripted with probe := fun w => if w = [] then .eof else .other }

/-- A connection is taken and given back; the server closes it; the next Open replaces it. -/
def C103.left : DPool (List (List Bytes)) :=
  dRun env0 C103.leaving false 3 (noFiles fun _ _ => sOpen4 ++ [sSuccess])
    [.open [.make] (.ok (.conn 0)), .user 0 (.begin_ []), .reclaim (some 0) [] none, .open [.activate 0] (.ok (.conn 1))] (newDriverPool (ascii "bolt://u:p@host:7687"))

theorem C103.left_shape : C103.left.objs = [.conn 1] ∧ C103.left.conns.map (fun c => (c.closed, c.sock)) = [(false, true), (false, true)] := by
  decide +kernel

theorem C103.left_dropped : Dropped C103.left 0 := by
  intro o h
  unfold Holds at h
  rw [C103.left_shape.1] at h
  cases o with
  | zero => cases h
  | succ n => cases h

theorem C103.left_open : SocketOpen C103.left 0 := by
  have h := congrArg (·[0]?) C103.left_shape.2
  rw [List.getElem?_map] at h
  cases hc : C103.left.conns[0]? with
  | none => rw [hc] at h; cases h
  | some c => rw [hc] at h; exact ⟨c, hc, congrArg Prod.snd (Option.some.inj h)⟩

/-- The full statement is false: the connection is idle in the pool when the server closes it; the next Open replaces it, and nobody closes its socket. -/
theorem C103_refuted : ¬ C103_statement :=
  fun h => (h _ _ _ _ _ _ _ _ 0).1 C103.left_dropped C103.left_open

/-- The hypotheses of `C103_lost` are met, here with Close and the library's destruction of what it holds. -/
example : SocketOpen (dRun env0 C103.leaving false 3 (noFiles fun _ _ => sOpen4) [.reclaim (some 1) [] none, .close [.destroy 0], .user 1 .close] C103.left) 0 :=
  (C103_lost _ _ _ _ _ C103.left_dropped C103.left_open _ (by intro op h; simp at h)).2

/-- The hypotheses of `C103_partial` are met: a user closes the connection, the pool replaces it, its socket is closed. -/
example : (∀ w, scripted.probe w ≠ .eof) ∧
    (let s := dRun env0 scripted false 3 (noFiles fun _ _ => sOpen4) [.open [.make] (.ok (.conn 0)), .user 0 .close, .reclaim (some 0) [] none, .open [.activate 0] (.ok (.conn 1))]
      (newDriverPool (ascii "bolt://u:p@host:7687"))
    s.objs = [.conn 1] ∧ s.conns.map (·.sock) = [false, true]) :=
  ⟨fun _ h => (by cases h), by decide +kernel⟩

/-- Both cases of `C103_destroy`. -/
example :
    let s := dRun env0 C103.leaving false 3 (noFiles fun n _ => if n = 0 then sOpen4 else sOpen4 ++ [sSuccess, sSuccess]) [.open [.make] (.ok (.conn 0)), .open [.make] (.ok (.conn 1))]
      (newDriverPool (ascii "bolt://u:p@host:7687"))
    (destroyObject env0 C103.leaving 3 (.conn 0) s).2.conns.map (·.sock) = [true, true] ∧ (destroyObject env0 C103.leaving 3 (.conn 1) s).2.conns.map (·.sock) = [true, false] := by
  decide +kernel

end Verif

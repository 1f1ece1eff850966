/-
C100  Every object of the pool without routing has a connection of its own.
-/
import Verif.Proofs.DriverPool
import Verif.Props.C89
namespace Verif

namespace Spec
variable {σ : Type} (env : Env) (W : World σ) (semi : Bool) (fuel : Nat) (net : Net σ)

/-- Object `o` of the pool holds connection `r`. -/
def Holds (s : DPool σ) (o r : Nat) : Prop := s.objs[o]? = some (.conn r)

/-- Attempt number `d` to connect gave what is now connection `c`: what happened on it since comes after what happened while it was made. -/
def MadeBy (connStr : Bytes) (d : Nat) (c : Conn σ) : Prop := ∃ c0, createFrom env W semi fuel net connStr d = .ok (.ok (), c0) ∧ c0.trace <+: c.trace

/-- Connections are made by different attempts, `attempt r` is that for connection `r`. -/
structure OwnAttempts (s : DPool σ) (attempt : Nat → Nat) : Prop where
  made : ∀ r c, s.conns[r]? = some c → MadeBy env W semi fuel net s.connStr (attempt r) c
  before : ∀ r, r < s.conns.length → attempt r < s.dials
  differ : ∀ r r', r < r' → r' < s.conns.length → attempt r < attempt r'

end Spec

namespace C100
variable {σ : Type} (env : Env) (W : World σ) (semi : Bool) (fuel : Nat) (net : Net σ)
open Spec

theorem attempts_onConn {α : Type} {m : CM σ α} (hm : Steps (fun c c' => c.trace <+: c'.trace) m) (r : Nat) (s : DPool σ) (h : ∃ a, OwnAttempts env W semi fuel net s a) :
    ∃ a, OwnAttempts env W semi fuel net (onConn r m s).2 a := by
  obtain ⟨a, h⟩ := h
  unfold onConn
  split
  · exact ⟨a, h⟩
  · rename_i c hc
    refine ⟨a, ⟨fun r' c' hc' => ?_, fun r' hr' => h.before r' (by simpa using hr'), fun r1 r2 h1 h2 => h.differ r1 r2 h1 (by simpa using h2)⟩⟩
    dsimp only at hc' ⊢
    by_cases hr : r = r'
    · subst hr
      rw [List.getElem?_set_self (List.getElem?_eq_some_iff.mp hc).1] at hc'
      cases hc'
      obtain ⟨c0, h1, h2⟩ := h.made r c hc
      exact ⟨c0, h1, h2.trans (hm c)⟩
    · rw [List.getElem?_set_ne hr] at hc'
      exact h.made r' c' hc'

theorem attempts_rel : DRel env W semi fuel net (fun (s s' : DPool σ) => (∃ a, OwnAttempts env W semi fuel net s a) → ∃ a, OwnAttempts env W semi fuel net s' a) where
  refl _ h := h
  trans h1 h2 h := h2 (h1 h)
  dial s h := by
    obtain ⟨a, h⟩ := h
    have more : OwnAttempts env W semi fuel net { s with dials := s.dials + 1 } a := ⟨h.made, fun r hr => Nat.lt_succ_of_lt (h.before r hr), h.differ⟩
    unfold dCreate
    split
    · exact ⟨a, more⟩
    · rename_i c hd
      refine ⟨fun r => if r < s.conns.length then a r else s.dials, ⟨fun r c' hc' => ?_, fun r _ => ?_, fun r r' hr hr' => ?_⟩⟩
      · dsimp only at hc' ⊢
        by_cases hr : r < s.conns.length
        · rw [List.getElem?_append_left hr] at hc'
          rw [if_pos hr]
          exact h.made r c' hc'
        · rw [if_neg hr]
          rw [List.getElem?_append_right (by omega)] at hc'
          cases hx : r - s.conns.length with
          | zero => rw [hx] at hc'; cases hc'; exact ⟨c, hd, List.prefix_refl _⟩
          | succ n => rw [hx] at hc'; cases hc'
      · dsimp only
        split
        · rename_i hr; have := h.before r hr; omega
        · omega
      · dsimp only at hr' ⊢
        rw [List.length_append, List.length_singleton] at hr'
        rw [if_pos (by omega)]
        split
        · rename_i hlt; exact h.differ r r' hr hlt
        · exact h.before r (by omega)
    · exact ⟨a, more⟩
    · exact ⟨a, more⟩
    · exact ⟨a, more⟩
  probe r s := attempts_onConn env W semi fuel net ((grows env W).probe) r s
  shut r s := attempts_onConn env W semi fuel net ((grows env W).close env W fuel) r s
  idle r s h := by
    obtain ⟨a, h1⟩ := attempts_onConn env W semi fuel net ((grows env W).makeIdle env W fuel) r s h
    exact ⟨a, h1.made, h1.before, h1.differ⟩
  objs s l h := by
    obtain ⟨a, h⟩ := h
    exact ⟨a, h.made, h.before, h.differ⟩

/-- What the moves of a history keep, if the factory keeps it, whatever is in the record of events, and whether the pool is closed or not. -/
theorem keeps_run {P : DPool σ → Prop} (hcall : ∀ (c : FCall) s, P s → P (c.run env W semi fuel net s)) (hprobe : ∀ r s, P s → P (onConn r (validateOpen W) s).2)
    (huser : ∀ r op s, P s → P (onConn r (step env W fuel op) s).2) (hlog : ∀ s l b, P s → P { s with log := l, closed := b }) (ms : List DMove) (s : DPool σ) (h : P s) :
    P (dRun env W semi fuel net ms s) := by
  have hlib : ∀ calls s, P s → P (library env W semi fuel net calls s) := by
    intro calls
    unfold library
    induction calls with
    | nil => exact fun s h => h
    | cons c cs ih => exact fun s h => ih _ (hcall c s h)
  unfold dRun
  induction ms generalizing s with
  | nil => exact h
  | cons m ms ih =>
    refine ih _ ?_
    cases m with
    | «open» calls answer =>
      show P (dOpen W _ s).2
      unfold dOpen
      split
      · exact h
      · have hl := hlib calls s h
        unfold borrowed
        cases answer with
        | error e => exact hl
        | ok x =>
          cases x with
          | conn r =>
            have h2 := hprobe r _ hl
            dsimp only
            split <;> rename_i hy <;> rw [hy] at h2
            · exact hlog _ _ _ h2
            · exact h2
            · exact h2
            · exact h2
            · exact h2
          | _ => exact hl
    | reclaim r calls answer =>
      cases r with
      | none => exact h
      | some r => exact hlib calls _ (hlog s _ s.closed h)
    | close calls =>
      show P (dClose _ s).2
      unfold dClose
      split
      · exact h
      · exact hlog _ (library env W semi fuel net calls s).log true (hlib calls s h)
    | evict calls => exact hlib calls s h
    | user r op => exact huser r op s h

/-- How the objects and the number of connections may change: objects keep their connections or get new ones, different objects different ones; connections do not disappear. -/
structure Fresh (s s' : DPool σ) : Prop where
  len : s.conns.length ≤ s'.conns.length
  old : ∀ o r, Holds s' o r → Holds s o r ∨ s.conns.length ≤ r
  below : (∀ o r, Holds s o r → r < s.conns.length) → ∀ o r, Holds s' o r → r < s'.conns.length
  own : (∀ o r, Holds s o r → r < s.conns.length) → (∀ o o' r, Holds s o r → Holds s o' r → o = o') → ∀ o o' r, Holds s' o r → Holds s' o' r → o = o'

theorem Fresh.same {s s' : DPool σ} (h1 : s'.conns.length = s.conns.length) (h2 : s'.objs = s.objs) : Fresh s s' := by
  refine ⟨by omega, fun o r h => ?_, fun hb o r h => ?_, fun _ ho o o' r h h' => ?_⟩
  · unfold Holds at h ⊢; rw [h2] at h; exact .inl h
  · rw [h1]; unfold Holds at h; rw [h2] at h; exact hb o r h
  · unfold Holds at h h'; rw [h2] at h h'; exact ho o o' r h h'

theorem Fresh.trans {a b c : DPool σ} (h1 : Fresh a b) (h2 : Fresh b c) : Fresh a c := by
  refine ⟨Nat.le_trans h1.len h2.len, fun o r h => ?_, fun hb => h2.below (h1.below hb), fun hb ho => h2.own (h1.below hb) (h1.own hb ho)⟩
  rcases h2.old o r h with h | h
  · exact h1.old o r h
  · exact .inr (Nat.le_trans h1.len h)

theorem fresh_onConn {α : Type} (r : Nat) (m : CM σ α) (s : DPool σ) : Fresh s (onConn r m s).2 := by
  unfold onConn
  split
  · exact .same rfl rfl
  · exact .same (by simp) rfl

/-- A new connection. -/
theorem dCreate_shape (s : DPool σ) : (dCreate env W semi fuel net s).2.objs = s.objs ∧
    ((∃ r, (dCreate env W semi fuel net s).1 = .ok r ∧ r = s.conns.length ∧ (dCreate env W semi fuel net s).2.conns.length = s.conns.length + 1) ∨
      ((∀ r, (dCreate env W semi fuel net s).1 ≠ .ok r) ∧ (dCreate env W semi fuel net s).2.conns.length = s.conns.length)) := by
  unfold dCreate
  split
  · exact ⟨rfl, .inr ⟨by simp, rfl⟩⟩
  · exact ⟨rfl, .inl ⟨_, rfl, rfl, by simp⟩⟩
  · exact ⟨rfl, .inr ⟨by simp, rfl⟩⟩
  · exact ⟨rfl, .inr ⟨by simp, rfl⟩⟩
  · exact ⟨rfl, .inr ⟨by simp, rfl⟩⟩

/-- One object got the connection made last. -/
theorem Fresh.put {s s' : DPool σ} (hl : s'.conns.length = s.conns.length + 1) (o : Nat) (h1 : ∀ o' r, o' ≠ o → Holds s' o' r → Holds s o' r)
    (h2 : ∀ r, Holds s' o r → r = s.conns.length) : Fresh s s' := by
  refine ⟨by omega, fun o' r h => ?_, fun hb o' r h => ?_, fun hb ho a b r h h' => ?_⟩
  · by_cases he : o' = o
    · subst he; exact .inr (by rw [h2 r h]; exact Nat.le_refl _)
    · exact .inl (h1 o' r he h)
  · by_cases he : o' = o
    · subst he; rw [h2 r h]; omega
    · have := hb o' r (h1 o' r he h); omega
  · by_cases ha : a = o
    · by_cases hb' : b = o
      · rw [ha, hb']
      · subst ha
        have := hb b r (h1 b r hb' h')
        have := h2 r h
        omega
    · by_cases hb' : b = o
      · subst hb'
        have := hb a r (h1 a r ha h)
        have := h2 r h'
        omega
      · exact ho a b r (h1 a r ha h) (h1 b r hb' h')

theorem fresh_call (c : FCall) (s : DPool σ) : Fresh s (c.run env W semi fuel net s) := by
  cases c with
  | make =>
    show Fresh s (makeObject env W semi fuel net s).2
    obtain ⟨ho, hc⟩ := dCreate_shape env W semi fuel net s
    unfold makeObject
    split <;> rename_i r s' hd <;> rw [hd] at ho hc <;> dsimp only at ho hc
    · rcases hc with ⟨r', hr, hr', hl⟩ | ⟨hn, _⟩
      · cases hr
        refine .put hl s.objs.length (fun o' r' hne h => ?_) fun r' h => ?_
        · unfold Holds at h ⊢
          dsimp only at h
          rw [ho] at h
          by_cases hlt : o' < s.objs.length
          · rwa [List.getElem?_append_left hlt] at h
          · rw [List.getElem?_append_right (by omega)] at h
            cases hx : o' - s.objs.length with
            | zero => omega
            | succ n => rw [hx] at h; cases h
        · unfold Holds at h
          dsimp only at h
          rw [ho, List.getElem?_append_right (Nat.le_refl _), Nat.sub_self] at h
          cases h
          exact hr'
      · exact absurd rfl (hn r)
    all_goals
      rcases hc with ⟨r', hr, _⟩ | ⟨_, hl⟩
      · cases hr
      · exact .same hl ho
  | destroy o =>
    show Fresh s (destroyObject env W fuel (s.obj o) s).2
    cases s.obj o with
    | conn r =>
      have h := fresh_onConn r (validateOpen W) s
      unfold destroyObject
      dsimp only
      split <;> rename_i hc <;> rw [hc] at h
      · exact h.trans (fresh_onConn r (close env W fuel) _)
      · exact h
      · exact h
      · exact h
      · exact h
    | _ => exact .same rfl rfl
  | validate o =>
    show Fresh s (validateObject W (s.obj o) s).2
    cases s.obj o with
    | conn r => exact fresh_onConn r (validateOpen W) s
    | _ => exact .same rfl rfl
  | activate o =>
    show Fresh s (activateObject env W semi fuel net o (s.obj o) s).2
    cases s.obj o with
    | conn r =>
      have h := fresh_onConn r (validateOpen W) s
      unfold activateObject
      dsimp only
      split <;> rename_i hc <;> rw [hc] at h
      · exact h
      · refine h.trans ?_
        rename_i s'
        obtain ⟨ho, hc⟩ := dCreate_shape env W semi fuel net s'
        split <;> rename_i r' s'' hd <;> rw [hd] at ho hc <;> dsimp only at ho hc
        · rcases hc with ⟨x, hr, hr', hl⟩ | ⟨hn, _⟩
          · cases hr
            refine .put hl o (fun o' x hne h => ?_) fun x h => ?_
            · unfold Holds at h ⊢
              dsimp only at h
              rw [ho, List.getElem?_set_ne (Ne.symm hne)] at h
              exact h
            · unfold Holds at h
              dsimp only at h
              rw [ho] at h
              by_cases hlt : o < s'.objs.length
              · rw [List.getElem?_set_self hlt] at h
                cases h
                exact hr'
              · rw [List.getElem?_eq_none (by simp; omega)] at h
                cases h
          · exact absurd rfl (hn r')
        all_goals
          rcases hc with ⟨x, hr, _⟩ | ⟨_, hl⟩
          · cases hr
          · exact .same hl ho
      · exact h
      · exact h
      · exact h
    | _ => exact .same rfl rfl
  | passivate o =>
    show Fresh s (passivateObject env W fuel (s.obj o) s).2
    cases s.obj o with
    | conn r => exact (fresh_onConn r (makeIdle env W fuel) s).trans (.same rfl rfl)
    | _ => exact .same rfl rfl

theorem fresh_run (ms : List DMove) (s : DPool σ) : Fresh s (dRun env W semi fuel net ms s) :=
  keeps_run env W semi fuel net (P := Fresh s) (fun c _ h => h.trans (fresh_call env W semi fuel net c _)) (fun r _ h => h.trans (fresh_onConn r _ _))
    (fun r _ _ h => h.trans (fresh_onConn r _ _)) (fun _ _ _ h => h.trans (.same rfl rfl)) ms s (.same rfl rfl)

end C100

section
variable {σ : Type} (env : Env) (W : World σ) (semi : Bool) (fuel : Nat) (net : Net σ)
open Spec

/-- **C100**: whatever the users and the library do, two objects of the pool never hold the same connection, and every connection of the pool was made by an attempt of its own to connect. -/
theorem C100_own (connStr : Bytes) (ms : List DMove) :
    (∀ o r, Holds (dRun env W semi fuel net ms (newDriverPool connStr)) o r → r < (dRun env W semi fuel net ms (newDriverPool connStr)).conns.length) ∧
    (∀ o o' r, Holds (dRun env W semi fuel net ms (newDriverPool connStr)) o r → Holds (dRun env W semi fuel net ms (newDriverPool connStr)) o' r → o = o') ∧
    ∃ attempt, OwnAttempts env W semi fuel net (dRun env W semi fuel net ms (newDriverPool connStr)) attempt := by
  have hf := C100.fresh_run env W semi fuel net ms (newDriverPool connStr)
  have hno : ∀ o r, ¬ Holds (newDriverPool connStr : DPool σ) o r := by
    intro o r h
    unfold Holds newDriverPool at h
    cases h
  refine ⟨hf.below fun o r h => absurd h (hno o r), hf.own (fun o r h => absurd h (hno o r)) fun o o' r h => absurd h (hno o r), ?_⟩
  have hr := C100.attempts_rel env W semi fuel net
  refine C100.keeps_run env W semi fuel net (P := fun s => ∃ a, OwnAttempts env W semi fuel net s a) (fun c s => hr.call c s) hr.probe
    (fun r op s => C100.attempts_onConn env W semi fuel net ((grows env W).step env W fuel op) r s) (fun s l b h => ?_) ms _ ⟨id, ?_⟩
  · obtain ⟨a, h⟩ := h
    exact ⟨a, h.made, h.before, h.differ⟩
  · exact ⟨fun r c h => (by cases h), fun r h => absurd h (Nat.not_lt_zero _), fun r r' _ h => absurd h (Nat.not_lt_zero _)⟩

/-- A connection that no object holds any more is never put into an object again. -/
theorem C100_gone {s : DPool σ} {r : Nat} (hr : r < s.conns.length) (hn : ∀ o, ¬ Holds s o r) (ms : List DMove) (o : Nat) : ¬ Holds (dRun env W semi fuel net ms s) o r := by
  intro h
  rcases (C100.fresh_run env W semi fuel net ms s).old o r h with h | h
  · exact hn o h
  · omega

/-- MakeObject returns the new object exactly if connecting succeeded, with the connection just made in it. -/
theorem C100_make (s : DPool σ) :
    (∀ c, createFrom env W semi fuel net s.connStr s.dials = .ok (.ok (), c) → ∃ s', makeObject env W semi fuel net s = (.ok s.objs.length, s') ∧
      Holds s' s.objs.length s.conns.length ∧ s'.conns = s.conns ++ [c] ∧ s'.objs.take s.objs.length = s.objs) ∧
    ((∀ c, createFrom env W semi fuel net s.connStr s.dials ≠ .ok (.ok (), c)) → (∀ o, (makeObject env W semi fuel net s).1 ≠ .ok o) ∧
      (makeObject env W semi fuel net s).2.objs = s.objs ∧ (makeObject env W semi fuel net s).2.conns = s.conns) := by
  constructor
  · intro c hc
    unfold makeObject dCreate
    rw [hc]
    exact ⟨_, rfl, by simp [Holds], rfl, by simp⟩
  · intro hn
    unfold makeObject dCreate
    split <;> rename_i h
    · split at h
      · cases h
      · rename_i c hc; exact absurd hc (hn c)
      · cases h
      · cases h
      · cases h
    all_goals
      split at h <;> first
        | (cases h; done)
        | (cases h; exact ⟨by simp, rfl, rfl⟩)

end

/-- Two objects; somebody closes the connection of the first one; it gets a new one. -/
example :
    let net := noFiles fun _ _ => sOpen4
    let s := dRun env0 scripted false 3 net [.open [.make] (.ok (.conn 0)), .open [.make] (.ok (.conn 1)), .user 0 .close, .reclaim (some 0) [] none,
      .open [.activate 0] (.ok (.conn 2))] (newDriverPool (ascii "bolt://u:p@host:7687"))
    s.objs = [.conn 2, .conn 1] ∧ s.conns.map (·.closed) = [true, false, false] ∧ s.dials = 3 := by
  decide +kernel

end Verif

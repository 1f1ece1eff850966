/-
Where the connections of a routing pool are: idle, lent, in the hands of a call, or closed.
-/
import Verif.Proofs.PoolSys
import Verif.Props.C65
namespace Verif
open PProg

namespace Spec

/-- A connection that was found to be dead is not found to be alive later. -/
def NoRevival (log : List PEv) : Prop := ∀ a b r, log = a ++ .checked r true :: b → .checked r false ∉ a

end Spec

section
variable {ω : Type}

/-- What is true of the pool all the time while it is in use: nothing is marked, the queues are within the limits, it is running, the map of borrowed connections is in order. -/
structure Sound (s : RPool ω) : Prop where
  unmarked : s.marked = []
  bounds : ∀ w, s.lower w ≤ (s.queueOf w).length ∧ ((s.queueOf w).length : Int) ≤ if w then s.maxWriteIdle else s.maxReadIdle
  running : s.running = true
  key : ∀ e ∈ s.borrowedConns, e.1 = e.2.conn.id ∧ ∃ str w, PEv.created e.2.conn.ref e.2.conn.id str w ∈ s.log
  ids : Distinct s
  steady : Spec.NoRevival s.log

/-- What a call has: the mutex for writing, copies of the queues, connections, and what it has seen in the log. -/
structure Hand where
  lk : Bool := false
  snap : Bool → Option (List Wrap) := fun _ => none
  held : List Nat := []
  saw : List PEv := []

/-- Every connection is in somebody's hands, idle, or has been closed. -/
structure Acct (s : RPool ω) (gs : List Hand) : Prop where
  sound : Sound s
  writers : gs.countP (·.lk) = if s.writer then 1 else 0
  snapLk : ∀ g ∈ gs, ∀ w, g.snap w ≠ none → g.lk = true
  snap : ∀ g ∈ gs, ∀ w Q, g.snap w = some Q → ∀ x ∈ s.queueOf w, x ∈ Q
  saw : ∀ g ∈ gs, ∀ e ∈ g.saw, e ∈ s.log
  all : ∀ n id, (n, id) ∈ made s.log → (∃ g ∈ gs, n ∈ g.held) ∨ (∃ w, ∃ x ∈ s.queueOf w, x.conn.ref = n) ∨ .closed n ∈ s.log

theorem Acct.perm {s : RPool ω} {gs gs' : List Hand} (h : gs.Perm gs') (i : Acct s gs) : Acct s gs' where
  sound := i.sound
  writers := by rw [← h.countP_eq]; exact i.writers
  snapLk g hg := i.snapLk g (h.mem_iff.2 hg)
  snap g hg := i.snap g (h.mem_iff.2 hg)
  saw g hg := i.saw g (h.mem_iff.2 hg)
  all n id hn := (i.all n id hn).imp (fun ⟨g, hg, h'⟩ => ⟨g, h.mem_iff.1 hg, h'⟩) fun h => h

/-- The rule for all actions: what the action must do. -/
theorem Acct.act {s s' : RPool ω} {g g' : Hand} {F : List Hand} (i : Acct s (g :: F)) (hs : Sound s')
    (hlk : (g'.lk = g.lk ∧ s'.writer = s.writer) ∨ (g.lk = false ∧ s.writer = false ∧ g'.lk = true ∧ s'.writer = true) ∨ (g.lk = true ∧ g'.lk = false ∧ s'.writer = false))
    (hq : g.lk = false → ∀ w, ∀ x ∈ s'.queueOf w, x ∈ s.queueOf w)
    (hsl : ∀ w, g'.snap w ≠ none → g'.lk = true) (hsn : ∀ w Q, g'.snap w = some Q → ∀ x ∈ s'.queueOf w, x ∈ Q)
    (hl : ∃ evs, s'.log = s.log ++ evs ∧ ∀ n id, (n, id) ∈ made evs → n ∈ g'.held ∨ (∃ w, ∃ x ∈ s'.queueOf w, x.conn.ref = n) ∨ .closed n ∈ s'.log)
    (hw : ∀ e ∈ g'.saw, e ∈ s'.log)
    (hh : ∀ n ∈ g.held, n ∈ g'.held ∨ (∃ w, ∃ x ∈ s'.queueOf w, x.conn.ref = n) ∨ .closed n ∈ s'.log)
    (hi : ∀ w, ∀ x ∈ s.queueOf w, x.conn.ref ∈ g'.held ∨ (∃ w, ∃ y ∈ s'.queueOf w, y.conn.ref = x.conn.ref) ∨ .closed x.conn.ref ∈ s'.log) :
    Acct s' (g' :: F) := by
  obtain ⟨evs, hl, hc⟩ := hl
  have hwr := i.writers
  rw [List.countP_cons] at hwr
  exact {
    sound := hs
    writers := by
      rw [List.countP_cons]
      rcases hlk with ⟨h1, h2⟩ | ⟨h1, h2, h3, h4⟩ | ⟨h1, h2, h3⟩
      · rw [h1, h2]; exact hwr
      · simp only [h1, h2, Bool.false_eq_true, if_false] at hwr
        simp only [h3, h4, if_true]; omega
      · simp only [h1, if_true] at hwr
        simp only [h2, h3, Bool.false_eq_true, if_false]
        split at hwr <;> omega
    snapLk := fun x hx w h => by
      rcases List.mem_cons.1 hx with rfl | hx
      · exact hsl w h
      · exact i.snapLk x (List.mem_cons_of_mem _ hx) w h
    snap := fun x hx w Q h y hy => by
      rcases List.mem_cons.1 hx with rfl | hx
      · exact hsn w Q h y hy
      · have hxl := i.snapLk x (List.mem_cons_of_mem _ hx) w (by rw [h]; simp)
        have hpos : 0 < F.countP (·.lk) := List.countP_pos_iff.2 ⟨x, hx, hxl⟩
        have hg : g.lk = false := by
          cases hgl : g.lk with
          | false => rfl
          | true => simp only [hgl, if_true] at hwr; split at hwr <;> omega
        exact i.snap x (List.mem_cons_of_mem _ hx) w Q h y (hq hg w y hy)
    saw := fun x hx e he => by
      rcases List.mem_cons.1 hx with rfl | hx
      · exact hw e he
      · rw [hl]; exact List.mem_append_left _ (i.saw x (List.mem_cons_of_mem _ hx) e he)
    all := fun n id hn => by
      have lift : n ∈ g'.held ∨ (∃ w, ∃ x ∈ s'.queueOf w, x.conn.ref = n) ∨ .closed n ∈ s'.log →
          (∃ h ∈ g' :: F, n ∈ h.held) ∨ (∃ w, ∃ x ∈ s'.queueOf w, x.conn.ref = n) ∨ .closed n ∈ s'.log := Or.imp_left fun h => ⟨g', List.mem_cons_self, h⟩
      rw [hl, made_append] at hn
      rcases List.mem_append.1 hn with hn | hn
      · rcases i.all n id hn with ⟨h, hm, hn⟩ | ⟨w, x, hx, rfl⟩ | h
        · rcases List.mem_cons.1 hm with rfl | hm
          · exact lift (hh n hn)
          · exact .inl ⟨h, List.mem_cons_of_mem _ hm, hn⟩
        · exact lift (hi w x hx)
        · exact .inr (.inr (by rw [hl]; exact List.mem_append_left _ h))
      · exact lift (hc n id hn) }

/-- Actions that leave the queues alone and create no connections. -/
theorem Acct.calm {s s' : RPool ω} {g g' : Hand} {F : List Hand} (i : Acct s (g :: F)) (hs : Sound s')
    (hlk : (g'.lk = g.lk ∧ s'.writer = s.writer) ∨ (g.lk = false ∧ s.writer = false ∧ g'.lk = true ∧ s'.writer = true) ∨ (g.lk = true ∧ g'.lk = false ∧ s'.writer = false))
    (hq : ∀ w, s'.queueOf w = s.queueOf w)
    (hsl : ∀ w, g'.snap w ≠ none → g'.lk = true) (hsn : ∀ w Q, g'.snap w = some Q → ∀ x ∈ s'.queueOf w, x ∈ Q)
    (hl : ∃ evs, s'.log = s.log ++ evs ∧ made evs = []) (hw : ∀ e ∈ g'.saw, e ∈ s'.log) (hh : ∀ n ∈ g.held, n ∈ g'.held ∨ .closed n ∈ s'.log) : Acct s' (g' :: F) :=
  let ⟨evs, h1, h2⟩ := hl
  i.act hs hlk (fun _ w x hx => hq w ▸ hx) hsl hsn ⟨evs, h1, fun n id hn => by rw [h2] at hn; cases hn⟩ hw (fun n hn => (hh n hn).imp id .inr)
    fun w x hx => .inr (.inl ⟨w, x, hq w ▸ hx, rfl⟩)

/-- A call that has the mutex or not, no copies, and these connections. -/
def Has (lk : Bool) (held : List Nat) (g : Hand) : Prop := g.lk = lk ∧ g.snap = (fun _ => none) ∧ g.held = held

abbrev Own {α : Type} (A : α → Hand → Prop) (B : Hand → Prop) (p : PP ω α) (g : Hand) : Prop := Safe Sound Acct A B p g

variable (W : PWorld ω)

/-- Neutral programs leave everything where it is. -/
theorem own_neutral {α : Type} : ∀ {p : PP ω α}, NeutralActs p → ∀ {g : Hand}, Own (fun _ g' => g' = g) (fun g' => g' = g) p g
  | .done (.ok _), _, _ => rfl
  | .done (.err _), _, _ => rfl
  | .done .panic, _, _ => rfl
  | .done .fuel, _, _ => rfl
  | .act _ _ _ _, h, g => fun s _ _ i hg => by
    have n := h.1 s
    obtain ⟨evs, he, hm⟩ := n.log
    refine ⟨g, i.calm hg (.inl ⟨rfl, n.writer⟩) n.queue (i.snapLk g List.mem_cons_self) (fun w Q hQ x hx => i.snap g List.mem_cons_self w Q hQ x (n.queue w ▸ hx))
      ⟨evs, he, hm⟩ (fun e hw => by rw [he]; exact List.mem_append_left _ (i.saw g List.mem_cons_self e hw)) (fun _ h => .inl h), own_neutral (h.2 s)⟩

/-- The same, for what is kept. -/
theorem own_calm {α : Type} {p : PP ω α} (h : NeutralActs p) {A : α → Hand → Prop} {B : Hand → Prop} {g : Hand} (hA : ∀ a, A a g) (hB : B g) : Own A B p g :=
  Safe.mono (fun a _ e => e ▸ hA a) (fun _ e => e ▸ hB) (own_neutral h)

theorem own_marked {lk : Bool} {hd : List Nat} (c : ConnRef) {g : Hand} (hg : Has lk hd g) : Own (fun m g' => m = false ∧ Has lk hd g') (fun _ => False) (pMarked c : PP ω Bool) g :=
  fun s _ _ i _ => ⟨g, i, by show List.contains _ _ = false; rw [i.sound.unmarked]; rfl, hg⟩

theorem own_validate {lk : Bool} {hd : List Nat} (c : ConnRef) {g : Hand} (hg : Has lk hd g) :
    Own (fun ok g' => Has lk hd g' ∧ (ok = false → .checked c.ref false ∈ g'.saw) ∧ (ok = true → .checked c.ref false ∉ g.saw)) (fun _ => False) (pValidate W c) g := by
  refine fun s F _ i hs => ⟨{ g with saw := .checked c.ref (W.validate s.world c.ref).2 :: g.saw }, ?_, hg, fun h => ?_, fun h hm => ?_⟩
  · refine i.calm hs (.inl ⟨rfl, rfl⟩) (fun _ => rfl) (i.snapLk g List.mem_cons_self) (i.snap g List.mem_cons_self) ⟨_, rfl, rfl⟩ (fun e he => ?_) fun _ h => .inl h
    rcases List.mem_cons.1 he with rfl | he
    · exact List.mem_append_right _ List.mem_cons_self
    · exact List.mem_append_left _ (i.saw g List.mem_cons_self e he)
  · rw [← h]; exact List.mem_cons_self
  · refine hs.steady s.log [] c.ref ?_ (i.saw g List.mem_cons_self _ hm)
    show s.log ++ [PEv.checked c.ref (W.validate s.world c.ref).2] = _
    rw [show (W.validate s.world c.ref).2 = true from h]

theorem own_close {lk : Bool} {r : Nat} {g : Hand} (hg : Has lk [r] g) : Own (fun _ g' => Has lk [] g') (fun _ => False) (pClose W r) g := by
  refine fun s F _ i hs => ⟨{ g with held := [] }, ?_, hg.1, hg.2.1, rfl⟩
  refine i.calm hs (.inl ⟨rfl, rfl⟩) (fun _ => rfl) (i.snapLk g List.mem_cons_self) (i.snap g List.mem_cons_self) ⟨_, rfl, rfl⟩
    (fun e he => List.mem_append_left _ (i.saw g List.mem_cons_self e he)) fun n hn => .inr ?_
  rw [hg.2.2, List.mem_singleton] at hn
  exact List.mem_append_right _ (by rw [hn]; exact List.mem_cons_self)

/-- Removing a connection that was found dead closes it. -/
theorem own_remove {lk : Bool} {x : Wrap} {g : Hand} (hg : Has lk [x.conn.ref] g) (hd : .checked x.conn.ref false ∈ g.saw) :
    Own (fun _ g' => Has lk [] g') (fun g' => Has lk [] g') (removeConn W (some x)) g := by
  refine Safe.bind (fun ok g' h => ?_) (Safe.mono (fun _ _ h => h) (fun _ h => h.elim) (own_validate W x.conn hg))
  cases ok with
  | true => exact absurd hd (h.2.2 rfl)
  | false =>
    refine Safe.bind (fun e g' h => ?_) (Safe.mono (fun _ _ h => h) (fun _ h => h.elim) (own_close W h.1))
    cases e with
    | some e => exact h
    | none => exact own_calm (neutral_delHeld _) (fun _ => h) h

theorem own_dequeue {w lk : Bool} {g : Hand} (hg : Has lk [] g) :
    Own (fun o g' => match o with | none => Has lk [] g' | some x => Has lk [x.conn.ref] g') (fun _ => False) (pDequeue w : PP ω (Option Wrap)) g := by
  intro s F _ i hs
  show ∃ g', Acct (match s.queueOf w with | [] => (none, s) | x :: q => (some x, s.setQueue w q) : Option Wrap × RPool ω).2 (g' :: F) ∧ _
  have hs' : Sound (match s.queueOf w with | [] => (none, s) | x :: q => (some x, s.setQueue w q) : Option Wrap × RPool ω).2 := hs
  show ∃ g', _ ∧ (match (match s.queueOf w with | [] => (none, s) | x :: q => (some x, s.setQueue w q) : Option Wrap × RPool ω).1 with | none => Has lk [] g' | some x => Has lk [x.conn.ref] g')
  cases hq : s.queueOf w with
  | nil => exact ⟨g, i, hg⟩
  | cons x q =>
    rw [hq] at hs'
    have hmem : ∀ v, ∀ y ∈ (s.setQueue w q).queueOf v, y ∈ s.queueOf v := by
      intro v y hy
      rw [queueOf_setQueue] at hy
      split at hy
      · rename_i e; rw [e, hq]; exact List.mem_cons_of_mem _ hy
      · exact hy
    have hwr : (s.setQueue w q).writer = s.writer := by cases w <;> rfl
    refine ⟨{ g with held := [x.conn.ref] }, ?_, hg.1, hg.2.1, rfl⟩
    refine i.act hs' (.inl ⟨rfl, hwr⟩) (fun _ => hmem) (i.snapLk g List.mem_cons_self) (fun v Q hQ y hy => i.snap g List.mem_cons_self v Q hQ y (hmem v y hy))
      ⟨[], by rw [setQueue_log, List.append_nil], fun n id hn => by cases hn⟩ (fun e he => by rw [setQueue_log]; exact i.saw g List.mem_cons_self e he)
      (fun n hn => by rw [hg.2.2] at hn; cases hn) fun v y hy => ?_
    by_cases hv : v = w
    · subst hv
      rw [hq] at hy
      rcases List.mem_cons.1 hy with rfl | hy
      · exact .inl List.mem_cons_self
      · exact .inr (.inl ⟨v, y, by rw [queueOf_setQueue, if_pos rfl]; exact hy, rfl⟩)
    · exact .inr (.inl ⟨v, y, by rw [queueOf_setQueue, if_neg hv]; exact hy, rfl⟩)

theorem own_enqueue {w : Bool} {x : Wrap} {hd : List Nat} {g : Hand} (hg : Has true hd g) (hx : ∀ n ∈ hd, n = x.conn.ref) : Own (fun _ g' => Has true [] g') (fun _ => False) (pEnqueue w x : PP ω Unit) g := by
  intro s F _ i hs
  refine ⟨{ g with held := [] }, ?_, hg.1, hg.2.1, rfl⟩
  have hwr : (s.setQueue w (s.queueOf w ++ [x])).writer = s.writer := by cases w <;> rfl
  refine i.act hs (.inl ⟨rfl, hwr⟩) (fun h => by rw [hg.1] at h; cases h) (i.snapLk g List.mem_cons_self) (fun v Q hQ => by rw [hg.2.1] at hQ; cases hQ)
    ⟨[], by rw [List.append_nil]; exact setQueue_log _ _ _, fun n id hn => by cases hn⟩ (fun e he => by
      show e ∈ (s.setQueue w (s.queueOf w ++ [x])).log
      rw [setQueue_log]; exact i.saw g List.mem_cons_self e he)
    (fun n hn => ?_) fun v y hy => ?_
  · rw [hg.2.2] at hn
    exact .inr (.inl ⟨w, x, by show x ∈ (s.setQueue w (s.queueOf w ++ [x])).queueOf w; rw [queueOf_setQueue, if_pos rfl]; simp, (hx n hn).symm⟩)
  · refine .inr (.inl ⟨v, y, ?_, rfl⟩)
    show y ∈ (s.setQueue w (s.queueOf w ++ [x])).queueOf v
    rw [queueOf_setQueue]
    split
    · rename_i e; exact List.mem_append_left _ (e ▸ hy)
    · exact hy

/-- An action that changes nothing of interest. -/
theorem own_prim {α : Type} {acc : List Access} {m : RPool ω → α × RPool ω} (h : ∀ s, Neutral s (m s).2) {A : α → Hand → Prop} {B : Hand → Prop} {g : Hand}
    (hA : ∀ s, Sound s → (∀ e ∈ g.saw, e ∈ s.log) → A (m s).1 g) : Own A B (.prim acc m) g := fun s F he i hs => by
  obtain ⟨g', h1, h2⟩ := own_neutral (p := (.prim acc m : PP ω α)) (Acts.prim h) (g := g) s F he i hs
  cases (show g' = g from h2)
  exact ⟨g, h1, hA s i.sound (i.saw g List.mem_cons_self)⟩

theorem own_new {w lk : Bool} {str : Bytes} {g : Hand} (hg : Has lk [] g) : Own (fun x g' => Has lk [x.conn.ref] g') (fun g' => Has lk [] g') (newConnection W w str) g := by
  refine Safe.bind (A := fun r g' => match r with | .error _ => Has lk [] g' | .ok x => Has lk [x.conn.ref] g') (fun r g' h => ?_) (fun s F _ i hs => ?_)
  · cases r with
    | error e => exact h
    | ok x => exact Safe.bind (fun _ _ h => h) (own_prim (A := fun _ => Has lk [x.conn.ref])
        (fun _ => ⟨rfl, rfl, rfl, fun _ => rfl, rfl, fun _ => rfl, fun _ => rfl, Nat.le_refl _, [], by simp, rfl⟩) fun _ _ _ => h)
  · dsimp only at hs ⊢
    have hq : ∀ v u, ∀ n, ({ s with world := u, next := n } : RPool ω).queueOf v = s.queueOf v := fun v _ _ => by cases v <;> rfl
    generalize W.create s.world s.next str = c at hs ⊢
    match c, hs with
    | (u, some e), hs =>
      exact ⟨g, i.calm hs (.inl ⟨rfl, rfl⟩) (fun v => by cases v <;> rfl) (i.snapLk g List.mem_cons_self) (fun v Q hQ => by rw [hg.2.1] at hQ; cases hQ)
        ⟨[], by simp, rfl⟩ (i.saw g List.mem_cons_self) fun _ h => .inl h, hg⟩
    | (u, none), hs =>
      refine ⟨{ g with held := [s.next] }, i.act hs (.inl ⟨rfl, rfl⟩) (fun _ v x hx => by cases v <;> exact hx) (i.snapLk g List.mem_cons_self)
        (fun v Q hQ => by rw [hg.2.1] at hQ; cases hQ) ⟨_, rfl, fun n id hn => .inl ?_⟩ (fun e he => List.mem_append_left _ (i.saw g List.mem_cons_self e he))
        (fun n hn => by rw [hg.2.2] at hn; cases hn) (fun v x hx => .inr (.inl ⟨v, x, by cases v <;> exact hx, rfl⟩)), hg.1, hg.2.1, rfl⟩
      simp only [made, List.mem_singleton, Prod.mk.injEq] at hn
      exact List.mem_singleton.2 hn.1

theorem own_addWrite {g : Hand} (hg : Has true [] g) : Own (fun _ g' => Has true [] g') (fun g' => Has true [] g') (addWriteConn W) g := by
  refine Safe.bind (A := fun _ => Has true []) (fun r g' h => ?_) (own_prim (fun s => ?_) fun _ _ _ => hg)
  · cases r with
    | error r => cases r <;> exact h
    | ok str => exact Safe.bind (fun x g'' h => Safe.mono (fun _ _ h => h) (fun _ h => h.elim) (own_enqueue h fun _ hn => List.mem_singleton.1 hn)) (own_new W h)
  · split
    · exact neutral_refl s
    · exact ⟨rfl, rfl, rfl, fun v => by cases v <;> rfl, rfl, fun _ => rfl, fun _ => rfl, Nat.le_refl _, [], by simp, rfl⟩

theorem own_addRead {g : Hand} (hg : Has true [] g) : Own (fun _ g' => Has true [] g') (fun g' => Has true [] g') (addReadConn W) g := by
  refine Safe.bind (A := fun _ => Has true []) (fun r g' h => ?_) (own_prim (fun s => ?_) fun _ _ _ => hg)
  · cases r with
    | error r => cases r <;> exact h
    | ok str => exact Safe.bind (fun x g'' h => Safe.mono (fun _ _ h => h) (fun _ h => h.elim) (own_enqueue h fun _ hn => List.mem_singleton.1 hn)) (own_new W h)
  · split
    · exact neutral_refl s
    · exact ⟨rfl, rfl, rfl, fun v => by cases v <;> rfl, rfl, fun _ => rfl, fun _ => rfl, Nat.le_refl _, [], by simp, rfl⟩

theorem own_internalBorrow (w : Bool) : ∀ (fuel : Nat) {g : Hand}, Has false [] g → Own (fun x g' => Has false [x.conn.ref] g') (fun g' => Has false [] g') (internalBorrow W w fuel) g
  | 0, _, hg => hg
  | fuel + 1, g, hg => by
    refine Safe.bind (fun o g' h => ?_) (Safe.mono (fun _ _ h => h) (fun _ h => h.elim) (own_dequeue hg))
    cases o with
    | none => exact h
    | some x =>
      refine Safe.bind (fun m g' h => ?_) (Safe.mono (fun _ _ h => h) (fun _ h => h.elim) (own_marked x.conn h))
      obtain ⟨rfl, h⟩ := h
      refine Safe.bind (fun ok g' h => ?_) (Safe.mono (fun _ _ h => h) (fun _ h => h.elim) (own_validate W x.conn h))
      cases ok with
      | true =>
        refine Safe.bind (A := fun _ => Has false [x.conn.ref]) (fun _ g' h => ?_) (own_prim
          (fun _ => ⟨rfl, rfl, rfl, fun v => by cases v <;> rfl, rfl, fun _ => rfl, fun _ => rfl, Nat.le_refl _, [], by simp, rfl⟩) fun _ _ _ => h.1)
        refine Safe.bind (A := fun _ => Has false [x.conn.ref]) (fun _ g'' h' => ?_) (fun s F _ i hs => ⟨g', ?_, h⟩)
        · exact h'
        · exact i.calm hs (.inl ⟨rfl, rfl⟩) (fun v => by cases v <;> rfl) (i.snapLk g' List.mem_cons_self) (fun v Q hQ => by rw [h.2.1] at hQ; cases hQ)
            ⟨[], by simp, rfl⟩ (i.saw g' List.mem_cons_self) fun _ h => .inl h
      | false => exact Safe.bind (fun _ g' h => own_internalBorrow w fuel h) (own_remove W h.1 (h.2.1 rfl))

theorem own_borrow (w : Bool) (fuel : Nat) {g : Hand} (hg : Has false [] g) :
    Own (fun c g' => Has false [c.ref] g') (fun g' => Has false [] g') (if w then borrowRW W fuel else borrowR W fuel) g := by
  have readers : ∀ {hd : List Nat} {s s' : RPool ω} {F : List Hand} {g : Hand}, Has false hd g → Acct s (g :: F) → Sound s' → s'.writer = s.writer → (∀ v, s'.queueOf v = s.queueOf v) →
      s'.log = s.log → Acct s' (g :: F) := fun hg i hs hw hq hl =>
    i.calm hs (.inl ⟨rfl, hw⟩) hq (i.snapLk _ List.mem_cons_self) (fun v Q hQ => by rw [hg.2.1] at hQ; cases hQ) ⟨[], by rw [hl, List.append_nil], rfl⟩
      (fun e he => by rw [hl]; exact i.saw _ List.mem_cons_self e he) fun _ h => .inl h
  have main : Own (fun c g' => Has false [c.ref] g') (fun g' => Has false [] g') (do
      rlock
      PProg.deferred runlock (do
        let x ← internalBorrow W w fuel
        pure x.conn) : PP ω ConnRef) g := by
    refine Safe.bind (A := fun _ => Has false []) (fun _ g' h => ?_) (fun s F _ i hs => ⟨g, readers hg i hs rfl (fun v => by cases v <;> rfl) rfl, hg⟩)
    refine Safe.deferred (f := runlock) (A := fun (c : ConnRef) => Has false [c.ref]) (B := Has false []) (fun c g s F h i hs => ⟨g, readers h i hs rfl (fun v => by cases v <;> rfl) rfl, h⟩)
      (fun g s F h i hs => ⟨g, readers h i hs rfl (fun v => by cases v <;> rfl) rfl, h⟩) ?_
    exact Safe.bind (fun x g' h => h) (own_internalBorrow W w fuel h)
  cases w <;> exact main

theorem find_key {m : ConnMap} {id : Bytes} {x : Wrap} (h : m.get? id = some x) : (id, x) ∈ m := by
  unfold ConnMap.get? at h
  cases hf : m.find? (fun e => e.1 = id) with
  | none => rw [hf] at h; cases h
  | some e =>
    rw [hf] at h
    simp only [Option.map_some, Option.some.injEq] at h
    have h1 := List.find?_some hf
    simp only [decide_eq_true_eq] at h1
    have h2 := List.mem_of_find?_eq_some hf
    rw [← h, ← h1]
    exact h2

/-- Ids tell connections apart. -/
theorem same_ref : ∀ {l : List (Nat × Bytes)}, (l.map (·.2)).Nodup → ∀ {n m : Nat} {id : Bytes}, (n, id) ∈ l → (m, id) ∈ l → n = m
  | [], _, _, _, _, h, _ => by cases h
  | e :: l, hd, n, m, id, h, h' => by
    rw [List.map_cons, List.nodup_cons] at hd
    rcases List.mem_cons.1 h with h | h <;> rcases List.mem_cons.1 h' with h' | h'
    · exact congrArg Prod.fst (h.trans h'.symm)
    · exact absurd (List.mem_map.2 ⟨_, h', by rw [← h]⟩) hd.1
    · exact absurd (List.mem_map.2 ⟨_, h, by rw [← h']⟩) hd.1
    · exact same_ref hd.2 h h'

theorem own_reclaim {c : ConnRef} {str : Bytes} {v : Bool} {g : Hand} (hg : Has false [c.ref] g) (hc : .created c.ref c.id str v ∈ g.saw) :
    Own (fun _ g' => Has false [] g') (fun g' => Has false [] g') (reclaim W c) g := by
  refine Safe.bind (A := fun _ g' => Has true [c.ref] g' ∧ .created c.ref c.id str v ∈ g'.saw) (fun _ g' h => ?_) (fun s F he i hs => ?_)
  · refine Safe.deferred (A := fun _ => Has true []) (B := Has true []) ?_ ?_ ?_
    · intro _ g s F h i hs
      exact ⟨{ g with lk := false }, i.calm hs (.inr (.inr ⟨h.1, rfl, rfl⟩)) (fun v => by cases v <;> rfl) (fun w hw => by rw [show ({ g with lk := false } : Hand).snap = g.snap from rfl, h.2.1] at hw; exact absurd rfl hw)
        (fun w Q hw => by rw [show ({ g with lk := false } : Hand).snap = g.snap from rfl, h.2.1] at hw; cases hw) ⟨[], by simp [unlock], rfl⟩ (i.saw g List.mem_cons_self) (fun _ h => .inl h), rfl, h.2.1, h.2.2⟩
    · intro g s F h i hs
      exact ⟨{ g with lk := false }, i.calm hs (.inr (.inr ⟨h.1, rfl, rfl⟩)) (fun v => by cases v <;> rfl) (fun w hw => by rw [show ({ g with lk := false } : Hand).snap = g.snap from rfl, h.2.1] at hw; exact absurd rfl hw)
        (fun w Q hw => by rw [show ({ g with lk := false } : Hand).snap = g.snap from rfl, h.2.1] at hw; cases hw) ⟨[], by simp [unlock], rfl⟩ (i.saw g List.mem_cons_self) (fun _ h => .inl h), rfl, h.2.1, h.2.2⟩
    · refine Safe.bind (A := fun ok g' => ok = true ∧ Has true [c.ref] g' ∧ .created c.ref c.id str v ∈ g'.saw) (fun ok g' h => ?_) (own_prim neutral_refl fun s hs _ => ⟨hs.running, h⟩)
      obtain ⟨rfl, h⟩ := h
      refine Safe.bind (A := fun found g' => (∀ x, found = some x → x.conn.ref = c.ref) ∧ Has true [c.ref] g') (fun found g' h => ?_) (own_prim neutral_refl fun s hs hsaw => ⟨fun x hx => ?_, h.1⟩)
      · cases found with
        | none =>
          refine Safe.bind (fun e g' h => ?_) (Safe.mono (fun _ _ h => h) (fun _ h => h.elim) (own_close W h.2))
          cases e <;> exact h
        | some x =>
          have hx := h.1 x rfl
          have h := h.2
          rw [← hx] at h
          refine Safe.bind (A := fun _ => Has true [x.conn.ref]) (fun _ g' h => ?_) (fun s F _ i hs => ⟨_, ?_, h⟩)
          · refine Safe.bind (A := fun _ => Has true [x.conn.ref]) (fun _ g' h => ?_) (own_prim
              (fun _ => ⟨rfl, rfl, rfl, fun v => by cases v <;> rfl, rfl, fun _ => rfl, fun _ => rfl, Nat.le_refl _, [], by simp, rfl⟩) fun _ _ _ => h)
            refine Safe.bind (fun ok g' h => ?_) (Safe.mono (fun _ _ h => h) (fun _ h => h.elim) (own_validate W x.conn h))
            refine Safe.bind (A := fun bad g' => match bad with | some _ => Has true [] g' | none => Has true [x.conn.ref] g' ∨ Has true [] g') (fun bad g' h => ?_) ?_
            · cases bad with
              | some e =>
                show Own _ _ (if x.write then addWriteConn W else addReadConn W) g'
                cases x.write
                · exact own_addRead W h
                · exact own_addWrite W h
              | none =>
                rcases h with h | h
                · exact Safe.mono (fun _ _ h => h) (fun _ h => h.elim) (own_enqueue h fun _ hn => List.mem_singleton.1 hn)
                · exact Safe.mono (fun _ _ h => h) (fun _ h => h.elim) (own_enqueue h fun _ hn => absurd hn List.not_mem_nil)
            · cases ok with
              | true => exact .inl h.1
              | false =>
                refine Safe.mono (fun oe g h => ?_) (fun _ h => h) (Safe.attempt (own_remove W h.1 (h.2.1 rfl)))
                rcases h with ⟨rfl, h⟩ | ⟨hn, h⟩
                · exact .inr h
                · cases oe with
                  | none => exact absurd rfl hn
                  | some e => exact h
          · exact i.calm hs (.inl ⟨rfl, rfl⟩) (fun v => by cases v <;> rfl) (i.snapLk _ List.mem_cons_self) (fun v Q hQ => by rw [h.2.1] at hQ; cases hQ)
              ⟨[], by simp, rfl⟩ (i.saw _ List.mem_cons_self) fun _ h => .inl h
      · have hk := hs.key _ (find_key hx)
        obtain ⟨hk1, str', w', hk2⟩ := hk
        refine same_ref hs.ids (id := c.id) (mem_made.2 ⟨str', w', ?_⟩) (mem_made.2 ⟨str, v, hsaw _ h.2⟩)
        dsimp only at hk1
        rw [hk1]; exact hk2
  · simp only [Bool.and_eq_true, Bool.not_eq_true', decide_eq_true_eq] at he
    exact ⟨{ g with lk := true }, i.calm hs (.inr (.inl ⟨hg.1, he.1, rfl, rfl⟩)) (fun v => by cases v <;> rfl) (fun _ _ => rfl)
      (fun w Q hw => by rw [show ({ g with lk := true } : Hand).snap = g.snap from rfl, hg.2.1] at hw; cases hw) ⟨[], by simp, rfl⟩ (i.saw g List.mem_cons_self) (fun _ h => .inl h), ⟨rfl, hg.2.1, hg.2.2⟩, hc⟩

/-- Copying a queue. -/
theorem own_items {w : Bool} {g : Hand} (hg : g.lk = true) :
    Own (fun q g' => g' = { g with snap := fun v => if v = w then some q else g.snap v }) (fun _ => False) (pItems w : PP ω (List Wrap)) g := by
  refine fun s F _ i hs => ⟨_, ?_, rfl⟩
  refine i.calm hs (.inl ⟨rfl, rfl⟩) (fun _ => rfl) (fun _ _ => hg) (fun v Q hQ x hx => ?_) ⟨[], by simp [PProg.prim], rfl⟩ (i.saw g List.mem_cons_self) fun _ h => .inl h
  dsimp only at hQ
  split at hQ
  · rename_i e
    cases hQ
    rw [e] at hx
    exact hx
  · exact i.snap g List.mem_cons_self v Q hQ x hx

/-- Writing the copy back loses nothing. -/
theorem own_set {w : Bool} {Q : List Wrap} {g : Hand} (hg : g.lk = true) (hQ : g.snap w = some Q) :
    Own (fun _ g' => g' = { g with snap := fun v => if v = w then none else g.snap v }) (fun _ => False) (pSetQueue w Q : PP ω Unit) g := by
  refine fun s F _ i hs => ⟨_, ?_, rfl⟩
  have hwr : (s.setQueue w Q).writer = s.writer := by cases w <;> rfl
  refine i.act hs (.inl ⟨rfl, hwr⟩) (fun h => by rw [hg] at h; cases h) (fun _ _ => hg) (fun v Q' h x hx => ?_)
    ⟨[], by rw [List.append_nil]; exact setQueue_log _ _ _, fun n id hn => by cases hn⟩
    (fun e he => by show e ∈ (s.setQueue w Q).log; rw [setQueue_log]; exact i.saw g List.mem_cons_self e he) (fun n hn => .inl hn) fun v x hx => ?_
  · dsimp only at h
    split at h
    · cases h
    · rename_i hv
      have hx : x ∈ (s.setQueue w Q).queueOf v := hx
      rw [queueOf_setQueue, if_neg hv] at hx
      exact i.snap g List.mem_cons_self v Q' h x hx
  · refine .inr (.inl ⟨v, x, ?_, rfl⟩)
    show x ∈ (s.setQueue w Q).queueOf v
    rw [queueOf_setQueue]
    split
    · rename_i e; subst e; exact i.snap g List.mem_cons_self v Q hQ x hx
    · exact hx

theorem own_pruneReads : ∀ (xs reads : List Wrap) {g : Hand}, Own (fun l g' => l = reads ++ xs ∧ g' = g) (fun _ => False) (pruneReads W xs reads) g
  | [], reads, _ => ⟨by simp, rfl⟩
  | x :: xs, reads, g => by
    refine Safe.bind (A := fun m g' => m = false ∧ g' = g) (fun m g' h => ?_) (own_prim neutral_refl fun s hs _ => ⟨by show List.contains _ _ = false; rw [hs.unmarked]; rfl, rfl⟩)
    obtain ⟨rfl, rfl⟩ := h
    exact Safe.mono (fun l g h => ⟨by rw [h.1]; simp, h.2⟩) (fun _ h => h) (own_pruneReads xs (reads ++ [x]))

theorem own_pruneWrites : ∀ (xs writes : List Wrap) {g : Hand}, Own (fun l g' => l = writes ++ xs ∧ g' = g) (fun _ => False) (pruneWrites W xs writes) g
  | [], writes, _ => ⟨by simp, rfl⟩
  | x :: xs, writes, g => by
    refine Safe.bind (A := fun m g' => m = false ∧ g' = g) (fun m g' h => ?_) (own_prim neutral_refl fun s hs _ => ⟨by show List.contains _ _ = false; rw [hs.unmarked]; rfl, rfl⟩)
    obtain ⟨rfl, rfl⟩ := h
    exact Safe.mono (fun l g h => ⟨by rw [h.1]; simp, h.2⟩) (fun _ h => h) (own_pruneWrites xs (writes ++ [x]))

theorem own_prune {g : Hand} (hg : Has true [] g) : Own (fun _ g' => Has true [] g') (fun _ => False) (prune W) g := by
  refine Safe.bind (fun rs g' h => ?_) (own_items hg.1)
  subst h
  refine Safe.bind (fun reads g' h => ?_) (own_pruneReads W rs [])
  obtain ⟨rfl, rfl⟩ := h
  refine Safe.bind (fun ws g' h => ?_) (own_items hg.1)
  subst h
  refine Safe.bind (fun writes g' h => ?_) (own_pruneWrites W ws [])
  obtain ⟨rfl, rfl⟩ := h
  refine Safe.bind (fun _ g' h => ?_) (own_set hg.1 rfl)
  subst h
  refine Safe.mono (fun _ g' h => ?_) (fun _ h => h) (own_set hg.1 rfl)
  subst h
  refine ⟨hg.1, funext fun v => ?_, hg.2.2⟩
  cases v <;> rfl

theorem own_compare (w : Bool) {g : Hand} : Own (fun o g' => o = .eq ∧ g' = g) (fun _ => False) (pCompare w : PP ω Ordering) g :=
  own_prim neutral_refl fun s hs _ => ⟨by
    obtain ⟨h1, h2⟩ := hs.bounds w
    show (if ((s.queueOf w).length : Int) < (if w then s.minWriteIdle else s.minReadIdle) then Ordering.lt else if ((s.queueOf w).length : Int) > (if w then s.maxWriteIdle else s.maxReadIdle) then .gt else .eq) = .eq
    unfold RPool.lower at h1
    rw [if_neg (by omega), if_neg (by omega)], rfl⟩

theorem own_balance (fuel : Nat) {g : Hand} (hg : Has true [] g) : Own (fun _ g' => Has true [] g') (fun _ => False) (balance W fuel) g := by
  refine Safe.bind (fun o g' h => ?_) (own_compare false)
  obtain ⟨rfl, rfl⟩ := h
  refine Safe.bind (fun o g' h => ?_) (own_compare true)
  obtain ⟨rfl, rfl⟩ := h
  refine Safe.bind (fun o g' h => ?_) (own_compare false)
  obtain ⟨rfl, rfl⟩ := h
  exact hg

theorem own_refresh (fuel : Nat) {g : Hand} (hg : Has false [] g) : Own (fun _ g' => Has false [] g') (fun g' => g'.held = []) (refreshRound W fuel) g := by
  refine Safe.bind (A := fun _ => Has true []) (fun _ g' h => ?_) (fun s F he i hs => ?_)
  · refine Safe.bind (A := fun _ => Has true []) (fun _ g' h => ?_) (own_calm (neutral_refresh W) (fun _ => h) h.2.2)
    refine Safe.bind (fun _ g' h => ?_) (Safe.mono (fun _ _ h => h) (fun _ h => h.elim) (own_prune W h))
    refine Safe.bind (fun _ g' h => ?_) (Safe.mono (fun _ _ h => h) (fun _ h => h.elim) (own_balance W fuel h))
    exact fun s F _ i hs => ⟨{ g' with lk := false }, i.calm hs (.inr (.inr ⟨h.1, rfl, rfl⟩)) (fun v => by cases v <;> rfl)
      (fun w hw => by rw [show ({ g' with lk := false } : Hand).snap = g'.snap from rfl, h.2.1] at hw; exact absurd rfl hw)
      (fun w Q hw => by rw [show ({ g' with lk := false } : Hand).snap = g'.snap from rfl, h.2.1] at hw; cases hw) ⟨[], by simp [unlock], rfl⟩ (i.saw g' List.mem_cons_self) (fun _ h => .inl h), rfl, h.2.1, h.2.2⟩
  · simp only [Bool.and_eq_true, Bool.not_eq_true', decide_eq_true_eq] at he
    exact ⟨{ g with lk := true }, i.calm hs (.inr (.inl ⟨hg.1, he.1, rfl, rfl⟩)) (fun v => by cases v <;> rfl) (fun _ _ => rfl)
      (fun w Q hw => by rw [show ({ g with lk := true } : Hand).snap = g.snap from rfl, hg.2.1] at hw; cases hw) ⟨[], by simp, rfl⟩ (i.saw g List.mem_cons_self) (fun _ h => .inl h), rfl, hg.2.1, hg.2.2⟩

/-- What a call holds when it returns is what it lends. -/
def Hands (ret : PRet) (g : Hand) : Prop := ∀ n ∈ g.held, ∃ c ∈ lentBy (.ok ret), c.ref = n

theorem own_prog (fuel : Nat) (r : PReq) (g : Hand) (hr : r ≠ .start ∧ r ≠ .stop) (hg : match r with
      | .reclaim c => Has false [c.ref] g ∧ ∃ str v, PEv.created c.ref c.id str v ∈ g.saw
      | _ => Has false [] g) : Own Hands (fun g' => g'.held = []) (r.prog W fuel) g := by
  have empty : ∀ {g : Hand}, Has false [] g → Hands none g := fun h n hn => by rw [h.2.2] at hn; cases hn
  have one : ∀ {g : Hand} {c : ConnRef}, Has false [c.ref] g → Hands (some c) g := fun {g c} h n hn => by
    rw [h.2.2, List.mem_singleton] at hn
    exact ⟨c, List.mem_cons_self, hn.symm⟩
  cases r with
  | borrow w =>
    have := own_borrow W w fuel hg
    cases w
    · refine Safe.bind (fun c _ h => ?_) (Safe.mono (fun _ _ h => h) (fun _ h => h.2.2) this)
      exact one h
    · refine Safe.bind (fun c _ h => ?_) (Safe.mono (fun _ _ h => h) (fun _ h => h.2.2) this)
      exact one h
  | reclaim c =>
    obtain ⟨h1, str, v, h2⟩ := hg
    refine Safe.bind (fun _ _ h => ?_) (Safe.mono (fun _ _ h => h) (fun _ h => h.2.2) (own_reclaim W h1 h2))
    exact empty h
  | start => exact absurd rfl hr.1
  | stop => exact absurd rfl hr.2
  | refresh =>
    refine Safe.bind (fun _ _ h => ?_) (own_refresh W fuel hg)
    exact empty h

/-- A new call begins with empty hands. -/
theorem Acct.join {s : RPool ω} {gs : List Hand} (i : Acct s gs) : Acct s (gs ++ [Hand.mk false (fun _ => none) [] []]) where
  sound := i.sound
  writers := by rw [List.countP_append]; exact i.writers
  snapLk g hg w h := by
    rcases List.mem_append.1 hg with hg | hg
    · exact i.snapLk g hg w h
    · rw [List.mem_singleton.1 hg] at h; exact absurd rfl h
  snap g hg w Q h := by
    rcases List.mem_append.1 hg with hg | hg
    · exact i.snap g hg w Q h
    · rw [List.mem_singleton.1 hg] at h; cases h
  saw g hg e he := by
    rcases List.mem_append.1 hg with hg | hg
    · exact i.saw g hg e he
    · rw [List.mem_singleton.1 hg] at he; cases he
  all n id hn := (i.all n id hn).imp (fun ⟨g, hg, h⟩ => ⟨g, List.mem_append_left _ hg, h⟩) fun h => h

/-- A connection is handed over to a new call. -/
theorem Acct.give {s : RPool ω} {E M : List Hand} {r : Nat} {e₀ : PEv} (he : e₀ ∈ s.log) (i : Acct s (E ++ M)) :
    Acct s (E.map (fun g => { g with held := g.held.filter (· ≠ r) }) ++ (M ++ [{ held := [r], saw := [e₀] }])) where
  sound := i.sound
  writers := by
    rw [← i.writers, List.countP_append, List.countP_append, List.countP_append, List.countP_map]
    simp [Function.comp_def]
  snapLk g hg w h := by
    rcases List.mem_append.1 hg with hg | hg
    · obtain ⟨g', hg', rfl⟩ := List.mem_map.1 hg
      exact i.snapLk g' (List.mem_append_left _ hg') w h
    · rcases List.mem_append.1 hg with hg | hg
      · exact i.snapLk g (List.mem_append_right _ hg) w h
      · rw [List.mem_singleton.1 hg] at h; exact absurd rfl h
  snap g hg w Q h := by
    rcases List.mem_append.1 hg with hg | hg
    · obtain ⟨g', hg', rfl⟩ := List.mem_map.1 hg
      exact i.snap g' (List.mem_append_left _ hg') w Q h
    · rcases List.mem_append.1 hg with hg | hg
      · exact i.snap g (List.mem_append_right _ hg) w Q h
      · rw [List.mem_singleton.1 hg] at h; cases h
  saw g hg e h := by
    rcases List.mem_append.1 hg with hg | hg
    · obtain ⟨g', hg', rfl⟩ := List.mem_map.1 hg
      exact i.saw g' (List.mem_append_left _ hg') e h
    · rcases List.mem_append.1 hg with hg | hg
      · exact i.saw g (List.mem_append_right _ hg) e h
      · rw [List.mem_singleton.1 hg] at h; rw [List.mem_singleton.1 h]; exact he
  all n id hn := by
    rcases i.all n id hn with ⟨g, hg, h⟩ | h
    · refine .inl ?_
      by_cases hr : n = r
      · exact ⟨_, List.mem_append_right _ (List.mem_append_right _ List.mem_cons_self), by rw [hr]; exact List.mem_cons_self⟩
      · rcases List.mem_append.1 hg with hg | hg
        · exact ⟨_, List.mem_append_left _ (List.mem_map.2 ⟨g, hg, rfl⟩), List.mem_filter.2 ⟨h, by simpa using hr⟩⟩
        · exact ⟨g, List.mem_append_right _ (List.mem_append_left _ hg), h⟩
    · exact .inr h

/-- The whole system: `E` are hands of calls that have returned; what they still hold is lent. -/
def SysOwn (s : PSys ω) : Prop := ∃ (E : List Hand) (L : List (Hand × PReq × PProg (RPool ω) PRet)), L.map (·.2) = s.calls ∧ Acct s.pool (E ++ L.map (·.1)) ∧
  (∀ g ∈ E, ∀ n ∈ g.held, ∃ c ∈ s.lent, c.ref = n) ∧ ∀ e ∈ L, Own Hands (fun g => g.held = []) e.2.2 e.1

theorem own_move (fuel : Nat) {s : PSys ω} {m : PMove} (hm : m ≠ .call .stop ∧ m ≠ .call .start) (hlent : ∀ c ∈ s.lent, ∃ str w, PEv.created c.ref c.id str w ∈ s.pool.log)
    (hs : Sound (s.move W fuel m).pool) (h : SysOwn s) : SysOwn (s.move W fuel m) := by
  obtain ⟨E, L, hL, hA, hE, hO⟩ := h
  have call : ∀ r : PReq, r ≠ .start ∧ r ≠ .stop → (∀ c, r ≠ .reclaim c) → SysOwn ({ s with calls := s.calls ++ [(r, r.prog W fuel)] } : PSys ω) := by
    intro r hr hc
    refine ⟨E, L ++ [(Hand.mk false (fun _ => none) [] [], r, r.prog W fuel)], by rw [List.map_append, hL]; rfl, ?_, hE, fun e he => ?_⟩
    · rw [List.map_append, ← List.append_assoc]
      exact hA.join
    · rcases List.mem_append.1 he with he | he
      · exact hO e he
      · rw [List.mem_singleton.1 he]
        refine own_prog W fuel r _ hr ?_
        cases r with
        | reclaim c => exact absurd rfl (hc c)
        | _ => exact ⟨rfl, rfl, rfl⟩
  match m, hm, hs with
  | .call (.borrow w), _, _ => exact call _ ⟨by simp, by simp⟩ (by simp)
  | .call .refresh, _, _ => exact call _ ⟨by simp, by simp⟩ (by simp)
  | .call .start, hm, _ => exact absurd rfl hm.2
  | .call .stop, hm, _ => exact absurd rfl hm.1
  | .call (.reclaim c), _, _ =>
    simp only [PSys.move]
    split
    · rename_i hc
      obtain ⟨str, v, hcr⟩ := hlent c hc
      refine ⟨E.map fun g => { g with held := g.held.filter (· ≠ c.ref) }, L ++ [({ held := [c.ref], saw := [.created c.ref c.id str v] }, _, _)], by rw [List.map_append, hL]; rfl, ?_, ?_, ?_⟩
      · rw [List.map_append]
        exact hA.give hcr
      · intro g hg n hn
        obtain ⟨g', hg', rfl⟩ := List.mem_map.1 hg
        obtain ⟨hn, hne⟩ := List.mem_filter.1 hn
        obtain ⟨c', hc', rfl⟩ := hE g' hg' n hn
        have hne : c'.ref ≠ c.ref := by simpa using hne
        exact ⟨c', (List.mem_erase_of_ne (fun h => hne (by rw [h]))).2 hc', rfl⟩
      · intro e he
        rcases List.mem_append.1 he with he | he
        · exact hO e he
        · rw [List.mem_singleton.1 he]
          exact own_prog W fuel (.reclaim c) _ ⟨by simp, by simp⟩ ⟨⟨rfl, rfl, rfl⟩, str, v, List.mem_cons_self⟩
    · exact ⟨E, L, hL, hA, hE, hO⟩
  | .step k, _, hs =>
    simp only [PSys.move] at hs ⊢
    cases hk : s.calls[k]? with
    | none => exact ⟨E, L, hL, hA, hE, hO⟩
    | some e =>
      obtain ⟨r, p⟩ := e
      rw [hk] at hs
      obtain ⟨⟨g, e'⟩, hLk, hge⟩ : ∃ x, L[k]? = some x ∧ x.2 = (r, p) := by
        rw [← hL, List.getElem?_map] at hk
        cases hLk : L[k]? with
        | none => rw [hLk] at hk; cases hk
        | some x => rw [hLk] at hk; exact ⟨x, rfl, by simpa using hk⟩
      simp only at hge
      subst hge
      obtain ⟨L₁, L₂, h1, h2, h3⟩ := split_at hLk
      have hOg := hO _ (List.mem_of_getElem? hLk)
      have hfront : Acct s.pool (g :: (E ++ (L₁ ++ L₂).map (·.1))) := by
        refine hA.perm ?_
        rw [h1, List.map_append, List.map_cons, List.map_append]
        exact (List.Perm.append_left E List.perm_middle).trans List.perm_middle
      cases p with
      | done res =>
        refine ⟨g :: E, L₁ ++ L₂, ?_, hfront, ?_, fun e he => hO e ?_⟩
        · show _ = s.calls.eraseIdx k
          rw [← hL, eraseIdx_map', h2]
        · intro g' hg' n hn
          show ∃ c ∈ s.lent ++ lentBy res, c.ref = n
          rcases List.mem_cons.1 hg' with rfl | hg'
          · cases res with
            | ok a =>
              obtain ⟨c, hc, e⟩ := (show Hands a g' from hOg) n hn
              exact ⟨c, List.mem_append_right _ hc, e⟩
            | err e => rw [show g'.held = [] from hOg] at hn; cases hn
            | panic => rw [show g'.held = [] from hOg] at hn; cases hn
            | fuel => rw [show g'.held = [] from hOg] at hn; cases hn
          · obtain ⟨c, hc, e⟩ := hE g' hg' n hn
            exact ⟨c, List.mem_append_left _ hc, e⟩
        · rw [h1]
          rcases List.mem_append.1 he with he | he
          · exact List.mem_append_left _ he
          · exact List.mem_append_right _ (List.mem_cons_of_mem _ he)
      | act acc en f kk =>
        dsimp only at hs ⊢
        split
        · rename_i hen
          rw [if_pos hen] at hs
          obtain ⟨g', h4, h5⟩ := hOg s.pool _ hen hfront hs
          refine ⟨E, L₁ ++ (g', r, kk s.pool) :: L₂, ?_, ?_, hE, fun e he => ?_⟩
          · show _ = s.calls.set k (r, kk s.pool)
            rw [← hL, ← List.map_set (f := (·.2)) (a := (g', r, kk s.pool)), h3]
          · refine h4.perm ?_
            rw [List.map_append, List.map_append, List.map_cons]
            exact List.perm_middle.symm.trans (List.Perm.append_left E List.perm_middle.symm)
          · rcases List.mem_append.1 he with he | he
            · exact hO e (by rw [h1]; exact List.mem_append_left _ he)
            · rcases List.mem_cons.1 he with rfl | he
              · exact h5
              · exact hO e (by rw [h1]; exact List.mem_append_right _ (List.mem_cons_of_mem _ he))
        · exact ⟨E, L, hL, hA, hE, hO⟩

end
end Verif

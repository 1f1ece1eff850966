/-
The invariant of the routing pool: who holds its mutex, and where each connection is.
-/
import Verif.Proofs.PoolLogic
namespace Verif

/-- What a call in progress owns.
* `mode`: it holds the mutex for reading (`some false`) or writing (`some true`).
* `ws`: wrappers it has taken out of a queue or the map, or just created.
* `toks`: connections in the map of borrowed connections which it may return.
* `perms`: connections it may create.
* `snap w`: the copy it has made of a queue. -/
structure Gh where
  mode : Option Bool := none
  ws : List Wrap := []
  toks : List Wrap := []
  perms : List Bool := []
  snap : Bool → List Wrap := fun _ => []

/-- The connections created so far: number and id. -/
def made : List PEv → List (Nat × Bytes)
  | [] => []
  | .created r id _ _ :: l => (r, id) :: made l
  | _ :: l => made l

theorem made_append : ∀ a b : List PEv, made (a ++ b) = made a ++ made b
  | [], _ => rfl
  | .created .. :: a, b => by simp only [List.cons_append, made, made_append a b]
  | .dialled .. :: a, b => by simp only [List.cons_append, made, made_append a b]
  | .checked .. :: a, b => by simp only [List.cons_append, made, made_append a b]
  | .closed .. :: a, b => by simp only [List.cons_append, made, made_append a b]
  | .overview .. :: a, b => by simp only [List.cons_append, made, made_append a b]

theorem mem_made {r : Nat} {id : Bytes} : ∀ {l : List PEv}, (r, id) ∈ made l ↔ ∃ str w, PEv.created r id str w ∈ l
  | [] => by simp [made]
  | e :: l => by
    cases e with
    | created r' id' str' w' =>
      simp only [made, List.mem_cons, Prod.mk.injEq, mem_made (l := l), PEv.created.injEq]
      constructor
      · rintro (⟨rfl, rfl⟩ | ⟨str, w, h⟩)
        · exact ⟨str', w', .inl ⟨rfl, rfl, rfl, rfl⟩⟩
        · exact ⟨str, w, .inr h⟩
      · rintro ⟨str, w, ⟨rfl, rfl, _, _⟩ | h⟩
        · exact .inl ⟨rfl, rfl⟩
        · exact .inr ⟨str, w, h⟩
    | _ => simp only [made, List.mem_cons, mem_made (l := l), reduceCtorEq, false_or]

/-- No connection id was given twice. -/
def Distinct {ω : Type} (s : RPool ω) : Prop := ((made s.log).map (·.2)).Nodup

section
variable {ω : Type} {st : Bool}

/-- All wrappers that are in a queue (as listed in `q`), in the map of borrowed connections, or in the hands of a call. -/
def allWraps (q : Bool → List Wrap) (b : ConnMap) (gs : List Gh) : List Wrap := q false ++ q true ++ b.map (·.2) ++ gs.flatMap (·.ws)

/-- The number of connections of a kind the pool may have. -/
def RPool.limit (s : RPool ω) (w : Bool) : Nat := if w then s.maxWriteIdle.toNat else s.maxReadIdle.toNat

/-- The number of idle connections of a kind the pool wants at least. -/
def RPool.lower (s : RPool ω) (w : Bool) : Int := if w then s.minWriteIdle else s.minReadIdle

/-- Where the connections are.  `q` contains the queues; it may also contain wrappers `Stop` has removed while a copy of the queue was in use. -/
structure Ledger (st : Bool) (s : RPool ω) (gs : List Gh) (q : Bool → List Wrap) : Prop where
  sub : ∀ w, (s.queueOf w).Sublist (q w)
  snap : ∀ g ∈ gs, ∀ w, (g.snap w).Sublist (q w)
  kind : ∀ w, ∀ x ∈ q w, x.write = w
  key : ∀ e ∈ s.borrowedConns, e.1 = e.2.conn.id
  nodup : ((allWraps q s.borrowedConns gs).map (·.conn.ref)).Nodup
  made : ∀ x ∈ allWraps q s.borrowedConns gs, PEv.created x.conn.ref x.conn.id x.connStr x.write ∈ s.log
  toks : ∀ x ∈ gs.flatMap (·.toks), x ∈ s.borrowedConns.map (·.2)
  toksNodup : ((gs.flatMap (·.toks)).map (·.conn.ref)).Nodup
  cap : st = false → ∀ w, (allWraps q s.borrowedConns gs).countP (·.write == w) + (gs.flatMap (·.perms)).count w ≤ s.limit w

/-- The invariant. -/
structure PInv (st : Bool) (s : RPool ω) (gs : List Gh) : Prop where
  writers : gs.countP (·.mode == some true) = if s.writer then 1 else 0
  readers : gs.countP (·.mode == some false) = s.readers
  excl : s.writer = true → s.readers = 0
  snapMode : ∀ g ∈ gs, ∀ w, g.snap w ≠ [] → g.mode = some true
  refs : ((Verif.made s.log).map (·.1)).Nodup
  fresh : ∀ e ∈ Verif.made s.log, e.1 < s.next
  mins : ∀ w, s.lower w = 0
  ledger : ∃ q, Ledger st s gs q

theorem allWraps_perm {q : Bool → List Wrap} {b : ConnMap} {gs gs' : List Gh} (h : gs.Perm gs') : (allWraps q b gs).Perm (allWraps q b gs') :=
  List.Perm.append_left _ (h.flatMap_right _)

theorem Ledger.perm {s : RPool ω} {gs gs' : List Gh} {q : Bool → List Wrap} (h : gs.Perm gs') (l : Ledger st s gs q) : Ledger st s gs' q where
  sub := l.sub
  snap g hg := l.snap g (h.mem_iff.2 hg)
  kind := l.kind
  key := l.key
  nodup := ((allWraps_perm h).map _).nodup l.nodup
  made x hx := l.made x ((allWraps_perm h).mem_iff.2 hx)
  toks x hx := l.toks x ((h.flatMap_right _).mem_iff.2 hx)
  toksNodup := ((h.flatMap_right _).map _).nodup l.toksNodup
  cap hf w := by rw [← (allWraps_perm h).countP_eq, ← (h.flatMap_right _).count_eq]; exact l.cap hf w

theorem PInv.perm {s : RPool ω} {gs gs' : List Gh} (h : gs.Perm gs') (i : PInv st s gs) : PInv st s gs' where
  writers := by rw [← h.countP_eq]; exact i.writers
  readers := by rw [← h.countP_eq]; exact i.readers
  excl := i.excl
  snapMode g hg := i.snapMode g (h.mem_iff.2 hg)
  refs := i.refs
  fresh := i.fresh
  mins := i.mins
  ledger := let ⟨q, l⟩ := i.ledger; ⟨q, l.perm h⟩

/-- Two states that differ in nothing the invariant speaks about, except that the log has grown, without creation of connections. -/
structure Neutral (s s' : RPool ω) : Prop where
  total : s'.totalConns = s.totalConns
  writer : s'.writer = s.writer
  readers : s'.readers = s.readers
  queue : ∀ w, s'.queueOf w = s.queueOf w
  borrowed : s'.borrowedConns = s.borrowedConns
  limit : ∀ w, s'.limit w = s.limit w
  lower : ∀ w, s'.lower w = s.lower w
  next : s.next ≤ s'.next
  log : ∃ evs, s'.log = s.log ++ evs ∧ Verif.made evs = []

theorem Neutral.ledger {s s' : RPool ω} (n : Neutral s s') {gs : List Gh} {q : Bool → List Wrap} (l : Ledger st s gs q) : Ledger st s' gs q where
  sub w := by rw [n.queue]; exact l.sub w
  snap := l.snap
  kind := l.kind
  key := by rw [n.borrowed]; exact l.key
  nodup := by rw [n.borrowed]; exact l.nodup
  made x hx := by
    obtain ⟨evs, he, _⟩ := n.log
    rw [n.borrowed] at hx
    rw [he]; exact List.mem_append_left _ (l.made x hx)
  toks := by rw [n.borrowed]; exact l.toks
  toksNodup := l.toksNodup
  cap hf w := by rw [n.borrowed, n.limit]; exact l.cap hf w

theorem Neutral.inv {s s' : RPool ω} (n : Neutral s s') {gs : List Gh} (i : PInv st s gs) : PInv st s' gs := by
  obtain ⟨evs, he, hm⟩ := n.log
  have hmade : Verif.made s'.log = Verif.made s.log := by rw [he, made_append, hm, List.append_nil]
  exact {
    writers := by rw [n.writer]; exact i.writers
    readers := by rw [n.readers]; exact i.readers
    excl := by rw [n.writer, n.readers]; exact i.excl
    snapMode := i.snapMode
    refs := by rw [hmade]; exact i.refs
    fresh := by rw [hmade]; exact fun e h => Nat.lt_of_lt_of_le (i.fresh e h) n.next
    mins := fun w => by rw [n.lower]; exact i.mins w
    ledger := let ⟨q, l⟩ := i.ledger; ⟨q, n.ledger l⟩ }

/-- Same belongings. -/
structure Gh.Same (g g' : Gh) : Prop where
  ws : g'.ws = g.ws
  toks : g'.toks = g.toks
  perms : g'.perms = g.perms
  snap : g'.snap = g.snap

theorem Ledger.head {s s' : RPool ω} {g g' : Gh} {F : List Gh} {q : Bool → List Wrap} (hg : Gh.Same g g') (n : Neutral { s with writer := s'.writer, readers := s'.readers } s')
    (l : Ledger st s (g :: F) q) : Ledger st s' (g' :: F) q := by
  have l' : Ledger st { s with writer := s'.writer, readers := s'.readers } (g :: F) q := ⟨l.sub, l.snap, l.kind, l.key, l.nodup, l.made, l.toks, l.toksNodup, l.cap⟩
  have l'' := n.ledger l'
  have hw : allWraps q s'.borrowedConns (g' :: F) = allWraps q s'.borrowedConns (g :: F) := by simp only [allWraps, List.flatMap_cons, hg.ws]
  exact {
    sub := l''.sub
    snap := fun x hx w => by
      rcases List.mem_cons.1 hx with rfl | hx
      · rw [hg.snap]; exact l''.snap g List.mem_cons_self w
      · exact l''.snap x (List.mem_cons_of_mem _ hx) w
    kind := l''.kind
    key := l''.key
    nodup := by rw [hw]; exact l''.nodup
    made := by rw [hw]; exact l''.made
    toks := by rw [List.flatMap_cons, hg.toks]; exact l''.toks
    toksNodup := by rw [List.flatMap_cons, hg.toks]; exact l''.toksNodup
    cap := fun hf w => by rw [hw, List.flatMap_cons, hg.perms]; exact l''.cap hf w }

theorem Ledger.lockHead {s : RPool ω} {g : Gh} {F : List Gh} {q : Bool → List Wrap} (l : Ledger st s (g :: F) q) (b : Bool) (n : Nat) (m : Option Bool) :
    Ledger st { s with writer := b, readers := n } ({ g with mode := m } :: F) q :=
  Ledger.head (s := s) (g := g) ⟨rfl, rfl, rfl, rfl⟩ ⟨rfl, rfl, rfl, fun _ => rfl, rfl, fun _ => rfl, fun _ => rfl, Nat.le_refl _, [], by simp, rfl⟩ l

theorem inv_rlock {s : RPool ω} {g : Gh} {F : List Gh} (hm : g.mode = none) (hs : g.snap = fun _ => []) (hw : s.writer = false) (i : PInv st s (g :: F)) :
    PInv st { s with readers := s.readers + 1 } ({ g with mode := some false } :: F) where
  writers := by have := i.writers; simpa [List.countP_cons, hm] using this
  readers := by have := i.readers; simp [List.countP_cons, hm] at this ⊢; exact this
  excl h := by simp [hw] at h
  snapMode x hx w h := by
    rcases List.mem_cons.1 hx with rfl | hx
    · simp [hs] at h
    · exact i.snapMode x (List.mem_cons_of_mem _ hx) w h
  refs := i.refs
  fresh := i.fresh
  mins := i.mins
  ledger := let ⟨q, l⟩ := i.ledger; ⟨q, l.lockHead s.writer (s.readers + 1) (some false)⟩

theorem inv_runlock {s : RPool ω} {g : Gh} {F : List Gh} (hm : g.mode = some false) (i : PInv st s (g :: F)) :
    PInv st (runlock s) ({ g with mode := none } :: F) := by
  have hs : ∀ w, g.snap w = [] := fun w => Classical.byContradiction fun h => by
    have := i.snapMode g List.mem_cons_self w h
    rw [hm] at this; simp at this
  exact {
    writers := by have := i.writers; rw [List.countP_cons_of_neg (by simp [hm])] at this; rw [List.countP_cons_of_neg (by simp)]; exact this
    readers := by have := i.readers; simp [List.countP_cons, hm, runlock] at this ⊢; omega
    excl := fun h => by have := i.excl h; simp [runlock, this]
    snapMode := fun x hx w h => by
      rcases List.mem_cons.1 hx with rfl | hx
      · exact absurd (hs w) h
      · exact i.snapMode x (List.mem_cons_of_mem _ hx) w h
    refs := i.refs
    fresh := i.fresh
    mins := i.mins
    ledger := let ⟨q, l⟩ := i.ledger; ⟨q, l.lockHead s.writer (s.readers - 1) none⟩ }

theorem inv_lock {s : RPool ω} {g : Gh} {F : List Gh} (hm : g.mode = none) (hw : s.writer = false) (hr : s.readers = 0) (i : PInv st s (g :: F)) :
    PInv st { s with writer := true } ({ g with mode := some true } :: F) where
  writers := by have := i.writers; simp [List.countP_cons, hm, hw] at this ⊢; exact this
  readers := by have := i.readers; simpa [List.countP_cons, hm] using this
  excl _ := hr
  snapMode x hx w h := by
    rcases List.mem_cons.1 hx with rfl | hx
    · rfl
    · exact i.snapMode x (List.mem_cons_of_mem _ hx) w h
  refs := i.refs
  fresh := i.fresh
  mins := i.mins
  ledger := let ⟨q, l⟩ := i.ledger; ⟨q, l.lockHead true s.readers (some true)⟩

/-- Give up the copies of the queues. -/
theorem inv_nosnap {s : RPool ω} {g : Gh} {F : List Gh} (i : PInv st s (g :: F)) : PInv st s ({ g with snap := fun _ => [] } :: F) where
  writers := i.writers
  readers := i.readers
  excl := i.excl
  snapMode x hx w h := by
    rcases List.mem_cons.1 hx with rfl | hx
    · simp at h
    · exact i.snapMode x (List.mem_cons_of_mem _ hx) w h
  refs := i.refs
  fresh := i.fresh
  mins := i.mins
  ledger := let ⟨q, l⟩ := i.ledger; ⟨q, { l with
    snap := fun x hx w => by
      rcases List.mem_cons.1 hx with rfl | hx
      · exact List.nil_sublist _
      · exact l.snap x (List.mem_cons_of_mem _ hx) w }⟩

theorem inv_unlock {s : RPool ω} {g : Gh} {F : List Gh} (hm : g.mode = some true) (hs : g.snap = fun _ => []) (i : PInv st s (g :: F)) :
    PInv st (unlock s) ({ g with mode := none } :: F) where
  writers := by
    have := i.writers
    rw [List.countP_cons_of_pos (by simp [hm])] at this
    rw [List.countP_cons_of_neg (by simp)]
    show _ = 0
    cases hw : s.writer <;> simp only [hw, if_true, if_false, Bool.false_eq_true] at this <;> omega
  readers := by have := i.readers; simpa [List.countP_cons, hm, unlock] using this
  excl h := by simp [unlock] at h
  snapMode x hx w h := by
    rcases List.mem_cons.1 hx with rfl | hx
    · simp [hs] at h
    · exact i.snapMode x (List.mem_cons_of_mem _ hx) w h
  refs := i.refs
  fresh := i.fresh
  mins := i.mins
  ledger := let ⟨q, l⟩ := i.ledger; ⟨q, l.lockHead false s.readers none⟩

/-- While somebody holds the mutex for reading nobody has a copy of a queue. -/
theorem PInv.nosnap {s : RPool ω} {g : Gh} {F : List Gh} (hm : g.mode = some false) (i : PInv st s (g :: F)) : ∀ g' ∈ g :: F, ∀ w, g'.snap w = [] := by
  intro g' hg' w
  refine Classical.byContradiction fun h => ?_
  have h1 := i.snapMode g' hg' w h
  have h2 : 0 < (g :: F).countP (·.mode == some true) := List.countP_pos_iff.2 ⟨g', hg', by simp [h1]⟩
  have h3 : 0 < (g :: F).countP (·.mode == some false) := List.countP_pos_iff.2 ⟨g, List.mem_cons_self, by simp [hm]⟩
  rw [i.writers] at h2
  rw [i.readers] at h3
  cases hw : s.writer
  · simp [hw] at h2
  · have := i.excl hw; omega

/-- Change one of the two queues. -/
def upd (q : Bool → List Wrap) (w : Bool) (l : List Wrap) : Bool → List Wrap := fun v => if v = w then l else q v

theorem queueOf_setQueue (s : RPool ω) (w v : Bool) (l : List Wrap) : (s.setQueue w l).queueOf v = if v = w then l else s.queueOf v := by
  cases w <;> cases v <;> rfl

theorem setQueue_borrowed (s : RPool ω) (w : Bool) (l : List Wrap) : (s.setQueue w l).borrowedConns = s.borrowedConns := by cases w <;> rfl

theorem setQueue_log (s : RPool ω) (w : Bool) (l : List Wrap) : (s.setQueue w l).log = s.log := by cases w <;> rfl

theorem setQueue_total (s : RPool ω) (w : Bool) (l : List Wrap) : (s.setQueue w l).totalConns = s.totalConns := by cases w <;> rfl

theorem setQueue_limit (s : RPool ω) (w v : Bool) (l : List Wrap) : (s.setQueue w l).limit v = s.limit v := by cases w <;> rfl

theorem setQueue_lower (s : RPool ω) (w v : Bool) (l : List Wrap) : (s.setQueue w l).lower v = s.lower v := by cases w <;> rfl

theorem setQueue_next (s : RPool ω) (w : Bool) (l : List Wrap) : (s.setQueue w l).next = s.next := by cases w <;> rfl

theorem setQueue_writer (s : RPool ω) (w : Bool) (l : List Wrap) : (s.setQueue w l).writer = s.writer := by cases w <;> rfl

theorem setQueue_readers (s : RPool ω) (w : Bool) (l : List Wrap) : (s.setQueue w l).readers = s.readers := by cases w <;> rfl

/-- Changing a queue, when only the ledger has to be shown. -/
theorem inv_setQueue {s : RPool ω} {g g' : Gh} {F : List Gh} {w : Bool} {l : List Wrap} (hm : g'.mode = g.mode) (hs : ∀ v, g'.snap v ≠ [] → g.mode = some true)
    (i : PInv st s (g :: F)) (hl : ∃ q, Ledger st (s.setQueue w l) (g' :: F) q) : PInv st (s.setQueue w l) (g' :: F) where
  writers := by rw [setQueue_writer]; have := i.writers; simpa only [List.countP_cons, hm] using this
  readers := by rw [setQueue_readers]; have := i.readers; simpa only [List.countP_cons, hm] using this
  excl := by rw [setQueue_writer, setQueue_readers]; exact i.excl
  snapMode x hx v h := by
    rcases List.mem_cons.1 hx with rfl | hx
    · rw [hm]; exact hs v h
    · exact i.snapMode x (List.mem_cons_of_mem _ hx) v h
  refs := by rw [setQueue_log]; exact i.refs
  fresh := by rw [setQueue_log, setQueue_next]; exact i.fresh
  mins v := by rw [setQueue_lower]; exact i.mins v
  ledger := hl

theorem sublist_cons_split {α : Type} {x : α} {r q : List α} (h : (x :: r).Sublist q) : ∃ a b, q = a ++ x :: b ∧ r.Sublist b := by
  induction q with
  | nil => cases h
  | cons y q ih =>
    cases h with
    | cons _ h => obtain ⟨a, b, h1, h2⟩ := ih h; exact ⟨y :: a, b, by rw [h1]; rfl, h2⟩
    | cons_cons _ h => exact ⟨[], q, rfl, h⟩

/-- A borrower takes the first wrapper out of a queue. -/
theorem inv_dequeue {s : RPool ω} {g : Gh} {F : List Gh} {w : Bool} {x : Wrap} {r : List Wrap} (hm : g.mode = some false) (hq : s.queueOf w = x :: r)
    (i : PInv st s (g :: F)) : PInv st (s.setQueue w r) ({ g with ws := x :: g.ws } :: F) ∧ x.write = w := by
  obtain ⟨q, l⟩ := i.ledger
  have hns := i.nosnap hm
  obtain ⟨a, b, hab, hr⟩ := sublist_cons_split (hq ▸ l.sub w)
  refine ⟨inv_setQueue (g := g) rfl (fun v h => absurd (hns g List.mem_cons_self v) h) i ⟨upd q w (a ++ b), ?_⟩, l.kind w x (by rw [hab]; simp)⟩
  have hp : (allWraps (upd q w (a ++ b)) s.borrowedConns ({ g with ws := x :: g.ws } :: F)).Perm (allWraps q s.borrowedConns (g :: F)) := by
    refine List.perm_iff_count.2 fun y => ?_
    cases w <;> simp only [allWraps, upd, List.flatMap_cons, List.count_append, List.count_cons, hab, if_true, if_false, Bool.false_eq_true, reduceCtorEq] <;> omega
  exact {
    sub := fun v => by
      rw [queueOf_setQueue]
      unfold upd
      split
      · exact hr.trans (List.sublist_append_right a b)
      · exact l.sub v
    snap := fun g' hg' v => by
      rcases List.mem_cons.1 hg' with rfl | hg'
      · rw [show _ = [] from hns g List.mem_cons_self v]; exact List.nil_sublist _
      · rw [hns g' (List.mem_cons_of_mem _ hg') v]; exact List.nil_sublist _
    kind := fun v y hy => by
      unfold upd at hy
      split at hy
      · rename_i hv; subst hv; exact l.kind v y (by rw [hab]; rcases List.mem_append.1 hy with h | h <;> simp [h])
      · exact l.kind v y hy
    key := by rw [setQueue_borrowed]; exact l.key
    nodup := by rw [setQueue_borrowed]; exact (hp.map _).symm.nodup l.nodup
    made := by rw [setQueue_borrowed, setQueue_log]; exact fun y hy => l.made y (hp.mem_iff.1 hy)
    toks := by rw [setQueue_borrowed]; exact l.toks
    toksNodup := l.toksNodup
    cap := fun hf v => by rw [setQueue_borrowed, setQueue_limit, hp.countP_eq]; exact l.cap hf v }

/-- A queue may lose wrappers. -/
theorem inv_shrink {s : RPool ω} {g : Gh} {F : List Gh} {w : Bool} {r : List Wrap} (hr : r.Sublist (s.queueOf w)) (i : PInv st s (g :: F)) :
    PInv st (s.setQueue w r) (g :: F) := by
  obtain ⟨q, l⟩ := i.ledger
  refine inv_setQueue rfl (fun v h => i.snapMode g List.mem_cons_self v h) i ⟨q, ?_⟩
  exact {
    sub := fun v => by
      rw [queueOf_setQueue]
      split
      · rename_i hv; subst hv; exact hr.trans (l.sub v)
      · exact l.sub v
    snap := l.snap
    kind := l.kind
    key := by rw [setQueue_borrowed]; exact l.key
    nodup := by rw [setQueue_borrowed]; exact l.nodup
    made := by rw [setQueue_borrowed, setQueue_log]; exact l.made
    toks := by rw [setQueue_borrowed]; exact l.toks
    toksNodup := l.toksNodup
    cap := fun hf v => by rw [setQueue_borrowed, setQueue_limit]; exact l.cap hf v }

/-- A copy replaces the queue. -/
theorem inv_restore {s : RPool ω} {g : Gh} {F : List Gh} {w : Bool} {r : List Wrap} (hr : r.Sublist (g.snap w)) (i : PInv st s (g :: F)) :
    PInv st (s.setQueue w r) (g :: F) := by
  obtain ⟨q, l⟩ := i.ledger
  refine inv_setQueue rfl (fun v h => i.snapMode g List.mem_cons_self v h) i ⟨q, ?_⟩
  exact {
    sub := fun v => by
      rw [queueOf_setQueue]
      split
      · rename_i hv; subst hv; exact hr.trans (l.snap g List.mem_cons_self v)
      · exact l.sub v
    snap := l.snap
    kind := l.kind
    key := by rw [setQueue_borrowed]; exact l.key
    nodup := by rw [setQueue_borrowed]; exact l.nodup
    made := by rw [setQueue_borrowed, setQueue_log]; exact l.made
    toks := by rw [setQueue_borrowed]; exact l.toks
    toksNodup := l.toksNodup
    cap := fun hf v => by rw [setQueue_borrowed, setQueue_limit]; exact l.cap hf v }

/-- The holder of the mutex copies a queue. -/
theorem inv_snapshot {s : RPool ω} {g : Gh} {F : List Gh} (w : Bool) (hm : g.mode = some true) (i : PInv st s (g :: F)) :
    PInv st s ({ g with snap := upd g.snap w (s.queueOf w) } :: F) := by
  obtain ⟨q, l⟩ := i.ledger
  exact {
    writers := i.writers
    readers := i.readers
    excl := i.excl
    snapMode := fun x hx v h => by
      rcases List.mem_cons.1 hx with rfl | hx
      · exact hm
      · exact i.snapMode x (List.mem_cons_of_mem _ hx) v h
    refs := i.refs
    fresh := i.fresh
    mins := i.mins
    ledger := ⟨q, { l with
      snap := fun x hx v => by
        rcases List.mem_cons.1 hx with rfl | hx
        · simp only [upd]
          split
          · rename_i hv; subst hv; exact l.sub v
          · exact l.snap g List.mem_cons_self v
        · exact l.snap x (List.mem_cons_of_mem _ hx) v }⟩ }

/-- Somebody puts a wrapper into the queue for its kind. -/
theorem inv_enqueue {s : RPool ω} {g : Gh} {F : List Gh} {x : Wrap} {xs : List Wrap} (hx : g.ws = x :: xs)
    (i : PInv st s (g :: F)) : PInv st (s.setQueue x.write (s.queueOf x.write ++ [x])) ({ g with ws := xs } :: F) := by
  obtain ⟨q, l⟩ := i.ledger
  refine inv_setQueue (g := g) rfl (fun v h => i.snapMode g List.mem_cons_self v h) i ⟨upd q x.write (q x.write ++ [x]), ?_⟩
  have hp : (allWraps (upd q x.write (q x.write ++ [x])) s.borrowedConns ({ g with ws := xs } :: F)).Perm (allWraps q s.borrowedConns (g :: F)) := by
    refine List.perm_iff_count.2 fun y => ?_
    cases x.write <;> simp only [allWraps, upd, List.flatMap_cons, List.count_append, List.count_cons, List.count_nil, hx, if_true, if_false, Bool.false_eq_true, reduceCtorEq] <;> omega
  exact {
    sub := fun v => by
      rw [queueOf_setQueue]
      unfold upd
      split
      · exact (l.sub _).append (List.Sublist.refl _)
      · exact l.sub v
    snap := fun g' hg' v => by
      have : (g'.snap v).Sublist (q v) := by
        rcases List.mem_cons.1 hg' with rfl | hg'
        · exact l.snap g List.mem_cons_self v
        · exact l.snap g' (List.mem_cons_of_mem _ hg') v
      unfold upd
      split
      · rename_i hv; subst hv; exact this.trans (List.sublist_append_left _ _)
      · exact this
    kind := fun v y hy => by
      unfold upd at hy
      split at hy
      · rename_i hv
        subst hv
        rcases List.mem_append.1 hy with h | h
        · exact l.kind _ y h
        · rw [List.mem_singleton.1 h]
      · exact l.kind v y hy
    key := by rw [setQueue_borrowed]; exact l.key
    nodup := by rw [setQueue_borrowed]; exact (hp.map _).symm.nodup l.nodup
    made := by rw [setQueue_borrowed, setQueue_log]; exact fun y hy => l.made y (hp.mem_iff.1 hy)
    toks := by rw [setQueue_borrowed]; exact l.toks
    toksNodup := l.toksNodup
    cap := fun hf v => by rw [setQueue_borrowed, setQueue_limit, hp.countP_eq]; exact l.cap hf v }

end
end Verif

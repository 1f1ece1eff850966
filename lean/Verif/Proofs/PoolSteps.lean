/-
Further steps of the routing pool keep the invariant: creating connections, lending them, taking them back.
-/
import Verif.Proofs.PoolInv
namespace Verif

theorem inj_of_nodup_map {α β : Type} {f : α → β} : ∀ {l : List α}, (l.map f).Nodup → ∀ {a b : α}, a ∈ l → b ∈ l → f a = f b → a = b
  | [], _, _, _, h, _, _ => by cases h
  | c :: l, h, a, b, ha, hb, hab => by
    rw [List.map_cons, List.nodup_cons] at h
    rcases List.mem_cons.1 ha with ha | ha <;> rcases List.mem_cons.1 hb with hb | hb
    · rw [ha, hb]
    · exact absurd (List.mem_map.2 ⟨b, hb, by rw [← hab, ha]⟩) h.1
    · exact absurd (List.mem_map.2 ⟨a, ha, by rw [hab, hb]⟩) h.1
    · exact inj_of_nodup_map h.2 ha hb hab

section
variable {ω : Type} {st : Bool}

/-- Two wrappers of the pool with the same connection id are the same. -/
theorem Ledger.same {s : RPool ω} {gs : List Gh} {q : Bool → List Wrap} (l : Ledger st s gs q) (hd : Distinct s) {x y : Wrap}
    (hx : x ∈ allWraps q s.borrowedConns gs) (hy : y ∈ allWraps q s.borrowedConns gs) (h : x.conn.id = y.conn.id) : x = y := by
  have h1 := mem_made.2 ⟨_, _, l.made x hx⟩
  have h2 := mem_made.2 ⟨_, _, l.made y hy⟩
  have := inj_of_nodup_map hd h1 h2 h
  exact inj_of_nodup_map l.nodup hx hy (Prod.mk.inj this).1

/-- Changing what the first ghost owns, and the map, when only the ledger has to be shown. -/
theorem PInv.change {s s' : RPool ω} {g g' : Gh} {F : List Gh} (i : PInv st s (g :: F)) (hw : s'.writer = s.writer) (hr : s'.readers = s.readers)
    (hmin : ∀ w, s'.lower w = s.lower w) (hm : g'.mode = g.mode) (hs : ∀ v, g'.snap v ≠ [] → g.mode = some true) (refs : ((Verif.made s'.log).map (·.1)).Nodup)
    (fresh : ∀ e ∈ Verif.made s'.log, e.1 < s'.next) (hl : ∃ q, Ledger st s' (g' :: F) q) : PInv st s' (g' :: F) where
  writers := by rw [hw]; have := i.writers; simpa only [List.countP_cons, hm] using this
  readers := by rw [hr]; have := i.readers; simpa only [List.countP_cons, hm] using this
  excl := by rw [hw, hr]; exact i.excl
  snapMode x hx v h := by
    rcases List.mem_cons.1 hx with rfl | hx
    · rw [hm]; exact hs v h
    · exact i.snapMode x (List.mem_cons_of_mem _ hx) v h
  refs := refs
  fresh := fresh
  mins w := by rw [hmin]; exact i.mins w
  ledger := hl

/-- A call may forget what it owns. -/
theorem inv_less {s : RPool ω} {g g' : Gh} {F : List Gh} (hm : g'.mode = g.mode) (hw : g'.ws.Sublist g.ws) (ht : g'.toks.Sublist g.toks) (hp : g'.perms.Sublist g.perms)
    (hs : ∀ w, (g'.snap w).Sublist (g.snap w)) (i : PInv st s (g :: F)) : PInv st s (g' :: F) := by
  obtain ⟨q, l⟩ := i.ledger
  have hall : (allWraps q s.borrowedConns (g' :: F)).Sublist (allWraps q s.borrowedConns (g :: F)) := by
    simp only [allWraps, List.flatMap_cons]
    exact List.Sublist.append (List.Sublist.refl _) (hw.append (List.Sublist.refl _))
  have htoks : (List.flatMap (·.toks) (g' :: F)).Sublist (List.flatMap (·.toks) (g :: F)) := by
    simp only [List.flatMap_cons]; exact ht.append (List.Sublist.refl _)
  have hperms : (List.flatMap (·.perms) (g' :: F)).Sublist (List.flatMap (·.perms) (g :: F)) := by
    simp only [List.flatMap_cons]; exact hp.append (List.Sublist.refl _)
  refine i.change rfl rfl (fun _ => rfl) hm (fun v h => i.snapMode g List.mem_cons_self v fun e => h ?_) i.refs i.fresh ⟨q, ?_⟩
  · have := hs v; rw [e] at this; exact List.sublist_nil.1 this
  · exact {
      sub := l.sub
      snap := fun x hx v => by
        rcases List.mem_cons.1 hx with rfl | hx
        · exact (hs v).trans (l.snap g List.mem_cons_self v)
        · exact l.snap x (List.mem_cons_of_mem _ hx) v
      kind := l.kind
      key := l.key
      nodup := (hall.map _).nodup l.nodup
      made := fun x hx => l.made x (hall.subset hx)
      toks := fun x hx => l.toks x (htoks.subset hx)
      toksNodup := (htoks.map _).nodup l.toksNodup
      cap := fun hf w => Nat.le_trans (Nat.add_le_add (hall.countP_le) (hperms.count_le w)) (l.cap hf w) }

/-- Instead of a wrapper it owned a call may create a connection of its kind. -/
theorem inv_exchange {s : RPool ω} {g : Gh} {F : List Gh} {x : Wrap} {xs : List Wrap} (hx : g.ws = x :: xs) (i : PInv st s (g :: F)) :
    PInv st s ({ g with ws := xs, perms := x.write :: g.perms } :: F) := by
  obtain ⟨q, l⟩ := i.ledger
  have hall : (allWraps q s.borrowedConns ({ g with ws := xs, perms := x.write :: g.perms } :: F)).Sublist (allWraps q s.borrowedConns (g :: F)) := by
    simp only [allWraps, List.flatMap_cons, hx]
    exact List.Sublist.append (List.Sublist.refl _) ((List.sublist_cons_self x xs).append (List.Sublist.refl _))
  refine i.change rfl rfl (fun _ => rfl) rfl (fun v h => i.snapMode g List.mem_cons_self v h) i.refs i.fresh ⟨q, ?_⟩
  exact {
    sub := l.sub
    snap := fun y hy v => by
      rcases List.mem_cons.1 hy with rfl | hy
      · exact l.snap g List.mem_cons_self v
      · exact l.snap y (List.mem_cons_of_mem _ hy) v
    kind := l.kind
    key := l.key
    nodup := (hall.map _).nodup l.nodup
    made := fun y hy => l.made y (hall.subset hy)
    toks := l.toks
    toksNodup := l.toksNodup
    cap := fun hf w => by
      have := l.cap hf w
      simp only [allWraps, List.flatMap_cons, hx, List.countP_append, List.countP_cons, List.count_append, List.count_cons] at this ⊢
      omega }

/-- A connection is created. -/
theorem inv_create {s : RPool ω} {g : Gh} {F : List Gh} {w : Bool} {ps : List Bool} (hp : st = true ∨ g.perms = w :: ps) (world : ω) (id str : Bytes) (i : PInv st s (g :: F)) :
    PInv st { s with world := world, next := s.next + 1, log := s.log ++ [.created s.next id str w] }
      ({ g with ws := ⟨⟨s.next, id⟩, str, w⟩ :: g.ws, perms := ps } :: F) := by
  obtain ⟨q, l⟩ := i.ledger
  have hmade : Verif.made (s.log ++ [.created s.next id str w]) = Verif.made s.log ++ [(s.next, id)] := made_append _ _
  have hp' : (allWraps q s.borrowedConns ({ g with ws := ⟨⟨s.next, id⟩, str, w⟩ :: g.ws, perms := ps } :: F)).Perm (⟨⟨s.next, id⟩, str, w⟩ :: allWraps q s.borrowedConns (g :: F)) := by
    refine List.perm_iff_count.2 fun y => ?_
    simp only [allWraps, List.flatMap_cons, List.count_append, List.count_cons]
    omega
  have hnew : s.next ∉ (allWraps q s.borrowedConns (g :: F)).map (·.conn.ref) := by
    intro h
    obtain ⟨y, hy, he⟩ := List.mem_map.1 h
    have := i.fresh _ (mem_made.2 ⟨_, _, l.made y hy⟩)
    exact absurd he (Nat.ne_of_lt this)
  refine i.change rfl rfl (fun _ => rfl) rfl (fun v h => i.snapMode g List.mem_cons_self v h) ?_ ?_ ⟨q, ?_⟩
  · show ((Verif.made (s.log ++ [.created s.next id str w])).map (·.1)).Nodup
    rw [hmade, List.map_append]
    refine List.nodup_append.2 ⟨i.refs, by simp, ?_⟩
    intro a ha b hb
    obtain ⟨e, he, rfl⟩ := List.mem_map.1 ha
    have := i.fresh e he
    simp only [List.map_cons, List.map_nil, List.mem_singleton] at hb
    omega
  · show ∀ e ∈ Verif.made (s.log ++ [.created s.next id str w]), e.1 < s.next + 1
    rw [hmade]
    intro e he
    rcases List.mem_append.1 he with he | he
    · exact Nat.lt_succ_of_lt (i.fresh e he)
    · rw [List.mem_singleton.1 he]; exact Nat.lt_succ_self _
  · exact {
      sub := l.sub
      snap := fun y hy v => by
        rcases List.mem_cons.1 hy with rfl | hy
        · exact l.snap g List.mem_cons_self v
        · exact l.snap y (List.mem_cons_of_mem _ hy) v
      kind := l.kind
      key := l.key
      nodup := by
        refine (hp'.map _).symm.nodup ?_
        rw [List.map_cons]
        exact List.nodup_cons.2 ⟨hnew, l.nodup⟩
      made := fun y hy => by
        rcases List.mem_cons.1 (hp'.mem_iff.1 hy) with rfl | hy
        · exact List.mem_append_right _ List.mem_cons_self
        · exact List.mem_append_left _ (l.made y hy)
      toks := l.toks
      toksNodup := l.toksNodup
      cap := fun hf v => by
        have hp : g.perms = w :: ps := by
          rcases hp with h | h
          · rw [h] at hf
            cases hf
          · exact h
        have := l.cap hf v
        rw [hp'.countP_eq]
        simp only [List.flatMap_cons, hp, List.countP_cons, List.count_append, List.count_cons] at this ⊢
        exact Nat.le_trans (by omega) this }

/-- A wrapper is lent. -/
theorem inv_put {s : RPool ω} {g : Gh} {F : List Gh} {x : Wrap} {xs : List Wrap} (hx : g.ws = x :: xs) (hd : Distinct s) (i : PInv st s (g :: F)) :
    PInv st { s with borrowedConns := s.borrowedConns.put x.conn.id x } ({ g with ws := xs, toks := x :: g.toks } :: F) := by
  obtain ⟨q, l⟩ := i.ledger
  have hxm : x ∈ allWraps q s.borrowedConns (g :: F) := by simp [allWraps, hx]
  have hsub : ∀ e ∈ s.borrowedConns, e.2 ∈ allWraps q s.borrowedConns (g :: F) := fun e he => by
    simp only [allWraps, List.mem_append, List.mem_map]
    exact .inl (.inr ⟨e, he, rfl⟩)
  have hnot : ∀ e ∈ s.borrowedConns, e.2.conn.ref ≠ x.conn.ref := by
    intro e he heq
    have hn := l.nodup
    simp only [allWraps, List.flatMap_cons, hx, List.map_append, List.nodup_append, List.map_map, List.map_cons, List.cons_append] at hn
    exact hn.2.2 e.2.conn.ref (List.mem_append_right _ (List.mem_map.2 ⟨e, he, rfl⟩)) x.conn.ref List.mem_cons_self heq
  have hdel : s.borrowedConns.del x.conn.id = s.borrowedConns := by
    refine List.filter_eq_self.2 fun e he => ?_
    simp only [ne_eq, decide_eq_true_eq]
    intro heq
    rw [l.key e he] at heq
    exact hnot e he (by rw [l.same hd (hsub e he) hxm heq])
  have hput : s.borrowedConns.put x.conn.id x = (x.conn.id, x) :: s.borrowedConns := by rw [ConnMap.put, hdel]
  rw [hput]
  have hp : (allWraps q ((x.conn.id, x) :: s.borrowedConns) ({ g with ws := xs, toks := x :: g.toks } :: F)).Perm (allWraps q s.borrowedConns (g :: F)) := by
    refine List.perm_iff_count.2 fun y => ?_
    simp only [allWraps, List.flatMap_cons, List.count_append, List.count_cons, hx, List.map_cons]
    omega
  refine i.change rfl rfl (fun _ => rfl) rfl (fun v h => i.snapMode g List.mem_cons_self v h) i.refs i.fresh ⟨q, ?_⟩
  exact {
    sub := l.sub
    snap := fun y hy v => by
      rcases List.mem_cons.1 hy with rfl | hy
      · exact l.snap g List.mem_cons_self v
      · exact l.snap y (List.mem_cons_of_mem _ hy) v
    kind := l.kind
    key := fun e he => by
      rcases List.mem_cons.1 he with rfl | he
      · rfl
      · exact l.key e he
    nodup := (hp.map _).symm.nodup l.nodup
    made := fun y hy => l.made y (hp.mem_iff.1 hy)
    toks := fun y hy => by
      simp only [List.flatMap_cons, List.cons_append, List.mem_cons, List.map_cons] at hy ⊢
      rcases hy with rfl | hy
      · exact .inl rfl
      · exact .inr (l.toks y (by rw [List.flatMap_cons]; exact hy))
    toksNodup := by
      have hn := l.toksNodup
      simp only [List.flatMap_cons, List.cons_append, List.map_cons] at hn ⊢
      refine List.nodup_cons.2 ⟨fun h => ?_, hn⟩
      obtain ⟨y, hy, he⟩ := List.mem_map.1 h
      obtain ⟨e, hb, rfl⟩ := List.mem_map.1 (l.toks y (by rw [List.flatMap_cons]; exact hy))
      exact hnot e hb he
    cap := fun hf v => by
      have := l.cap hf v
      rw [hp.countP_eq]
      exact this }

/-- A lent connection is found in the map. -/
theorem get_tok {s : RPool ω} {gs : List Gh} {x : Wrap} (hx : x ∈ gs.flatMap (·.toks)) (hd : Distinct s) (i : PInv st s gs) :
    s.borrowedConns.get? x.conn.id = some x := by
  obtain ⟨q, l⟩ := i.ledger
  obtain ⟨e, he, rfl⟩ := List.mem_map.1 (l.toks x hx)
  have hsub : ∀ e ∈ s.borrowedConns, e.2 ∈ allWraps q s.borrowedConns gs := fun e he => by
    simp only [allWraps, List.mem_append, List.mem_map]
    exact .inl (.inr ⟨e, he, rfl⟩)
  unfold ConnMap.get?
  cases hf : s.borrowedConns.find? fun e' => decide (e'.1 = e.2.conn.id) with
  | none =>
    have := List.find?_eq_none.1 hf e he
    simp [l.key e he] at this
  | some e' =>
    have hm := List.mem_of_find?_eq_some hf
    have hk := List.find?_some hf
    simp only [decide_eq_true_eq] at hk
    rw [l.key e' hm] at hk
    rw [Option.map_some, l.same hd (hsub e' hm) (hsub e he) hk]

/-- A lent connection is taken back. -/
theorem inv_del {s : RPool ω} {g : Gh} {F : List Gh} {x : Wrap} {ts : List Wrap} (hx : g.toks = x :: ts) (hd : Distinct s) (i : PInv st s (g :: F)) :
    PInv st { s with borrowedConns := s.borrowedConns.del x.conn.id } ({ g with toks := ts, ws := x :: g.ws } :: F) := by
  obtain ⟨q, l⟩ := i.ledger
  obtain ⟨e, he, rfl⟩ := List.mem_map.1 (l.toks x (by simp [hx]))
  obtain ⟨a, b, hab⟩ := List.append_of_mem he
  have hsub : ∀ e ∈ s.borrowedConns, e.2 ∈ allWraps q s.borrowedConns (g :: F) := fun e he => by
    simp only [allWraps, List.mem_append, List.mem_map]
    exact .inl (.inr ⟨e, he, rfl⟩)
  have hnd : (s.borrowedConns.map fun e => e.2.conn.ref).Nodup := by
    have hn := l.nodup
    simp only [allWraps, List.map_append, List.nodup_append, List.map_map] at hn
    exact hn.1.2.1
  have hne : ∀ e' ∈ a ++ b, e'.1 ≠ e.2.conn.id := by
    intro e' he' heq
    have hm : e' ∈ s.borrowedConns := by
      rw [hab]
      rcases List.mem_append.1 he' with h | h <;> simp [h]
    rw [l.key e' hm] at heq
    have heq := l.same hd (hsub e' hm) (hsub e he) heq
    rw [hab] at hnd
    have hp : (a ++ e :: b).Perm (e :: (a ++ b)) := List.perm_middle
    have hnd := (hp.map fun e => e.2.conn.ref).nodup hnd
    rw [List.map_cons] at hnd
    exact (List.nodup_cons.1 hnd).1 (List.mem_map.2 ⟨e', he', by rw [heq]⟩)
  have hdel : s.borrowedConns.del e.2.conn.id = a ++ b := by
    rw [ConnMap.del, hab, List.filter_append, List.filter_cons]
    rw [if_neg (by simp [l.key e he])]
    rw [← List.filter_append]
    exact List.filter_eq_self.2 fun e' he' => by simpa using hne e' he'
  rw [hdel]
  have hp : (allWraps q (a ++ b) ({ g with toks := ts, ws := e.2 :: g.ws } :: F)).Perm (allWraps q s.borrowedConns (g :: F)) := by
    refine List.perm_iff_count.2 fun y => ?_
    simp only [allWraps, List.flatMap_cons, List.count_append, List.count_cons, hab, List.map_append, List.map_cons]
    omega
  have hnr : ∀ y ∈ ts ++ F.flatMap (·.toks), y.conn.ref ≠ e.2.conn.ref := by
    have hn := l.toksNodup
    simp only [List.flatMap_cons, hx, List.cons_append, List.map_cons] at hn
    intro y hy heq
    exact (List.nodup_cons.1 hn).1 (List.mem_map.2 ⟨y, hy, heq⟩)
  refine i.change rfl rfl (fun _ => rfl) rfl (fun v h => i.snapMode g List.mem_cons_self v h) i.refs i.fresh ⟨q, ?_⟩
  exact {
    sub := l.sub
    snap := fun y hy v => by
      rcases List.mem_cons.1 hy with rfl | hy
      · exact l.snap g List.mem_cons_self v
      · exact l.snap y (List.mem_cons_of_mem _ hy) v
    kind := l.kind
    key := fun e' he' => l.key e' (by
      rw [hab]
      rcases List.mem_append.1 he' with h | h <;> simp [h])
    nodup := (hp.map _).symm.nodup l.nodup
    made := fun y hy => l.made y (hp.mem_iff.1 hy)
    toks := fun y hy => by
      rw [List.flatMap_cons] at hy
      have hy' : y ∈ (g :: F).flatMap (·.toks) := by
        rw [List.flatMap_cons, hx]; exact List.mem_cons_of_mem _ hy
      obtain ⟨e', he', rfl⟩ := List.mem_map.1 (l.toks y hy')
      rw [hab] at he'
      refine List.mem_map.2 ⟨e', ?_, rfl⟩
      rcases List.mem_append.1 he' with h | h
      · exact List.mem_append_left _ h
      · rcases List.mem_cons.1 h with rfl | h
        · exact absurd rfl (hnr _ hy)
        · exact List.mem_append_right _ h
    toksNodup := by
      have hn := l.toksNodup
      simp only [List.flatMap_cons, hx, List.cons_append, List.map_cons] at hn ⊢
      exact (List.nodup_cons.1 hn).2
    cap := fun hf v => by
      have := l.cap hf v
      rw [hp.countP_eq]
      exact this }

/-- Without the bound on their number nothing depends on the limits. -/
theorem inv_limit {s s' : RPool ω} {gs : List Gh} (i : PInv true s gs) (hw : s'.writer = s.writer) (hr : s'.readers = s.readers)
    (hq : ∀ w, s'.queueOf w = s.queueOf w) (hb : s'.borrowedConns = s.borrowedConns) (hmin : ∀ w, s'.lower w = s.lower w) (hn : s'.next = s.next) (hlog : s'.log = s.log) :
    PInv true s' gs where
  writers := by rw [hw]; exact i.writers
  readers := by rw [hr]; exact i.readers
  excl := by rw [hw, hr]; exact i.excl
  snapMode := i.snapMode
  refs := by rw [hlog]; exact i.refs
  fresh := by rw [hlog, hn]; exact i.fresh
  mins := fun w => by rw [hmin]; exact i.mins w
  ledger := let ⟨q, l⟩ := i.ledger; ⟨q, {
    sub := fun w => by rw [hq]; exact l.sub w
    snap := l.snap
    kind := l.kind
    key := by rw [hb]; exact l.key
    nodup := by rw [hb]; exact l.nodup
    made := by rw [hb, hlog]; exact l.made
    toks := by rw [hb]; exact l.toks
    toksNodup := l.toksNodup
    cap := fun hf => by cases hf }⟩

/-- A call begins: it owns nothing. -/
theorem inv_begin {s : RPool ω} {F : List Gh} (i : PInv st s F) : PInv st s ({} :: F) := by
  obtain ⟨q, l⟩ := i.ledger
  exact {
    writers := by rw [List.countP_cons_of_neg (by simp)]; exact i.writers
    readers := by rw [List.countP_cons_of_neg (by simp)]; exact i.readers
    excl := i.excl
    snapMode := fun x hx w h => by
      rcases List.mem_cons.1 hx with rfl | hx
      · exact absurd rfl h
      · exact i.snapMode x hx w h
    refs := i.refs
    fresh := i.fresh
    mins := i.mins
    ledger := ⟨q, {
      sub := l.sub
      snap := fun x hx w => by
        rcases List.mem_cons.1 hx with rfl | hx
        · exact List.nil_sublist _
        · exact l.snap x hx w
      kind := l.kind
      key := l.key
      nodup := l.nodup
      made := l.made
      toks := l.toks
      toksNodup := l.toksNodup
      cap := l.cap }⟩ }

/-- Lent connections may change hands. -/
theorem inv_hand {s : RPool ω} {a b : Gh} {F : List Gh} {ta tb : List Wrap} (h : (ta ++ tb).Perm (a.toks ++ b.toks)) (i : PInv st s (a :: b :: F)) :
    PInv st s ({ a with toks := ta } :: { b with toks := tb } :: F) := by
  obtain ⟨q, l⟩ := i.ledger
  have hp : (List.flatMap (·.toks) ({ a with toks := ta } :: { b with toks := tb } :: F)).Perm (List.flatMap (·.toks) (a :: b :: F)) := by
    simp only [List.flatMap_cons, ← List.append_assoc]
    exact h.append_right _
  exact {
    writers := i.writers
    readers := i.readers
    excl := i.excl
    snapMode := fun x hx => by
      simp only [List.mem_cons] at hx
      rcases hx with rfl | rfl | hx
      · exact i.snapMode a (by simp)
      · exact i.snapMode b (by simp)
      · exact i.snapMode x (by simp [hx])
    refs := i.refs
    fresh := i.fresh
    mins := i.mins
    ledger := ⟨q, {
      sub := l.sub
      snap := fun x hx => by
        simp only [List.mem_cons] at hx
        rcases hx with rfl | rfl | hx
        · exact l.snap a (by simp)
        · exact l.snap b (by simp)
        · exact l.snap x (by simp [hx])
      kind := l.kind
      key := l.key
      nodup := l.nodup
      made := l.made
      toks := fun y hy => l.toks y (hp.mem_iff.1 hy)
      toksNodup := (hp.map _).symm.nodup l.toksNodup
      cap := l.cap }⟩ }

end
end Verif

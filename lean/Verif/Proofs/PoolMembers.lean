/-
The addresses the routing pool connects to.
-/
import Verif.Proofs.PoolCalls
namespace Verif
open PProg

/-- The members known after some events. -/
def clusterOf (log : List PEv) : Handler := log.foldl (fun h e => match e with | .overview v ans => (h.refreshClusterInfo v ans).1 | _ => h) Handler.empty

theorem clusterOf_snoc (log : List PEv) (e : PEv) :
    clusterOf (log ++ [e]) = match e with | .overview v ans => ((clusterOf log).refreshClusterInfo v ans).1 | _ => clusterOf log := by
  simp only [clusterOf, List.foldl_append, List.foldl_cons, List.foldl_nil]

/-- The addresses of the members for writing or reading. -/
def Handler.addrs (h : Handler) (w : Bool) : List Bytes := if w then h.getWriteConnectionStrings else h.getReadOnlyConnectionString

/-- A string for connecting to a member. -/
def Okay (user tls : Bytes) (h : Handler) (w : Bool) (str : Bytes) : Prop := ∃ a ∈ h.addrs w, str = a ∨ str = addAuthInfoToConnStr user tls a

/-- An address that was reported. -/
def Seen (log : List PEv) (a : Bytes) : Prop := ∃ pre, pre <+: log ∧ ∃ w, a ∈ (clusterOf pre).addrs w

theorem Seen.snoc {log : List PEv} {a : Bytes} (e : PEv) (h : Seen log a) : Seen (log ++ [e]) a := by
  obtain ⟨pre, h1, h2⟩ := h
  exact ⟨pre, h1.trans (List.prefix_append _ _), h2⟩

/-- A connection string made from an address that was reported. -/
def Known (user tls : Bytes) (log : List PEv) (str : Bytes) : Prop := ∃ a, Seen log a ∧ str = addAuthInfoToConnStr user tls a

theorem Known.snoc {user tls : Bytes} {log : List PEv} {str : Bytes} (e : PEv) (h : Known user tls log str) : Known user tls (log ++ [e]) str :=
  let ⟨a, h1, h2⟩ := h; ⟨a, h1.snoc e, h2⟩

/-- The ghost of a call: it holds the mutex for writing; it has fetched members, but not yet replaced the strings; it has chosen a string. -/
structure Gm where
  locked : Bool := false
  stale : Bool := false
  str : Option (Bool × Bytes) := none

section
variable {ω : Type} {lk : Bool} {user tls : Bytes}

/-- The strings for writing or reading. -/
def RPool.strings (s : RPool ω) (w : Bool) : List Bytes := if w then s.rwStrings else s.readStrings

/-- The invariant; `lk`: the pool is shared. -/
structure MInv (lk : Bool) (user tls : Bytes) (s : RPool ω) (gs : List Gm) : Prop where
  shared : lk = true → gs.countP (·.locked) = if s.writer then 1 else 0
  alone : lk = false → s.writer = false
  one : gs.countP (·.locked) ≤ 1
  stale : ∀ g ∈ gs, g.stale = true → g.locked = true
  chose : ∀ g ∈ gs, g.str ≠ none → g.locked = true
  auth : s.userPassPart = user
  cert : s.tlsInfo = tls
  handler : s.handler = clusterOf s.log
  strings : (∀ g ∈ gs, g.stale = false) → ∀ w, ∀ str ∈ s.strings w, Okay user tls s.handler w str
  pending : ∀ g ∈ gs, ∀ w str, g.str = some (w, str) → Okay user tls s.handler w str ∧ Known user tls s.log str
  made : ∀ a r id str w b, s.log = a ++ .created r id str w :: b → Okay user tls (clusterOf a) w str ∧ Known user tls a str
  nodup : ∀ w, (s.strings w).Nodup
  known : ∀ w, ∀ str ∈ s.strings w, Known user tls s.log str
  all : (∀ g ∈ gs, g.stale = false) → ∀ w, ∀ a ∈ s.handler.addrs w, addAuthInfoToConnStr user tls a ∈ s.strings w

theorem MInv.perm {s : RPool ω} {gs gs' : List Gm} (h : gs.Perm gs') (i : MInv lk user tls s gs) : MInv lk user tls s gs' where
  shared hl := by rw [← h.countP_eq]; exact i.shared hl
  alone := i.alone
  one := by rw [← h.countP_eq]; exact i.one
  stale g hg := i.stale g (h.mem_iff.2 hg)
  chose g hg := i.chose g (h.mem_iff.2 hg)
  auth := i.auth
  cert := i.cert
  handler := i.handler
  strings hs := i.strings fun g hg => hs g (h.mem_iff.1 hg)
  pending g hg := i.pending g (h.mem_iff.2 hg)
  made := i.made
  nodup := i.nodup
  known := i.known
  all hs := i.all fun g hg => hs g (h.mem_iff.1 hg)

/-- Who holds the mutex holds it alone. -/
theorem MInv.others {s : RPool ω} {g : Gm} {F : List Gm} (i : MInv lk user tls s (g :: F)) (hg : g.locked = true) : ∀ x ∈ F, x.locked = false := by
  intro x hx
  have h1 := i.one
  rw [List.countP_cons_of_pos (p := fun x : Gm => x.locked) hg] at h1
  have h0 : F.countP (·.locked) = 0 := by omega
  rw [List.countP_eq_zero] at h0
  simpa using h0 x hx

/-- A state change the invariant does not notice. -/
structure Plain (s s' : RPool ω) : Prop where
  writer : s'.writer = s.writer
  user : s'.userPassPart = s.userPassPart
  tls : s'.tlsInfo = s.tlsInfo
  handler : s'.handler = s.handler
  strings : ∀ w, s'.strings w = s.strings w
  log : s'.log = s.log ∨ ∃ e, s'.log = s.log ++ [e] ∧ (∀ v ans, e ≠ .overview v ans) ∧ ∀ r id str w, e ≠ .created r id str w

theorem made_snoc {P : List PEv → Bytes → Bool → Prop} {log : List PEv} {e : PEv} (h : ∀ a r id str w b, log = a ++ .created r id str w :: b → P a str w)
    (he : ∀ r id str w, e = .created r id str w → P log str w) : ∀ a r id str w b, log ++ [e] = a ++ .created r id str w :: b → P a str w := by
  intro a r id str w b hl
  rcases List.eq_nil_or_concat b with rfl | ⟨b', x, rfl⟩
  · obtain ⟨h1, h2⟩ := List.append_inj' hl rfl
    cases h2
    subst h1
    exact he _ _ _ _ rfl
  · rw [List.concat_eq_append, ← List.cons_append, ← List.append_assoc] at hl
    exact h a r id str w b' (List.append_inj' hl rfl).1

theorem Plain.inv {s s' : RPool ω} (n : Plain s s') {gs : List Gm} (i : MInv lk user tls s gs) : MInv lk user tls s' gs where
  shared hl := by rw [n.writer]; exact i.shared hl
  alone hl := by rw [n.writer]; exact i.alone hl
  one := i.one
  stale := i.stale
  chose := i.chose
  auth := n.user.trans i.auth
  cert := n.tls.trans i.cert
  handler := by
    rw [n.handler, i.handler]
    rcases n.log with h | ⟨e, h, h1, _⟩
    · rw [h]
    · rw [h, clusterOf_snoc]
      cases e with
      | overview v ans => exact absurd rfl (h1 v ans)
      | _ => rfl
  strings hs w := by rw [n.strings, n.handler]; exact i.strings hs w
  pending g hg w str he := by
    obtain ⟨h1, h2⟩ := i.pending g hg w str he
    refine ⟨by rw [n.handler]; exact h1, ?_⟩
    rcases n.log with h | ⟨e, h, _, _⟩
    · rw [h]; exact h2
    · rw [h]; exact h2.snoc e
  made := by
    rcases n.log with h | ⟨e, h, _, h2⟩
    · rw [h]; exact i.made
    · rw [h]
      exact made_snoc (P := fun a str w => Okay user tls (clusterOf a) w str ∧ Known user tls a str) i.made fun r id str w he => absurd he (h2 r id str w)
  nodup w := by rw [n.strings]; exact i.nodup w
  known w := by
    rw [n.strings]
    rcases n.log with h | ⟨e, h, _, _⟩
    · rw [h]; exact i.known w
    · rw [h]
      intro str hs
      obtain ⟨a, ha, he⟩ := i.known w str hs
      exact ⟨a, ha.snoc e, he⟩
  all hs w := by rw [n.strings, n.handler]; exact i.all hs w

theorem Plain.refl (s : RPool ω) : Plain s s := ⟨rfl, rfl, rfl, rfl, fun _ => rfl, .inl rfl⟩

/-- The ghost of the head changes, the state does not. -/
theorem MInv.head {s : RPool ω} {g g' : Gm} {F : List Gm} (i : MInv lk user tls s (g :: F)) (hl : g'.locked = g.locked) (hs : g'.stale = g.stale)
    (hc : g'.str ≠ none → g'.locked = true) (hp : ∀ w str, g'.str = some (w, str) → Okay user tls s.handler w str ∧ Known user tls s.log str) : MInv lk user tls s (g' :: F) where
  shared h := by have := i.shared h; rw [List.countP_cons] at this ⊢; rw [hl]; exact this
  alone := i.alone
  one := by have := i.one; rw [List.countP_cons] at this ⊢; rw [hl]; exact this
  stale x hx := by
    rcases List.mem_cons.1 hx with rfl | hx
    · intro h; rw [hl]; exact i.stale g List.mem_cons_self (hs ▸ h)
    · exact i.stale x (List.mem_cons_of_mem _ hx)
  chose x hx := by
    rcases List.mem_cons.1 hx with rfl | hx
    · exact hc
    · exact i.chose x (List.mem_cons_of_mem _ hx)
  auth := i.auth
  cert := i.cert
  handler := i.handler
  strings h := i.strings fun x hx => by
    rcases List.mem_cons.1 hx with rfl | hx
    · rw [← hs]; exact h g' List.mem_cons_self
    · exact h x (List.mem_cons_of_mem _ hx)
  pending x hx := by
    rcases List.mem_cons.1 hx with rfl | hx
    · exact hp
    · exact i.pending x (List.mem_cons_of_mem _ hx)
  made := i.made
  nodup := i.nodup
  known := i.known
  all h := i.all fun x hx => by
    rcases List.mem_cons.1 hx with rfl | hx
    · rw [← hs]; exact h g' List.mem_cons_self
    · exact h x (List.mem_cons_of_mem _ hx)

theorem m_lock {s : RPool ω} {F : List Gm} (hw : s.writer = false) (i : MInv true user tls s (({} : Gm) :: F)) :
    MInv true user tls { s with writer := true } (({ locked := true } : Gm) :: F) where
  shared h := by
    have := i.shared h
    rw [hw, List.countP_cons] at this
    rw [List.countP_cons_of_pos rfl]
    simp at this ⊢
    exact this
  alone h := by cases h
  one := by
    have := i.shared rfl
    rw [hw, List.countP_cons] at this
    rw [List.countP_cons_of_pos rfl]
    simp at this ⊢
    exact this
  stale x hx := by
    rcases List.mem_cons.1 hx with rfl | hx
    · intro _; rfl
    · exact i.stale x (List.mem_cons_of_mem _ hx)
  chose x hx := by
    rcases List.mem_cons.1 hx with rfl | hx
    · intro _; rfl
    · exact i.chose x (List.mem_cons_of_mem _ hx)
  auth := i.auth
  cert := i.cert
  handler := i.handler
  strings h := i.strings fun x hx => by
    rcases List.mem_cons.1 hx with rfl | hx
    · rfl
    · exact h x (List.mem_cons_of_mem _ hx)
  pending x hx := by
    rcases List.mem_cons.1 hx with rfl | hx
    · intro _ _ h; cases h
    · exact i.pending x (List.mem_cons_of_mem _ hx)
  made := i.made
  nodup := i.nodup
  known := i.known
  all h := i.all fun x hx => by
    rcases List.mem_cons.1 hx with rfl | hx
    · rfl
    · exact h x (List.mem_cons_of_mem _ hx)

theorem m_unlock {s : RPool ω} {g : Gm} {F : List Gm} (hl : g.locked = true) (hs : g.stale = false) (i : MInv true user tls s (g :: F)) :
    MInv true user tls (unlock s) (({} : Gm) :: F) := by
  have hw := i.shared rfl
  have h1 := i.one
  rw [List.countP_cons_of_pos (p := fun x : Gm => x.locked) hl] at hw h1
  have h0 : F.countP (·.locked) = 0 := by omega
  exact {
    shared := fun _ => by rw [List.countP_cons]; simp [unlock, h0]
    alone := fun h => by cases h
    one := by rw [List.countP_cons]; simp [h0]
    stale := fun x hx => by
      rcases List.mem_cons.1 hx with rfl | hx
      · intro h; cases h
      · exact i.stale x (List.mem_cons_of_mem _ hx)
    chose := fun x hx => by
      rcases List.mem_cons.1 hx with rfl | hx
      · intro h; exact absurd rfl h
      · exact i.chose x (List.mem_cons_of_mem _ hx)
    auth := i.auth
    cert := i.cert
    handler := i.handler
    strings := fun h => i.strings fun x hx => by
      rcases List.mem_cons.1 hx with rfl | hx
      · exact hs
      · exact h x (List.mem_cons_of_mem _ hx)
    pending := fun x hx => by
      rcases List.mem_cons.1 hx with rfl | hx
      · intro _ _ h; cases h
      · exact i.pending x (List.mem_cons_of_mem _ hx)
    made := i.made
    nodup := i.nodup
    known := i.known
    all := fun h => i.all fun x hx => by
      rcases List.mem_cons.1 hx with rfl | hx
      · exact hs
      · exact h x (List.mem_cons_of_mem _ hx) }

/-- A string of the pool is one for connecting to a member. -/
theorem m_choose {s : RPool ω} {g : Gm} {F : List Gm} (hl : g.locked = true) (hs : g.stale = false) (i : MInv lk user tls s (g :: F)) {w : Bool} {str : Bytes}
    (h : str ∈ s.strings w) : Okay user tls s.handler w str ∧ Known user tls s.log str := by
  refine ⟨i.strings (fun x hx => ?_) w str h, i.known w str h⟩
  rcases List.mem_cons.1 hx with rfl | hx
  · exact hs
  · cases hx' : x.stale with
    | false => rfl
    | true =>
      have := i.stale x (List.mem_cons_of_mem _ hx) hx'
      rw [i.others hl x hx] at this
      cases this

theorem m_create {s : RPool ω} {g : Gm} {F : List Gm} {w : Bool} {str : Bytes} (hg : g.str = some (w, str)) (i : MInv lk user tls s (g :: F)) (world : ω) (n : Nat) (id : Bytes) :
    MInv lk user tls { s with world := world, next := n + 1, log := s.log ++ [.created n id str w] } (g :: F) where
  shared := i.shared
  alone := i.alone
  one := i.one
  stale := i.stale
  chose := i.chose
  auth := i.auth
  cert := i.cert
  handler := by
    show s.handler = _
    rw [clusterOf_snoc]
    exact i.handler
  strings := i.strings
  pending x hx w str h := ⟨(i.pending x hx w str h).1, (i.pending x hx w str h).2.snoc _⟩
  made := by
    refine made_snoc (P := fun a str w => Okay user tls (clusterOf a) w str ∧ Known user tls a str) i.made fun r id' str' w' he => ?_
    cases he
    rw [← i.handler]
    exact i.pending g List.mem_cons_self w str hg
  nodup := i.nodup
  known w str hs := by
    obtain ⟨a, ha, he⟩ := i.known w str hs
    exact ⟨a, ha.snoc _, he⟩
  all := i.all

theorem m_overview {s : RPool ω} {F : List Gm} (i : MInv lk user tls s (({ locked := true } : Gm) :: F)) (world : ω) (v : Nat) (ans : Except Err (List (List Val))) :
    MInv lk user tls { s with world := world, log := s.log ++ [.overview v ans], handler := (s.handler.refreshClusterInfo v ans).1 }
      (({ locked := true, stale := true } : Gm) :: F) where
  shared h := by have := i.shared h; rw [List.countP_cons] at this ⊢; exact this
  alone := i.alone
  one := by have := i.one; rw [List.countP_cons] at this ⊢; exact this
  stale x hx := by
    rcases List.mem_cons.1 hx with rfl | hx
    · intro _; rfl
    · exact i.stale x (List.mem_cons_of_mem _ hx)
  chose x hx := by
    rcases List.mem_cons.1 hx with rfl | hx
    · intro _; rfl
    · exact i.chose x (List.mem_cons_of_mem _ hx)
  auth := i.auth
  cert := i.cert
  handler := by
    show (s.handler.refreshClusterInfo v ans).1 = _
    rw [clusterOf_snoc, i.handler]
  strings h := by
    have := h _ List.mem_cons_self
    cases this
  pending x hx w str h := by
    rcases List.mem_cons.1 hx with rfl | hx
    · cases h
    · have := i.chose x (List.mem_cons_of_mem _ hx) (by rw [h]; simp)
      rw [i.others rfl x hx] at this
      cases this
  made := by
    refine made_snoc (P := fun a str w => Okay user tls (clusterOf a) w str ∧ Known user tls a str) i.made fun r id' str' w' he => ?_
    cases he
  nodup := i.nodup
  known w str hs := by
    obtain ⟨a, ha, he⟩ := i.known w str hs
    exact ⟨a, ha.snoc _, he⟩
  all h := by
    have := h _ List.mem_cons_self
    cases this

theorem contains_mem {l : List Bytes} {e : Bytes} : stringSliceContains l e = true ↔ e ∈ l := by
  induction l with
  | nil => simp [stringSliceContains]
  | cons a l ih =>
    simp only [stringSliceContains, List.mem_cons]
    split
    · rename_i h; simp [h]
    · rename_i h; rw [ih]; constructor
      · exact .inr
      · rintro (h' | h')
        · exact absurd h'.symm h
        · exact h'

theorem mem_addNew {user tls : Bytes} : ∀ {new actual : List Bytes} {str : Bytes}, str ∈ addNew user tls actual new ↔
    str ∈ actual ∨ ∃ a ∈ new, str = addAuthInfoToConnStr user tls a
  | [], actual, str => by simp [addNew]
  | a :: new, actual, str => by
    rw [addNew, mem_addNew]
    simp only [List.mem_cons, exists_eq_or_imp]
    split
    · rename_i h
      rw [contains_mem] at h
      constructor
      · rintro (h' | h')
        · exact .inl h'
        · exact .inr (.inr h')
      · rintro (h' | h' | h')
        · exact .inl h'
        · exact .inl (h' ▸ h)
        · exact .inr h'
    · rw [List.mem_append, List.mem_singleton, or_assoc]

theorem nodup_addNew (user tls : Bytes) : ∀ (new actual : List Bytes), actual.Nodup → (addNew user tls actual new).Nodup
  | [], _, h => h
  | a :: new, actual, h => by
    rw [addNew]
    refine nodup_addNew user tls new _ ?_
    split
    · exact h
    · rename_i hc
      rw [contains_mem] at hc
      refine List.nodup_append.2 ⟨h, by simp, fun x hx y hy e => ?_⟩
      rw [List.mem_singleton.1 hy] at e
      exact hc (e ▸ hx)

theorem takeStrings_mem {s : RPool ω} {w : Bool} {str : Bytes} : str ∈ s.takeStrings.strings w ↔
    (str ∈ s.strings w ∧ str ∈ s.handler.addrs w) ∨ ∃ a ∈ s.handler.addrs w, str = addAuthInfoToConnStr s.userPassPart s.tlsInfo a := by
  have key : ∀ old new : List Bytes, str ∈ addNew s.userPassPart s.tlsInfo (old.filter fun str => stringSliceContains new str) new ↔
      (str ∈ old ∧ str ∈ new) ∨ ∃ a ∈ new, str = addAuthInfoToConnStr s.userPassPart s.tlsInfo a := by
    intro old new
    rw [mem_addNew, List.mem_filter, contains_mem]
  cases w with
  | true => exact key _ _
  | false => exact key _ _

theorem takeStrings_okay (s : RPool ω) (w : Bool) : ∀ str ∈ s.takeStrings.strings w, Okay s.userPassPart s.tlsInfo s.handler w str := by
  intro str h
  have key : ∀ old new : List Bytes, str ∈ addNew s.userPassPart s.tlsInfo (old.filter fun str => stringSliceContains new str) new →
      ∃ a ∈ new, str = a ∨ str = addAuthInfoToConnStr s.userPassPart s.tlsInfo a := by
    intro old new h
    rcases mem_addNew.1 h with h | ⟨a, ha, h⟩
    · exact ⟨str, contains_mem.1 (List.mem_filter.1 h).2, .inl rfl⟩
    · exact ⟨a, ha, .inr h⟩
  cases w with
  | true => exact key _ _ h
  | false => exact key _ _ h

theorem m_take {s : RPool ω} {F : List Gm} (i : MInv lk user tls s (({ locked := true, stale := true } : Gm) :: F)) :
    MInv lk user tls s.takeStrings (({ locked := true } : Gm) :: F) where
  shared h := by have := i.shared h; rw [List.countP_cons] at this ⊢; exact this
  alone := i.alone
  one := by have := i.one; rw [List.countP_cons] at this ⊢; exact this
  stale x hx := by
    rcases List.mem_cons.1 hx with rfl | hx
    · intro _; rfl
    · exact i.stale x (List.mem_cons_of_mem _ hx)
  chose x hx := by
    rcases List.mem_cons.1 hx with rfl | hx
    · intro _; rfl
    · exact i.chose x (List.mem_cons_of_mem _ hx)
  auth := i.auth
  cert := i.cert
  handler := i.handler
  strings _ w str h := by
    have := takeStrings_okay s w str h
    rw [i.auth, i.cert] at this
    exact this
  pending x hx := by
    rcases List.mem_cons.1 hx with rfl | hx
    · intro _ _ h; cases h
    · exact i.pending x (List.mem_cons_of_mem _ hx)
  made := i.made
  nodup w := by
    cases w with
    | true => exact nodup_addNew _ _ _ _ ((i.nodup true).filter _)
    | false => exact nodup_addNew _ _ _ _ ((i.nodup false).filter _)
  known w str h := by
    rcases takeStrings_mem.1 h with ⟨h, _⟩ | ⟨a, ha, he⟩
    · exact i.known w str h
    · refine ⟨a, ⟨s.log, List.prefix_refl _, w, ?_⟩, ?_⟩
      · rw [← i.handler]; exact ha
      · rw [← i.auth, ← i.cert]; exact he
  all _ w a h := takeStrings_mem.2 (.inr ⟨a, h, by rw [i.auth, i.cert]⟩)

end

section
variable {ω : Type} {lk : Bool} {user tls : Bytes} (W : PWorld ω)

/-- All actions are plain. -/
abbrev PlainActs {α : Type} (p : PP ω α) : Prop := Acts (fun _ f => ∀ s, Plain s (f s)) p

/-- The calls keep the invariant. -/
abbrev MSafe (lk : Bool) (user tls : Bytes) {α : Type} (A : α → Gm → Prop) (B : Gm → Prop) (p : PP ω α) (g : Gm) : Prop :=
  Safe (fun _ => True) (MInv lk user tls) A B p g

/-- The call may create connections. -/
def Gm.Fine (g : Gm) : Prop := g.locked = true ∧ g.stale = false

/-- A ghost that may create connections, and has not chosen a string. -/
theorem MInv.clear {s : RPool ω} {g : Gm} {F : List Gm} (i : MInv lk user tls s (g :: F)) (hg : g.Fine) : MInv lk user tls s (({ locked := true } : Gm) :: F) :=
  i.head hg.1.symm hg.2.symm (fun _ => rfl) (fun _ _ h => by cases h)

theorem m_plain {α : Type} : ∀ {p : PP ω α}, PlainActs p → ∀ g, MSafe lk user tls (fun _ g' => g' = g) (fun g' => g' = g) p g
  | .done (.ok _), _, _ => rfl
  | .done (.err _), _, _ => rfl
  | .done .panic, _, _ => rfl
  | .done .fuel, _, _ => rfl
  | .act _ _ _ _, h, g => fun s _ _ hi _ => ⟨g, (h.1 s).inv hi, m_plain (h.2 s) g⟩

theorem m_after {α β : Type} {A : β → Gm → Prop} {B : Gm → Prop} {p : PP ω α} {f : α → PP ω β} {g : Gm} (hp : PlainActs p) (hB : B g)
    (hf : ∀ a, MSafe lk user tls A B (f a) g) : MSafe lk user tls A B (PProg.bind p f) g :=
  Safe.bind (A := fun _ g' => g' = g) (fun a g' h => by subst h; exact hf a) (Safe.mono (fun _ _ h => h) (fun g' h => by subst h; exact hB) (m_plain hp g))

theorem plain_refl {α : Type} {acc : List Access} {m : RPool ω → α × RPool ω} (h : ∀ s, (m s).2 = s) : PlainActs (.prim acc m) :=
  Acts.prim fun s => by dsimp only; rw [h]; exact Plain.refl s

theorem plain_validate (c : ConnRef) : PlainActs (pValidate W c) :=
  Acts.prim fun _ => ⟨rfl, rfl, rfl, rfl, fun _ => rfl, .inr ⟨_, rfl, by simp, by simp⟩⟩

theorem plain_close (r : Nat) : PlainActs (pClose W r) :=
  Acts.prim fun _ => ⟨rfl, rfl, rfl, rfl, fun _ => rfl, .inr ⟨_, rfl, by simp, by simp⟩⟩

theorem plain_delHeld (id : Bytes) : PlainActs (delHeld id : PP ω Unit) := Acts.prim fun _ => ⟨rfl, rfl, rfl, rfl, fun _ => rfl, .inl rfl⟩

theorem plain_putHeld (x : Wrap) : PlainActs (putHeld x : PP ω Unit) := Acts.prim fun _ => ⟨rfl, rfl, rfl, rfl, fun _ => rfl, .inl rfl⟩

theorem plain_setQueue (s : RPool ω) (w : Bool) (q : List Wrap) : Plain s (s.setQueue w q) := by
  cases w <;> exact ⟨rfl, rfl, rfl, rfl, fun v => by cases v <;> rfl, .inl rfl⟩

theorem plain_enqueue (w : Bool) (x : Wrap) : PlainActs (pEnqueue w x : PP ω Unit) := Acts.prim fun s => plain_setQueue s w _

theorem plain_dequeue (w : Bool) : PlainActs (pDequeue w : PP ω (Option Wrap)) := Acts.prim fun s => by
  dsimp only
  cases s.queueOf w with
  | nil => exact Plain.refl s
  | cons x q => exact plain_setQueue s w q

theorem plain_remove (x : Option Wrap) : PlainActs (removeConn W x) := by
  cases x with
  | none => exact Acts.done
  | some x =>
    refine Acts.bind (fun ok => ?_) (plain_validate W x.conn)
    split
    · exact plain_delHeld _
    · refine Acts.bind (fun r => ?_) (plain_close W _)
      split
      · exact Acts.done
      · exact plain_delHeld _

theorem m_newConnection {g : Gm} {w : Bool} {str : Bytes} (hg : g.Fine) (hs : g.str = some (w, str)) :
    MSafe lk user tls (fun _ => Gm.Fine) Gm.Fine (newConnection W w str) g := by
  refine Safe.bind (A := fun _ => Gm.Fine) (fun r g' h => ?_) (Safe.prim fun s F hi _ => ?_)
  · match r with
    | .error e => exact h
    | .ok x => exact m_after (plain_putHeld x) h fun _ => h
  · generalize hc : W.create s.world s.next str = c
    match c with
    | (w', some e) =>
      refine ⟨g, ?_, hg⟩
      exact Plain.inv (s := s) (s' := { s with world := w', next := s.next + 1 }) ⟨rfl, rfl, rfl, rfl, fun _ => rfl, .inl rfl⟩ hi
    | (w', none) => exact ⟨g, m_create hs hi _ _ _, hg⟩

/-- Choosing a string. -/
theorem m_add {g : Gm} (hg : g.Fine) (w : Bool) {acc : List Access} {m : RPool ω → Except (CRes Unit) Bytes × RPool ω}
    (hm : ∀ s, Plain s (m s).2) (hv : ∀ s, match (m s).1 with | .ok str => str ∈ s.strings w | .error r => r ≠ .ok ()) :
    MSafe lk user tls (fun _ => Gm.Fine) Gm.Fine (PProg.bind (.prim acc m) fun str => match str with
      | .error r => .done r
      | .ok str => (do let x ← newConnection W w str; pEnqueue w x : PP ω Unit)) g := by
  refine Safe.bind (A := fun r g' => g'.Fine ∧ match r with | .ok str => g'.str = some (w, str) | .error r => r ≠ .ok ()) (fun r g' h => ?_) (Safe.prim fun s F hi _ => ?_)
  · obtain ⟨hg', h⟩ := h
    match r, h with
    | .ok str, h => exact Safe.bind (fun x g'' h => m_plain (plain_enqueue w x) g'' |>.mono (fun _ _ e => e ▸ h) (fun _ e => e ▸ h)) (m_newConnection W hg' h)
    | .error (.ok ()), h => exact absurd rfl h
    | .error (.err _), _ => exact hg'
    | .error .panic, _ => exact hg'
    | .error .fuel, _ => exact hg'
  · have hv := hv s
    cases hr : (m s).1 with
    | error r => rw [hr] at hv; exact ⟨g, (hm s).inv hi, hg, hv⟩
    | ok str =>
      rw [hr] at hv
      have hok := m_choose hg.1 hg.2 hi hv
      exact ⟨{ g with str := some (w, str) }, (hm s).inv (hi.head rfl rfl (fun _ => hg.1) (fun _ _ h => by cases h; exact hok)), hg, rfl⟩

theorem m_addWrite {g : Gm} (hg : g.Fine) : MSafe lk user tls (fun _ => Gm.Fine) Gm.Fine (addWriteConn W) g := by
  refine m_add W hg true (fun s => ?_) (fun s => ?_)
  · dsimp only
    split
    · exact Plain.refl s
    · exact ⟨rfl, rfl, rfl, rfl, fun _ => rfl, .inl rfl⟩
  · dsimp only
    by_cases h : s.rwStrings = []
    · rw [if_pos h]; simp
    · rw [if_neg h]
      dsimp only
      cases hi : s.rwStrings[if s.rwIndex + 1 = s.rwStrings.length then 0 else s.rwIndex + 1]? with
      | none => simp
      | some str => exact List.mem_of_getElem? hi

theorem m_addRead {g : Gm} (hg : g.Fine) : MSafe lk user tls (fun _ => Gm.Fine) Gm.Fine (addReadConn W) g := by
  refine m_add W hg false (fun s => ?_) (fun s => ?_)
  · dsimp only
    split
    · exact Plain.refl s
    · exact ⟨rfl, rfl, rfl, rfl, fun _ => rfl, .inl rfl⟩
  · dsimp only
    by_cases h : s.readStrings = []
    · rw [if_pos h]; simp
    · rw [if_neg h]
      dsimp only
      cases hi : s.readStrings[if s.readIndex + 1 = s.readStrings.length then 0 else s.readIndex + 1]? with
      | none => simp
      | some str => exact List.mem_of_getElem? hi

theorem m_refresh {g : Gm} (hg : g.Fine) : MSafe lk user tls (fun _ => Gm.Fine) Gm.Fine (refreshConnections W) g := by
  refine m_after (Acts.prim fun s => ?_) hg fun r => ?_
  · dsimp only
    split
    · exact ⟨rfl, rfl, rfl, rfl, fun _ => rfl, .inl rfl⟩
    · exact ⟨rfl, rfl, rfl, rfl, fun _ => rfl, .inr ⟨_, rfl, by simp, by simp⟩⟩
  · cases r with
    | none => exact hg
    | some r =>
      refine Safe.bind (A := fun _ g' => g' = { locked := true, stale := true }) (fun _ g' h => ?_) (Safe.prim fun s F hi _ => ⟨_, m_overview (hi.clear hg) _ _ _, rfl⟩)
      subst h
      refine Safe.bind (A := fun _ g' => g' = { locked := true }) (fun _ g' h => ?_) (Safe.prim fun s F hi _ => ⟨_, m_take hi, rfl⟩)
      subst h
      exact m_after (plain_close W r) ⟨rfl, rfl⟩ fun _ => ⟨rfl, rfl⟩

theorem m_times {step : PP ω Unit} (hs : ∀ {g : Gm}, g.Fine → MSafe lk user tls (fun _ => Gm.Fine) Gm.Fine step g) :
    ∀ (n : Nat) {g : Gm}, g.Fine → MSafe lk user tls (fun _ => Gm.Fine) Gm.Fine (times n step) g
  | 0, _, h => h
  | n + 1, _, h => Safe.bind (fun _ _ h' => m_times hs n h') (hs h)

theorem m_startRest {g : Gm} (hg : g.Fine) (a b : Int) : MSafe lk user tls (fun _ => Gm.Fine) Gm.Fine (startRest W a b) g :=
  Safe.bind (fun _ _ h => Safe.bind (fun _ _ h' => m_times (m_addRead W) _ h') (m_times (m_addWrite W) _ h)) (m_refresh W hg)

theorem plain_pruneReads : ∀ xs reads, PlainActs (pruneReads W xs reads)
  | [], _ => Acts.done
  | x :: xs, reads => by
    refine Acts.bind (fun m => ?_) (plain_refl fun _ => rfl)
    split
    · exact Acts.bind (fun _ => plain_pruneReads xs _) (plain_close W _)
    · exact plain_pruneReads xs _

theorem plain_pruneWrites : ∀ xs writes, PlainActs (pruneWrites W xs writes)
  | [], _ => Acts.done
  | x :: xs, writes => by
    refine Acts.bind (fun m => ?_) (plain_refl fun _ => rfl)
    split
    · exact Acts.bind (fun _ => plain_pruneWrites xs _) (plain_remove W _).attempt
    · exact plain_pruneWrites xs _

theorem plain_prune : PlainActs (prune W) :=
  Acts.bind (fun _ => Acts.bind (fun reads => Acts.bind (fun _ => Acts.bind (fun writes => Acts.bind (fun _ => Acts.prim fun s => plain_setQueue s false reads)
    (Acts.prim fun s => plain_setQueue s true writes)) (plain_pruneWrites W _ _)) (plain_refl fun _ => rfl)) (plain_pruneReads W _ _)) (plain_refl fun _ => rfl)

theorem m_whileSize (w : Bool) (n : RPool ω → Int) {step : PP ω Unit} (hs : ∀ {g : Gm}, g.Fine → MSafe lk user tls (fun _ => Gm.Fine) Gm.Fine step g) :
    ∀ fuel {g : Gm}, g.Fine → MSafe lk user tls (fun _ => Gm.Fine) Gm.Fine (whileSize w n step fuel) g
  | 0, _, h => h
  | fuel + 1, g, h => by
    refine m_after (plain_refl fun _ => rfl) h fun go => ?_
    split
    · exact Safe.bind (A := fun _ => Gm.Fine) (fun _ _ h' => m_whileSize w n hs fuel h') ((hs h).attempt.mono (fun _ _ h => h.elim (·.2) (·.2)) (fun _ h => h))
    · exact h

theorem m_takeOut {g : Gm} (hg : g.Fine) (w : Bool) : MSafe lk user tls (fun _ => Gm.Fine) Gm.Fine (do removeConn W (← pDequeue w) : PP ω Unit) g :=
  m_after (plain_dequeue w) hg fun _ => (m_plain (plain_remove W _) g).mono (fun _ _ e => e ▸ hg) (fun _ e => e ▸ hg)

theorem m_balance (fuel : Nat) {g : Gm} (hg : g.Fine) : MSafe lk user tls (fun _ => Gm.Fine) Gm.Fine (balance W fuel) g := by
  have third : ∀ {g : Gm}, g.Fine → MSafe lk user tls (fun _ => Gm.Fine) Gm.Fine (do
      match ← pCompare false with
      | .lt => whileSize false (·.minReadIdle) (addReadConn W) fuel
      | .gt => whileSize false (·.maxReadIdle) (do removeConn W (← pDequeue false)) fuel
      | .eq => pure () : PP ω Unit) g := by
    intro g hg
    refine m_after (plain_refl fun _ => rfl) hg fun o => ?_
    cases o with
    | lt => exact m_whileSize _ _ (m_addRead W) fuel hg
    | gt => exact m_whileSize _ _ (fun h => m_takeOut W h false) fuel hg
    | eq => exact hg
  have second : ∀ {g : Gm}, g.Fine → MSafe lk user tls (fun _ => Gm.Fine) Gm.Fine (do
      match ← pCompare true with
      | .lt => whileSize true (·.minWriteIdle) (addWriteConn W) fuel
      | .gt => whileSize true (·.maxWriteIdle) (do removeConn W (← pDequeue true)) fuel
      | .eq => pure ()
      match ← pCompare false with
      | .lt => whileSize false (·.minReadIdle) (addReadConn W) fuel
      | .gt => whileSize false (·.maxReadIdle) (do removeConn W (← pDequeue false)) fuel
      | .eq => pure () : PP ω Unit) g := by
    intro g hg
    refine m_after (plain_refl fun _ => rfl) hg fun o => ?_
    cases o with
    | lt => exact Safe.bind (fun _ _ h => third h) (m_whileSize _ _ (m_addWrite W) fuel hg)
    | gt => exact Safe.bind (fun _ _ h => third h) (m_whileSize _ _ (fun h => m_takeOut W h true) fuel hg)
    | eq => exact third hg
  refine m_after (plain_refl fun _ => rfl) hg fun o => ?_
  cases o with
  | lt => exact Safe.bind (fun _ _ h => second h) (m_whileSize _ _ (m_addRead W) fuel hg)
  | gt => exact second hg
  | eq => exact second hg

theorem m_locking : MSafe true user tls (fun _ g' => g' = { locked := true }) (fun _ => True) (lock : PP ω Unit) {} :=
  fun s _ he hi _ => by
    simp only [Bool.and_eq_true, Bool.not_eq_eq_eq_not, Bool.not_true, decide_eq_true_eq] at he
    exact ⟨_, m_lock he.1 hi, rfl⟩

theorem m_refreshRound (fuel : Nat) : MSafe true user tls (fun _ _ => True) (fun _ => True) (refreshRound W fuel) {} := by
  refine Safe.bind (fun _ g' h => ?_) m_locking
  subst h
  refine Safe.bind (fun _ g' h => ?_) ((m_refresh W ⟨rfl, rfl⟩).mono (fun _ _ h => h) (fun _ _ => trivial))
  refine m_after (plain_prune W) trivial fun _ => ?_
  refine Safe.bind (fun _ g' h => ?_) ((m_balance W fuel h).mono (fun _ _ h => h) (fun _ _ => trivial))
  exact Safe.prim fun s F hi _ => ⟨{}, m_unlock h.1 h.2 hi, trivial⟩

theorem plain_drain (w : Bool) : ∀ fuel, PlainActs (drain W w fuel)
  | 0 => Acts.done
  | fuel + 1 => by
    refine Acts.bind (fun n => ?_) (plain_refl fun _ => rfl)
    split
    · exact Acts.done
    · exact Acts.bind (fun _ => Acts.bind (fun _ => plain_drain w fuel) (plain_remove W _)) (plain_dequeue w)

theorem plain_stop (fuel : Nat) : PlainActs (stop W fuel) := by
  refine Acts.bind (fun ok => ?_) (plain_refl fun _ => rfl)
  split
  · exact Acts.bind (fun _ => Acts.bind (fun _ => plain_drain W true fuel) (plain_drain W false fuel)) (Acts.prim fun _ => ⟨rfl, rfl, rfl, rfl, fun _ => rfl, .inl rfl⟩)
  · exact Acts.done

theorem plain_internalBorrow (w : Bool) : ∀ fuel, PlainActs (internalBorrow W w fuel)
  | 0 => Acts.done
  | fuel + 1 => by
    refine Acts.bind (fun x => ?_) (plain_dequeue w)
    cases x with
    | none => exact Acts.done
    | some x =>
      refine Acts.bind (fun m => ?_) (plain_refl fun _ => rfl)
      split
      · exact Acts.bind (fun _ => plain_internalBorrow w fuel) (plain_remove W x)
      · refine Acts.bind (fun ok => ?_) (plain_validate W _)
        split
        · refine Acts.bind (fun _ => ?_) (plain_delHeld _)
          exact Acts.bind (fun _ => Acts.done) (Acts.prim fun _ => ⟨rfl, rfl, rfl, rfl, fun _ => rfl, .inl rfl⟩)
        · exact Acts.bind (fun _ => plain_internalBorrow w fuel) (plain_remove W x)

theorem plain_borrow (w : Bool) (fuel : Nat) :
    PlainActs (do rlock; PProg.deferred runlock (do let x ← internalBorrow W w fuel; pure x.conn) : PP ω ConnRef) :=
  Acts.bind (fun _ => Acts.deferred (fun _ => ⟨rfl, rfl, rfl, rfl, fun _ => rfl, .inl rfl⟩) (Acts.bind (fun _ => Acts.done) (plain_internalBorrow W w fuel)))
    ⟨fun _ => ⟨rfl, rfl, rfl, rfl, fun _ => rfl, .inl rfl⟩, fun _ => Acts.done⟩

theorem m_reclaim (c : ConnRef) : MSafe true user tls (fun _ _ => True) (fun _ => True) (reclaim W c) {} := by
  refine Safe.bind (fun _ g' h => ?_) m_locking
  subst h
  refine Safe.deferred (A := fun _ => Gm.Fine) (B := Gm.Fine) (fun _ g s F h hi _ => ⟨{}, m_unlock h.1 h.2 hi, trivial⟩) (fun g s F h hi _ => ⟨{}, m_unlock h.1 h.2 hi, trivial⟩) ?_
  refine m_after (plain_refl fun _ => rfl) ⟨rfl, rfl⟩ fun ok => ?_
  split
  · exact ⟨rfl, rfl⟩
  · refine m_after (plain_refl fun _ => rfl) ⟨rfl, rfl⟩ fun o => ?_
    cases o with
    | none =>
      refine m_after (plain_close W _) ⟨rfl, rfl⟩ fun r => ?_
      cases r <;> exact ⟨rfl, rfl⟩
    | some x =>
      refine m_after (Acts.prim fun _ => ⟨rfl, rfl, rfl, rfl, fun _ => rfl, .inl rfl⟩) ⟨rfl, rfl⟩ fun _ => ?_
      refine m_after (Acts.prim fun _ => ⟨rfl, rfl, rfl, rfl, fun _ => rfl, .inl rfl⟩) ⟨rfl, rfl⟩ fun _ => ?_
      refine m_after (plain_validate W _) ⟨rfl, rfl⟩ fun ok => ?_
      refine m_after (p := if ok = true then pure none else (removeConn W (some x)).attempt) ?_ ⟨rfl, rfl⟩ fun bad => ?_
      · split
        · exact Acts.done
        · exact (plain_remove W x).attempt
      · cases bad with
        | some _ =>
          dsimp only
          split
          · exact m_addWrite W ⟨rfl, rfl⟩
          · exact m_addRead W ⟨rfl, rfl⟩
        | none => exact (m_plain (plain_enqueue _ _) _).mono (fun _ _ e => by rw [e]; exact ⟨rfl, rfl⟩) (fun _ e => by rw [e]; exact ⟨rfl, rfl⟩)

theorem m_prog (fuel : Nat) (r : PReq) (hr : r ≠ .start) : MSafe true user tls (fun _ _ => True) (fun _ => True) (r.prog W fuel) {} := by
  match r with
  | .borrow true => exact m_after (plain_borrow W true fuel) trivial fun _ => trivial
  | .borrow false => exact m_after (plain_borrow W false fuel) trivial fun _ => trivial
  | .reclaim c =>
    refine Safe.bind (fun _ _ _ => ?_) (m_reclaim W c)
    trivial
  | .start => exact absurd rfl hr
  | .stop => exact m_after (plain_stop W fuel) trivial fun _ => trivial
  | .refresh =>
    refine Safe.bind (fun _ _ _ => ?_) (m_refreshRound W fuel)
    trivial

/-- A call begins. -/
theorem m_begin {s : RPool ω} {F : List Gm} (i : MInv true user tls s F) : MInv true user tls s (({} : Gm) :: F) where
  shared h := by rw [List.countP_cons]; simpa using i.shared h
  alone := i.alone
  one := by rw [List.countP_cons]; simpa using i.one
  stale x hx := by
    rcases List.mem_cons.1 hx with rfl | hx
    · intro h; cases h
    · exact i.stale x hx
  chose x hx := by
    rcases List.mem_cons.1 hx with rfl | hx
    · intro h; exact absurd rfl h
    · exact i.chose x hx
  auth := i.auth
  cert := i.cert
  handler := i.handler
  strings h := i.strings fun x hx => h x (List.mem_cons_of_mem _ hx)
  pending x hx := by
    rcases List.mem_cons.1 hx with rfl | hx
    · intro _ _ h; cases h
    · exact i.pending x hx
  made := i.made
  nodup := i.nodup
  known := i.known
  all h := i.all fun x hx => h x (List.mem_cons_of_mem _ hx)

end
end Verif

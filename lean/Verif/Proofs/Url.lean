/-
Facts about the URL parser.
-/
import Verif.Model.Client
namespace Verif
namespace Url

theorem cut_none {c : UInt8} {s : Bytes} (h : c ∉ s) : cut c s = (s, none) := by
  induction s with
  | nil => rfl
  | cons x xs ih =>
    have hx : x ≠ c := fun e => h (by rw [e]; exact List.mem_cons_self ..)
    unfold cut
    rw [if_neg hx, ih fun hm => h (List.mem_cons_of_mem _ hm)]

theorem cut_append {c : UInt8} {a : Bytes} (b : Bytes) (h : c ∉ a) : cut c (a ++ c :: b) = (a, some b) := by
  induction a with
  | nil => simp [cut]
  | cons x xs ih =>
    have hx : x ≠ c := fun e => h (by rw [e]; exact List.mem_cons_self ..)
    rw [List.cons_append]
    unfold cut
    rw [if_neg hx, ih fun hm => h (List.mem_cons_of_mem _ hm)]

theorem cut_not_mem (c : UInt8) (s : Bytes) : c ∉ (cut c s).1 := by
  induction s with
  | nil => exact List.not_mem_nil
  | cons x xs ih =>
    unfold cut
    split
    · exact List.not_mem_nil
    · next hx =>
      intro hm
      rcases List.mem_cons.mp hm with e | hm
      · exact hx e.symm
      · exact ih hm

/-- The first part is a prefix. -/
theorem cut_prefix (c : UInt8) (s : Bytes) : (cut c s).1 <+: s := by
  induction s with
  | nil => exact List.prefix_refl _
  | cons x xs ih =>
    unfold cut
    split
    · exact List.nil_prefix
    · exact (List.prefix_cons_inj x).mpr ih

theorem cut_some {c : UInt8} {s a b : Bytes} (h : cut c s = (a, some b)) : s = a ++ c :: b := by
  induction s generalizing a with
  | nil => cases h
  | cons x xs ih =>
    unfold cut at h
    split at h
    · next hx => cases h; rw [hx]; rfl
    · have h1 := congrArg Prod.fst h
      have h2 := congrArg Prod.snd h
      simp only at h1 h2
      rw [← h1, List.cons_append, ← ih (Prod.ext rfl h2)]

/-- Nothing before the separator: a prefix without it is kept. -/
theorem cut_append_left {c : UInt8} {a : Bytes} (s : Bytes) (h : c ∉ a) : cut c (a ++ s) = (a ++ (cut c s).1, (cut c s).2) := by
  induction a with
  | nil => rfl
  | cons x xs ih =>
    have hx : x ≠ c := fun e => h (by rw [e]; exact List.mem_cons_self ..)
    rw [List.cons_append]
    conv => lhs; unfold cut
    rw [if_neg hx, ih fun hm => h (List.mem_cons_of_mem _ hm)]
    rfl

theorem lastCut_none {c : UInt8} {s : Bytes} (h : c ∉ s) : lastCut c s = none := by
  induction s with
  | nil => rfl
  | cons x xs ih =>
    have hx : x ≠ c := fun e => h (by rw [e]; exact List.mem_cons_self ..)
    unfold lastCut
    rw [ih fun hm => h (List.mem_cons_of_mem _ hm)]
    exact if_neg hx

theorem lastCut_append {c : UInt8} (a : Bytes) {b : Bytes} (h : c ∉ b) : lastCut c (a ++ c :: b) = some (a, b) := by
  induction a with
  | nil =>
    rw [List.nil_append]
    unfold lastCut
    rw [lastCut_none h]
    exact if_pos rfl
  | cons x xs ih =>
    rw [List.cons_append]
    unfold lastCut
    rw [ih]

theorem lastCut_some {c : UInt8} {s a b : Bytes} (h : lastCut c s = some (a, b)) : s = a ++ c :: b := by
  induction s generalizing a b with
  | nil => cases h
  | cons x xs ih =>
    unfold lastCut at h
    split at h
    · next a' b' he => cases h; rw [List.cons_append, ← ih he]
    · split at h
      · next hx => cases h; rw [hx]; rfl
      · cases h

theorem splitAll_none {c : UInt8} {s : Bytes} (h : c ∉ s) : splitAll c s = [s] := by
  induction s with
  | nil => rfl
  | cons x xs ih =>
    have hx : x ≠ c := fun e => h (by rw [e]; exact List.mem_cons_self ..)
    unfold splitAll
    rw [ih fun hm => h (List.mem_cons_of_mem _ hm)]
    exact if_neg hx

theorem splitAll_ne_nil (c : UInt8) (s : Bytes) : splitAll c s ≠ [] := by
  cases s with
  | nil => simp [splitAll]
  | cons x xs =>
    unfold splitAll
    split
    · simp
    · split <;> simp

theorem splitAll_append {c : UInt8} {a : Bytes} (b : Bytes) (h : c ∉ a) : splitAll c (a ++ c :: b) = a :: splitAll c b := by
  induction a with
  | nil =>
    rw [List.nil_append]
    conv => lhs; unfold splitAll
    split
    · next hn => exact absurd hn (splitAll_ne_nil c b)
    · next p ps he => rw [if_pos rfl, he]
  | cons x xs ih =>
    have hx : x ≠ c := fun e => h (by rw [e]; exact List.mem_cons_self ..)
    rw [List.cons_append]
    conv => lhs; unfold splitAll
    rw [ih fun hm => h (List.mem_cons_of_mem _ hm)]
    exact if_neg hx

/-- Unescaping never lengthens, and shortens if there is something to unescape. -/
theorem unescape_length {m : Mode} : (n : Nat) → {s t : Bytes} → s.length ≤ n → unescape m s = some t →
    t.length ≤ s.length ∧ (0x25 ∈ s → t.length < s.length)
  | _, [], t, _, h => by unfold unescape at h; cases h; simp
  | 0, _ :: _, _, hn, _ => by simp at hn
  | n + 1, c :: rest, t, hn, h => by
    unfold unescape at h
    split at h
    · split at h
      · next a b rest' =>
        split at h
        · cases h
        · split at h
          · cases h
          · split at h
            · cases h
            · obtain ⟨r, hr, rfl⟩ := Option.map_eq_some_iff.mp h
              have := (unescape_length n (by simp only [List.length_cons] at hn ⊢; omega) hr).1
              simp only [List.length_cons]
              exact ⟨by omega, fun _ => by omega⟩
      · cases h
    · next hc =>
      have key : ∀ x, (unescape m rest).map (fun r => x :: r) = some t → t.length ≤ (c :: rest).length ∧ (0x25 ∈ c :: rest → t.length < (c :: rest).length) := by
        intro x h
        obtain ⟨r, hr, rfl⟩ := Option.map_eq_some_iff.mp h
        have := unescape_length n (by simp only [List.length_cons] at hn ⊢; omega) hr
        simp only [List.length_cons]
        refine ⟨by omega, fun hm => ?_⟩
        rcases List.mem_cons.mp hm with e | hm
        · exact absurd e.symm hc
        · have := this.2 hm; omega
      split at h
      · exact key _ h
      · split at h
        · cases h
        · exact key _ h

/-- Nothing to unescape and no forbidden character: unchanged. -/
theorem unescape_plain {m : Mode} {s : Bytes} (hp : 0x25 ∉ s) (hq : m ≠ .query ∨ 0x2B ∉ s) (hh : m = .host ∨ m = .zone → ∀ b ∈ s, hostChar b = true) :
    unescape m s = some s := by
  induction s with
  | nil => rfl
  | cons c rest ih =>
    have hc : c ≠ 0x25 := fun e => hp (by rw [e]; exact List.mem_cons_self ..)
    have ih := ih (fun hm => hp (List.mem_cons_of_mem _ hm)) (hq.imp id fun h hm => h (List.mem_cons_of_mem _ hm))
      (fun h b hb => hh h b (List.mem_cons_of_mem _ hb))
    unfold unescape
    rw [if_neg hc, ih]
    split
    · next h2 =>
      rcases hq with hq | hq
      · rw [if_neg hq, h2]; rfl
      · exact absurd (by rw [h2]; exact List.mem_cons_self ..) hq
    · rw [if_neg]
      · rfl
      · rintro ⟨h1, _, h2⟩
        rw [hh h1 c (List.mem_cons_self ..)] at h2
        cases h2

/-- Two prefixes of the same string. -/
theorem prefix_stop {c : UInt8} {A Z tail : Bytes} (h : A <+: Z ++ tail) (ht : tail = [] ∨ tail.head? = some c) (hc : c ∉ A) : A <+: Z := by
  rcases List.prefix_or_prefix_of_prefix h (List.prefix_append Z tail) with h1 | ⟨r, rfl⟩
  · exact h1
  · have hr : r <+: tail := (List.prefix_append_right_inj Z).mp h
    cases r with
    | nil => rw [List.append_nil]; exact List.prefix_refl _
    | cons x r =>
      obtain ⟨t, rfl⟩ := hr
      rcases ht with ht | ht
      · cases ht
      · simp only [List.cons_append, List.head?_cons, Option.some.injEq] at ht
        exact absurd (by rw [ht]; simp) hc

/-- The last separator of a string is where it should be. -/
theorem sep_unique {c : UInt8} {ui h X hp : Bytes} (hpre : ui ++ c :: h <+: X ++ c :: hp) (hlen : X.length ≤ ui.length) (hc : c ∉ hp) : ui = X := by
  induction X generalizing ui with
  | nil =>
    cases ui with
    | nil => rfl
    | cons x ui =>
      rw [List.nil_append, List.cons_append] at hpre
      have := (List.cons_prefix_cons.mp hpre).2
      exact absurd (this.subset (by simp)) hc
  | cons x X ih =>
    cases ui with
    | nil => simp at hlen
    | cons y ui =>
      rw [List.cons_append, List.cons_append] at hpre
      obtain ⟨rfl, h2⟩ := List.cons_prefix_cons.mp hpre
      rw [ih h2 (by simpa using hlen)]

theorem decimalF_digits : (fuel n : Nat) → ∀ b ∈ decimalF fuel n, isDigit b = true
  | 0, _, b, h => absurd h List.not_mem_nil
  | fuel + 1, n, b, h => by
    have key : ∀ k < 10, isDigit (UInt8.ofNat (0x30 + k)) = true := by decide
    unfold decimalF at h
    split at h
    · next hn => rw [List.mem_singleton] at h; subst h; exact key n hn
    · rcases List.mem_append.mp h with h | h
      · exact decimalF_digits fuel _ b h
      · rw [List.mem_singleton] at h; subst h; exact key _ (Nat.mod_lt _ (by decide))

theorem decimal_digits (n : Nat) : ∀ b ∈ decimal n, isDigit b = true := decimalF_digits _ _

/-- The schemes this driver writes. -/
def OurScheme (s : Bytes) : Prop := s = ascii "bolt" ∨ s = ascii "bolt+routing"

theorem getscheme_ours {s : Bytes} (h : OurScheme s) (rest : Bytes) : getscheme (s ++ 0x3A :: rest) = some (s, rest) := by
  unfold getscheme
  rcases h with rfl | rfl
  · simp [ascii, getschemeFrom, isLower, isUpper, isDigit]
  · simp [ascii, getschemeFrom, isLower, isUpper, isDigit]

theorem toLower_ours {s : Bytes} (h : OurScheme s) : toLower s = s := by
  rcases h with rfl | rfl <;> decide

theorem not_mem_ours {s : Bytes} (h : OurScheme s) : 0x23 ∉ s ∧ 0x3F ∉ s ∧ ∀ b ∈ s, (b < 0x20 || b = 0x7F) = false := by
  rcases h with rfl | rfl <;> decide

/-- `Parse` of a URL with one of our schemes and an authority. -/
theorem parse_ours {s : Bytes} (h : OurScheme s) (Y : Bytes) :
    parse (s ++ 0x3A :: 0x2F :: 0x2F :: Y) =
      (let Y0 := (cut 0x23 Y).1
       let Y1 := (cut 0x3F Y0).1
       if Y0.any (fun b => b < 0x20 || b = 0x7F) then none
       else do
        let (user, host) ← parseAuthority (cut 0x2F Y1).1
        let _ ← unescape .path (((cut 0x2F Y1).2.map fun p => 0x2F :: p).getD [])
        let _ ← unescape .fragment ((cut 0x23 Y).2.getD [])
        some ⟨s, user, host, ((cut 0x3F Y0).2).getD []⟩) := by
  have hs := not_mem_ours h
  unfold parse
  have h1 : cut 0x23 (s ++ 0x3A :: 0x2F :: 0x2F :: Y) = (s ++ 0x3A :: 0x2F :: 0x2F :: (cut 0x23 Y).1, (cut 0x23 Y).2) := by
    have := cut_append_left (c := 0x23) (a := s ++ [0x3A, 0x2F, 0x2F]) Y (by simp [hs.1])
    simpa using this
  rw [h1]
  dsimp only
  generalize (cut 0x23 Y).1 = Y0
  generalize (cut 0x23 Y).2 = fr
  unfold parseNoFragment
  have h2 : (s ++ 0x3A :: 0x2F :: 0x2F :: Y0).any (fun b => b < 0x20 || b = 0x7F) = Y0.any (fun b => b < 0x20 || b = 0x7F) := by
    have : s.any (fun b => b < 0x20 || b = 0x7F) = false := by
      rw [List.any_eq_false]
      intro b hb
      rw [hs.2.2 b hb]
      simp
    rw [List.any_append, this]
    simp
  rw [h2]
  cases Y0.any (fun b => b < 0x20 || b = 0x7F) with
  | true => rfl
  | false =>
    have h3 : s ++ 0x3A :: 0x2F :: 0x2F :: Y0 ≠ [0x2A] := by
      intro e
      have := congrArg List.length e
      simp at this
      omega
    rw [if_neg (by simp), if_neg h3, getscheme_ours h]
    have h4 : cut 0x3F (0x2F :: 0x2F :: Y0) = (0x2F :: 0x2F :: (cut 0x3F Y0).1, (cut 0x3F Y0).2) := by
      have := cut_append_left (c := 0x3F) (a := [0x2F, 0x2F]) Y0 (by decide)
      simpa using this
    have h5 : s ≠ [] := by rcases h with rfl | rfl <;> decide
    simp only [toLower_ours h, h4, Option.bind_eq_bind, Option.bind_some, List.head?_cons, ne_eq, not_true_eq_false, if_false, Bool.false_eq_true,
      h5, not_false_eq_true, true_or, List.isPrefixOf, beq_self_eq_true, Bool.and_self, true_and, and_self, if_true, List.drop_succ_cons, List.drop_zero]
    cases parseAuthority (cut 0x2F (cut 0x3F Y0).1).1 with
    | none => rfl
    | some p =>
      obtain ⟨user, host⟩ := p
      dsimp only [Option.bind_some]
      generalize unescape .path (((cut 0x2F (cut 0x3F Y0).1).2.map fun p => 0x2F :: p).getD []) = o1
      cases o1 <;> rfl

theorem flatMap_one (semi : Bool) {a : Bytes} (h : 0x3B ∉ a) : (if semi = true then splitAll 0x3B a else [a]) = [a] := by
  cases semi with
  | true => simp [splitAll_none h]
  | false => simp

theorem pairs_one (semi : Bool) {a : Bytes} (h : 0x26 ∉ a) (h' : 0x3B ∉ a) : pairs semi a = [a].filterMap (parsePair semi) := by
  unfold pairs
  rw [splitAll_none h]
  simp only [List.flatMap_cons, List.flatMap_nil, List.append_nil, flatMap_one semi h']

theorem pairs_cons (semi : Bool) {a : Bytes} (b : Bytes) (h : 0x26 ∉ a) (h' : 0x3B ∉ a) :
    pairs semi (a ++ 0x26 :: b) = [a].filterMap (parsePair semi) ++ pairs semi b := by
  unfold pairs
  rw [splitAll_append b h]
  simp only [List.flatMap_cons, flatMap_one semi h', List.filterMap_append]

/-- A pair with a plain key has that key, if it is not skipped. -/
theorem parsePair_key {semi : Bool} {k v : Bytes} {p : Bytes × Bytes} (hk : ∀ b ∈ k, b ≠ 0x3D ∧ b ≠ 0x25 ∧ b ≠ 0x2B)
    (h : parsePair semi (k ++ 0x3D :: v) = some p) : p.1 = k := by
  unfold parsePair at h
  split at h
  · cases h
  · split at h
    · cases h
    · rw [cut_append v fun hm => (hk _ hm).1 rfl] at h
      dsimp only at h
      rw [unescape_plain (fun hm => (hk _ hm).2.1 rfl) (.inr fun hm => (hk _ hm).2.2 rfl) (by simp)] at h
      obtain ⟨k', hk', h⟩ := Option.bind_eq_some_iff.mp h
      obtain ⟨v', _, h⟩ := Option.bind_eq_some_iff.mp h
      cases h
      exact (Option.some.inj hk').symm

theorem get_absent {semi : Bool} {u : URL} {key : Bytes} (h : ∀ p ∈ pairs semi u.rawQuery, p.1 ≠ key) : get semi u key = [] := by
  unfold get
  rw [List.find?_eq_none.mpr]
  intro p hp
  simpa using h p hp

end Url
end Verif

/-
C129  A connection goes to the server, and with the user and password, that are written between "//" and the next '/', '?' or '#' of the connection string.

For all strings that are accepted, whatever else they contain.  C101 and C79 say which strings are accepted; `C129_host` says it for strings without user and parameters.
-/
import Verif.Props.C101
namespace Verif

namespace Spec

/-- The same letters, in upper or lower case (`t` in lower case). -/
inductive Cased : Bytes → Bytes → Prop where
  | nil : Cased [] []
  | same {b : UInt8} {s t : Bytes} : Cased s t → Cased (b :: s) (b :: t)
  | upper {b : UInt8} {s t : Bytes} : 0x61 ≤ b → b ≤ 0x7A → Cased s t → Cased ((b - 0x20) :: s) (b :: t)

/-- The schemes of connection strings. -/
def BoltScheme (s : Bytes) : Prop := Cased s (ascii "bolt") ∨ Cased s (ascii "bolt+routing")

/-- `Points s a`: the part of `s` that says where to connect to is `a`. -/
inductive Points : Bytes → Bytes → Prop where
  | at {scheme a rest : Bytes} : BoltScheme scheme → (∀ b ∈ a, b ∉ ascii "/?#") → (∀ b, rest.head? = some b → b ∈ ascii "/?#") → Points (scheme ++ ascii "://" ++ a ++ rest) a
  | nowhere {scheme rest : Bytes} : BoltScheme scheme → ¬ ascii "//" <+: rest → Points (scheme ++ ascii ":" ++ rest) []

/-- What a part of the string stands for: '%' begins an escape, everything else stands for itself. -/
def StandsFor (w s : Bytes) : Prop := Writes (· ≠ 0x25) false w s

/-- The address, user and password in such a part: user:password@address, where the '@' is the last one and the ':' the first one, or the address only. -/
inductive Addresses : (a host user password : Bytes) → Prop where
  | anonymous {a host : Bytes} : 0x40 ∉ a → StandsFor a host → Addresses a host [] []
  | user {wu wp wh host user password : Bytes} : 0x3A ∉ wu → 0x40 ∉ wh → StandsFor wu user → StandsFor wp password → StandsFor wh host →
      Addresses (wu ++ ascii ":" ++ wp ++ ascii "@" ++ wh) host user password

/-- Characters that may be written in an address. -/
def AddressChar (b : UInt8) : Prop := Spec.alnum b = true ∨ 0x80 ≤ b ∨ b ∈ ascii "!$&'()*+,;=:[]<>\"-_.~"

end Spec

namespace C129
open Url Spec

theorem hexDigit_of : ∀ b : UInt8, ishex b = true → HexDigit b (unhex b).toNat := by
  intro b hb
  have key : ∀ b : UInt8, ishex b = true → (∃ d : Fin 10, b = UInt8.ofNat (0x30 + d.val) ∧ (unhex b).toNat = d.val) ∨
      (∃ d : Fin 6, b = UInt8.ofNat (0x61 + d.val) ∧ (unhex b).toNat = 10 + d.val) ∨ ∃ d : Fin 6, b = UInt8.ofNat (0x41 + d.val) ∧ (unhex b).toNat = 10 + d.val :=
    C54.allBytes (by decide +kernel)
  rcases key b hb with ⟨d, h1, h2⟩ | ⟨d, h1, h2⟩ | ⟨d, h1, h2⟩
  · rw [h2, h1]; exact .digit d
  · rw [h2, h1]; exact .lower d
  · rw [h2, h1]; exact .upper d

theorem hex_value : ∀ a b : UInt8, ishex a = true → ishex b = true → unhex a * 16 + unhex b = UInt8.ofNat (16 * (unhex a).toNat + (unhex b).toNat) := by
  intro a b _ _
  apply UInt8.toNat_inj.mp
  rw [UInt8.toNat_add, UInt8.toNat_mul, UInt8.toNat_ofNat']
  simp only [UInt8.reduceToNat]
  omega

/-- What `unescape` returns, except in queries, is what the string stands for. -/
theorem unescape_standsFor {m : Mode} (hm : m ≠ .query) : (n : Nat) → {w s : Bytes} → w.length ≤ n → unescape m w = some s → StandsFor w s
  | _, [], s, _, h => by
    unfold unescape at h
    cases h
    exact .nil
  | 0, c :: w, _, hl, _ => by simp at hl
  | n + 1, c :: w, s, hl, h => by
    unfold unescape at h
    by_cases hc : c = 0x25
    · rw [if_pos hc] at h
      rcases w with _ | ⟨a, _ | ⟨b, w⟩⟩
      · cases h
      · cases h
      · dsimp only at h
        by_cases hx : (ishex a && ishex b) = false
        · rw [if_pos hx] at h; cases h
        rw [if_neg hx] at h
        split at h
        · cases h
        split at h
        · cases h
        rw [Bool.not_eq_false, Bool.and_eq_true] at hx
        cases hu : unescape m w with
        | none => rw [hu] at h; cases h
        | some r =>
          rw [hu] at h
          cases h
          rw [hc, hex_value a b hx.1 hx.2]
          exact .escape (hexDigit_of a hx.1) (hexDigit_of b hx.2) (unescape_standsFor hm n (by simp at hl; omega) hu)
    · rw [if_neg hc] at h
      have key : ∀ d : UInt8, ((unescape m w).map fun r => d :: r) = some s → d = c → StandsFor (c :: w) s := by
        intro d h e
        cases hu : unescape m w with
        | none => rw [hu] at h; cases h
        | some r =>
          rw [hu] at h
          cases h
          rw [e]
          exact .char hc (unescape_standsFor hm n (by simp at hl; omega) hu)
      split at h
      · rename_i e
        exact key _ h e.symm
      · split at h
        · cases h
        · exact key _ h rfl

theorem standsFor {m : Mode} (hm : m ≠ .query) {w s : Bytes} (h : unescape m w = some s) : StandsFor w s := unescape_standsFor hm _ (Nat.le_refl _) h

theorem StandsFor.append {v w s t : Bytes} (h : StandsFor v s) (h' : StandsFor w t) : StandsFor (v ++ w) (s ++ t) := by
  induction h with
  | nil => exact h'
  | char hb _ ih => exact .char hb ih
  | escape ha hb _ ih => exact .escape ha hb ih
  | space hp => cases hp

theorem before_some {t : Bytes} : {s a b : Bytes} → before t s = some (a, b) → s = a ++ b
  | [], a, b, h => by
    unfold before at h
    split at h <;> cases h
    rfl
  | x :: xs, a, b, h => by
    unfold before at h
    split at h
    · cases h; rfl
    · cases hb : before t xs with
      | none => rw [hb] at h; cases h
      | some p =>
        rw [hb] at h
        cases h
        rw [before_some (t := t) (s := xs) (a := p.1) (b := p.2) hb]
        rfl

theorem parseHost_standsFor {w h : Bytes} (hp : parseHost w = some h) : StandsFor w h := by
  unfold parseHost at hp
  split at hp
  · rename_i r
    cases hl : lastCut 0x5D (0x5B :: r) with
    | none => rw [hl] at hp; cases hp
    | some p =>
      obtain ⟨inner, port⟩ := p
      rw [hl] at hp
      dsimp only at hp
      split at hp
      · cases hp
      cases hb : before [0x25, 0x32, 0x35] inner with
      | none => rw [hb] at hp; exact standsFor (by decide) hp
      | some q =>
        obtain ⟨h1, h2⟩ := q
        rw [hb] at hp
        dsimp only at hp
        cases u1 : unescape .host h1 with
        | none => rw [u1] at hp; cases hp
        | some r1 =>
          cases u2 : unescape .zone h2 with
          | none => rw [u1, u2] at hp; cases hp
          | some r2 =>
            cases u3 : unescape .host (0x5D :: port) with
            | none => rw [u1, u2, u3] at hp; cases hp
            | some r3 =>
              rw [u1, u2, u3] at hp
              cases hp
              rw [lastCut_some hl, before_some hb]
              exact StandsFor.append (StandsFor.append (standsFor (by decide) u1) (standsFor (by decide) u2)) (standsFor (by decide) u3)
  · cases hl : lastCut 0x3A w with
    | none => rw [hl] at hp; exact standsFor (by decide) hp
    | some p =>
      rw [hl] at hp
      dsimp only at hp
      split at hp
      · exact standsFor (by decide) hp
      · cases hp

theorem lastCut_not_mem {c : UInt8} : {s a b : Bytes} → lastCut c s = some (a, b) → c ∉ b
  | [], _, _, h => by cases h
  | x :: xs, a, b, h => by
    unfold lastCut at h
    cases hl : lastCut c xs with
    | some p =>
      rw [hl] at h
      cases h
      exact lastCut_not_mem (a := p.1) (b := p.2) hl
    | none =>
      rw [hl] at h
      dsimp only at h
      split at h
      · cases h
        intro hm
        have := List.append_of_mem hm
        exact absurd hl (lastCut_some_of_mem hm)
      · cases h
where
  lastCut_some_of_mem {c : UInt8} : {s : Bytes} → c ∈ s → lastCut c s ≠ none
    | x :: xs, h => by
      unfold lastCut
      cases hl : lastCut c xs with
      | some p => simp
      | none =>
        rcases List.mem_cons.1 h with e | h
        · simp [e]
        · exact absurd hl (lastCut_some_of_mem h)

theorem lastCut_none_not_mem {c : UInt8} {s : Bytes} (h : lastCut c s = none) : c ∉ s := fun hm => lastCut_not_mem.lastCut_some_of_mem hm h

/-- What is known of address, user and password. -/
def Given (a host : Bytes) : Userinfo → Prop
  | none => Addresses a host [] []
  | some (_, none) => True
  | some (u, some p) => Addresses a host u p

/-- User, password and address. -/
theorem parseAuthority_addresses {a h : Bytes} {us : Userinfo} (hp : parseAuthority a = some (us, h)) : Given a h us := by
  unfold parseAuthority at hp
  cases hl : lastCut 0x40 a with
  | none =>
    rw [hl] at hp
    dsimp only at hp
    cases hh : parseHost a with
    | none => rw [hh] at hp; cases hp
    | some r =>
      rw [hh] at hp
      cases hp
      exact .anonymous (lastCut_none_not_mem hl) (parseHost_standsFor hh)
  | some p =>
    obtain ⟨ui, hw⟩ := p
    rw [hl] at hp
    dsimp only at hp
    cases hh : parseHost hw with
    | none => rw [hh] at hp; cases hp
    | some r =>
      rw [hh] at hp
      dsimp only [Option.bind_eq_bind, Option.bind_some] at hp
      split at hp
      · cases hp
      rcases hc : cut 0x3A ui with ⟨wu, _ | wp⟩
      · rw [hc] at hp
        dsimp only at hp
        cases hu : unescape .user wu with
        | none => rw [hu] at hp; cases hp
        | some u => rw [hu] at hp; cases hp; trivial
      · rw [hc] at hp
        dsimp only at hp
        cases hu : unescape .user wu with
        | none => rw [hu] at hp; cases hp
        | some u =>
          cases hw' : unescape .user wp with
          | none => rw [hu, hw'] at hp; cases hp
          | some p =>
            rw [hu, hw'] at hp
            cases hp
            have hn := cut_not_mem 0x3A ui
            rw [hc] at hn
            have := Addresses.user hn (lastCut_not_mem hl) (standsFor (by decide) hu) (standsFor (by decide) hw') (parseHost_standsFor hh)
            have e : a = wu ++ ascii ":" ++ wp ++ ascii "@" ++ hw := by rw [lastCut_some hl, cut_some hc]; simp [ascii]
            show Addresses a h u p
            rw [e]
            exact this

theorem cut_split (c : UInt8) (s : Bytes) : ∃ t, s = (cut c s).1 ++ t ∧ ∀ b, t.head? = some b → b = c := by
  rcases h : cut c s with ⟨a, _ | b⟩
  · exact ⟨[], by rw [List.append_nil]; exact (cut_whole h).symm, by simp⟩
  · exact ⟨c :: b, cut_some h, by simp⟩
where
  cut_whole {c : UInt8} : {s a : Bytes} → cut c s = (a, none) → a = s
    | [], a, h => by cases h; rfl
    | x :: xs, a, h => by
      unfold cut at h
      split at h
      · cases h
      · have h1 := congrArg Prod.fst h
        have h2 := congrArg Prod.snd h
        dsimp only at h1 h2
        rw [← h1, cut_whole (s := xs) (a := (cut c xs).1) (Prod.ext rfl h2)]

theorem getschemeFrom_some {whole : Bytes} : {s acc : Bytes} → {first : Bool} → {sc rest : Bytes} → getschemeFrom whole first acc s = some (sc, rest) → sc ≠ [] →
    ∃ x, s = x ++ 0x3A :: rest ∧ sc = acc ++ x
  | [], acc, first, sc, rest, h, hn => by
    unfold getschemeFrom at h
    cases h
    exact absurd rfl hn
  | c :: cs, acc, first, sc, rest, h, hn => by
    have go : ∀ f, getschemeFrom whole f (acc ++ [c]) cs = some (sc, rest) → ∃ x, c :: cs = x ++ 0x3A :: rest ∧ sc = acc ++ x := by
      intro f h
      obtain ⟨x, h1, h2⟩ := getschemeFrom_some h hn
      exact ⟨c :: x, by rw [h1]; rfl, by rw [h2]; simp⟩
    unfold getschemeFrom at h
    split at h
    · exact go _ h
    split at h
    · split at h
      · cases h; exact absurd rfl hn
      · exact go _ h
    split at h
    · rename_i e
      split at h
      · cases h
      · cases h
        exact ⟨[], by rw [e]; rfl, by simp⟩
    · cases h; exact absurd rfl hn

theorem upper_iff : ∀ b : UInt8, (if isUpper b = true then b + 0x20 else b) = b ∨ 0x61 ≤ b + 0x20 ∧ b + 0x20 ≤ 0x7A ∧ b = b + 0x20 - 0x20 ∧ isUpper b = true :=
  C54.allBytes (by decide +kernel)

theorem cased_of_lower : {s t : Bytes} → toLower s = t → Cased s t
  | [], _, h => by cases h; exact .nil
  | b :: s, _, h => by
    cases h
    have ih : Cased s (toLower s) := cased_of_lower rfl
    show Cased (b :: s) ((if isUpper b = true then b + 0x20 else b) :: toLower s)
    rcases upper_iff b with h | ⟨h1, h2, h3, h4⟩
    · rw [h]; exact .same ih
    · rw [if_pos h4]
      have := Cased.upper h1 h2 ih
      rwa [← h3] at this

theorem toLower_idem (s : Bytes) : toLower (toLower s) = toLower s := by
  unfold toLower
  rw [List.map_map]
  apply List.map_congr_left
  intro b _
  have key : ∀ b : UInt8, (if isUpper (if isUpper b = true then b + 0x20 else b) = true then (if isUpper b = true then b + 0x20 else b) + 0x20 else (if isUpper b = true then b + 0x20 else b)) =
    (if isUpper b = true then b + 0x20 else b) := C54.allBytes (by decide +kernel)
  exact key b

theorem nowhere_addresses : Addresses [] [] [] [] := .anonymous (by simp) .nil

theorem head_append {t1 t0 : Bytes} {x y : UInt8} (h1 : ∀ b, t1.head? = some b → b = x) (h0 : ∀ b, t0.head? = some b → b = y) (b : UInt8) (h : (t1 ++ t0).head? = some b) : b = x ∨ b = y := by
  cases t1 with
  | nil => exact .inr (h0 b h)
  | cons z zs => exact .inl (h1 b h)

/-- The parsed string. -/
theorem parse_points {s : Bytes} {u : URL} (h : parse s = some u) (hs : toLower u.scheme = ascii "bolt" ∨ toLower u.scheme = ascii "bolt+routing") :
    ∃ a, Points s a ∧ Given a u.host u.user := by
  unfold parse at h
  obtain ⟨t0, e0, h0⟩ := cut_split 0x23 s
  have m0 := cut_not_mem 0x23 s
  rcases hc0 : cut 0x23 s with ⟨s0, fr⟩
  rw [hc0] at h e0 m0
  dsimp only at h e0 m0
  cases hn : parseNoFragment s0 with
  | none => rw [hn] at h; cases h
  | some v =>
    rw [hn] at h
    dsimp only [Option.bind_eq_bind, Option.bind_some] at h
    cases hf : unescape .fragment (fr.getD []) with
    | none => rw [hf] at h; cases h
    | some _ =>
      rw [hf] at h
      cases h
      clear hf hc0
      unfold parseNoFragment at hn
      split at hn
      · cases hn
      split at hn
      · cases hn
        exact absurd hs (by decide)
      cases hg : getscheme s0 with
      | none => rw [hg] at hn; cases hn
      | some p =>
        obtain ⟨sc, rest0⟩ := p
        rw [hg] at hn
        dsimp only [Option.bind_eq_bind, Option.bind_some] at hn
        obtain ⟨t1, e1, h1⟩ := cut_split 0x3F rest0
        have m1 := cut_not_mem 0x3F rest0
        rcases hc1 : cut 0x3F rest0 with ⟨rest, q⟩
        rw [hc1] at hn e1 m1
        dsimp only at hn e1 m1
        have ht := head_append h1 h0
        have hsc : (∀ us ho qu, some (URL.mk (toLower sc) us ho qu) = some u → BoltScheme sc ∧ s0 = sc ++ 0x3A :: rest0) := by
          intro us ho qu e
          cases e
          rw [toLower_idem] at hs
          have hne : sc ≠ [] := by
            rintro rfl
            exact absurd hs (by decide)
          obtain ⟨x, hx, hx'⟩ := getschemeFrom_some hg hne
          rw [List.nil_append] at hx'
          subst hx'
          exact ⟨hs.imp cased_of_lower cased_of_lower, hx⟩
        have nowhere : ∀ qu, some (URL.mk (toLower sc) none [] qu) = some u → ¬ [0x2F, 0x2F] <+: rest → ∃ a, Points s a ∧ Given a u.host u.user := by
          intro qu e hno
          obtain ⟨hb, hx⟩ := hsc _ _ _ e
          cases e
          refine ⟨[], ?_, nowhere_addresses⟩
          have := Points.nowhere (rest := rest ++ (t1 ++ t0)) hb ?_
          · rw [e0, hx, e1]; simpa [ascii] using this
          · rintro ⟨r, hr⟩
            apply hno
            have hr : 0x2F :: 0x2F :: r = rest ++ (t1 ++ t0) := hr
            match rest, hr with
            | [], hr => exact absurd (ht 0x2F (by rw [← List.nil_append (t1 ++ t0), ← hr]; rfl)) (by decide)
            | [y], hr => exact absurd (ht 0x2F (by have e : 0x2F :: r = t1 ++ t0 := (List.cons.inj hr).2; rw [← e]; rfl)) (by decide)
            | y :: z :: ys, hr =>
              cases hr
              exact ⟨ys, rfl⟩
        by_cases hd : rest.head? ≠ some 0x2F
        · rw [if_pos hd] at hn
          have hno : ¬ [0x2F, 0x2F] <+: rest := by
            rintro ⟨r, rfl⟩
            exact hd rfl
          split at hn
          · exact nowhere _ hn hno
          · split at hn
            · cases hn
            · cases hu : unescape .path rest with
              | none => rw [hu] at hn; cases hn
              | some _ => rw [hu] at hn; exact nowhere _ hn hno
        · rw [if_neg hd] at hn
          split at hn
          · rename_i hc
            obtain ⟨r, rfl⟩ := List.isPrefixOf_iff_prefix.1 hc.2
            obtain ⟨t2, e2, h2⟩ := cut_split 0x2F r
            have m2 := cut_not_mem 0x2F r
            have e3 : ([0x2F, 0x2F] ++ r).drop 2 = r := rfl
            rw [e3] at hn
            rcases hc2 : cut 0x2F r with ⟨a, path⟩
            rw [hc2] at hn e2 m2
            dsimp only at hn e2 m2
            cases ha : parseAuthority a with
            | none => rw [ha] at hn; cases hn
            | some p =>
              obtain ⟨us, ho⟩ := p
              rw [ha] at hn
              dsimp only [Option.bind_some] at hn
              cases hu : unescape .path ((path.map fun p => 0x2F :: p).getD []) with
              | none => rw [hu] at hn; cases hn
              | some _ =>
                rw [hu] at hn
                obtain ⟨hb, hx⟩ := hsc _ _ _ hn
                cases hn
                refine ⟨a, ?_, parseAuthority_addresses ha⟩
                have := Points.at (a := a) (rest := t2 ++ (t1 ++ t0)) hb (fun b hb => ?_) (fun b hb => ?_)
                · rw [e0, hx, e1, e2]; simpa [ascii] using this
                · have n1 : b ≠ 0x2F := fun e => m2 (e ▸ hb)
                  have n2 : b ≠ 0x3F := fun e => m1 (by rw [← e, e2]; simp [hb])
                  have n3 : b ≠ 0x23 := fun e => m0 (by rw [← e, hx, e1, e2]; simp [hb])
                  simp [ascii, n1, n2, n3]
                · cases t2 with
                  | nil => rcases ht b hb with h | h <;> rw [h] <;> decide
                  | cons y ys => rw [h2 b hb]; decide
          · rename_i hc
            cases hu : unescape .path rest with
            | none => rw [hu] at hn; cases hn
            | some _ =>
              rw [hu] at hn
              have hne : some (URL.mk (toLower sc) none [] (q.getD [])) = some u := hn
              refine nowhere _ hn fun hp => hc ⟨.inl ?_, List.isPrefixOf_iff_prefix.2 hp⟩
              intro e
              cases hne
              have hs : toLower (toLower sc) = _ ∨ toLower (toLower sc) = _ := hs
              rw [e] at hs
              exact absurd hs (by decide)

theorem Cased.mem {s t : Bytes} (h : Cased s t) : ∀ b ∈ s, b ∈ t ∨ Spec.alnum b = true := by
  induction h with
  | nil => intro b hb; cases hb
  | same _ ih => intro b hb; rcases List.mem_cons.1 hb with rfl | hb; exact .inl (by simp); exact (ih b hb).imp (by simp +contextual) id
  | @upper c s t h1 h2 _ ih =>
    intro b hb
    rcases List.mem_cons.1 hb with rfl | hb
    · have key : ∀ c : UInt8, 0x61 ≤ c → c ≤ 0x7A → Spec.alnum (c - 0x20) = true := C54.allBytes (by decide +kernel)
      exact .inr (key c h1 h2)
    · exact (ih b hb).imp (by simp +contextual) id

theorem scheme_colon {s : Bytes} (h : BoltScheme s) : 0x3A ∉ s := by
  intro hm
  rcases h with h | h <;> rcases Cased.mem h _ hm with h | h <;> revert h <;> decide

theorem points_cut {s a : Bytes} (h : Points s a) : ∃ rest, (cut 0x3A s).2 = some rest ∧
    ((∃ r, rest = ascii "//" ++ a ++ r ∧ (∀ b ∈ a, b ∉ ascii "/?#") ∧ ∀ b, r.head? = some b → b ∈ ascii "/?#") ∨ a = [] ∧ ¬ ascii "//" <+: rest) := by
  cases h with
  | @«at» scheme a rest hs h1 h2 =>
    refine ⟨ascii "//" ++ a ++ rest, ?_, .inl ⟨rest, rfl, h1, h2⟩⟩
    have := cut_append (c := 0x3A) (ascii "//" ++ a ++ rest) (scheme_colon hs)
    have e : scheme ++ ascii "://" ++ a ++ rest = scheme ++ 0x3A :: (ascii "//" ++ a ++ rest) := by simp [ascii]
    rw [e, this]
  | @nowhere scheme rest hs h1 =>
    refine ⟨rest, ?_, .inr ⟨rfl, h1⟩⟩
    have := cut_append (c := 0x3A) rest (scheme_colon hs)
    have e : scheme ++ ascii ":" ++ rest = scheme ++ 0x3A :: rest := by simp [ascii]
    rw [e, this]

theorem stop_unique {P : UInt8 → Prop} : {a a' r r' : Bytes} → (∀ b ∈ a, ¬ P b) → (∀ b ∈ a', ¬ P b) → (∀ b, r.head? = some b → P b) → (∀ b, r'.head? = some b → P b) →
    a ++ r = a' ++ r' → a = a'
  | [], [], _, _, _, _, _, _, _ => rfl
  | [], b :: _, _, _, _, h2, h3, _, e => absurd (h3 b (by rw [List.nil_append] at e; rw [e]; rfl)) (h2 b (by simp))
  | b :: _, [], _, _, h1, _, _, h4, e => absurd (h4 b (by rw [List.nil_append] at e; rw [← e]; rfl)) (h1 b (by simp))
  | b :: a, b' :: a', _, _, h1, h2, h3, h4, e => by
    rw [List.cons_append, List.cons_append, List.cons.injEq] at e
    rw [e.1, stop_unique (fun b hb => h1 b (by simp [hb])) (fun b hb => h2 b (by simp [hb])) h3 h4 e.2]

theorem points_unique {s a a' : Bytes} (h : Points s a) (h' : Points s a') : a = a' := by
  obtain ⟨r, h1, h2⟩ := points_cut h
  obtain ⟨r', h1', h2'⟩ := points_cut h'
  rw [h1] at h1'
  cases h1'
  rcases h2 with ⟨x, e, n, m⟩ | ⟨e, n⟩ <;> rcases h2' with ⟨x', e', n', m'⟩ | ⟨e', n'⟩
  · refine stop_unique n n' m m' ?_
    rw [e, List.append_assoc, List.append_assoc] at e'
    exact List.append_cancel_left e'
  · exact absurd ⟨a ++ x, by rw [e, List.append_assoc]⟩ n'
  · exact absurd ⟨a' ++ x', by rw [e', List.append_assoc]⟩ n
  · rw [e, e']

theorem standsFor_unique {w s : Bytes} (h : StandsFor w s) : ∀ {s'}, StandsFor w s' → s = s' := by
  induction h with
  | nil => intro s' h; cases h; rfl
  | char hb _ ih =>
    intro s' h
    cases h with
    | char _ h => rw [ih h]
    | escape => exact absurd rfl hb
    | space h => cases h
  | escape ha hb _ ih =>
    intro s' h
    cases h with
    | char h => exact absurd rfl h
    | escape ha' hb' h => rw [ih h, ← (C101.hexDigit ha).2.1, ← (C101.hexDigit hb).2.1, ← (C101.hexDigit ha').2.1, ← (C101.hexDigit hb').2.1]
  | space h => cases h

theorem addresses_unique {a h u p h' u' p' : Bytes} (x : Addresses a h u p) (y : Addresses a h' u' p') : h = h' ∧ u = u' ∧ p = p' := by
  cases x with
  | anonymous n s =>
    generalize ea : a = b at y
    cases y with
    | anonymous _ s' => subst ea; exact ⟨standsFor_unique s s', rfl, rfl⟩
    | user => subst ea; exact absurd (by simp [ascii]) n
  | @user wu wp wh _ _ _ n1 n2 s1 s2 s3 =>
    generalize ea : wu ++ ascii ":" ++ wp ++ ascii "@" ++ wh = b at y
    cases y with
    | anonymous n s' => subst ea; exact absurd (by simp [ascii]) n
    | @user vu vp vh _ _ _ m1 m2 r1 r2 r3 =>
      have l1 := lastCut_append (c := 0x40) (wu ++ ascii ":" ++ wp) n2
      have l2 := lastCut_append (c := 0x40) (vu ++ ascii ":" ++ vp) m2
      have e : (wu ++ ascii ":" ++ wp) ++ 0x40 :: wh = (vu ++ ascii ":" ++ vp) ++ 0x40 :: vh := by simpa [ascii] using ea
      rw [e, l2] at l1
      have l1 := Option.some.inj l1
      obtain ⟨e1, rfl⟩ := Prod.mk.inj l1
      have c1 := cut_append (c := 0x3A) wp n1
      have c2 := cut_append (c := 0x3A) vp m1
      have e2 : vu ++ 0x3A :: vp = wu ++ 0x3A :: wp := by simpa [ascii] using e1
      rw [← e2, c2] at c1
      obtain ⟨rfl, e3⟩ := Prod.mk.inj c1
      cases e3
      exact ⟨standsFor_unique s3 r3, standsFor_unique s1 r1, standsFor_unique s2 r2⟩

theorem addressChar : ∀ b : UInt8, b ≠ 0x25 → ((b < 0x80 ∧ hostChar b = false) ↔ ¬ AddressChar b) := by
  unfold AddressChar
  exact C54.allBytes (by decide +kernel)

theorem _root_.Verif.Url.notDigit' : ∀ b : UInt8, isDigit b = false ↔ b ∉ ascii "0123456789" := C54.allBytes (by decide +kernel)

theorem addressChar_ctl : ∀ b : UInt8, AddressChar b → (b < 0x20 || b = 0x7F) = false := by
  unfold AddressChar
  exact C54.allBytes (by decide +kernel)

theorem unescape_host : {h : Bytes} → 0x25 ∉ h → (∀ b ∈ h, AddressChar b) ∧ unescape .host h = some h ∨ (¬ ∀ b ∈ h, AddressChar b) ∧ unescape .host h = none
  | [], _ => .inl ⟨by simp, rfl⟩
  | c :: h, hn => by
    have hc : c ≠ 0x25 := fun e => hn (by simp [e])
    unfold unescape
    rw [if_neg hc]
    have ih := unescape_host (h := h) fun e => hn (by simp [e])
    by_cases hp : AddressChar c
    · have hq : ¬ ((Mode.host = .host ∨ Mode.host = .zone) ∧ c < 0x80 ∧ hostChar c = false) := fun hx => ((addressChar c hc).1 hx.2) hp
      rw [if_neg hq]
      have e : (if c = 0x2B then (unescape .host h).map fun r => (if Mode.host = .query then 0x20 else 0x2B) :: r else (unescape .host h).map fun r => c :: r) =
          (unescape .host h).map fun r => c :: r := by
        split
        · rename_i e; rw [e]; rfl
        · rfl
      rw [e]
      rcases ih with ⟨h1, h2⟩ | ⟨h1, h2⟩
      · exact .inl ⟨by intro b hb; rcases List.mem_cons.1 hb with rfl | hb; exact hp; exact h1 b hb, by rw [h2]; rfl⟩
      · exact .inr ⟨fun hx => h1 fun b hb => hx b (by simp [hb]), by rw [h2]; rfl⟩
    · refine .inr ⟨fun hx => hp (hx c (by simp)), ?_⟩
      have : c ≠ 0x2B := by
        rintro rfl
        exact hp (by unfold AddressChar; decide)
      rw [if_neg this, if_pos ⟨.inl rfl, (addressChar c hc).2 hp⟩]

end C129

open Spec

/-- C129: whenever a connection string is accepted, address, user and password are those in the part of the string that says where to connect to. -/
theorem C129 (semi : Bool) (s : Bytes) (cfg : Config) (h : connectionConfig semi s = .ok cfg) : ∃ a, Points s a ∧ Addresses a cfg.hostPort cfg.user cfg.password := by
  unfold connectionConfig at h
  cases hp : Url.parse s with
  | none => rw [hp] at h; cases h
  | some u =>
    rw [hp] at h
    dsimp only at h
    split at h
    · cases h
    rename_i hs
    obtain ⟨a, h1, h2⟩ := C129.parse_points hp (by
      by_cases c : Url.toLower u.scheme = ascii "bolt"
      · exact .inl c
      · exact .inr (Decidable.byContradiction fun c' => hs ⟨c, c'⟩))
    refine ⟨a, h1, ?_⟩
    cases ht : timeoutOf semi u (60 * 1000000000) with
    | error e => rcases hu : u.user with _ | ⟨n, _ | p⟩ <;> rw [hu, ht] at h <;> cases h
    | ok t =>
      rcases hu : u.user with _ | ⟨n, _ | p⟩ <;> rw [hu, ht] at h <;> rw [hu] at h2
      · cases h; exact h2
      · cases h
      · cases h; exact h2

/-- The string determines them. -/
theorem C129_unique {s a host user password a' host' user' password' : Bytes} (h1 : Points s a) (h2 : Addresses a host user password)
    (h1' : Points s a') (h2' : Addresses a' host' user' password') : host = host' ∧ user = user' ∧ password = password' := by
  cases C129.points_unique h1 h1'
  exact C129.addresses_unique h2 h2'

/-- Strings that only consist of scheme and address (not in brackets, without escapes): accepted exactly if the characters are allowed and what follows the last colon are digits. -/
theorem C129_host (semi : Bool) {h : Bytes} (hn : ∀ b ∈ h, b ∉ ascii "@%/?#") (hb : h.head? ≠ some 0x5B) :
    (∃ cfg, connectionConfig semi (ascii "bolt://" ++ h) = .ok cfg) ↔
      (∀ b ∈ h, AddressChar b) ∧ ∀ x p, h = x ++ ascii ":" ++ p → 0x3A ∉ p → ∀ b ∈ p, b ∈ ascii "0123456789" := by
  have n : ∀ c ∈ ascii "@%/?#", c ∉ h := fun c hc hm => hn c hm hc
  have hp := Url.parse_ours (.inl rfl) h
  have e : ascii "bolt://" ++ h = ascii "bolt" ++ 0x3A :: 0x2F :: 0x2F :: h := by simp [ascii]
  rw [← e, Url.cut_none (n 0x23 (by decide))] at hp
  dsimp only at hp
  rw [Url.cut_none (n 0x3F (by decide))] at hp
  dsimp only at hp
  rw [Url.cut_none (n 0x2F (by decide))] at hp
  dsimp only at hp
  have ha : Url.parseAuthority h = (Url.parseHost h).map fun x => (none, x) := by
    unfold Url.parseAuthority
    rw [Url.lastCut_none (n 0x40 (by decide))]
  have hh : (∀ b ∈ h, AddressChar b) ∧ (∀ x p, h = x ++ ascii ":" ++ p → 0x3A ∉ p → ∀ b ∈ p, b ∈ ascii "0123456789") ∧ Url.parseHost h = some h ∨
      (¬ ((∀ b ∈ h, AddressChar b) ∧ ∀ x p, h = x ++ ascii ":" ++ p → 0x3A ∉ p → ∀ b ∈ p, b ∈ ascii "0123456789")) ∧ Url.parseHost h = none := by
    have hu := C129.unescape_host (n 0x25 (by decide))
    have e : Url.parseHost h = match Url.lastCut 0x3A h with
        | some (_, port) => if port.all Url.isDigit then Url.unescape .host h else none
        | none => Url.unescape .host h := by
      unfold Url.parseHost
      split
      · rename_i r
        exact absurd rfl hb
      · rfl
    rw [e]
    cases hl : Url.lastCut 0x3A h with
    | none =>
      dsimp only
      have hno := C129.lastCut_none_not_mem hl
      have ok : ∀ x p, h = x ++ ascii ":" ++ p → 0x3A ∉ p → ∀ b ∈ p, b ∈ ascii "0123456789" := fun x p e => absurd (by rw [e]; simp [ascii]) hno
      rcases hu with ⟨h1, h2⟩ | ⟨h1, h2⟩
      · exact .inl ⟨h1, ok, h2⟩
      · exact .inr ⟨fun h => h1 h.1, h2⟩
    | some q =>
      obtain ⟨x, p⟩ := q
      dsimp only
      have e1 := Url.lastCut_some hl
      have e2 := C129.lastCut_not_mem hl
      by_cases hd : p.all Url.isDigit = true
      · rw [if_pos hd]
        have ok : ∀ x p, h = x ++ ascii ":" ++ p → 0x3A ∉ p → ∀ b ∈ p, b ∈ ascii "0123456789" := by
          intro x' p' e' n' b hb'
          have := Url.lastCut_append (c := 0x3A) x' n'
          have e3 : x' ++ ascii ":" ++ p' = x' ++ 0x3A :: p' := by simp [ascii]
          rw [← e3, ← e', hl] at this
          cases this
          have := List.all_eq_true.1 hd b hb'
          exact Decidable.byContradiction fun hc => by rw [(Url.notDigit' b).2 hc] at this; cases this
        rcases hu with ⟨h1, h2⟩ | ⟨h1, h2⟩
        · exact .inl ⟨h1, ok, h2⟩
        · exact .inr ⟨fun h => h1 h.1, h2⟩
      · rw [if_neg hd]
        refine .inr ⟨fun hx => hd (List.all_eq_true.2 fun b hb' => ?_), rfl⟩
        have := hx.2 x p (by rw [e1]; simp [ascii]) e2 b hb'
        exact Decidable.byContradiction fun hc => (Url.notDigit' b).1 (Bool.eq_false_iff.2 hc) this
  rcases hh with ⟨h1, h2, h3⟩ | ⟨h1, h3⟩
  · refine ⟨fun _ => ⟨h1, h2⟩, fun _ => ?_⟩
    rw [if_neg (by rw [Bool.not_eq_true, List.any_eq_false]; intro b hb; rw [C129.addressChar_ctl b (h1 b hb)]; decide), ha, h3] at hp
    have hp : Url.parse (ascii "bolt://" ++ h) = some ⟨ascii "bolt", none, h, []⟩ := hp
    unfold connectionConfig
    rw [hp]
    dsimp only
    rw [if_neg (by decide)]
    have hg : Url.get semi ⟨ascii "bolt", none, h, []⟩ (ascii "timeout") = [] := by cases semi <;> rfl
    have ht : timeoutOf semi ⟨ascii "bolt", none, h, []⟩ (60 * 1000000000) = .ok (60 * 1000000000) := by
      unfold timeoutOf
      dsimp only
      rw [hg, if_pos rfl]
    rw [ht]
    exact ⟨_, rfl⟩
  · refine ⟨fun ⟨cfg, hc⟩ => ?_, fun hx => absurd hx h1⟩
    have hp : Url.parse (ascii "bolt://" ++ h) = none := by
      rw [hp]
      split
      · rfl
      · rw [ha, h3]; rfl
    unfold connectionConfig at hc
    rw [hp] at hc
    cases hc

/-- A password with a '/' that is not escaped: the connection goes to the host with the name of the user, without user and password. -/
theorem C129_slash (semi : Bool) : (connectionConfig semi (ascii "bolt://neo4j:7687/secret@db.example:7687")).toOption.map (fun cfg => (cfg.hostPort, cfg.user, cfg.password)) =
    some (ascii "neo4j:7687", [], []) := by cases semi <;> decide +kernel

/-- Without "//" there is no address. -/
example : (connectionConfig true (ascii "bolt:/u:p@db.example:7687")).toOption.map (·.hostPort) = some [] := by decide +kernel

/-- A string with everything. -/
example : Points (ascii "BOLT://u%3A:p:%40@[::1]:7687/x?timeout=5") (ascii "u%3A:p:%40@[::1]:7687") ∧
    Addresses (ascii "u%3A:p:%40@[::1]:7687") (ascii "[::1]:7687") (ascii "u:") (ascii "p:@") ∧
    (connectionConfig true (ascii "BOLT://u%3A:p:%40@[::1]:7687/x?timeout=5")).toOption.map (fun cfg => (cfg.hostPort, cfg.user, cfg.password)) =
      some (ascii "[::1]:7687", ascii "u:", ascii "p:@") := by
  refine ⟨.at (scheme := ascii "BOLT") (a := ascii "u%3A:p:%40@[::1]:7687") (rest := ascii "/x?timeout=5") (.inl (C129.cased_of_lower (by decide))) (by decide) (by intro b hb; cases hb; decide), ?_,
    by decide +kernel⟩
  have u : StandsFor (ascii "u%3A") (ascii "u:") := .char (by decide) (.escape (.digit 3) (.upper 0) .nil)
  have p : StandsFor (ascii "p:%40") (ascii "p:@") := .char (by decide) (.char (by decide) (.escape (.digit 4) (.digit 0) .nil))
  exact .user (wu := ascii "u%3A") (wp := ascii "p:%40") (by decide) (by decide) u p (C101.writes_plain (by decide))

/-- The hypotheses of `C129_host` hold of an address with all kinds of characters, and it is accepted. -/
example : ∃ cfg, connectionConfig false (ascii "bolt://" ++ ascii "a-b.c_(d)~!$&'*+,;=<>\"[]:7687") = .ok cfg :=
  (C129_host false (by decide) (by decide)).2 ⟨by unfold AddressChar; decide, fun x p e hn b hb => by
    have h1 := Url.lastCut_append (c := 0x3A) x hn
    have e' : x ++ 0x3A :: p = ascii "a-b.c_(d)~!$&'*+,;=<>\"[]:7687" := by rw [e]; simp [ascii]
    rw [e'] at h1
    have h2 : Url.lastCut 0x3A (ascii "a-b.c_(d)~!$&'*+,;=<>\"[]:7687") = some (ascii "a-b.c_(d)~!$&'*+,;=<>\"[]", ascii "7687") := by decide +kernel
    rw [h2] at h1
    cases h1
    revert b
    decide⟩

end Verif

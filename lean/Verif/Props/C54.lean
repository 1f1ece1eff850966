/-
C54: the credentials of `WithBasicAuth` and the connection string.
-/
import Verif.Proofs.Url
import Verif.Props.C51
namespace Verif

/-- A letter or a digit. -/
def Spec.alnum (b : UInt8) : Bool := (ascii "0123456789ABCDEFGHIJKLMNOPQRSTUVWXYZabcdefghijklmnopqrstuvwxyz").contains b

/-- A letter, a digit or one of -._~!$&'()*+,;=@ -/
def Spec.PlainChar (b : UInt8) : Prop := Spec.alnum b = true ∨ b ∈ ascii "-._~!$&'()*+,;=@"

/-- User names that survive: plain characters. -/
def Spec.PlainUser (u : Bytes) : Prop := ∀ b ∈ u, Spec.PlainChar b
/-- Passwords that survive: plain characters and colons. -/
def Spec.PlainPassword (p : Bytes) : Prop := ∀ b ∈ p, Spec.PlainChar b ∨ b = 0x3A
/-- Host names and IPv4 addresses: letters, digits, '-', '.', '_'. -/
def Spec.PlainHost (h : Bytes) : Prop := ∀ b ∈ h, Spec.alnum b = true ∨ b ∈ ascii "-._"
/-- File names without control characters and without '#', '&', ';'. -/
def Spec.PlainPath (p : Bytes) : Prop := ∀ b ∈ p, 0x20 ≤ b ∧ b ≠ 0x7F ∧ b ∉ ascii "#&;"

/-- The full claim: a client made from host, port and credentials opens connections that authenticate with these credentials. -/
def C54_statement : Prop :=
  ∀ semi opts c, ¬ Spec.GivesString opts → newClient semi opts = .ok c → Spec.PlainHost c.host →
    ∃ cfg, c.openConfig semi = .ok cfg ∧ cfg.user = c.user ∧ cfg.password = c.password

/-- The connection string of a client made from host, port and credentials. -/
theorem newClient_connStr {semi : Bool} {opts : List (Option ClientOpt)} {c : Client} (hs : ¬ Spec.GivesString opts) (h : newClient semi opts = .ok c) :
    0 < c.port ∧ c.user ≠ [] ∧ c.host ≠ [] ∧
    c.connStr = baseStr (if c.routing then ascii "bolt+routing" else ascii "bolt") c.user c.password c.host c.port.toNat ++
      (if c.useTLS then tlsPortion c.certFile c.keyFile c.caCertFile (Url.showBool c.tlsNoVerify) else []) := by
  unfold newClient at h
  split at h
  · cases h
  · cases ha : applyOpts {} opts with
    | error e => rw [ha] at h; cases h
    | ok c' =>
      rw [ha] at h
      obtain ⟨h1, h2, _, _⟩ := applyOpts_ok ha
      obtain ⟨c'', ha', hstr⟩ := applyOpts_accepts (c := {}) rfl hs h1 h2
      rw [ha] at ha'
      cases ha'
      change (if c'.connStr = [] then c'.withDefaults.build else _) = _ at h
      rw [if_pos hstr] at h
      unfold Client.build at h
      split at h
      · cases h
      · next hh =>
        split at h
        · cases h
        · next hp =>
          split at h
          · cases h
          · next hu =>
            cases h
            refine ⟨by simpa using hp, hu, hh, ?_⟩
            dsimp only
            split
            · rfl
            · rw [List.append_nil]

namespace C54
open Url

/-- What the proof needs to know about the end of the connection string: nothing, or a query without fragment and control characters. -/
structure Tail (tail : Bytes) : Prop where
  head : tail = [] ∨ tail.head? = some 0x3F
  noFrag : 0x23 ∉ tail
  noCtl : ∀ b ∈ tail, (b < 0x20 || b = 0x7F) = false

/-- The part of the connection string before the query: user:password@host:port -/
def auth (user password host port : Bytes) : Bytes := (user ++ 0x3A :: password) ++ 0x40 :: (host ++ 0x3A :: port)

theorem baseStr_eq (scheme user password host : Bytes) (port : Nat) :
    baseStr scheme user password host port = scheme ++ 0x3A :: 0x2F :: 0x2F :: auth user password host (decimal port) := by
  unfold baseStr auth
  simp [ascii]

/-- A decidable fact about all bytes. -/
theorem allBytes {P : UInt8 → Prop} (h : ∀ n : Fin 256, P (UInt8.ofNat n.val)) (b : UInt8) : P b := by
  have := h ⟨b.toNat, b.toNat_lt⟩
  rwa [UInt8.ofNat_toNat] at this

/-- The characters that matter, by computation over all bytes. -/
theorem chars : ∀ b : UInt8,
    (Spec.alnum b = true → b ≠ 0x23 ∧ b ≠ 0x3F ∧ b ≠ 0x2F ∧ b ≠ 0x40 ∧ b ≠ 0x3A ∧ b ≠ 0x25 ∧ b ≠ 0x5B ∧ (b < 0x20 || b = 0x7F) = false ∧ hostChar b = true) ∧
    (isDigit b = true → Spec.alnum b = true) ∧
    (b ∈ ascii "-._" → b ≠ 0x23 ∧ b ≠ 0x3F ∧ b ≠ 0x2F ∧ b ≠ 0x40 ∧ b ≠ 0x3A ∧ b ≠ 0x25 ∧ b ≠ 0x5B ∧ (b < 0x20 || b = 0x7F) = false ∧ hostChar b = true) ∧
    (b ∈ ascii "-._~!$&'()*+,;=@" → b ≠ 0x23 ∧ b ≠ 0x3F ∧ b ≠ 0x2F ∧ b ≠ 0x3A ∧ b ≠ 0x25 ∧ (b < 0x20 || b = 0x7F) = false) := by
  refine allBytes ?_
  decide +kernel

theorem userChars : ∀ b : UInt8,
    (isAlnum b || [0x2D, 0x2E, 0x5F, 0x3A, 0x7E, 0x21, 0x24, 0x26, 0x27, 0x28, 0x29, 0x2A, 0x2B, 0x2C, 0x3B, 0x3D, 0x25, 0x40].contains b) = true ↔
    Spec.alnum b = true ∨ b ∈ ascii "-._~!$&'()*+,;=@" ∨ b = 0x3A ∨ b = 0x25 := by
  refine allBytes ?_
  decide +kernel

/-- Characters of host and port. -/
theorem hostPort_char {host : Bytes} (hh : Spec.PlainHost host) (port : Nat) {b : UInt8} (hb : b ∈ host ++ 0x3A :: decimal port) :
    b ≠ 0x23 ∧ b ≠ 0x3F ∧ b ≠ 0x2F ∧ b ≠ 0x40 ∧ b ≠ 0x25 ∧ b ≠ 0x5B ∧ (b < 0x20 || b = 0x7F) = false ∧ hostChar b = true := by
  have key : Spec.alnum b = true ∨ b ∈ ascii "-._" ∨ b = 0x3A := by
    rcases List.mem_append.mp hb with h | h
    · exact (hh b h).imp_right .inl
    · rcases List.mem_cons.mp h with h | h
      · exact .inr (.inr h)
      · exact .inl ((chars b).2.1 (decimal_digits port b h))
  obtain ⟨h1, _, h2, _⟩ := chars b
  rcases key with h | h | h
  · obtain ⟨a1, a2, a3, a4, _, a5, a6, a7, a8⟩ := h1 h; exact ⟨a1, a2, a3, a4, a5, a6, a7, a8⟩
  · obtain ⟨a1, a2, a3, a4, _, a5, a6, a7, a8⟩ := h2 h; exact ⟨a1, a2, a3, a4, a5, a6, a7, a8⟩
  · subst h; decide

/-- If the connection string gives the credentials back, they are plain. -/
theorem only_plain {s user password host port tail : Bytes} (hs : OurScheme s) (hhost : 0x40 ∉ host ++ 0x3A :: port)
    (htail : tail = [] ∨ tail.head? = some 0x3F) {u : URL} (h : parse (s ++ 0x3A :: 0x2F :: 0x2F :: (auth user password host port ++ tail)) = some u)
    (hu : u.user = some (user, some password)) : Spec.PlainUser user ∧ Spec.PlainPassword password := by
  rw [parse_ours hs] at h
  generalize hY : auth user password host port ++ tail = Y at h
  dsimp only at h
  split at h
  · cases h
  · have hpre : (cut 0x2F (cut 0x3F (cut 0x23 Y).1).1).1 <+: Y := ((cut_prefix _ _).trans (cut_prefix _ _)).trans (cut_prefix _ _)
    have hq : 0x3F ∉ (cut 0x2F (cut 0x3F (cut 0x23 Y).1).1).1 := fun hm => cut_not_mem 0x3F (cut 0x23 Y).1 ((cut_prefix _ _).subset hm)
    generalize (cut 0x2F (cut 0x3F (cut 0x23 Y).1).1).1 = A at h hpre hq
    cases hA : parseAuthority A with
    | none => rw [hA] at h; cases h
    | some p =>
      obtain ⟨us, ho⟩ := p
      rw [hA] at h
      simp only [Option.bind_eq_bind, Option.bind_some] at h
      obtain ⟨x1, _, h⟩ := Option.bind_eq_some_iff.mp h
      obtain ⟨x2, _, h⟩ := Option.bind_eq_some_iff.mp h
      cases h
      dsimp only at hu
      subst hu
      unfold parseAuthority at hA
      cases hl : lastCut 0x40 A with
      | none =>
        rw [hl] at hA
        obtain ⟨_, _, e⟩ := Option.map_eq_some_iff.mp hA
        cases e
      | some p =>
        obtain ⟨ui, hst⟩ := p
        rw [hl] at hA
        dsimp only at hA
        obtain ⟨h', _, hA⟩ := Option.bind_eq_some_iff.mp hA
        split at hA
        · cases hA
        · next hv =>
          rw [Bool.not_eq_false] at hv
          have hAe := lastCut_some hl
          split at hA
          · obtain ⟨_, _, hA⟩ := Option.bind_eq_some_iff.mp hA
            cases hA
          · next u' p' hc =>
            obtain ⟨u1, hu1, hA⟩ := Option.bind_eq_some_iff.mp hA
            obtain ⟨p1, hp1, hA⟩ := Option.bind_eq_some_iff.mp hA
            cases hA
            have hui := cut_some hc
            obtain ⟨lu, lu'⟩ := unescape_length _ (Nat.le_refl _) hu1
            obtain ⟨lp, lp'⟩ := unescape_length _ (Nat.le_refl _) hp1
            rw [← hY] at hpre
            have hpre' : ui ++ 0x40 :: hst <+: (user ++ 0x3A :: password) ++ 0x40 :: (host ++ 0x3A :: port) := by
              rw [← hAe]; exact prefix_stop hpre htail hq
            have hX : ui = user ++ 0x3A :: password := by
              refine sep_unique hpre' ?_ hhost
              have := congrArg List.length hui
              simp only [List.length_append, List.length_cons] at this ⊢
              omega
            have hlen := congrArg List.length (hui.symm.trans hX)
            simp only [List.length_append, List.length_cons] at hlen
            have hpu : 0x25 ∉ u' := fun hm => by have := lu' hm; omega
            have hpp : 0x25 ∉ p' := fun hm => by have := lp' hm; omega
            rw [unescape_plain hpu (.inl (by decide)) (by simp)] at hu1
            rw [unescape_plain hpp (.inl (by decide)) (by simp)] at hp1
            have eu : u' = user := Option.some.inj hu1
            have ep : p' = password := Option.some.inj hp1
            subst eu
            subst ep
            have hnc : 0x3A ∉ u' := by
              have := cut_not_mem 0x3A ui
              rw [hc] at this
              exact this
            have hall := List.all_eq_true.mp hv
            have hch : ∀ b ∈ ui, Spec.PlainChar b ∨ b = 0x3A ∨ b = 0x25 := by
              intro b hb
              have := (userChars b).mp (hall b hb)
              rcases this with h | h | h | h
              · exact .inl (.inl h)
              · exact .inl (.inr h)
              · exact .inr (.inl h)
              · exact .inr (.inr h)
            constructor
            · intro b hb
              rcases hch b (by rw [hui]; exact List.mem_append_left _ hb) with h | h | h
              · exact h
              · exact absurd (h ▸ hb) hnc
              · exact absurd (h ▸ hb) hpu
            · intro b hb
              rcases hch b (by rw [hui]; exact List.mem_append_right _ (List.mem_cons_of_mem _ hb)) with h | h | h
              · exact .inl h
              · exact .inr h
              · exact absurd (h ▸ hb) hpp

theorem parseHost_plain {host : Bytes} (hh : Spec.PlainHost host) (port : Nat) : parseHost (host ++ 0x3A :: decimal port) = some (host ++ 0x3A :: decimal port) := by
  have hun : unescape .host (host ++ 0x3A :: decimal port) = some (host ++ 0x3A :: decimal port) :=
    unescape_plain (fun hm => (hostPort_char hh port hm).2.2.2.2.1 rfl) (.inl (by decide)) fun _ b hb => (hostPort_char hh port hb).2.2.2.2.2.2.2
  unfold parseHost
  split
  · next rest he => exact absurd rfl (hostPort_char hh port (b := 0x5B) (by rw [he]; exact List.mem_cons_self ..)).2.2.2.2.2.1
  · have hd : 0x3A ∉ decimal port := fun hm => by have := decimal_digits port _ hm; revert this; decide
    rw [lastCut_append _ hd]
    dsimp only
    rw [if_pos (List.all_eq_true.mpr (decimal_digits port)), hun]

/-- Plain credentials and host: the parser gives them back. -/
theorem parse_plain {s user password host tail : Bytes} {port : Nat} (hs : OurScheme s) (hu : Spec.PlainUser user) (hp : Spec.PlainPassword password)
    (hh : Spec.PlainHost host) (ht : Tail tail) :
    parse (s ++ 0x3A :: 0x2F :: 0x2F :: (auth user password host (decimal port) ++ tail)) =
      some ⟨s, some (user, some password), host ++ 0x3A :: decimal port, tail.drop 1⟩ := by
  have hplain : ∀ b, Spec.PlainChar b → b ≠ 0x23 ∧ b ≠ 0x3F ∧ b ≠ 0x2F ∧ b ≠ 0x3A ∧ b ≠ 0x25 ∧ (b < 0x20 || b = 0x7F) = false := by
    intro b hb
    rcases hb with h | h
    · obtain ⟨a1, a2, a3, _, a4, a5, _, a6, _⟩ := (chars b).1 h; exact ⟨a1, a2, a3, a4, a5, a6⟩
    · exact (chars b).2.2.2 h
  have hX : ∀ b ∈ user ++ 0x3A :: password, (Spec.PlainChar b ∨ b = 0x3A) := by
    intro b hb
    rcases List.mem_append.mp hb with h | h
    · exact .inl (hu b h)
    · rcases List.mem_cons.mp h with h | h
      · exact .inr h
      · exact hp b h
  have hZ : ∀ b ∈ auth user password host (decimal port), b ≠ 0x23 ∧ b ≠ 0x3F ∧ b ≠ 0x2F ∧ (b < 0x20 || b = 0x7F) = false := by
    intro b hb
    rcases List.mem_append.mp hb with h | h
    · rcases hX b h with h | h
      · obtain ⟨a1, a2, a3, _, _, a6⟩ := hplain b h; exact ⟨a1, a2, a3, a6⟩
      · subst h; decide
    · rcases List.mem_cons.mp h with h | h
      · subst h; decide
      · obtain ⟨a1, a2, a3, _, _, _, a7, _⟩ := hostPort_char hh port h; exact ⟨a1, a2, a3, a7⟩
  have hfrag : 0x23 ∉ auth user password host (decimal port) ++ tail := by
    intro hm
    rcases List.mem_append.mp hm with h | h
    · exact (hZ _ h).1 rfl
    · exact ht.noFrag h
  rw [parse_ours hs, cut_none hfrag]
  dsimp only
  have hctl : ¬ (List.any (auth user password host (decimal port) ++ tail) fun b => b < 0x20 || b = 0x7F) = true := by
    rw [Bool.not_eq_true, List.any_eq_false]
    intro b hb
    rcases List.mem_append.mp hb with h | h
    · rw [(hZ b h).2.2.2]; simp
    · rw [ht.noCtl b h]; simp
  rw [if_neg hctl]
  have hnq : 0x3F ∉ auth user password host (decimal port) := fun hm => (hZ _ hm).2.1 rfl
  have hcq : (cut 0x3F (auth user password host (decimal port) ++ tail)).1 = auth user password host (decimal port) ∧
      ((cut 0x3F (auth user password host (decimal port) ++ tail)).2).getD [] = tail.drop 1 := by
    rcases ht.head with h | h
    · subst h
      rw [List.append_nil, cut_none hnq]
      exact ⟨rfl, rfl⟩
    · cases tail with
      | nil => cases h
      | cons x tail =>
        simp only [List.head?_cons, Option.some.injEq] at h
        subst h
        rw [cut_append _ hnq]
        exact ⟨rfl, rfl⟩
  rw [hcq.1, hcq.2]
  have hns : 0x2F ∉ auth user password host (decimal port) := fun hm => (hZ _ hm).2.2.1 rfl
  rw [cut_none hns]
  have hauth : parseAuthority (auth user password host (decimal port)) = some (some (user, some password), host ++ 0x3A :: decimal port) := by
    unfold parseAuthority
    have hna : 0x40 ∉ host ++ 0x3A :: decimal port := fun hm => (hostPort_char hh port hm).2.2.2.1 rfl
    unfold auth
    rw [lastCut_append _ hna]
    dsimp only
    rw [parseHost_plain hh port]
    have hv : validUserinfo (user ++ 0x3A :: password) = true := by
      unfold validUserinfo
      rw [List.all_eq_true]
      intro b hb
      rw [userChars]
      rcases hX b hb with (h | h) | h
      · exact .inl h
      · exact .inr (.inl h)
      · exact .inr (.inr (.inl h))
    simp only [Option.bind_eq_bind, Option.bind_some, hv, Bool.true_eq_false, if_false]
    rw [cut_append _ fun hm => (hplain _ (hu _ hm)).2.2.2.1 rfl]
    dsimp only
    rw [unescape_plain (fun hm => (hplain _ (hu _ hm)).2.2.2.2.1 rfl) (.inl (by decide)) (by simp)]
    have hpp : 0x25 ∉ password := fun hm => by
      rcases hp _ hm with h | h
      · exact (hplain _ h).2.2.2.2.1 rfl
      · cases h
    rw [unescape_plain hpp (.inl (by decide)) (by simp)]
    rfl
  rw [hauth]
  rfl

/-- Joining the end of the connection string. -/
theorem tlsPortion_eq (cert key ca nv : Bytes) : tlsPortion cert key ca nv =
    0x3F :: ((ascii "tls_cert_file" ++ 0x3D :: cert) ++ 0x26 :: ((ascii "tls_key_file" ++ 0x3D :: key) ++ 0x26 ::
      ((ascii "tls_ca_cert_file" ++ 0x3D :: ca) ++ 0x26 :: (ascii "tls_no_verify" ++ 0x3D :: nv)))) := by
  unfold tlsPortion
  simp [ascii]

/-- The end of the connection string of a client. -/
def tailOf (c : Client) : Bytes := if c.useTLS then tlsPortion c.certFile c.keyFile c.caCertFile (showBool c.tlsNoVerify) else []

/-- The certificate paths are plain. -/
structure PlainPaths (c : Client) : Prop where
  cert : Spec.PlainPath c.certFile
  key : Spec.PlainPath c.keyFile
  ca : Spec.PlainPath c.caCertFile

theorem tail_ok {c : Client} (h : c.useTLS = true → PlainPaths c) : Tail (tailOf c) := by
  have hpath : ∀ p, Spec.PlainPath p → ∀ b ∈ p, b ≠ 0x23 ∧ (b < 0x20 || b = 0x7F) = false := by
    intro p hp b hb
    obtain ⟨h1, h2, h3⟩ := hp b hb
    refine ⟨fun e => h3 (by rw [e]; decide), ?_⟩
    rw [Bool.or_eq_false_iff, decide_eq_false_iff_not, decide_eq_false_iff_not]
    exact ⟨UInt8.not_lt.mpr h1, h2⟩
  have hbool : ∀ v b, b ∈ showBool v → b ≠ 0x23 ∧ (b < 0x20 || b = 0x7F) = false := by decide
  have hkeys : ∀ b ∈ ascii "?tls_cert_file=" ++ ascii "&tls_key_file=" ++ ascii "&tls_ca_cert_file=" ++ ascii "&tls_no_verify=",
      b ≠ 0x23 ∧ (b < 0x20 || b = 0x7F) = false := by decide
  unfold tailOf
  cases hc : c.useTLS with
  | false => exact ⟨.inl rfl, List.not_mem_nil, fun _ h => absurd h List.not_mem_nil⟩
  | true =>
    obtain ⟨h1, h2, h3⟩ := h hc
    rw [if_pos rfl]
    have all : ∀ b ∈ tlsPortion c.certFile c.keyFile c.caCertFile (showBool c.tlsNoVerify), b ≠ 0x23 ∧ (b < 0x20 || b = 0x7F) = false := by
      intro b hb
      unfold tlsPortion at hb
      simp only [List.mem_append] at hb
      rcases hb with ((((((hb | hb) | hb) | hb) | hb) | hb) | hb) | hb
      · exact hkeys b (by simp only [List.mem_append]; exact .inl (.inl (.inl hb)))
      · exact hpath _ h1 b hb
      · exact hkeys b (by simp only [List.mem_append]; exact .inl (.inl (.inr hb)))
      · exact hpath _ h2 b hb
      · exact hkeys b (by simp only [List.mem_append]; exact .inl (.inr hb))
      · exact hpath _ h3 b hb
      · exact hkeys b (by simp only [List.mem_append]; exact .inr hb)
      · exact hbool _ b hb
    refine ⟨.inr ?_, fun hm => (all _ hm).1 rfl, fun b hb => (all b hb).2⟩
    rw [tlsPortion_eq]
    rfl

/-- The query the driver writes has only these keys. -/
theorem tail_keys {c : Client} (h : c.useTLS = true → PlainPaths c) (semi : Bool) (p : Bytes × Bytes) (hp : p ∈ pairs semi ((tailOf c).drop 1)) :
    p.1 = ascii "tls_cert_file" ∨ p.1 = ascii "tls_key_file" ∨ p.1 = ascii "tls_ca_cert_file" ∨ p.1 = ascii "tls_no_verify" := by
  have hone : ∀ {a : Bytes}, p ∈ [a].filterMap (parsePair semi) → parsePair semi a = some p := by
    intro a hm
    rw [List.mem_filterMap] at hm
    obtain ⟨x, hx, he⟩ := hm
    rw [List.mem_singleton] at hx
    rw [← hx]; exact he
  have hsep : ∀ {k v : Bytes}, 0x26 ∉ k → 0x3B ∉ k → Spec.PlainPath v → 0x26 ∉ k ++ 0x3D :: v ∧ 0x3B ∉ k ++ 0x3D :: v := by
    intro k v h1 h2 hv
    have a1 : ∀ x : UInt8, x ∈ ascii "#&;" → x ∉ v := fun x hx hm => (hv x hm).2.2 hx
    refine ⟨fun hm => ?_, fun hm => ?_⟩
    · rcases List.mem_append.mp hm with h | h
      · exact h1 h
      · rcases List.mem_cons.mp h with h | h
        · cases h
        · exact a1 _ (by decide) h
    · rcases List.mem_append.mp hm with h | h
      · exact h2 h
      · rcases List.mem_cons.mp h with h | h
        · cases h
        · exact a1 _ (by decide) h
  unfold tailOf at hp
  cases hc : c.useTLS with
  | false =>
    rw [hc] at hp
    have : pairs semi [] = [] := by cases semi <;> rfl
    rw [if_neg (by decide), List.drop_nil, this] at hp
    cases hp
  | true =>
    obtain ⟨h1, h2, h3⟩ := h hc
    rw [hc, if_pos rfl, tlsPortion_eq, List.drop_succ_cons, List.drop_zero] at hp
    have s1 := hsep (k := ascii "tls_cert_file") (by decide) (by decide) h1
    have s2 := hsep (k := ascii "tls_key_file") (by decide) (by decide) h2
    have s3 := hsep (k := ascii "tls_ca_cert_file") (by decide) (by decide) h3
    have s4 : 0x26 ∉ ascii "tls_no_verify" ++ 0x3D :: showBool c.tlsNoVerify ∧ 0x3B ∉ ascii "tls_no_verify" ++ 0x3D :: showBool c.tlsNoVerify := by
      cases c.tlsNoVerify <;> decide
    rw [pairs_cons semi _ s1.1 s1.2, pairs_cons semi _ s2.1 s2.2, pairs_cons semi _ s3.1 s3.2, pairs_one semi s4.1 s4.2] at hp
    simp only [List.mem_append] at hp
    rcases hp with hp | hp | hp | hp
    · exact .inl (parsePair_key (by decide) (hone hp))
    · exact .inr (.inl (parsePair_key (by decide) (hone hp)))
    · exact .inr (.inr (.inl (parsePair_key (by decide) (hone hp))))
    · exact .inr (.inr (.inr (parsePair_key (by decide) (hone hp))))

theorem tail_get {c : Client} (h : c.useTLS = true → PlainPaths c) (semi : Bool) (u : URL) (hu : u.rawQuery = (tailOf c).drop 1) {key : Bytes}
    (hk : key = ascii "tls" ∨ key = ascii "timeout") : get semi u key = [] := by
  refine get_absent fun p hp e => ?_
  rw [hu] at hp
  have := tail_keys h semi p hp
  rw [e] at this
  revert this
  rcases hk with rfl | rfl <;> decide

end C54

/-- A client made from host, port and credentials (any options but a connection string), with a plain host name and plain certificate paths: the connections it opens authenticate with
its credentials if and only if these consist of plain characters (and colons in the password). -/
theorem C54_credentials_iff (semi : Bool) (opts : List (Option ClientOpt)) (c : Client) (hs : ¬ Spec.GivesString opts) (h : newClient semi opts = .ok c)
    (hh : Spec.PlainHost c.host) (hp : c.useTLS = true → Spec.PlainPath c.certFile ∧ Spec.PlainPath c.keyFile ∧ Spec.PlainPath c.caCertFile) :
    (∃ cfg, c.openConfig semi = .ok cfg ∧ cfg.user = c.user ∧ cfg.password = c.password) ↔ Spec.PlainUser c.user ∧ Spec.PlainPassword c.password := by
  obtain ⟨_, hne, _, hstr⟩ := newClient_connStr hs h
  have hours : Url.OurScheme (if c.routing then ascii "bolt+routing" else ascii "bolt") := by
    cases c.routing
    · exact .inl rfl
    · exact .inr rfl
  have hp' : c.useTLS = true → C54.PlainPaths c := fun ht => ⟨(hp ht).1, (hp ht).2.1, (hp ht).2.2⟩
  have hstr' : c.connStr = (if c.routing then ascii "bolt+routing" else ascii "bolt") ++ 0x3A :: 0x2F :: 0x2F ::
      (C54.auth c.user c.password c.host (Url.decimal c.port.toNat) ++ C54.tailOf c) := by
    rw [hstr, C54.baseStr_eq]
    unfold C54.tailOf
    simp
  unfold Client.openConfig connectionConfig
  rw [hstr']
  constructor
  · rintro ⟨cfg, hcfg, hu, hpw⟩
    cases hparse : Url.parse ((if c.routing then ascii "bolt+routing" else ascii "bolt") ++ 0x3A :: 0x2F :: 0x2F ::
      (C54.auth c.user c.password c.host (Url.decimal c.port.toNat) ++ C54.tailOf c)) with
    | none => rw [hparse] at hcfg; cases hcfg
    | some u =>
      rw [hparse] at hcfg
      refine C54.only_plain hours (fun hm => (C54.hostPort_char hh _ hm).2.2.2.1 rfl) (C54.tail_ok hp').head hparse ?_
      dsimp only at hcfg
      split at hcfg
      · cases hcfg
      · cases huu : u.user with
        | none =>
          rw [huu] at hcfg
          change (timeoutOf semi u _ >>= _) = _ at hcfg
          cases ht : timeoutOf semi u (60 * 1000000000) with
          | error e => rw [ht] at hcfg; cases hcfg
          | ok t => rw [ht] at hcfg; cases hcfg; exact absurd hu.symm hne
        | some up =>
          obtain ⟨us, pw⟩ := up
          cases pw with
          | none => rw [huu] at hcfg; cases hcfg
          | some pw =>
            rw [huu] at hcfg
            change (timeoutOf semi u _ >>= _) = _ at hcfg
            cases ht : timeoutOf semi u (60 * 1000000000) with
            | error e => rw [ht] at hcfg; cases hcfg
            | ok t => rw [ht] at hcfg; cases hcfg; rw [← hu, ← hpw]
  · rintro ⟨hu, hpw⟩
    rw [C54.parse_plain hours hu hpw hh (C54.tail_ok hp')]
    dsimp only
    rw [Url.toLower_ours hours]
    rw [if_neg (by rcases hours with e | e <;> rw [e] <;> simp)]
    unfold timeoutOf
    rw [C54.tail_get hp' semi _ rfl (.inr rfl)]
    exact ⟨_, rfl, rfl, rfl⟩

/-- The credentials the connection authenticates with. -/
def creds (r : Except Err Config) : Option (Bytes × Bytes) :=
  match r with
  | .ok cfg => some (cfg.user, cfg.password)
  | .error _ => none

/-- A client and the credentials its connections will use. -/
def clientCreds (semi : Bool) (opts : List (Option ClientOpt)) : Option (Option (Bytes × Bytes)) :=
  match newClient semi opts with
  | .ok c => some (creds (c.openConfig semi))
  | .error _ => none

/-- Plain credentials, with TLS; the password contains ':' and '@'. -/
example : clientCreds true [some (.hostPort (ascii "db.example.org") 7687), some (.basicAuth (ascii "neo4j") (ascii "a:b@c!")),
      some (.tls (ascii "/ca.pem") (ascii "/cert.pem") (ascii "/key.pem") false)] = some (some (ascii "neo4j", ascii "a:b@c!")) := by decide +kernel

/-- False: the credentials are not escaped.  "p%41" silently becomes "pA"; "a/b" makes every `Open` fail; "1/2" even connects to another host, without credentials. -/
theorem C54_refuted : ¬ C54_statement ∧
    clientCreds true [some (.hostPort (ascii "h") 7687), some (.basicAuth (ascii "u") (ascii "p%41"))] = some (some (ascii "u", ascii "pA")) ∧
    clientCreds true [some (.hostPort (ascii "h") 7687), some (.basicAuth (ascii "u") (ascii "a/b"))] = some none ∧
    clientCreds true [some (.hostPort (ascii "h") 7687), some (.basicAuth (ascii "u") (ascii "1/2"))] = some (some ([], [])) := by
  have h2 : clientCreds true [some (.hostPort (ascii "h") 7687), some (.basicAuth (ascii "u") (ascii "a/b"))] = some none := by decide +kernel
  refine ⟨fun h => ?_, by decide +kernel, h2, by decide +kernel⟩
  have h := h true [some (.hostPort (ascii "h") 7687), some (.basicAuth (ascii "u") (ascii "a/b"))]
  unfold clientCreds at h2
  split at h2
  · next c hc =>
    have hh : c.host = ascii "h" := by
      have := (C51_succeeds_iff true _ (by rintro ⟨s, h⟩; simp at h)).2 c hc
      have := this.1
      simp [Spec.lastHost] at this
      exact this.1.symm
    obtain ⟨cfg, hcfg, _⟩ := h c (by rintro ⟨s, h⟩; simp at h) hc (by rw [hh]; unfold Spec.PlainHost; decide)
    rw [hcfg] at h2
    cases h2
  · cases h2

end Verif

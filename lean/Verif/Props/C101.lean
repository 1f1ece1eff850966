/-
C101  Any user, password and parameter can be given in a connection string, by escaping; and the host can be a name or an IPv6 address.

False for clients: `NewClient` refuses connection strings with an IPv6 address (`C101_ipv6`, `C101_refuted`).
Missing in `C101_client_partial`: hosts that are IPv6 addresses.
-/
import Verif.Props.C79
namespace Verif

namespace Spec

/-- A hexadecimal digit and what it stands for. -/
inductive HexDigit : UInt8 → Nat → Prop where
  | digit (d : Fin 10) : HexDigit (UInt8.ofNat (0x30 + d.val)) d.val
  | lower (d : Fin 6) : HexDigit (UInt8.ofNat (0x61 + d.val)) (10 + d.val)
  | upper (d : Fin 6) : HexDigit (UInt8.ofNat (0x41 + d.val)) (10 + d.val)

/-- `Writes ok plus w s`: the string `s` may be written `w`: characters for which `ok` holds as they are, all characters as '%' and two hexadecimal digits, and with `plus` spaces as '+'. -/
inductive Writes (ok : UInt8 → Prop) (plus : Bool) : Bytes → Bytes → Prop where
  | nil : Writes ok plus [] []
  | char {b : UInt8} {w s : Bytes} : ok b → Writes ok plus w s → Writes ok plus (b :: w) (b :: s)
  | escape {h l : UInt8} {hi lo : Nat} {w s : Bytes} : HexDigit h hi → HexDigit l lo → Writes ok plus w s →
      Writes ok plus (0x25 :: h :: l :: w) (UInt8.ofNat (16 * hi + lo) :: s)
  | space {w s : Bytes} : plus = true → Writes ok plus w s → Writes ok plus (0x2B :: w) (0x20 :: s)

/-- Characters of parameters that need no escape. -/
def ValueChar (b : UInt8) : Prop := 0x20 ≤ b ∧ b ≠ 0x7F ∧ b ∉ ascii "#%&+;"
/-- Characters of names of parameters that need no escape. -/
def NameChar (b : UInt8) : Prop := ValueChar b ∧ b ≠ 0x3D

/-- The parameters `ps` may be written `ws`. -/
inductive WritesParams : List (Bytes × Bytes) → List (Bytes × Bytes) → Prop where
  | nil : WritesParams [] []
  | cons {wk wv k v : Bytes} {ws ps : List (Bytes × Bytes)} : Writes NameChar true wk k → Writes ValueChar true wv v → WritesParams ws ps →
      WritesParams ((wk, wv) :: ws) ((k, v) :: ps)

/-- An IPv6 address in brackets. -/
def Ipv6Host (h : Bytes) : Prop := ∃ a, h = ascii "[" ++ a ++ ascii "]" ∧ ∀ b ∈ a, Spec.alnum b = true ∨ b ∈ ascii ":."

/-- Characters in the name of a zone (a network interface). -/
def ZoneChar (b : UInt8) : Prop := Spec.alnum b = true ∨ b ∈ ascii "-._~"
/-- How the name of a zone may be written. -/
inductive WritesZone : Bytes → Bytes → Prop where
  | nil : WritesZone [] []
  | char {b : UInt8} {w z : Bytes} : ZoneChar b → WritesZone w z → WritesZone (b :: w) (b :: z)
  | escape {h l b : UInt8} {hi lo : Nat} {w z : Bytes} : HexDigit h hi → HexDigit l lo → b.toNat = 16 * hi + lo → (ZoneChar b ∨ b = 0x20) → WritesZone w z →
      WritesZone (0x25 :: h :: l :: w) (b :: z)

/-- The parts of a connection string and how they may be written. -/
structure WritesString (scheme wuser wpassword host : Bytes) (ws : List (Bytes × Bytes)) (user password : Bytes) (ps : List (Bytes × Bytes)) : Prop where
  scheme : scheme = ascii "bolt" ∨ scheme = ascii "bolt+routing"
  user : Writes PlainChar false wuser user
  password : Writes (fun b => PlainChar b ∨ b = 0x3A) false wpassword password
  host : PlainHost host ∨ Ipv6Host host
  params : WritesParams ws ps

end Spec

namespace C101
open Url Spec

theorem hexDigit {b : UInt8} {n : Nat} (h : HexDigit b n) : ishex b = true ∧ (unhex b).toNat = n ∧ n < 16 ∧ Spec.alnum b = true := by
  cases h with
  | digit d => revert d; decide +kernel
  | lower d => revert d; decide +kernel
  | upper d => revert d; decide +kernel

theorem unescape_writes {ok : UInt8 → Prop} {plus : Bool} {m : Mode} (hm : m ≠ .host ∧ m ≠ .zone) (hq : plus = true → m = .query)
    (hok : ∀ b, ok b → b ≠ 0x25 ∧ (m = .query → b ≠ 0x2B)) {w s : Bytes} (h : Writes ok plus w s) : unescape m w = some s := by
  induction h with
  | nil => rfl
  | @char b w s hb _ ih =>
    unfold unescape
    rw [if_neg (hok b hb).1]
    split
    · rename_i e
      rw [if_neg fun hmq => (hok b hb).2 hmq e, ih, ← e]
      rfl
    · rw [if_neg (by rintro ⟨h | h, _⟩; exact hm.1 h; exact hm.2 h), ih]
      rfl
  | @escape a b hi lo w s ha hb _ ih =>
    obtain ⟨a1, a2, a3, _⟩ := hexDigit ha
    obtain ⟨b1, b2, b3, _⟩ := hexDigit hb
    unfold unescape
    rw [if_pos rfl]
    dsimp only
    rw [if_neg (by rw [a1, b1]; decide), if_neg fun h => hm.1 h.1, if_neg fun h => hm.2 h.1, ih]
    have : unhex a * 16 + unhex b = UInt8.ofNat (16 * hi + lo) := by
      apply UInt8.toNat_inj.mp
      rw [UInt8.toNat_add, UInt8.toNat_mul, a2, b2, UInt8.toNat_ofNat']
      simp only [UInt8.reduceToNat]
      omega
    rw [this]
    rfl
  | space hp _ ih =>
    unfold unescape
    rw [if_neg (by decide), if_pos rfl, ih, if_pos (hq hp)]
    rfl

theorem writes_chars {ok : UInt8 → Prop} {plus : Bool} {w s : Bytes} (h : Writes ok plus w s) : ∀ b ∈ w, ok b ∨ b = 0x25 ∨ Spec.alnum b = true ∨ plus = true ∧ b = 0x2B := by
  induction h with
  | nil => intro b hb; cases hb
  | char hb _ ih =>
    intro b hb'
    rcases List.mem_cons.mp hb' with rfl | hb'
    · exact .inl hb
    · exact ih b hb'
  | escape ha hl _ ih =>
    intro b hb
    rcases List.mem_cons.mp hb with rfl | hb
    · exact .inr (.inl rfl)
    · rcases List.mem_cons.mp hb with rfl | hb
      · exact .inr (.inr (.inl (hexDigit ha).2.2.2))
      · rcases List.mem_cons.mp hb with rfl | hb
        · exact .inr (.inr (.inl (hexDigit hl).2.2.2))
        · exact ih b hb
  | space hp _ ih =>
    intro b hb
    rcases List.mem_cons.mp hb with rfl | hb
    · exact .inr (.inr (.inr ⟨hp, rfl⟩))
    · exact ih b hb

theorem value_chars : ∀ b : UInt8, (ValueChar b ∨ b = 0x25 ∨ Spec.alnum b = true ∨ b = 0x2B) →
    b ≠ 0x23 ∧ b ≠ 0x26 ∧ b ≠ 0x3B ∧ (b < 0x20 || b = 0x7F) = false := by
  unfold ValueChar
  refine C54.allBytes ?_
  decide +kernel

theorem name_chars : ∀ b : UInt8, (NameChar b ∨ b = 0x25 ∨ Spec.alnum b = true ∨ b = 0x2B) →
    (ValueChar b ∨ b = 0x25 ∨ Spec.alnum b = true ∨ b = 0x2B) ∧ b ≠ 0x3D := by
  unfold NameChar ValueChar
  refine C54.allBytes ?_
  decide +kernel

theorem user_chars : ∀ b : UInt8, ((PlainChar b ∨ b = 0x3A) ∨ b = 0x25 ∨ Spec.alnum b = true) →
    b ≠ 0x23 ∧ b ≠ 0x3F ∧ b ≠ 0x2F ∧ (b < 0x20 || b = 0x7F) = false ∧
      (isAlnum b || [0x2D, 0x2E, 0x5F, 0x3A, 0x7E, 0x21, 0x24, 0x26, 0x27, 0x28, 0x29, 0x2A, 0x2B, 0x2C, 0x3B, 0x3D, 0x25, 0x40].contains b) = true := by
  unfold PlainChar
  refine C54.allBytes ?_
  decide +kernel

theorem noColon : ∀ b : UInt8, (PlainChar b ∨ b = 0x25 ∨ Spec.alnum b = true) → b ≠ 0x3A := by
  unfold PlainChar
  refine C54.allBytes ?_
  decide +kernel

theorem plain_noEscape : ∀ b : UInt8, (PlainChar b ∨ b = 0x3A) → b ≠ 0x25 := by
  unfold PlainChar
  refine C54.allBytes ?_
  decide +kernel

theorem value_noEscape : ∀ b : UInt8, ValueChar b → b ≠ 0x25 ∧ b ≠ 0x2B := by
  unfold ValueChar
  refine C54.allBytes ?_
  decide +kernel

theorem before_none {c : UInt8} {t s : Bytes} (h : c ∉ s) : before (c :: t) s = none := by
  induction s with
  | nil => rfl
  | cons x s ih =>
    unfold before
    have hx : ¬ (c :: t).isPrefixOf (x :: s) = true := by
      intro hp
      simp only [List.isPrefixOf, Bool.and_eq_true, beq_iff_eq] at hp
      exact h (hp.1 ▸ List.mem_cons_self)
    rw [if_neg hx, ih fun hm => h (List.mem_cons_of_mem _ hm)]
    rfl

/-- Characters of a host with its port. -/
theorem host_chars {host : Bytes} (hh : PlainHost host ∨ Ipv6Host host) (port : Nat) : ∀ b ∈ host ++ 0x3A :: decimal port,
    b ≠ 0x23 ∧ b ≠ 0x3F ∧ b ≠ 0x2F ∧ b ≠ 0x40 ∧ b ≠ 0x25 ∧ (b < 0x20 || b = 0x7F) = false ∧ hostChar b = true := by
  intro b hb
  rcases hh with hh | ⟨a, rfl, ha⟩
  · obtain ⟨a1, a2, a3, a4, a5, _, a7, a8⟩ := C54.hostPort_char hh port hb
    exact ⟨a1, a2, a3, a4, a5, a7, a8⟩
  · have key : Spec.alnum b = true ∨ b ∈ ascii ":." ∨ b ∈ ascii "[]" := by
      simp only [List.mem_append, List.mem_cons] at hb
      rcases hb with ((h | h) | h) | h | h
      · refine .inr (.inr ?_)
        revert b; decide
      · exact (ha b h).imp_right .inl
      · refine .inr (.inr ?_)
        revert b; decide
      · subst h; exact .inr (.inl (by decide))
      · exact .inl ((C54.chars b).2.1 (decimal_digits port b h))
    have all : ∀ b : UInt8, (Spec.alnum b = true ∨ b ∈ ascii ":." ∨ b ∈ ascii "[]") →
        b ≠ 0x23 ∧ b ≠ 0x3F ∧ b ≠ 0x2F ∧ b ≠ 0x40 ∧ b ≠ 0x25 ∧ (b < 0x20 || b = 0x7F) = false ∧ hostChar b = true := C54.allBytes (by decide +kernel)
    exact all b key

/-- The host is understood. -/
theorem parseHost_ok {host : Bytes} (hh : PlainHost host ∨ Ipv6Host host) (port : Nat) : parseHost (host ++ 0x3A :: decimal port) = some (host ++ 0x3A :: decimal port) := by
  have hc := host_chars hh port
  have hun : unescape .host (host ++ 0x3A :: decimal port) = some (host ++ 0x3A :: decimal port) :=
    unescape_plain (fun hm => (hc _ hm).2.2.2.2.1 rfl) (.inl (by decide)) fun _ b hb => (hc b hb).2.2.2.2.2.2
  have hd : 0x3A ∉ decimal port := fun hm => by have := decimal_digits port _ hm; revert this; decide
  rcases hh with hh | ⟨a, rfl, ha⟩
  · unfold parseHost
    split
    · next rest he => exact absurd rfl (C54.hostPort_char hh port (b := 0x5B) (by rw [he]; exact List.mem_cons_self ..)).2.2.2.2.2.1
    · rw [lastCut_append _ hd]
      dsimp only
      rw [if_pos (List.all_eq_true.mpr (decimal_digits port)), hun]
  · have he : ascii "[" ++ a ++ ascii "]" ++ 0x3A :: decimal port = (0x5B :: a) ++ 0x5D :: (0x3A :: decimal port) := by simp [ascii]
    have hb : 0x5D ∉ 0x3A :: decimal port := by
      intro hm
      rcases List.mem_cons.mp hm with h | h
      · cases h
      · have := decimal_digits port _ h; revert this; decide
    rw [he] at hun hc ⊢
    unfold parseHost
    show (match lastCut 0x5D ((0x5B :: a) ++ 0x5D :: (0x3A :: decimal port)) with | none => none | some (inner, colonPort) => _) = _
    rw [lastCut_append _ hb]
    dsimp only
    rw [if_neg (by
      unfold validOptionalPort
      simp only [decide_true, Bool.true_and]
      rw [List.all_eq_true.mpr (decimal_digits port)]
      decide)]
    have hbef : before [0x25, 0x32, 0x35] (0x5B :: a) = none :=
      before_none fun hm => (hc _ (List.mem_append_left _ hm)).2.2.2.2.1 rfl
    rw [hbef]
    exact hun

theorem query_chars {ws ps : List (Bytes × Bytes)} (h : WritesParams ws ps) : ∀ b ∈ Spec.query ws, b ≠ 0x23 ∧ (b < 0x20 || b = 0x7F) = false := by
  induction h with
  | nil => intro b hb; cases hb
  | @cons wk wv k v ws ps hk hv hps ih =>
    have hkv : ∀ b ∈ wk ++ 0x3D :: wv, b ≠ 0x23 ∧ (b < 0x20 || b = 0x7F) = false := by
      intro b hb
      rcases List.mem_append.mp hb with hb | hb
      · have := value_chars b (name_chars b (by rcases writes_chars hk b hb with h | h | h | h <;> simp [h])).1
        exact ⟨this.1, this.2.2.2⟩
      · rcases List.mem_cons.mp hb with rfl | hb
        · decide
        · have := value_chars b (by rcases writes_chars hv b hb with h | h | h | h <;> simp [h])
          exact ⟨this.1, this.2.2.2⟩
    cases ws with
    | nil => exact hkv
    | cons q ws =>
      intro b hb
      rcases List.mem_append.mp hb with hb | hb
      · exact hkv b hb
      · rcases List.mem_cons.mp hb with rfl | hb
        · decide
        · exact ih b hb

theorem pair_writes (semi : Bool) {wk wv k v : Bytes} (hk : Writes NameChar true wk k) (hv : Writes ValueChar true wv v) :
    parsePair semi (wk ++ 0x3D :: wv) = some (k, v) ∧ 0x26 ∉ wk ++ 0x3D :: wv ∧ 0x3B ∉ wk ++ 0x3D :: wv := by
  have hkc : ∀ b ∈ wk, b ≠ 0x26 ∧ b ≠ 0x3B ∧ b ≠ 0x3D := by
    intro b hb
    have h1 := name_chars b (by rcases writes_chars hk b hb with h | h | h | h <;> simp [h])
    have := value_chars b h1.1
    exact ⟨this.2.1, this.2.2.1, h1.2⟩
  have hvc : ∀ b ∈ wv, b ≠ 0x26 ∧ b ≠ 0x3B := by
    intro b hb
    have := value_chars b (by rcases writes_chars hv b hb with h | h | h | h <;> simp [h])
    exact ⟨this.2.1, this.2.2.1⟩
  have no : ∀ c : UInt8, c = 0x26 ∨ c = 0x3B → c ∉ wk ++ 0x3D :: wv := by
    intro c hc hm
    rcases List.mem_append.mp hm with hm | hm
    · rcases hc with rfl | rfl
      · exact (hkc _ hm).1 rfl
      · exact (hkc _ hm).2.1 rfl
    · rcases List.mem_cons.mp hm with hm | hm
      · subst hm; rcases hc with hc | hc <;> cases hc
      · rcases hc with rfl | rfl
        · exact (hvc _ hm).1 rfl
        · exact (hvc _ hm).2 rfl
  refine ⟨?_, no _ (.inl rfl), no _ (.inr rfl)⟩
  unfold parsePair
  rw [if_neg (by simp), if_neg (by simp only [List.contains_iff_mem, not_and]; exact fun _ => no _ (.inr rfl)), cut_append wv fun hm => (hkc _ hm).2.2 rfl]
  dsimp only [Option.getD_some]
  rw [unescape_writes (m := .query) (by decide) (fun _ => rfl) (fun b hb => ⟨(value_noEscape b hb.1).1, fun _ => (value_noEscape b hb.1).2⟩) hk,
    unescape_writes (m := .query) (by decide) (fun _ => rfl) (fun b hb => ⟨(value_noEscape b hb).1, fun _ => (value_noEscape b hb).2⟩) hv]
  rfl

theorem pairs_query (semi : Bool) {ws ps : List (Bytes × Bytes)} (h : WritesParams ws ps) : pairs semi (Spec.query ws) = ps := by
  induction h with
  | nil => cases semi <;> rfl
  | @cons wk wv k v ws ps hk hv hps ih =>
    obtain ⟨h1, h2, h3⟩ := pair_writes semi hk hv
    cases ws with
    | nil =>
      cases hps
      show pairs semi (wk ++ 0x3D :: wv) = _
      rw [pairs_one semi h2 h3]
      simp [h1]
    | cons q ws =>
      show pairs semi ((wk ++ 0x3D :: wv) ++ 0x26 :: Spec.query (q :: ws)) = _
      rw [pairs_cons semi _ h2 h3, ih]
      simp [h1]

theorem get_param (semi : Bool) {s host : Bytes} {us : Option (Bytes × Option Bytes)} {ws ps : List (Bytes × Bytes)} (h : WritesParams ws ps) (k : String) :
    Url.get semi ⟨s, us, host, Spec.query ws⟩ (ascii k) = Spec.param ps k := by
  unfold Url.get Spec.param
  rw [show (URL.mk s us host (Spec.query ws)).rawQuery = Spec.query ws from rfl, pairs_query semi h]
  cases ps.find? fun p => decide (p.1 = ascii k) <;> rfl

/-- The parsed connection string. -/
theorem parse_string {s wuser wpassword host user password : Bytes} {ws ps : List (Bytes × Bytes)} (port : Nat) (h : WritesString s wuser wpassword host ws user password ps) :
    parse (Spec.connString s wuser wpassword host port ws) = some ⟨s, some (user, some password), host ++ 0x3A :: decimal port, Spec.query ws⟩ := by
  have hX : ∀ b ∈ wuser ++ 0x3A :: wpassword, ((PlainChar b ∨ b = 0x3A) ∨ b = 0x25 ∨ Spec.alnum b = true) := by
    intro b hb
    rcases List.mem_append.mp hb with hb | hb
    · rcases writes_chars h.user b hb with h | h | h | h
      · exact .inl (.inl h)
      · exact .inr (.inl h)
      · exact .inr (.inr h)
      · exact absurd h.1 (by decide)
    · rcases List.mem_cons.mp hb with hb | hb
      · exact .inl (.inr hb)
      · rcases writes_chars h.password b hb with h | h | h | h
        · exact .inl h
        · exact .inr (.inl h)
        · exact .inr (.inr h)
        · exact absurd h.1 (by decide)
  have hZ : ∀ b ∈ C54.auth wuser wpassword host (decimal port), b ≠ 0x23 ∧ b ≠ 0x3F ∧ b ≠ 0x2F ∧ (b < 0x20 || b = 0x7F) = false := by
    intro b hb
    rcases List.mem_append.mp hb with h' | h'
    · have := user_chars b (hX b h')
      exact ⟨this.1, this.2.1, this.2.2.1, this.2.2.2.1⟩
    · rcases List.mem_cons.mp h' with h' | h'
      · subst h'; decide
      · have := host_chars h.host port b h'
        exact ⟨this.1, this.2.1, this.2.2.1, this.2.2.2.2.2.1⟩
  have hq := query_chars h.params
  rw [C79.connString_eq, parse_ours h.scheme, cut_none (by
    intro hm
    rcases List.mem_append.mp hm with hm | hm
    · exact (hZ _ hm).1 rfl
    · rcases List.mem_cons.mp hm with hm | hm
      · cases hm
      · exact (hq _ hm).1 rfl)]
  dsimp only
  rw [if_neg (by
    rw [Bool.not_eq_true, List.any_eq_false]
    intro b hb
    rcases List.mem_append.mp hb with hb | hb
    · rw [(hZ b hb).2.2.2]; simp
    · rcases List.mem_cons.mp hb with rfl | hb
      · decide
      · rw [(hq b hb).2]; simp)]
  rw [cut_append _ fun hm => (hZ _ hm).2.1 rfl]
  dsimp only [Option.getD_some]
  rw [cut_none fun hm => (hZ _ hm).2.2.1 rfl]
  have hauth : parseAuthority (C54.auth wuser wpassword host (decimal port)) = some (some (user, some password), host ++ 0x3A :: decimal port) := by
    unfold parseAuthority C54.auth
    rw [lastCut_append _ fun hm => (host_chars h.host port _ hm).2.2.2.1 rfl]
    dsimp only
    rw [parseHost_ok h.host]
    have hv : validUserinfo (wuser ++ 0x3A :: wpassword) = true := by
      unfold validUserinfo
      rw [List.all_eq_true]
      exact fun b hb => (user_chars b (hX b hb)).2.2.2.2
    simp only [Option.bind_eq_bind, Option.bind_some, hv, Bool.true_eq_false, if_false]
    rw [cut_append _ fun hm => noColon _ (by
      rcases writes_chars h.user _ hm with h | h | h | h
      · exact .inl h
      · exact .inr (.inl h)
      · exact .inr (.inr h)
      · exact absurd h.1 (by decide)) rfl]
    dsimp only
    rw [unescape_writes (m := .user) (by decide) (by decide) (fun b hb => ⟨plain_noEscape b (.inl hb), by simp⟩) h.user,
      unescape_writes (m := .user) (by decide) (by decide) (fun b hb => ⟨plain_noEscape b hb, by simp⟩) h.password]
    rfl
  rw [hauth]
  rfl

/-- The configuration from the string. -/
theorem config (semi : Bool) {s wuser wpassword host user password : Bytes} {ws ps : List (Bytes × Bytes)} (port : Nat)
    (h : WritesString s wuser wpassword host ws user password ps) :
    connectionConfig semi (Spec.connString s wuser wpassword host port ws) =
      (timeoutOf semi ⟨s, some (user, some password), host ++ 0x3A :: decimal port, Spec.query ws⟩ (60 * 1000000000)).bind fun t =>
        let tls := isTrue (Spec.param ps "tls")
        let opt := fun k => if tls then Spec.param ps k else []
        .ok ⟨host ++ 0x3A :: decimal port, user, password, t, 65535, tls, opt "tls_cert_file", opt "tls_key_file", opt "tls_ca_cert_file",
          tls && isTrue (Spec.param ps "tls_no_verify")⟩ := by
  unfold connectionConfig
  rw [parse_string port h]
  dsimp only
  rw [if_neg (by rw [toLower_ours h.scheme]; rcases h.scheme with e | e <;> simp [e])]
  simp only [get_param semi h.params]
  rfl

/-- Every byte can be written as two hexadecimal digits. -/
theorem hex_of : ∀ b : UInt8, ∃ h l hi lo, HexDigit h hi ∧ HexDigit l lo ∧ b = UInt8.ofNat (16 * hi + lo) := by
  have digit : ∀ n : Fin 16, ∃ h, HexDigit h n.val := by
    intro n
    by_cases hn : n.val < 10
    · exact ⟨_, .digit ⟨n.val, hn⟩⟩
    · have := HexDigit.lower ⟨n.val - 10, by omega⟩
      dsimp only at this
      rw [show 10 + (n.val - 10) = n.val by omega] at this
      exact ⟨_, this⟩
  intro b
  have hb := b.toNat_lt
  obtain ⟨h, hh⟩ := digit ⟨b.toNat / 16, by omega⟩
  obtain ⟨l, hl⟩ := digit ⟨b.toNat % 16, by omega⟩
  refine ⟨h, l, _, _, hh, hl, ?_⟩
  dsimp only
  rw [show 16 * (b.toNat / 16) + b.toNat % 16 = b.toNat by omega, UInt8.ofNat_toNat]

theorem splitAll_length (c : UInt8) (s : Bytes) : (splitAll c s).length = s.count c + 1 := by
  induction s with
  | nil => rfl
  | cons x s ih =>
    unfold splitAll
    cases hs : splitAll c s with
    | nil => rw [hs] at ih; simp at ih
    | cons p ps =>
      rw [hs] at ih
      dsimp only
      by_cases hx : x = c
      · subst hx; simp at ih ⊢; omega
      · rw [if_neg hx, List.count_cons_of_ne hx]
        exact ih

/-- A number is printed as its numeral. -/
theorem decimalF_numeral : (fuel n : Nat) → n < fuel → Numeral (decimalF fuel n) n
  | 0, _, h => absurd h (Nat.not_lt_zero _)
  | fuel + 1, n, h => by
    unfold decimalF
    split
    · rename_i hn; exact .one (.mk ⟨n, hn⟩)
    · have := decimalF_numeral fuel (n / 10) (by omega)
      have h2 := Numeral.snoc this (.mk ⟨n % 10, Nat.mod_lt _ (by decide)⟩)
      dsimp only at h2
      rwa [show 10 * (n / 10) + n % 10 = n by omega] at h2

theorem decimal_numeral (n : Nat) : Numeral (decimal n) n := decimalF_numeral _ _ (Nat.lt_succ_self _)

theorem new_eq (semi : Bool) (str : Bytes) (hs : str ≠ []) :
    newClient semi [some (.connectionString str)] = Client.takeUrl semi (Client.withDefaults { connStr := str }) := by
  simp [newClient, applyOpts, ClientOpt.apply, Client.withDefaults, bind, Except.bind, hs]

theorem string_ne {s wuser wpassword host user password : Bytes} {ws ps : List (Bytes × Bytes)} (port : Nat) (h : WritesString s wuser wpassword host ws user password ps) :
    connString s wuser wpassword host port ws ≠ [] := by
  unfold connString
  rcases h.scheme with rfl | rfl <;> simp [ascii]

end C101

open Spec in
/-- Every string can be written. -/
theorem C101_any (ok : UInt8 → Prop) (plus : Bool) (s : Bytes) : ∃ w, Writes ok plus w s := by
  induction s with
  | nil => exact ⟨[], .nil⟩
  | cons b s ih =>
    obtain ⟨w, hw⟩ := ih
    obtain ⟨h, l, hi, lo, h1, h2, rfl⟩ := C101.hex_of b
    exact ⟨_, .escape h1 h2 hw⟩

open Spec in
/-- Connections: the string is accepted if its timeout is not given or is a decimal number of 64 bits; -/
theorem C101_accepted (semi : Bool) {s wuser wpassword host user password : Bytes} {ws ps : List (Bytes × Bytes)} (port : Nat)
    (h : WritesString s wuser wpassword host ws user password ps) :
    (∃ cfg, connectionConfig semi (connString s wuser wpassword host port ws) = .ok cfg) ↔
      param ps "timeout" = [] ∨ ∃ n : Int, SignedNumeral (param ps "timeout") n ∧ - 2 ^ 63 ≤ n ∧ n < 2 ^ 63 := by
  rw [C101.config semi port h]
  unfold timeoutOf
  rw [C101.get_param semi h.params]
  dsimp only
  by_cases ht : param ps "timeout" = []
  · rw [if_pos ht]
    exact ⟨fun _ => .inl ht, fun _ => ⟨_, rfl⟩⟩
  · rw [if_neg ht]
    cases ha : Url.atoi (param ps "timeout") with
    | none =>
      constructor
      · rintro ⟨_, h⟩; cases h
      · rintro (h | ⟨n, h⟩)
        · exact absurd h ht
        · rw [(C79.atoi_iff _ n).mpr h] at ha; cases ha
    | some n => exact ⟨fun _ => .inr ⟨n, (C79.atoi_iff _ n).mp ha⟩, fun _ => ⟨_, rfl⟩⟩

open Spec in
/-- and then its settings are those that were written. -/
theorem C101_config (semi : Bool) {s wuser wpassword host user password : Bytes} {ws ps : List (Bytes × Bytes)} (port : Nat)
    (h : WritesString s wuser wpassword host ws user password ps) (cfg : Config) (hc : connectionConfig semi (connString s wuser wpassword host port ws) = .ok cfg) :
    cfg.hostPort = host ++ ascii ":" ++ Url.decimal port ∧ cfg.user = user ∧ cfg.password = password ∧
    (param ps "timeout" = [] → cfg.timeout = 60 * 10 ^ 9) ∧
    (∀ n : Int, SignedNumeral (param ps "timeout") n → - 2 ^ 63 ≤ n * 10 ^ 9 → n * 10 ^ 9 < 2 ^ 63 → cfg.timeout = n * 10 ^ 9) ∧
    (cfg.useTLS = true ↔ Truthy (param ps "tls")) ∧
    (Truthy (param ps "tls") → cfg.certFile = param ps "tls_cert_file" ∧ cfg.keyFile = param ps "tls_key_file" ∧ cfg.caCertFile = param ps "tls_ca_cert_file" ∧
      (cfg.tlsNoVerify = true ↔ Truthy (param ps "tls_no_verify"))) := by
  rw [C101.config semi port h] at hc
  unfold timeoutOf at hc
  rw [C101.get_param semi h.params] at hc
  dsimp only at hc
  have main : ∀ t : Int, (Except.ok t).bind (ε := Err) (fun t =>
      let tls := isTrue (param ps "tls")
      let opt := fun k => if tls then param ps k else []
      Except.ok (Config.mk (host ++ 0x3A :: Url.decimal port) user password t 65535 tls (opt "tls_cert_file") (opt "tls_key_file") (opt "tls_ca_cert_file")
        (tls && isTrue (param ps "tls_no_verify")))) = .ok cfg →
      cfg.timeout = t ∧ cfg.hostPort = host ++ ascii ":" ++ Url.decimal port ∧ cfg.user = user ∧ cfg.password = password ∧
      (cfg.useTLS = true ↔ Truthy (param ps "tls")) ∧
      (Truthy (param ps "tls") → cfg.certFile = param ps "tls_cert_file" ∧ cfg.keyFile = param ps "tls_key_file" ∧ cfg.caCertFile = param ps "tls_ca_cert_file" ∧
        (cfg.tlsNoVerify = true ↔ Truthy (param ps "tls_no_verify"))) := by
    intro t hc
    cases hc
    refine ⟨rfl, by simp [ascii], rfl, rfl, C79.isTrue_iff _, fun htls => ?_⟩
    rw [← C79.isTrue_iff] at htls
    rw [← C79.isTrue_iff]
    simp [htls]
  by_cases ht : param ps "timeout" = []
  · rw [if_pos ht] at hc
    obtain ⟨h1, h2, h3, h4, h5, h6⟩ := main _ hc
    refine ⟨h2, h3, h4, fun _ => h1, fun n hn h1 h2 => ?_, h5, h6⟩
    have ha := (C79.atoi_iff _ n).mpr ⟨hn, by omega, by omega⟩
    rw [ht] at ha
    cases ha
  · rw [if_neg ht] at hc
    cases ha : Url.atoi (param ps "timeout") with
    | none => rw [ha] at hc; cases hc
    | some m =>
      rw [ha] at hc
      obtain ⟨h1, h2, h3, h4, h5, h6⟩ := main _ hc
      refine ⟨h2, h3, h4, fun h => absurd h ht, fun n hn hl hu => ?_, h5, h6⟩
      have ha' := (C79.atoi_iff _ n).mpr ⟨hn, by omega, by omega⟩
      rw [ha] at ha'
      cases ha'
      rw [h1]
      exact Int.bmod_eq_of_le (by omega) (by omega)

open Spec in
/-- Clients: as it should be. -/
def C101_statement : Prop :=
  ∀ (semi : Bool) (s wuser wpassword host user password : Bytes) (ws ps : List (Bytes × Bytes)) (port : Nat), WritesString s wuser wpassword host ws user password ps →
    param ps "timeout" = [] → port < 2 ^ 63 →
    ∃ c, newClient semi [some (.connectionString (connString s wuser wpassword host port ws))] = .ok c ∧ c.host = host ∧ c.port = port ∧ c.user = user ∧ c.password = password ∧
      (c.useTLS = true ↔ Truthy (param ps "tls")) ∧
      (Truthy (param ps "tls") → c.certFile = param ps "tls_cert_file" ∧ c.keyFile = param ps "tls_key_file" ∧ c.caCertFile = param ps "tls_ca_cert_file" ∧
        (c.tlsNoVerify = true ↔ Truthy (param ps "tls_no_verify")))

open Spec in
/-- What is missing for clients: hosts that are IPv6 addresses. -/
theorem C101_client_partial (semi : Bool) {s wuser wpassword host user password : Bytes} {ws ps : List (Bytes × Bytes)} (port : Nat)
    (h : WritesString s wuser wpassword host ws user password ps) (hh : PlainHost host) (ht : param ps "timeout" = []) (hp : port < 2 ^ 63) :
    ∃ c, newClient semi [some (.connectionString (connString s wuser wpassword host port ws))] = .ok c ∧ c.host = host ∧ c.port = port ∧ c.user = user ∧ c.password = password ∧
      (c.useTLS = true ↔ Truthy (param ps "tls")) ∧
      (Truthy (param ps "tls") → c.certFile = param ps "tls_cert_file" ∧ c.keyFile = param ps "tls_key_file" ∧ c.caCertFile = param ps "tls_ca_cert_file" ∧
        (c.tlsNoVerify = true ↔ Truthy (param ps "tls_no_verify"))) := by
  rw [C101.new_eq semi _ (C101.string_ne port h)]
  unfold Client.takeUrl
  rw [show (Client.withDefaults { connStr := connString s wuser wpassword host port ws }).connStr = connString s wuser wpassword host port ws from rfl, C101.parse_string port h]
  dsimp only
  rw [if_neg (by rw [Url.toLower_ours h.scheme]; rcases h.scheme with e | e <;> simp [e])]
  have hth : ∀ c : Client, c.takeHost (host ++ 0x3A :: Url.decimal port) = .ok { c with host := host, port := port } := by
    intro c
    have h1 : 0x3A ∉ host := fun hm => by
      have : Spec.alnum 0x3A = true ∨ (0x3A : UInt8) ∈ ascii "-._" := hh _ hm
      revert this
      decide
    have h2 : 0x3A ∉ Url.decimal port := fun hm => by have := Url.decimal_digits port _ hm; revert this; decide
    unfold Client.takeHost
    rw [if_pos (by simp), Url.splitAll_append _ h1, Url.splitAll_none h2]
    dsimp only
    rw [(C79.atoi_iff _ (port : Int)).mpr ⟨.unsigned (C101.decimal_numeral port), by omega, by omega⟩]
  rw [hth]
  simp only [bind, Except.bind, Client.takeUser]
  unfold timeoutOf
  rw [C101.get_param semi h.params, if_pos ht]
  dsimp only
  simp only [C101.get_param semi h.params]
  split
  · rename_i htls
    exact ⟨_, rfl, rfl, rfl, rfl, rfl, C79.isTrue_iff _, fun _ => ⟨rfl, rfl, rfl, C79.isTrue_iff _⟩⟩
  · rename_i htls
    exact ⟨_, rfl, rfl, rfl, rfl, rfl, C79.isTrue_iff _, fun h => absurd ((C79.isTrue_iff _).mpr h) htls⟩

open Spec in
/-- A client refuses every connection string with an IPv6 address. -/
theorem C101_ipv6 (semi : Bool) {s wuser wpassword host user password : Bytes} {ws ps : List (Bytes × Bytes)} (port : Nat)
    (h : WritesString s wuser wpassword host ws user password ps) (hc : 0x3A ∈ host) :
    ∃ e, newClient semi [some (.connectionString (connString s wuser wpassword host port ws))] = .error e := by
  rw [C101.new_eq semi _ (C101.string_ne port h)]
  unfold Client.takeUrl
  rw [show (Client.withDefaults { connStr := connString s wuser wpassword host port ws }).connStr = connString s wuser wpassword host port ws from rfl, C101.parse_string port h]
  dsimp only
  rw [if_neg (by rw [Url.toLower_ours h.scheme]; rcases h.scheme with e | e <;> simp [e])]
  have hth : ∀ (c : Client) (f : Client → Except Err Client), ∃ e, (c.takeHost (host ++ 0x3A :: Url.decimal port) >>= f) = .error e := by
    intro c f
    unfold Client.takeHost
    rw [if_pos (by simp)]
    have hl := C101.splitAll_length 0x3A (host ++ 0x3A :: Url.decimal port)
    have hcount : 1 ≤ host.count 0x3A := List.count_pos_iff.mpr hc
    rw [List.count_append, List.count_cons_self] at hl
    split
    · rename_i he
      rw [he] at hl
      simp only [List.length_cons, List.length_nil] at hl
      omega
    · exact ⟨_, rfl⟩
  exact hth _ _

namespace C101
open Spec

theorem writes_plain {ok : UInt8 → Prop} {plus : Bool} : {s : Bytes} → (∀ b ∈ s, ok b) → Writes ok plus s s
  | [], _ => .nil
  | b :: s, h => .char (h b List.mem_cons_self) (writes_plain fun b hb => h b (List.mem_cons_of_mem _ hb))

theorem ipv6_string : WritesString (ascii "bolt") (ascii "u") (ascii "p") (ascii "[::1]") [] (ascii "u") (ascii "p") [] :=
  ⟨.inl rfl, writes_plain (by unfold PlainChar; decide), writes_plain (by unfold PlainChar; decide), .inr ⟨ascii "::1", by decide, by decide⟩, .nil⟩

end C101

theorem C101_refuted : ¬ C101_statement := by
  intro h
  obtain ⟨c, hc, _⟩ := h false _ _ _ _ _ _ _ _ 7687 C101.ipv6_string rfl (by decide)
  obtain ⟨e, he⟩ := C101_ipv6 false 7687 C101.ipv6_string (by decide)
  rw [he] at hc
  cases hc

/-- An IPv6 address with something that is not a port after it is refused by connections, too. -/
theorem C101_ipv6_port (semi : Bool) {a p : Bytes} (ha : ∀ b ∈ a, Spec.alnum b = true ∨ b ∈ ascii ":.") (hp : ∀ b ∈ p, Spec.alnum b = true) :
    (∃ cfg, connectionConfig semi (ascii "bolt://[" ++ a ++ ascii "]:" ++ p) = .ok cfg) ↔ ∀ b ∈ p, b ∈ ascii "0123456789" := by
  have hdig : ∀ b : UInt8, Url.isDigit b = true ↔ b ∈ ascii "0123456789" := C54.allBytes (by decide +kernel)
  simp only [← hdig]
  have he : ascii "bolt://[" ++ a ++ ascii "]:" ++ p = ascii "bolt" ++ 0x3A :: 0x2F :: 0x2F :: ((0x5B :: a) ++ 0x5D :: 0x3A :: p) := by simp [ascii]
  have hc : ∀ b ∈ (0x5B :: a) ++ 0x5D :: 0x3A :: p,
      b ≠ 0x23 ∧ b ≠ 0x3F ∧ b ≠ 0x2F ∧ b ≠ 0x40 ∧ b ≠ 0x25 ∧ (b < 0x20 || b = 0x7F) = false ∧ Url.hostChar b = true := by
    have all : ∀ b : UInt8, (Spec.alnum b = true ∨ b ∈ ascii ":." ∨ b ∈ ascii "[]") →
        b ≠ 0x23 ∧ b ≠ 0x3F ∧ b ≠ 0x2F ∧ b ≠ 0x40 ∧ b ≠ 0x25 ∧ (b < 0x20 || b = 0x7F) = false ∧ Url.hostChar b = true := C54.allBytes (by decide +kernel)
    intro b hb
    refine all b ?_
    simp only [List.mem_append, List.mem_cons] at hb
    rcases hb with (rfl | h) | rfl | rfl | h
    · exact .inr (.inr (by decide))
    · exact (ha b h).imp_right .inl
    · exact .inr (.inr (by decide))
    · exact .inr (.inl (by decide))
    · exact .inl (hp b h)
  have hb : (0x5D : UInt8) ∉ 0x3A :: p := by
    intro hm
    rcases List.mem_cons.mp hm with h | h
    · cases h
    · have := hp _ h; revert this; decide
  have hun : Url.unescape .host ((0x5B :: a) ++ 0x5D :: 0x3A :: p) = some ((0x5B :: a) ++ 0x5D :: 0x3A :: p) :=
    Url.unescape_plain (fun hm => (hc _ hm).2.2.2.2.1 rfl) (.inl (by decide)) fun _ b hb => (hc b hb).2.2.2.2.2.2
  have hph : Url.parseHost ((0x5B :: a) ++ 0x5D :: 0x3A :: p) = if p.all Url.isDigit = true then some ((0x5B :: a) ++ 0x5D :: 0x3A :: p) else none := by
    unfold Url.parseHost
    show (match Url.lastCut 0x5D ((0x5B :: a) ++ 0x5D :: (0x3A :: p)) with | none => none | some (inner, colonPort) => _) = _
    rw [Url.lastCut_append _ hb]
    dsimp only
    rw [C101.before_none fun hm => (hc _ (List.mem_append_left _ hm)).2.2.2.2.1 rfl]
    have : Url.validOptionalPort (0x3A :: p) = p.all Url.isDigit := by
      unfold Url.validOptionalPort
      simp
    rw [this]
    cases p.all Url.isDigit with
    | true => exact hun
    | false => rfl
  have hparse : Url.parse (ascii "bolt://[" ++ a ++ ascii "]:" ++ p) =
      if p.all Url.isDigit = true then some ⟨ascii "bolt", none, (0x5B :: a) ++ 0x5D :: 0x3A :: p, []⟩ else none := by
    rw [he, Url.parse_ours (.inl rfl), Url.cut_none fun hm => (hc _ hm).1 rfl]
    dsimp only
    rw [if_neg (by
      rw [Bool.not_eq_true, List.any_eq_false]
      intro b hb
      rw [(hc b hb).2.2.2.2.2.1]; simp), Url.cut_none fun hm => (hc _ hm).2.1 rfl]
    dsimp only
    rw [Url.cut_none fun hm => (hc _ hm).2.2.1 rfl]
    unfold Url.parseAuthority
    rw [Url.lastCut_none fun hm => (hc _ hm).2.2.2.1 rfl]
    dsimp only
    rw [hph]
    split <;> rfl
  unfold connectionConfig
  rw [hparse]
  by_cases hd : p.all Url.isDigit = true
  · rw [if_pos hd]
    refine ⟨fun _ => List.all_eq_true.mp hd, fun _ => ?_⟩
    dsimp only
    rw [if_neg (by decide)]
    have hg : ∀ host, Url.get semi ⟨ascii "bolt", none, host, []⟩ (ascii "timeout") = [] := by
      intro host
      cases semi <;> rfl
    unfold timeoutOf
    rw [hg]
    exact ⟨_, rfl⟩
  · rw [if_neg hd]
    refine ⟨?_, fun h => absurd (List.all_eq_true.mpr h) hd⟩
    rintro ⟨cfg, h⟩
    cases h

namespace C101
open Url Spec

theorem zoneChar : ∀ b : UInt8, ZoneChar b → b ≠ 0x25 ∧ b ≠ 0x2B ∧ b ≠ 0x5D ∧ hostChar b = true := by
  unfold ZoneChar
  refine C54.allBytes ?_
  decide +kernel

theorem unescape_zone {w z : Bytes} (h : WritesZone w z) : unescape .zone w = some z := by
  induction h with
  | nil => rfl
  | @char b w s hb _ ih =>
    obtain ⟨h1, h2, -, h3⟩ := zoneChar b hb
    unfold unescape
    rw [if_neg h1, if_neg h2, if_neg (by rw [h3]; nofun), ih]
    rfl
  | @escape a b c hi lo w s ha hb hc hok _ ih =>
    obtain ⟨a1, a2, a3, _⟩ := hexDigit ha
    obtain ⟨b1, b2, b3, _⟩ := hexDigit hb
    have he : unhex a * 16 + unhex b = c := by
      apply UInt8.toNat_inj.mp
      rw [UInt8.toNat_add, UInt8.toNat_mul, a2, b2, hc]
      show (hi * 16 % 256 + lo) % 256 = _
      omega
    unfold unescape
    rw [if_pos rfl]
    dsimp only
    rw [if_neg (by rw [a1, b1]; decide), if_neg (fun h => by cases h.1), he, if_neg (by
      rintro ⟨-, -, h1, h2⟩
      rcases hok with h | h
      · rw [(zoneChar c h).2.2.2] at h2; cases h2
      · exact h1 h), ih]
    rfl

theorem writesZone_chars {w z : Bytes} (h : WritesZone w z) : ∀ b ∈ w, ZoneChar b ∨ b = 0x25 := by
  induction h with
  | nil => nofun
  | char hb _ ih =>
    intro x hx
    rcases List.mem_cons.1 hx with rfl | hx
    · exact .inl hb
    · exact ih x hx
  | escape ha hb _ _ _ ih =>
    intro x hx
    rcases List.mem_cons.1 hx with rfl | hx
    · exact .inr rfl
    rcases List.mem_cons.1 hx with rfl | hx
    · exact .inl (.inl (hexDigit ha).2.2.2)
    rcases List.mem_cons.1 hx with rfl | hx
    · exact .inl (.inl (hexDigit hb).2.2.2)
    · exact ih x hx

theorem before_zone {a : Bytes} (h : 0x25 ∉ a) (w : Bytes) : before [0x25, 0x32, 0x35] (a ++ 0x25 :: 0x32 :: 0x35 :: w) = some (a, 0x25 :: 0x32 :: 0x35 :: w) := by
  induction a with
  | nil =>
    rw [List.nil_append]
    unfold before
    rw [if_pos (by simp [List.isPrefixOf])]
  | cons x a ih =>
    rw [List.cons_append]
    unfold before
    have hx : ¬ List.isPrefixOf [0x25, 0x32, 0x35] (x :: (a ++ 0x25 :: 0x32 :: 0x35 :: w)) = true := by
      intro hp
      simp only [List.isPrefixOf, Bool.and_eq_true, beq_iff_eq] at hp
      exact h (hp.1 ▸ List.mem_cons_self)
    rw [if_neg hx, ih fun hm => h (List.mem_cons_of_mem _ hm)]
    rfl

end C101

open Spec in
/-- An address with a zone, which follows "%25" and may be escaped: the address dialled has '%' and the zone. -/
theorem C101_zone (semi : Bool) {a w z : Bytes} (ha : ∀ b ∈ a, Spec.alnum b = true ∨ b ∈ ascii ":.") (hz : WritesZone w z) (port : Nat) :
    ∃ cfg, connectionConfig semi (ascii "bolt://[" ++ a ++ ascii "%25" ++ w ++ ascii "]:" ++ Url.decimal port) = .ok cfg ∧
      cfg.hostPort = ascii "[" ++ a ++ ascii "%" ++ z ++ ascii "]:" ++ Url.decimal port := by
  have hw := C101.writesZone_chars hz
  generalize hp : Url.decimal port = p
  have hdig : ∀ b ∈ p, Url.isDigit b = true := fun b hb => Url.decimal_digits port b (by rw [hp]; exact hb)
  have hdec : ∀ b : UInt8, Url.isDigit b = true → Spec.alnum b = true := C54.allBytes (by decide +kernel)
  have he : ascii "bolt://[" ++ a ++ ascii "%25" ++ w ++ ascii "]:" ++ p =
      ascii "bolt" ++ 0x3A :: 0x2F :: 0x2F :: ((0x5B :: a ++ 0x25 :: 0x32 :: 0x35 :: w) ++ 0x5D :: 0x3A :: p) := by simp [ascii]
  have hc : ∀ b ∈ (0x5B :: a ++ 0x25 :: 0x32 :: 0x35 :: w) ++ 0x5D :: 0x3A :: p, b ≠ 0x23 ∧ b ≠ 0x3F ∧ b ≠ 0x2F ∧ b ≠ 0x40 ∧ (b < 0x20 || b = 0x7F) = false := by
    have all : ∀ b : UInt8, (Spec.alnum b = true ∨ b ∈ ascii ":." ∨ ZoneChar b ∨ b ∈ ascii "[]%") →
        b ≠ 0x23 ∧ b ≠ 0x3F ∧ b ≠ 0x2F ∧ b ≠ 0x40 ∧ (b < 0x20 || b = 0x7F) = false := by
      unfold ZoneChar
      exact C54.allBytes (by decide +kernel)
    intro b hb
    refine all b ?_
    simp only [List.mem_append, List.mem_cons] at hb
    rcases hb with ((rfl | h) | rfl | rfl | rfl | h) | rfl | rfl | h
    · exact .inr (.inr (.inr (by decide)))
    · exact (ha b h).imp_right .inl
    · exact .inr (.inr (.inr (by decide)))
    · exact .inl (by decide)
    · exact .inl (by decide)
    · exact .inr (.inr ((hw b h).imp_right fun e => by rw [e]; decide))
    · exact .inr (.inr (.inr (by decide)))
    · exact .inr (.inl (by decide))
    · exact .inl (hdec b (hdig b h))
  have hb : (0x5D : UInt8) ∉ 0x3A :: p := by
    intro hm
    rcases List.mem_cons.mp hm with h | h
    · cases h
    · have := hdig _ h; revert this; decide
  have hca : ∀ b ∈ 0x5B :: a, b ≠ 0x25 ∧ Url.hostChar b = true := by
    have all : ∀ b : UInt8, (Spec.alnum b = true ∨ b ∈ ascii ":." ∨ b = 0x5B) → b ≠ 0x25 ∧ Url.hostChar b = true := C54.allBytes (by decide +kernel)
    intro b hb
    rcases List.mem_cons.1 hb with h | h
    · exact all b (.inr (.inr h))
    · exact all b ((ha b h).imp_right .inl)
  have hcp : ∀ b ∈ 0x5D :: 0x3A :: p, b ≠ 0x25 ∧ Url.hostChar b = true := by
    have all : ∀ b : UInt8, (Url.isDigit b = true ∨ b ∈ ascii "]:") → b ≠ 0x25 ∧ Url.hostChar b = true := C54.allBytes (by decide +kernel)
    intro b hb
    rcases List.mem_cons.1 hb with rfl | hb
    · exact all _ (.inr (by decide))
    rcases List.mem_cons.1 hb with rfl | hb
    · exact all _ (.inr (by decide))
    · exact all b (.inl (hdig b hb))
  have hph : Url.parseHost ((0x5B :: a ++ 0x25 :: 0x32 :: 0x35 :: w) ++ 0x5D :: 0x3A :: p) = some ((0x5B :: a) ++ (0x25 :: z) ++ 0x5D :: 0x3A :: p) := by
    unfold Url.parseHost
    show (match Url.lastCut 0x5D ((0x5B :: a ++ 0x25 :: 0x32 :: 0x35 :: w) ++ 0x5D :: (0x3A :: p)) with | none => none | some (inner, colonPort) => _) = _
    rw [Url.lastCut_append _ hb]
    dsimp only
    rw [if_neg (by
      unfold Url.validOptionalPort
      dsimp only
      rw [List.all_eq_true.2 hdig]
      decide), C101.before_zone fun hm => (hca _ hm).1 rfl]
    dsimp only
    have hu : Url.unescape .zone (0x25 :: 0x32 :: 0x35 :: w) = some (0x25 :: z) := by
      unfold Url.unescape
      rw [if_pos rfl]
      dsimp only
      rw [if_neg (by decide), if_neg (by nofun), if_neg (by decide), C101.unescape_zone hz]
      rfl
    rw [Url.unescape_plain (fun hm => (hca _ hm).1 rfl) (.inl (by decide)) fun _ b hb => (hca b hb).2, hu,
      Url.unescape_plain (fun hm => (hcp _ hm).1 rfl) (.inl (by decide)) fun _ b hb => (hcp b hb).2]
    rfl
  have hparse : Url.parse (ascii "bolt://[" ++ a ++ ascii "%25" ++ w ++ ascii "]:" ++ p) = some ⟨ascii "bolt", none, (0x5B :: a) ++ (0x25 :: z) ++ 0x5D :: 0x3A :: p, []⟩ := by
    rw [he, Url.parse_ours (.inl rfl), Url.cut_none fun hm => (hc _ hm).1 rfl]
    dsimp only
    rw [if_neg (by
      rw [Bool.not_eq_true, List.any_eq_false]
      intro b hb
      rw [(hc b hb).2.2.2.2]; simp), Url.cut_none fun hm => (hc _ hm).2.1 rfl]
    dsimp only
    rw [Url.cut_none fun hm => (hc _ hm).2.2.1 rfl]
    unfold Url.parseAuthority
    rw [Url.lastCut_none fun hm => (hc _ hm).2.2.2.1 rfl]
    dsimp only
    rw [hph]
    rfl
  unfold connectionConfig
  rw [hparse]
  dsimp only
  rw [if_neg (by decide)]
  have hg : ∀ host, Url.get semi ⟨ascii "bolt", none, host, []⟩ (ascii "timeout") = [] := by
    intro host
    cases semi <;> rfl
  unfold timeoutOf
  rw [hg]
  exact ⟨_, rfl, by simp [ascii]⟩

open Spec in
/-- The address fe80::1 on the interface "eth 0". -/
example (semi : Bool) : ∃ cfg, connectionConfig semi (ascii "bolt://[fe80::1%25eth%200]:7687") = .ok cfg ∧ cfg.hostPort = ascii "[fe80::1%eth 0]:7687" := by
  have h := C101_zone semi (a := ascii "fe80::1") (w := ascii "eth%200") (z := ascii "eth 0") (by decide)
    (.char (.inl (by decide)) (.char (.inl (by decide)) (.char (.inl (by decide)) (.escape (.digit 2) (.digit 0) (by decide) (.inr (by decide)) (.char (.inl (by decide)) .nil))))) 7687
  have hd : Url.decimal 7687 = ascii "7687" := by decide +kernel
  rw [hd] at h
  exact h

namespace C101
open Spec

/-- The password a/b@c:% and a path with a space and '&', written with escapes, for an IPv6 address. -/
example : WritesString (ascii "bolt") (ascii "neo4j") (ascii "a%2fb@c:%25") (ascii "[fe80::1]") [(ascii "tls", ascii "1"), (ascii "tls_cert%5ffile", ascii "/my+c%26d")]
    (ascii "neo4j") (ascii "a/b@c:%") [(ascii "tls", ascii "1"), (ascii "tls_cert_file", ascii "/my c&d")] := by
  refine ⟨.inl rfl, writes_plain (by unfold PlainChar; decide), ?_, .inr ⟨ascii "fe80::1", by decide, by decide⟩, ?_⟩
  · have h2 : HexDigit 0x32 2 := .digit 2
    have hf : HexDigit 0x66 15 := .lower 5
    have h5 : HexDigit 0x35 5 := .digit 5
    refine .char (.inl (by unfold PlainChar; decide)) (.escape h2 hf ?_)
    refine .char (.inl (by unfold PlainChar; decide)) (.char (.inl (by unfold PlainChar; decide)) (.char (.inl (by unfold PlainChar; decide)) (.char (.inr rfl) (.escape h2 h5 .nil))))
  · refine .cons (writes_plain (by unfold NameChar ValueChar; decide)) (writes_plain (by unfold ValueChar; decide)) (.cons ?_ ?_ .nil)
    · have h5 : HexDigit 0x35 5 := .digit 5
      have hf : HexDigit 0x66 15 := .lower 5
      repeat first
        | exact .nil
        | refine Writes.escape h5 hf ?_
        | refine Writes.char (by unfold NameChar ValueChar; decide) ?_
    · have h2 : HexDigit 0x32 2 := .digit 2
      have h6 : HexDigit 0x36 6 := .digit 6
      repeat first
        | exact .nil
        | refine Writes.escape h2 h6 ?_
        | refine Writes.space rfl ?_
        | refine Writes.char (by unfold ValueChar; decide) ?_

end C101
end Verif

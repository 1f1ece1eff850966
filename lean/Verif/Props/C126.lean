/-
C126  Whatever was received can be sent back and means the same.

False: points cannot be sent back (C23), and long strings are not sent whole (C09).  Everything else can.
-/
import Verif.Props.C01
import Verif.Props.C18
import Verif.Props.C23
import Verif.Proofs.Supported
import Verif.Proofs.Reorder
namespace Verif
open Spec

namespace Spec

/-- The value is not a point. -/
def notPoint : Val → Prop
  | .struct (.point2D _) _ | .struct (.point3D _) _ => False
  | _ => True

/-- The offsets in the time-zone database fit 32 bits (as those of Go's do). -/
def SaneZones (env : Env) : Prop := ∀ z off, env.tz z = some off → ∀ t, -2 ^ 31 ≤ off t ∧ off t < 2 ^ 31

/-- The message `s` means `v` to a peer that reads the format. -/
def SaysAs (env : Env) (ver : Ver) (s : Bytes) (v : Val) : Prop := ∃ p t, Framed p s ∧ Spec.Enc full t p ∧ interp env ver t = some v

end Spec

/-- C126: a value that is the meaning of something the server can send is marshalled without error, to a message with the same meaning. -/
def C126_statement : Prop := ∀ (env : Env) (ver : Ver) (t : PS) (v : Val), SaneZones env → t.Fits → interp env ver t = some v →
  (marshal env ver v).2 = none ∧ SaysAs env ver (marshal env ver v).1 v

/-- What is known of a value that was received. -/
structure Echo (env : Env) (ver : Ver) (v : Val) : Prop where
  decodable : v.All (decodable ver)
  ints : v.All intsInRange
  uints : v.All uintSafe
  canon : canon env v = v
  supported : Supported ver v

theorem mem_mapInsert {m : Entries} {k : Bytes} {v : Val} {e : Bytes × Val} (h : e ∈ mapInsert m k v) : e = (k, v) ∨ e ∈ m := by
  induction m with
  | nil => simpa [mapInsert] using h
  | cons p m ih =>
    obtain ⟨k', v'⟩ := p
    unfold mapInsert at h
    split at h
    · rcases List.mem_cons.1 h with h | h
      · exact .inl h
      · exact .inr (List.mem_cons_of_mem _ h)
    · rcases List.mem_cons.1 h with h | h
      · exact .inr (h ▸ List.mem_cons_self ..)
      · exact (ih h).imp id (List.mem_cons_of_mem _)

theorem mapInsert_length (m : Entries) (k : Bytes) (v : Val) : (mapInsert m k v).length ≤ m.length + 1 := by
  induction m with
  | nil => simp [mapInsert]
  | cons p m ih =>
    obtain ⟨k', v'⟩ := p
    unfold mapInsert
    split <;> simp <;> omega

section
variable {env : Env} {ver : Ver}

theorem supportedList_iff : {vs : List Val} → (SupportedList ver vs ↔ ∀ v ∈ vs, Supported ver v)
  | [] => by simp [SupportedList]
  | v :: vs => by simp [SupportedList, supportedList_iff (vs := vs)]

theorem supportedEntries_iff : {es : Entries} → (SupportedEntries ver es ↔ ∀ e ∈ es, e.1.length < 2 ^ 32 ∧ Supported ver e.2)
  | [] => by simp [SupportedEntries]
  | (k, v) :: es => by simp [SupportedEntries, supportedEntries_iff (es := es), and_assoc]

theorem Echo.int64 {n : Int} (h : -2 ^ 63 ≤ n ∧ n < 2 ^ 63) : Echo env ver (.int .int64 n) := ⟨trivial, h, trivial, rfl, trivial⟩

theorem Echo.range {k : IntKind} {n : Int} (h : Echo env ver (.int k n)) : k.InRange n := h.ints

theorem canonList_same : {vs : List Val} → (∀ v ∈ vs, canon env v = v) → canonList env vs = vs
  | [], _ => rfl
  | v :: vs, h => by simp [canonList, h v (by simp), canonList_same (vs := vs) fun w hw => h w (by simp [hw])]

theorem Echo.list {vs : List Val} (hl : vs.length < 2 ^ 32) (h : ∀ v ∈ vs, Echo env ver v) : Echo env ver (.list true vs) :=
  ⟨⟨trivial, allList_iff.2 fun v hv => (h v hv).decodable⟩, ⟨trivial, allList_iff.2 fun v hv => (h v hv).ints⟩, ⟨trivial, allList_iff.2 fun v hv => (h v hv).uints⟩,
    by simp only [Spec.canon]; rw [canonList_same fun v hv => (h v hv).canon], ⟨hl, supportedList_iff.2 fun v hv => (h v hv).supported⟩⟩

theorem Echo.map {es : Entries} (hl : es.length < 2 ^ 32) (hn : (es.map Prod.fst).Nodup) (h : ∀ e ∈ es, e.1.length < 2 ^ 32 ∧ Echo env ver e.2) : Echo env ver (.map es) :=
  ⟨⟨hn, allEntries_iff.2 fun v hv => (h v hv).2.decodable⟩, ⟨trivial, allEntries_iff.2 fun v hv => (h v hv).2.ints⟩, ⟨trivial, allEntries_iff.2 fun v hv => (h v hv).2.uints⟩,
    by
      simp only [Spec.canon]
      rw [canonEntries_eq]
      congr 1
      rw [List.map_congr_left (g := id) fun e he => by rw [(h e he).2.canon]; rfl, List.map_id],
    ⟨hl, supportedEntries_iff.2 fun v hv => ⟨(h v hv).1, (h v hv).2.supported⟩⟩⟩

theorem Echo.struct {k : StructKind} {fs : List Val} (hd : Spec.decodable ver (.struct k fs)) (hp : notPoint (.struct k fs)) (hl : fs.length < 2 ^ 16)
    (hc : retype k (canonList env fs) = .struct k fs) (h : ∀ v ∈ fs, v.All (Spec.decodable ver) ∧ v.All intsInRange ∧ v.All uintSafe ∧ Supported ver v) : Echo env ver (.struct k fs) := by
  refine ⟨⟨hd, allList_iff.2 fun v hv => (h v hv).1⟩, ⟨trivial, allList_iff.2 fun v hv => (h v hv).2.1⟩, ⟨trivial, allList_iff.2 fun v hv => (h v hv).2.2.1⟩, hc,
    ?_, ?_, .inr ⟨hl, supportedList_iff.2 fun v hv => (h v hv).2.2.2⟩⟩
  · rintro rfl; exact hp
  · rintro rfl; exact hp

theorem Echo.plain {v : Val} (h : Echo env ver v) : v.All (Spec.decodable ver) ∧ v.All intsInRange ∧ v.All uintSafe ∧ Supported ver v := ⟨h.decodable, h.ints, h.uints, h.supported⟩

/-- A structure whose fields are kept as they are. -/
theorem Echo.fields {k : StructKind} {fs : List Val} (hd : Spec.decodable ver (.struct k fs)) (hp : notPoint (.struct k fs)) (hl : fs.length < 2 ^ 16) (hk : k ≠ .path)
    (h : ∀ v ∈ fs, Echo env ver v) : Echo env ver (.struct k fs) := by
  refine Echo.struct hd hp hl ?_ fun v hv => (h v hv).plain
  rw [canonList_same fun v hv => (h v hv).canon]
  cases k <;> first | rfl | exact absurd rfl hk | exact hp.elim

theorem toInts_spec : {ss ss' : List Val} → toInts ss = some ss' → (ss'.length = ss.length ∧ ∀ v ∈ ss, ∃ n, v = .int .int64 n) ∧
    (∀ v ∈ ss', ∃ n, v = .int .int n ∧ .int .int64 n ∈ ss) ∧ (canonList env ss').map asInt = ss'
  | [], _, h => by cases h; simp [canonList]
  | v :: vs, ss', h => by
    match v, h with
    | .int .int64 n, h =>
      simp only [toInts] at h
      cases hw : toInts vs with
      | none => rw [hw] at h; cases h
      | some ws' =>
        rw [hw] at h
        cases h
        obtain ⟨⟨h1, h0⟩, h2, h3⟩ := toInts_spec hw
        refine ⟨⟨by simp [h1], fun v hv => ?_⟩, fun v hv => ?_, by simp [canonList, canon, asInt, h3]⟩
        · rcases List.mem_cons.1 hv with rfl | hv
          · exact ⟨n, rfl⟩
          · exact h0 v hv
        rcases List.mem_cons.1 hv with rfl | hv
        · exact ⟨n, rfl, by simp⟩
        · obtain ⟨m, rfl, hm⟩ := h2 v hv
          exact ⟨m, rfl, by simp [hm]⟩

theorem normalise_range (s n : Int) : 0 ≤ (normalise s n).2 ∧ (normalise s n).2 < 1000000000 := by
  unfold normalise
  split
  · assumption
  · exact ⟨Int.emod_nonneg _ (by decide), Int.emod_lt_of_pos _ (by decide)⟩

/-- A structure made of fields that were received. -/
theorem echo_struct (hz : SaneZones env) {sig : UInt8} {fs : List Val} {v : Val} (h : structOf env ver sig fs = some v) (hl : fs.length < 2 ^ 16)
    (hf : ∀ f ∈ fs, f.All notPoint → Echo env ver f) (hn : v.All notPoint) : Echo env ver v := by
  have two : ver ≠ .v1 → ver = .v2 := fun h => by cases ver; exact absurd rfl h; rfl
  have keep : ∀ {k : StructKind}, v = .struct k fs → k ≠ .path → Spec.decodable ver (.struct k fs) → Echo env ver v := by
    rintro k rfl hk hd
    exact Echo.fields hd hn.1 hl hk fun f hm => hf f hm (allList_iff.1 hn.2 f hm)
  unfold structOf at h
  by_cases c : sig = 0x4E
  · rw [if_pos c] at h
    split at h
    · split at h
      · cases h
        rename_i hs
        exact keep rfl (by simp) ⟨_, _, _, _, rfl, fun l hm => by
          have := List.all_eq_true.1 hs l hm
          cases l <;> first | exact ⟨_, rfl⟩ | cases this⟩
      · cases h
    · cases h
  rw [if_neg c] at h
  clear c
  by_cases c : sig = 0x52
  · rw [if_pos c] at h
    split at h
    · cases h; exact keep rfl (by simp) ⟨_, _, _, _, _, rfl⟩
    · cases h
  rw [if_neg c] at h
  clear c
  by_cases c : sig = 0x72
  · rw [if_pos c] at h
    split at h
    · cases h; exact keep rfl (by simp) ⟨_, _, _, rfl⟩
    · cases h
  rw [if_neg c] at h
  clear c
  by_cases c : sig = 0x50
  · rw [if_pos c] at h
    split at h
    · rename_i ns rs ss
      split at h
      · rename_i hs
        cases hw : toInts ss with
        | none => rw [hw] at h; cases h
        | some ss' =>
          rw [hw] at h
          cases h
          have hn' := allList_iff.1 hn.2
          obtain ⟨⟨h1, h0⟩, h2, h3⟩ := toInts_spec (env := env) hw
          have e1 : Echo env ver (.list true ns) := hf _ (by simp) (hn' _ (by simp))
          have e2 : Echo env ver (.list true rs) := hf _ (by simp) (hn' _ (by simp))
          have e3 : Echo env ver (.list true ss) := hf _ (by simp) ⟨trivial, allList_iff.2 fun w hw' => by
            obtain ⟨n, rfl⟩ := h0 w hw'
            exact trivial⟩
          refine Echo.struct ⟨_, _, _, _, _, _, rfl, ?_, ?_, fun s hs => ?_⟩ trivial (by simp) ?_ fun v hv => ?_
          · intro l hm
            have := List.all_eq_true.1 hs.1 l hm
            unfold isNode at this
            split at this
            · exact ⟨_, rfl⟩
            · cases this
          · intro l hm
            have := List.all_eq_true.1 hs.2 l hm
            unfold isURel at this
            split at this
            · exact ⟨_, rfl⟩
            · cases this
          · obtain ⟨n, rfl, _⟩ := h2 s hs; exact ⟨n, rfl⟩
          · have c1 := e1.canon
            have c2 := e2.canon
            simp only [canon] at c1 c2
            simp only [canonList, canon, retype, h3]
            rw [c1, c2]
          · simp only [List.mem_cons, List.not_mem_nil, or_false] at hv
            rcases hv with rfl | rfl | rfl
            · exact e1.plain
            · exact e2.plain
            · have range : ∀ n, .int .int64 n ∈ ss → -2 ^ 63 ≤ n ∧ n < 2 ^ 63 := fun n hm => allList_iff.1 e3.ints.2 _ hm
              refine ⟨⟨trivial, allList_iff.2 fun w hw' => ?_⟩, ⟨trivial, allList_iff.2 fun w hw' => ?_⟩, ⟨trivial, allList_iff.2 fun w hw' => ?_⟩, ?_, supportedList_iff.2 fun w hw' => ?_⟩
              · obtain ⟨n, rfl, hm⟩ := h2 w hw'; trivial
              · obtain ⟨n, rfl, hm⟩ := h2 w hw'; exact range n hm
              · obtain ⟨n, rfl, hm⟩ := h2 w hw'; trivial
              · rw [h1]; exact e3.supported.1
              · obtain ⟨n, rfl, hm⟩ := h2 w hw'; trivial
      · cases h
    · cases h
  rw [if_neg c] at h
  clear c
  by_cases c : sig = 0x71
  · rw [if_pos c] at h
    split at h
    · cases h; exact keep rfl (by simp) ⟨_, _, rfl⟩
    · cases h
  rw [if_neg c] at h
  clear c
  by_cases c : sig = 0x7F
  · rw [if_pos c] at h
    split at h
    · cases h; exact keep rfl (by simp) ⟨_, rfl⟩
    · cases h
  rw [if_neg c] at h
  clear c
  by_cases c : sig = 0x70
  · rw [if_pos c] at h
    split at h
    · cases h; exact keep rfl (by simp) ⟨_, rfl⟩
    · cases h
  rw [if_neg c] at h
  clear c
  by_cases c : sig = 0x7E
  · rw [if_pos c] at h
    by_cases he : fs.isEmpty
    · have he := List.isEmpty_iff.1 he
      subst he
      cases h; exact keep rfl (by simp) rfl
    · rw [if_neg he] at h; cases h
  rw [if_neg c] at h
  clear c
  by_cases c : sig = 0x2F
  · rw [if_pos c] at h
    by_cases he : fs.isEmpty
    · have he := List.isEmpty_iff.1 he
      subst he
      cases h; exact keep rfl (by simp) rfl
    · rw [if_neg he] at h; cases h
  rw [if_neg c] at h
  clear c
  by_cases c : sig = 0x3F
  · rw [if_pos c] at h
    by_cases he : fs.isEmpty
    · have he := List.isEmpty_iff.1 he
      subst he
      cases h; exact keep rfl (by simp) rfl
    · rw [if_neg he] at h; cases h
  rw [if_neg c] at h
  clear c
  by_cases c : sig = 0x0F
  · rw [if_pos c] at h
    by_cases he : fs.isEmpty
    · have he := List.isEmpty_iff.1 he
      subst he
      cases h; exact keep rfl (by simp) rfl
    · rw [if_neg he] at h; cases h
  rw [if_neg c] at h
  clear c
  by_cases c : ver = .v1
  · rw [if_pos c] at h
    cases h
  rw [if_neg c] at h
  have hv2 := two c
  by_cases c : sig = 0x58
  · rw [if_pos c] at h
    split at h
    · cases h; exact hn.1.elim
    · cases h
  rw [if_neg c] at h
  clear c
  by_cases c : sig = 0x59
  · rw [if_pos c] at h
    split at h
    · cases h; exact hn.1.elim
    · cases h
  rw [if_neg c] at h
  clear c
  by_cases c : sig = 0x44
  · rw [if_pos c] at h
    split at h
    · cases h
      have e := (hf (.int .int64 _) (List.mem_cons_self ..) trivial).range
      exact ⟨hv2, e, trivial, rfl, hv2⟩
    · cases h
  rw [if_neg c] at h
  clear c
  by_cases c : sig = 0x54
  · rw [if_pos c] at h
    split at h
    · cases h
      have e1 := (hf (.int .int64 _) (List.mem_cons_self ..) trivial).range
      have e2 := (hf (.int .int64 _) (List.mem_cons_of_mem _ (List.mem_cons_self ..)) trivial).range
      exact ⟨hv2, ⟨e1, e2⟩, trivial, rfl, hv2⟩
    · cases h
  rw [if_neg c] at h
  clear c
  by_cases c : sig = 0x74
  · rw [if_pos c] at h
    split at h
    · cases h
      have e := (hf (.int .int64 _) (List.mem_cons_self ..) trivial).range
      exact ⟨hv2, e, trivial, rfl, hv2⟩
    · cases h
  rw [if_neg c] at h
  clear c
  by_cases c : sig = 0x64
  · rw [if_pos c] at h
    split at h
    · cases h
      have e1 := (hf (.int .int64 _) (List.mem_cons_self ..) trivial).range
      have e2 := (hf (.int .int64 _) (List.mem_cons_of_mem _ (List.mem_cons_self ..)) trivial).range
      exact ⟨hv2, ⟨e1, e2⟩, trivial, rfl, hv2⟩
    · cases h
  rw [if_neg c] at h
  clear c
  by_cases c : sig = 0x46
  · rw [if_pos c] at h
    split at h
    · split at h
      · rename_i hr
        cases h
        exact ⟨hv2, ⟨hr.1, normalise_range _ _, hr.2⟩, trivial, rfl, hv2⟩
      · cases h
    · cases h
  rw [if_neg c] at h
  clear c
  by_cases c : sig = 0x66
  · rw [if_pos c] at h
    split at h
    · rename_i s n z
      cases hoff : env.tz z with
      | none => rw [hoff] at h; cases h
      | some off =>
        rw [hoff] at h
        simp only [Option.bind_some] at h
        unfold zonedTime at h
        dsimp only at h
        split at h
        · rename_i hr
          cases h
          exact ⟨hv2, ⟨hr.1, normalise_range _ _, hz z off hoff _⟩, trivial, rfl, hv2⟩
        · cases h
    · cases h
  rw [if_neg c] at h
  clear c
  cases h

mutual
/-- Everything that was received, except points, can be sent back. -/
theorem echo (hz : SaneZones env) : (t : PS) → (v : Val) → t.Fits → interp env ver t = some v → v.All notPoint → Echo env ver v
  | .null, v, _, h, _ => by cases h; exact ⟨trivial, trivial, trivial, rfl, trivial⟩
  | .bool b, v, _, h, _ => by cases h; exact ⟨trivial, trivial, trivial, rfl, trivial⟩
  | .int n, v, hf, h, _ => by cases h; exact .int64 hf
  | .float w, v, _, h, _ => by cases h; exact ⟨trivial, trivial, trivial, rfl, trivial⟩
  | .str s, v, hf, h, _ => by cases h; exact ⟨trivial, trivial, trivial, rfl, hf⟩
  | .list ts, v, hf, h, hn => by
    simp only [interp] at h
    cases hl : interpList env ver ts with
    | none => rw [hl] at h; cases h
    | some vs =>
      rw [hl] at h
      cases h
      obtain ⟨h1, h2⟩ := echoList hz ts vs hf.2 hl
      exact .list (h1 ▸ hf.1) fun v hv => h2 v hv (allList_iff.1 hn.2 v hv)
  | .map es, v, hf, h, hn => by
    simp only [interp] at h
    cases hl : interpEntries env ver es [] with
    | none => rw [hl] at h; cases h
    | some m =>
      rw [hl] at h
      cases h
      obtain ⟨h1, h2, h3⟩ := echoEntries hz es [] m hf.2 hl (by simp) (by simp)
      exact .map (Nat.lt_of_le_of_lt h1 (by simpa using hf.1)) h2 fun e he => ⟨(h3 e he).1, (h3 e he).2 (allEntries_iff.1 hn.2 e he)⟩
  | .struct sig fs, v, hf, h, hn => by
    simp only [interp] at h
    cases hl : interpList env ver fs with
    | none => rw [hl] at h; cases h
    | some vs =>
      rw [hl] at h
      obtain ⟨h1, h2⟩ := echoList hz fs vs hf.2 hl
      exact echo_struct hz h (h1 ▸ hf.1) h2 hn

theorem echoList (hz : SaneZones env) : (ts : List PS) → (vs : List Val) → FitsList (· < 2 ^ 32) (· < 2 ^ 16) ts → interpList env ver ts = some vs →
    vs.length = ts.length ∧ ∀ v ∈ vs, v.All notPoint → Echo env ver v
  | [], vs, _, h => by cases h; simp
  | t :: ts, vs, hf, h => by
    simp only [interpList] at h
    cases ht : interp env ver t with
    | none => rw [ht] at h; cases h
    | some v =>
      rw [ht] at h
      cases hl : interpList env ver ts with
      | none => rw [hl] at h; cases h
      | some vs' =>
        rw [hl] at h
        cases h
        obtain ⟨h1, h2⟩ := echoList hz ts vs' hf.2 hl
        refine ⟨by simp [h1], fun w hw => ?_⟩
        rcases List.mem_cons.1 hw with rfl | hw
        · exact echo hz t w hf.1 ht
        · exact h2 w hw

theorem echoEntries (hz : SaneZones env) : (es : List (Bytes × PS)) → (acc m : Entries) → FitsEntries (· < 2 ^ 32) (· < 2 ^ 16) es → interpEntries env ver es acc = some m →
    (acc.map Prod.fst).Nodup → (∀ e ∈ acc, e.1.length < 2 ^ 32 ∧ (e.2.All notPoint → Echo env ver e.2)) →
    m.length ≤ acc.length + es.length ∧ (m.map Prod.fst).Nodup ∧ ∀ e ∈ m, e.1.length < 2 ^ 32 ∧ (e.2.All notPoint → Echo env ver e.2)
  | [], acc, m, _, h, hn, ha => by cases h; exact ⟨by simp, hn, ha⟩
  | (k, t) :: es, acc, m, hf, h, hn, ha => by
    simp only [interpEntries] at h
    cases ht : interp env ver t with
    | none => rw [ht] at h; cases h
    | some v =>
      rw [ht] at h
      obtain ⟨h1, h2, h3⟩ := echoEntries hz es (mapInsert acc k v) m hf.2.2 h (mapInsert_nodup hn k v) fun e he => by
        rcases mem_mapInsert he with rfl | he
        · exact ⟨hf.1, echo hz t _ hf.2.1 ht⟩
        · exact ha e he
      have := mapInsert_length acc k v
      exact ⟨by simp only [List.length_cons]; omega, h2, h3⟩
end

/-- A structure made of fields that were received: if it can be sent, it holds no points. -/
theorem pointless_struct {sig : UInt8} {fs : List Val} {v : Val} (h : structOf env ver sig fs = some v) (hf : ∀ f ∈ fs, Supported ver f → f.All notPoint) (hs : Supported ver v) :
    v.All notPoint := by
  have keep : ∀ {k : StructKind}, v = .struct k fs → (k ≠ .discard ∧ notPoint (.struct k fs)) → v.All notPoint := by
    rintro k rfl hk
    have hs' := supportedList_iff.1 (hs.2.2.resolve_left hk.1).2
    exact ⟨hk.2, allList_iff.2 fun f hm => hf f hm (hs' f hm)⟩
  unfold structOf at h
  by_cases c : sig = 0x4E
  · rw [if_pos c] at h
    split at h
    · split at h
      · cases h; exact keep rfl ⟨by simp, trivial⟩
      · cases h
    · cases h
  rw [if_neg c] at h
  clear c
  by_cases c : sig = 0x52
  · rw [if_pos c] at h
    split at h
    · cases h; exact keep rfl ⟨by simp, trivial⟩
    · cases h
  rw [if_neg c] at h
  clear c
  by_cases c : sig = 0x72
  · rw [if_pos c] at h
    split at h
    · cases h; exact keep rfl ⟨by simp, trivial⟩
    · cases h
  rw [if_neg c] at h
  clear c
  by_cases c : sig = 0x50
  · rw [if_pos c] at h
    split at h
    · rename_i ns rs ss
      split at h
      · cases hw : toInts ss with
        | none => rw [hw] at h; cases h
        | some ss' =>
          rw [hw] at h
          cases h
          obtain ⟨_, h2, _⟩ := toInts_spec (env := env) hw
          have hs' := supportedList_iff.1 (hs.2.2.resolve_left (by simp)).2
          refine ⟨trivial, hf _ (by simp) (hs' _ (by simp)), hf _ (by simp) (hs' _ (by simp)), ⟨trivial, allList_iff.2 fun w hw' => ?_⟩, trivial⟩
          obtain ⟨n, rfl, _⟩ := h2 w hw'
          exact trivial
      · cases h
    · cases h
  rw [if_neg c] at h
  clear c
  by_cases c : sig = 0x71
  · rw [if_pos c] at h
    split at h
    · cases h; exact keep rfl ⟨by simp, trivial⟩
    · cases h
  rw [if_neg c] at h
  clear c
  by_cases c : sig = 0x7F
  · rw [if_pos c] at h
    split at h
    · cases h; exact keep rfl ⟨by simp, trivial⟩
    · cases h
  rw [if_neg c] at h
  clear c
  by_cases c : sig = 0x70
  · rw [if_pos c] at h
    split at h
    · cases h; exact keep rfl ⟨by simp, trivial⟩
    · cases h
  rw [if_neg c] at h
  clear c
  by_cases c : sig = 0x7E
  · rw [if_pos c] at h
    by_cases he : fs.isEmpty
    · have he := List.isEmpty_iff.1 he
      subst he
      cases h; exact keep rfl ⟨by simp, trivial⟩
    · rw [if_neg he] at h; cases h
  rw [if_neg c] at h
  clear c
  by_cases c : sig = 0x2F
  · rw [if_pos c] at h
    by_cases he : fs.isEmpty
    · have he := List.isEmpty_iff.1 he
      subst he
      cases h; exact keep rfl ⟨by simp, trivial⟩
    · rw [if_neg he] at h; cases h
  rw [if_neg c] at h
  clear c
  by_cases c : sig = 0x3F
  · rw [if_pos c] at h
    by_cases he : fs.isEmpty
    · have he := List.isEmpty_iff.1 he
      subst he
      cases h; exact keep rfl ⟨by simp, trivial⟩
    · rw [if_neg he] at h; cases h
  rw [if_neg c] at h
  clear c
  by_cases c : sig = 0x0F
  · rw [if_pos c] at h
    by_cases he : fs.isEmpty
    · have he := List.isEmpty_iff.1 he
      subst he
      cases h; exact keep rfl ⟨by simp, trivial⟩
    · rw [if_neg he] at h; cases h
  rw [if_neg c] at h
  clear c
  by_cases c : ver = .v1
  · rw [if_pos c] at h
    cases h
  rw [if_neg c] at h
  by_cases c : sig = 0x58
  · rw [if_pos c] at h
    split at h
    · cases h; exact absurd rfl hs.1
    · cases h
  rw [if_neg c] at h
  clear c
  by_cases c : sig = 0x59
  · rw [if_pos c] at h
    split at h
    · cases h; exact absurd rfl hs.2.1
    · cases h
  rw [if_neg c] at h
  clear c
  by_cases c : sig = 0x44
  · rw [if_pos c] at h
    split at h
    · cases h; exact trivial
    · cases h
  rw [if_neg c] at h
  clear c
  by_cases c : sig = 0x54
  · rw [if_pos c] at h
    split at h
    · cases h; exact trivial
    · cases h
  rw [if_neg c] at h
  clear c
  by_cases c : sig = 0x74
  · rw [if_pos c] at h
    split at h
    · cases h; exact trivial
    · cases h
  rw [if_neg c] at h
  clear c
  by_cases c : sig = 0x64
  · rw [if_pos c] at h
    split at h
    · cases h; exact trivial
    · cases h
  rw [if_neg c] at h
  clear c
  by_cases c : sig = 0x46
  · rw [if_pos c] at h
    split at h
    · split at h
      · cases h; exact trivial
      · cases h
    · cases h
  rw [if_neg c] at h
  clear c
  by_cases c : sig = 0x66
  · rw [if_pos c] at h
    split at h
    · rename_i s n z
      cases hoff : env.tz z with
      | none => rw [hoff] at h; cases h
      | some off =>
        rw [hoff] at h
        simp only [Option.bind_some] at h
        unfold zonedTime at h
        dsimp only at h
        split at h
        · cases h; exact trivial
        · cases h
    · cases h
  rw [if_neg c] at h
  clear c
  cases h

mutual
/-- What was received and can be sent holds no points. -/
theorem pointless : (t : PS) → (v : Val) → interp env ver t = some v → Supported ver v → v.All notPoint
  | .null, v, h, _ => by cases h; exact trivial
  | .bool b, v, h, _ => by cases h; exact trivial
  | .int n, v, h, _ => by cases h; exact trivial
  | .float w, v, h, _ => by cases h; exact trivial
  | .str s, v, h, _ => by cases h; exact trivial
  | .list ts, v, h, hs => by
    simp only [interp] at h
    cases hl : interpList env ver ts with
    | none => rw [hl] at h; cases h
    | some vs =>
      rw [hl] at h
      cases h
      exact ⟨trivial, allList_iff.2 fun v hv => pointlessList ts vs hl v hv (supportedList_iff.1 hs.2 v hv)⟩
  | .map es, v, h, hs => by
    simp only [interp] at h
    cases hl : interpEntries env ver es [] with
    | none => rw [hl] at h; cases h
    | some m =>
      rw [hl] at h
      cases h
      exact ⟨trivial, allEntries_iff.2 fun e he => pointlessEntries es [] m hl (by simp) e he (supportedEntries_iff.1 hs.2 e he).2⟩
  | .struct sig fs, v, h, hs => by
    simp only [interp] at h
    cases hl : interpList env ver fs with
    | none => rw [hl] at h; cases h
    | some vs =>
      rw [hl] at h
      exact pointless_struct h (pointlessList fs vs hl) hs

theorem pointlessList : (ts : List PS) → (vs : List Val) → interpList env ver ts = some vs → ∀ v ∈ vs, Supported ver v → v.All notPoint
  | [], vs, h => by cases h; simp
  | t :: ts, vs, h => by
    simp only [interpList] at h
    cases ht : interp env ver t with
    | none => rw [ht] at h; cases h
    | some v =>
      rw [ht] at h
      cases hl : interpList env ver ts with
      | none => rw [hl] at h; cases h
      | some vs' =>
        rw [hl] at h
        cases h
        intro w hw
        rcases List.mem_cons.1 hw with rfl | hw
        · exact pointless t w ht
        · exact pointlessList ts vs' hl w hw

theorem pointlessEntries : (es : List (Bytes × PS)) → (acc m : Entries) → interpEntries env ver es acc = some m →
    (∀ e ∈ acc, Supported ver e.2 → e.2.All notPoint) → ∀ e ∈ m, Supported ver e.2 → e.2.All notPoint
  | [], acc, m, h, ha => by cases h; exact ha
  | (k, t) :: es, acc, m, h, ha => by
    simp only [interpEntries] at h
    cases ht : interp env ver t with
    | none => rw [ht] at h; cases h
    | some v =>
      rw [ht] at h
      refine pointlessEntries es (mapInsert acc k v) m h fun e he => ?_
      rcases mem_mapInsert he with rfl | he
      · exact pointless t _ ht
      · exact ha e he
end

end

/-- Received values are marshalled without error exactly if they hold no points.  (That the integers are in the range of their types is true of every Go value.) -/
theorem C126_errors (env : Env) (ver : Ver) (t : PS) (v : Val) (hz : SaneZones env) (hf : t.Fits) (h : interp env ver t = some v) (hi : v.All intsInRange) :
    (marshal env ver v).2 = none ↔ v.All notPoint := by
  have hm : (marshal env ver v).2 = none ↔ (encode env ver v).2 = none := by
    unfold marshal encodeMsg
    dsimp only
    cases he : (encode env ver v).2 <;> simp
  rw [hm, encode_none_iff env ver v hi]
  exact ⟨pointless t v h, fun hp => (echo hz t v hf h hp).supported⟩

/-- As far as C126 goes: a value that was received, with no points and no string longer than 65535 bytes, is marshalled without error, to a message with the same meaning.  Missing are points
(which cannot be sent, see `C126_errors`) and longer strings (which are not sent whole, see C09). -/
theorem C126_partial (env : Env) (ver : Ver) (t : PS) (v : Val) (hz : SaneZones env) (hf : t.Fits) (h : interp env ver t = some v) (hp : v.All notPoint) (hs : v.All (strAtMost 65535)) :
    (marshal env ver v).2 = none ∧ SaysAs env ver (marshal env ver v).1 v := by
  have e := echo hz t v hf h hp
  have he := (encode_none_iff env ver v e.ints).2 e.supported
  obtain ⟨t₁, ht, hi⟩ := interp_tree env ver v e.decodable e.ints
  obtain ⟨t₂, ht', hfit⟩ := encode_fits env ver v e.ints e.uints he
  cases ht.symm.trans ht'
  obtain ⟨h1, h2⟩ := encodeMsg_framed env ver (cs := 65535) (by omega) (by omega) hs he
  exact ⟨h1, _, _, h2, (encode_conforms env ver full v _ ht (Fits_full hfit)).2, hi.trans (congrArg some e.canon)⟩

/-- And this client reads it back as the very same value, if its decoder can read values of such lengths (see C04). -/
theorem C126_again (env : Env) (ver : Ver) (t : PS) (v : Val) (hz : SaneZones env) (hf : t.Fits) (h : interp env ver t = some v) (hp : v.All notPoint) (hs : v.All (strAtMost 65535))
    (hr : v.All readable) : unmarshal env ver (marshal env ver v).1 = .ok v := by
  have e := echo hz t v hf h hp
  have := (C01_roundtrip env ver v e.decodable e.ints hr hs).2
  rwa [e.canon] at this

theorem sane0 : SaneZones env0 := fun _ _ h => by cases h

/-- C126 is false: points that were received cannot be sent. -/
theorem C126_refuted : ¬ C126_statement := fun h =>
  (C23_never_sendable env0 .v2 7203 0 0 0).1 (h env0 .v2 (.struct 0x58 [.int 7203, .float 0, .float 0]) _ sane0 (by simp [PS.Fits, PS.FitsWith, FitsList]) rfl).1

/-- A record that the server sends: a node with a label and two properties, one of them a list, a path of one step, and a date. -/
def C126.sent : PS :=
  .struct 0x71 [.list [
    .struct 0x4E [.int 7, .list [.str [0x41]], .map [([0x6E], .int 1), ([0x6C], .list [.bool true, .null])]],
    .struct 0x50 [.list [.struct 0x4E [.int 7, .list [], .map []], .struct 0x4E [.int 8, .list [], .map []]], .list [.struct 0x72 [.int 3, .str [0x52], .map []]],
      .list [.int 1, .int 1]],
    .struct 0x44 [.int 18000]]]

/-- What it means. -/
def C126.value : Val :=
  .struct .record [.list true [
    .struct .node [.int .int64 7, .list true [.str [0x41]], .map [([0x6E], .int .int64 1), ([0x6C], .list true [.bool true, .nil])]],
    .struct .path [.list true [.struct .node [.int .int64 7, .list true [], .map []], .struct .node [.int .int64 8, .list true [], .map []]],
      .list true [.struct .unboundRelationship [.int .int64 3, .str [0x52], .map []]], .list true [.int .int 1, .int .int 1]],
    .date 18000]]

/-- The hypotheses hold of it. -/
example : C126.sent.Fits ∧ interp env0 .v2 C126.sent = some C126.value ∧ C126.value.All notPoint ∧ C126.value.All (strAtMost 65535) ∧ C126.value.All readable ∧ C126.value.All intsInRange := by
  refine ⟨?_, rfl, ?_, ?_, ?_, ?_⟩
  · simp [C126.sent, PS.Fits, PS.FitsWith, FitsList, FitsEntries]
  · simp [C126.value, Val.All, AllList, AllEntries, notPoint]
  · simp [C126.value, Val.All, AllList, AllEntries, strAtMost]
  · simp [C126.value, Val.All, AllList, AllEntries, readable, readableLen]
  · simp [C126.value, Val.All, AllList, AllEntries, intsInRange, IntKind.InRange]

/-- So it can be sent back, and comes back. -/
example : (marshal env0 .v2 C126.value).2 = none ∧ unmarshal env0 .v2 (marshal env0 .v2 C126.value).1 = .ok C126.value := by decide +kernel

end Verif

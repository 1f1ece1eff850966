import Verif.Spec.RoundTrip
import Verif.Spec.Interp
import Verif.Proofs.EncodeConforms
import Verif.Proofs.DecodeEnc
namespace Verif
open Spec

theorem canonList_eq (env : Env) (vs : List Val) : canonList env vs = vs.map (canon env) := by
  induction vs with
  | nil => rfl
  | cons v vs ih => simp [canonList, ih]

theorem canonEntries_eq (env : Env) (es : Entries) : canonEntries env es = es.map fun p => (p.1, canon env p.2) := by
  induction es with
  | nil => rfl
  | cons p es ih => obtain ⟨k, v⟩ := p; simp [canonEntries, ih]

theorem mapInsert_new {m : Entries} {k : Bytes} {v : Val} (h : k ∉ m.map Prod.fst) : mapInsert m k v = m ++ [(k, v)] := by
  induction m with
  | nil => rfl
  | cons p m ih =>
    obtain ⟨k', v'⟩ := p
    simp only [List.map_cons, List.mem_cons, not_or] at h
    unfold mapInsert
    rw [if_neg (fun e => h.1 e.symm), ih h.2]; rfl

theorem tree_struct_some (env : Env) (ver : Ver) (k : StructKind) (fs : List Val) (hd : k ≠ .discard) (hk : k.isStructure = true)
    {ts : List PS} (h : trees env ver fs = some ts) : tree env ver (.struct k fs) = some (.struct k.sig ts) := by
  rw [tree_struct_eq env ver k fs hd hk, h]; rfl

theorem toInts_map {env : Env} {ss : List Val} (h : ∀ s ∈ ss, ∃ n, s = .int .int n) :
    toInts (canonList env ss) = some ((canonList env ss).map asInt) := by
  induction ss with
  | nil => rfl
  | cons s ss ih =>
    obtain ⟨n, rfl⟩ := h s (by simp)
    simp only [canonList, canon, toInts, ih (fun s hs => h s (by simp [hs])), List.map_cons, asInt]; rfl

theorem all_isStr {env : Env} {ls : List Val} (h : ∀ l ∈ ls, ∃ s, l = .str s) : (canonList env ls).all isStr = true := by
  rw [canonList_eq, List.all_map, List.all_eq_true]
  intro l hl; obtain ⟨s, rfl⟩ := h l hl; rfl

theorem all_isNode {env : Env} {ls : List Val} (h : ∀ l ∈ ls, ∃ s, l = .struct .node s) : (canonList env ls).all isNode = true := by
  rw [canonList_eq, List.all_map, List.all_eq_true]
  intro l hl; obtain ⟨s, rfl⟩ := h l hl; rfl

theorem all_isURel {env : Env} {ls : List Val} (h : ∀ l ∈ ls, ∃ s, l = .struct .unboundRelationship s) :
    (canonList env ls).all isURel = true := by
  rw [canonList_eq, List.all_map, List.all_eq_true]
  intro l hl; obtain ⟨s, rfl⟩ := h l hl; rfl

theorem structOf_canon (env : Env) (ver : Ver) (k : StructKind) (fs : List Val) (h : decodable ver (.struct k fs)) :
    structOf env ver k.sig (canonList env fs) = some (canon env (.struct k fs)) := by
  cases k <;> simp only [decodable] at h
  case node =>
    obtain ⟨id, b, ls, m, rfl, hl⟩ := h
    simp [structOf, StructKind.sig, canonList, canon, retype, all_isStr hl]
  case relationship =>
    obtain ⟨id, s, e, t, m, rfl⟩ := h
    simp [structOf, StructKind.sig, canonList, canon, retype]
  case unboundRelationship =>
    obtain ⟨id, t, m, rfl⟩ := h
    simp [structOf, StructKind.sig, canonList, canon, retype]
  case path =>
    obtain ⟨b1, ns, b2, rs, b3, ss, rfl, h1, h2, h3⟩ := h
    simp [structOf, StructKind.sig, canonList, canon, retype, all_isNode h1, all_isURel h2, toInts_map h3]
  case record =>
    obtain ⟨b, vs, rfl⟩ := h
    simp [structOf, StructKind.sig, canonList, canon, retype]
  case success =>
    obtain ⟨m, rfl⟩ := h
    simp [structOf, StructKind.sig, canonList, canon, retype]
  case failure =>
    obtain ⟨m, rfl⟩ := h
    simp [structOf, StructKind.sig, canonList, canon, retype]
  case ignored => subst h; rfl
  case discardAll => subst h; rfl
  case pullAll => subst h; rfl
  case reset => subst h; rfl
  case point2D ptr =>
    obtain ⟨rfl, rfl, s, x, y, rfl⟩ := h
    simp [structOf, StructKind.sig, canonList, canon, retype, asInt]
  case point3D ptr =>
    obtain ⟨rfl, rfl, s, x, y, z, rfl⟩ := h
    simp [structOf, StructKind.sig, canonList, canon, retype, asInt]

mutual
theorem interp_tree (env : Env) (ver : Ver) : (v : Val) → v.All (decodable ver) → v.All intsInRange →
    ∃ t, tree env ver v = some t ∧ interp env ver t = some (canon env v)
  | .nil, _, _ => ⟨_, rfl, rfl⟩
  | .bool b, _, _ => ⟨_, rfl, rfl⟩
  | .int k n, _, _ => ⟨_, rfl, rfl⟩
  | .float32 b, _, _ => ⟨_, rfl, rfl⟩
  | .float64 b, _, _ => ⟨_, rfl, rfl⟩
  | .str s, _, _ => ⟨_, rfl, rfl⟩
  | .list i vs, h, hi => by
    simp only [Val.All] at h hi
    obtain ⟨ts, h1, h2⟩ := interpList_trees env ver vs h.2 hi.2
    exact ⟨.list ts, by simp [tree, h1], by simp [interp, h2, canon]⟩
  | .map es, h, hi => by
    simp only [Val.All, decodable] at h hi
    obtain ⟨ts, h1, h2⟩ := interpEntries_trees env ver es h.2 hi.2
    refine ⟨.map ts, by simp [tree, h1], ?_⟩
    have := h2 [] (by simpa using h.1)
    simp only [List.nil_append] at this
    simp [interp, this, canon]
  | .struct k fs, h, hi => by
    simp only [Val.All] at h hi
    obtain ⟨ts, h1, h2⟩ := interpList_trees env ver fs h.2 hi.2
    have hk : k ≠ .discard ∧ k.isStructure = true := by
      cases k <;> simp_all [decodable, StructKind.isStructure]
    exact ⟨.struct k.sig ts, tree_struct_some env ver k fs hk.1 hk.2 h1, by
      simp only [interp, h2, Option.bind_some]
      exact structOf_canon env ver k fs h.1⟩
  | .date d, h, _ => by
    simp only [Val.All, decodable] at h; subst h
    exact ⟨.struct 0x44 [.int d], rfl, rfl⟩
  | .clock n o, h, _ => by
    simp only [Val.All, decodable] at h; subst h
    exact ⟨.struct 0x54 [.int n, .int o], rfl, rfl⟩
  | .localClock n, h, _ => by
    simp only [Val.All, decodable] at h; subst h
    exact ⟨.struct 0x74 [.int n], rfl, rfl⟩
  | .localTime s n, h, _ => by
    simp only [Val.All, decodable] at h; subst h
    exact ⟨.struct 0x64 [.int s, .int n], rfl, rfl⟩
  | .time s n o, h, hi => by
    simp only [Val.All, decodable] at h; subst h
    simp only [Val.All, intsInRange] at hi
    refine ⟨.struct 0x46 [.int (s + o), .int n, .int o], rfl, ?_⟩
    have hn : normalise (s + o) n = (s + o, n) := by
      unfold normalise; rw [if_pos hi.2.1]
    have hw : structOf env .v2 0x46 [.int .int64 (s + o), .int .int64 n, .int .int64 o] =
        if (-2 ^ 62 ≤ (normalise (s + o) n).1 - o ∧ (normalise (s + o) n).1 - o < 2 ^ 62) ∧ -2 ^ 31 ≤ o ∧ o < 2 ^ 31 then
          some (.time ((normalise (s + o) n).1 - o) (normalise (s + o) n).2 o) else none := rfl
    rw [hn, Int.add_sub_cancel, if_pos ⟨hi.1, hi.2.2⟩] at hw
    simp only [interp, interpList, Option.bind_some, Option.map_some, hw, canon]
  | .duration d, h, _ => by simp only [Val.All, decodable] at h
  | .other, h, _ => by simp only [Val.All, decodable] at h

theorem interpList_trees (env : Env) (ver : Ver) : (vs : List Val) → AllList (decodable ver) vs → AllList intsInRange vs →
    ∃ ts, trees env ver vs = some ts ∧ interpList env ver ts = some (canonList env vs)
  | [], _, _ => ⟨[], rfl, rfl⟩
  | v :: vs, h, hi => by
    simp only [AllList] at h hi
    obtain ⟨t, h1, h2⟩ := interp_tree env ver v h.1 hi.1
    obtain ⟨ts, h3, h4⟩ := interpList_trees env ver vs h.2 hi.2
    exact ⟨t :: ts, by simp [trees, h1, h3], by simp [interpList, h2, h4, canonList]⟩

theorem interpEntries_trees (env : Env) (ver : Ver) : (es : Entries) → AllEntries (decodable ver) es → AllEntries intsInRange es →
    ∃ ts, treeEntries env ver es = some ts ∧ ∀ acc : Entries, ((acc ++ es).map Prod.fst).Nodup →
      interpEntries env ver ts acc = some (acc ++ canonEntries env es)
  | [], _, _ => ⟨[], rfl, fun acc _ => by simp [interpEntries, canonEntries]⟩
  | (k, v) :: es, h, hi => by
    simp only [AllEntries] at h hi
    obtain ⟨t, h1, h2⟩ := interp_tree env ver v h.1 hi.1
    obtain ⟨ts, h3, h4⟩ := interpEntries_trees env ver es h.2 hi.2
    refine ⟨(k, t) :: ts, by simp [treeEntries, h1, h3], ?_⟩
    intro acc hn
    have hk : k ∉ acc.map Prod.fst := by
      intro hm
      simp only [List.map_append, List.map_cons, List.nodup_append] at hn
      exact hn.2.2 k hm k (by simp) rfl
    simp only [interpEntries, h2, Option.bind_some, mapInsert_new hk]
    rw [h4 (acc ++ [(k, canon env v)]) (by simpa [List.map_append] using hn)]
    simp [canonEntries]
end

/-- Payload-level round trip. -/
theorem decode_payload (env : Env) (ver : Ver) (v : Val) (hd : v.All (decodable ver)) (hi : v.All intsInRange) {t : PS}
    (ht : tree env ver v = some t) (hr : t.Readable) (rest : Bytes) :
    (encode env ver v).2 = none ∧ decode env ver (payload env ver v ++ rest) = .ok (canon env v, rest) := by
  obtain ⟨t', h1, h2⟩ := interp_tree env ver v hd hi
  rw [ht, Option.some.injEq] at h1; subst h1
  obtain ⟨h3, h4⟩ := encode_conforms env ver signed v t ht (Readable_signed hr)
  exact ⟨h3, decode_enc env ver h2 h4 rest⟩

end Verif

namespace Verif
open Spec

mutual
theorem tree_readable (env : Env) (ver : Ver) : (v : Val) → v.All (decodable ver) → v.All intsInRange → v.All readable →
    (t : PS) → tree env ver v = some t → t.Readable
  | .nil, _, _, _, t, ht => by
    simp only [tree, Option.some.injEq] at ht; subst ht; simp [PS.Readable, PS.FitsWith]
  | .bool b, _, _, _, t, ht => by
    simp only [tree, Option.some.injEq] at ht; subst ht; simp [PS.Readable, PS.FitsWith]
  | .int k n, _, _, hr, t, ht => by
    simp only [tree, Option.some.injEq] at ht; subst ht
    simpa [PS.Readable, PS.FitsWith, Val.All, readable] using hr
  | .float32 b, _, _, _, t, ht => by
    simp only [tree, Option.some.injEq] at ht; subst ht; simp [PS.Readable, PS.FitsWith]
  | .float64 b, _, _, _, t, ht => by
    simp only [tree, Option.some.injEq] at ht; subst ht; simp [PS.Readable, PS.FitsWith]
  | .str s, _, _, hr, t, ht => by
    simp only [tree, Option.some.injEq] at ht; subst ht
    simpa [PS.Readable, PS.FitsWith, Val.All, readable] using hr
  | .list i vs, h, hi, hr, t, ht => by
    simp only [Val.All, readable] at h hi hr
    simp only [tree, Option.map_eq_some_iff] at ht
    obtain ⟨ts, h1, rfl⟩ := ht
    obtain ⟨h2, h3⟩ := trees_readable env ver vs h.2 hi.2 hr.2 ts h1
    exact ⟨by rw [h3]; exact hr.1, h2⟩
  | .map es, h, hi, hr, t, ht => by
    simp only [Val.All, readable] at h hi hr
    simp only [tree, Option.map_eq_some_iff] at ht
    obtain ⟨ts, h1, rfl⟩ := ht
    obtain ⟨h2, h3⟩ := treeEntries_readable env ver es h.2 hi.2 hr.2 hr.1.2 ts h1
    exact ⟨by rw [h3]; exact hr.1.1, h2⟩
  | .struct k fs, h, hi, hr, t, ht => by
    simp only [Val.All] at h hi hr
    have hk : k ≠ .discard ∧ k.isStructure = true ∧ fs.length ≤ 5 := by
      have h1 := h.1
      cases k <;> simp only [decodable] at h1 <;> refine ⟨by simp, by simp [StructKind.isStructure, h1], ?_⟩
      case node => obtain ⟨_, _, _, _, rfl, _⟩ := h1; simp
      case relationship => obtain ⟨_, _, _, _, _, rfl⟩ := h1; simp
      case unboundRelationship => obtain ⟨_, _, _, rfl⟩ := h1; simp
      case path => obtain ⟨_, _, _, _, _, _, rfl, _⟩ := h1; simp
      case record => obtain ⟨_, _, rfl⟩ := h1; simp
      case success => obtain ⟨_, rfl⟩ := h1; simp
      case failure => obtain ⟨_, rfl⟩ := h1; simp
      case point2D => obtain ⟨_, _, _, _, _, rfl⟩ := h1; simp
      case point3D => obtain ⟨_, _, _, _, _, _, rfl⟩ := h1; simp
      all_goals subst h1; simp
    rw [tree_struct_eq env ver k fs hk.1 hk.2.1, Option.map_eq_some_iff] at ht
    obtain ⟨ts, h1, rfl⟩ := ht
    obtain ⟨h2, h3⟩ := trees_readable env ver fs h.2 hi.2 hr.2 ts h1
    exact ⟨by rw [h3]; omega, h2⟩
  | .date d, h, hi, _, t, ht => by
    simp only [Val.All, decodable] at h; subst h
    simp only [Val.All, intsInRange] at hi
    simp only [tree, if_true, Option.some.injEq] at ht; subst ht
    simp only [PS.Readable, PS.FitsWith, FitsList, List.length_cons, List.length_nil, and_true]; omega
  | .clock n o, h, hi, _, t, ht => by
    simp only [Val.All, decodable] at h; subst h
    simp only [Val.All, intsInRange] at hi
    simp only [tree, if_true, Option.some.injEq] at ht; subst ht
    simp only [PS.Readable, PS.FitsWith, FitsList, List.length_cons, List.length_nil, and_true]; omega
  | .localClock n, h, hi, _, t, ht => by
    simp only [Val.All, decodable] at h; subst h
    simp only [Val.All, intsInRange] at hi
    simp only [tree, if_true, Option.some.injEq] at ht; subst ht
    simp only [PS.Readable, PS.FitsWith, FitsList, List.length_cons, List.length_nil, and_true]; omega
  | .localTime s n, h, hi, _, t, ht => by
    simp only [Val.All, decodable] at h; subst h
    simp only [Val.All, intsInRange] at hi
    simp only [tree, if_true, Option.some.injEq] at ht; subst ht
    simp only [PS.Readable, PS.FitsWith, FitsList, List.length_cons, List.length_nil, and_true]; omega
  | .time s n o, h, hi, _, t, ht => by
    simp only [Val.All, decodable] at h; subst h
    simp only [Val.All, intsInRange] at hi
    simp only [tree, if_true, Option.some.injEq] at ht; subst ht
    simp only [PS.Readable, PS.FitsWith, FitsList, List.length_cons, List.length_nil, and_true]; omega
  | .duration d, h, _, _, t, ht => by simp only [Val.All, decodable] at h
  | .other, h, _, _, t, ht => by simp only [Val.All, decodable] at h

theorem trees_readable (env : Env) (ver : Ver) : (vs : List Val) → AllList (decodable ver) vs → AllList intsInRange vs →
    AllList readable vs → (ts : List PS) → trees env ver vs = some ts →
    FitsList readableLen (· < 2 ^ 7) ts ∧ ts.length = vs.length
  | [], _, _, _, ts, ht => by
    simp only [trees, Option.some.injEq] at ht; subst ht; simp [FitsList]
  | v :: vs, h, hi, hr, ts, ht => by
    simp only [AllList] at h hi hr
    simp only [trees] at ht
    cases h1 : tree env ver v with
    | none => rw [h1] at ht; cases ht
    | some t =>
      cases h2 : trees env ver vs with
      | none => rw [h1, h2] at ht; cases ht
      | some ts' =>
        rw [h1, h2] at ht
        simp only [Option.some.injEq] at ht; subst ht
        obtain ⟨g1, g2⟩ := trees_readable env ver vs h.2 hi.2 hr.2 ts' h2
        exact ⟨⟨tree_readable env ver v h.1 hi.1 hr.1 t h1, g1⟩, by simp [g2]⟩

theorem treeEntries_readable (env : Env) (ver : Ver) : (es : Entries) → AllEntries (decodable ver) es → AllEntries intsInRange es →
    AllEntries readable es → (∀ e ∈ es, readableLen e.1.length) → (ts : List (Bytes × PS)) → treeEntries env ver es = some ts →
    FitsEntries readableLen (· < 2 ^ 7) ts ∧ ts.length = es.length
  | [], _, _, _, _, ts, ht => by
    simp only [treeEntries, Option.some.injEq] at ht; subst ht; simp [FitsEntries]
  | (k, v) :: es, h, hi, hr, hk, ts, ht => by
    simp only [AllEntries] at h hi hr
    simp only [treeEntries] at ht
    cases h1 : tree env ver v with
    | none => rw [h1] at ht; cases ht
    | some t =>
      cases h2 : treeEntries env ver es with
      | none => rw [h1, h2] at ht; cases ht
      | some ts' =>
        rw [h1, h2] at ht
        simp only [Option.some.injEq] at ht; subst ht
        obtain ⟨g1, g2⟩ := treeEntries_readable env ver es h.2 hi.2 hr.2 (fun e he => hk e (by simp [he])) ts' h2
        exact ⟨⟨hk (k, v) (by simp), tree_readable env ver v h.1 hi.1 hr.1 t h1, g1⟩, by simp [g2]⟩
end

/-- Payload-level round trip, with conditions on the value only. -/
theorem decode_payload' (env : Env) (ver : Ver) (v : Val) (hd : v.All (decodable ver)) (hi : v.All intsInRange) (hr : v.All readable)
    (rest : Bytes) : (encode env ver v).2 = none ∧ decode env ver (payload env ver v ++ rest) = .ok (canon env v, rest) := by
  obtain ⟨t, h1, _⟩ := interp_tree env ver v hd hi
  exact decode_payload env ver v hd hi h1 (tree_readable env ver v hd hi hr t h1) rest

end Verif

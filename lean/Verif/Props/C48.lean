/-
C48  Result counters are total.
-/
import Verif.Model.Result
import Verif.Props.C17
import Verif.Spec.Scripted
namespace Verif

/-- The four counters of a result. -/
inductive Counter where
  | nodesCreated | relationshipsCreated | nodesDeleted | relationshipsDeleted

/-- The name under which the server reports the counter. -/
def Counter.key : Counter → Bytes
  | nodesCreated => ascii "nodes-created"
  | relationshipsCreated => ascii "relationships-created"
  | nodesDeleted => ascii "nodes-deleted"
  | relationshipsDeleted => ascii "relationships-deleted"

/-- The accessor of the counter. -/
def Counter.get : Counter → Entries → Counted
  | nodesCreated => getNodesCreated
  | relationshipsCreated => getRelationshipsCreated
  | nodesDeleted => getNodesDeleted
  | relationshipsDeleted => getRelationshipsDeleted

/-- The server's metadata contain the statistics `s`. -/
def HasStats (md s : Entries) : Prop := (ascii "stats", Val.map s) ∈ md

/-- The statistics in the metadata give `key` the value `v`. -/
def Reports (md : Entries) (key : Bytes) (v : Val) : Prop := ∃ s, HasStats md s ∧ (key, v) ∈ s

/-- A Go map has one entry per key. -/
def OneEntryPerKey (m : Entries) : Prop := (m.map Prod.fst).Nodup

/-- The metadata and the statistics in them are Go maps. -/
def GoMaps (md : Entries) : Prop := OneEntryPerKey md ∧ ∀ s, HasStats md s → OneEntryPerKey s

/-- The full statement. -/
def C48_statement : Prop := ∀ (c : Counter) (md : Entries), GoMaps md →
  (∀ n, Reports md c.key (.int .int64 n) → c.get md = .val n true) ∧
  ((¬ ∃ v, Reports md c.key v) → c.get md = .val (-1) false) ∧
  c.get md ≠ .panic

theorem getStats_some {md s : Entries} (hm : GoMaps md) (h : HasStats md s) : getStats md = some s := by
  simp only [getStats, mapGet_of_mem hm.1 h]

theorem getStats_none {md : Entries} (h : ¬ ∃ s, HasStats md s) : getStats md = none := by
  unfold getStats
  split
  · next m hm => exact absurd ⟨m, mapGet_mem hm⟩ h
  · rfl

theorem mapGet_absent {m : Entries} {k : Bytes} (h : ¬ ∃ v, (k, v) ∈ m) : mapGet m k = none := by
  cases hm : mapGet m k with
  | none => rfl
  | some v => exact absurd ⟨v, mapGet_mem hm⟩ h

/-- A counter that the server reported is returned. -/
theorem C48_reported (c : Counter) {md : Entries} (hm : GoMaps md) {n : Int} (h : Reports md c.key (.int .int64 n)) : c.get md = .val n true := by
  obtain ⟨s, h1, h2⟩ := h
  have g1 := getStats_some hm h1
  have g2 := mapGet_of_mem (hm.2 s h1) h2
  cases c <;> simp only [Counter.key] at g2 <;>
    simp [Counter.get, getNodesCreated, getRelationshipsCreated, getNodesDeleted, getRelationshipsDeleted, counterUnchecked, g1, g2, assertInt64]

/-- Without statistics, the counter is `(-1, false)`. -/
theorem C48_no_stats (c : Counter) {md : Entries} (h : ¬ ∃ s, HasStats md s) : c.get md = .val (-1) false := by
  have g1 := getStats_none h
  cases c <;> simp [Counter.get, getNodesCreated, getRelationshipsCreated, getNodesDeleted, getRelationshipsDeleted, counterUnchecked, g1]

/-- `GetNodesDeleted` is `(-1, false)` whenever the counter was not reported. -/
theorem C48_nodes_deleted {md : Entries} (hm : GoMaps md) (h : ¬ ∃ v, Reports md (ascii "nodes-deleted") v) : getNodesDeleted md = .val (-1) false := by
  by_cases hs : ∃ s, HasStats md s
  · obtain ⟨s, hs⟩ := hs
    have g1 := getStats_some hm hs
    have g2 := mapGet_absent (m := s) (k := ascii "nodes-deleted") (fun ⟨v, hv⟩ => h ⟨v, s, hs, hv⟩)
    simp [getNodesDeleted, g1, g2]
  · exact C48_no_stats .nodesDeleted hs

/-- Exactly when a counter panics: there are statistics, and they give the counter something that is not an int64, or (for the counters other than the
deleted nodes) they do not mention it. -/
theorem C48_panics_iff (c : Counter) {md : Entries} (hm : GoMaps md) :
    c.get md = .panic ↔ ∃ s, HasStats md s ∧
      ((∃ v, (c.key, v) ∈ s ∧ ∀ n, v ≠ .int .int64 n) ∨ (c ≠ .nodesDeleted ∧ ¬ ∃ v, (c.key, v) ∈ s)) := by
  constructor
  · intro h
    by_cases hs : ∃ s, HasStats md s
    · obtain ⟨s, hs⟩ := hs
      refine ⟨s, hs, ?_⟩
      by_cases hv : ∃ v, (c.key, v) ∈ s
      · obtain ⟨v, hv⟩ := hv
        refine .inl ⟨v, hv, ?_⟩
        rintro n rfl
        rw [C48_reported c hm ⟨s, hs, hv⟩] at h
        cases h
      · refine .inr ⟨?_, hv⟩
        rintro rfl
        have := C48_nodes_deleted hm (fun ⟨v, s', hs', hv'⟩ => hv ⟨v, by
          have e := (getStats_some hm hs').symm.trans (getStats_some hm hs)
          cases e
          exact hv'⟩)
        rw [show Counter.nodesDeleted.get md = getNodesDeleted md from rfl, this] at h
        cases h
    · rw [C48_no_stats c hs] at h
      cases h
  · rintro ⟨s, hs, h⟩
    have g1 := getStats_some hm hs
    rcases h with ⟨v, hv, hn⟩ | ⟨hc, hv⟩
    · have g2 := mapGet_of_mem (hm.2 s hs) hv
      have g3 : ∀ ok, assertInt64 (some v) ok = .panic := by
        intro ok
        unfold assertInt64
        split
        · next n e => cases e; exact absurd rfl (hn n)
        · rfl
      cases c <;> simp only [Counter.key] at g2 <;>
        simp [Counter.get, getNodesCreated, getRelationshipsCreated, getNodesDeleted, getRelationshipsDeleted, counterUnchecked, g1, g2, g3]
    · have g2 := mapGet_absent hv
      cases c <;> simp only [Counter.key] at g2 <;>
        simp_all [Counter.get, getNodesCreated, getRelationshipsCreated, getRelationshipsDeleted, counterUnchecked, assertInt64]

/-- What holds of the full statement.  Missing: a counter other than the deleted nodes that is not mentioned in the statistics, and a counter that is not
an int64, where the accessors panic (`C48_panics_iff`, `C48_refuted`). -/
theorem C48_counters_partial (c : Counter) {md : Entries} (hm : GoMaps md) :
    (∀ n, Reports md c.key (.int .int64 n) → c.get md = .val n true) ∧
    ((¬ ∃ s, HasStats md s) ∨ (c = .nodesDeleted ∧ ¬ ∃ v, Reports md c.key v) → c.get md = .val (-1) false) := by
  refine ⟨fun n h => C48_reported c hm h, ?_⟩
  rintro (h | ⟨rfl, h⟩)
  · exact C48_no_stats c h
  · exact C48_nodes_deleted hm h

/-- Metadata of `CREATE (n)`: `{"stats": {"nodes-created": 1}}`. -/
def createdOne : Entries := [(ascii "stats", .map [(ascii "nodes-created", .int .int64 1)])]

theorem createdOne_goMaps : GoMaps createdOne := by
  refine ⟨by simp [OneEntryPerKey, createdOne], ?_⟩
  intro s hs
  simp [HasStats, createdOne] at hs
  subst hs
  simp [OneEntryPerKey]

/-- The full statement is false: asking for the relationships created by `CREATE (n)` panics. -/
theorem C48_refuted : ¬ C48_statement := fun h => (h .relationshipsCreated createdOne createdOne_goMaps).2.2 (by decide +kernel)

/-- The witness is what a server sends: SUCCESS {"stats": {"nodes-created": 1}} in answer to PULL. -/
def sCreated : List Bytes :=
  [[0x00, 0x19, 0xB1, 0x70, 0xA1, 0x85, 0x73, 0x74, 0x61, 0x74, 0x73, 0xA1, 0x8D, 0x6E, 0x6F, 0x64, 0x65, 0x73, 0x2D, 0x63, 0x72, 0x65, 0x61, 0x74, 0x65, 0x64,
    0x01, 0x00, 0x00]]
/-- The metadata returned by a call. -/
def returned {σ : Type} (r : CRes Entries × Conn σ) : Option Val :=
  match r.1 with
  | .ok m => some (.map m)
  | _ => none
example : returned (exec env0 scripted 3 (ascii "CREATE (n)") [] (opened (sOpen4 ++ [sSuccess, sCreated])).2) = some (.map createdOne) := by decide +kernel
example : getNodesCreated createdOne = .val 1 true ∧ getNodesDeleted createdOne = .val (-1) false ∧ getRelationshipsDeleted createdOne = .panic := by decide +kernel
example : Reports createdOne Counter.nodesCreated.key (.int .int64 1) := ⟨[(ascii "nodes-created", .int .int64 1)], by simp [HasStats, createdOne], by simp [Counter.key]⟩

end Verif

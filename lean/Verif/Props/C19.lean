/-
C19  Graph entities round trip.
-/
import Verif.Props.C01
import Verif.Proofs.Reorder
namespace Verif
open Spec

/-- /repo/structures/graph/node.go 9-13 `Node`. -/
structure GNode where
  id : Int
  labels : List Bytes
  props : Entries

/-- /repo/structures/graph/relationship.go 9-15 `Relationship`. -/
structure GRel where
  id : Int
  start : Int
  end_ : Int
  type : Bytes
  props : Entries

/-- /repo/structures/graph/unbound_relationship.go 9-13 `UnboundRelationship`. -/
structure GURel where
  id : Int
  type : Bytes
  props : Entries

/-- /repo/structures/graph/path.go 9-13 `Path`. -/
structure GPath where
  nodes : List GNode
  rels : List GURel
  seq : List Int

/-- The Go values handed to the encoder. -/
def GNode.val (n : GNode) : Val := .struct .node [.int .int64 n.id, .list true (n.labels.map .str), .map n.props]
def GRel.val (r : GRel) : Val := .struct .relationship [.int .int64 r.id, .int .int64 r.start, .int .int64 r.end_, .str r.type, .map r.props]
def GURel.val (r : GURel) : Val := .struct .unboundRelationship [.int .int64 r.id, .str r.type, .map r.props]
def GPath.val (p : GPath) : Val :=
  .struct .path [.list true (p.nodes.map GNode.val), .list true (p.rels.map GURel.val), .list true (p.seq.map (.int .int))]

/-- The Go values the decoder builds; slices of labels etc. are `list true` in the model (`Val`). -/
def GNode.out (env : Env) (n : GNode) : Val :=
  .struct .node [.int .int64 n.id, .list true (n.labels.map .str), .map (canonEntries env n.props)]
def GRel.out (env : Env) (r : GRel) : Val :=
  .struct .relationship [.int .int64 r.id, .int .int64 r.start, .int .int64 r.end_, .str r.type, .map (canonEntries env r.props)]
def GURel.out (env : Env) (r : GURel) : Val := .struct .unboundRelationship [.int .int64 r.id, .str r.type, .map (canonEntries env r.props)]
def GPath.out (env : Env) (p : GPath) : Val :=
  .struct .path [.list true (p.nodes.map (GNode.out env)), .list true (p.rels.map (GURel.out env)), .list true (p.seq.map (.int .int))]

/-- A string that is neither too long for one chunk nor of unreadable length. -/
def okStr (s : Bytes) : Prop := readableLen s.length ∧ s.length ≤ 65535

/-- An `int64`. -/
def okInt (n : Int) : Prop := -2 ^ 63 ≤ n ∧ n < 2 ^ 63

/-- Properties that can be transmitted (C01): distinct keys, readable lengths, decodable values. -/
def okProps (ver : Ver) (m : Entries) : Prop :=
  (Val.map m).All (decodable ver) ∧ (Val.map m).All intsInRange ∧ (Val.map m).All readable ∧ (Val.map m).All (strAtMost 65535)

def GNode.ok (ver : Ver) (n : GNode) : Prop := okInt n.id ∧ readableLen n.labels.length ∧ (∀ l ∈ n.labels, okStr l) ∧ okProps ver n.props
def GRel.ok (ver : Ver) (r : GRel) : Prop := okInt r.id ∧ okInt r.start ∧ okInt r.end_ ∧ okStr r.type ∧ okProps ver r.props
def GURel.ok (ver : Ver) (r : GURel) : Prop := okInt r.id ∧ okStr r.type ∧ okProps ver r.props
def GPath.ok (ver : Ver) (p : GPath) : Prop :=
  (∀ n ∈ p.nodes, n.ok ver) ∧ (∀ r ∈ p.rels, r.ok ver) ∧ (∀ i ∈ p.seq, okInt i) ∧
    readableLen p.nodes.length ∧ readableLen p.rels.length ∧ readableLen p.seq.length

/-- Everything C01 asks of a value. -/
def Good (ver : Ver) (v : Val) : Prop := v.All (decodable ver) ∧ v.All intsInRange ∧ v.All readable ∧ v.All (strAtMost 65535)

theorem Good.roundtrip {ver : Ver} {v : Val} (env : Env) (h : Good ver v) :
    (marshal env ver v).2 = none ∧ unmarshal env ver (marshal env ver v).1 = .ok (canon env v) :=
  C01_roundtrip env ver v h.1 h.2.1 h.2.2.1 h.2.2.2

theorem Good.int64 {ver : Ver} {n : Int} (h : okInt n) : Good ver (.int .int64 n) := ⟨trivial, h, h, trivial⟩
theorem Good.int {ver : Ver} {n : Int} (h : okInt n) : Good ver (.int .int n) := ⟨trivial, h, h, trivial⟩
theorem Good.str {ver : Ver} {s : Bytes} (h : okStr s) : Good ver (.str s) := ⟨trivial, trivial, h.1, h.2⟩
theorem Good.props {ver : Ver} {m : Entries} (h : okProps ver m) : Good ver (.map m) := h

theorem Good.list {ver : Ver} {i : Bool} {vs : List Val} (hl : readableLen vs.length) (h : ∀ v ∈ vs, Good ver v) : Good ver (.list i vs) := by
  refine ⟨⟨trivial, ?_⟩, ⟨trivial, ?_⟩, ⟨hl, ?_⟩, ⟨trivial, ?_⟩⟩ <;> rw [allList_iff] <;> intro v hv
  · exact (h v hv).1
  · exact (h v hv).2.1
  · exact (h v hv).2.2.1
  · exact (h v hv).2.2.2

theorem Good.struct {ver : Ver} {k : StructKind} {fs : List Val} (hd : decodable ver (.struct k fs)) (h : ∀ v ∈ fs, Good ver v) :
    Good ver (.struct k fs) := by
  refine ⟨⟨hd, ?_⟩, ⟨trivial, ?_⟩, ⟨trivial, ?_⟩, ⟨trivial, ?_⟩⟩ <;> rw [allList_iff] <;> intro v hv
  · exact (h v hv).1
  · exact (h v hv).2.1
  · exact (h v hv).2.2.1
  · exact (h v hv).2.2.2

theorem GNode.good {ver : Ver} {n : GNode} (h : n.ok ver) : Good ver n.val := by
  obtain ⟨h1, h2, h3, h4⟩ := h
  refine Good.struct ⟨_, _, _, _, rfl, by simp⟩ ?_
  intro v hv
  simp only [List.mem_cons, List.not_mem_nil, or_false] at hv
  rcases hv with rfl | rfl | rfl
  · exact Good.int64 h1
  · refine Good.list (by simpa using h2) ?_
    intro v hv
    obtain ⟨l, hl, rfl⟩ := List.mem_map.mp hv
    exact Good.str (h3 l hl)
  · exact h4

theorem GURel.good {ver : Ver} {r : GURel} (h : r.ok ver) : Good ver r.val := by
  obtain ⟨h1, h2, h3⟩ := h
  refine Good.struct ⟨_, _, _, rfl⟩ ?_
  intro v hv
  simp only [List.mem_cons, List.not_mem_nil, or_false] at hv
  rcases hv with rfl | rfl | rfl
  · exact Good.int64 h1
  · exact Good.str h2
  · exact h3

theorem canon_strs (env : Env) (ls : List Bytes) : canonList env (ls.map .str) = ls.map .str := by
  rw [canonList_eq, List.map_map]; rfl

theorem GNode.canon_val (env : Env) (n : GNode) : canon env n.val = n.out env := by
  simp only [GNode.val, GNode.out, canon, canonList, retype, canon_strs]

theorem GURel.canon_val (env : Env) (r : GURel) : canon env r.val = r.out env := by
  simp only [GURel.val, GURel.out, canon, canonList, retype]

/-- Nodes keep identity, labels in order, and properties. -/
theorem C19_node (env : Env) (ver : Ver) (n : GNode) (h : n.ok ver) :
    (marshal env ver n.val).2 = none ∧ unmarshal env ver (marshal env ver n.val).1 = .ok (n.out env) := by
  have := (GNode.good h).roundtrip env
  rwa [GNode.canon_val] at this

/-- Relationships keep identity, start, end, type and properties. -/
theorem C19_relationship (env : Env) (ver : Ver) (r : GRel) (h : r.ok ver) :
    (marshal env ver r.val).2 = none ∧ unmarshal env ver (marshal env ver r.val).1 = .ok (r.out env) := by
  obtain ⟨h1, h2, h3, h4, h5⟩ := h
  have hg : Good ver r.val := by
    refine Good.struct ⟨_, _, _, _, _, rfl⟩ ?_
    intro v hv
    simp only [List.mem_cons, List.not_mem_nil, or_false] at hv
    rcases hv with rfl | rfl | rfl | rfl | rfl
    · exact Good.int64 h1
    · exact Good.int64 h2
    · exact Good.int64 h3
    · exact Good.str h4
    · exact h5
  exact hg.roundtrip env

/-- Unbound relationships keep identity, type and properties. -/
theorem C19_unbound (env : Env) (ver : Ver) (r : GURel) (h : r.ok ver) :
    (marshal env ver r.val).2 = none ∧ unmarshal env ver (marshal env ver r.val).1 = .ok (r.out env) := by
  have := (GURel.good h).roundtrip env
  rwa [GURel.canon_val] at this

/-- Paths keep their nodes, relationships and sequence, in order; sequence numbers are Go `int`s again. -/
theorem C19_path (env : Env) (ver : Ver) (p : GPath) (h : p.ok ver) :
    (marshal env ver p.val).2 = none ∧ unmarshal env ver (marshal env ver p.val).1 = .ok (p.out env) := by
  obtain ⟨h1, h2, h3, h4, h5, h6⟩ := h
  have hg : Good ver p.val := by
    refine Good.struct ⟨_, _, _, _, _, _, rfl, ?_, ?_, ?_⟩ ?_
    · intro v hv; obtain ⟨n, _, rfl⟩ := List.mem_map.mp hv; exact ⟨_, rfl⟩
    · intro v hv; obtain ⟨n, _, rfl⟩ := List.mem_map.mp hv; exact ⟨_, rfl⟩
    · intro v hv; obtain ⟨n, _, rfl⟩ := List.mem_map.mp hv; exact ⟨_, rfl⟩
    · intro v hv
      simp only [List.mem_cons, List.not_mem_nil, or_false] at hv
      rcases hv with rfl | rfl | rfl
      · refine Good.list (by simpa using h4) ?_
        intro v hv; obtain ⟨n, hn, rfl⟩ := List.mem_map.mp hv; exact GNode.good (h1 n hn)
      · refine Good.list (by simpa using h5) ?_
        intro v hv; obtain ⟨n, hn, rfl⟩ := List.mem_map.mp hv; exact GURel.good (h2 n hn)
      · refine Good.list (by simpa using h6) ?_
        intro v hv; obtain ⟨n, hn, rfl⟩ := List.mem_map.mp hv; exact Good.int (h3 n hn)
  have hc : canon env p.val = p.out env := by
    simp only [GPath.val, GPath.out, canon, canonList, retype, canonList_eq, List.map_map]
    have e1 : canon env ∘ GNode.val = GNode.out env := funext fun n => GNode.canon_val env n
    have e2 : canon env ∘ GURel.val = GURel.out env := funext fun n => GURel.canon_val env n
    rw [e1, e2]
    rfl
  rw [← hc]
  exact hg.roundtrip env

example : GPath.ok .v1 ⟨[⟨1, [[0x41]], [([0x6B], .int .int 5)]⟩, ⟨2, [], []⟩], [⟨7, [0x54], []⟩], [1, 1]⟩ := by
  simp [GPath.ok, GNode.ok, GURel.ok, okInt, okStr, okProps, readableLen, Val.All, AllEntries, decodable, intsInRange, readable, strAtMost,
    IntKind.InRange]

end Verif

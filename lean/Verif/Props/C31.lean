/-
C31  Pull and discard messages carry the stream parameters: true of PULL, false of DISCARD.
-/
import Verif.Proofs.Wire
import Verif.Model.Protocol
namespace Verif
open Spec

/-- `bs` is, in the wire format, a structure with signature `sig` whose single field is a map that holds the count `n` and, unless it is the "absent" id -1, the query
id - and nothing else. -/
def carriesStream (sig : UInt8) (n id : Int) (bs : Bytes) : Prop :=
  ∃ es, Spec.Enc full (.struct sig [.map es]) bs ∧
    es.Perm ((ascii "n", .int n) :: if id = -1 then [] else [(ascii "qid", .int id)])

/-- Full statement, for both messages. -/
def C31_statement : Prop := ∀ (env : Env) (ver : Ver) (n id : Int), -2 ^ 63 ≤ n → n < 2 ^ 63 → -2 ^ 63 ≤ id → id < 2 ^ 63 →
  carriesStream 0x3F n id (payload env ver (newPullMessage n id)) ∧ carriesStream 0x2F n id (payload env ver (newDiscardMessage n id))

/-- PULL: for every count and query id, and whichever order the metadata map is iterated in.  Missing from the full statement: DISCARD. -/
theorem C31_pull_partial (env : Env) (ver : Ver) (n id : Int) (h1 : -2 ^ 63 ≤ n) (h2 : n < 2 ^ 63) (h3 : -2 ^ 63 ≤ id) (h4 : id < 2 ^ 63)
    (m m' : Entries) (hm : newPullMessage n id = .struct .pull [.map m']) (hperm : m.Perm m') :
    (encode env ver (.struct .pull [.map m])).2 = none ∧ carriesStream 0x3F n id (payload env ver (.struct .pull [.map m])) := by
  have hp : m.Perm (streamMetadata n id) := by
    unfold newPullMessage at hm
    simp only [Val.struct.injEq, true_and, List.cons.injEq, Val.map.injEq, and_true] at hm
    rw [hm]; exact hperm
  let f : Val → PS := fun v => (tree env ver v).getD .null
  have hmem : ∀ e ∈ m, e = (ascii "n", .int .int64 n) ∨ (id ≠ -1 ∧ e = (ascii "qid", .int .int64 id)) := by
    intro e he
    have he := hp.mem_iff.mp he
    unfold streamMetadata putIf absentQueryId at he
    by_cases hid : id = -1
    · simp [hid] at he; exact .inl he
    · simp [hid, mapInsert] at he
      split at he
      · simp at he; exact .inr ⟨hid, he⟩
      · simp at he; exact he.imp (fun h => h) fun h => ⟨hid, h⟩
  have ht : treeEntries env ver m = some (m.map fun e => (e.1, f e.2)) := by
    refine treeEntries_map env ver f m fun e he => ?_
    rcases hmem e he with rfl | ⟨_, rfl⟩ <;> rfl
  have hlen : m.length ≤ 2 := by
    rw [hp.length_eq]
    unfold streamMetadata putIf absentQueryId
    split
    · simp [mapInsert]; split <;> simp
    · simp
  have hw := wire_of_tree env ver (v := .struct .pull [.map m]) (t := .struct 0x3F [.map (m.map fun e => (e.1, f e.2))])
    (by simp only [tree, trees, ht, tag, Option.map_some]) (by
      simp only [PS.Fits, PS.FitsWith, FitsList, List.length_cons, List.length_nil, List.length_map, and_true]
      refine ⟨by omega, by omega, fitsEntries_iff.mpr ?_⟩
      intro e he
      rw [List.mem_map] at he
      obtain ⟨e', he', rfl⟩ := he
      rcases hmem e' he' with rfl | ⟨_, rfl⟩
      · exact ⟨by show (ascii "n").length < 2 ^ 32; have : (ascii "n").length = 1 := rfl; omega, h1, h2⟩
      · exact ⟨by show (ascii "qid").length < 2 ^ 32; have : (ascii "qid").length = 3 := rfl; omega, h3, h4⟩)
  refine ⟨hw.1, _, hw.2, (hp.map _).trans ?_⟩
  unfold streamMetadata putIf absentQueryId
  by_cases hid : id = -1
  · simp [hid]; rfl
  · have e : ascii "n" ≠ ascii "qid" := by decide
    simp [hid, mapInsert, e]
    exact List.Perm.of_eq rfl

example : newPullMessage 1000 7 = .struct .pull [.map [(ascii "n", .int .int64 1000), (ascii "qid", .int .int64 7)]] := by rfl

/-- DISCARD never carries its parameters: the message is the same two bytes for all `n` and `id`. -/
theorem C31_discard_empty (env : Env) (ver : Ver) (n id : Int) : payload env ver (newDiscardMessage n id) = [0xB0, 0x2F] := rfl

/-- The requests to fetch and to throw away all that is left of a result, as the protocol versions build them (protocol_v*/bolt.go): in every version a DISCARD is the same two bytes, up to version 3 so is a
PULL, and from version 4 on a PULL carries the count -1 and no query id. -/
theorem C31_protocols (env : Env) (ver : Ver) : (∀ (p : Proto) (qid : Int), payload env ver (p.discardMessage qid) = [0xB0, 0x2F]) ∧
    (∀ p : Proto, payload env ver p.discardAllMessage = [0xB0, 0x2F]) ∧
    (∀ p : Proto, p ≠ .v4 → payload env ver p.pullAllMessage = [0xB0, 0x3F]) ∧ carriesStream 0x3F (-1) (-1) (payload env ver Proto.v4.pullAllMessage) := by
  refine ⟨fun p _ => by cases p <;> rfl, fun p => by cases p <;> rfl, fun p hp => ?_, ?_⟩
  · cases p with
    | v4 => exact absurd rfl hp
    | _ => rfl
  · exact (C31_pull_partial env ver (-1) (-1) (by decide) (by decide) (by decide) (by decide) _ _ rfl (List.Perm.refl _)).2

/-- The full statement is false. -/
theorem C31_refuted : ¬ C31_statement := by
  intro h
  obtain ⟨es, h1, _⟩ := (h ⟨fun _ => 0, fun _ => (0, 0, 0), fun _ => none⟩ .v2 5 3 (by decide) (by decide) (by decide) (by decide)).2
  rw [C31_discard_empty] at h1
  simp only [Spec.Enc] at h1
  obtain ⟨hd, body, hh, hb, he⟩ := h1
  rcases hh with ⟨_, rfl⟩ | ⟨m, k, lb, hm, _, rfl, hk, _⟩
  · simp at he
  · rw [List.cons_append] at he
    injection he with he _
    subst he
    simp [structMarkers] at hm

end Verif

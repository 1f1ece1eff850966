/-
Wire form of messages: helpers for reading off the tree of a message that contains maps in any order.
-/
import Verif.Proofs.EncodeConforms
import Verif.Model.Chunk
namespace Verif
open Spec

theorem treeEntries_map (env : Env) (ver : Ver) (f : Val → PS) : (es : Entries) → (∀ e ∈ es, tree env ver e.2 = some (f e.2)) →
    treeEntries env ver es = some (es.map fun e => (e.1, f e.2))
  | [], _ => rfl
  | (k, v) :: es, h => by
    simp only [treeEntries, h (k, v) (by simp), treeEntries_map env ver f es fun e he => h e (by simp [he]), List.map_cons]

theorem fitsEntries_iff {len slen : Nat → Prop} : {es : List (Bytes × PS)} →
    (FitsEntries len slen es ↔ ∀ e ∈ es, len e.1.length ∧ e.2.FitsWith len slen)
  | [] => by simp [FitsEntries]
  | (k, t) :: es => by simp [FitsEntries, fitsEntries_iff (es := es), and_assoc]

theorem fitsList_iff {len slen : Nat → Prop} : {ts : List PS} → (FitsList len slen ts ↔ ∀ t ∈ ts, t.FitsWith len slen)
  | [] => by simp [FitsList]
  | t :: ts => by simp [FitsList, fitsList_iff (ts := ts)]

/-- A value whose tree fits the format is accepted, and its payload is an encoding of the tree. -/
theorem wire_of_tree (env : Env) (ver : Ver) {v : Val} {t : PS} (h : tree env ver v = some t) (hf : t.Fits) :
    (encode env ver v).2 = none ∧ Spec.Enc full t (payload env ver v) := encode_conforms env ver full v t h (Fits_full hf)

end Verif

/-
C11  Consecutive messages are delimited exactly.
-/
import Verif.Props.C07
import Verif.Proofs.RoundTrip
namespace Verif
open Spec

/-- `k` successive `Decode` calls on one stream: the values returned, and the rest of the stream. -/
def decodeSeq (env : Env) (ver : Ver) (fin : StreamEnd) : Nat → List Bytes → Option (List Val × List Bytes)
  | 0, segs => some ([], segs)
  | k + 1, segs =>
    match decodeMsg env ver fin segs with
    | .ok v segs' => (decodeSeq env ver fin k segs').map fun x => (v :: x.1, x.2)
    | _ => none

/-- One message of a stream: chunk size and value. -/
structure Msg where
  cs : Nat
  v : Val

/-- The message satisfies the conditions of C01 and C07. -/
def Msg.good (ver : Ver) (m : Msg) : Prop :=
  8 ≤ m.cs ∧ m.cs ≤ 65535 ∧ m.v.All (decodable ver) ∧ m.v.All intsInRange ∧ m.v.All readable ∧ m.v.All (strAtMost m.cs)

theorem decodeMsg_one (env : Env) (ver : Ver) (fin : StreamEnd) (m : Msg) (hm : m.good ver) {segs : List Bytes} {rest : Bytes}
    (hs : segs.flatten = (encodeMsg env ver m.cs m.v).1.flatten ++ rest) :
    ∃ segs', decodeMsg env ver fin segs = .ok (canon env m.v) segs' ∧ segs'.flatten = rest := by
  obtain ⟨h1, h2, h3, h4, h5, h6⟩ := hm
  obtain ⟨e1, e2⟩ := decode_payload' env ver m.v h3 h4 h5 []
  obtain ⟨_, f⟩ := encodeMsg_framed env ver h1 h2 h6 e1
  obtain ⟨segs', g1, g2⟩ := readMsg_framed f fin hs
  refine ⟨segs', ?_, g2⟩
  unfold decodeMsg
  rw [List.append_nil] at e2
  simp only [g1, e2]

/-- For every sequence of messages (each with its own chunk size), sent one after the other and followed by any bytes, and for every
fragmentation of the stream: as many `Decode` calls return exactly those messages in order and leave exactly the bytes that follow. -/
theorem C11_messages_delimited (env : Env) (ver : Ver) (fin : StreamEnd) (ms : List Msg) (hm : ∀ m ∈ ms, m.good ver)
    (segs : List Bytes) (rest : Bytes)
    (hs : segs.flatten = (ms.map fun m => (encodeMsg env ver m.cs m.v).1.flatten).flatten ++ rest) :
    ∃ segs', decodeSeq env ver fin ms.length segs = some (ms.map fun m => canon env m.v, segs') ∧ segs'.flatten = rest := by
  induction ms generalizing segs with
  | nil => exact ⟨segs, rfl, by simpa using hs⟩
  | cons m ms ih =>
    rw [List.map_cons, List.flatten_cons, List.append_assoc] at hs
    obtain ⟨s1, h1, h2⟩ := decodeMsg_one env ver fin m (hm m (by simp)) hs
    obtain ⟨s2, h3, h4⟩ := ih (fun m' h' => hm m' (by simp [h'])) s1 h2
    refine ⟨s2, ?_, h4⟩
    simp only [List.length_cons, decodeSeq, h1, h3, Option.map_some, List.map_cons]

/-- Two messages with different chunk sizes. -/
example : ∀ m ∈ [Msg.mk 8 (.str [1, 2, 3, 4, 5, 6, 7]), Msg.mk 65535 (.map [([1], .list false [.nil])])], m.good .v1 := by
  intro m hm
  simp only [List.mem_cons, List.not_mem_nil, or_false] at hm
  rcases hm with rfl | rfl
  · simp [Msg.good, Val.All, decodable, intsInRange, readable, readableLen, strAtMost]
  · simp [Msg.good, Val.All, AllEntries, AllList, decodable, intsInRange, readable, readableLen, strAtMost]

end Verif

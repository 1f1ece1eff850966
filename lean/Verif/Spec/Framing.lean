/-
Chunked transfer of a message (Bolt protocol), independent of the sender and receiver models: a message is a sequence of non-empty
chunks, each preceded by its length as two big-endian bytes, followed by `00 00`.
-/
import Verif.Model.Bytes
namespace Verif.Spec

/-- One chunk with its header. -/
def chunk (c : Bytes) : Bytes := UInt8.ofNat (c.length / 256) :: UInt8.ofNat (c.length % 256) :: c

/-- The chunks followed by the end marker. -/
def frame (cks : List Bytes) : Bytes := (cks.map chunk).flatten ++ [0x00, 0x00]

/-- The chunks are acceptable: not empty, and the length fits the header. -/
def GoodChunks (cks : List Bytes) : Prop := ∀ c ∈ cks, c ≠ [] ∧ c.length ≤ 65535

/-- `s` is a correctly framed message with contents `p`. -/
def Framed (p s : Bytes) : Prop := ∃ cks, GoodChunks cks ∧ cks.flatten = p ∧ s = frame cks

end Verif.Spec

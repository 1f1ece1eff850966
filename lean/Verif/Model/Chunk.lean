/-
Chunked framing on the sending side: `Write`, `flush`, `Encode`, `Marshal`
(/repo/encoding/encoding_v2/encoderV2.go 43-112, encoding_v1/encoderV1.go 40-107).
-/
import Verif.Model.Encode
namespace Verif

/-- State of the encoder: bytes waiting in `e.buf`, and the `Write` calls made so far on the underlying writer `e.w`. -/
structure ChunkSt where
  buf : Bytes
  out : List Bytes

/-- encoderV2.go 50-76 `Write` (encoderV1.go 47-73).  The `for` loop returns in its first iteration, so at most one chunk
is emitted per call.  The header and the chunk are two writes on the underlying writer.  The underlying writer succeeds here;
its failure is modelled where messages are sent (`Conn.lean`). -/
def chunkWrite (cs : Nat) (st : ChunkSt) (p : Bytes) : ChunkSt :=
  let buf := st.buf ++ p
  if buf.length ≥ cs then ⟨buf.drop cs, st.out ++ [be 2 cs, buf.take cs]⟩
  else ⟨buf, st.out⟩

/-- All `Write` calls of one message. -/
def chunkWrites (cs : Nat) (st : ChunkSt) (ps : List Bytes) : ChunkSt := ps.foldl (chunkWrite cs) st

/-- encoderV2.go 79-100 `flush` (encoderV1.go 76-95): `uint16(length)` keeps the low 16 bits (`be 2`). -/
def flush (st : ChunkSt) : List Bytes :=
  (if st.buf.length > 0 then st.out ++ [be 2 st.buf.length, st.buf] else st.out) ++ [[0x00, 0x00]]

/-- encoderV2.go 103-112 `Encode` (encoderV1.go 98-107): the writes made on the underlying writer, and the error.
`cs` is the encoder's `chunkSize` (a uint16). -/
def encodeMsg (env : Env) (ver : Ver) (cs : Nat) (v : Val) : List Bytes × Option Err :=
  let r := encode env ver v
  let st := chunkWrites cs ⟨[], []⟩ r.1
  match r.2 with
  | some e => (st.out, some e)
  | none => (flush st, none)

/-- encoderV2.go 43-47 `Marshal` (encoderV1.go 40-44): chunk size 65535.  Returns the bytes accumulated and the error. -/
def marshal (env : Env) (ver : Ver) (v : Val) : Bytes × Option Err :=
  let r := encodeMsg env ver 65535 v
  (r.1.flatten, r.2)

/-- The message payload before framing: concatenation of the bytes passed to `Write`. -/
def payload (env : Env) (ver : Ver) (v : Val) : Bytes := (encode env ver v).1.flatten

end Verif

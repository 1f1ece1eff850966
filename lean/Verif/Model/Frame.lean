/-
Receiving side of the chunked framing: `read`, `readData`, `Decode`, `Unmarshal`
(/repo/encoding/encoding_v2/decoderV2.go 31-96, encoding_v1/decoderV1.go 36-101).

The underlying reader delivers the stream in segments: each `Read(p)` returns bytes of the first segment only, at most
`len(p)` of them.  When no segment is left the stream has ended, with `io.EOF` or with another error.
-/
import Verif.Model.Decode
namespace Verif

/-- How the incoming stream ends: closed by the peer, or by a network error/timeout, which
`readWrite.Read` turns into `driver.ErrBadConn` (/repo/connection/connection.go 44-54). -/
inductive StreamEnd where
  | eof | broken
  deriving DecidableEq, Repr

/-- The error returned by `Read` at the end of the stream. -/
def StreamEnd.err : StreamEnd → Err
  | .eof => .eof
  | .broken => .badConn

/-- One `Read(p)` with `len(p) = n > 0`: the first non-empty segment, cut at `n` bytes; `none` at the end of the stream. -/
def readOnce (n : Nat) : List Bytes → Option (Bytes × List Bytes)
  | [] => none
  | s :: rest =>
    if s = [] then readOnce n rest
    else if s.length ≤ n then some (s, rest)
    else some (s.take n, s.drop n :: rest)

/-- `io.ReadFull`/`io.ReadAtLeast` (Go standard library): reads until `n` bytes have arrived.  Returns the bytes read, and
the remaining segments.  `fuel` bounds the number of `Read` calls; each delivers at least one byte, so `n` suffices. -/
def readFull : Nat → Nat → List Bytes → Bytes × List Bytes
  | 0, _, segs => ([], segs)
  | fuel + 1, n, segs =>
    if n = 0 then ([], segs)
    else match readOnce n segs with
      | none => ([], [])
      | some (got, segs') =>
        let r := readFull fuel (n - got.length) segs'
        (got ++ r.1, r.2)

/-- Result of reading from the stream: a value or an error, and what is left of the stream. -/
inductive RRes (α : Type) where
  | ok (a : α) (segs : List Bytes)
  | err (e : Err) (segs : List Bytes)

/-- decoderV2.go 66-86 `readData` (decoderV1.go 71-91).  `out` is the output array, `total` is `totalRead`.  Each
iteration copies the whole scratch buffer `data` (the bytes read followed by zeros) to `output[totalRead:]`. -/
def readDataLoop (fin : StreamEnd) (len : Nat) : Nat → Nat → Bytes → List Bytes → RRes Bytes
  | 0, _, out, segs => .ok out segs
  | fuel + 1, total, out, segs =>
    if total < len then
      match readOnce (len - total) segs with
      | none => .err (fin.err.wrap "An error occurred reading from stream") []
      | some (got, segs') =>
        let data := got ++ List.replicate (len - total - got.length) 0
        readDataLoop fin len fuel (total + got.length) (out.take total ++ data) segs'
    else .ok out segs

/-- decoderV2.go 66-86 `readData`: `output := make([]byte, messageLen)`. -/
def readData (fin : StreamEnd) (len : Nat) (segs : List Bytes) : RRes Bytes :=
  readDataLoop fin len (len + 1) 0 (List.replicate len 0) segs

/-- decoderV2.go 37-64 `read` (decoderV1.go 42-69): collects chunks until a zero-length header.  `fuel` bounds the number of chunks;
each takes at least two bytes from the stream. -/
def readMsgF (fin : StreamEnd) : Nat → Bytes → List Bytes → RRes Bytes
  | 0, out, segs => .ok out segs
  | fuel + 1, out, segs =>
    let h := readFull 2 2 segs
    if h.1.length ≠ 2 then
      -- io.ReadFull turns io.EOF into io.ErrUnexpectedEOF when some but not all bytes were read
      let e := if fin = .eof ∧ h.1.length > 0 then .unexpectedEOF else fin.err
      .err (e.wrap "Couldn't read expected bytes for message length") h.2
    else if ofBE h.1 = 0 then .ok out h.2
    else match readData fin (ofBE h.1) h.2 with
      | .err e segs' => .err (e.wrap "An error occurred reading message data") segs'
      | .ok data segs' => readMsgF fin fuel (out ++ data) segs'

/-- Number of bytes left in the stream. -/
def streamLen (segs : List Bytes) : Nat := (segs.map List.length).sum

/-- decoderV2.go 37-64 `read`. -/
def readMsg (fin : StreamEnd) (segs : List Bytes) : RRes Bytes := readMsgF fin (streamLen segs + 1) [] segs

/-- Result of `Decode`: value/error/panic and the rest of the stream. -/
inductive DRes where
  | ok (v : Val) (segs : List Bytes)
  | err (e : Err) (segs : List Bytes)
  | panic
  | fuel

/-- decoderV2.go 89-96 `Decode` (decoderV1.go 94-101): bytes of the message after the first value are ignored. -/
def decodeMsg (env : Env) (ver : Ver) (fin : StreamEnd) (segs : List Bytes) : DRes :=
  match readMsg fin segs with
  | .err e s => .err e s
  | .ok b s =>
    match decode env ver b with
    | .ok (v, _) => .ok v s
    | .err e => .err e s
    | .panic => .panic
    | .fuel => .fuel

/-- decoderV2.go 32-34 `Unmarshal`: the reader is a `bytes.Buffer`, i.e. one segment ended by `io.EOF`. -/
def unmarshal (env : Env) (ver : Ver) (b : Bytes) : Res Val :=
  match decodeMsg env ver .eof [b] with
  | .ok v _ => .ok v
  | .err e _ => .err e
  | .panic => .panic
  | .fuel => .fuel

end Verif

/-
What was exchanged with the server between two states of a connection.
-/
import Verif.Model.Conn
import Verif.Spec.Framing
import Verif.Spec.PackStream
namespace Verif
open Spec

section
variable {σ : Type} (env : Env) (W : World σ)

/-- The writes `ws` put one correctly framed message on the network, which is an encoding of the tree `t`. -/
def Carries (t : PS) (ws : List Bytes) : Prop := ∃ p, Framed p ws.flatten ∧ Spec.Enc full t p

/-- The server's reaction to a sequence of messages: its new state and all bytes it sends. -/
def feed (w : σ) : List (List Bytes) → σ × Bytes
  | [] => (w, [])
  | ws :: wss =>
    let o := W.onSend w ws
    let r := feed o.st wss
    (r.1, o.segs.flatten ++ r.2)

/-- The stream `s` starts with correctly framed messages that decode to `vs`, followed by `rest`. -/
def Reads (ver : Ver) : List Val → Bytes → Bytes → Prop
  | [], s, rest => s = rest
  | v :: vs, s, rest => ∃ p f s' r, s = f ++ s' ∧ Framed p f ∧ decode env ver p = .ok (v, r) ∧ Reads ver vs s' rest

/-- Between `c` and `c'` exactly the messages `wss` were written, in this order, and then exactly the messages `rs` were read: they are the first
messages of the bytes left over from before followed by the server's answers. -/
structure Exchanged (c c' : Conn σ) (wss : List (List Bytes)) (rs : List Val) : Prop where
  trace : c'.trace = c.trace ++ wss.map .sent ++ rs.map .recv
  world : c'.world = (feed W c.world wss).1
  reads : Reads env c.proto.codec rs (c.segs.flatten ++ (feed W c.world wss).2) c'.segs.flatten

end
end Verif

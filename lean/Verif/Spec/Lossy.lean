/-
A network on which the connection to the server can be lost, at any moment and for good.
-/
import Verif.Model.Conn
import Verif.Spec.TxServer
namespace Verif.Spec

/-- The state of the network.
* `up n`: the connection is lost while the driver writes its next message but `n`.
* `down k`: it is lost; the driver does not notice it with its next `k` messages, all later writes fail. -/
inductive Line where
  | up (n : Nat)
  | down (k : Nat)

/-- The connection is not lost. -/
def Line.isUp : Line → Bool
  | .up _ => true
  | .down _ => false

/-- How the connection is lost.
* `arrives`: whether the message with which it is lost still reaches the server.
* `heard`: how many bytes of the server's answer to it still reach the driver.
* `accepts`: how many messages, from this one on, the driver can write without an error.
* `fin`: what a read says when there is nothing more to read.
* `noticed`: whether a read with a passed deadline tells that the connection is lost. -/
structure Loss where
  arrives : Bool
  heard : Nat
  accepts : Nat
  fin : StreamEnd
  noticed : Bool

/-- State of a server and of the network: what the server has done, whether the connection is lost already, and how it is lost. -/
structure Lossy (σ : Type) where
  now : σ
  line : Line
  how : Loss

/-- The first `n` bytes of some segments. -/
def firstBytes : Nat → List Bytes → List Bytes
  | _, [] => []
  | n, s :: ss => s.take n :: firstBytes (n - s.length) ss

/-- The server `W` behind a network on which the connection is lost as `how` says.  Until then the network transmits everything; after it no message reaches the server,
and nothing more reaches the driver. -/
def lossy {σ : Type} (W : World σ) : World (Lossy σ) where
  dial s := (⟨(W.dial s.now).1, s.line, s.how⟩, (W.dial s.now).2)
  onSend s ws :=
    let o := W.onSend s.now ws
    match s.line with
    | .up (n + 1) => ⟨⟨o.st, .up n, s.how⟩, o.ok, o.segs, o.fin⟩
    | .up 0 => ⟨⟨if s.how.arrives then o.st else s.now, .down (s.how.accepts - 1), s.how⟩, decide (0 < s.how.accepts), if s.how.arrives then firstBytes s.how.heard o.segs else [], s.how.fin⟩
    | .down k => ⟨⟨s.now, .down (k - 1), s.how⟩, decide (0 < k), [], s.how.fin⟩
  onClose s := W.onClose s.now
  probe s := match s.line with
    | .up _ => W.probe s.now
    | .down _ => if s.how.noticed then .eof else .other

/-- A server and network without which nothing is lost: every write and every close succeeds, what is permanent stays so, and nothing becomes permanent by a message
that the server does not answer. -/
structure Durable {σ : Type} (W : World σ) (sess : σ → Session) : Prop where
  takes : ∀ w ws, (W.onSend w ws).ok = true
  closes : ∀ w, W.onClose w = true
  grows : ∀ w ws, ∃ more, (sess (W.onSend w ws).st).ledger.lasting = (sess w).ledger.lasting ++ more
  answered : ∀ w ws, (W.onSend w ws).segs.flatten = [] → (sess (W.onSend w ws).st).ledger.lasting = (sess w).ledger.lasting

end Verif.Spec

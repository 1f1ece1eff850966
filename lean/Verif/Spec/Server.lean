/-
A server that follows the Bolt protocol, stated on the trees of requests and answers.
-/
import Verif.Model.Messages
import Verif.Proofs.Stream
namespace Verif.Spec

/-- Where a session stands, for the server.
* `new`: the network connection was made.
* `connected`: the version was agreed on, no initialisation yet.
* `ready`: waiting for a request.
* `streaming rows`: a statement was accepted and its result not yet fetched; `rows = false` for statements that begin or end a transaction.
* `failed`: an error was reported and not yet acknowledged by RESET.
* `defunct`: the server has ended the session. -/
inductive Phase where
  | new | connected | ready | streaming (rows : Bool) | failed | defunct
  deriving DecidableEq

def success (m : List (Bytes × PS)) : PS := .struct 0x70 [.map m]
def failure (m : List (Bytes × PS)) : PS := .struct 0x7F [.map m]
def record (fs : List PS) : PS := .struct 0x71 [.list fs]
def ignoredTree : PS := .struct 0x7E []

/-- Statements without rows. -/
def controlVerbs : List Bytes := [ascii "BEGIN", ascii "COMMIT", ascii "ROLLBACK"]

/-- `Reply ph t ts ph'`: in phase `ph`, the request `t` may be answered with the messages `ts`, which leads to phase `ph'`. -/
inductive Reply : Phase → PS → List PS → Phase → Prop
  | init (fs m) : Reply .connected (.struct 0x01 fs) [success m] .ready
  | initFailure (fs m) : Reply .connected (.struct 0x01 fs) [failure m] .failed
  | run (q fs m) : Reply .ready (.struct 0x10 (.str q :: fs)) [success m] (.streaming (q ∉ controlVerbs))
  | runFailure (q fs m) : Reply .ready (.struct 0x10 (.str q :: fs)) [failure m] .failed
  | tx (sig fs m) : sig ∈ [0x11, 0x12, 0x13] → Reply .ready (.struct sig fs) [success m] .ready
  | txFailure (sig fs m) : sig ∈ [0x11, 0x12, 0x13] → Reply .ready (.struct sig fs) [failure m] .failed
  | pull (rows fs recs m) : (rows = false → recs = []) → Reply (.streaming rows) (.struct 0x3F fs) (recs.map record ++ [success m]) .ready
  | pullFailure (rows fs recs m) : (rows = false → recs = []) → Reply (.streaming rows) (.struct 0x3F fs) (recs.map record ++ [failure m]) .failed
  | ignored (sig fs) : sig ∉ [0x0F, 0x02] → Reply .failed (.struct sig fs) [ignoredTree] .failed
  | reset (ph m) : ph ≠ .new → ph ≠ .connected → ph ≠ .defunct → Reply ph (.struct 0x0F []) [success m] .ready
  | resetFailure (ph m) : ph ≠ .new → ph ≠ .connected → ph ≠ .defunct → Reply ph (.struct 0x0F []) [failure m] .defunct
  | goodbye (ph) : ph ≠ .new → ph ≠ .defunct → Reply ph (.struct 0x02 []) [] .defunct

/-- The bytes `s` are the messages `ts`, each framed in some way. -/
def Sends : List PS → Bytes → Prop
  | [], s => s = []
  | t :: ts, s => ∃ p f s', s = f ++ s' ∧ Framed p f ∧ Enc full t p ∧ Sends ts s'

/-- The server and the network follow the protocol.  `phase` is the phase of the server's session.
* `reply`: a request that is allowed in the current phase is transmitted and answered as `Reply` says; the answers may be cut into chunks and segments in any way.
* `silent`: after the end of the session nothing more arrives.
* `greet`: the handshake (20 bytes starting with the magic number) is answered by exactly four bytes. -/
structure Follows {σ : Type} (W : World σ) (phase : σ → Phase) : Prop where
  reply : ∀ w ws t, Carries t ws → phase w ≠ .defunct → (∃ ts ph, Reply (phase w) t ts ph) →
    (W.onSend w ws).ok = true ∧ ∃ ts, Reply (phase w) t ts (phase (W.onSend w ws).st) ∧ Sends ts (W.onSend w ws).segs.flatten
  silent : ∀ w ws, phase w = .defunct → phase (W.onSend w ws).st = .defunct ∧ (W.onSend w ws).segs.flatten = []
  greet : ∀ w pre, pre.length = 20 → pre.take 4 = [0x60, 0x60, 0xB0, 0x17] →
    phase (W.onSend (W.dial w).1 [pre]).st = .connected ∧ (W.onSend (W.dial w).1 [pre]).segs.flatten.length = 4

/-- Every answer of the server consists of values that the codec can read, with length fields below their sign bit (see C04). -/
def Understood {σ : Type} (env : Env) (ver : Ver) (W : World σ) : Prop :=
  ∀ w ws ts, Sends ts (W.onSend w ws).segs.flatten → Answers ts (W.onSend w ws).segs.flatten [] ∧ ∃ vs, Means env ver ts vs

section
variable {σ : Type} (env : Env) (W : World σ)

/-- The messages written, and the messages read, during some events. -/
def sents (evs : List Ev) : List (List Bytes) := evs.filterMap fun e => match e with | .sent ws => some ws | _ => none
def recvs (evs : List Ev) : List Val := evs.filterMap fun e => match e with | .recv v => some v | _ => none

/-- From `c` to `c'`, the messages that were read are, in order, the first ones of what was unread before followed by the server's answers to the messages written
since then; what remains unread is the rest. -/
def Talked (ver : Ver) (c c' : Conn σ) : Prop := ∃ evs, c'.trace = c.trace ++ evs ∧ c'.world = (feed W c.world (sents evs)).1 ∧
  Reads env ver (recvs evs) (c.segs.flatten ++ (feed W c.world (sents evs)).2) c'.segs.flatten

end

end Verif.Spec

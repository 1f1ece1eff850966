/-
C128  The server is told nothing but what the calls have sent.

Writing to the network may fail: what was written before the failure has arrived, and the rest has not.  False of the code if the network recovers afterwards: the
connection stays in use, and the next message becomes the missing part of the one that was cut off.  True if nothing more gets through after a failure.
-/
import Verif.Proofs.Lossy
import Verif.Spec.Scripted
namespace Verif
open Spec

namespace Spec

/-- `got` is what has arrived at the server: of every message some first part, and all of it if there was no error. -/
def Passes {σ : Type} (W : World σ) (got : σ → Bytes) : Prop := ∀ w ws, ∃ k,
  got (W.onSend w ws).st = got w ++ ws.flatten.take k ∧ ((W.onSend w ws).ok = true → ws.flatten.length ≤ k)

/-- After a failure nothing arrives any more. -/
def Severs {σ : Type} (W : World σ) (got : σ → Bytes) : Prop := ∃ broken : σ → Prop,
  (∀ w ws, (W.onSend w ws).ok = false → broken (W.onSend w ws).st) ∧
  ∀ w ws, broken w → broken (W.onSend w ws).st ∧ got (W.onSend w ws).st = got w

/-- `s` consists of correctly framed messages with contents `ps`. -/
inductive Messages : List Bytes → Bytes → Prop where
  | nil : Messages [] []
  | cons {p s : Bytes} {ps : List Bytes} {t : Bytes} : Framed p s → Messages ps t → Messages (p :: ps) (s ++ t)

/-- The messages are correctly framed and have the contents `qs`. -/
inductive Contents : List Bytes → List (List Bytes) → Prop where
  | nil : Contents [] []
  | cons {q : Bytes} {ws : List Bytes} {qs : List Bytes} {wss : List (List Bytes)} : Framed q ws.flatten → Contents qs wss → Contents (q :: qs) (ws :: wss)

/-- The messages written between two moments in the life of a connection. -/
def Wrote {σ : Type} (c c' : Conn σ) (wss : List (List Bytes)) : Prop := ∃ evs, c'.trace = c.trace ++ evs ∧ wss = sents evs

end Spec

/-- C128: on a new connection, after any calls: if the calls have tried to write correctly framed messages with contents `qs`, then whatever messages the server has got since, they
are the first of these. -/
def C128_statement : Prop := ∀ (σ : Type) (env : Env) (W : World σ) (got : σ → Bytes), Passes W got →
  ∀ (fuel : Nat) (user password : Bytes) (w : σ) (c : Conn σ) (ops : List Op), createBoltConn env W fuel user password w = (.ok (), c) →
  ∀ (wss : List (List Bytes)) (qs : List Bytes), Wrote c (run env W fuel ops c) wss → Contents qs wss →
  ∀ (ps : List Bytes) (s rest : Bytes), Messages ps s → got (run env W fuel ops c).world = got c.world ++ (s ++ rest) → ps <+: qs

theorem framed_split {p q s t x y : Bytes} (h : Framed p s) (h' : Framed q t) (he : s ++ x = t ++ y) : p = q ∧ x = y := by
  obtain ⟨s1, h1, e1⟩ := readMsg_framed (rest := x) h .eof (segs := [s ++ x]) (by simp)
  obtain ⟨s2, h2, e2⟩ := readMsg_framed (rest := y) h' .eof (segs := [s ++ x]) (by simp [he])
  rw [h1] at h2
  cases h2
  exact ⟨rfl, e1.symm.trans e2⟩

/-- A message cannot end where another one has not ended yet. -/
theorem messages_prefix : {ps qs : List Bytes} → {s rest : Bytes} → {wss : List (List Bytes)} → Messages ps s → Contents qs wss →
    s ++ rest <+: wss.flatten.flatten → ps <+: qs
  | [], _, _, _, _, _, _, _ => List.nil_prefix
  | p :: ps, qs, _, rest, wss, .cons (s := s) (t := t) h hm, hf, hp => by
    cases hf with
    | nil =>
      have := framed_length h
      obtain ⟨e, he⟩ := hp
      have := congrArg List.length he
      simp only [List.length_append, List.flatten_nil, List.length_nil] at this
      omega
    | @cons q ws qs' wss' hq hf =>
      obtain ⟨e, he⟩ := hp
      rw [List.flatten_cons, List.flatten_append, List.append_assoc, List.append_assoc] at he
      obtain ⟨rfl, h2⟩ := framed_split h hq he
      exact List.cons_prefix_cons.2 ⟨rfl, messages_prefix hm hf ⟨e, by rw [← h2, List.append_assoc]⟩⟩

theorem feed_passes {σ : Type} {W : World σ} {got : σ → Bytes} (hW : Passes W got) {broken : σ → Prop}
    (h1 : ∀ w ws, (W.onSend w ws).ok = false → broken (W.onSend w ws).st) (h2 : ∀ w ws, broken w → broken (W.onSend w ws).st ∧ got (W.onSend w ws).st = got w) :
    (wss : List (List Bytes)) → (w : σ) → ∃ r, got (feed W w wss).1 = got w ++ r ∧ r <+: wss.flatten.flatten ∧ (broken w → r = [])
  | [], w => ⟨[], by simp [feed]⟩
  | ws :: wss, w => by
    obtain ⟨r, h3, h4, h5⟩ := feed_passes hW h1 h2 wss (W.onSend w ws).st
    have e : (feed W w (ws :: wss)).1 = (feed W (W.onSend w ws).st wss).1 := rfl
    obtain ⟨k, hk, ho⟩ := hW w ws
    rw [e, h3, hk]
    simp only [List.flatten_cons, List.flatten_append]
    refine ⟨ws.flatten.take k ++ r, by simp, ?_, fun hb => ?_⟩
    · cases hok : (W.onSend w ws).ok with
      | true =>
        rw [List.take_of_length_le (ho hok)]
        exact (List.prefix_append_right_inj _).2 h4
      | false =>
        rw [h5 (h1 w ws hok), List.append_nil]
        exact (List.take_prefix _ _).trans (List.prefix_append _ _)
    · obtain ⟨b1, b2⟩ := h2 w ws hb
      rw [b2] at hk
      have : ws.flatten.take k = [] := by
        have := congrArg List.length hk
        simp only [List.length_append] at this
        exact List.length_eq_zero_iff.1 (by omega)
      rw [this, h5 b1, List.append_nil]

/-- As far as C128 goes: if nothing arrives any more once writing has failed.  Missing are networks that recover. -/
theorem C128_partial {σ : Type} (env : Env) (W : World σ) (got : σ → Bytes) (hW : Passes W got) (hb : Severs W got) (fuel : Nat) (c : Conn σ) (ops : List Op) (wss : List (List Bytes))
    (qs : List Bytes) (hw : Wrote c (run env W fuel ops c) wss) (hq : Contents qs wss) (ps : List Bytes) (s rest : Bytes) (hm : Messages ps s)
    (hg : got (run env W fuel ops c).world = got c.world ++ (s ++ rest)) : ps <+: qs := by
  obtain ⟨broken, h1, h2⟩ := hb
  obtain ⟨evs, ht, hf⟩ := (fed env W).run env W fuel ops c
  obtain ⟨evs', ht', rfl⟩ := hw
  cases List.append_cancel_left (ht.symm.trans ht')
  obtain ⟨r, h3, h4, _⟩ := feed_passes hW h1 h2 (sents evs) c.world
  rw [← hf, hg] at h3
  cases List.append_cancel_left h3
  exact messages_prefix hm hq h4

namespace C128

/-- A server that reads messages from what has arrived: `left` says for each message still to come how much of it arrives; `pending` is the beginning of a message; `ran` are the messages
that were complete. -/
structure State where
  left : List Nat
  got : Bytes
  pending : Bytes
  ran : List Bytes

/-- The first message in a stream, and the rest. -/
def first : Nat → Bytes → Bytes → Option (Bytes × Bytes)
  | n + 1, out, a :: b :: r =>
    if a.toNat * 256 + b.toNat = 0 then some (out, r)
    else if r.length < a.toNat * 256 + b.toNat then none
    else first n (out ++ r.take (a.toNat * 256 + b.toNat)) (r.drop (a.toNat * 256 + b.toNat))
  | _, _, _ => none

/-- All messages in a stream, and the rest. -/
def all : Nat → Bytes → List Bytes × Bytes
  | 0, s => ([], s)
  | n + 1, s => match first (s.length + 1) [] s with
    | none => ([], s)
    | some (p, r) => let q := all n r; (p :: q.1, q.2)

/-- PULL_ALL gets a row, everything else SUCCESS. -/
def answer (p : Bytes) : List Bytes := if p = [0xB0, 0x3F] then sOneRow else sSuccess

def net : World State where
  dial s := (s, true)
  onSend s ws :=
    if ws = [handShake] then ⟨{ s with got := s.got ++ ws.flatten }, true, [[0x00, 0x00, 0x00, 0x01]], .broken⟩
    else
      let k := s.left.headD ws.flatten.length
      let m := all (s.pending.length + ws.flatten.length) (s.pending ++ ws.flatten.take k)
      ⟨⟨s.left.tail, s.got ++ ws.flatten.take k, m.2, s.ran ++ m.1⟩, decide (ws.flatten.length ≤ k), (m.1.map answer).flatten, .broken⟩
  onClose _ := true
  probe _ := .other

theorem conveys : Passes net State.got := by
  intro w ws
  unfold net
  dsimp only
  split
  · exact ⟨ws.flatten.length, by rw [List.take_length], fun _ => Nat.le_refl _⟩
  · exact ⟨_, rfl, of_decide_eq_true⟩

/-- INIT arrives; of the second message, 18 bytes arrive; then the network works. -/
def start : State := ⟨[1000, 18], [], [], []⟩

def opened : CRes Unit × Conn State := createBoltConn env0 net 3 [0x75] [0x70] start

theorem opened_ok : opened = (.ok (), opened.2) := CRes.kind_ok (by decide +kernel)

/-- The statement `C` with a string of 15 bytes, then the statement `B`. -/
def ops : List Op := [.exec [0x43] [([0x78], .str (List.replicate 15 0x61))] [], .query [0x42] [] []]

def after : Conn State := run env0 net 3 ops opened.2

/-- The contents of the messages that the calls have tried to send: RUN with `C` and its parameter, RUN with `B`, PULL_ALL. -/
def asked : List Bytes := [[0xB2, 0x10, 0x81, 0x43, 0xA1, 0x81, 0x78, 0x8F] ++ List.replicate 15 0x61, [0xB2, 0x10, 0x81, 0x42, 0xA0], [0xB0, 0x3F]]

/-- The contents of the messages that the server has got: RUN with `C` and a parameter of which the second half is the message with `B`, and PULL_ALL. -/
def mixed : List Bytes := [[0xB2, 0x10, 0x81, 0x43, 0xA1, 0x81, 0x78, 0x8F] ++ List.replicate 8 0x61 ++ [0x00, 0x05, 0xB2, 0x10, 0x81, 0x42, 0xA0], [0xB0, 0x3F]]

/-- A message of one chunk, as it is written. -/
def single (p : Bytes) : List Bytes := [[UInt8.ofNat (p.length / 256), UInt8.ofNat (p.length % 256)], p, [0x00, 0x00]]

theorem framed_single {p : Bytes} (h0 : p ≠ []) (hl : p.length ≤ 65535) : Framed p (single p).flatten := by
  refine ⟨[p], fun c hc => ?_, by simp, by simp [single, frame, chunk]⟩
  rw [List.mem_singleton.1 hc]
  exact ⟨h0, hl⟩

theorem contents_single : {qs : List Bytes} → (∀ q ∈ qs, q ≠ [] ∧ q.length ≤ 65535) → Contents qs (qs.map single)
  | [], _ => .nil
  | q :: qs, h => .cons (framed_single (h q (by simp)).1 (h q (by simp)).2) (contents_single fun q hq => h q (by simp [hq]))

theorem messages_single : {qs : List Bytes} → (∀ q ∈ qs, q ≠ [] ∧ q.length ≤ 65535) → Messages qs (qs.map single).flatten.flatten
  | [], _ => .nil
  | q :: qs, h => by
    rw [List.map_cons, List.flatten_cons, List.flatten_append]
    exact .cons (framed_single (h q (by simp)).1 (h q (by simp)).2) (messages_single fun q hq => h q (by simp [hq]))

/-- What the calls wrote, and what arrived. -/
theorem facts : sents (after.trace.drop opened.2.trace.length) = asked.map single ∧ after.world.got = opened.2.world.got ++ (mixed.map single).flatten.flatten := by decide +kernel

end C128

/-- A server and a network that recovers: the write of the statement `C` fails and the call returns an error.  Then the statement `B` is run: the call returns a row, without an error;
but the server has never got it.  It has run `C`, with a parameter in which the message with `B` has become part of the string, and the row belongs to that. -/
theorem C128_mixed : (step env0 C128.net 3 (.exec [0x43] [([0x78], .str (List.replicate 15 0x61))] []) C128.opened.2).1.kind = 1 ∧
    (step env0 C128.net 3 (.query [0x42] [] []) (run env0 C128.net 3 (C128.ops.take 1) C128.opened.2)).1.kind = 0 ∧
    C128.after.world.ran.drop 1 = C128.mixed ∧ [0xB2, 0x10, 0x81, 0x42, 0xA0] ∉ C128.after.world.ran := by decide +kernel

/-- C128 is false. -/
theorem C128_refuted : ¬ C128_statement := fun h => by
  have hw : Wrote C128.opened.2 C128.after (C128.asked.map C128.single) := by
    obtain ⟨evs, ht, _⟩ := (fed env0 C128.net).run env0 C128.net 3 C128.ops C128.opened.2
    have ht : C128.after.trace = C128.opened.2.trace ++ evs := ht
    refine ⟨evs, ht, ?_⟩
    have := C128.facts.1
    rw [ht, List.drop_left] at this
    exact this.symm
  have hg : (run env0 C128.net 3 C128.ops C128.opened.2).world.got = C128.opened.2.world.got ++ ((C128.mixed.map C128.single).flatten.flatten ++ []) := by
    have := C128.facts.2
    unfold C128.after at this
    rw [List.append_nil, this]
  have := h C128.State env0 C128.net C128.State.got C128.conveys 3 [0x75] [0x70] C128.start C128.opened.2 C128.ops C128.opened_ok _ _ hw (C128.contents_single (by decide)) C128.mixed _ []
    (C128.messages_single (by decide)) hg
  exact absurd this (by decide)

namespace C128

/-- The same network without recovery: once a write has failed, nothing arrives. -/
def broken : World (State × Bool) where
  dial s := (s, true)
  onSend s ws := if s.2 then ⟨s, false, [], .broken⟩ else let o := net.onSend s.1 ws; ⟨(o.st, !o.ok), o.ok, o.segs, o.fin⟩
  onClose _ := true
  probe _ := .other

/-- The hypotheses of `C128_partial` hold of it, -/
example : Passes broken (fun s => s.1.got) ∧ Severs broken (fun s => s.1.got) := by
  refine ⟨fun w ws => ?_, fun s => s.2 = true, fun w ws h => ?_, fun w ws h => ?_⟩
  · unfold broken
    dsimp only
    split
    · exact ⟨0, by simp, fun h => by cases h⟩
    · exact conveys w.1 ws
  · unfold broken at h ⊢
    dsimp only at h ⊢
    split
    · assumption
    · rename_i hs
      rw [if_neg hs] at h
      simp only at h
      simp [h]
  · unfold broken
    dsimp only
    rw [if_pos h]
    exact ⟨h, rfl⟩

/-- and there the second call fails, and the server has run neither statement. -/
example : let c := (createBoltConn env0 broken 3 [0x75] [0x70] (start, false)).2
    (createBoltConn env0 broken 3 [0x75] [0x70] (start, false)).1.kind = 0 ∧ (run env0 broken 3 ops c).world.1.ran.length = 1 ∧
    (step env0 broken 3 (.query [0x42] [] []) (run env0 broken 3 (ops.take 1) c)).1.kind = 1 := by decide +kernel

end C128

end Verif

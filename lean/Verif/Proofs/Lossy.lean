/-
Calls on a connection that is lost at some moment, compared with calls on one that is not.
-/
import Verif.Spec.Lossy
import Verif.Proofs.CM
import Verif.Proofs.ConnEv
import Verif.Proofs.Terminates
import Verif.Proofs.Aligned
namespace Verif
open Spec

variable {σ : Type}

/-- Between `c` and `c'` the server got what was written. -/
def Fed (W : World σ) (c c' : Conn σ) : Prop := ∃ evs, c'.trace = c.trace ++ evs ∧ c'.world = (feed W c.world (sents evs)).1

theorem Fed.refl (W : World σ) (c : Conn σ) : Fed W c c := ⟨[], by simp, rfl⟩

theorem Fed.trans {W : World σ} {a b c : Conn σ} (h1 : Fed W a b) (h2 : Fed W b c) : Fed W a c := by
  obtain ⟨e1, t1, w1⟩ := h1
  obtain ⟨e2, t2, w2⟩ := h2
  exact ⟨e1 ++ e2, by rw [t2, t1, List.append_assoc], by rw [sents_append, feed_append, w2, w1]⟩

theorem Fed.same {W : World σ} {c c' : Conn σ} (ht : c'.trace = c.trace) (hw : c'.world = c.world) : Fed W c c' := ⟨[], by simp [ht], hw⟩

theorem Fed.sent {W : World σ} {c c' : Conn σ} {ws : List Bytes} (ht : c'.trace = c.trace ++ [.sent ws]) (hw : c'.world = (W.onSend c.world ws).st) : Fed W c c' :=
  ⟨[.sent ws], ht, hw⟩

theorem Fed.other {W : World σ} {c c' : Conn σ} {e : Ev} (he : sents [e] = []) (ht : c'.trace = c.trace ++ [e]) (hw : c'.world = c.world) : Fed W c c' :=
  ⟨[e], ht, by rw [he]; exact hw⟩

theorem fed_stepRel (W : World σ) : StepRel (Fed W) := ⟨Fed.refl W, Fed.trans⟩

theorem fed (env : Env) (W : World σ) : Prim env W (Fed W) where
  refl := Fed.refl W
  trans := Fed.trans
  send v c := by
    unfold sendMessage writeAll
    dsimp only
    split
    · split <;> exact Fed.refl W c
    · split
      · exact Fed.refl W c
      · split
        · split <;> exact Fed.sent rfl rfl
        · exact Fed.sent rfl rfl
  recv c := by
    unfold receive
    split
    · exact Fed.refl W c
    · split
      · exact Fed.same rfl rfl
      · split
        · exact Fed.other (by rfl) rfl rfl
        · exact Fed.same rfl rfl
        · exact Fed.same rfl rfl
        · exact Fed.same rfl rfl
  endTx h c := Fed.same rfl rfl
  sock c := by
    unfold closeSock
    dsimp only
    split <;> exact Fed.other (e := .closed) (by rfl) rfl rfl
  addTx c := Fed.same rfl rfl
  probe c := by
    unfold validateOpen
    split
    · exact Fed.refl W c
    · split
      · exact Fed.refl W c
      · exact Fed.refl W c
      · split <;> exact Fed.same rfl rfl
  chunk n c := Fed.same rfl rfl

/-- `now` is the state that the server of `c` had at some moment since `c0`. -/
def Mid (W : World σ) (c0 : Conn σ) (now : σ) (c : Conn σ) : Prop :=
  ∃ evs a b, c.trace = c0.trace ++ evs ∧ sents evs = a ++ b ∧ now = (feed W c0.world a).1 ∧ c.world = (feed W c0.world (sents evs)).1

theorem Mid.of_fed {W : World σ} {c0 c : Conn σ} (h : Fed W c0 c) : Mid W c0 c.world c := by
  obtain ⟨evs, h1, h2⟩ := h
  exact ⟨evs, sents evs, [], h1, by simp, h2, h2⟩

theorem Mid.trans {W : World σ} {c0 c c' : Conn σ} {now : σ} (h : Mid W c0 now c) (h' : Fed W c c') : Mid W c0 now c' := by
  obtain ⟨evs, a, b, h1, h2, h3, h4⟩ := h
  obtain ⟨e2, t2, w2⟩ := h'
  exact ⟨evs ++ e2, a, b ++ sents e2, by rw [t2, h1, List.append_assoc], by rw [sents_append, h2, List.append_assoc], h3,
    by rw [w2, h4, sents_append, feed_append]⟩

theorem Mid.fed {W : World σ} {c0 c : Conn σ} {now : σ} (h : Mid W c0 now c) : Fed W c0 c := by
  obtain ⟨evs, a, b, h1, h2, h3, h4⟩ := h
  exact ⟨evs, h1, h4⟩

/-- The permanent statements of a server. -/
abbrev lastingOf (sess : σ → Session) (w : σ) : List Stmt := (sess w).ledger.lasting

/-- How the server behind the network and the undisturbed one differ: not at all, or the first got less, and `missing` did not reach the driver. -/
def Differ (sess : σ → Session) (d : Conn (Lossy σ)) (c : Conn σ) : Prop :=
  (d.world.line.isUp = true ∧ d.world.now = c.world ∧ d.segs = c.segs ∧ d.fin = c.fin) ∨
  (d.world.line.isUp = false ∧ ∃ missing, c.segs.flatten = d.segs.flatten ++ missing ∧ (missing = [] → lastingOf sess d.world.now = lastingOf sess c.world))

/-- The connections are in the same state, but for what the loss has kept from the server and the driver. -/
structure Both (W : World σ) (sess : σ → Session) (c0 : Conn σ) (d : Conn (Lossy σ)) (c : Conn σ) : Prop where
  proto : d.proto = c.proto
  version : d.version = c.version
  versionBytes : d.versionBytes = c.versionBytes
  mode : d.mode = c.mode
  chunkSize : d.chunkSize = c.chunkSize
  closed : d.closed = c.closed
  sock : d.sock = c.sock
  txs : d.txs = c.txs
  cur : d.cur = c.cur
  trace : d.trace = c.trace
  mid : Mid W c0 d.world.now c
  differ : Differ sess d c

/-- The connection is lost, and no call can get an answer any more: nothing can be written, or nothing is left to be read. -/
def Severed (d : Conn (Lossy σ)) : Prop := ∃ k, d.world.line = .down k ∧ (k = 0 ∨ d.segs.flatten = [])

/-- The call fails for the loss of the connection, or it does the same as the undisturbed one. -/
def LossAt {α : Type} (W : World σ) (sess : σ → Session) (c0 : Conn σ) (r : CRes α × Conn (Lossy σ)) (s : CRes α × Conn σ) : Prop :=
  ((∃ e, r.1 = .err e) ∧ Severed r.2 ∧ Mid W c0 r.2.world.now s.2) ∨ (r.1 = s.1 ∧ Both W sess c0 r.2 s.2)

/-- The same for all states. -/
structure Loses {α : Type} (W : World σ) (sess : σ → Session) (m : CM (Lossy σ) α) (n : CM σ α) : Prop where
  steps : Steps (Fed W) n
  at_ : ∀ c0 d c, Both W sess c0 d c → LossAt W sess c0 (m d) (n c)

namespace Loses
variable {W : World σ} {sess : σ → Session} {α β : Type}

theorem same {m : CM (Lossy σ) α} {n : CM σ α} (hs : Steps (Fed W) n) (h : ∀ c0 d c, Both W sess c0 d c → (m d).1 = (n c).1 ∧ Both W sess c0 (m d).2 (n c).2) : Loses W sess m n :=
  ⟨hs, fun c0 d c hb => .inr (h c0 d c hb)⟩

theorem pure (a : α) : Loses W sess (Pure.pure a : CM (Lossy σ) α) (Pure.pure a : CM σ α) := same (Steps.pure (fed_stepRel W) a) fun _ _ _ h => ⟨rfl, h⟩

theorem fail (e : Err) : Loses W sess (CM.fail e : CM (Lossy σ) α) (CM.fail e : CM σ α) := same (Steps.fail (fed_stepRel W) e) fun _ _ _ h => ⟨rfl, h⟩

theorem bindAt {m : CM (Lossy σ) α} {n : CM σ α} {f : α → CM (Lossy σ) β} {g : α → CM σ β} {c0 : Conn σ} {d : Conn (Lossy σ)} {c : Conn σ} (h : LossAt W sess c0 (m d) (n c))
    (hg : ∀ a, Steps (Fed W) (g a)) (hf : ∀ a d' c', m d = (.ok a, d') → Both W sess c0 d' c' → LossAt W sess c0 (f a d') (g a c')) :
    LossAt W sess c0 ((m >>= f) d) ((n >>= g) c) := by
  rw [CM.bind_apply, CM.bind_apply]
  rcases h with ⟨⟨e, h1⟩, h2, h3⟩ | ⟨h1, h2⟩
  · have hx : Mid W c0 (m d).2.world.now (match n c with
      | (.ok a, c') => g a c'
      | (.err e, c') => (.err e, c')
      | (.panic, c') => (.panic, c')
      | (.fuel, c') => (.fuel, c')).2 := by
      match hn : n c with
      | (.ok a, c') => rw [hn] at h3; exact h3.trans (hg a c')
      | (.err e, c') => rw [hn] at h3; exact h3
      | (.panic, c') => rw [hn] at h3; exact h3
      | (.fuel, c') => rw [hn] at h3; exact h3
    match hm : m d with
    | (.err _, d') => rw [hm] at h2 hx; exact .inl ⟨⟨_, rfl⟩, h2, hx⟩
    | (.ok _, d') => rw [hm] at h1; cases h1
    | (.panic, d') => rw [hm] at h1; cases h1
    | (.fuel, d') => rw [hm] at h1; cases h1
  · match hm : m d, hn : n c with
    | (.ok a, d'), (r, c') =>
      rw [hm, hn] at h1 h2
      cases h1
      exact hf a d' c' hm h2
    | (.err e, d'), (r, c') =>
      rw [hm, hn] at h1 h2
      cases h1
      exact .inr ⟨rfl, h2⟩
    | (.panic, d'), (r, c') =>
      rw [hm, hn] at h1 h2
      cases h1
      exact .inr ⟨rfl, h2⟩
    | (.fuel, d'), (r, c') =>
      rw [hm, hn] at h1 h2
      cases h1
      exact .inr ⟨rfl, h2⟩

theorem bind {m : CM (Lossy σ) α} {n : CM σ α} {f : α → CM (Lossy σ) β} {g : α → CM σ β} (h : Loses W sess m n) (hf : ∀ a, Loses W sess (f a) (g a)) :
    Loses W sess (m >>= f) (n >>= g) :=
  ⟨Steps.bind (fed_stepRel W) h.steps fun a => (hf a).steps, fun c0 d c hb => bindAt (h.at_ c0 d c hb) (fun a => (hf a).steps) fun a d' c' _ hb' => (hf a).at_ c0 d' c' hb'⟩

/-- A call that begins by looking at the connection. -/
theorem get {f : Conn (Lossy σ) → CM (Lossy σ) β} {g : Conn σ → CM σ β} (hs : ∀ c, Steps (Fed W) (g c)) (h : ∀ c0 d c, Both W sess c0 d c → LossAt W sess c0 (f d d) (g c c)) :
    Loses W sess (CM.get >>= f) (CM.get >>= g) :=
  ⟨Steps.bind (fed_stepRel W) (Steps.get (fed_stepRel W)) hs, h⟩

theorem mapErrAt {f : Err → Err} {m : CM (Lossy σ) α} {n : CM σ α} {c0 : Conn σ} {d : Conn (Lossy σ)} {c : Conn σ} (h : LossAt W sess c0 (m d) (n c)) :
    LossAt W sess c0 (CM.mapErr f m d) (CM.mapErr f n c) := by
  unfold LossAt
  rw [CM.mapErr_snd, CM.mapErr_snd]
  unfold CM.mapErr
  rcases h with ⟨⟨e, h1⟩, h2, h3⟩ | ⟨h1, h2⟩
  · match hm : m d with
    | (.err _, d') => rw [hm] at h2 h3; exact .inl ⟨⟨_, rfl⟩, h2, h3⟩
    | (.ok _, d') => rw [hm] at h1; cases h1
    | (.panic, d') => rw [hm] at h1; cases h1
    | (.fuel, d') => rw [hm] at h1; cases h1
  · refine .inr ⟨?_, h2⟩
    match hm : m d, hn : n c with
    | (.ok a, d'), (r, c') => rw [hm, hn] at h1; cases h1; rfl
    | (.err e, d'), (r, c') => rw [hm, hn] at h1; cases h1; rfl
    | (.panic, d'), (r, c') => rw [hm, hn] at h1; cases h1; rfl
    | (.fuel, d'), (r, c') => rw [hm, hn] at h1; cases h1; rfl

theorem mapErr {f : Err → Err} {m : CM (Lossy σ) α} {n : CM σ α} (h : Loses W sess m n) : Loses W sess (CM.mapErr f m) (CM.mapErr f n) :=
  ⟨h.steps.mapErr, fun c0 d c hb => mapErrAt (h.at_ c0 d c hb)⟩

theorem thenFail {m : CM (Lossy σ) α} {n : CM σ α} (h : Loses W sess m n) (e : Err) : Loses W sess (CM.thenFail m e : CM (Lossy σ) β) (CM.thenFail n e : CM σ β) := by
  refine ⟨Steps.thenFail h.steps _, fun c0 d c hb => ?_⟩
  unfold LossAt
  rw [CM.thenFail_snd, CM.thenFail_snd]
  unfold CM.thenFail
  rcases h.at_ c0 d c hb with ⟨⟨e, h1⟩, h2, h3⟩ | ⟨h1, h2⟩
  · match hm : m d with
    | (.err _, d') => rw [hm] at h2 h3; exact .inl ⟨⟨_, rfl⟩, h2, h3⟩
    | (.ok _, d') => rw [hm] at h1; cases h1
    | (.panic, d') => rw [hm] at h1; cases h1
    | (.fuel, d') => rw [hm] at h1; cases h1
  · refine .inr ⟨?_, h2⟩
    match hm : m d, hn : n c with
    | (.ok a, d'), (r, c') => rw [hm, hn] at h1; cases h1; rfl
    | (.err e, d'), (r, c') => rw [hm, hn] at h1; cases h1; rfl
    | (.panic, d'), (r, c') => rw [hm, hn] at h1; cases h1; rfl
    | (.fuel, d'), (r, c') => rw [hm, hn] at h1; cases h1; rfl

theorem void {m : CM (Lossy σ) α} {n : CM σ α} (h : Loses W sess m n) : Loses W sess m.void n.void := bind h fun _ => pure _

end Loses

/-- Only fields of the connection itself changed, in both. -/
theorem Both.upd {W : World σ} {sess : σ → Session} {c0 c c' : Conn σ} {d d' : Conn (Lossy σ)} (hb : Both W sess c0 d c) (h1 : d'.proto = c'.proto) (h2 : d'.version = c'.version)
    (h3 : d'.versionBytes = c'.versionBytes) (h4 : d'.mode = c'.mode) (h5 : d'.chunkSize = c'.chunkSize) (h6 : d'.closed = c'.closed) (h7 : d'.sock = c'.sock) (h8 : d'.txs = c'.txs)
    (h9 : d'.cur = c'.cur) (h10 : d'.trace = c'.trace) (hw : d'.world = d.world) (hw' : c'.world = c.world) (hs : d'.segs = d.segs) (hs' : c'.segs = c.segs)
    (hf : d'.fin = d.fin) (hf' : c'.fin = c.fin) (hfed : Fed W c c') : Both W sess c0 d' c' := by
  refine ⟨h1, h2, h3, h4, h5, h6, h7, h8, h9, h10, ?_, ?_⟩
  · rw [hw]; exact hb.mid.trans hfed
  · unfold Differ
    rw [hw, hw', hs, hs', hf, hf']
    exact hb.differ

/-! ### The primitives -/

theorem firstBytes_flatten : (n : Nat) → (ss : List Bytes) → (firstBytes n ss).flatten = ss.flatten.take n
  | _, [] => by simp [firstBytes]
  | n, s :: ss => by
    rw [firstBytes, List.flatten_cons, firstBytes_flatten, List.flatten_cons, List.take_append]

section
variable (env : Env) {W : World σ} {sess : σ → Session} (hD : Durable W sess)
include hD

/-- One message. -/
theorem onSend_both {c0 c : Conn σ} {d : Conn (Lossy σ)} (hb : Both W sess c0 d c) (ws : List Bytes) :
    let o := (lossy W).onSend d.world ws
    let d' : Conn (Lossy σ) := { d with world := o.st, segs := d.segs ++ o.segs, fin := o.fin, trace := d.trace ++ [.sent ws] }
    let c' : Conn σ := { c with world := (W.onSend c.world ws).st, segs := c.segs ++ (W.onSend c.world ws).segs, fin := (W.onSend c.world ws).fin, trace := c.trace ++ [.sent ws] }
    (o.ok = true ∧ Both W sess c0 d' c') ∨ (o.ok = false ∧ Severed d' ∧ Mid W c0 d'.world.now c') := by
  dsimp only
  have hfed : Fed W c { c with world := (W.onSend c.world ws).st, segs := c.segs ++ (W.onSend c.world ws).segs, fin := (W.onSend c.world ws).fin, trace := c.trace ++ [.sent ws] } := Fed.sent rfl rfl
  have ht : d.trace ++ [Ev.sent ws] = c.trace ++ [Ev.sent ws] := by rw [hb.trace]
  have mk : ∀ d' : Conn (Lossy σ), d' = { d with world := d'.world, segs := d'.segs, fin := d'.fin, trace := d.trace ++ [.sent ws] } →
      Mid W c0 d'.world.now { c with world := (W.onSend c.world ws).st, segs := c.segs ++ (W.onSend c.world ws).segs, fin := (W.onSend c.world ws).fin, trace := c.trace ++ [.sent ws] } →
      Differ sess d' { c with world := (W.onSend c.world ws).st, segs := c.segs ++ (W.onSend c.world ws).segs, fin := (W.onSend c.world ws).fin, trace := c.trace ++ [.sent ws] } →
      Both W sess c0 d' { c with world := (W.onSend c.world ws).st, segs := c.segs ++ (W.onSend c.world ws).segs, fin := (W.onSend c.world ws).fin, trace := c.trace ++ [.sent ws] } := by
    intro d' he h1 h2
    rw [he] at h1 h2 ⊢
    exact ⟨hb.proto, hb.version, hb.versionBytes, hb.mode, hb.chunkSize, hb.closed, hb.sock, hb.txs, hb.cur, ht, h1, h2⟩
  match hl : d.world.line with
  | .up (n + 1) =>
    rcases hb.differ with ⟨_, h2, h3, h4⟩ | ⟨h1, _⟩
    · have e : (lossy W).onSend d.world ws = ⟨⟨(W.onSend c.world ws).st, .up n, d.world.how⟩, (W.onSend c.world ws).ok, (W.onSend c.world ws).segs, (W.onSend c.world ws).fin⟩ := by
        unfold lossy; dsimp only; rw [hl, h2]
      rw [e]
      refine .inl ⟨hD.takes _ _, mk _ rfl ?_ (.inl ⟨rfl, rfl, by show d.segs ++ _ = c.segs ++ _; rw [h3], rfl⟩)⟩
      exact Mid.of_fed (hb.mid.fed.trans hfed)
    · rw [hl] at h1; cases h1
  | .up 0 =>
    rcases hb.differ with ⟨_, h2, h3, h4⟩ | ⟨h1, _⟩
    · have e : (lossy W).onSend d.world ws = ⟨⟨if d.world.how.arrives then (W.onSend c.world ws).st else c.world, .down (d.world.how.accepts - 1), d.world.how⟩, decide (0 < d.world.how.accepts),
          if d.world.how.arrives then firstBytes d.world.how.heard (W.onSend c.world ws).segs else [], d.world.how.fin⟩ := by
        unfold lossy; dsimp only; rw [hl, h2]
      rw [e]
      have hm : Mid W c0 (if d.world.how.arrives then (W.onSend c.world ws).st else c.world)
          { c with world := (W.onSend c.world ws).st, segs := c.segs ++ (W.onSend c.world ws).segs, fin := (W.onSend c.world ws).fin, trace := c.trace ++ [.sent ws] } := by
        cases d.world.how.arrives with
        | true => exact Mid.of_fed (hb.mid.fed.trans hfed)
        | false => have := hb.mid.trans hfed; rw [h2] at this; exact this
      by_cases ha : 0 < d.world.how.accepts
      · refine .inl ⟨by simpa using ha, mk _ rfl hm (.inr ⟨rfl, ?_⟩)⟩
        dsimp only
        cases d.world.how.arrives with
        | true =>
          refine ⟨(W.onSend c.world ws).segs.flatten.drop d.world.how.heard, ?_, fun _ => rfl⟩
          simp only [if_true, List.flatten_append, firstBytes_flatten, h3, List.append_assoc, List.take_append_drop]
        | false =>
          refine ⟨(W.onSend c.world ws).segs.flatten, ?_, fun hn => (hD.answered _ _ hn).symm⟩
          simp [h3]
      · refine .inr ⟨by simpa using ha, ⟨d.world.how.accepts - 1, rfl, .inl (by omega)⟩, hm⟩
    · rw [hl] at h1; cases h1
  | .down k =>
    rcases hb.differ with ⟨h1, _⟩ | ⟨_, missing, h2, h3⟩
    · rw [hl] at h1; cases h1
    · have e : (lossy W).onSend d.world ws = ⟨⟨d.world.now, .down (k - 1), d.world.how⟩, decide (0 < k), [], d.world.how.fin⟩ := by
        unfold lossy; dsimp only; rw [hl]
      rw [e]
      by_cases ha : 0 < k
      · refine .inl ⟨by simpa using ha, mk _ rfl (hb.mid.trans hfed) (.inr ⟨rfl, missing ++ (W.onSend c.world ws).segs.flatten, ?_, fun hn => ?_⟩)⟩
        · simp [h2]
        · obtain ⟨n1, n2⟩ := List.append_eq_nil_iff.mp hn
          show lastingOf sess d.world.now = lastingOf sess (W.onSend c.world ws).st
          rw [h3 n1]
          exact (hD.answered _ _ n2).symm
      · exact .inr ⟨by simpa using ha, ⟨k - 1, rfl, .inl (by omega)⟩, hb.mid.trans hfed⟩

theorem loses_writeAll {c0 c : Conn σ} {d : Conn (Lossy σ)} (hb : Both W sess c0 d c) (ws : List Bytes) (e : Option Err) :
    LossAt W sess c0 (writeAll (lossy W) ws e d) (writeAll W ws e c) := by
  unfold writeAll
  by_cases hws : ws = []
  · rw [if_pos hws, if_pos hws]
    cases e <;> exact .inr ⟨rfl, hb⟩
  rw [if_neg hws, if_neg hws]
  by_cases hs : c.sock = false
  · rw [if_pos hs, if_pos (hb.sock.trans hs)]
    exact .inr ⟨rfl, hb⟩
  rw [if_neg hs, if_neg (by rw [hb.sock]; exact hs)]
  have hk := onSend_both hD hb ws
  dsimp only at hk ⊢
  rw [hD.takes]
  rcases hk with ⟨h1, h2⟩ | ⟨h1, h2, h3⟩
  · rw [h1]
    cases e <;> exact .inr ⟨rfl, h2⟩
  · rw [h1]
    refine .inl ⟨⟨_, rfl⟩, h2, ?_⟩
    cases e <;> exact h3

theorem loses_send (v : Val) : Loses W sess (sendMessage env (lossy W) v) (sendMessage env W v) := by
  refine ⟨(fed env W).send v, fun c0 d c hb => ?_⟩
  unfold sendMessage
  rw [hb.proto, hb.chunkSize]
  exact loses_writeAll hD hb _ _

omit hD in
theorem loses_receive : Loses W sess (receive env (σ := Lossy σ)) (receive env (σ := σ)) := by
  refine ⟨(fed env W).recv, fun c0 d c hb => ?_⟩
  have hfed := (fed env W).recv c
  unfold receive at hfed ⊢
  by_cases hs : c.sock = false
  · rw [if_pos hs, if_pos (hb.sock.trans hs)]
    exact .inr ⟨rfl, hb⟩
  rw [if_neg hs, if_neg (by rw [hb.sock]; exact hs)]
  rw [if_neg hs] at hfed
  rcases hb.differ with ⟨h1, h2, h3, h4⟩ | ⟨h1, missing, h2, h3⟩
  · rw [show readMsg d.fin d.segs = readMsg c.fin c.segs by rw [h3, h4]]
    match hm : readMsg c.fin c.segs with
    | .err e s =>
      rw [hm] at hfed
      exact .inr ⟨rfl, hb.proto, hb.version, hb.versionBytes, hb.mode, hb.chunkSize, hb.closed, hb.sock, hb.txs, hb.cur, hb.trace, hb.mid.trans hfed, (.inl ⟨h1, h2, rfl, h4⟩)⟩
    | .ok p s =>
      rw [hm] at hfed
      dsimp only at hfed ⊢
      rw [show decode env d.proto.codec p = decode env c.proto.codec p by rw [hb.proto]]
      match hdc : decode env c.proto.codec p with
      | .ok (v, _) =>
        rw [hdc] at hfed
        refine .inr ⟨rfl, hb.proto, hb.version, hb.versionBytes, hb.mode, hb.chunkSize, hb.closed, hb.sock, hb.txs, hb.cur, ?_, hb.mid.trans hfed, (.inl ⟨h1, h2, rfl, h4⟩)⟩
        show d.trace ++ _ = c.trace ++ _
        rw [hb.trace]
      | .err e =>
        rw [hdc] at hfed
        exact .inr ⟨rfl, hb.proto, hb.version, hb.versionBytes, hb.mode, hb.chunkSize, hb.closed, hb.sock, hb.txs, hb.cur, hb.trace, hb.mid.trans hfed, (.inl ⟨h1, h2, rfl, h4⟩)⟩
      | .panic =>
        rw [hdc] at hfed
        exact .inr ⟨rfl, hb.proto, hb.version, hb.versionBytes, hb.mode, hb.chunkSize, hb.closed, hb.sock, hb.txs, hb.cur, hb.trace, hb.mid.trans hfed, (.inl ⟨h1, h2, rfl, h4⟩)⟩
      | .fuel =>
        rw [hdc] at hfed
        exact .inr ⟨rfl, hb.proto, hb.version, hb.versionBytes, hb.mode, hb.chunkSize, hb.closed, hb.sock, hb.txs, hb.cur, hb.trace, hb.mid.trans hfed, (.inl ⟨h1, h2, rfl, h4⟩)⟩
  · match hm : readMsg d.fin d.segs with
    | .err e s =>
      refine .inl ⟨⟨_, rfl⟩, ?_, hb.mid.trans hfed⟩
      match hl : d.world.line with
      | .up n => rw [hl] at h1; cases h1
      | .down k => exact ⟨k, hl, .inr (readMsg_err hm)⟩
    | .ok p s =>
      obtain ⟨f, hf, he⟩ := readMsg_ok hm
      obtain ⟨t, k1, k2⟩ := readMsg_framed hf c.fin (segs := c.segs) (rest := s.flatten ++ missing) (by rw [h2, he, List.append_assoc])
      rw [k1] at hfed ⊢
      dsimp only at hfed ⊢
      rw [show decode env d.proto.codec p = decode env c.proto.codec p by rw [hb.proto]]
      match hdc : decode env c.proto.codec p with
      | .ok (v, _) =>
        rw [hdc] at hfed
        refine .inr ⟨rfl, hb.proto, hb.version, hb.versionBytes, hb.mode, hb.chunkSize, hb.closed, hb.sock, hb.txs, hb.cur, ?_, hb.mid.trans hfed, (.inr ⟨h1, missing, k2, h3⟩)⟩
        show d.trace ++ _ = c.trace ++ _
        rw [hb.trace]
      | .err e =>
        rw [hdc] at hfed
        exact .inr ⟨rfl, hb.proto, hb.version, hb.versionBytes, hb.mode, hb.chunkSize, hb.closed, hb.sock, hb.txs, hb.cur, hb.trace, hb.mid.trans hfed, (.inr ⟨h1, missing, k2, h3⟩)⟩
      | .panic =>
        rw [hdc] at hfed
        exact .inr ⟨rfl, hb.proto, hb.version, hb.versionBytes, hb.mode, hb.chunkSize, hb.closed, hb.sock, hb.txs, hb.cur, hb.trace, hb.mid.trans hfed, (.inr ⟨h1, missing, k2, h3⟩)⟩
      | .fuel =>
        rw [hdc] at hfed
        exact .inr ⟨rfl, hb.proto, hb.version, hb.versionBytes, hb.mode, hb.chunkSize, hb.closed, hb.sock, hb.txs, hb.cur, hb.trace, hb.mid.trans hfed, (.inr ⟨h1, missing, k2, h3⟩)⟩

include env in
theorem loses_closeSock : Loses W sess (closeSock (lossy W)) (closeSock W) := by
  refine ⟨(fed env W).sock, fun c0 d c hb => .inr ?_⟩
  have hfed := (fed env W).sock c
  unfold closeSock at hfed ⊢
  dsimp only at hfed ⊢
  rw [hD.closes] at hfed ⊢
  rw [show (lossy W).onClose d.world = true from hD.closes _]
  refine ⟨rfl, hb.upd hb.proto hb.version hb.versionBytes hb.mode hb.chunkSize rfl rfl hb.txs hb.cur ?_ rfl rfl rfl rfl rfl rfl hfed⟩
  show d.trace ++ _ = c.trace ++ _
  rw [hb.trace]

/-! ### The calls -/

omit hD in
theorem loses_consumeWith {r : CM (Lossy σ) Unit} {r' : CM σ Unit} (hr : Loses W sess r r') : Loses W sess (consumeWith env r) (consumeWith env r') := by
  unfold consumeWith
  refine (loses_receive env).bind fun v => ?_
  split
  · exact Loses.bind (Loses.mapErr hr) fun _ => Loses.fail _
  · exact Loses.pure _

omit hD in
/-- The loop of `reset` ends before its bound is reached. -/
theorem loses_resetLoop {cl : CM (Lossy σ) Unit} {cl' : CM σ Unit} (hc : Loses W sess cl cl') : (n m : Nat) → n ≤ m → (c0 : Conn σ) → (d : Conn (Lossy σ)) → (c : Conn σ) →
    streamLen d.segs < n → Both W sess c0 d c → LossAt W sess c0 (resetLoop env cl n d) (resetLoop env cl' m c)
  | 0, _, _, _, _, _, h, _ => absurd h (by omega)
  | n + 1, 0, h, _, _, _, _, _ => absurd h (by omega)
  | n + 1, m + 1, h, c0, d, c, hl, hb => by
    unfold resetLoop
    have hg : ∀ v : Val, Steps (Fed W) (if isIgnored v then resetLoop env cl' m
        else match asSuccess v with
          | some _ => Pure.pure ()
          | none =>
            match asFailure v with
            | some md => CM.thenFail cl' ((GoErr.failure md).wrap "Error resetting session. CLOSING SESSION!")
            | none => CM.thenFail cl' GoErr.badConn) := by
      intro v
      split
      · exact (fed env W).resetLoop env W hc.steps m
      · split
        · exact Steps.pure (fed_stepRel W) _
        · split
          · exact Steps.thenFail hc.steps _
          · exact Steps.thenFail hc.steps _
    refine Loses.bindAt (Loses.mapErrAt ((loses_receive env).at_ c0 d c hb)) hg fun v d' c' hr hb' => ?_
    have hs : streamLen d'.segs < n := by
      have := (receive_ok_shrinks env (CM.mapErr_eq_ok.mp hr)).2
      rw [streamLen_eq] at hl ⊢
      omega
    split
    · exact loses_resetLoop hc n m (by omega) c0 d' c' hs hb'
    · cases asSuccess v with
      | some _ => exact (Loses.pure _).at_ c0 d' c' hb'
      | none =>
        cases asFailure v with
        | some md => exact (Loses.thenFail hc _).at_ c0 d' c' hb'
        | none => exact (Loses.thenFail hc _).at_ c0 d' c' hb'

omit hD in
theorem Both.streamLen {c0 c : Conn σ} {d : Conn (Lossy σ)} (h : Both W sess c0 d c) : streamLen d.segs ≤ streamLen c.segs := by
  rw [streamLen_eq, streamLen_eq]
  rcases h.differ with ⟨_, _, h3, _⟩ | ⟨_, missing, h2, _⟩
  · rw [h3]; exact Nat.le_refl _
  · rw [h2, List.length_append]; omega

theorem loses_resetWith {cl : CM (Lossy σ) Unit} {cl' : CM σ Unit} (hc : Loses W sess cl cl') : Loses W sess (resetWith env (lossy W) cl) (resetWith env W cl') := by
  unfold resetWith
  refine Loses.bind (Loses.mapErr (loses_send env hD _)) fun _ => ⟨fun c => (fed env W).resetLoop env W hc.steps _ c, fun c0 d c hb => ?_⟩
  exact loses_resetLoop env hc _ _ (by have := hb.streamLen; omega) c0 d c (by omega) hb

theorem loses_txExchange {m : CM (Lossy σ) Val} {m' : CM σ Val} (hc : Loses W sess m m') (msg : Val) (what : String) :
    Loses W sess (txExchange env (lossy W) m msg what) (txExchange env W m' msg what) := by
  unfold txExchange
  refine Loses.bind (loses_send env hD _) fun _ => ?_
  split
  · refine Loses.bind hc fun run => ?_
    split
    · exact Loses.fail _
    · exact Loses.pure _
  · have key : ∀ p : Proto, Loses W sess (do
        sendMessage env (lossy W) p.pullAllMessage
        let run ← m
        let pull ← m
        match asSuccess run with
        | none => CM.fail (.new what)
        | some _ =>
          match asSuccess pull with
          | none => CM.fail (.new what)
          | some _ => Pure.pure ()) (do
        sendMessage env W p.pullAllMessage
        let run ← m'
        let pull ← m'
        match asSuccess run with
        | none => CM.fail (.new what)
        | some _ =>
          match asSuccess pull with
          | none => CM.fail (.new what)
          | some _ => Pure.pure ()) := by
      intro p
      refine Loses.bind (loses_send env hD _) fun _ => Loses.bind hc fun run => Loses.bind hc fun pull => ?_
      split
      · exact Loses.fail _
      · split
        · exact Loses.fail _
        · exact Loses.pure _
    refine Loses.get (fun c => (key c.proto).steps) fun c0 d c hb => ?_
    rw [hb.proto]
    exact (key c.proto).at_ c0 d c hb

omit hD in
theorem Both.endTx {c0 c : Conn σ} {d : Conn (Lossy σ)} (hb : Both W sess c0 d c) (h : Nat) : Both W sess c0 (d.endTx h) (c.endTx h) :=
  hb.upd hb.proto hb.version hb.versionBytes hb.mode hb.chunkSize hb.closed hb.sock (by show d.txs.set h true = c.txs.set h true; rw [hb.txs]) rfl hb.trace rfl rfl rfl rfl rfl rfl (Fed.same rfl rfl)

omit hD in
theorem Both.txClosed {c0 c : Conn σ} {d : Conn (Lossy σ)} (hb : Both W sess c0 d c) (h : Nat) : d.txClosed h = c.txClosed h := by
  unfold Conn.txClosed; rw [hb.txs]

theorem loses_endWith {m : CM (Lossy σ) Val} {m' : CM σ Val} (hc : Loses W sess m m') (msg : Proto → Val) (what : String) (h : Nat) :
    Loses W sess (endWith env (lossy W) m msg what h) (endWith env W m' msg what h) := by
  refine ⟨(fed env W).endWith env W hc.steps msg what h, fun c0 d c hb => ?_⟩
  unfold endWith
  show LossAt W sess c0 ((if d.txClosed h then CM.fail _ else _ : CM (Lossy σ) Unit) d) ((if c.txClosed h then CM.fail _ else _ : CM σ Unit) c)
  rw [hb.txClosed]
  split
  · exact (Loses.fail _).at_ c0 d c hb
  · show LossAt W sess c0 ((txExchange env (lossy W) m (msg d.proto) what >>= fun _ => CM.modify (·.endTx h)) d) ((txExchange env W m' (msg c.proto) what >>= fun _ => CM.modify (·.endTx h)) c)
    rw [hb.proto]
    exact Loses.bindAt ((loses_txExchange env hD hc _ _).at_ c0 d c hb) (fun _ c => (fed env W).endTx h c) fun _ d' c' _ hb' => .inr ⟨rfl, hb'.endTx h⟩

theorem loses_closeWith {r : Nat → CM (Lossy σ) Unit} {r' : Nat → CM σ Unit} (hr : ∀ h, Loses W sess (r h) (r' h)) :
    Loses W sess (closeWith env (lossy W) r) (closeWith env W r') := by
  refine ⟨(fed env W).closeWith env W fun h => (hr h).steps, fun c0 d c hb => ?_⟩
  have rest : Loses W sess (do
      match (← CM.get).proto.closeMessage with
      | some m => sendMessage env (lossy W) m
      | none => Pure.pure ()
      closeSock (lossy W)) (do
      match (← CM.get).proto.closeMessage with
      | some m => sendMessage env W m
      | none => Pure.pure ()
      closeSock W) := by
    have hgo : ∀ c : Conn σ, Steps (Fed W) (match c.proto.closeMessage with
        | some m => do
          sendMessage env W m
          closeSock W
        | none => closeSock W) := by
      intro c
      split
      · exact Steps.bind (fed_stepRel W) ((fed env W).send _) fun _ => (fed env W).sock
      · exact (fed env W).sock
    refine Loses.get hgo fun c0 d c hb => ?_
    rw [hb.proto]
    cases c.proto.closeMessage with
    | some m => exact (Loses.bind (loses_send env hD _) fun _ => loses_closeSock env hD).at_ c0 d c hb
    | none => exact (Loses.bind (Loses.pure ()) fun _ => loses_closeSock env hD).at_ c0 d c hb
  unfold closeWith
  show LossAt W sess c0 ((if d.closed then CM.fail _ else _ : CM (Lossy σ) Unit) d) ((if c.closed then CM.fail _ else _ : CM σ Unit) c)
  rw [hb.closed]
  split
  · exact (Loses.fail _).at_ c0 d c hb
  · rw [CM.bind_ok (show CM.get d = (.ok d, d) from rfl), CM.bind_ok (show CM.get c = (.ok c, c) from rfl), hb.cur]
    cases c.cur with
    | some h => exact (Loses.bind (hr _) fun _ => rest).at_ c0 d c hb
    | none => exact (Loses.bind (Loses.pure ()) fun _ => rest).at_ c0 d c hb

theorem loses_reset : (fuel : Nat) → Loses W sess (reset env (lossy W) fuel) (reset env W fuel)
  | 0 => Loses.same (fun c => Fed.refl W c) fun _ _ _ hb => ⟨rfl, hb⟩
  | fuel + 1 => loses_resetWith env hD (loses_closeWith env hD fun h => loses_endWith env hD (loses_consumeWith env (loses_reset fuel)) _ _ h)

theorem loses_consume (fuel : Nat) : Loses W sess (consume env (lossy W) fuel) (consume env W fuel) := loses_consumeWith env (loses_reset env hD fuel)

theorem loses_rollback (fuel h : Nat) : Loses W sess (rollback env (lossy W) fuel h) (rollback env W fuel h) := loses_endWith env hD (loses_consume env hD fuel) _ _ h

theorem loses_commit (fuel h : Nat) : Loses W sess (commit env (lossy W) fuel h) (commit env W fuel h) := loses_endWith env hD (loses_consume env hD fuel) _ _ h

theorem loses_close (fuel : Nat) : Loses W sess (close env (lossy W) fuel) (close env W fuel) := loses_closeWith env hD (loses_rollback env hD fuel)

theorem loses_makeIdle (fuel : Nat) : Loses W sess (makeIdle env (lossy W) fuel) (makeIdle env W fuel) := by
  refine ⟨(fed env W).makeIdle env W fuel, fun c0 d c hb => ?_⟩
  unfold makeIdle
  rw [CM.bind_ok (show CM.get d = (.ok d, d) from rfl), CM.bind_ok (show CM.get c = (.ok c, c) from rfl), hb.cur]
  cases c.cur with
  | some h => exact (loses_rollback env hD fuel _).at_ c0 d c hb
  | none => exact (Loses.pure _).at_ c0 d c hb

theorem loses_begin (fuel : Nat) (db : Bytes) : Loses W sess (beginWithDatabase env (lossy W) fuel db) (beginWithDatabase env W fuel db) := by
  refine ⟨(fed env W).begin env W fuel db, fun c0 d c hb => ?_⟩
  unfold beginWithDatabase
  rw [CM.bind_ok (show CM.get d = (.ok d, d) from rfl), CM.bind_ok (show CM.get c = (.ok c, c) from rfl), hb.cur]
  split
  · exact (Loses.fail _).at_ c0 d c hb
  · rw [CM.bind_ok (show CM.get d = (.ok d, d) from rfl), CM.bind_ok (show CM.get c = (.ok c, c) from rfl), hb.closed]
    split
    · exact (Loses.fail _).at_ c0 d c hb
    · rw [CM.bind_ok (show CM.get d = (.ok d, d) from rfl), CM.bind_ok (show CM.get c = (.ok c, c) from rfl), hb.proto, hb.mode]
      refine Loses.bindAt ((loses_txExchange env hD (loses_consume env hD fuel) _ _).at_ c0 d c hb) (fun _ c => Fed.same rfl rfl) fun _ d' c' _ hb' => .inr ?_
      refine ⟨?_, hb'.upd hb'.proto hb'.version hb'.versionBytes hb'.mode hb'.chunkSize hb'.closed hb'.sock ?_ ?_ hb'.trace rfl rfl rfl rfl rfl rfl (Fed.same rfl rfl)⟩
      · show CRes.ok d'.txs.length = CRes.ok c'.txs.length; rw [hb'.txs]
      · show d'.txs ++ _ = c'.txs ++ _; rw [hb'.txs]
      · show some d'.txs.length = some c'.txs.length; rw [hb'.txs]

theorem loses_rowsLoop (fuel : Nat) : (n k : Nat) → n ≤ k → (out : List (List Val)) → (c0 : Conn σ) → (d : Conn (Lossy σ)) → (c : Conn σ) →
    streamLen d.segs < n → Both W sess c0 d c → LossAt W sess c0 (rowsLoop (consume env (lossy W) fuel) n out d) (rowsLoop (consume env W fuel) k out c)
  | 0, _, _, _, _, _, _, h, _ => absurd h (by omega)
  | n + 1, 0, h, _, _, _, _, _, _ => absurd h (by omega)
  | n + 1, k + 1, h, out, c0, d, c, hl, hb => by
    unfold rowsLoop
    have hg : ∀ v : Val, Steps (Fed W) (match asSuccess v with
        | some md => Pure.pure (out, md)
        | none =>
          match asRecord v with
          | some fs => rowsLoop (consume env W fuel) k (out ++ [fs])
          | none => CM.fail (.new "Unrecognized response type getting next runQuery row")) := by
      intro v
      split
      · exact Steps.pure (fed_stepRel W) _
      · split
        · exact (fed env W).rowsLoop env W ((fed env W).consume env W fuel) k _
        · exact Steps.fail (fed_stepRel W) _
    refine Loses.bindAt ((loses_consume env hD fuel).at_ c0 d c hb) hg fun v d' c' hr hb' => ?_
    have hs : streamLen d'.segs < n := by
      have := (receive_ok_shrinks env (consumeWith_ok env (show consumeWith env _ d = _ from hr)).1).2
      rw [streamLen_eq] at hl ⊢
      omega
    cases asSuccess v with
    | some md => exact (Loses.pure _).at_ c0 d' c' hb'
    | none =>
      cases asRecord v with
      | some fs => exact loses_rowsLoop fuel n k (by omega) _ c0 d' c' hs hb'
      | none => exact (Loses.fail _).at_ c0 d' c' hb'

theorem loses_runQuery (fuel : Nat) (q : Bytes) (ps : Entries) (db : Bytes) (inTx : Bool) : Loses W sess (runQuery env (lossy W) fuel q ps db inTx) (runQuery env W fuel q ps db inTx) := by
  refine ⟨(fed env W).runQuery env W fuel q ps db inTx, fun c0 d c hb => ?_⟩
  have key : ∀ v v' : Val, Loses W sess (do
      sendMessage env (lossy W) v
      sendMessage env (lossy W) v'
      let resp ← consume env (lossy W) fuel
      match asSuccess resp with
      | none => CM.fail (.plain "unexpected response type")
      | some _ => fun c => rowsLoop (consume env (lossy W) fuel) (Verif.streamLen c.segs + 1) [] c) (do
      sendMessage env W v
      sendMessage env W v'
      let resp ← consume env W fuel
      match asSuccess resp with
      | none => CM.fail (.plain "unexpected response type")
      | some _ => fun c => rowsLoop (consume env W fuel) (Verif.streamLen c.segs + 1) [] c) := by
    intro v v'
    refine Loses.bind (loses_send env hD _) fun _ => Loses.bind (loses_send env hD _) fun _ => Loses.bind (loses_consume env hD fuel) fun v => ?_
    split
    · exact Loses.fail _
    · refine ⟨fun c => (fed env W).rowsLoop env W ((fed env W).consume env W fuel) _ _ c, fun c0 d c hb => ?_⟩
      exact loses_rowsLoop env hD fuel _ _ (by have := hb.streamLen; omega) _ c0 d c (by omega) hb
  unfold runQuery
  rw [CM.bind_ok (show CM.get d = (.ok d, d) from rfl), CM.bind_ok (show CM.get c = (.ok c, c) from rfl), hb.closed]
  split
  · exact (Loses.fail _).at_ c0 d c hb
  · rw [CM.bind_ok (show CM.get d = (.ok d, d) from rfl), CM.bind_ok (show CM.get c = (.ok c, c) from rfl), hb.proto, hb.mode]
    exact (key _ _).at_ c0 d c hb

omit hD in
include env in
theorem loses_checkDb (db : Bytes) : Loses W sess (checkDb (σ := Lossy σ) db) (checkDb (σ := σ) db) := by
  refine ⟨(fed env W).checkDb env W db, fun c0 d c hb => ?_⟩
  unfold checkDb
  rw [CM.bind_ok (show CM.get d = (.ok d, d) from rfl), CM.bind_ok (show CM.get c = (.ok c, c) from rfl), hb.proto]
  split
  · exact (Loses.fail _).at_ c0 d c hb
  · exact (Loses.pure _).at_ c0 d c hb

theorem loses_queryWithDb (fuel : Nat) (q : Bytes) (ps : Entries) (db : Bytes) : Loses W sess (queryWithDb env (lossy W) fuel q ps db) (queryWithDb env W fuel q ps db) :=
  Loses.bind (loses_checkDb env db) fun _ => loses_runQuery env hD fuel q ps db false

theorem loses_execWithDb (fuel : Nat) (q : Bytes) (ps : Entries) (db : Bytes) : Loses W sess (execWithDb env (lossy W) fuel q ps db) (execWithDb env W fuel q ps db) :=
  Loses.bind (loses_checkDb env db) fun _ => Loses.bind (loses_runQuery env hD fuel q ps db false) fun _ => Loses.pure _

theorem loses_txQueryWithDb (fuel h : Nat) (q : Bytes) (ps : Entries) (db : Bytes) : Loses W sess (txQueryWithDb env (lossy W) fuel h q ps db) (txQueryWithDb env W fuel h q ps db) :=
  Loses.bind (loses_checkDb env db) fun _ => loses_runQuery env hD fuel q ps db true

theorem loses_txExecWithDb (fuel h : Nat) (q : Bytes) (ps : Entries) (db : Bytes) : Loses W sess (txExecWithDb env (lossy W) fuel h q ps db) (txExecWithDb env W fuel h q ps db) :=
  Loses.bind (loses_checkDb env db) fun _ => Loses.bind (loses_runQuery env hD fuel q ps db true) fun _ => Loses.pure _

theorem loses_txExec (fuel h : Nat) (q : Bytes) (ps : Entries) : Loses W sess (txExec env (lossy W) fuel h q ps) (txExec env W fuel h q ps) := loses_execWithDb env hD fuel q ps []

/-- `ValidateOpen` before the loss. -/
theorem loses_validateOpen {c0 c : Conn σ} {d : Conn (Lossy σ)} (hb : Both W sess c0 d c) (hu : d.world.line.isUp = true) :
    LossAt W sess c0 (validateOpen (lossy W) d) (validateOpen W c) := by
  obtain ⟨_, h2, h3, h4⟩ := hb.differ.resolve_right fun h => by rw [hu] at h; cases h.1
  have ho : (lossy W).probe d.world = W.probe c.world := by
    show (match d.world.line with | .up _ => W.probe d.world.now | .down _ => if d.world.how.noticed then .eof else .other) = _
    match hl : d.world.line with
    | .up n => exact congrArg W.probe h2
    | .down k => rw [hl] at hu; cases hu
  unfold validateOpen
  rw [hb.closed, ho]
  split
  · exact .inr ⟨rfl, hb⟩
  · match h : W.probe c.world with
    | .eof => exact .inr ⟨rfl, hb⟩
    | .other => exact .inr ⟨rfl, hb⟩
    | .data =>
      dsimp only
      rw [h3]
      split
      · exact .inr ⟨rfl, hb.proto, hb.version, hb.versionBytes, hb.mode, hb.chunkSize, rfl, hb.sock, hb.txs, hb.cur, hb.trace, hb.mid.trans (Fed.same rfl rfl), .inl ⟨hu, h2, rfl, h4⟩⟩
      · exact .inr ⟨rfl, hb⟩

omit hD in
include env in
theorem loses_setChunkSize (n : UInt16) : Loses W sess (setChunkSize (σ := Lossy σ) n) (setChunkSize (σ := σ) n) :=
  Loses.same ((fed env W).chunk n) fun _ _ _ hb =>
    ⟨rfl, hb.upd hb.proto hb.version hb.versionBytes hb.mode rfl hb.closed hb.sock hb.txs hb.cur hb.trace rfl rfl rfl rfl rfl rfl (Fed.same rfl rfl)⟩

/-- A call that starts before the loss. -/
theorem loses_step (fuel : Nat) (op : Op) {c0 c : Conn σ} {d : Conn (Lossy σ)} (hb : Both W sess c0 d c) (hu : d.world.line.isUp = true) :
    LossAt W sess c0 (step env (lossy W) fuel op d) (step env W fuel op c) := by
  cases op with
  | query q ps db => exact (loses_queryWithDb env hD fuel q ps db).void.at_ c0 d c hb
  | exec q ps db => exact (loses_execWithDb env hD fuel q ps db).void.at_ c0 d c hb
  | begin_ db => exact (loses_begin env hD fuel db).void.at_ c0 d c hb
  | commit h => exact (loses_commit env hD fuel h).at_ c0 d c hb
  | rollback h => exact (loses_rollback env hD fuel h).at_ c0 d c hb
  | txQuery h q ps db => exact (loses_txQueryWithDb env hD fuel h q ps db).void.at_ c0 d c hb
  | txExec h q ps => exact (loses_txExec env hD fuel h q ps).void.at_ c0 d c hb
  | txExecDb h q ps db => exact (loses_txExecWithDb env hD fuel h q ps db).void.at_ c0 d c hb
  | close => exact (loses_close env hD fuel).at_ c0 d c hb
  | makeIdle => exact (loses_makeIdle env hD fuel).at_ c0 d c hb
  | validateOpen => exact Loses.bindAt (loses_validateOpen hD hb hu) (fun _ c => Fed.refl W c) fun _ _ _ _ hb' => .inr ⟨rfl, hb'⟩
  | setChunkSize n => exact (loses_setChunkSize env n).at_ c0 d c hb

/-! ### Creation -/

omit hD in
theorem readOnce_firstBytes {n : Nat} (hn : 0 < n) : {h : Nat} → {segs : List Bytes} → {v : Bytes} → {s : List Bytes} → readOnce n (firstBytes h segs) = some (v, s) → v.length = n →
    ∃ s', readOnce n segs = some (v, s') ∧ s'.flatten = s.flatten ++ segs.flatten.drop h
  | _, [], _, _, hr, _ => by cases hr
  | h, seg :: ss, v, s, hr, hv => by
    rw [firstBytes] at hr
    unfold readOnce at hr
    by_cases he : seg.take h = []
    · rw [if_pos he] at hr
      by_cases hs : seg = []
      · subst hs
        obtain ⟨s', h1, h2⟩ := readOnce_firstBytes hn hr hv
        refine ⟨s', ?_, by simpa using h2⟩
        unfold readOnce
        rw [if_pos rfl]
        exact h1
      · have h0 : h = 0 := by
          rcases List.take_eq_nil_iff.mp he with h0 | h0
          · exact h0
          · exact absurd h0 hs
        subst h0
        obtain ⟨g1, _, g3⟩ := readOnce_some hn hr
        rw [firstBytes_flatten] at g3
        simp only [Nat.zero_sub, List.take_zero, List.append_eq_nil_iff] at g3
        exact absurd g3.1 g1
    · rw [if_neg he] at hr
      have hs : seg ≠ [] := fun hs => he (by rw [hs]; simp)
      by_cases hl : (seg.take h).length ≤ n
      · rw [if_pos hl] at hr
        cases hr
        rw [List.length_take] at hv
        by_cases hh : seg.length ≤ h
        · refine ⟨ss, ?_, ?_⟩
          · unfold readOnce
            rw [if_neg hs, if_pos (by omega), List.take_of_length_le hh]
          · rw [firstBytes_flatten, List.flatten_cons, List.drop_append, List.drop_of_length_le hh, List.nil_append, List.take_append_drop]
        · have e : h = n := by omega
          subst e
          refine ⟨seg.drop h :: ss, ?_, ?_⟩
          · unfold readOnce
            rw [if_neg hs, if_neg hh]
          · rw [firstBytes_flatten, List.flatten_cons, List.flatten_cons, List.drop_append, show h - seg.length = 0 by omega]
            simp
      · rw [if_neg hl] at hr
        cases hr
        rw [List.length_take] at hl
        refine ⟨seg.drop n :: ss, ?_, ?_⟩
        · unfold readOnce
          rw [if_neg hs, if_neg (by omega), List.take_take, Nat.min_eq_left (by omega)]
        · rw [List.flatten_cons, List.flatten_cons, firstBytes_flatten, List.flatten_cons, List.drop_append]
          rw [List.append_assoc]
          by_cases hh : seg.length ≤ h
          · rw [List.take_of_length_le hh, List.drop_of_length_le hh, List.nil_append, List.take_append_drop]
          · rw [show h - seg.length = 0 by omega]
            simp only [List.take_zero, List.nil_append, List.drop_zero]
            rw [← List.append_assoc]
            congr 1
            rw [List.drop_take]
            have : seg.drop h = (seg.drop n).drop (h - n) := by rw [List.drop_drop, show n + (h - n) = h by omega]
            rw [this, List.take_append_drop]

/-- A handshake that succeeds on a connection that may be lost. -/
theorem handshake_both {c0 c : Conn σ} {d d1 : Conn (Lossy σ)} {v : Bytes} (hb : Both W sess c0 d c) (hs : d.segs = []) (hs' : c.segs = []) (hu : d.world.line.isUp = true)
    (h : handshake (lossy W) d = (.ok v, d1)) : ∃ c1, handshake W c = (.ok v, c1) ∧ Both W sess c0 d1 c1 := by
  have hk := onSend_both hD hb [handShake]
  unfold handshake at h ⊢
  dsimp only at h hk ⊢
  rcases hk with ⟨h1, h2⟩ | ⟨h1, _⟩
  · rw [h1, if_neg (by simp)] at h
    rw [hD.takes, if_neg (by simp)]
    rw [hs, List.nil_append] at h
    rw [hs', List.nil_append]
    rw [hs, hs', List.nil_append, List.nil_append] at h2
    match hr : readOnce 4 ((lossy W).onSend d.world [handShake]).segs with
    | none => rw [hr] at h; cases h
    | some (ver, s) =>
      rw [hr] at h
      dsimp only at h
      by_cases hl : ver.length ≠ 4
      · rw [if_pos hl] at h; cases h
      rw [if_neg hl] at h
      by_cases hn : ver = noVersionSupported
      · rw [if_pos hn] at h; cases h
      rw [if_neg hn] at h
      cases h
      rcases h2.differ with ⟨k1, k2, k3, k4⟩ | ⟨k1, _⟩
      · dsimp only at k1 k2 k3 k4
        rw [k3] at hr
        rw [hr]
        dsimp only
        rw [if_neg hl, if_neg hn]
        exact ⟨_, rfl, h2.proto, h2.version, h2.versionBytes, h2.mode, h2.chunkSize, h2.closed, h2.sock, h2.txs, h2.cur, h2.trace, h2.mid.trans (Fed.same rfl rfl), .inl ⟨k1, k2, rfl, k4⟩⟩
      · dsimp only at k1
        -- the connection was lost with the handshake
        have hnow : d.world.now = c.world := by
          rcases hb.differ with g | g
          · exact g.2.1
          · rw [hu] at g; cases g.1
        match hl : d.world.line with
        | .up (n + 1) =>
          have : ((lossy W).onSend d.world [handShake]).st.line = .up n := by unfold lossy; dsimp only; rw [hl]
          rw [this] at k1; cases k1
        | .down k => rw [hl] at hu; cases hu
        | .up 0 =>
          have e : (lossy W).onSend d.world [handShake] = ⟨⟨if d.world.how.arrives then (W.onSend c.world [handShake]).st else c.world, .down (d.world.how.accepts - 1), d.world.how⟩, decide (0 < d.world.how.accepts),
              if d.world.how.arrives then firstBytes d.world.how.heard (W.onSend c.world [handShake]).segs else [], d.world.how.fin⟩ := by
            unfold lossy; dsimp only; rw [hl, hnow]
          cases ha : d.world.how.arrives with
          | false =>
            rw [e, ha] at hr
            cases hr
          | true =>
            rw [ha] at e
            simp only [if_true] at e
            rw [e] at hr h2 ⊢
            rename_i hl4 _
            obtain ⟨s', g1, g2⟩ := readOnce_firstBytes (by omega) hr (Decidable.not_not.mp hl4)
            rw [g1]
            dsimp only
            rw [if_neg hl4, if_neg hn]
            exact ⟨_, rfl, h2.proto, h2.version, h2.versionBytes, h2.mode, h2.chunkSize, h2.closed, h2.sock, h2.txs, h2.cur, h2.trace, h2.mid.trans (Fed.same rfl rfl),
              .inr ⟨rfl, _, g2, fun _ => rfl⟩⟩
  · rw [h1, if_pos rfl] at h
    cases h

theorem loses_sendInit (fuel : Nat) (m : Val) : Loses W sess (sendInit env (lossy W) fuel m) (sendInit env W fuel m) := by
  unfold sendInit
  refine Loses.bind (loses_send env hD _) fun _ => Loses.bind (loses_consume env hD fuel) fun v => ?_
  cases asSuccess v with
  | some _ => exact Loses.pure _
  | none => exact loses_close env hD fuel

/-- `CreateBoltConn`: where it succeeds although the connection may be lost, it succeeds without the loss. -/
theorem create_both {fuel : Nat} {user password : Bytes} {w : σ} {l : Loss} {n : Nat} {d : Conn (Lossy σ)} (h : createBoltConn env (lossy W) fuel user password ⟨w, .up n, l⟩ = (.ok (), d)) :
    ∃ c0 c, createBoltConn env W fuel user password w = (.ok (), c) ∧ Both W sess c0 d c := by
  unfold createBoltConn initConn at h ⊢
  obtain ⟨_, d1, h1, h2⟩ := CM.bind_eq_ok.mp h
  obtain ⟨v, d2, h3, h4⟩ := CM.bind_eq_ok.mp h2
  unfold createConnection at h1
  dsimp only at h1
  by_cases hd : (W.dial w).2 = true
  · rw [if_pos (show ((lossy W).dial (Conn.fresh (⟨w, .up n, l⟩ : Lossy σ)).world).2 = true from hd)] at h1
    cases h1
    have e2 : createConnection W (Conn.fresh w) = (.ok (), { Conn.fresh w with world := (W.dial w).1, sock := true, closed := false }) := by
      unfold createConnection
      exact if_pos hd
    rw [CM.bind_ok e2]
    have hb : Both W sess { Conn.fresh w with world := (W.dial w).1, sock := true, closed := false }
        { Conn.fresh (⟨w, .up n, l⟩ : Lossy σ) with world := ((lossy W).dial (Conn.fresh (⟨w, .up n, l⟩ : Lossy σ)).world).1, sock := true, closed := false }
        { Conn.fresh w with world := (W.dial w).1, sock := true, closed := false } :=
      ⟨rfl, rfl, rfl, rfl, rfl, rfl, rfl, rfl, rfl, rfl, Mid.of_fed (Fed.refl W _), .inl ⟨rfl, rfl, rfl, rfl⟩⟩
    obtain ⟨c2, g1, g2⟩ := handshake_both hD hb rfl rfl rfl (CM.mapErr_eq_ok.mp h3)
    rw [CM.bind_ok (CM.mapErr_eq_ok.mpr g1)]
    refine ⟨{ Conn.fresh w with world := (W.dial w).1, sock := true, closed := false }, ?_⟩
    match hp : getProtocol v with
    | (some p, version, _) =>
      rw [hp] at h4
      dsimp only at h4 ⊢
      have hl := ((Loses.bind (Loses.same (m := CM.modify fun c => { c with proto := p, version := version, versionBytes := v })
        (n := CM.modify fun c => { c with proto := p, version := version, versionBytes := v }) (fun c => Fed.same rfl rfl)
        (fun _ _ _ hb => ⟨rfl, hb.upd rfl rfl rfl hb.mode hb.chunkSize hb.closed hb.sock hb.txs hb.cur hb.trace rfl rfl rfl rfl rfl rfl (Fed.same rfl rfl)⟩))
        fun _ => loses_sendInit env hD fuel (p.initMessage clientID (buildAuthTokenBasic user password)))).at_ _ _ _ g2
      rw [h4] at hl
      rcases hl with ⟨⟨e, k⟩, _⟩ | ⟨k1, k2⟩
      · cases k
      · exact ⟨_, Prod.ext k1.symm rfl, k2⟩
    | (none, _, some e) => rw [hp] at h4; cases h4
    | (none, _, none) => rw [hp] at h4; cases h4
  · rw [if_neg (show ¬ ((lossy W).dial (Conn.fresh (⟨w, .up n, l⟩ : Lossy σ)).world).2 = true from hd)] at h1
    cases h1

end

/-! ### After the loss -/

section
variable (env : Env) (W : World σ)

theorem lossy_down {s : Lossy σ} {k : Nat} (h : s.line = .down k) (ws : List Bytes) :
    (lossy W).onSend s ws = ⟨⟨s.now, .down (k - 1), s.how⟩, decide (0 < k), [], s.how.fin⟩ := by
  unfold lossy; dsimp only; rw [h]

/-- Nothing reaches the server any more, and it stays so. -/
theorem deaf_prim : Prim env (lossy W) (fun (d d' : Conn (Lossy σ)) => Severed d → Severed d' ∧ d'.world.now = d.world.now) where
  refl d h := ⟨h, rfl⟩
  trans h1 h2 h := by
    obtain ⟨a, b⟩ := h1 h
    obtain ⟨a', b'⟩ := h2 a
    exact ⟨a', b'.trans b⟩
  send v d h := by
    obtain ⟨k, h1, h2⟩ := h
    have key : ∀ ws, Severed { d with world := ((lossy W).onSend d.world ws).st, segs := d.segs ++ ((lossy W).onSend d.world ws).segs, fin := ((lossy W).onSend d.world ws).fin, trace := d.trace ++ [.sent ws] } ∧
        ((lossy W).onSend d.world ws).st.now = d.world.now := by
      intro ws
      rw [lossy_down W h1]
      refine ⟨⟨k - 1, rfl, ?_⟩, rfl⟩
      rcases h2 with h2 | h2
      · exact .inl (by omega)
      · exact .inr (by simp [h2])
    unfold sendMessage writeAll
    dsimp only
    split
    · split <;> exact ⟨⟨k, h1, h2⟩, rfl⟩
    · split
      · exact ⟨⟨k, h1, h2⟩, rfl⟩
      · split
        · split <;> exact key _
        · exact key _
  recv d h := by
    obtain ⟨k, h1, h2⟩ := h
    obtain ⟨g1, g2⟩ := receive_shrinks env d
    refine ⟨⟨k, by rw [g1]; exact h1, ?_⟩, by rw [g1]⟩
    rcases h2 with h2 | h2
    · exact .inl h2
    · rw [h2] at g2
      exact .inr (List.eq_nil_of_length_eq_zero (Nat.le_zero.mp g2))
  endTx h d hd := ⟨hd, rfl⟩
  sock d h := by
    unfold closeSock
    dsimp only
    split <;> exact ⟨h, rfl⟩
  addTx d h := ⟨h, rfl⟩
  probe d h := by
    obtain ⟨k, h1, h2⟩ := h
    have hp : (lossy W).probe d.world ≠ .data := by
      show (match d.world.line with | .up _ => W.probe d.world.now | .down _ => if d.world.how.noticed then .eof else .other) ≠ _
      rw [h1]
      dsimp only
      split <;> simp
    unfold validateOpen
    split
    · exact ⟨⟨k, h1, h2⟩, rfl⟩
    · split
      · exact ⟨⟨k, h1, h2⟩, rfl⟩
      · exact ⟨⟨k, h1, h2⟩, rfl⟩
      · rename_i h; exact absurd h hp
  chunk n d h := ⟨h, rfl⟩

/-- If something can still be written, there is nothing to be read. -/
theorem deaf_send {v : Val} {d d' : Conn (Lossy σ)} (h : Severed d) (hs : sendMessage env (lossy W) v d = (.ok (), d')) : Severed d' ∧ d'.segs.flatten = [] := by
  have h1 := (deaf_prim env W).send v d h
  rw [hs] at h1
  refine ⟨h1.1, ?_⟩
  obtain ⟨k, h2, h3⟩ := h
  obtain ⟨_, _, g3, g4⟩ := sendMessage_ok env (lossy W) hs
  rw [lossy_down W h2] at g3
  have hk : 0 < k := by simpa using g3
  have hn : d.segs.flatten = [] := h3.resolve_left (by omega)
  rw [g4]
  show (d.segs ++ ((lossy W).onSend d.world _).segs).flatten = []
  rw [lossy_down W h2]
  simp [hn]

theorem nil_consume {reset : CM (Lossy σ) Unit} {d : Conn (Lossy σ)} (h : d.segs.flatten = []) : ∀ v d', consumeWith env reset d ≠ (.ok v, d') := by
  intro v d' hc
  have := (receive_ok_shrinks env (consumeWith_ok env hc).1).2
  rw [h] at this
  simp at this

theorem deaf_txExchange {reset : CM (Lossy σ) Unit} {d : Conn (Lossy σ)} (h : Severed d) (msg : Val) (what : String) : ∀ d', txExchange env (lossy W) (consumeWith env reset) msg what d ≠ (.ok (), d') := by
  intro d' hx
  unfold txExchange at hx
  obtain ⟨_, d1, h1, h2⟩ := CM.bind_eq_ok.mp hx
  obtain ⟨k1, k2⟩ := deaf_send env W h h1
  split at h2
  · obtain ⟨_, d2, h3, _⟩ := CM.bind_eq_ok.mp h2
    exact nil_consume env k2 _ _ h3
  · obtain ⟨_, d2, h3, h4⟩ := CM.bind_eq_ok.mp h2
    cases h3
    obtain ⟨_, d3, h5, h6⟩ := CM.bind_eq_ok.mp h4
    obtain ⟨_, k4⟩ := deaf_send env W k1 h5
    obtain ⟨_, d4, h7, _⟩ := CM.bind_eq_ok.mp h6
    exact nil_consume env k4 _ _ h7

theorem deaf_endWith {reset : CM (Lossy σ) Unit} {d : Conn (Lossy σ)} (h : Severed d) (m : Proto → Val) (what : String) (n : Nat) : ∀ d', endWith env (lossy W) (consumeWith env reset) m what n d ≠ (.ok (), d') := by
  intro d' hx
  obtain ⟨_, d1, h2, _⟩ := endWith_ok env (lossy W) hx
  exact deaf_txExchange env W h _ _ _ h2

theorem deaf_runQuery (fuel : Nat) (q : Bytes) (ps : Entries) (db : Bytes) (inTx : Bool) {d : Conn (Lossy σ)} (h : Severed d) : ∀ a d', runQuery env (lossy W) fuel q ps db inTx d ≠ (.ok a, d') := by
  intro a d' hx
  unfold runQuery at hx
  obtain ⟨_, d1, h1, hx⟩ := CM.bind_eq_ok.mp hx
  cases h1
  split at hx
  · cases hx
  · obtain ⟨_, d1, h1, hx⟩ := CM.bind_eq_ok.mp hx
    cases h1
    obtain ⟨_, d2, h2, hx⟩ := CM.bind_eq_ok.mp hx
    obtain ⟨_, d3, h3, hx⟩ := CM.bind_eq_ok.mp hx
    obtain ⟨_, d4, h4, _⟩ := CM.bind_eq_ok.mp hx
    exact nil_consume env (deaf_send env W (deaf_send env W h h2).1 h3).2 _ _ h4

/-- Calls that need an answer of the server. -/
def Spec.needsServer : Op → Prop
  | .query .. | .exec .. | .txQuery .. | .txExec .. | .txExecDb .. | .begin_ _ | .commit _ | .rollback _ => True
  | _ => False

/-- After the loss, no call that needs an answer succeeds. -/
theorem deaf_quiet (fuel : Nat) {op : Op} (hop : needsServer op) {d : Conn (Lossy σ)} (h : Severed d) : ∀ a, (step env (lossy W) fuel op d).1 ≠ .ok a := by
  have stmt : ∀ {α : Type} (q : Bytes) (ps : Entries) (db : Bytes) (inTx : Bool) (f : List (List Val) × Entries → CM (Lossy σ) α) (a : Unit),
      (CM.void (checkDb db >>= fun _ => runQuery env (lossy W) fuel q ps db inTx >>= f) d).1 ≠ .ok a := by
    intro α q ps db inTx f a hx
    obtain ⟨_, d1, h1, _⟩ := CM.bind_eq_ok.mp (Prod.ext (x := CM.void (checkDb db >>= fun _ => runQuery env (lossy W) fuel q ps db inTx >>= f) d) (y := (.ok a, _)) hx rfl)
    obtain ⟨_, d2, h2, h3⟩ := CM.bind_eq_ok.mp h1
    obtain ⟨_, d3, h4, _⟩ := CM.bind_eq_ok.mp h3
    have := checkDb_snd db d
    rw [h2] at this
    rw [show d2 = d from this] at h4
    exact deaf_runQuery env W fuel q ps db inTx h _ _ h4
  have stmt' : ∀ (q : Bytes) (ps : Entries) (db : Bytes) (inTx : Bool) (a : Unit), (CM.void (checkDb db >>= fun _ => runQuery env (lossy W) fuel q ps db inTx) d).1 ≠ .ok a := by
    intro q ps db inTx a hx
    obtain ⟨_, d1, h1, _⟩ := CM.bind_eq_ok.mp (Prod.ext (x := CM.void (checkDb db >>= fun _ => runQuery env (lossy W) fuel q ps db inTx) d) (y := (.ok a, _)) hx rfl)
    obtain ⟨_, d2, h2, h3⟩ := CM.bind_eq_ok.mp h1
    have := checkDb_snd db d
    rw [h2] at this
    rw [show d2 = d from this] at h3
    exact deaf_runQuery env W fuel q ps db inTx h _ _ h3
  cases op with
  | query q ps db => exact stmt' q ps db false
  | exec q ps db => exact stmt q ps db false _
  | txQuery h q ps db => exact stmt' q ps db true
  | txExec h q ps => exact stmt q ps [] false _
  | txExecDb h q ps db => exact stmt q ps db true _
  | commit n => exact fun a hx => deaf_endWith env W h _ _ n _ (Prod.ext (x := endWith env (lossy W) (consume env (lossy W) fuel) _ _ n d) (y := (.ok a, _)) hx rfl)
  | rollback n => exact fun a hx => deaf_endWith env W h _ _ n _ (Prod.ext (x := endWith env (lossy W) (consume env (lossy W) fuel) _ _ n d) (y := (.ok a, _)) hx rfl)
  | begin_ db =>
    intro a hx
    obtain ⟨_, d1, h1, _⟩ := CM.bind_eq_ok.mp (Prod.ext (x := CM.void (beginWithDatabase env (lossy W) fuel db) d) (y := (.ok a, _)) hx rfl)
    unfold beginWithDatabase at h1
    obtain ⟨_, d2, h2, h1⟩ := CM.bind_eq_ok.mp h1
    cases h2
    split at h1
    · cases h1
    · obtain ⟨_, d2, h2, h1⟩ := CM.bind_eq_ok.mp h1
      cases h2
      split at h1
      · cases h1
      · obtain ⟨_, d2, h2, h1⟩ := CM.bind_eq_ok.mp h1
        cases h2
        obtain ⟨_, d3, h3, _⟩ := CM.bind_eq_ok.mp h1
        exact deaf_txExchange env W h _ _ _ h3
  | close => exact hop.elim
  | makeIdle => exact hop.elim
  | validateOpen => exact hop.elim
  | setChunkSize n => exact hop.elim

end
end Verif

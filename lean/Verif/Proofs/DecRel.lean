/-
Compositional facts about the decoder: fuel, framing, agreement of the two versions.
-/
import Verif.Proofs.DecodeEnc
namespace Verif

/-! ### Fuel -/

/-- On buffers shorter than `L` both steps return the same result, which is not `fuel`, and do not make the buffer longer. -/
def Rel {α : Type} (L : Nat) (m m' : Dec α) : Prop :=
  ∀ b : Bytes, b.length < L → m b = m' b ∧ m b ≠ .fuel ∧ ∀ a r, m b = .ok (a, r) → r.length ≤ b.length

theorem Rel.pure {α : Type} {L : Nat} (a : α) : Rel L (Pure.pure a : Dec α) (Pure.pure a) := by
  intro b _
  refine ⟨rfl, by simp, ?_⟩
  intro a' r h
  simp only [Dec.pure_apply, Res.ok.injEq, Prod.mk.injEq] at h
  rw [h.2]; exact Nat.le_refl _

theorem Rel.bind {α β : Type} {L : Nat} {m m' : Dec α} {f f' : α → Dec β} (hm : Rel L m m') (hf : ∀ a, Rel L (f a) (f' a)) :
    Rel L (m >>= f) (m' >>= f') := by
  intro b hb
  obtain ⟨h1, h2, h3⟩ := hm b hb
  rw [Dec.bind_apply, Dec.bind_apply, ← h1]
  cases h : m b with
  | ok p =>
    obtain ⟨a, r⟩ := p
    have hr := h3 a r h
    obtain ⟨g1, g2, g3⟩ := hf a r (by omega)
    refine ⟨g1, g2, ?_⟩
    intro a' r' h'
    have := g3 a' r' h'
    omega
  | err e => refine ⟨rfl, by simp, ?_⟩; intro a r h; cases h
  | panic => refine ⟨rfl, by simp, ?_⟩; intro a r h; cases h
  | fuel => exact absurd h h2

theorem Rel.fail {α : Type} {L : Nat} (e : Err) : Rel L (Dec.fail e : Dec α) (Dec.fail e) := by
  intro b _; refine ⟨rfl, by simp [Dec.fail], ?_⟩; intro a r h; cases h

theorem Rel.panic {α : Type} {L : Nat} : Rel L (Dec.panic : Dec α) (Dec.panic) := by
  intro b _; refine ⟨rfl, by simp [Dec.panic], ?_⟩; intro a r h; cases h

theorem Rel.wrapErr {α : Type} {L : Nat} {m m' : Dec α} (msg : String) (h : Rel L m m') :
    Rel L (Dec.wrapErr msg m) (Dec.wrapErr msg m') := by
  intro b hb
  obtain ⟨h1, h2, h3⟩ := h b hb
  unfold Dec.wrapErr
  rw [← h1]
  cases hm : m b with
  | ok p => refine ⟨rfl, by simp, ?_⟩; intro a r e; exact h3 a r (by rw [hm]; exact e)
  | err e => refine ⟨rfl, by simp, ?_⟩; intro a r h; cases h
  | panic => refine ⟨rfl, by simp, ?_⟩; intro a r h; cases h
  | fuel => exact absurd hm h2

theorem Rel.readByte {L : Nat} : Rel L readByte readByte := by
  intro b _
  cases b with
  | nil => refine ⟨rfl, by simp [Verif.readByte], ?_⟩; intro a r h; cases h
  | cons x b =>
    refine ⟨rfl, by simp [Verif.readByte], ?_⟩
    intro a r h
    simp only [Verif.readByte, Res.ok.injEq, Prod.mk.injEq] at h
    simp [h.2]

theorem Rel.readUnsigned {L : Nat} (k : Nat) : Rel L (readUnsigned k) (readUnsigned k) := by
  intro b _
  refine ⟨rfl, ?_, ?_⟩
  · unfold Verif.readUnsigned; split
    · simp
    · split <;> simp
  · intro a r h
    unfold Verif.readUnsigned at h
    split at h
    · cases h
    · split at h
      · cases h
      · simp only [Res.ok.injEq, Prod.mk.injEq] at h
        rw [← h.2, List.length_drop]; omega

theorem Rel.next {L : Nat} (n : Int) : Rel L (next n) (next n) := by
  intro b _
  refine ⟨rfl, ?_, ?_⟩
  · unfold Verif.next; split <;> simp
  · intro a r h
    unfold Verif.next at h
    split at h
    · cases h
    · simp only [Res.ok.injEq, Prod.mk.injEq] at h
      rw [← h.2, List.length_drop]; omega

theorem Rel.readSigned {L : Nat} (k : Nat) : Rel L (readSigned k) (readSigned k) :=
  Rel.bind (Rel.readUnsigned k) fun _ => Rel.pure _

theorem Rel.mustInt64 {L : Nat} (v : Val) : Rel L (mustInt64 v) (mustInt64 v) := by
  unfold Verif.mustInt64; split
  · exact Rel.pure _
  · exact Rel.panic

theorem Rel.needInt64 {L : Nat} (v : Val) : Rel L (needInt64 v) (needInt64 v) := by
  unfold Verif.needInt64; split
  · exact Rel.pure _
  · exact Rel.fail _

theorem Rel.needFloat {L : Nat} (v : Val) : Rel L (needFloat v) (needFloat v) := by
  unfold Verif.needFloat; split
  · exact Rel.pure _
  · exact Rel.fail _

theorem Rel.needStr {L : Nat} (v : Val) : Rel L (needStr v) (needStr v) := by
  unfold Verif.needStr; split
  · exact Rel.pure _
  · exact Rel.fail _

theorem Rel.needMap {L : Nat} (v : Val) : Rel L (needMap v) (needMap v) := by
  unfold Verif.needMap; split
  · exact Rel.pure _
  · exact Rel.fail _

theorem Rel.needList {L : Nat} (v : Val) : Rel L (needList v) (needList v) := by
  unfold Verif.needList; split
  · exact Rel.pure _
  · exact Rel.fail _

theorem Rel.sliceToString {L : Nat} : (vs : List Val) → Rel L (sliceToString vs) (sliceToString vs)
  | [] => Rel.pure _
  | v :: vs => by
    cases v <;> first
      | exact Rel.bind (Rel.sliceToString vs) fun _ => Rel.pure _
      | exact Rel.fail _

theorem Rel.sliceToInt {L : Nat} : (vs : List Val) → Rel L (sliceToInt vs) (sliceToInt vs)
  | [] => Rel.pure _
  | v :: vs => by
    cases v <;> try exact Rel.panic
    rename_i k n
    cases k <;> first
      | exact Rel.bind (Rel.sliceToInt vs) fun _ => Rel.pure _
      | exact Rel.panic

theorem Rel.sliceToNode {L : Nat} : (vs : List Val) → Rel L (sliceToNode vs) (sliceToNode vs)
  | [] => Rel.pure _
  | v :: vs => by
    cases v <;> try exact Rel.fail _
    rename_i k n
    cases k <;> first
      | exact Rel.bind (Rel.sliceToNode vs) fun _ => Rel.pure _
      | exact Rel.fail _

theorem Rel.sliceToURel {L : Nat} : (vs : List Val) → Rel L (sliceToURel vs) (sliceToURel vs)
  | [] => Rel.pure _
  | v :: vs => by
    cases v <;> try exact Rel.fail _
    rename_i k n
    cases k <;> first
      | exact Rel.bind (Rel.sliceToURel vs) fun _ => Rel.pure _
      | exact Rel.fail _

theorem Rel.ite {α : Type} {L : Nat} {c : Prop} [Decidable c] {m m' f f' : Dec α} (h1 : Rel L m m') (h2 : Rel L f f') :
    Rel L (if c then m else f) (if c then m' else f') := by
  by_cases h : c
  · rw [if_pos h, if_pos h]; exact h1
  · rw [if_neg h, if_neg h]; exact h2

/-- Closes `Rel` goals about straight-line decoding code. -/
macro "dec_rel" : tactic => `(tactic| repeat (first
  | assumption
  | exact Rel.pure _
  | exact Rel.fail _
  | exact Rel.panic
  | exact Rel.needInt64 _
  | exact Rel.needFloat _
  | exact Rel.needStr _
  | exact Rel.needMap _
  | exact Rel.needList _
  | exact Rel.mustInt64 _
  | exact Rel.sliceToString _
  | exact Rel.sliceToInt _
  | exact Rel.sliceToNode _
  | exact Rel.sliceToURel _
  | exact Rel.readSigned _
  | exact Rel.readUnsigned _
  | exact Rel.next _
  | exact Rel.readByte
  | exact Rel.wrapErr _ (by assumption)
  | exact Rel.wrapErr _ Rel.readByte
  | exact Rel.wrapErr _ (Rel.readSigned _)
  | refine Rel.bind ?_ (fun _ => ?_)
  | split))

theorem Rel.decodeN {L : Nat} {dec dec' : Dec Val} (h : Rel L dec dec') : (n : Nat) → Rel L (decodeN dec n) (decodeN dec' n)
  | 0 => Rel.pure _
  | n + 1 => Rel.bind h fun _ => Rel.bind (Rel.decodeN h n) fun _ => Rel.pure _

theorem Rel.decodeSlice {L : Nat} {dec dec' : Dec Val} (h : Rel L dec dec') (n : Int) : Rel L (decodeSlice dec n) (decodeSlice dec' n) := by
  unfold Verif.decodeSlice
  split
  · exact Rel.panic
  · exact Rel.bind (Rel.decodeN h _) fun _ => Rel.pure _

theorem Rel.decodeEntries {L : Nat} {dec dec' : Dec Val} (h : Rel L dec dec') : (n : Nat) → (m : Entries) →
    Rel L (decodeEntries dec n m) (decodeEntries dec' n m)
  | 0, m => Rel.pure _
  | n + 1, m => by
    unfold Verif.decodeEntries
    refine Rel.bind h fun k => Rel.bind h fun v => ?_
    cases k <;> first
      | exact Rel.fail _
      | exact Rel.decodeEntries h n _

theorem Rel.decodeMap {L : Nat} {dec dec' : Dec Val} (h : Rel L dec dec') (n : Int) : Rel L (decodeMap dec n) (decodeMap dec' n) :=
  Rel.bind (Rel.decodeEntries h _ _) fun _ => Rel.pure _

theorem Rel.decodeDateTimeZone {L : Nat} {dec dec' : Dec Val} (h : Rel L dec dec') (env : Env) :
    Rel L (decodeDateTimeZone env dec) (decodeDateTimeZone env dec') := by
  unfold Verif.decodeDateTimeZone
  refine Rel.bind h fun _ => Rel.bind (Rel.needInt64 _) fun _ => Rel.bind h fun _ => Rel.bind (Rel.needInt64 _) fun _ =>
    Rel.bind h fun _ => Rel.bind (Rel.needStr _) fun z => ?_
  cases env.tz z
  · exact Rel.fail _
  · exact Rel.pure _

theorem Rel.decodeStruct {L : Nat} {dec dec' : Dec Val} (h : Rel L dec dec') (env : Env) (ver : Ver) :
    Rel L (decodeStruct env ver dec) (decodeStruct env ver dec') := by
  unfold Verif.decodeStruct
  refine Rel.bind (Rel.wrapErr _ Rel.readByte) fun sig => ?_
  have h19 := Rel.decodeDateTimeZone h env
  refine Rel.ite ?_ ?_
  · unfold decodeNode; dec_rel
  refine Rel.ite ?_ ?_
  · unfold decodeRelationship; dec_rel
  refine Rel.ite ?_ ?_
  · unfold decodePath; dec_rel
  refine Rel.ite ?_ ?_
  · unfold decodeUnboundRelationship; dec_rel
  refine Rel.ite ?_ ?_
  · unfold decodePoint2D; dec_rel
  refine Rel.ite ?_ ?_
  · unfold decodePoint3D; dec_rel
  refine Rel.ite ?_ ?_
  · unfold decodeRecord; dec_rel
  refine Rel.ite ?_ ?_
  · unfold decodeFailure; dec_rel
  refine Rel.ite ?_ ?_
  · exact Rel.pure _
  refine Rel.ite ?_ ?_
  · unfold decodeSuccess; dec_rel
  refine Rel.ite ?_ ?_
  · exact Rel.pure _
  refine Rel.ite ?_ ?_
  · exact Rel.pure _
  refine Rel.ite ?_ ?_
  · exact Rel.pure _
  refine Rel.ite ?_ ?_
  · unfold decodeDate; dec_rel
  refine Rel.ite ?_ ?_
  · unfold decodeClock; dec_rel
  refine Rel.ite ?_ ?_
  · unfold decodeLocalClock; dec_rel
  refine Rel.ite ?_ ?_
  · unfold decodeLocalTime; dec_rel
  refine Rel.ite ?_ ?_
  · unfold decodeDateTimeOffset; dec_rel
  refine Rel.ite ?_ ?_
  · exact h19
  refine Rel.ite ?_ ?_
  · unfold decodeDuration; dec_rel
  exact Rel.fail _

theorem Rel.decodeMarker {L : Nat} {dec dec' : Dec Val} (h : Rel L dec dec') (env : Env) (ver : Ver) (mk : Marker) :
    Rel L (decodeMarker env ver dec mk) (decodeMarker env ver dec' mk) := by
  have hs := Rel.decodeStruct h env ver
  cases mk <;> simp only [Verif.decodeMarker]
  case tinyList n => exact Rel.decodeSlice h _
  case tinyMap n => exact Rel.decodeMap h _
  case list k => exact Rel.bind (Rel.wrapErr _ (Rel.readSigned _)) fun _ => Rel.decodeSlice h _
  case map k => exact Rel.bind (Rel.wrapErr _ (Rel.readSigned _)) fun _ => Rel.decodeMap h _
  case tinyStruct n => exact hs
  case struct k => exact Rel.bind (Rel.wrapErr _ (Rel.readSigned _)) fun _ => hs
  all_goals dec_rel

/-- Enough fuel: the result does not depend on it, is not `fuel`, and at least one byte is consumed. -/
theorem decodeF_rel (env : Env) (ver : Ver) : (n m : Nat) → (b : Bytes) → b.length < n → b.length < m →
    decodeF env ver n b = decodeF env ver m b ∧ decodeF env ver n b ≠ .fuel ∧
      ∀ v r, decodeF env ver n b = .ok (v, r) → r.length < b.length
  | 0, m, b, hn, hm => by omega
  | n + 1, 0, b, hn, hm => by omega
  | n + 1, m + 1, b, hn, hm => by
    cases b with
    | nil =>
      refine ⟨rfl, ?_, ?_⟩
      · intro h; cases h
      · intro v r h; cases h
    | cons x b =>
      simp only [List.length_cons] at hn hm
      have hrel : Rel (b.length + 1) (decodeF env ver n) (decodeF env ver m) := by
        intro b' hb'
        obtain ⟨h1, h2, h3⟩ := decodeF_rel env ver n m b' (by omega) (by omega)
        exact ⟨h1, h2, fun v r h => by have := h3 v r h; omega⟩
      obtain ⟨h1, h2, h3⟩ := Rel.decodeMarker hrel env ver (classify x) b (by omega)
      simp only [decodeF]
      rw [decodeBody_cons _ _ _ _ _ rfl, decodeBody_cons _ _ _ _ _ rfl]
      exact ⟨h1, h2, fun v r h => by have := h3 v r h; simp only [List.length_cons]; omega⟩

theorem decode_eq_decodeF (env : Env) (ver : Ver) {n : Nat} {b : Bytes} (h : b.length < n) : decode env ver b = decodeF env ver n b :=
  (decodeF_rel env ver _ _ b (by omega) h).1

/-! ### Framing -/

/-- If something is left over, the result is determined by the consumed bytes. -/
def FrameP {α : Type} (m : Dec α) : Prop :=
  ∀ b a r, r ≠ [] → m b = .ok (a, r) → ∃ c, b = c ++ r ∧ ∀ r', m (c ++ r') = .ok (a, r')

theorem FrameP.pure {α : Type} (a : α) : FrameP (Pure.pure a : Dec α) := by
  intro b a' r _ h
  simp only [Dec.pure_apply, Res.ok.injEq, Prod.mk.injEq] at h
  obtain ⟨rfl, rfl⟩ := h
  exact ⟨[], rfl, fun r' => rfl⟩

theorem FrameP.bind {α β : Type} {m : Dec α} {f : α → Dec β} (hm : FrameP m) (hf : ∀ a, FrameP (f a)) : FrameP (m >>= f) := by
  intro b a' r hr h
  rw [Dec.bind_apply] at h
  cases h1 : m b with
  | ok p =>
    obtain ⟨a, b1⟩ := p
    rw [h1] at h
    obtain ⟨c2, e2, g2⟩ := hf a b1 a' r hr h
    obtain ⟨c1, e1, g1⟩ := hm b a b1 (by rw [e2]; simp [hr]) h1
    refine ⟨c1 ++ c2, by rw [e1, e2, List.append_assoc], ?_⟩
    intro r'
    rw [List.append_assoc, Dec.bind_ok (g1 (c2 ++ r'))]
    exact g2 r'
  | err e => rw [h1] at h; cases h
  | panic => rw [h1] at h; cases h
  | fuel => rw [h1] at h; cases h

theorem FrameP.fail {α : Type} (e : Err) : FrameP (Dec.fail e : Dec α) := by intro b a r _ h; cases h
theorem FrameP.panic {α : Type} : FrameP (Dec.panic : Dec α) := by intro b a r _ h; cases h

theorem FrameP.wrapErr {α : Type} {m : Dec α} (msg : String) (h : FrameP m) : FrameP (Dec.wrapErr msg m) := by
  intro b a r hr hm
  unfold Dec.wrapErr at hm
  cases h1 : m b with
  | ok p =>
    rw [h1] at hm
    obtain ⟨c, e, g⟩ := h b a r hr (by rw [h1]; exact hm)
    exact ⟨c, e, fun r' => Dec.wrapErr_ok (g r')⟩
  | err e => rw [h1] at hm; cases hm
  | panic => rw [h1] at hm; cases hm
  | fuel => rw [h1] at hm; cases hm

theorem FrameP.readByte : FrameP readByte := by
  intro b a r _ h
  cases b with
  | nil => cases h
  | cons x b =>
    simp only [Verif.readByte, Res.ok.injEq, Prod.mk.injEq] at h
    obtain ⟨rfl, rfl⟩ := h
    exact ⟨[x], rfl, fun r' => rfl⟩

theorem FrameP.readUnsigned (k : Nat) (hk : 0 < k) : FrameP (readUnsigned k) := by
  intro b a r _ h
  unfold Verif.readUnsigned at h
  split at h
  · cases h
  · split at h
    · cases h
    · rename_i h1 h2
      simp only [Res.ok.injEq, Prod.mk.injEq] at h
      obtain ⟨rfl, rfl⟩ := h
      refine ⟨b.take k, by simp, fun r' => ?_⟩
      have hl : (b.take k).length = k := by rw [List.length_take]; omega
      exact readUnsigned_append hk hl r'

theorem FrameP.next (n : Int) : FrameP (next n) := by
  intro b a r hr h
  unfold Verif.next at h
  split at h
  · cases h
  · rename_i h1
    simp only [Res.ok.injEq, Prod.mk.injEq] at h
    obtain ⟨rfl, rfl⟩ := h
    have hlt : n.toNat < b.length := by
      have := List.length_pos_iff.mpr hr
      rw [List.length_drop] at this; omega
    have hl : (b.take n.toNat).length = n.toNat := by rw [List.length_take]; omega
    refine ⟨b.take n.toNat, by simp, fun r' => ?_⟩
    unfold Verif.next
    rw [if_neg h1, List.take_left' hl, List.drop_left' hl]

theorem FrameP.readSigned (k : Nat) (hk : 0 < k) : FrameP (readSigned k) := FrameP.bind (FrameP.readUnsigned k hk) fun _ => FrameP.pure _

theorem FrameP.mustInt64 (v : Val) : FrameP (mustInt64 v) := by
  unfold Verif.mustInt64; split
  · exact FrameP.pure _
  · exact FrameP.panic

theorem FrameP.needInt64 (v : Val) : FrameP (needInt64 v) := by
  unfold Verif.needInt64; split
  · exact FrameP.pure _
  · exact FrameP.fail _

theorem FrameP.needFloat (v : Val) : FrameP (needFloat v) := by
  unfold Verif.needFloat; split
  · exact FrameP.pure _
  · exact FrameP.fail _

theorem FrameP.needStr (v : Val) : FrameP (needStr v) := by
  unfold Verif.needStr; split
  · exact FrameP.pure _
  · exact FrameP.fail _

theorem FrameP.needMap (v : Val) : FrameP (needMap v) := by
  unfold Verif.needMap; split
  · exact FrameP.pure _
  · exact FrameP.fail _

theorem FrameP.needList (v : Val) : FrameP (needList v) := by
  unfold Verif.needList; split
  · exact FrameP.pure _
  · exact FrameP.fail _

theorem FrameP.sliceToString : (vs : List Val) → FrameP (sliceToString vs)
  | [] => FrameP.pure _
  | v :: vs => by
    cases v <;> first
      | exact FrameP.bind (FrameP.sliceToString vs) fun _ => FrameP.pure _
      | exact FrameP.fail _

theorem FrameP.sliceToInt : (vs : List Val) → FrameP (sliceToInt vs)
  | [] => FrameP.pure _
  | v :: vs => by
    cases v <;> try exact FrameP.panic
    rename_i k n
    cases k <;> first
      | exact FrameP.bind (FrameP.sliceToInt vs) fun _ => FrameP.pure _
      | exact FrameP.panic

theorem FrameP.sliceToNode : (vs : List Val) → FrameP (sliceToNode vs)
  | [] => FrameP.pure _
  | v :: vs => by
    cases v <;> try exact FrameP.fail _
    rename_i k n
    cases k <;> first
      | exact FrameP.bind (FrameP.sliceToNode vs) fun _ => FrameP.pure _
      | exact FrameP.fail _

theorem FrameP.sliceToURel : (vs : List Val) → FrameP (sliceToURel vs)
  | [] => FrameP.pure _
  | v :: vs => by
    cases v <;> try exact FrameP.fail _
    rename_i k n
    cases k <;> first
      | exact FrameP.bind (FrameP.sliceToURel vs) fun _ => FrameP.pure _
      | exact FrameP.fail _

theorem FrameP.ite {α : Type} {c : Prop} [Decidable c] {m f : Dec α} (h1 : FrameP m) (h2 : FrameP f) : FrameP (if c then m else f) := by
  by_cases h : c
  · rw [if_pos h]; exact h1
  · rw [if_neg h]; exact h2

macro "dec_frame" : tactic => `(tactic| repeat (first
  | assumption
  | exact FrameP.pure _
  | exact FrameP.fail _
  | exact FrameP.panic
  | exact FrameP.needInt64 _
  | exact FrameP.needFloat _
  | exact FrameP.needStr _
  | exact FrameP.needMap _
  | exact FrameP.needList _
  | exact FrameP.mustInt64 _
  | exact FrameP.sliceToString _
  | exact FrameP.sliceToInt _
  | exact FrameP.sliceToNode _
  | exact FrameP.sliceToURel _
  | exact FrameP.next _
  | exact FrameP.readByte
  | refine FrameP.bind ?_ (fun _ => ?_)
  | split))

theorem FrameP.decodeN {dec : Dec Val} (h : FrameP dec) : (n : Nat) → FrameP (decodeN dec n)
  | 0 => FrameP.pure _
  | n + 1 => FrameP.bind h fun _ => FrameP.bind (FrameP.decodeN h n) fun _ => FrameP.pure _

theorem FrameP.decodeSlice {dec : Dec Val} (h : FrameP dec) (n : Int) : FrameP (decodeSlice dec n) := by
  unfold Verif.decodeSlice
  split
  · exact FrameP.panic
  · exact FrameP.bind (FrameP.decodeN h _) fun _ => FrameP.pure _

theorem FrameP.decodeEntries {dec : Dec Val} (h : FrameP dec) : (n : Nat) → (m : Entries) → FrameP (decodeEntries dec n m)
  | 0, m => FrameP.pure _
  | n + 1, m => by
    unfold Verif.decodeEntries
    refine FrameP.bind h fun k => FrameP.bind h fun v => ?_
    cases k <;> first
      | exact FrameP.fail _
      | exact FrameP.decodeEntries h n _

theorem FrameP.decodeMap {dec : Dec Val} (h : FrameP dec) (n : Int) : FrameP (decodeMap dec n) :=
  FrameP.bind (FrameP.decodeEntries h _ _) fun _ => FrameP.pure _

theorem FrameP.decodeDateTimeZone {dec : Dec Val} (h : FrameP dec) (env : Env) : FrameP (decodeDateTimeZone env dec) := by
  unfold Verif.decodeDateTimeZone
  refine FrameP.bind h fun _ => FrameP.bind (FrameP.needInt64 _) fun _ => FrameP.bind h fun _ => FrameP.bind (FrameP.needInt64 _) fun _ =>
    FrameP.bind h fun _ => FrameP.bind (FrameP.needStr _) fun z => ?_
  cases env.tz z
  · exact FrameP.fail _
  · exact FrameP.pure _

theorem FrameP.decodeStruct {dec : Dec Val} (h : FrameP dec) (env : Env) (ver : Ver) : FrameP (decodeStruct env ver dec) := by
  unfold Verif.decodeStruct
  refine FrameP.bind (FrameP.wrapErr _ FrameP.readByte) fun sig => ?_
  have h19 := FrameP.decodeDateTimeZone h env
  refine FrameP.ite ?_ ?_
  · unfold decodeNode; dec_frame
  refine FrameP.ite ?_ ?_
  · unfold decodeRelationship; dec_frame
  refine FrameP.ite ?_ ?_
  · unfold decodePath; dec_frame
  refine FrameP.ite ?_ ?_
  · unfold decodeUnboundRelationship; dec_frame
  refine FrameP.ite ?_ ?_
  · unfold decodePoint2D; dec_frame
  refine FrameP.ite ?_ ?_
  · unfold decodePoint3D; dec_frame
  refine FrameP.ite ?_ ?_
  · unfold decodeRecord; dec_frame
  refine FrameP.ite ?_ ?_
  · unfold decodeFailure; dec_frame
  refine FrameP.ite ?_ ?_
  · exact FrameP.pure _
  refine FrameP.ite ?_ ?_
  · unfold decodeSuccess; dec_frame
  refine FrameP.ite ?_ ?_
  · exact FrameP.pure _
  refine FrameP.ite ?_ ?_
  · exact FrameP.pure _
  refine FrameP.ite ?_ ?_
  · exact FrameP.pure _
  refine FrameP.ite ?_ ?_
  · unfold decodeDate; dec_frame
  refine FrameP.ite ?_ ?_
  · unfold decodeClock; dec_frame
  refine FrameP.ite ?_ ?_
  · unfold decodeLocalClock; dec_frame
  refine FrameP.ite ?_ ?_
  · unfold decodeLocalTime; dec_frame
  refine FrameP.ite ?_ ?_
  · unfold decodeDateTimeOffset; dec_frame
  refine FrameP.ite ?_ ?_
  · exact h19
  refine FrameP.ite ?_ ?_
  · unfold decodeDuration; dec_frame
  exact FrameP.fail _

/-- Widths announced by markers are positive. -/
def Marker.widthPos : Marker → Prop
  | .int k | .str k | .list k | .map k | .struct k => 0 < k
  | _ => True

instance (m : Marker) : Decidable m.widthPos := by cases m <;> unfold Marker.widthPos <;> infer_instance

theorem classify_widthPos_nat : ∀ n < 256, (classify (UInt8.ofNat n)).widthPos := by decide +kernel

theorem classify_widthPos (m : UInt8) : (classify m).widthPos := by
  have := classify_widthPos_nat m.toNat (UInt8_lt m)
  rwa [UInt8.ofNat_toNat] at this

theorem FrameP.decodeMarker {dec : Dec Val} (h : FrameP dec) (env : Env) (ver : Ver) {mk : Marker} (hw : mk.widthPos) :
    FrameP (decodeMarker env ver dec mk) := by
  have hs := FrameP.decodeStruct h env ver
  cases mk <;> simp only [Verif.decodeMarker, Marker.widthPos] at hw ⊢
  case int k => exact FrameP.bind (FrameP.readSigned _ hw) fun _ => FrameP.pure _
  case float => exact FrameP.bind (FrameP.readUnsigned _ (by omega)) fun _ => FrameP.pure _
  case str k => exact FrameP.bind (FrameP.wrapErr _ (FrameP.readSigned _ hw)) fun _ => FrameP.bind (FrameP.next _) fun _ => FrameP.pure _
  case tinyList n => exact FrameP.decodeSlice h _
  case tinyMap n => exact FrameP.decodeMap h _
  case list k => exact FrameP.bind (FrameP.wrapErr _ (FrameP.readSigned _ hw)) fun _ => FrameP.decodeSlice h _
  case map k => exact FrameP.bind (FrameP.wrapErr _ (FrameP.readSigned _ hw)) fun _ => FrameP.decodeMap h _
  case tinyStruct n => exact hs
  case struct k => exact FrameP.bind (FrameP.wrapErr _ (FrameP.readSigned _ hw)) fun _ => hs
  all_goals dec_frame

theorem FrameP.decodeF (env : Env) (ver : Ver) : (n : Nat) → FrameP (decodeF env ver n)
  | 0 => by intro b a r _ h; cases h
  | n + 1 => FrameP.bind (FrameP.wrapErr _ FrameP.readByte) fun m =>
      FrameP.decodeMarker (FrameP.decodeF env ver n) env ver (classify_widthPos m)

/-! ### Agreement of v1 and v2 -/

/-- The error of `decodeStruct` for an unknown signature (decoderV1.go 317, decoderV2.go 330). -/
def unknownStruct : Err := .new "Unrecognized type decoding struct with signature"

/-- Same result, unless the first step ends with `unknownStruct`. -/
def Sim {α : Type} (m m' : Dec α) : Prop := ∀ b, m b = m' b ∨ m b = .err unknownStruct

theorem Sim.refl {α : Type} (m : Dec α) : Sim m m := fun _ => .inl rfl

theorem Sim.bind {α β : Type} {m m' : Dec α} {f f' : α → Dec β} (hm : Sim m m') (hf : ∀ a, Sim (f a) (f' a)) :
    Sim (m >>= f) (m' >>= f') := by
  intro b
  rw [Dec.bind_apply, Dec.bind_apply]
  rcases hm b with h | h
  · rw [← h]
    cases m b with
    | ok p => obtain ⟨a, r⟩ := p; exact hf a r
    | err e => exact .inl rfl
    | panic => exact .inl rfl
    | fuel => exact .inl rfl
  · rw [h]; exact .inr rfl

macro "dec_sim" : tactic => `(tactic| repeat (first
  | assumption
  | exact Sim.refl _
  | refine Sim.bind ?_ (fun _ => ?_)))

theorem Sim.decodeN {dec dec' : Dec Val} (h : Sim dec dec') : (n : Nat) → Sim (decodeN dec n) (decodeN dec' n)
  | 0 => Sim.refl _
  | n + 1 => Sim.bind h fun _ => Sim.bind (Sim.decodeN h n) fun _ => Sim.refl _

theorem Sim.decodeSlice {dec dec' : Dec Val} (h : Sim dec dec') (n : Int) : Sim (decodeSlice dec n) (decodeSlice dec' n) := by
  unfold Verif.decodeSlice
  split
  · exact Sim.refl _
  · exact Sim.bind (Sim.decodeN h _) fun _ => Sim.refl _

theorem Sim.decodeEntries {dec dec' : Dec Val} (h : Sim dec dec') : (n : Nat) → (m : Entries) →
    Sim (decodeEntries dec n m) (decodeEntries dec' n m)
  | 0, m => Sim.refl _
  | n + 1, m => by
    unfold Verif.decodeEntries
    refine Sim.bind h fun k => Sim.bind h fun v => ?_
    cases k <;> first
      | exact Sim.refl _
      | exact Sim.decodeEntries h n _

theorem Sim.decodeMap {dec dec' : Dec Val} (h : Sim dec dec') (n : Int) : Sim (decodeMap dec n) (decodeMap dec' n) :=
  Sim.bind (Sim.decodeEntries h _ _) fun _ => Sim.refl _

theorem Sim.decodeStruct {dec dec' : Dec Val} (h : Sim dec dec') (env : Env) :
    Sim (decodeStruct env .v1 dec) (decodeStruct env .v2 dec') := by
  unfold Verif.decodeStruct
  refine Sim.bind (Sim.refl _) fun sig => ?_
  simp only [reduceCtorEq, false_and, if_false, true_and]
  by_cases h1 : sig = 0x4E
  · simp only [h1, if_true]; unfold decodeNode; dec_sim
  by_cases h2 : sig = 0x52
  · simp only [h2, if_true]; unfold decodeRelationship; dec_sim
  by_cases h3 : sig = 0x50
  · simp only [h3, if_true]; unfold decodePath; dec_sim
  by_cases h4 : sig = 0x72
  · simp only [h4, if_true]; unfold decodeUnboundRelationship; dec_sim
  by_cases h5 : sig = 0x71
  · subst h5; unfold decodeRecord; exact Sim.bind h fun _ => Sim.refl _
  by_cases h6 : sig = 0x7F
  · subst h6; unfold decodeFailure; exact Sim.bind h fun _ => Sim.refl _
  by_cases h7 : sig = 0x7E
  · subst h7; exact Sim.refl _
  by_cases h8 : sig = 0x70
  · subst h8; unfold decodeSuccess; exact Sim.bind h fun _ => Sim.refl _
  by_cases h9 : sig = 0x2F
  · subst h9; exact Sim.refl _
  by_cases h10 : sig = 0x3F
  · subst h10; exact Sim.refl _
  by_cases h11 : sig = 0x0F
  · subst h11; exact Sim.refl _
  simp only [h1, h2, h3, h4, h5, h6, h7, h8, h9, h10, h11, if_false]
  exact fun b => .inr rfl

theorem Sim.decodeMarker {dec dec' : Dec Val} (h : Sim dec dec') (env : Env) (mk : Marker) :
    Sim (decodeMarker env .v1 dec mk) (decodeMarker env .v2 dec' mk) := by
  cases mk <;> simp only [Verif.decodeMarker] <;> try exact Sim.refl _
  · exact Sim.decodeSlice h _
  · exact Sim.bind (Sim.refl _) fun _ => Sim.decodeSlice h _
  · exact Sim.decodeMap h _
  · exact Sim.bind (Sim.refl _) fun _ => Sim.decodeMap h _
  · exact Sim.decodeStruct h env
  · exact Sim.bind (Sim.refl _) fun _ => Sim.decodeStruct h env

theorem Sim.decodeF (env : Env) : (n : Nat) → Sim (decodeF env .v1 n) (decodeF env .v2 n)
  | 0 => Sim.refl _
  | n + 1 => Sim.bind (Sim.refl _) fun m => Sim.decodeMarker (Sim.decodeF env n) env (classify m)

end Verif

/-
Predicates on decoding steps that are closed under the building blocks of the decoder hold of the decoder.
-/
import Verif.Proofs.DecInv
namespace Verif
open Spec

/-- Closure under the building blocks, except `next` and `panic`. -/
structure Closed (P : {α : Type} → Dec α → Prop) : Prop where
  pure : ∀ {α : Type} (a : α), P (Pure.pure a : Dec α)
  bind : ∀ {α β : Type} {m : Dec α} {f : α → Dec β}, P m → (∀ a, P (f a)) → P (m >>= f)
  fail : ∀ {α : Type} (e : Err), P (Dec.fail e : Dec α)
  wrapErr : ∀ {α : Type} (msg : String) {m : Dec α}, P m → P (Dec.wrapErr msg m)
  readByte : P readByte
  readUnsigned : ∀ k, 0 < k → P (readUnsigned k)

namespace Closed
variable {P : {α : Type} → Dec α → Prop} (C : Closed P)
include C

theorem readSigned (k : Nat) (hk : 0 < k) : P (readSigned k) := C.bind (C.readUnsigned k hk) fun _ => C.pure _

theorem needInt64 (v : Val) : P (needInt64 v) := by
  unfold Verif.needInt64; split
  · exact C.pure _
  · exact C.fail _

theorem needFloat (v : Val) : P (needFloat v) := by
  unfold Verif.needFloat; split
  · exact C.pure _
  · exact C.fail _

theorem needStr (v : Val) : P (needStr v) := by
  unfold Verif.needStr; split
  · exact C.pure _
  · exact C.fail _

theorem needMap (v : Val) : P (needMap v) := by
  unfold Verif.needMap; split
  · exact C.pure _
  · exact C.fail _

theorem needList (v : Val) : P (needList v) := by
  unfold Verif.needList; split
  · exact C.pure _
  · exact C.fail _

theorem ite {α : Type} {c : Prop} [Decidable c] {m f : Dec α} (h1 : P m) (h2 : P f) : P (if c then m else f) := by
  by_cases h : c
  · rw [if_pos h]; exact h1
  · rw [if_neg h]; exact h2

theorem sliceToString : (vs : List Val) → P (sliceToString vs)
  | [] => C.pure _
  | v :: vs => by
    cases v <;> first
      | exact C.bind (sliceToString vs) fun _ => C.pure _
      | exact C.fail _

theorem sliceToNode : (vs : List Val) → P (sliceToNode vs)
  | [] => C.pure _
  | v :: vs => by
    cases v <;> try exact C.fail _
    rename_i k n
    cases k <;> first
      | exact C.bind (sliceToNode vs) fun _ => C.pure _
      | exact C.fail _

theorem sliceToURel : (vs : List Val) → P (sliceToURel vs)
  | [] => C.pure _
  | v :: vs => by
    cases v <;> try exact C.fail _
    rename_i k n
    cases k <;> first
      | exact C.bind (sliceToURel vs) fun _ => C.pure _
      | exact C.fail _

theorem mustInt64 (hp : ∀ {α : Type}, P (Dec.panic : Dec α)) (v : Val) : P (mustInt64 v) := by
  unfold Verif.mustInt64; split
  · exact C.pure _
  · exact hp

theorem sliceToInt (hp : ∀ {α : Type}, P (Dec.panic : Dec α)) : (vs : List Val) → P (sliceToInt vs)
  | [] => C.pure _
  | v :: vs => by
    cases v <;> try exact hp
    rename_i k n
    cases k <;> first
      | exact C.bind (sliceToInt hp vs) fun _ => C.pure _
      | exact hp

theorem decodeN {dec : Dec Val} (h : P dec) : (n : Nat) → P (decodeN dec n)
  | 0 => C.pure _
  | n + 1 => C.bind h fun _ => C.bind (decodeN h n) fun _ => C.pure _

theorem decodeSlice {dec : Dec Val} (h : P dec) (n : Nat) : P (decodeSlice dec n) := by
  unfold Verif.decodeSlice
  rw [if_neg (by omega)]
  exact C.bind (C.decodeN h _) fun _ => C.pure _

theorem decodeSlice' (hp : ∀ {α : Type}, P (Dec.panic : Dec α)) {dec : Dec Val} (h : P dec) (n : Int) : P (Verif.decodeSlice dec n) := by
  unfold Verif.decodeSlice
  split
  · exact hp
  · exact C.bind (C.decodeN h _) fun _ => C.pure _

theorem decodeEntries {dec : Dec Val} (h : P dec) : (n : Nat) → (m : Entries) → P (decodeEntries dec n m)
  | 0, m => C.pure _
  | n + 1, m => by
    unfold Verif.decodeEntries
    refine C.bind h fun k => C.bind h fun v => ?_
    cases k <;> first
      | exact C.fail _
      | exact decodeEntries h n _

theorem decodeMap {dec : Dec Val} (h : P dec) (n : Int) : P (decodeMap dec n) :=
  C.bind (C.decodeEntries h _ _) fun _ => C.pure _

theorem decodeDateTimeZone {dec : Dec Val} (h : P dec) (env : Env) : P (decodeDateTimeZone env dec) := by
  unfold Verif.decodeDateTimeZone
  refine C.bind h fun _ => C.bind (C.needInt64 _) fun _ => C.bind h fun _ => C.bind (C.needInt64 _) fun _ =>
    C.bind h fun _ => C.bind (C.needStr _) fun z => ?_
  cases env.tz z
  · exact C.fail _
  · exact C.pure _

/-- The dispatch on the signature, given the four graph structures. -/
theorem decodeStructBody {dec : Dec Val} (h : P dec) (env : Env) (ver : Ver) (sig : UInt8)
    (h1 : sig = 0x4E → P (decodeNode dec)) (h2 : sig = 0x52 → P (decodeRelationship dec)) (h3 : sig = 0x50 → P (decodePath dec))
    (h4 : sig = 0x72 → P (decodeUnboundRelationship dec)) : P (
  if sig = 0x4E then decodeNode dec
  else if sig = 0x52 then decodeRelationship dec
  else if sig = 0x50 then decodePath dec
  else if sig = 0x72 then decodeUnboundRelationship dec
  else if ver = .v2 ∧ sig = 0x58 then decodePoint2D dec
  else if ver = .v2 ∧ sig = 0x59 then decodePoint3D dec
  else if sig = 0x71 then decodeRecord dec
  else if sig = 0x7F then decodeFailure dec
  else if sig = 0x7E then Pure.pure (Val.struct .ignored [])
  else if sig = 0x70 then decodeSuccess dec
  else if sig = 0x2F then Pure.pure (Val.struct .discardAll [])
  else if sig = 0x3F then Pure.pure (Val.struct .pullAll [])
  else if sig = 0x0F then Pure.pure (Val.struct .reset [])
  else if ver = .v2 ∧ sig = 0x44 then decodeDate dec
  else if ver = .v2 ∧ sig = 0x54 then decodeClock dec
  else if ver = .v2 ∧ sig = 0x74 then decodeLocalClock dec
  else if ver = .v2 ∧ sig = 0x64 then decodeLocalTime dec
  else if ver = .v2 ∧ sig = 0x46 then decodeDateTimeOffset dec
  else if ver = .v2 ∧ sig = 0x66 then Verif.decodeDateTimeZone env dec
  else if ver = .v2 ∧ sig = 0x45 then decodeDuration dec
  else Dec.fail (.new "Unrecognized type decoding struct with signature")) := by
  have e : ∀ {c : Prop} [Decidable c] {m f : Dec Val}, (c → P m) → P f → P (if c then m else f) := by
    intro c _ m f hm hf
    by_cases hc : c
    · rw [if_pos hc]; exact hm hc
    · rw [if_neg hc]; exact hf
  refine e h1 (e h2 (e h3 (e h4 ?_)))
  refine C.ite ?_ (C.ite ?_ (C.ite ?_ (C.ite ?_ (C.ite (C.pure _) (C.ite ?_ (C.ite (C.pure _) (C.ite (C.pure _) (C.ite (C.pure _)
    (C.ite ?_ (C.ite ?_ (C.ite ?_ (C.ite ?_ (C.ite ?_ (C.ite (C.decodeDateTimeZone h env) (C.ite ?_ (C.fail _))))))))))))))))
  · unfold decodePoint2D
    exact C.bind h fun _ => C.bind (C.needInt64 _) fun _ => C.bind h fun _ => C.bind (C.needFloat _) fun _ => C.bind h fun _ =>
      C.bind (C.needFloat _) fun _ => C.pure _
  · unfold decodePoint3D
    exact C.bind h fun _ => C.bind (C.needInt64 _) fun _ => C.bind h fun _ => C.bind (C.needFloat _) fun _ => C.bind h fun _ =>
      C.bind (C.needFloat _) fun _ => C.bind h fun _ => C.bind (C.needFloat _) fun _ => C.pure _
  · unfold decodeRecord; exact C.bind h fun _ => C.bind (C.needList _) fun _ => C.pure _
  · unfold decodeFailure; exact C.bind h fun _ => C.bind (C.needMap _) fun _ => C.pure _
  · unfold decodeSuccess; exact C.bind h fun _ => C.bind (C.needMap _) fun _ => C.pure _
  · unfold decodeDate; exact C.bind h fun _ => C.bind (C.needInt64 _) fun _ => C.pure _
  · unfold decodeClock
    exact C.bind h fun _ => C.bind (C.needInt64 _) fun _ => C.bind h fun _ => C.bind (C.needInt64 _) fun _ => C.pure _
  · unfold decodeLocalClock; exact C.bind h fun _ => C.bind (C.needInt64 _) fun _ => C.pure _
  · unfold decodeLocalTime
    exact C.bind h fun _ => C.bind (C.needInt64 _) fun _ => C.bind h fun _ => C.bind (C.needInt64 _) fun _ => C.pure _
  · unfold decodeDateTimeOffset
    exact C.bind h fun _ => C.bind (C.needInt64 _) fun _ => C.bind h fun _ => C.bind (C.needInt64 _) fun _ => C.bind h fun _ =>
      C.bind (C.needInt64 _) fun _ => C.pure _
  · unfold decodeDuration
    exact C.bind h fun _ => C.bind (C.needInt64 _) fun _ => C.bind h fun _ => C.bind (C.needInt64 _) fun _ => C.bind h fun _ =>
      C.bind (C.needInt64 _) fun _ => C.bind h fun _ => C.bind (C.needInt64 _) fun _ => C.pure _

theorem decodeNode (hp : ∀ {α : Type}, P (Dec.panic : Dec α)) {dec : Dec Val} (h : P dec) : P (decodeNode dec) := by
  unfold Verif.decodeNode
  exact C.bind h fun _ => C.bind (C.mustInt64 hp _) fun _ => C.bind h fun _ => C.bind (C.needList _) fun _ =>
    C.bind (C.sliceToString _) fun _ => C.bind h fun _ => C.bind (C.needMap _) fun _ => C.pure _

theorem decodeRelationship (hp : ∀ {α : Type}, P (Dec.panic : Dec α)) {dec : Dec Val} (h : P dec) : P (decodeRelationship dec) := by
  unfold Verif.decodeRelationship
  exact C.bind h fun _ => C.bind (C.mustInt64 hp _) fun _ => C.bind h fun _ => C.bind (C.mustInt64 hp _) fun _ => C.bind h fun _ =>
    C.bind (C.mustInt64 hp _) fun _ => C.bind h fun _ => C.bind (C.needStr _) fun _ => C.bind h fun _ => C.bind (C.needMap _) fun _ => C.pure _

theorem decodePath (hp : ∀ {α : Type}, P (Dec.panic : Dec α)) {dec : Dec Val} (h : P dec) : P (decodePath dec) := by
  unfold Verif.decodePath
  exact C.bind h fun _ => C.bind (C.needList _) fun _ => C.bind (C.sliceToNode _) fun _ => C.bind h fun _ => C.bind (C.needList _) fun _ =>
    C.bind (C.sliceToURel _) fun _ => C.bind h fun _ => C.bind (C.needList _) fun _ => C.bind (C.sliceToInt hp _) fun _ => C.pure _

theorem decodeUnboundRelationship (hp : ∀ {α : Type}, P (Dec.panic : Dec α)) {dec : Dec Val} (h : P dec) :
    P (decodeUnboundRelationship dec) := by
  unfold Verif.decodeUnboundRelationship
  exact C.bind h fun _ => C.bind (C.mustInt64 hp _) fun _ => C.bind h fun _ => C.bind (C.needStr _) fun _ => C.bind h fun _ =>
    C.bind (C.needMap _) fun _ => C.pure _

theorem decodeStruct (hp : ∀ {α : Type}, P (Dec.panic : Dec α)) {dec : Dec Val} (h : P dec) (env : Env) (ver : Ver) :
    P (decodeStruct env ver dec) := by
  unfold Verif.decodeStruct
  refine C.bind (C.wrapErr _ C.readByte) fun sig => ?_
  exact C.decodeStructBody h env ver sig (fun _ => C.decodeNode hp h) (fun _ => C.decodeRelationship hp h) (fun _ => C.decodePath hp h)
    (fun _ => C.decodeUnboundRelationship hp h)

/-- Every branch of `decode` except the strings. -/
theorem decodeMarker (hp : ∀ {α : Type}, P (Dec.panic : Dec α)) {dec : Dec Val} (h : P dec) (env : Env) (ver : Ver) {mk : Marker}
    (hw : mk.widthPos) (h1 : ∀ n, mk ≠ .tinyStr n) (h2 : ∀ k, mk ≠ .str k) : P (decodeMarker env ver dec mk) := by
  have hs := C.decodeStruct hp h env ver
  cases mk <;> simp only [Verif.decodeMarker, Marker.widthPos] at hw ⊢
  case nil => exact C.pure _
  case bool => exact C.pure _
  case tinyInt => exact C.pure _
  case int k => exact C.bind (C.readSigned _ hw) fun _ => C.pure _
  case float => exact C.bind (C.readUnsigned _ (by omega)) fun _ => C.pure _
  case tinyStr n => exact absurd rfl (h1 n)
  case str k => exact absurd rfl (h2 k)
  case tinyList n => exact C.decodeSlice' hp h _
  case list k => exact C.bind (C.wrapErr _ (C.readSigned _ hw)) fun _ => C.decodeSlice' hp h _
  case tinyMap n => exact C.decodeMap h _
  case map k => exact C.bind (C.wrapErr _ (C.readSigned _ hw)) fun _ => C.decodeMap h _
  case tinyStruct n => exact hs
  case struct k => exact C.bind (C.wrapErr _ (C.readSigned _ hw)) fun _ => hs
  case unknown => exact C.fail _

end Closed
end Verif

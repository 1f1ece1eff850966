/-
C26  Memory requested while decoding is bounded by the input.

False: `decodeSlice` allocates the announced number of slots before it has read any element (`C26_refuted`).  For messages that are decoded
successfully the bound holds (`C26_success_partial`).
-/
import Verif.Proofs.BodyInv
import Verif.Proofs.DecRel
import Verif.Proofs.ValEq
namespace Verif
open Spec

/-- The size passed to `make([]interface{}, size)` (decoderV2.go 247, decoderV1.go 252) by the outermost call of `decode`, if the value is a
list (decoderV2.go 179-208). -/
def sliceRequest (b : Bytes) : Option Int :=
  match b with
  | [] => none
  | m :: b1 =>
    match classify m with
    | .tinyList n => some n
    | .list k =>
      match readSigned k b1 with
      | .ok (n, _) => some n
      | _ => none
    | _ => none

/-- The property (for the outermost list). -/
def C26_statement : Prop := ∀ (b : Bytes) (n : Int), sliceRequest b = some n → n ≤ b.length

/-- Five bytes request 2147483647 slots of 16 bytes each. -/
theorem C26_refuted : ¬ C26_statement := by
  intro h
  have := h [0xD6, 0x7F, 0xFF, 0xFF, 0xFF] 2147483647 (by decide +kernel)
  simp at this

mutual
/-- Number of list slots in a value. -/
def listSlots : Val → Nat
  | .list _ vs => vs.length + listSlotsL vs
  | .map es => listSlotsE es
  | .struct _ fs => listSlotsL fs
  | _ => 0
def listSlotsL : List Val → Nat
  | [] => 0
  | v :: vs => listSlots v + listSlotsL vs
def listSlotsE : Entries → Nat
  | [] => 0
  | (_, v) :: es => listSlots v + listSlotsE es
end

theorem listSlotsE_insert (m : Entries) (k : Bytes) (v : Val) : listSlotsE (mapInsert m k v) ≤ listSlotsE m + listSlots v := by
  induction m with
  | nil => simp [mapInsert, listSlotsE]
  | cons e m ih =>
    obtain ⟨k', v'⟩ := e
    unfold mapInsert
    split
    · simp only [listSlotsE]; omega
    · simp only [listSlotsE]; omega

theorem builtFrom_slots {fs : List Val} {v : Val} (h : BuiltFrom fs v) : listSlots v ≤ listSlotsL fs := by
  cases h with
  | fields k => simp [listSlots]
  | path ns rs ss ss' hl hi =>
    have : listSlotsL ss' = 0 := by
      clear hl
      induction ss' with
      | nil => rfl
      | cons s ss' ih =>
        obtain ⟨n, rfl⟩ := hi s (by simp)
        simp only [listSlotsL, listSlots, ih fun s hs => hi s (by simp [hs])]
    simp only [listSlots, listSlotsL, this, hl]; omega
  | point k a n fs => simp only [listSlots, listSlotsL]; omega
  | _ => simp [listSlots]

theorem decodeN_slots {dec : Dec Val} (hdec : ∀ b v r, dec b = .ok (v, r) → listSlots v + r.length < b.length) :
    (n : Nat) → (b r : Bytes) → (vs : List Val) → decodeN dec n b = .ok (vs, r) → vs.length + listSlotsL vs + r.length ≤ b.length
  | 0, b, r, vs, h => by rw [decodeN, Dec.pure_eq_ok] at h; obtain ⟨rfl, rfl⟩ := h; simp [listSlotsL]
  | n + 1, b, r, vs, h => by
    simp only [decodeN, Dec.bind_eq_ok, Dec.pure_eq_ok] at h
    obtain ⟨x, b', h1, ys, b2, h2, rfl, rfl⟩ := h
    have := hdec _ _ _ h1
    have := decodeN_slots hdec n _ _ _ h2
    simp only [listSlotsL, List.length_cons]; omega

theorem decodeEntries_slots {dec : Dec Val} (hdec : ∀ b v r, dec b = .ok (v, r) → listSlots v + r.length < b.length) :
    (n : Nat) → (m : Entries) → (b r : Bytes) → (es : Entries) → decodeEntries dec n m b = .ok (es, r) →
      listSlotsE es + r.length ≤ listSlotsE m + b.length
  | 0, m, b, r, es, h => by rw [decodeEntries, Dec.pure_eq_ok] at h; obtain ⟨rfl, rfl⟩ := h; omega
  | n + 1, m, b, r, es, h => by
    simp only [decodeEntries, Dec.bind_eq_ok] at h
    obtain ⟨k, b1, h1, v, b2, h2, h⟩ := h
    have e1 := hdec _ _ _ h1
    have e2 := hdec _ _ _ h2
    split at h
    · rename_i s
      have := decodeEntries_slots hdec n _ _ _ _ h
      have := listSlotsE_insert m s v
      omega
    · cases h

theorem decodeF_slots (env : Env) (ver : Ver) : (n : Nat) → (b : Bytes) → (v : Val) → (r : Bytes) → decodeF env ver n b = .ok (v, r) →
    listSlots v + r.length < b.length
  | 0, _, _, _, h => by cases h
  | n + 1, b, v, r, h => by
    obtain ⟨m, c, b', rfl, h'⟩ := decodeBody_inv env ver h
    simp only [List.length_cons, List.length_append]
    clear h
    rcases h' with ⟨hs, rfl⟩ | ⟨vs, rfl, h⟩ | ⟨k, es, rfl, h⟩ | h
    · have : listSlots v = 0 := by cases v <;> first | rfl | exact hs.elim
      omega
    · have := decodeN_slots (decodeF_slots env ver n) _ _ _ _ h
      simp only [listSlots]; omega
    · have := decodeEntries_slots (decodeF_slots env ver n) _ _ _ _ _ h
      simp only [listSlots, listSlotsE] at this ⊢; omega
    · obtain ⟨sig, b'', fs, rfl, h2, h3⟩ := decodeStruct_builtFrom env ver h
      have := decodeN_slots (decodeF_slots env ver n) _ _ _ _ h2
      have := builtFrom_slots h3
      simp only [List.length_cons]; omega

/-- In a successfully decoded value, the number of list slots at all depths is smaller than the number of bytes it was decoded from. -/
theorem C26_success_partial (env : Env) (ver : Ver) (b : Bytes) (v : Val) (r : Bytes) (h : decode env ver b = .ok (v, r)) :
    listSlots v + r.length < b.length :=
  decodeF_slots env ver _ b v r h

/-- The bound is sharp: lists of lists. -/
example : decode env0 .v2 [0x92, 0x90, 0xC0] = .ok (.list true [.list true [], .nil], []) ∧
    listSlots (.list true [.list true [], .nil]) = 2 := by
  constructor
  · decide +kernel
  · rfl

end Verif

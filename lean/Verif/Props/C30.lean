/-
C29, C30  Transaction metadata.
-/
import Verif.Model.Protocol
import Verif.Props.C18
namespace Verif

theorem mapGet_putIf (c : Bool) (m : Entries) (k : Bytes) (v : Val) (x : Bytes) :
    mapGet (putIf c m k v) x = if c = true ∧ x = k then some v else mapGet m x := by
  unfold putIf
  cases c
  · simp
  · simp only [if_true, true_and]
    rw [mapGet_mapInsert]
    by_cases h : k = x
    · rw [if_pos h, if_pos h.symm]
    · rw [if_neg h, if_neg fun h' => h h'.symm]

theorem mapGet_nil (x : Bytes) : mapGet [] x = none := rfl

/-- Lookup of any key in the metadata. -/
theorem buildTx_get (timeout : Option Int) (md : Entries) (db : Bytes) (mode : AccessMode) (x : Bytes) :
    mapGet (buildTxMetadataWithDatabase timeout md db mode) x =
      if db ≠ [] ∧ x = ascii "db" then some (.str db)
      else if mode ≠ readMode ∧ x = ascii "mode" then some (.str (ascii "r"))
      else if md ≠ [] ∧ x = ascii "tx_metadata" then some (.map md)
      else if x = ascii "tx_timeout" then
        match timeout with
        | some d => if d ≠ 0 then some (.int .int64 (Int.tdiv d 1000000)) else none
        | none => none
      else none := by
  unfold buildTxMetadataWithDatabase
  simp only [mapGet_putIf, decide_eq_true_eq, ne_eq, List.length_eq_zero_iff]
  split
  · rfl
  split
  · rfl
  split
  · rfl
  cases timeout with
  | none => simp [mapGet_nil]
  | some d =>
    simp only [mapGet_putIf, decide_eq_true_eq, mapGet_nil]
    by_cases h : x = ascii "tx_timeout"
    · simp [h]
    · simp [h]

theorem nodup_putIf (c : Bool) {m : Entries} (h : (m.map Prod.fst).Nodup) (k : Bytes) (v : Val) : ((putIf c m k v).map Prod.fst).Nodup := by
  unfold putIf; cases c
  · exact h
  · exact mapInsert_nodup h k v

/-- For all arguments: the database name is present exactly when it is non-empty, the timeout (in whole milliseconds) exactly when it is given and
non-zero, the user's metadata exactly when it is non-empty; no other key is present except `mode`, and no key occurs twice. -/
theorem C30_metadata (timeout : Option Int) (md : Entries) (db : Bytes) (mode : AccessMode) :
    let m := buildTxMetadataWithDatabase timeout md db mode
    (mapGet m (ascii "db") = if db = [] then none else some (.str db)) ∧
    (mapGet m (ascii "tx_metadata") = if md = [] then none else some (.map md)) ∧
    (∀ d, timeout = some d → d ≠ 0 → mapGet m (ascii "tx_timeout") = some (.int .int64 (Int.tdiv d 1000000))) ∧
    ((timeout = none ∨ timeout = some 0) → mapGet m (ascii "tx_timeout") = none) ∧
    (∀ x, mapGet m x ≠ none → x ∈ [ascii "db", ascii "tx_metadata", ascii "tx_timeout", ascii "mode"]) ∧
    (m.map Prod.fst).Nodup := by
  simp only [buildTx_get]
  have e1 : ascii "db" ≠ ascii "mode" := by decide
  have e2 : ascii "db" ≠ ascii "tx_metadata" := by decide
  have e3 : ascii "db" ≠ ascii "tx_timeout" := by decide
  have e4 : ascii "tx_metadata" ≠ ascii "db" := by decide
  have e5 : ascii "tx_metadata" ≠ ascii "mode" := by decide
  have e6 : ascii "tx_metadata" ≠ ascii "tx_timeout" := by decide
  have e7 : ascii "tx_timeout" ≠ ascii "db" := by decide
  have e8 : ascii "tx_timeout" ≠ ascii "mode" := by decide
  have e9 : ascii "tx_timeout" ≠ ascii "tx_metadata" := by decide
  refine ⟨?_, ?_, ?_, ?_, ?_, ?_⟩
  · by_cases h : db = [] <;> simp [h, e1, e2, e3]
  · by_cases h : md = [] <;> simp [h, e4, e5, e6]
  · rintro d rfl hd
    simp [e7, e8, e9, hd]
  · rintro (rfl | rfl) <;> simp [e7, e8, e9]
  · intro x h
    by_cases h1 : x = ascii "db"
    · simp [h1]
    by_cases h2 : x = ascii "mode"
    · simp [h2]
    by_cases h3 : x = ascii "tx_metadata"
    · simp [h3]
    by_cases h4 : x = ascii "tx_timeout"
    · simp [h4]
    · simp [h1, h2, h3, h4] at h
  · unfold buildTxMetadataWithDatabase
    refine nodup_putIf _ (nodup_putIf _ (nodup_putIf _ ?_ _ _) _ _) _ _
    cases timeout with
    | none => exact List.nodup_nil
    | some d => exact nodup_putIf (m := []) _ List.nodup_nil _ _

/-- A timeout of 1.5 s, metadata, a database. -/
example : (buildTxMetadataWithDatabase (some 1500000000) [([0x61], .nil)] [0x62] readMode).map Prod.fst =
    [ascii "tx_timeout", ascii "tx_metadata", ascii "db"] := by decide

/-- The same for `BuildTxMetadata`, which takes no database: never a database name, timeout and metadata as above, and no other key except `mode`. -/
theorem C30_default (timeout : Option Int) (md : Entries) (mode : AccessMode) :
    let m := buildTxMetadata timeout md mode
    (mapGet m (ascii "tx_metadata") = if md = [] then none else some (.map md)) ∧
    (∀ d, timeout = some d → d ≠ 0 → mapGet m (ascii "tx_timeout") = some (.int .int64 (Int.tdiv d 1000000))) ∧
    ((timeout = none ∨ timeout = some 0) → mapGet m (ascii "tx_timeout") = none) ∧
    (∀ x, mapGet m x ≠ none → x ∈ [ascii "tx_metadata", ascii "tx_timeout", ascii "mode"]) ∧
    (m.map Prod.fst).Nodup := by
  obtain ⟨h1, h2, h3, h4, h5, h6⟩ := C30_metadata timeout md [] mode
  refine ⟨h2, h3, h4, fun x hx => ?_, h6⟩
  have := h5 x hx
  rcases List.mem_cons.mp this with rfl | h
  · rw [if_pos rfl] at h1
    exact absurd h1 hx
  · exact h

example : (buildTxMetadata (some 1500000000) [([0x61], .nil)] writeMode).map Prod.fst =
    [ascii "tx_timeout", ascii "tx_metadata", ascii "mode"] := by decide

/-- The metadata says that the transaction is read-only (Bolt: `mode = "r"`). -/
def readOnly (m : Entries) : Prop := mapGet m (ascii "mode") = some (.str (ascii "r"))

/-- C29: a transaction is marked read-only exactly when read mode is requested. -/
def C29_statement : Prop := ∀ (timeout : Option Int) (md : Entries) (db : Bytes) (mode : AccessMode),
  readOnly (buildTxMetadataWithDatabase timeout md db mode) ↔ mode = readMode

/-- What the code does, for all arguments: the mark is set exactly when read mode was NOT requested. -/
theorem C29_inverted (timeout : Option Int) (md : Entries) (db : Bytes) (mode : AccessMode) :
    readOnly (buildTxMetadataWithDatabase timeout md db mode) ↔ mode ≠ readMode := by
  have e1 : ascii "mode" ≠ ascii "db" := by decide
  have e2 : ascii "mode" ≠ ascii "tx_metadata" := by decide
  have e3 : ascii "mode" ≠ ascii "tx_timeout" := by decide
  unfold readOnly
  rw [buildTx_get]
  by_cases h : mode = readMode <;> simp [h, e1, e2, e3]

/-- The same for `BuildTxMetadata`. -/
theorem C29_inverted_default (timeout : Option Int) (md : Entries) (mode : AccessMode) :
    readOnly (buildTxMetadata timeout md mode) ↔ mode ≠ readMode := C29_inverted timeout md [] mode

example : readOnly (buildTxMetadata none [] writeMode) := (C29_inverted_default none [] writeMode).mpr (by decide)

/-- The property is false for every transaction. -/
theorem C29_refuted : ¬ C29_statement := by
  intro h
  have := (C29_inverted none [] [] writeMode).mpr (by decide)
  exact absurd ((h none [] [] writeMode).mp this) (by decide)

/-- Both directions fail: read mode is not announced. -/
theorem C29_read_not_announced (timeout : Option Int) (md : Entries) (db : Bytes) :
    ¬ readOnly (buildTxMetadataWithDatabase timeout md db readMode) := fun h => (C29_inverted timeout md db readMode).mp h rfl

end Verif

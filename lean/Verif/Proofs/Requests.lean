/-
The model's messages are the prescribed requests.
-/
import Verif.Proofs.Exchange
import Verif.Proofs.Wire
import Verif.Proofs.Parse
import Verif.Spec.Requests
namespace Verif
open Spec

/-- A message with a fitting tree whose strings are not longer than the chunk size is sent as one framed message carrying the tree. -/
theorem carries_of_tree (env : Env) (ver : Ver) {cs : Nat} (h8 : 8 ≤ cs) (hcs : cs ≤ 65535) {v : Val} {t : PS} (ht : tree env ver v = some t)
    (hf : t.Fits) (hs : v.All (strAtMost cs)) : Carries t (encodeMsg env ver cs v).1 := by
  obtain ⟨h1, h2⟩ := wire_of_tree env ver ht hf
  exact ⟨_, (encodeMsg_framed env ver h8 hcs hs h1).2, h2⟩

/-- The same for a short message and any chunk size. -/
theorem carries_of_tree_small (env : Env) (ver : Ver) {cs : Nat} (h1 : 1 ≤ cs) (hcs : cs ≤ 65535) {v : Val} {t : PS} (ht : tree env ver v = some t)
    (hf : t.Fits) (hs : (payload env ver v).length ≤ 65535) : Carries t (encodeMsg env ver cs v).1 := by
  obtain ⟨h2, h3⟩ := wire_of_tree env ver ht hf
  exact ⟨_, (encodeMsg_framed_small env ver h1 hcs hs h2).2, h3⟩

section
variable (env : Env) (ver : Ver) {cs : Nat} (h1 : 1 ≤ cs) (hcs : cs ≤ 65535)
include h1 hcs

theorem carries_small {v : Val} {t : PS} {p : Bytes} (ht : tree env ver v = some t) (hf : t.Fits) (hp : payload env ver v = p)
    (hl : p.length ≤ 65535) : Carries t (encodeMsg env ver cs v).1 :=
  carries_of_tree_small env ver h1 hcs ht hf (by rw [hp]; exact hl)

theorem carries_pullAll : Carries pullAllTree (encodeMsg env ver cs newPullAllMessage).1 :=
  carries_small env ver h1 hcs (p := [0xB0, 0x3F]) (by cases ver <;> rfl) (by simp [PS.Fits, PS.FitsWith, FitsList, pullAllTree])
    (by cases ver <;> rfl) (by simp)

theorem carries_commit : Carries (.struct 0x12 []) (encodeMsg env ver cs newCommitMessage).1 :=
  carries_small env ver h1 hcs (p := [0xB0, 0x12]) (by cases ver <;> rfl) (by simp [PS.Fits, PS.FitsWith, FitsList])
    (by cases ver <;> rfl) (by simp)

theorem carries_rollback : Carries (.struct 0x13 []) (encodeMsg env ver cs newRollbackMessage).1 :=
  carries_small env ver h1 hcs (p := [0xB0, 0x13]) (by cases ver <;> rfl) (by simp [PS.Fits, PS.FitsWith, FitsList])
    (by cases ver <;> rfl) (by simp)

theorem carries_reset : Carries (.struct 0x0F []) (encodeMsg env ver cs newResetMessage).1 :=
  carries_small env ver h1 hcs (p := [0xB0, 0x0F]) (by cases ver <;> rfl) (by simp [PS.Fits, PS.FitsWith, FitsList])
    (by cases ver <;> rfl) (by simp)

theorem carries_goodbye : Carries (.struct 0x02 []) (encodeMsg env ver cs newGoodbyeMessage).1 :=
  carries_small env ver h1 hcs (p := [0xB0, 0x02]) (by cases ver <;> rfl) (by simp [PS.Fits, PS.FitsWith, FitsList])
    (by cases ver <;> rfl) (by simp)

theorem carries_pull : Carries (pullTree .v4) (encodeMsg env ver cs (newPullMessage streamUnlimited absentQueryId)).1 :=
  carries_small env ver h1 hcs (p := [0xB1, 0x3F, 0xA1, 0x81, 0x6E, 0xFF]) (by cases ver <;> rfl)
    (by simp [PS.Fits, PS.FitsWith, FitsList, FitsEntries, pullTree, ascii])
    (by cases ver <;> rfl) (by simp)

theorem carries_runVerb (verb : Bytes) (hv : verb ∈ [ascii "BEGIN", ascii "COMMIT", ascii "ROLLBACK"]) :
    Carries (.struct 0x10 [.str verb, .map []]) (encodeMsg env ver cs (newRunMessage verb [])).1 := by
  have hl : ∀ v ∈ [ascii "BEGIN", ascii "COMMIT", ascii "ROLLBACK"], v.length < 16 := by decide
  have hf : (PS.struct 0x10 [.str verb, .map []]).Fits := by
    have := hl verb hv
    simp only [PS.Fits, PS.FitsWith, FitsList, FitsEntries, List.length_nil, List.length_cons]
    refine ⟨by omega, by omega, ⟨by omega, trivial⟩, trivial⟩
  simp only [List.mem_cons, List.not_mem_nil, or_false] at hv
  rcases hv with rfl | rfl | rfl
  · exact carries_small env ver h1 hcs (p := [0xB2, 0x10, 0x85] ++ ascii "BEGIN" ++ [0xA0]) (by cases ver <;> rfl) hf (by cases ver <;> rfl) (by decide)
  · exact carries_small env ver h1 hcs (p := [0xB2, 0x10, 0x86] ++ ascii "COMMIT" ++ [0xA0]) (by cases ver <;> rfl) hf (by cases ver <;> rfl) (by decide)
  · exact carries_small env ver h1 hcs (p := [0xB2, 0x10, 0x88] ++ ascii "ROLLBACK" ++ [0xA0]) (by cases ver <;> rfl) hf (by cases ver <;> rfl) (by decide)

end

theorem carries_pullAllMessage (env : Env) (p : Proto) {cs : Nat} (h1 : 1 ≤ cs) (hcs : cs ≤ 65535) :
    Carries (pullTree p) (encodeMsg env p.codec cs p.pullAllMessage).1 := by
  cases p
  · exact carries_pullAll env _ h1 hcs
  · exact carries_pullAll env _ h1 hcs
  · exact carries_pullAll env _ h1 hcs
  · exact carries_pull env _ h1 hcs

/-- The metadata of BEGIN. -/
theorem buildTx_eq (db : Bytes) (mode : AccessMode) : buildTxMetadataWithDatabase none [] db mode =
    (if mode = 0 then [] else [(ascii "mode", .str (ascii "r"))]) ++ (if db = [] then [] else [(ascii "db", .str db)]) := by
  have e : ascii "mode" ≠ ascii "db" := by decide
  unfold buildTxMetadataWithDatabase readMode putIf
  by_cases h1 : mode = 0 <;> by_cases h2 : db = [] <;> simp [h1, h2, mapInsert, e]

theorem carries_begin (env : Env) (ver : Ver) {cs : Nat} (h8 : 8 ≤ cs) (hcs : cs ≤ 65535) (db : Bytes) (mode : AccessMode) (hdb : db.length ≤ cs) :
    Carries (.struct 0x11 [txMetaTree db mode]) (encodeMsg env ver cs (newBeginMessage (buildTxMetadataWithDatabase none [] db mode))).1 := by
  have l1 : (ascii "mode").length = 4 := by decide
  have l2 : (ascii "db").length = 2 := by decide
  have l3 : (ascii "r").length = 1 := by decide
  have hk : StructKind.begin_.isStructure = true := rfl
  rw [buildTx_eq]
  refine carries_of_tree env ver h8 hcs ?_ ?_ ?_
  · by_cases h1 : mode = 0 <;> by_cases h2 : db = [] <;>
      simp [newBeginMessage, txMetaTree, tree, trees, treeEntries, h1, h2, hk, tag]
  · by_cases h1 : mode = 0 <;> by_cases h2 : db = [] <;>
      simp [txMetaTree, PS.Fits, PS.FitsWith, FitsList, FitsEntries, h1, h2, l1, l2, l3] <;> omega
  · by_cases h1 : mode = 0 <;> by_cases h2 : db = [] <;>
      simp [newBeginMessage, Val.All, AllList, AllEntries, strAtMost, h1, h2, l1, l2, l3] <;> omega

theorem buildTx_zero (db : Bytes) (mode : AccessMode) : buildTxMetadataWithDatabase (some 0) [] db mode = buildTxMetadataWithDatabase none [] db mode := by
  unfold buildTxMetadataWithDatabase
  rfl

/-- RUN with metadata on the wire. -/
theorem carries_autoRun (env : Env) (ver : Ver) {cs : Nat} (h8 : 8 ≤ cs) (hcs : cs ≤ 65535) (q : Bytes) (ps : Entries) (db : Bytes) (mode : AccessMode)
    {pt : PS} (hpt : tree env ver (.map ps) = some pt) (hf : pt.Fits) (hps : (Val.map ps).All (strAtMost cs)) (hq : q.length ≤ cs)
    (hdb : db.length ≤ cs) :
    (encodeMsg env ver cs (newAutoCommitTxRunMessage q ps 0 [] db mode)).2 = none ∧
    Carries (.struct 0x10 [.str q, pt, txMetaTree db mode]) (encodeMsg env ver cs (newAutoCommitTxRunMessage q ps 0 [] db mode)).1 := by
  have l1 : (ascii "mode").length = 4 := by decide
  have l2 : (ascii "db").length = 2 := by decide
  have l3 : (ascii "r").length = 1 := by decide
  have hk : StructKind.runWithMetadata.isStructure = true := rfl
  have hmeta : tree env ver (.map (buildTxMetadataWithDatabase none [] db mode)) = some (txMetaTree db mode) := by
    rw [buildTx_eq]
    by_cases h1 : mode = 0 <;> by_cases h2 : db = [] <;> simp [txMetaTree, tree, treeEntries, h1, h2]
  have hmf : (txMetaTree db mode).Fits := by
    by_cases h1 : mode = 0 <;> by_cases h2 : db = [] <;>
      simp [txMetaTree, PS.Fits, PS.FitsWith, FitsEntries, h1, h2, l1, l2, l3] <;> omega
  have hms : (Val.map (buildTxMetadataWithDatabase none [] db mode)).All (strAtMost cs) := by
    rw [buildTx_eq]
    by_cases h1 : mode = 0 <;> by_cases h2 : db = [] <;>
      simp [Val.All, AllEntries, strAtMost, h1, h2, l1, l2, l3] <;> omega
  have ht : tree env ver (newAutoCommitTxRunMessage q ps 0 [] db mode) = some (.struct 0x10 [.str q, pt, txMetaTree db mode]) := by
    unfold newAutoCommitTxRunMessage newRunMessageWithMetadata
    rw [buildTx_zero]
    simp only [tree, hk, if_true, trees] at hpt hmeta ⊢
    rw [hpt, hmeta]
    rfl
  have hfit : (PS.struct 0x10 [.str q, pt, txMetaTree db mode]).Fits := by
    simp only [PS.Fits, PS.FitsWith, FitsList, List.length_cons, List.length_nil, and_true]
    exact ⟨by omega, by omega, hf, hmf⟩
  have hall : (newAutoCommitTxRunMessage q ps 0 [] db mode).All (strAtMost cs) := by
    unfold newAutoCommitTxRunMessage newRunMessageWithMetadata
    rw [buildTx_zero]
    simp only [Val.All, AllList, and_true] at hps hms ⊢
    exact ⟨trivial, hq, hps, hms⟩
  obtain ⟨e1, e2⟩ := wire_of_tree env ver ht hfit
  exact ⟨(encodeMsg_framed env ver h8 hcs hall e1).1, _, (encodeMsg_framed env ver h8 hcs hall e1).2, e2⟩

/-- RUN without metadata on the wire. -/
theorem carries_txRun (env : Env) (ver : Ver) {cs : Nat} (h8 : 8 ≤ cs) (hcs : cs ≤ 65535) (q : Bytes) (ps : Entries)
    {pt : PS} (hpt : tree env ver (.map ps) = some pt) (hf : pt.Fits) (hps : (Val.map ps).All (strAtMost cs)) (hq : q.length ≤ cs) :
    (encodeMsg env ver cs (newUnmanagedTxRunMessage q ps)).2 = none ∧
    Carries (.struct 0x10 [.str q, pt, .map []]) (encodeMsg env ver cs (newUnmanagedTxRunMessage q ps)).1 := by
  have hk : StructKind.runWithMetadata.isStructure = true := rfl
  have ht : tree env ver (newUnmanagedTxRunMessage q ps) = some (.struct 0x10 [.str q, pt, .map []]) := by
    unfold newUnmanagedTxRunMessage newRunMessageWithMetadata
    simp only [tree, hk, if_true, trees] at hpt ⊢
    rw [hpt]
    rfl
  have hfit : (PS.struct 0x10 [.str q, pt, .map []]).Fits := by
    simp only [PS.Fits, PS.FitsWith, FitsList, FitsEntries, List.length_cons, List.length_nil, and_true]
    exact ⟨by omega, by omega, hf, by omega⟩
  have hall : (newUnmanagedTxRunMessage q ps).All (strAtMost cs) := by
    unfold newUnmanagedTxRunMessage newRunMessageWithMetadata
    simp only [Val.All, AllList, and_true] at hps ⊢
    exact ⟨trivial, hq, hps, by simp [strAtMost], trivial⟩
  obtain ⟨e1, e2⟩ := wire_of_tree env ver ht hfit
  exact ⟨(encodeMsg_framed env ver h8 hcs hall e1).1, _, (encodeMsg_framed env ver h8 hcs hall e1).2, e2⟩

/-- What the writes of a message carry is determined. -/
theorem carries_unique {t t' : PS} {ws : List Bytes} (h : Carries t ws) (h' : Carries t' ws) : t = t' := by
  obtain ⟨p, h1, h2⟩ := h
  obtain ⟨p', h1', h2'⟩ := h'
  obtain ⟨_, g1, _⟩ := readMsg_framed h1 .eof (segs := [ws.flatten]) (rest := []) (by simp)
  obtain ⟨_, g2, _⟩ := readMsg_framed h1' .eof (segs := [ws.flatten]) (rest := []) (by simp)
  rw [g1] at g2
  cases g2
  exact (Enc_unique h2 h2' (r := []) (r' := []) rfl).1

/-- RUN of versions 1 and 2 on the wire. -/
theorem carries_plainRun (env : Env) (ver : Ver) {cs : Nat} (h8 : 8 ≤ cs) (hcs : cs ≤ 65535) (q : Bytes) (ps : Entries)
    {pt : PS} (hpt : tree env ver (.map ps) = some pt) (hf : pt.Fits) (hps : (Val.map ps).All (strAtMost cs)) (hq : q.length ≤ cs) :
    (encodeMsg env ver cs (newRunMessage q ps)).2 = none ∧ Carries (.struct 0x10 [.str q, pt]) (encodeMsg env ver cs (newRunMessage q ps)).1 := by
  have hk : StructKind.run.isStructure = true := rfl
  have ht : tree env ver (newRunMessage q ps) = some (.struct 0x10 [.str q, pt]) := by
    unfold newRunMessage
    simp only [tree, hk, if_true, trees] at hpt ⊢
    rw [hpt]
    rfl
  have hfit : (PS.struct 0x10 [.str q, pt]).Fits := by
    simp only [PS.Fits, PS.FitsWith, FitsList, List.length_cons, List.length_nil, and_true]
    exact ⟨by omega, by omega, hf⟩
  have hall : (newRunMessage q ps).All (strAtMost cs) := by
    unfold newRunMessage
    simp only [Val.All, AllList, and_true] at hps ⊢
    exact ⟨trivial, hq, hps⟩
  obtain ⟨e1, e2⟩ := wire_of_tree env ver ht hfit
  exact ⟨(encodeMsg_framed env ver h8 hcs hall e1).1, _, (encodeMsg_framed env ver h8 hcs hall e1).2, e2⟩

/-- A query that can be sent in one piece: parameters of supported types and encodable lengths, no string longer than the chunk size. -/
structure Sendable (env : Env) (ver : Ver) (cs : Nat) (q : Bytes) (ps : Entries) (db : Bytes) (pt : PS) : Prop where
  low : 8 ≤ cs
  high : cs ≤ 65535
  query : q.length ≤ cs
  db : db.length ≤ cs
  params : tree env ver (.map ps) = some pt
  fits : pt.Fits
  strings : (Val.map ps).All (strAtMost cs)

theorem Sendable.carries {env : Env} {p : Proto} {cs : Nat} {q : Bytes} {ps : Entries} {db : Bytes} {pt : PS}
    (h : Sendable env p.codec cs q ps db pt) (mode : AccessMode) (inTx : Bool) :
    (encodeMsg env p.codec cs (p.runMessage q ps db mode (!inTx))).2 = none ∧
    Carries (runTree p q pt db mode inTx) (encodeMsg env p.codec cs (p.runMessage q ps db mode (!inTx))).1 := by
  cases p
  · exact carries_plainRun env _ h.low h.high q ps h.params h.fits h.strings h.query
  · exact carries_plainRun env _ h.low h.high q ps h.params h.fits h.strings h.query
  · cases inTx
    · exact carries_autoRun env _ h.low h.high q ps db mode h.params h.fits h.strings h.query h.db
    · exact carries_txRun env _ h.low h.high q ps h.params h.fits h.strings h.query
  · cases inTx
    · exact carries_autoRun env _ h.low h.high q ps db mode h.params h.fits h.strings h.query h.db
    · exact carries_txRun env _ h.low h.high q ps h.params h.fits h.strings h.query

end Verif

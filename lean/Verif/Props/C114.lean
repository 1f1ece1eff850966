/-
C114  The chunk size makes no difference to a session.
-/
import Verif.Proofs.Alike
import Verif.Props.C35
import Verif.Props.C105
namespace Verif
open Spec

/-- C114: if the server goes by the contents of the messages, not by how they are divided into chunks, then calls of SetChunkSize at any points of a history
change no result of any other call. -/
def C114_statement : Prop := ∀ (σ : Type) (env : Env) (W : World σ), SameBytes Eq SameContents W W →
  ∀ (fuel : Nat) (user password : Bytes) (w : σ) (c : Conn σ), createBoltConn env W fuel user password w = (.ok (), c) →
  ∀ (ops ops' : List Op), Resized ops ops' → ∀ op, yields env W fuel op (run env W fuel ops c) = yields env W fuel op (run env W fuel ops' c)

namespace Spec

/-- A message that the driver divides into chunks correctly for every chunk size from `lo` on (C07): it can be encoded, and it is short, or it has no string longer
than `lo`. -/
def Framable (env : Env) (ver : Ver) (lo : Nat) (v : Val) : Prop :=
  (encode env ver v).2 = none ∧ ((payload env ver v).length ≤ 65535 ∨ 8 ≤ lo ∧ v.All (strAtMost lo))

/-- The requests of the call are such messages, and it does not set the chunk size below `lo`. -/
def OpFramable (env : Env) (p : Proto) (lo : Nat) : Op → Prop
  | .query q ps db => ∀ mode, Framable env p.codec lo (p.runMessage q ps db mode true)
  | .exec q ps db => ∀ mode, Framable env p.codec lo (p.runMessage q ps db mode true)
  | .txQuery _ q ps db => ∀ mode, Framable env p.codec lo (p.runMessage q ps db mode false)
  | .txExec _ q ps => ∀ mode, Framable env p.codec lo (p.runMessage q ps [] mode true)
  | .txExecDb _ q ps db => ∀ mode, Framable env p.codec lo (p.runMessage q ps db mode false)
  | .begin_ db => ∀ mode, Framable env p.codec lo (p.txBeginMessage db mode)
  | .setChunkSize n => lo ≤ n.toNat
  | _ => True

end Spec

namespace C114
variable {σ : Type} {env : Env} {p : Proto} {lo : Nat}

/-- Chunk sizes from `lo` on. -/
abbrev tie (σ : Type) (lo : Nat) (p : Proto) : Tie σ σ := ⟨Eq, SameContents, fun a b => (lo ≤ a ∧ a ≤ 65535) ∧ (lo ≤ b ∧ b ≤ 65535), p⟩

theorem framed_of (hlo : 1 ≤ lo) {ver : Ver} {v : Val} (h : Framable env ver lo v) {cs : Nat} (h1 : lo ≤ cs) (h2 : cs ≤ 65535) :
    (encodeMsg env ver cs v).2 = none ∧ Framed (payload env ver v) (encodeMsg env ver cs v).1.flatten := by
  rcases h with ⟨he, hs | ⟨h8, hs⟩⟩
  · exact encodeMsg_framed_small env ver (by omega) h2 hs he
  · exact encodeMsg_framed env ver (by omega) h2 (Val.All.mono (fun v hv => by
      cases v <;> simp only [strAtMost] at hv ⊢
      · omega
      · intro e he; exact Nat.le_trans (hv e he) h1) _ hs) he

theorem framed_ne {b : Bytes} {ws : List Bytes} (h : Framed b ws.flatten) : ws ≠ [] := by
  rintro rfl
  obtain ⟨cks, _, _, h⟩ := h
  unfold frame at h
  have := congrArg List.length h
  simp at this

theorem goes (hlo : 1 ≤ lo) {v : Val} (h : Framable env p.codec lo v) : GoesAlike (tie σ lo p) env v := by
  rintro cs cs' ⟨⟨a1, a2⟩, b1, b2⟩
  obtain ⟨g1, g2⟩ := framed_of hlo h a1 a2
  obtain ⟨k1, k2⟩ := framed_of hlo h b1 b2
  exact ⟨g1.trans k1.symm, ⟨fun h => absurd h (framed_ne g2), fun h => absurd h (framed_ne k2)⟩, _, g2, k2⟩

theorem small {ver : Ver} {v : Val} {b : Bytes} (h : (encode env ver v).2 = none) (hb : payload env ver v = b) (hl : b.length ≤ 65535) : Framable env ver lo v :=
  ⟨h, .inl (by rw [hb]; exact hl)⟩

theorem basics (hlo : 1 ≤ lo) : Basics (tie σ lo p) env where
  reset := goes hlo (small (b := [0xB0, 0x0F]) (by cases p <;> rfl) (by cases p <;> rfl) (by decide))
  pull := by
    cases p
    · exact goes hlo (small (b := [0xB0, 0x3F]) rfl rfl (by decide))
    · exact goes hlo (small (b := [0xB0, 0x3F]) rfl rfl (by decide))
    · exact goes hlo (small (b := [0xB0, 0x3F]) rfl rfl (by decide))
    · exact goes hlo (small (b := [0xB1, 0x3F, 0xA1, 0x81, 0x6E, 0xFF]) rfl rfl (by decide))
  commit := by
    cases p
    · exact goes hlo (small (b := [0xB2, 0x10, 0x86] ++ ascii "COMMIT" ++ [0xA0]) rfl rfl (by decide))
    · exact goes hlo (small (b := [0xB2, 0x10, 0x86] ++ ascii "COMMIT" ++ [0xA0]) rfl rfl (by decide))
    · exact goes hlo (small (b := [0xB0, 0x12]) rfl rfl (by decide))
    · exact goes hlo (small (b := [0xB0, 0x12]) rfl rfl (by decide))
  rollback := by
    cases p
    · exact goes hlo (small (b := [0xB2, 0x10, 0x88] ++ ascii "ROLLBACK" ++ [0xA0]) rfl rfl (by decide))
    · exact goes hlo (small (b := [0xB2, 0x10, 0x88] ++ ascii "ROLLBACK" ++ [0xA0]) rfl rfl (by decide))
    · exact goes hlo (small (b := [0xB0, 0x13]) rfl rfl (by decide))
    · exact goes hlo (small (b := [0xB0, 0x13]) rfl rfl (by decide))
  close := by
    cases p <;> intro m hm <;> cases hm
    · exact goes hlo (small (b := [0xB0, 0x02]) rfl rfl (by decide))
    · exact goes hlo (small (b := [0xB0, 0x02]) rfl rfl (by decide))

theorem op_goes (hlo : 1 ≤ lo) : {op : Op} → OpFramable env p lo op → OpGoes (tie σ lo p) env op
  | .query _ _ _, h => fun m => goes hlo (h m)
  | .exec _ _ _, h => fun m => goes hlo (h m)
  | .txQuery _ _ _ _, h => fun m => goes hlo (h m)
  | .txExec _ _ _, h => fun m => goes hlo (h m)
  | .txExecDb _ _ _ _, h => fun m => goes hlo (h m)
  | .begin_ _, h => fun m => goes hlo (h m)
  | .setChunkSize n, h => have : n.toNat < 65536 := n.toNat_lt; ⟨⟨h, by omega⟩, h, by omega⟩
  | .commit _, _ => trivial
  | .rollback _, _ => trivial
  | .close, _ => trivial
  | .makeIdle, _ => trivial
  | .validateOpen, _ => trivial

theorem Alike.left {d c : Conn σ} (hb : Alike (tie σ lo p) d c) {n : UInt16} (hn : lo ≤ n.toNat) : Alike (tie σ lo p) { d with chunkSize := n.toNat } c :=
  have : n.toNat < 65536 := n.toNat_lt
  ⟨hb.proto', hb.proto, hb.version, hb.versionBytes, hb.mode, ⟨⟨hn, by show n.toNat ≤ 65535; omega⟩, hb.chunkSize.2⟩, hb.closed, hb.sock, hb.txs, hb.cur, hb.trace, hb.world, hb.segs, hb.fin⟩

theorem Alike.right {d c : Conn σ} (hb : Alike (tie σ lo p) d c) {n : UInt16} (hn : lo ≤ n.toNat) : Alike (tie σ lo p) d { c with chunkSize := n.toNat } :=
  have : n.toNat < 65536 := n.toNat_lt
  ⟨hb.proto', hb.proto, hb.version, hb.versionBytes, hb.mode, ⟨hb.chunkSize.1, hn, by show n.toNat ≤ 65535; omega⟩, hb.closed, hb.sock, hb.txs, hb.cur, hb.trace, hb.world, hb.segs, hb.fin⟩

theorem run_resized {W : World σ} (hW : SameBytes Eq SameContents W W) (hlo : 1 ≤ lo) (fuel : Nat) {ops ops' : List Op} (h : Resized ops ops')
    (h1 : ∀ op ∈ ops, OpFramable env p lo op) (h2 : ∀ op ∈ ops', OpFramable env p lo op) :
    ∀ {d c : Conn σ}, Alike (tie σ lo p) d c → Alike (tie σ lo p) (run env W fuel ops d) (run env W fuel ops' c) := by
  induction h with
  | nil => exact fun hb => hb
  | left n _ ih => exact fun hb => ih (fun o ho => h1 o (List.mem_cons_of_mem _ ho)) h2 (Alike.left hb (h1 _ List.mem_cons_self))
  | right n _ ih => exact fun hb => ih h1 (fun o ho => h2 o (List.mem_cons_of_mem _ ho)) (Alike.right hb (h2 _ List.mem_cons_self))
  | call op _ ih =>
    exact fun hb => ih (fun o ho => h1 o (List.mem_cons_of_mem _ ho)) (fun o ho => h2 o (List.mem_cons_of_mem _ ho))
      (sim_step (T := tie σ lo p) hW (basics hlo) fuel (op_goes hlo (h1 _ List.mem_cons_self)) _ _ hb).2

theorem create_chunk {W : World σ} {fuel : Nat} {user password : Bytes} {w : σ} {c : Conn σ} (h : createBoltConn env W fuel user password w = (.ok (), c)) : c.chunkSize = 65535 := by
  have hd : (W.dial w).2 = true := by
    cases hx : (W.dial w).2 with
    | true => rfl
    | false => obtain ⟨⟨e, he⟩, _⟩ := C28_dial_fails env W fuel user password w hx; rw [h] at he; cases he
  rcases handshake_cases env W fuel user password w hd with ⟨n, p, segs', h1, h2, h3, h4⟩ | ⟨_, ⟨e, he⟩, _⟩
  · let T : Tie σ σ := ⟨Eq, Eq, fun a b => a = 65535 ∧ b = 65535, p⟩
    have hW : SameBytes T.rel T.wr W W := by
      refine ⟨?_, ?_, ?_, ?_⟩
      · rintro w _ rfl; exact ⟨rfl, rfl⟩
      · rintro w _ ws _ rfl rfl; exact ⟨rfl, rfl, rfl, rfl⟩
      · rintro w _ rfl; rfl
      · rintro w _ rfl; rfl
    have hg : ∀ v, GoesAlike T env v := by rintro v _ _ ⟨rfl, rfl⟩; exact ⟨rfl, Iff.rfl, rfl⟩
    have ha : Alike T (afterHandshake W w segs' p) (afterHandshake W w segs' p) := ⟨rfl, rfl, rfl, rfl, rfl, ⟨rfl, rfl⟩, rfl, rfl, rfl, rfl, .refl _, rfl, rfl, rfl⟩
    have := (sim_sendInit hW ⟨hg _, hg _, hg _, hg _, fun _ _ => hg _⟩ fuel (hg (p.initMessage clientID (buildAuthTokenBasic user password))) _ _ ha).2.chunkSize.1
    rw [← h4, h] at this
    exact this
  · rw [h] at he; cases he

theorem fine_framable {op : Op} (h8 : 8 ≤ lo) (hlo : lo ≤ 65535) (h : op.Fine env p.codec lo) : OpFramable env p lo op := by
  have run : ∀ {q : Bytes} {ps : Entries} {db : Bytes} {pt : PS}, Sendable env p.codec lo q ps db pt → ∀ mode inTx, Framable env p.codec lo (p.runMessage q ps db mode (!inTx)) := by
    intro q ps db pt hs mode inTx
    have he : (encode env p.codec (p.runMessage q ps db mode (!inTx))).2 = none := by
      have := (hs.carries mode inTx).1
      unfold encodeMsg at this
      dsimp only at this
      split at this
      · cases this
      · assumption
    refine ⟨he, .inr ⟨h8, ?_⟩⟩
    have l1 : (ascii "mode").length = 4 := by decide
    have l2 : (ascii "db").length = 2 := by decide
    have l3 : (ascii "r").length = 1 := by decide
    have hms : (Val.map (buildTxMetadataWithDatabase none [] db mode)).All (strAtMost lo) := by
      have := hs.db
      rw [buildTx_eq]
      by_cases h1 : mode = 0 <;> by_cases h2 : db = [] <;>
        simp [Val.All, AllEntries, strAtMost, h1, h2, l1, l2, l3] <;> omega
    have h1 := hs.query
    have h2 := hs.strings
    have plain : (newRunMessage q ps).All (strAtMost lo) := by
      unfold newRunMessage
      simp only [Val.All, AllList, and_true] at h2 ⊢
      exact ⟨trivial, h1, h2⟩
    have auto : (newAutoCommitTxRunMessage q ps 0 [] db mode).All (strAtMost lo) := by
      unfold newAutoCommitTxRunMessage newRunMessageWithMetadata
      rw [buildTx_zero]
      simp only [Val.All, AllList, and_true] at h2 hms ⊢
      exact ⟨trivial, h1, h2, hms⟩
    have unman : (newUnmanagedTxRunMessage q ps).All (strAtMost lo) := by
      unfold newUnmanagedTxRunMessage newRunMessageWithMetadata
      simp only [Val.All, AllList, and_true] at h2 ⊢
      exact ⟨trivial, h1, h2, by simp [strAtMost], trivial⟩
    cases p <;> cases inTx <;> first | exact plain | exact auto | exact unman
  cases op with
  | query q ps db => obtain ⟨pt, h⟩ := h; exact fun m => run h m false
  | exec q ps db => obtain ⟨pt, h⟩ := h; exact fun m => run h m false
  | txQuery _ q ps db => obtain ⟨pt, h⟩ := h; exact fun m => run h m true
  | txExec _ q ps => obtain ⟨pt, h⟩ := h; exact fun m => run h m false
  | txExecDb _ q ps db => obtain ⟨pt, h⟩ := h; exact fun m => run h m true
  | begin_ db =>
    intro mode
    have hdb : db.length ≤ lo := h
    have l1 : (ascii "mode").length = 4 := by decide
    have l2 : (ascii "db").length = 2 := by decide
    have l3 : (ascii "r").length = 1 := by decide
    have b : Framable env p.codec lo (newBeginMessage (buildTxMetadataWithDatabase none [] db mode)) := by
      refine ⟨begin_enc env _ db mode (by omega), .inr ⟨h8, ?_⟩⟩
      rw [buildTx_eq]
      by_cases h1 : mode = 0 <;> by_cases h2 : db = [] <;>
        simp [newBeginMessage, Val.All, AllList, AllEntries, strAtMost, h1, h2, l1, l2, l3] <;> omega
    cases p
    · exact small (b := [0xB2, 0x10, 0x85] ++ ascii "BEGIN" ++ [0xA0]) rfl rfl (by decide)
    · exact small (b := [0xB2, 0x10, 0x85] ++ ascii "BEGIN" ++ [0xA0]) rfl rfl (by decide)
    · exact b
    · exact b
  | setChunkSize n => exact h
  | commit _ => trivial
  | rollback _ => trivial
  | close => trivial
  | makeIdle => trivial
  | validateOpen => trivial

end C114
open C114

section
variable {σ : Type} (env : Env) {W : World σ} (hW : SameBytes Eq SameContents W W)
include hW

/-- Chunk sizes that are not zero, and requests that are short or have no string longer than the smallest of the chunk sizes: calls of SetChunkSize change no result
and no message exchanged.  Missing from the full statement: chunk size zero, and long requests with a string that is longer than a chunk. -/
theorem C114_partial {fuel : Nat} {user password : Bytes} {w : σ} {c : Conn σ} (h : createBoltConn env W fuel user password w = (.ok (), c)) {lo : Nat} (hlo : 1 ≤ lo) (hlo' : lo ≤ 65535)
    {ops ops' : List Op} (hr : Resized ops ops') {op : Op} (h1 : ∀ o ∈ op :: ops, OpFramable env c.proto lo o) (h2 : ∀ o ∈ ops', OpFramable env c.proto lo o) (fuel' : Nat) :
    yields env W fuel' op (run env W fuel' ops c) = yields env W fuel' op (run env W fuel' ops' c) ∧
    SameEvents SameContents (run env W fuel' ops c).trace (run env W fuel' ops' c).trace := by
  have hc := create_chunk h
  have ha : Alike (tie σ lo c.proto) c c := ⟨rfl, rfl, rfl, rfl, rfl, by rw [hc]; exact ⟨⟨hlo', Nat.le_refl _⟩, hlo', Nat.le_refl _⟩, rfl, rfl, rfl, rfl, .refl _, rfl, rfl, rfl⟩
  have hb := run_resized hW hlo fuel' hr (fun o ho => h1 o (List.mem_cons_of_mem _ ho)) h2 ha
  exact ⟨sim_yields (T := tie σ lo c.proto) hW (basics hlo) fuel' (op_goes hlo (h1 _ List.mem_cons_self)) hb, hb.trace⟩

/-- The same for calls with supported parameters and with no string longer than the smallest chunk size. -/
theorem C114_fine {fuel : Nat} {user password : Bytes} {w : σ} {c : Conn σ} (h : createBoltConn env W fuel user password w = (.ok (), c)) {lo : Nat} (hlo : 8 ≤ lo) (hlo' : lo ≤ 65535)
    {ops ops' : List Op} (hr : Resized ops ops') {op : Op} (h1 : ∀ o ∈ op :: ops, o.Fine env c.proto.codec lo) (h2 : ∀ o ∈ ops', o.Fine env c.proto.codec lo) (fuel' : Nat) :
    yields env W fuel' op (run env W fuel' ops c) = yields env W fuel' op (run env W fuel' ops' c) ∧
    SameEvents SameContents (run env W fuel' ops c).trace (run env W fuel' ops' c).trace :=
  C114_partial env hW h (by omega) hlo' hr (fun o ho => fine_framable hlo hlo' (h1 o ho)) (fun o ho => fine_framable hlo hlo' (h2 o ho)) fuel'

end

/-! ### A server that goes by the contents -/

theorem requestOf_contents {ws ws' : List Bytes} (h : SameContents ws ws') : requestOf ws = requestOf ws' := by
  obtain ⟨p, h1, h2⟩ := h
  obtain ⟨_, g1, _⟩ := readMsg_framed h1 .eof (segs := [ws.flatten]) (rest := []) (by simp)
  obtain ⟨_, g2, _⟩ := readMsg_framed h2 .eof (segs := [ws'.flatten]) (rest := []) (by simp)
  unfold requestOf
  rw [g1, g2]

theorem cServer_contents (v : UInt8) : SameBytes Eq SameContents (cServer v) (cServer v) where
  dial := by rintro w _ rfl; exact ⟨rfl, rfl⟩
  send := by
    rintro w _ ws ws' rfl hw
    have e : (cServer v).onSend w ws = (cServer v).onSend w ws' := by
      show (if _ then _ else _) = (if _ then _ else _)
      rw [requestOf_contents hw]
    rw [e]
    exact ⟨rfl, rfl, rfl, rfl⟩
  close := by rintro w _ rfl; rfl
  probe := by rintro w _ rfl; rfl

/-- The full statement is false: with chunk size zero the driver sends nothing that a server can understand. -/
theorem C114_refuted : ¬ C114_statement := by
  intro h
  have h1 : (cOpened 4).1.kind = 0 := by decide +kernel
  have h2 : (yields env0 (cServer 4) 2 (.query (ascii "Y") [] []) (run env0 (cServer 4) 2 [.setChunkSize 0] (cOpened 4).2)).kind = 1 := by decide +kernel
  have h3 : (yields env0 (cServer 4) 2 (.query (ascii "Y") [] []) (run env0 (cServer 4) 2 [] (cOpened 4).2)).kind = 0 := by decide +kernel
  have := h Session env0 (cServer 4) (cServer_contents 4) 2 [0x75] [0x70] ⟨.new, ([], []), ⟨none, []⟩⟩ (cOpened 4).2 (CRes.kind_ok h1) [.setChunkSize 0] [] (.left 0 .nil) (.query (ascii "Y") [] [])
  rw [this, h3] at h2
  cases h2

/-- The hypotheses of `C114_partial` and `C114_fine`. -/
example : (∀ o ∈ [Op.query (ascii "Y") [] [], .begin_ [], .setChunkSize 8, .query (ascii "Z") [] []], o.Fine env0 .v2 8) ∧
    Resized [.begin_ [], .setChunkSize 8, .query (ascii "Z") [] []] [.begin_ [], .query (ascii "Z") [] []] ∧
    told (resultOf env0 (cServer 4) 2 (.query (ascii "Y") [] []) (run env0 (cServer 4) 2 [.begin_ [], .setChunkSize 8, .query (ascii "Z") [] []] (cOpened 4).2)) = some false := by
  have hq : ∀ q : Bytes, q.length ≤ 8 → Sendable env0 .v2 8 q [] [] (.map []) := fun q h =>
    ⟨by decide, by decide, h, by decide, rfl, by simp [PS.Fits, PS.FitsWith, FitsEntries], by simp [Val.All, AllEntries, strAtMost]⟩
  refine ⟨?_, .call _ (.left 8 (.call _ .nil)), by decide +kernel⟩
  intro o ho
  simp only [List.mem_cons, List.not_mem_nil, or_false] at ho
  rcases ho with rfl | rfl | rfl | rfl
  · exact ⟨_, hq _ (by decide)⟩
  · exact Nat.zero_le _
  · exact Nat.le_refl _
  · exact ⟨_, hq _ (by decide)⟩

/-- The hypotheses of `C114_partial` for chunk size 1. -/
example : OpFramable env0 .v4 1 (.query (ascii "RETURN 1234567890") [] []) ∧ OpFramable env0 .v4 1 (.setChunkSize 1) ∧
    told (resultOf env0 (cServer 4) 2 (.query (ascii "Y") [] []) (run env0 (cServer 4) 2 [.setChunkSize 1] (cOpened 4).2)) = some true := by
  refine ⟨fun mode => ?_, Nat.le_refl _, by decide +kernel⟩
  show Framable env0 .v2 1 (newAutoCommitTxRunMessage (ascii "RETURN 1234567890") [] 0 [] [] mode)
  unfold newAutoCommitTxRunMessage newRunMessageWithMetadata
  rw [buildTx_zero, buildTx_eq]
  by_cases h : mode = 0
  · rw [if_pos h, if_pos rfl]
    exact ⟨by decide +kernel, .inl (by decide +kernel)⟩
  · rw [if_neg h, if_pos rfl]
    exact ⟨by decide +kernel, .inl (by decide +kernel)⟩

end Verif

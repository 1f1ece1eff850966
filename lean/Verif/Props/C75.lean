/-
C75  Temporal parameters reach the servers that understand them.
-/
import Verif.Props.C44
import Verif.Props.C33
namespace Verif
open Spec

section
variable {σ : Type} (env : Env) (W : World σ)

/-- The structure of a date, time of day or date-time on the wire. -/
def Spec.temporal : Val → Option PS
  | .date d => some (.struct 0x44 [.int d])
  | .clock n o => some (.struct 0x54 [.int n, .int o])
  | .localClock n => some (.struct 0x74 [.int n])
  | .localTime s n => some (.struct 0x64 [.int s, .int n])
  | .time s n o => some (.struct 0x46 [.int (s + o), .int n, .int o])
  | _ => none

theorem temporal_tree {t : Val} {pt : PS} (h : Spec.temporal t = some pt) : tree env .v2 t = some pt := by
  cases t <;> first | (cases h; rfl) | cases h

/-- C75, versions 2 to 4: the query is sent with the temporal value as its structure. -/
theorem C75_sent {fuel : Nat} {q k db : Bytes} {t : Val} {pt : PS} {inTx : Bool} {c : Conn σ} (hp : c.proto ≠ .v1) (hcl : c.closed = false) (hs : c.sock = true)
    (h8 : 8 ≤ c.chunkSize) (hcs : c.chunkSize ≤ 65535) (hq : q.length ≤ c.chunkSize) (hk : k.length ≤ c.chunkSize) (hdb : db.length ≤ c.chunkSize)
    (ht : Spec.temporal t = some pt) (hf : pt.Fits) :
    ∃ ws, Carries (runTree c.proto q (.map [(k, pt)]) db c.mode inTx) ws ∧ c.trace ++ [.sent ws] <+: (runQuery env W fuel q [(k, t)] db inTx c).2.trace := by
  have hv : c.proto.codec = .v2 := by
    cases h : c.proto
    · exact absurd h hp
    all_goals rfl
  have hsend : Sendable env c.proto.codec c.chunkSize q [(k, t)] db (.map [(k, pt)]) := by
    refine ⟨h8, hcs, hq, hdb, ?_, ?_, ?_⟩
    · rw [hv]
      simp only [tree, treeEntries, temporal_tree env ht, Option.map_some]
    · refine ⟨by simp, ?_, hf, trivial⟩
      show k.length < 2 ^ 32
      omega
    · refine ⟨?_, ?_, trivial⟩
      · intro e he
        rw [List.mem_singleton] at he
        subst he
        exact hk
      · cases t <;> first | (cases ht; done) | exact trivial
  obtain ⟨h1, h2⟩ := hsend.carries (p := c.proto) c.mode inTx
  exact ⟨_, h2, runQuery_writes env W hcl hs h1⟩

/-- C75, version 1, which has no such structures: an error, and if the query and the names are shorter than a chunk, nothing is sent. -/
theorem C75_refused {fuel : Nat} {q k db : Bytes} {t : Val} {pt : PS} {inTx : Bool} {c : Conn σ} (hp : c.proto = .v1) (ht : Spec.temporal t = some pt)
    (hr : t.All intsInRange) : (∃ e, (runQuery env W fuel q [(k, t)] db inTx c).1 = .err e) ∧
    (128 + q.length + db.length + k.length < c.chunkSize → (runQuery env W fuel q [(k, t)] db inTx c).2 = c) := by
  have hu : ¬ Supported c.proto.codec (.map [(k, t)]) := by
    rintro ⟨_, _, h, _⟩
    rw [hp] at h
    cases t <;> first | (cases ht; done) | (cases h; done)
  have := runQuery_unencodable env W (fuel := fuel) (q := q) (db := db) (inTx := inTx) c (ps := [(k, t)]) ⟨trivial, hr, trivial⟩ hu
  refine ⟨this.1, fun hl => this.2 ?_⟩
  have hroom : room (.map [(k, t)]) ≤ 64 + k.length := by
    cases t <;> first | (cases ht; done) | (simp only [room, roomEntries]; omega)
  omega

example : Spec.temporal (.time 1600000000 5 3600) = some (.struct 0x46 [.int 1600003600, .int 5, .int 3600]) ∧
    (PS.struct 0x46 [.int 1600003600, .int 5, .int 3600]).Fits := ⟨rfl, by simp [PS.Fits, PS.FitsWith, FitsList]⟩

end
end Verif

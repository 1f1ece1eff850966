/-
C41  A named database is honoured or refused: and where no database is named, none is asked for.
-/
import Verif.Props.C41
import Verif.Props.C33
namespace Verif
open Spec

section
variable {σ : Type} (env : Env) (W : World σ)

/-- The call `r` on `c` named no database in its first request, or failed without sending anything. -/
def NamesNone {α : Type} (c : Conn σ) (r : CRes α × Conn σ) : Prop :=
  (∃ t ws rest, r.2.trace = c.trace ++ .sent ws :: rest ∧ Carries t ws ∧ ∀ db, ¬ namesDb db t) ∨ ((∃ e, r.1 = .err e) ∧ r.2.trace = c.trace)

theorem txMeta_none (mode : AccessMode) (db : Bytes) : ∀ es, txMetaTree [] mode = .map es → (ascii "db", PS.str db) ∉ es := by
  have e : ascii "db" ≠ ascii "mode" := by decide
  rintro es h
  cases h
  by_cases hm : mode = 0 <;> simp [hm, e]

/-- The trace of a function that does something after `m`, if `m` is the only one to use the network. -/
theorem trace_bind_pure {α β : Type} (m : CM σ α) (f : α → β) (c : Conn σ) : ((m >>= fun a => (Pure.pure (f a) : CM σ β)) c).2.trace = (m c).2.trace := by
  match hr : m c with
  | (.ok a, c1) => rw [CM.bind_ok hr]; rfl
  | (.err e, c1) => rw [CM.bind_err hr]
  | (.panic, c1) => rw [CM.bind_panic hr]
  | (.fuel, c1) => rw [CM.bind_fuel hr]

/-- C41, the other direction: `Begin`, and `Query` and `Exec` of connections and transactions, which name no database, do not ask for one. -/
theorem C41_default (fuel h : Nat) {q : Bytes} {ps : Entries} {pt : PS} {c : Conn σ} (hp : c.proto = .v3 ∨ c.proto = .v4)
    (hcl : c.closed = false) (hs : c.sock = true)
    (hq : Sendable env c.proto.codec c.chunkSize q ps [] pt) :
    NamesNone c (begin_ env W fuel c) ∧ NamesNone c (query env W fuel q ps c) ∧ NamesNone c (exec env W fuel q ps c) ∧
      NamesNone c (txQuery env W fuel h q ps c) ∧ NamesNone c (txExec env W fuel h q ps c) := by
  have hcheck : checkDb [] c = (.ok (), c) := by rw [checkDb_apply, if_neg (by simp)]
  obtain ⟨w1, _, e1, _, hrun⟩ := C72_requests env W (inTx := false) hcl hs hq
  obtain ⟨evs, ht, _⟩ := hrun fuel
  have hn : ∀ db, ¬ namesDb db (runTree c.proto q pt [] c.mode false) := by
    rintro db h
    rcases hp with hp | hp <;> rw [hp] at h <;> obtain ⟨es, h1, h2⟩ := h <;>
      exact txMeta_none c.mode db es (by simpa [runTree] using h1) h2
  have he : NamesNone c (exec env W fuel q ps c) := by
    refine .inl ⟨_, w1, evs, ?_, e1, hn⟩
    unfold exec execWithDb
    rw [CM.bind_ok hcheck, trace_bind_pure]
    exact ht
  refine ⟨?_, .inl ⟨_, w1, evs, ?_, e1, hn⟩, he, ?_, he⟩
  · rcases begin_first env W fuel [] hp (fun _ => hs) hq.low hq.high (Nat.zero_le _) with ⟨ws, rest, h1, h2⟩ | h
    · refine .inl ⟨_, ws, rest, h1, h2, ?_⟩
      rintro db ⟨es, h3, h4⟩
      exact txMeta_none c.mode db es (by simpa using h3) h4
    · exact .inr h
  · unfold query queryWithDb
    rw [CM.bind_ok hcheck]
    exact ht
  · obtain ⟨w2, _, e2, _, hrun2⟩ := C72_requests env W (inTx := true) hcl hs hq
    obtain ⟨evs2, ht2, _⟩ := hrun2 fuel
    refine .inl ⟨_, w2, evs2, ?_, e2, ?_⟩
    · unfold txQuery txQueryWithDb
      rw [CM.bind_ok hcheck]
      exact ht2
    · rintro db h
      rcases hp with hp | hp <;> rw [hp] at h <;> obtain ⟨es, h1, h2⟩ := h <;>
        · simp [runTree] at h1
          subst h1
          simp at h2

/-- An open connection in version 4. -/
example : let c := (opened sOpen4).2
    c.proto = .v4 ∧ c.closed = false ∧ c.sock = true ∧ c.chunkSize = 65535 := by decide +kernel
example (env : Env) : Sendable env .v2 65535 [0x58] [([0x6E], .int .int64 7)] [] (.map [([0x6E], .int 7)]) :=
  ⟨by decide, by decide, by decide, by decide, rfl, by simp [PS.Fits, PS.FitsWith, FitsEntries], by simp [Val.All, AllEntries, strAtMost]⟩

end
end Verif

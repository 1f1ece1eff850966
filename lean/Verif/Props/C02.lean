/-
C02  Every 64-bit integer survives and is encoded minimally.
-/
import Verif.Proofs.RoundTrip
namespace Verif
open Spec

theorem toSigned_bounds {k : Nat} (hk : 0 < k) {n : Nat} (h : n < 256 ^ k) :
    -(2 ^ (8 * k - 1) : Int) ≤ toSigned k n ∧ toSigned k n < 2 ^ (8 * k - 1) := by
  have e : (256 : Nat) ^ k = 2 * 2 ^ (8 * k - 1) := by
    rw [pow256, ← Nat.pow_succ']; congr 1; omega
  have e2 : (2 : Int) ^ (8 * k) = 2 * 2 ^ (8 * k - 1) := by
    have h8 : 8 * k = (8 * k - 1) + 1 := by omega
    conv => lhs; rw [h8]
    rw [Int.pow_succ]; omega
  have e3 : ((2 ^ (8 * k - 1) : Nat) : Int) = (2 : Int) ^ (8 * k - 1) := by
    rw [Int.natCast_pow]; rfl
  unfold toSigned
  split <;> omega

/-- Number of bytes any encoding of `n` needs. -/
theorem IntEnc_length {n : Int} {bs : Bytes} (h : IntEnc n bs) :
    ((encodeInt n).1.flatten).length ≤ bs.length := by
  have hlen : ∀ m : Int, ((encodeInt m).1.flatten).length ≤ 9 := by
    intro m; unfold encodeInt; (repeat' split) <;> simp [Enc.ok]
  rcases h with ⟨h1, h2, b, rfl, hb⟩ | ⟨m, k, lb, hm, rfl, hl, hb⟩
  · unfold encodeInt
    rw [if_neg (by omega), if_neg (by omega), if_neg (by omega), if_neg (by omega), if_pos (by omega)]
    simp [Enc.ok]
  · have hk : 0 < k := by
      simp only [List.mem_cons, Prod.mk.injEq, List.not_mem_nil, or_false] at hm
      omega
    have hne : lb ≠ [] := by intro e; subst e; simp at hl; omega
    rw [twosComplement_eq _ hne, hl] at hb
    have hlt := ofBE_lt lb
    rw [hl] at hlt
    have hbd := toSigned_bounds hk hlt
    rw [hb] at hbd
    simp only [List.mem_cons, Prod.mk.injEq, List.not_mem_nil, or_false] at hm
    rw [List.length_cons, hl]
    rcases hm with ⟨-, rfl⟩ | ⟨-, rfl⟩ | ⟨-, rfl⟩ | ⟨-, rfl⟩
    · simp at hbd
      unfold encodeInt
      rw [if_neg (by omega), if_neg (by omega), if_neg (by omega)]
      split
      · simp [Enc.ok]
      · rw [if_pos (by omega)]; simp [Enc.ok]
    · simp at hbd
      unfold encodeInt
      rw [if_neg (by omega), if_neg (by omega)]
      split
      · simp [Enc.ok]
      · split
        · simp [Enc.ok]
        · split
          · simp [Enc.ok]
          · rw [if_pos (by omega)]; simp [Enc.ok]
    · simp at hbd
      unfold encodeInt
      rw [if_neg (by omega)]
      (repeat' split) <;> simp [Enc.ok]
      omega
    · exact hlen n

/-- For every integer `n` of `int64` range and every Go integer type `k` that holds it: `Marshal` accepts it, the payload is an
encoding of `n`, no encoding of `n` is shorter, and decoding the payload (followed by anything) returns `int64(n)`. -/
theorem C02_int_minimal (env : Env) (ver : Ver) (k : IntKind) (n : Int) (hk : k.InRange n) (h1 : -2 ^ 63 ≤ n) (h2 : n < 2 ^ 63) :
    (encode env ver (.int k n)).2 = none ∧
    IntEnc n (payload env ver (.int k n)) ∧
    (∀ bs, IntEnc n bs → (payload env ver (.int k n)).length ≤ bs.length) ∧
    ∀ rest, decode env ver (payload env ver (.int k n) ++ rest) = .ok (.int .int64 n, rest) := by
  have he : encode env ver (.int k n) = encodeInt n := by
    cases k <;> simp only [encode]
    · rw [wrap64_of_range h1 h2]
    · rw [if_neg (by omega)]
  have hp : payload env ver (.int k n) = (encodeInt n).1.flatten := by rw [payload, he]
  obtain ⟨hc, hn⟩ := encodeInt_conforms h1 h2
  refine ⟨by rw [he]; exact hc, by rw [hp]; exact hn, ?_, ?_⟩
  · intro bs hbs; rw [hp]; exact IntEnc_length hbs
  · intro rest
    have := decode_payload' env ver (.int k n) trivial hk ⟨h1, h2⟩ rest
    exact this.2

example : IntKind.InRange .uint32 4000000000 ∧ (-2 ^ 63 : Int) ≤ 4000000000 ∧ (4000000000 : Int) < 2 ^ 63 := by decide

/-- The five sizes: at the boundaries the encoding switches width. -/
example (env : Env) : (payload env .v1 (.int .int 127)).length = 1 ∧ (payload env .v1 (.int .int 128)).length = 3 ∧
    (payload env .v1 (.int .int (-17))).length = 2 ∧ (payload env .v1 (.int .int 32768)).length = 5 ∧
    (payload env .v1 (.int .int (2 ^ 31))).length = 9 := by
  refine ⟨?_, ?_, ?_, ?_, ?_⟩ <;> rfl

end Verif

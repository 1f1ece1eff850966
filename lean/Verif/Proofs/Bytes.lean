/- Lemmas about byte strings and big-endian numbers. -/
import Verif.Spec.PackStream
namespace Verif

theorem byteOf_toNat (n : Nat) : (byteOf n).toNat = n % 256 := by
  simp [byteOf]

theorem byteOf_toNat_of_lt {n : Nat} (h : n < 256) : (byteOf n).toNat = n := by
  rw [byteOf_toNat]; omega

theorem UInt8_lt (b : UInt8) : b.toNat < 256 := by
  have := b.toNat_lt; omega

@[simp] theorem length_be (k n : Nat) : (be k n).length = k := by
  induction k with
  | zero => rfl
  | succ k ih => simp [be, ih]

@[simp] theorem length_beInt (k : Nat) (z : Int) : (beInt k z).length = k := by simp [beInt]

theorem ofBE_lt (bs : Bytes) : ofBE bs < 256 ^ bs.length := by
  induction bs with
  | nil => simp [ofBE]
  | cons b bs ih =>
    simp only [ofBE, List.length_cons, Nat.pow_succ]
    have hb := UInt8_lt b
    have : b.toNat * 256 ^ bs.length ≤ 255 * 256 ^ bs.length := Nat.mul_le_mul_right _ (by omega)
    omega

theorem ofBE_be (k n : Nat) : ofBE (be k n) = n % 256 ^ k := by
  induction k with
  | zero => simp [be, ofBE]; omega
  | succ k ih =>
    simp only [be, ofBE, length_be, byteOf_toNat, ih]
    rw [Nat.pow_succ, Nat.mod_mul, Nat.mul_comm]
    omega

theorem be_of_mod (bs : Bytes) (m : Nat) (h : m % 256 ^ bs.length = ofBE bs) : be bs.length m = bs := by
  induction bs generalizing m with
  | nil => rfl
  | cons b bs ih =>
    simp only [List.length_cons, be]
    simp only [ofBE, List.length_cons, Nat.pow_succ] at h
    rw [Nat.mod_mul] at h
    have hpos : 0 < 256 ^ bs.length := Nat.pow_pos (by omega)
    have hlt := ofBE_lt bs
    have h1 : m % 256 ^ bs.length = ofBE bs := by
      have := congrArg (· % 256 ^ bs.length) h
      simp only [Nat.add_mul_mod_self_left, Nat.mul_comm b.toNat] at this
      rw [Nat.mod_mod, Nat.add_comm, Nat.add_mul_mod_self_left, Nat.mod_eq_of_lt hlt] at this
      exact this
    have h2 : m / 256 ^ bs.length % 256 = b.toNat := by
      rw [h1, Nat.add_comm, Nat.mul_comm] at h
      have : m / 256 ^ bs.length % 256 * 256 ^ bs.length = b.toNat * 256 ^ bs.length := by omega
      exact Nat.eq_of_mul_eq_mul_right hpos this
    rw [ih m h1]
    congr 1
    apply UInt8.toNat_inj.mp
    rw [byteOf_toNat, h2]

theorem be_ofBE (bs : Bytes) : be bs.length (ofBE bs) = bs :=
  be_of_mod bs _ (Nat.mod_eq_of_lt (ofBE_lt bs))

theorem ofBE_inj {a b : Bytes} (hl : a.length = b.length) (h : ofBE a = ofBE b) : a = b := by
  rw [← be_ofBE a, ← be_ofBE b, hl, h]

theorem foldl_bigEndian (bs : Bytes) (a : Nat) :
    bs.foldl (fun a b => a * 256 + b.toNat) a = a * 256 ^ bs.length + ofBE bs := by
  induction bs generalizing a with
  | nil => simp [ofBE]
  | cons b bs ih =>
    simp only [List.foldl_cons, ih, ofBE, List.length_cons, Nat.pow_succ, Nat.add_mul]
    rw [Nat.mul_assoc, Nat.mul_comm 256]
    omega

theorem bigEndian_eq (bs : Bytes) : Spec.bigEndian bs = ofBE bs := by
  simp [Spec.bigEndian, foldl_bigEndian]

theorem pow256 (k : Nat) : 256 ^ k = 2 ^ (8 * k) := by
  rw [Nat.pow_mul]

theorem twosComplement_eq (bs : Bytes) (h : bs ≠ []) :
    Spec.twosComplement bs = toSigned bs.length (ofBE bs) := by
  have hp : 256 ^ bs.length = 2 * 2 ^ (8 * bs.length - 1) := by
    rw [pow256]
    have : 0 < bs.length := List.length_pos_iff.mpr h
    obtain ⟨m, hm⟩ : ∃ m, 8 * bs.length = m + 1 := ⟨8 * bs.length - 1, by omega⟩
    rw [hm, Nat.pow_succ, Nat.add_sub_cancel, Nat.mul_comm]
  have hp' : (256 : Int) ^ bs.length = 2 ^ (8 * bs.length) := by
    rw [Int.pow_mul]; rfl
  unfold Spec.twosComplement toSigned
  rw [bigEndian_eq, hp']
  by_cases hlt : ofBE bs < 2 ^ (8 * bs.length - 1)
  · have : 2 * ofBE bs < 256 ^ bs.length := by omega
    rw [if_pos hlt, if_pos this]
  · have : ¬ 2 * ofBE bs < 256 ^ bs.length := by omega
    rw [if_neg hlt, if_neg this]

/-- Reading back a two's complement encoding. -/
theorem toSigned_ofBE_beInt (k : Nat) (hk : 0 < k) (z : Int) (h1 : -(2 ^ (8 * k - 1) : Int) ≤ z)
    (h2 : z < (2 ^ (8 * k - 1) : Int)) : toSigned k (ofBE (beInt k z)) = z := by
  obtain ⟨m, hm⟩ : ∃ m, 8 * k = m + 1 := ⟨8 * k - 1, by omega⟩
  have hp : (2 : Int) ^ (8 * k) = 2 * 2 ^ (8 * k - 1) := by
    rw [hm, Int.pow_succ, Nat.add_sub_cancel, Int.mul_comm]
  have hpn : (2 : Nat) ^ (8 * k) = 2 * 2 ^ (8 * k - 1) := by
    rw [hm, Nat.pow_succ, Nat.add_sub_cancel, Nat.mul_comm]
  have hpos : (0 : Int) < 2 ^ (8 * k - 1) := Int.pow_pos (by omega)
  have hcast : ((2 ^ (8 * k - 1) : Nat) : Int) = (2 : Int) ^ (8 * k - 1) := by simp
  have hmodlt : z % (2 ^ (8 * k) : Int) < 2 ^ (8 * k) := Int.emod_lt_of_pos _ (by omega)
  have hmodnn : 0 ≤ z % (2 ^ (8 * k) : Int) := Int.emod_nonneg _ (by omega)
  have hval : ofBE (beInt k z) = (z % (2 ^ (8 * k) : Int)).toNat := by
    rw [beInt, ofBE_be, pow256]
    apply Nat.mod_eq_of_lt
    omega
  rw [hval]
  unfold toSigned
  by_cases hz : 0 ≤ z
  · have : z % (2 ^ (8 * k) : Int) = z := Int.emod_eq_of_lt hz (by omega)
    rw [this]
    have : z.toNat < 2 ^ (8 * k - 1) := by omega
    rw [if_pos this]
    omega
  · have : z % (2 ^ (8 * k) : Int) = z + 2 ^ (8 * k) := by
      rw [← Int.add_emod_right]
      exact Int.emod_eq_of_lt (by omega) (by omega)
    rw [this]
    have : ¬ (z + 2 ^ (8 * k)).toNat < 2 ^ (8 * k - 1) := by omega
    rw [if_neg this]
    omega

theorem twosComplement_beInt (k : Nat) (hk : 0 < k) (z : Int) (h1 : -(2 ^ (8 * k - 1) : Int) ≤ z)
    (h2 : z < (2 ^ (8 * k - 1) : Int)) : Spec.twosComplement (beInt k z) = z := by
  have hne : beInt k z ≠ [] := by
    intro h
    have := congrArg List.length h
    simp at this; omega
  rw [twosComplement_eq _ hne, length_beInt, toSigned_ofBE_beInt k hk z h1 h2]

theorem wrap64_of_range {z : Int} (h1 : -2 ^ 63 ≤ z) (h2 : z < 2 ^ 63) : wrap64 z = z := by
  unfold wrap64
  rw [Int.bmod_def]
  split <;> omega

theorem wrap64_range (z : Int) : -2 ^ 63 ≤ wrap64 z ∧ wrap64 z < 2 ^ 63 := by
  unfold wrap64
  have h1 := Int.le_bmod (x := z) (m := 2 ^ 64) (by omega)
  have h2 := Int.bmod_lt (x := z) (m := 2 ^ 64) (by omega)
  omega

end Verif

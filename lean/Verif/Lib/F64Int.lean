import Verif.Props.Lamch

/-!
# Conversion of integers to binary64
-/

namespace Verif
namespace F64
open Float.Model Float.Model.UnpackedFloat

theorem toFloat_rounds (n : UInt64) : Rounds (n.toNat : ℝ) n.toFloat := by
  have h := normalize_rounds (n.toNat : Int) 0 .positive
  have e : up n.toFloat = fix (normalize Format.binary64 (n.toNat : Int) 0 .positive) := rfl
  rw [zpow_zero, mul_one, ← e] at h
  have e2 : ((n.toNat : Int) : ℝ) = (n.toNat : ℝ) := by push_cast; rfl
  rw [e2] at h
  exact h

theorem nat_lt_ovf {n : Nat} (h : n < 2 ^ 53) : |(n : ℝ)| < ovf := by
  rw [abs_of_nonneg (Nat.cast_nonneg n)]
  have := val_lt_ovf (m := n) (e := 0) h (by norm_num)
  simpa using this

theorem toFloat_exact (n : UInt64) (h : n.toNat < 2 ^ 53) : n.toFloat.isFinite = true ∧ toR n.toFloat = n.toNat :=
  (toFloat_rounds n).exact (nat_lt_ovf h) (grid_nat h)

theorem ofNat_exact (n : Nat) (h : n < 2 ^ 53) : (Float.ofNat n).isFinite = true ∧ toR (Float.ofNat n) = n := by
  have e : Float.ofNat n = n.toUInt64.toFloat * 1 := by
    show Float.ofScientific n false 0 = _
    unfold Float.ofScientific
    rw [dif_pos ⟨h, by norm_num⟩]
    rfl
  have h64 : n.toUInt64.toNat = n := by
    show (UInt64.ofNat n).toNat = n
    rw [UInt64.toNat_ofNat']
    exact Nat.mod_eq_of_lt (by omega)
  have h1 := toFloat_exact n.toUInt64 (by rw [h64]; exact h)
  have h2 := mul_rounds _ 1 h1.1 toR_one.1
  rw [h1.2, toR_one.2, mul_one, h64] at h2
  rw [e]
  exact h2.exact (nat_lt_ovf h) (grid_nat h)

/-- `n as f64` is exact for `|n| < 2^53`. -/
theorem ofInt_exact (n : Int) (h : n.natAbs < 2 ^ 53) : (Float.ofInt n).isFinite = true ∧ toR (Float.ofInt n) = n := by
  cases n with
  | ofNat n =>
    have := ofNat_exact n h
    exact ⟨this.1, by rw [show toR (Float.ofInt (Int.ofNat n)) = toR (Float.ofNat n) from rfl, this.2]; simp⟩
  | negSucc n =>
    have := ofNat_exact (n + 1) h
    have e : Float.ofInt (Int.negSucc n) = -(Float.ofNat (n + 1)) := rfl
    rw [e]
    refine ⟨by rw [neg_finite]; exact this.1, ?_⟩
    rw [neg_toR, this.2, Int.negSucc_eq]
    push_cast
    ring

end F64
end Verif

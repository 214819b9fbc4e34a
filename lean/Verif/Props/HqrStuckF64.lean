import Verif.Props.HqrStuck
import Verif.Lib.F64Int

/-!
# `dlahqr` does not return on upper triangular matrices, binary64 (C44)
-/

namespace Verif
namespace F64
open Scalar

/-- The threshold is exactly `nh * 2^-970`. -/
theorem hqrSmall_val (ilo ihi : Int) (h1 : ilo ≤ ihi) (h2 : ihi - ilo < 2 ^ 31) :
    (Spec.hqrSmall ilo ihi : Float).isFinite = true ∧
      toR (Spec.hqrSmall ilo ihi) = ((ihi - ilo + 1 : Int) : ℝ) * (2 : ℝ) ^ (-970 : Int) := by
  obtain ⟨m, hm⟩ : ∃ m : Nat, ihi - ilo + 1 = m := ⟨(ihi - ilo + 1).toNat, by omega⟩
  have hm53 : m < 2 ^ 53 := by omega
  obtain ⟨o1, o2⟩ := ofInt_exact (ihi - ilo + 1) (by omega)
  obtain ⟨p1, p2⟩ := dlamch_val 'P'
  obtain ⟨s1, s2⟩ := dlamch_val 'S'
  have hP : toR (dlamch 'P' : Float) = (2 : ℝ) ^ (-52 : Int) := by
    rw [p2, machine_P, show (-52 : Int) = -((52 : Nat) : Int) from rfl, zpneg]
  have hS : toR (dlamch 'S' : Float) = (2 : ℝ) ^ (-1022 : Int) := by
    rw [s2, machine_S, show (-1022 : Int) = -((1022 : Nat) : Int) from rfl, zpneg]
  have hc : ((ihi - ilo + 1 : Int) : ℝ) = (m : ℝ) := by rw [hm]; simp
  have hq : ((ihi - ilo + 1 : Int) : ℝ) / (2 : ℝ) ^ (-52 : Int) = (m : ℝ) * (2 : ℝ) ^ (52 : Int) := by
    rw [hc, zpow_neg, div_inv_eq_mul]
  have d := div_rounds (Float.ofInt (ihi - ilo + 1)) (dlamch 'P') o1 p1 (by rw [hP]; exact (zp _).ne')
  rw [o2, hP, hq] at d
  have hpos : 0 ≤ (m : ℝ) * (2 : ℝ) ^ (52 : Int) := mul_nonneg (Nat.cast_nonneg m) (zp _).le
  obtain ⟨d1, d2⟩ := d.exact (by rw [abs_of_nonneg hpos]; exact val_lt_ovf hm53 (by norm_num))
    (by unfold Grid; rw [abs_of_nonneg hpos]; exact ⟨m, 52, hm53, by norm_num, rfl⟩)
  have e := mul_rounds (dlamch 'S') _ s1 d1
  have hx : toR (dlamch 'S' : Float) * toR (Float.ofInt (ihi - ilo + 1) / dlamch 'P') =
      (m : ℝ) * (2 : ℝ) ^ (-970 : Int) := by
    rw [hS, d2, show (-970 : Int) = -1022 + 52 by norm_num, zpow_add₀ (by norm_num : (2 : ℝ) ≠ 0)]
    ring
  rw [hx] at e
  have hpos' : 0 ≤ (m : ℝ) * (2 : ℝ) ^ (-970 : Int) := mul_nonneg (Nat.cast_nonneg m) (zp _).le
  obtain ⟨e1, e2⟩ := e.exact (by rw [abs_of_nonneg hpos']; exact val_lt_ovf hm53 (by norm_num))
    (by unfold Grid; rw [abs_of_nonneg hpos']; exact ⟨m, -970, hm53, by norm_num, rfl⟩)
  refine ⟨e1, ?_⟩
  rw [hc]
  exact e2

section containers
variable {WR WI Z : Type} [ToFA Float WR] [FromFA Float WR] [ToFA Float WI] [FromFA Float WI] [ToFA Float Z]
  [FromFA Float Z]

/-- **C44, binary64.** With the subdiagonal of the active block zero, or finite and of magnitude at most
`(ihi - ilo + 1) * 2^-970`, `dlahqr` never returns. -/
theorem C44_dlahqr_diverges_f64 (fuel : Nat) (wantt wantz : Bool) (n : Int) (hn : n ≠ 0) (ilo ihi : Nat)
    (h : FA Float) (r c : Nat) (hh : IsMatrix h r c) (h1 : 1 ≤ ilo) (h2 : ilo < ihi) (h3 : ihi ≤ r) (h4 : ihi ≤ c)
    (hneg : ∀ k : Nat, ilo < k → k ≤ ihi → ∃ x, h.data[(k - 2) * r + (k - 1)]? = some x ∧ x.isFinite = true ∧
      |toR x| ≤ ((ihi : ℝ) - ilo + 1) * (2 : ℝ) ^ (-970 : Int))
    (ldh : Int) (wr : WR) (wi : WI) (iloz ihiz : Int) (z : Z) (ldz : Int) :
    dlahqr (F := Float) fuel wantt wantz n ilo ihi h ldh wr wi iloz ihiz z ldz = R.timeout := by
  refine C44_dlahqr_diverges fuel wantt wantz n hn ilo ihi h r c hh h1 h2 h3 h4 ?_ ldh wr wi iloz ihiz z ldz
  intro k hk1 hk2
  obtain ⟨x, e, hx, hx'⟩ := hneg k hk1 hk2
  refine ⟨x, e, ?_⟩
  have hb : r * c < 2 ^ 31 := hh.small
  have hr : ihi < 2 ^ 31 := by
    have : ihi * 1 ≤ r * c := Nat.mul_le_mul h3 (by omega)
    omega
  obtain ⟨v1, v2⟩ := hqrSmall_val (ilo : Int) ihi (by omega) (by omega)
  have hle := (le_iff (x := x.abs) (y := Spec.hqrSmall (ilo : Int) ihi) (by rw [abs_finite]; exact hx) v1).2 (by
    rw [abs_toR, v2]; push_cast; exact hx')
  exact hle

/-- The special case of an upper triangular matrix (every subdiagonal element is `0.0`). -/
theorem C44_dlahqr_triangular_f64 (fuel : Nat) (wantt wantz : Bool) (n : Int) (hn : n ≠ 0) (ilo ihi : Nat)
    (h : FA Float) (r c : Nat) (hh : IsMatrix h r c) (h1 : 1 ≤ ilo) (h2 : ilo < ihi) (h3 : ihi ≤ r) (h4 : ihi ≤ c)
    (htri : ∀ k : Nat, ilo < k → k ≤ ihi → h.data[(k - 2) * r + (k - 1)]? = some 0)
    (ldh : Int) (wr : WR) (wi : WI) (iloz ihiz : Int) (z : Z) (ldz : Int) :
    dlahqr (F := Float) fuel wantt wantz n ilo ihi h ldh wr wi iloz ihiz z ldz = R.timeout := by
  refine C44_dlahqr_diverges_f64 fuel wantt wantz n hn ilo ihi h r c hh h1 h2 h3 h4 ?_ ldh wr wi iloz ihiz z ldz
  intro k hk1 hk2
  refine ⟨0, htri k hk1 hk2, by decide +kernel, ?_⟩
  have : toR (0 : Float) = 0 := rfl
  rw [this, abs_zero]
  have : (ilo : ℝ) < ihi := by exact_mod_cast h2
  exact mul_nonneg (by linarith) (zp _).le

/-- The identity matrix of order two, `dlahqr(true, true, 2, 1, 2, ...)`: never returns. -/
example (fuel : Nat) (wr wi : List Float) : dlahqr (F := Float) fuel true true 2 (1 : Nat) (2 : Nat)
    (⟨[1, 0, 0, 1], 2, 2, 0⟩ : FA Float) 2 wr wi 1 2 (⟨[1, 0, 0, 1], 2, 2, 0⟩ : FA Float) 2 = R.timeout :=
  C44_dlahqr_triangular_f64 fuel true true 2 (by norm_num) 1 2 _ 2 2 ⟨rfl, rfl, rfl, by norm_num⟩ (by norm_num)
    (by norm_num) (by norm_num) (by norm_num) (fun k h1 h2 => by
      obtain rfl : k = 2 := by omega
      rfl) 2 wr wi 1 2 _ 2

end containers
end F64
end Verif

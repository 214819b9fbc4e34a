import Verif.Props.LarfgF64
import Verif.Props.Lapy2F64
import Verif.Lib.Post
import Verif.Props.HqrIndep

/-!
# The scalar `tau` of `dlarfg` on binary64 is zero or between one and two (C84)
-/

namespace Verif
open Scalar Spec F64

namespace F64
open Float.Model

theorem sub_fin {x y : Float} (h : (x - y).isFinite = true) : x.isFinite = true ∧ y.isFinite = true := by
  rw [isFinite_up, up_sub] at h
  rw [isFinite_up, isFinite_up]
  cases hx : up x <;> cases hy : up y <;> rw [hx, hy] at h <;>
    first
      | exact ⟨rfl, rfl⟩
      | (exfalso; revert h; simp only [UnpackedFloat.sub, fix_nan, fix_inf]; try split) <;> simp [UnpackedFloat.isFinite, fix_nan, fix_inf]

theorem mul_fin {x y : Float} (h : (x * y).isFinite = true) : x.isFinite = true ∧ y.isFinite = true := by
  rw [isFinite_up, up_mul] at h
  rw [isFinite_up, isFinite_up]
  cases hx : up x <;> cases hy : up y <;> rw [hx, hy] at h <;>
    first
      | exact ⟨rfl, rfl⟩
      | (exfalso; revert h; simp [UnpackedFloat.mul, fix_nan, fix_inf, UnpackedFloat.isFinite])

theorem div_fin {x y : Float} (h : (x / y).isFinite = true) (hy : y.isFinite = true) : x.isFinite = true ∧ toR y ≠ 0 := by
  rw [isFinite_up, up_div] at h
  rw [isFinite_up] at hy ⊢
  have h0 : toR y = 0 → ∃ s, up y = .zero s := fun e => toR_eq_zero (by rw [isFinite_up]; exact hy) e
  cases hx : up x <;> cases hyu : up y <;> rw [hx, hyu] at h <;> rw [hyu] at hy h0 <;>
    first
      | (exfalso; revert h; simp [UnpackedFloat.div, fix_nan, fix_inf, UnpackedFloat.isFinite]; done)
      | (exfalso; revert hy; simp [UnpackedFloat.isFinite]; done)
      | (refine ⟨rfl, fun e => ?_⟩; obtain ⟨s, hs⟩ := h0 e; cases hs)

theorem tau_range {alpha r b : Float} (hb : b = -Scalar.signum alpha * dlapy2 alpha r) (h : ((b - alpha) / b).isFinite = true) :
    1 ≤ toR ((b - alpha) / b) ∧ toR ((b - alpha) / b) ≤ 2 := by
  have hbf : b.isFinite = true := by
    by_contra hc
    have : (b - alpha).isFinite = false := by
      by_contra hd
      exact hc (sub_fin (Bool.eq_true_of_not_eq_false hd)).1
    revert h
    rw [isFinite_up, up_div]
    rw [isFinite_up] at hc this
    cases hx : up (b - alpha) <;> cases hyu : up b <;> rw [hx] at this <;> rw [hyu] at hc <;>
      first
        | (intro h; exact absurd rfl hc)
        | (cases this; done)
        | simp [UnpackedFloat.div, fix_nan, fix_inf, UnpackedFloat.isFinite]
  obtain ⟨hs, b0⟩ := div_fin h hbf
  obtain ⟨-, ha⟩ := sub_fin hs
  have hbm := hbf
  rw [hb] at hbm
  obtain ⟨-, dfin⟩ := mul_fin hbm
  obtain ⟨s, hs1, hs2, sf, sv⟩ := signum_fin ha
  have an : alpha.isNaN = false := by
    rw [isNaN_up]; rw [isFinite_up] at ha
    cases hu : up alpha <;> rw [hu] at ha <;> first | rfl | cases ha
  have rn : r.isNaN = false := by
    by_contra hc
    have hc := Bool.eq_true_of_not_eq_false hc
    unfold dlapy2 at dfin
    rw [show Scalar.isNaN alpha = alpha.isNaN from rfl, an, show Scalar.isNaN r = r.isNaN from rfl, hc] at dfin
    simp only [if_true, Bool.false_eq_true, if_false] at dfin
    rw [isNaN_up] at hc; rw [isFinite_up] at dfin
    cases hu : up r <;> rw [hu] at hc dfin <;> cases hc <;> cases dfin
  have hge := (C47_dlapy2_ge alpha r an rn).1
  rw [le_iff (abs_fin ha) dfin, abs_toR] at hge
  generalize dlapy2 alpha r = d at *
  have d0 : 0 ≤ toR d := (abs_nonneg _).trans hge
  have bv : toR b = -s * toR d := by
    have hrr := mul_rounds (-Scalar.signum alpha) d (by rw [neg_finite]; exact sf) dfin
    rw [neg_toR, show toR (Scalar.signum alpha) = s from sv] at hrr
    have hg : Grid (-s * toR d) := by
      rcases hs1 with rfl | rfl
      · rw [show (-1 : ℝ) * toR d = -toR d by ring]; exact (grid_toR d).neg
      · rw [show -(-1 : ℝ) * toR d = toR d by ring]; exact grid_toR d
    rw [hb]
    exact (hrr.fl hbm).exact hg
  have fl1 := (sub_rounds b alpha hbf ha).fl hs
  have fl2 := (div_rounds (b - alpha) b hs hbf b0).fl h
  have g1 : Grid (1 : ℝ) := by have := grid_nat (n := 1) (by norm_num); simpa using this
  have g2 : Grid (2 : ℝ) := by have := grid_nat (n := 2) (by norm_num); simpa using this
  have key : 1 ≤ toR (b - alpha) / toR b ∧ toR (b - alpha) / toR b ≤ 2 := by
    have al := abs_nonneg (toR alpha)
    rcases hs1 with rfl | rfl
    · have e1 : toR alpha = |toR alpha| := by linarith
      have bneg : toR b < 0 := lt_of_le_of_ne (by rw [bv]; linarith) b0
      rw [le_div_iff_of_neg bneg, div_le_iff_of_neg bneg]
      have u1 := fl1.upper (toR b) (grid_toR b) (by linarith)
      have u2 := fl1.lower (2 * toR b) (grid_mul_two (grid_toR b)) (by linarith)
      exact ⟨by linarith, by linarith⟩
    · have e1 : toR alpha = -|toR alpha| := by linarith
      have bpos : 0 < toR b := lt_of_le_of_ne (by rw [bv]; linarith) b0.symm
      rw [le_div_iff₀ bpos, div_le_iff₀ bpos]
      have u1 := fl1.lower (toR b) (grid_toR b) (by linarith)
      have u2 := fl1.upper (2 * toR b) (grid_mul_two (grid_toR b)) (by linarith)
      exact ⟨by linarith, by linarith⟩
  exact ⟨fl2.lower 1 g1 key.1, fl2.upper 2 g2 key.2⟩

end F64

section containers
variable {X : Type} [ToFA Float X] [FromFA Float X]

/-- **C84.** Whatever `alpha`, `x` (of any kind of container), `n` and the stride, the scalar `tau` that `dlarfg` returns on binary64 is infinite or NaN, or
zero, or at least `1` and at most `2`, exactly, as documented. -/
theorem C84_dlarfg_tau (n : Int) (alpha : Float) (x : X) (incx : Int) (pr : Profile) (beta : Float) (x' : X) (tau : Float)
    (hret : dlarfg (F := Float) n alpha x incx pr = .ok (beta, x', tau)) (hfin : tau.isFinite = true) :
    tau = 0 ∨ 1 ≤ toR tau ∧ toR tau ≤ 2 := by
  have hfinish : ∀ (safmin a r : Float) (x : X) (k : Nat), Post (dlarfgFinish (F := Float) n incx safmin a (-Scalar.signum a * dlapy2 a r) x k)
      fun o => o.2.2.isFinite = true → o.2.2 = 0 ∨ 1 ≤ toR o.2.2 ∧ toR o.2.2 ≤ 2 := by
    intro safmin a r x k
    unfold dlarfgFinish
    refine Post.bind' fun _ => Post.bind' fun _ => Post.pure fun hf => Or.inr (tau_range rfl hf)
  have main : Post (dlarfg (F := Float) n alpha x incx) fun o => o.2.2.isFinite = true → o.2.2 = 0 ∨ 1 ≤ toR o.2.2 ∧ toR o.2.2 ≤ 2 := by
    unfold dlarfg
    refine Post.ite (fun _ => Post.pure fun _ => Or.inl rfl) fun _ => Post.bind' fun _ => Post.bind' fun _ => ?_
    refine Post.ite (fun _ => Post.pure fun _ => Or.inl rfl) fun _ => ?_
    refine Post.ite (fun _ => Post.bind' fun _ => Post.bind' fun _ => Post.bind' fun _ => hfinish _ _ _ _ _) fun _ => hfinish _ _ _ _ _
  exact main pr _ hret hfin

end containers

/-- The exception is real: with `alpha = 1.5·2^1023` and `x = 2^1022` all results exist but `tau` is infinite. -/
theorem C84_tau_infinite (pr : Profile) :
    ((dlarfg (F := Float) 2 (Float.ofBits 0x7FE8000000000000) [Float.ofBits 0x7FD0000000000000] 1 pr).val?.map fun o => o.2.2.isInf) = some true := by
  cases pr <;> decide +kernel

/-- A case with `tau` strictly between. -/
theorem C84_example (pr : Profile) : ((dlarfg (F := Float) 2 3 [(4 : Float)] 1 pr).val?.map fun o => (o.1 == -5, o.2.2 == 1.6)) = some (true, true) := by
  cases pr <;> decide +kernel

end Verif

import Verif.Props.Lapy2
import Mathlib.Data.Complex.Basic
import Mathlib.LinearAlgebra.Matrix.Notation
import Mathlib.Tactic.LinearCombination
import Mathlib.Analysis.SpecialFunctions.Log.Base

/-!
# `dlanv2` in exact arithmetic (C37, C38)
-/

namespace Verif
open Scalar XR

/-- Apply a function to all ten values. -/
def Lanv2.map {F G : Type} (f : F → G) (o : Lanv2 F) : Lanv2 G :=
  ⟨f o.a, f o.b, f o.c, f o.d, f o.rt1r, f o.rt1i, f o.rt2r, f o.rt2i, f o.cs, f o.sn⟩

namespace Spec

/-- `[A B; C D] = [cs -sn; sn cs] [a b; c d] [cs sn; -sn cs]` with `cs² + sn² = 1`. -/
structure Rotated (A B C D cs sn a b c d : ℝ) : Prop where
  unit : cs ^ 2 + sn ^ 2 = 1
  similar : !![A, B; C, D] = !![cs, -sn; sn, cs] * !![a, b; c, d] * !![cs, sn; -sn, cs]

/-- The standard form: upper triangular, or equal diagonal entries and off-diagonal entries of
opposite signs. -/
def Standard (a b c d : ℝ) : Prop := c = 0 ∨ (a = d ∧ b * c < 0)

/-- `z1` and `z2` are the two roots of the characteristic polynomial of `[A B; C D]`, and they are
both real or complex conjugates of each other. -/
structure Eigenvalues (A B C D : ℝ) (z1 z2 : ℂ) : Prop where
  sum : z1 + z2 = (A + D : ℝ)
  prod : z1 * z2 = (A * D - B * C : ℝ)
  conj : (z1.im = 0 ∧ z2.im = 0) ∨ (z1.re = z2.re ∧ z1.im = -z2.im)

end Spec
open Spec

theorem rotated_iff {A B C D cs sn a b c d : ℝ} : Rotated A B C D cs sn a b c d ↔
    cs ^ 2 + sn ^ 2 = 1 ∧ A = (cs * a - sn * c) * cs - (cs * b - sn * d) * sn ∧
    B = (cs * a - sn * c) * sn + (cs * b - sn * d) * cs ∧
    C = (sn * a + cs * c) * cs - (sn * b + cs * d) * sn ∧
    D = (sn * a + cs * c) * sn + (sn * b + cs * d) * cs := by
  have key : (!![A, B; C, D] = !![cs, -sn; sn, cs] * !![a, b; c, d] * !![cs, sn; -sn, cs]) ↔
      (A = (cs * a - sn * c) * cs - (cs * b - sn * d) * sn ∧
      B = (cs * a - sn * c) * sn + (cs * b - sn * d) * cs ∧
      C = (sn * a + cs * c) * cs - (sn * b + cs * d) * sn ∧
      D = (sn * a + cs * c) * sn + (sn * b + cs * d) * cs) := by
    rw [← Matrix.ext_iff]
    simp [Fin.forall_fin_two, Matrix.mul_apply, Fin.sum_univ_two, Matrix.vecMul, and_assoc]
    constructor
    · rintro ⟨h1, h2, h3, h4⟩
      exact ⟨by linear_combination h1, by linear_combination h2, by linear_combination h3,
        by linear_combination h4⟩
    · rintro ⟨h1, h2, h3, h4⟩
      exact ⟨by linear_combination h1, by linear_combination h2, by linear_combination h3,
        by linear_combination h4⟩
  constructor
  · rintro ⟨h1, h2⟩; exact ⟨h1, key.1 h2⟩
  · rintro ⟨h1, h2⟩; exact ⟨h1, key.2 h2⟩

/-- Composition of two rotations. -/
theorem Spec.Rotated.trans {A B C D cs sn a b c d cs' sn' a' b' c' d' : ℝ}
    (h : Rotated A B C D cs sn a b c d) (h' : Rotated a b c d cs' sn' a' b' c' d') :
    Rotated A B C D (cs * cs' - sn * sn') (cs * sn' + sn * cs') a' b' c' d' := by
  rw [rotated_iff] at *
  obtain ⟨u, h1, h2, h3, h4⟩ := h
  obtain ⟨u', g1, g2, g3, g4⟩ := h'
  refine ⟨?_, ?_, ?_, ?_, ?_⟩
  · linear_combination (cs' ^ 2 + sn' ^ 2) * u + u'
  · rw [h1, g1, g2, g3, g4]; ring
  · rw [h2, g1, g2, g3, g4]; ring
  · rw [h3, g1, g2, g3, g4]; ring
  · rw [h4, g1, g2, g3, g4]; ring

theorem Spec.Rotated.trace {A B C D cs sn a b c d : ℝ} (h : Rotated A B C D cs sn a b c d) :
    a + d = A + D := by
  rw [rotated_iff] at h
  obtain ⟨u, h1, h2, h3, h4⟩ := h
  rw [h1, h4]
  linear_combination (-(a + d)) * u

theorem Spec.Rotated.det {A B C D cs sn a b c d : ℝ} (h : Rotated A B C D cs sn a b c d) :
    a * d - b * c = A * D - B * C := by
  rw [rotated_iff] at h
  obtain ⟨u, h1, h2, h3, h4⟩ := h
  rw [h1, h2, h3, h4]
  linear_combination (-(a * d - b * c) * (cs ^ 2 + sn ^ 2 + 1)) * u

/-- What `lanv2Out` returns for real values. -/
noncomputable def outR (a b c d cs sn : ℝ) : Lanv2 ℝ :=
  ⟨a, b, c, d, a, if c = 0 then 0 else Real.sqrt |b| * Real.sqrt |c|, d,
    if c = 0 then 0 else -(Real.sqrt |b| * Real.sqrt |c|), cs, sn⟩

theorem lanv2Out_fin (a b c d cs sn : ℝ) :
    lanv2Out (fin a) (fin b) (fin c) (fin d) (fin cs) (fin sn) = (outR a b c d cs sn).map fin := by
  unfold lanv2Out outR Lanv2.map
  by_cases h : c = 0
  · simp [h]
  · have : ¬ (fin c =ᶠ zero) = true := by simpa using h
    simp only [if_neg this, if_neg h, fin_abs]
    rw [fin_sqrt _ (abs_nonneg _), fin_sqrt _ (abs_nonneg _)]
    simp

theorem outR_eigen {A B C D a b c d cs sn : ℝ} (h : Rotated A B C D cs sn a b c d)
    (hs : Standard a b c d) :
    Eigenvalues A B C D ⟨(outR a b c d cs sn).rt1r, (outR a b c d cs sn).rt1i⟩
      ⟨(outR a b c d cs sn).rt2r, (outR a b c d cs sn).rt2i⟩ := by
  have ht := h.trace
  have hd := h.det
  unfold outR
  rcases hs with hc | ⟨rfl, hbc⟩
  · simp only [hc, if_true]
    refine ⟨?_, ?_, Or.inl ⟨rfl, rfl⟩⟩
    · rw [← ht]; apply Complex.ext <;> simp
    · rw [← hd, hc]; apply Complex.ext <;> simp
  · have hc : c ≠ 0 := by rintro rfl; simp at hbc
    simp only [hc, if_false]
    have hsq : (Real.sqrt |b| * Real.sqrt |c|) * (Real.sqrt |b| * Real.sqrt |c|) = -(b * c) := by
      rw [mul_mul_mul_comm, Real.mul_self_sqrt (abs_nonneg _), Real.mul_self_sqrt (abs_nonneg _),
        ← abs_mul, abs_of_neg hbc]
    refine ⟨?_, ?_, Or.inr ⟨rfl, by simp⟩⟩
    · rw [← ht]; apply Complex.ext <;> simp
    · rw [← hd]; apply Complex.ext
      · simp; linear_combination hsq
      · simp; ring

/-- The overall claim for one output. -/
structure Good (A B C D : ℝ) (o : Lanv2 ℝ) : Prop where
  rot : Rotated A B C D o.cs o.sn o.a o.b o.c o.d
  std : Standard o.a o.b o.c o.d
  eig : Eigenvalues A B C D ⟨o.rt1r, o.rt1i⟩ ⟨o.rt2r, o.rt2i⟩
  out : o = outR o.a o.b o.c o.d o.cs o.sn

theorem good_out {A B C D a b c d cs sn : ℝ} (h : Rotated A B C D cs sn a b c d)
    (hs : Standard a b c d) : Good A B C D (outR a b c d cs sn) :=
  ⟨h, hs, outR_eigen h hs, rfl⟩

theorem sgn_eq_iff {b c : ℝ} (hb : b ≠ 0) (hc : c ≠ 0) :
    ((if b < 0 then (-1 : ℝ) else 1) = if c < 0 then -1 else 1) ↔ 0 < b * c := by
  rcases lt_or_gt_of_ne hb with h1 | h1 <;> rcases lt_or_gt_of_ne hc with h2 | h2
  · simp [h1, h2, mul_pos_of_neg_of_neg h1 h2]
  · have := mul_neg_of_neg_of_pos h1 h2
    simp [h1, not_lt.2 h2.le, not_lt.2 this.le]; norm_num
  · have := mul_neg_of_pos_of_neg h1 h2
    simp [h2, not_lt.2 h1.le, not_lt.2 this.le]; norm_num
  · simp [not_lt.2 h1.le, not_lt.2 h2.le, mul_pos h1 h2]

theorem lanv2Finish_good {A B C D t b c cs sn : ℝ} (h : Rotated A B C D cs sn t b c t) :
    ∃ o : Lanv2 ℝ, lanv2Finish (fin t) (fin b) (fin c) (fin cs) (fin sn) = o.map fin ∧ Good A B C D o := by
  unfold lanv2Finish
  by_cases hc : c = 0
  · have : ¬ ((fin c ≠ᶠ zero) = true) := by simpa using hc
    rw [if_neg this, lanv2Out_fin]
    exact ⟨_, rfl, good_out h (Or.inl hc)⟩
  · have hc' : (fin c ≠ᶠ zero) = true := by simpa using hc
    rw [if_pos hc']
    by_cases hb : b = 0
    · have : ¬ ((fin b ≠ᶠ zero) = true) := by simpa using hb
      rw [if_neg this]
      simp only [fin_neg, ofInt_eq, Int.cast_zero]
      rw [lanv2Out_fin]
      refine ⟨_, rfl, good_out ?_ (Or.inl rfl)⟩
      have h1 : Rotated t b c t 0 1 t (-c) 0 t := by
        rw [rotated_iff, hb]; refine ⟨by norm_num, ?_, ?_, ?_, ?_⟩ <;> ring
      have := h.trans h1
      simpa using this
    · have hb' : (fin b ≠ᶠ zero) = true := by simpa using hb
      rw [if_pos hb', fin_signum, fin_signum, fin_beq]
      by_cases hs : 0 < b * c
      · rw [if_pos (by simpa using (sgn_eq_iff hb hc).2 hs)]
        simp only [fin_abs]
        rw [fin_sqrt _ (abs_nonneg _), fin_sqrt _ (abs_nonneg _)]
        simp only [fin_mul, fin_add, fin_sub, fin_abs, ofInt_eq, Int.cast_one, Int.cast_zero]
        rw [fin_sqrt _ (abs_nonneg _)]
        have hbc : |b + c| = |b| + |c| := by
          rcases lt_or_gt_of_ne hc with h2 | h2
          · have h1 : b < 0 := by
              by_contra h'; have := mul_nonpos_of_nonneg_of_nonpos (not_lt.1 h') h2.le; linarith
            rw [abs_of_neg h1, abs_of_neg h2, abs_of_neg (by linarith)]; ring
          · have h1 : 0 < b := by
              by_contra h'; have := mul_nonpos_of_nonpos_of_nonneg (not_lt.1 h') h2.le; linarith
            rw [abs_of_pos h1, abs_of_pos h2, abs_of_pos (by linarith)]
        have hpos : 0 < |b + c| := by
          rw [hbc]; have := abs_pos.2 hb; have := abs_pos.2 hc; linarith
        have hne : Real.sqrt |b + c| ≠ 0 := (Real.sqrt_pos.2 hpos).ne'
        rw [fin_div _ _ hne]
        simp only [fin_mul, fin_sub, fin_add]
        rw [lanv2Out_fin]
        refine ⟨_, rfl, good_out (h.trans ?_) (Or.inl rfl)⟩
        set β := Real.sqrt |b| with hβ
        set γ := Real.sqrt |c| with hγ
        set s := Real.sqrt |b + c| with hsdef
        have b2 : β ^ 2 = |b| := Real.sq_sqrt (abs_nonneg _)
        have c2 : γ ^ 2 = |c| := Real.sq_sqrt (abs_nonneg _)
        have s2 : s ^ 2 = β ^ 2 + γ ^ 2 := by rw [b2, c2, ← hbc]; exact Real.sq_sqrt (abs_nonneg _)
        set q : ℝ := if c < 0 then -1 else 1 with hq
        have hqb : b = q * β ^ 2 := by
          rw [b2, hq]
          rcases lt_or_gt_of_ne hc with h2 | h2
          · have h1 : b < 0 := by
              by_contra h'; have := mul_nonpos_of_nonneg_of_nonpos (not_lt.1 h') h2.le; linarith
            rw [if_pos h2, abs_of_neg h1]; ring
          · have h1 : 0 < b := by
              by_contra h'; have := mul_nonpos_of_nonpos_of_nonneg (not_lt.1 h') h2.le; linarith
            rw [if_neg (not_lt.2 h2.le), abs_of_pos h1]; ring
        have hqc : c = q * γ ^ 2 := by
          rw [c2, hq]
          rcases lt_or_gt_of_ne hc with h2 | h2
          · rw [if_pos h2, abs_of_neg h2]; ring
          · rw [if_neg (not_lt.2 h2.le), abs_of_pos h2]; ring
        have hi : s ^ 2 * (1 / s) ^ 2 = 1 := by field_simp
        set i := 1 / s with hidef
        have hu : (β * i) ^ 2 + (γ * i) ^ 2 = 1 := by
          rw [← hi, s2]; ring
        clear_value q β γ i
        subst hqb
        rw [rotated_iff]
        refine ⟨hu, ?_, ?_, ?_, ?_⟩
        · rw [hqc]; linear_combination (-t) * hu
        · rw [hqc]; linear_combination (-(q * β ^ 2)) * hu
        · rw [hqc]; linear_combination (-(q * γ ^ 2)) * hu
        · rw [hqc]; linear_combination (-t) * hu
      · rw [if_neg (by simpa using fun h' => hs ((sgn_eq_iff hb hc).1 h')), lanv2Out_fin]
        refine ⟨_, rfl, good_out h (Or.inr ⟨rfl, ?_⟩)⟩
        exact lt_of_le_of_ne (not_lt.1 hs) (mul_ne_zero hb hc)

/-! ### The scaling loop -/

theorem safmn2_eq : (safmn2 : XR) = fin 0 := by
  unfold safmn2
  rw [dlamch_B, dlamch_S, dlamch_P, fin_div _ _ (by positivity)]
  set q : ℝ := 1 / 2 ^ 1022 / (1 / 2 ^ 52) with hq
  have hq0 : 0 < q := by positivity
  have hq1 : q < 1 := by
    rw [hq, div_lt_one (by positivity)]
    exact one_div_lt_one_div_of_lt (by positivity) (pow_lt_pow_right₀ (by norm_num) (by norm_num))
  have hl : Real.log q < 0 := Real.log_neg hq0 hq1
  have hl2 : 0 < Real.log 2 := Real.log_pos (by norm_num)
  have h1 : Scalar.log (fin q) (fin 2) = fin (Real.log q / Real.log 2) := by
    show XR.log (fin q) (fin 2) = _
    simp only [XR.log]
    rw [if_pos ⟨hq0, by norm_num⟩]
    exact fin_div _ _ hl2.ne'
  rw [h1, show (two : XR) = fin ((2 : Int) : ℝ) from rfl, fin_div _ _ (by norm_num)]
  have h2 : Real.log q / Real.log 2 / ((2 : Int) : ℝ) < 0 := by
    have := div_neg_of_neg_of_pos hl hl2
    push_cast
    linarith
  set e : ℝ := Real.log q / Real.log 2 / ((2 : Int) : ℝ)
  have h3 : Scalar.powf (fin 2) (fin e) = fin (2 ^ e) := by
    show XR.powf (fin 2) (fin e) = _
    simp only [XR.powf]
    rw [if_pos (Or.inl (by norm_num))]
  rw [h3]
  show XR.trunc (fin _) = _
  have h4 : (0 : ℝ) < 2 ^ e := Real.rpow_pos_of_pos (by norm_num) _
  have h5 : (2 : ℝ) ^ e < 1 := Real.rpow_lt_one_of_one_lt_of_neg (by norm_num) h2
  simp only [XR.trunc]
  rw [if_neg (not_lt.2 h4.le), Int.floor_eq_zero_iff.2 ⟨h4.le, h5⟩]
  simp

theorem safmx2_eq : (safmx2 : XR) = pinf := by
  unfold safmx2
  rw [safmn2_eq, show (one : XR) = fin ((1 : Int) : ℝ) from rfl]
  show XR.div (fin _) (fin 0) = _
  simp [XR.div, XR.inf]

theorem lanv2Scale_fin (k c : Nat) (σ t : ℝ) (h : σ ≠ 0 ∨ t ≠ 0) :
    lanv2Scale k c (fin σ) (fin t) = (fin σ, fin t) := by
  cases k with
  | zero => rfl
  | succ k =>
    unfold lanv2Scale
    simp only [safmn2_eq, safmx2_eq, fin_abs, fin_fmax]
    have h1 : ¬ ((pinf ≤ᶠ fin (max |t| |σ|)) = true) := by
      show ¬ ((XR.lt pinf (fin (max |t| |σ|)) || XR.beq pinf (fin (max |t| |σ|))) = true)
      simp [XR.lt, XR.beq]
    have h2 : ¬ ((fin (max |t| |σ|) ≤ᶠ fin 0) = true) := by
      simp only [fin_le, decide_eq_true_eq, not_le]
      rcases h with h | h
      · exact lt_max_of_lt_right (abs_pos.2 h)
      · exact lt_max_of_lt_left (abs_pos.2 h)
    rw [if_neg h1, if_neg h2]

/-- Models nothing: the sign used by `signum`. -/
theorem sgn_mul_self (s : ℝ) : (if s < 0 then (-1 : ℝ) else 1) * s = |s| := by
  by_cases h : s < 0
  · rw [if_pos h, abs_of_neg h]; ring
  · rw [if_neg h, abs_of_nonneg (not_lt.1 h)]; ring

theorem sgn_sq (s : ℝ) : (if s < 0 then (-1 : ℝ) else 1) ^ 2 = 1 := by
  by_cases h : s < 0 <;> simp [h]

/-- The diagonal-equalising rotation. -/
theorem equalise {A B C D : ℝ} (hne : B + C ≠ 0 ∨ A - D ≠ 0) (τ cs sn : ℝ)
    (hτ : τ = Real.sqrt ((B + C) ^ 2 + (A - D) ^ 2))
    (hcs : cs = Real.sqrt ((1 + |B + C| / τ) * (1 / 2)))
    (hsn : sn = -(1 / 2 * (A - D) / (τ * cs)) * (if B + C < 0 then -1 else 1)) :
    0 < τ ∧ 0 < cs ∧ cs ^ 2 + sn ^ 2 = 1 ∧
    (A - D) * (cs ^ 2 - sn ^ 2) + 2 * (B + C) * (sn * cs) = 0 := by
  have hpos : 0 < (B + C) ^ 2 + (A - D) ^ 2 := by
    rcases hne with h | h <;> positivity
  have hτ0 : 0 < τ := hτ ▸ Real.sqrt_pos.2 hpos
  have hτ2 : τ ^ 2 = (B + C) ^ 2 + (A - D) ^ 2 := by rw [hτ, Real.sq_sqrt hpos.le]
  have hin : 0 < (1 + |B + C| / τ) * (1 / 2) := by positivity
  have hcs0 : 0 < cs := hcs ▸ Real.sqrt_pos.2 hin
  have hcs2 : cs ^ 2 = (1 + |B + C| / τ) * (1 / 2) := by rw [hcs, Real.sq_sqrt hin.le]
  have hs := sgn_mul_self (B + C)
  have hs2 := sgn_sq (B + C)
  set s : ℝ := if B + C < 0 then -1 else 1
  have hτn := hτ0.ne'
  have hcn := hcs0.ne'
  have e1 : 2 * τ * cs ^ 2 = τ + |B + C| := by rw [hcs2]; field_simp
  have e2 : 2 * τ * (sn * cs) = -(A - D) * s := by rw [hsn]; field_simp
  have habs : |B + C| ^ 2 = (B + C) ^ 2 := sq_abs _
  have e3 : 2 * τ * sn ^ 2 = τ - |B + C| := by
    have h1 : (2 * τ * (sn * cs)) ^ 2 = (A - D) ^ 2 := by rw [e2]; linear_combination (A - D) ^ 2 * hs2
    have h2 : (2 * τ * sn ^ 2) * (τ + |B + C|) = (τ - |B + C|) * (τ + |B + C|) := by
      linear_combination h1 - (2 * τ * sn ^ 2) * e1 - hτ2 + habs
    exact mul_right_cancel₀ (by positivity) h2
  refine ⟨hτ0, hcs0, ?_, ?_⟩
  · have : 2 * τ * (cs ^ 2 + sn ^ 2) = 2 * τ * 1 := by linear_combination e1 + e3
    exact mul_left_cancel₀ (by positivity) this
  · have : 2 * τ * ((A - D) * (cs ^ 2 - sn ^ 2) + 2 * (B + C) * (sn * cs)) = 2 * τ * 0 := by
      linear_combination (A - D) * (e1 - e3) + 2 * (B + C) * e2 - 2 * (A - D) * hs
    exact mul_left_cancel₀ (by positivity) this

theorem lanv2Complex_good {A B C D : ℝ} (hne : B + C ≠ 0 ∨ A - D ≠ 0)
    (h1 : |B + C| ≤ Spec.fMax) (h2 : |A - D| ≤ Spec.fMax) :
    ∃ o : Lanv2 ℝ, lanv2Complex (fin A) (fin B) (fin C) (fin D) = o.map fin ∧ Good A B C D o := by
  unfold lanv2Complex
  simp only [fin_add, fin_sub]
  rw [lanv2Scale_fin _ _ _ _ hne]
  simp only []
  rw [C32_dlapy2 _ _ h1 h2]
  obtain ⟨e1, e2, e3, e4⟩ := equalise hne _ _ _ rfl rfl rfl
  set τ := Real.sqrt ((B + C) ^ 2 + (A - D) ^ 2) with hτ
  set cs := Real.sqrt ((1 + |B + C| / τ) * (1 / 2)) with hcs
  set sn := -(1 / 2 * (A - D) / (τ * cs)) * (if B + C < 0 then -1 else 1) with hsn
  have hcsX : Scalar.sqrt ((Scalar.ofInt 1 + Scalar.abs (fin (B + C)) / fin τ) * Scalar.lit 1 1) = fin cs := by
    simp only [fin_abs, ofInt_eq, lit_eq]
    rw [fin_div _ _ e1.ne']
    simp only [fin_add, fin_mul]
    rw [fin_sqrt _ (by positivity), hcs]
    norm_num
  rw [hcsX]
  have hsnX : -(Scalar.lit 1 1 * fin (A - D) / (fin τ * fin cs)) * Scalar.signum (fin (B + C)) = fin sn := by
    rw [fin_signum]
    simp only [lit_eq, fin_mul]
    rw [fin_div _ _ (by positivity)]
    simp only [fin_neg, fin_mul]
    rw [hsn]; norm_num
  rw [hsnX]
  simp only [fin_mul, fin_add, fin_neg, lit_eq]
  apply lanv2Finish_good
  rw [rotated_iff]
  clear_value τ cs sn
  refine ⟨e3, ?_, ?_, ?_, ?_⟩ <;> push_cast
  · linear_combination (-A * (cs ^ 2 + sn ^ 2 + 1)) * e3 + ((cs ^ 2 - sn ^ 2) / 2) * e4
  · linear_combination (-B * (cs ^ 2 + sn ^ 2 + 1)) * e3 + (cs * sn) * e4
  · linear_combination (-C * (cs ^ 2 + sn ^ 2 + 1)) * e3 + (cs * sn) * e4
  · linear_combination (-D * (cs ^ 2 + sn ^ 2 + 1)) * e3 + ((sn ^ 2 - cs ^ 2) / 2) * e4

/-! ### Real, well separated eigenvalues -/

theorem bc_prod (b c : ℝ) : max |b| |c| *
    (min |b| |c| * (if b < 0 then (-1 : ℝ) else 1) * (if c < 0 then (-1 : ℝ) else 1)) = b * c := by
  have h1 : max |b| |c| * min |b| |c| = |b| * |c| := max_mul_min _ _
  have hb := sgn_mul_self b
  have hc := sgn_mul_self c
  have hb2 := sgn_sq b
  have hc2 := sgn_sq c
  set s : ℝ := if b < 0 then -1 else 1
  set r : ℝ := if c < 0 then -1 else 1
  rw [show max |b| |c| * (min |b| |c| * s * r) = (max |b| |c| * min |b| |c|) * s * r by ring, h1, ← hb, ← hc]
  linear_combination (b * c * r ^ 2) * hb2 + (b * c) * hc2

/-- The triangularising rotation. -/
theorem triangularise {A B C D p z τ : ℝ} (hC : C ≠ 0) (hp : p = 1 / 2 * (A - D))
    (hz : (z - p) ^ 2 = p ^ 2 + B * C) (hz0 : z ≠ 0) (hτ : τ = Real.sqrt (C ^ 2 + z ^ 2)) :
    0 < τ ∧ Rotated A B C D (z / τ) (C / τ) (D + z) (B - C) 0 (D - B * C / z) := by
  have hpos : 0 < C ^ 2 + z ^ 2 := by positivity
  have hτ0 : 0 < τ := hτ ▸ Real.sqrt_pos.2 hpos
  have hτ2 : τ ^ 2 = C ^ 2 + z ^ 2 := by rw [hτ, Real.sq_sqrt hpos.le]
  refine ⟨hτ0, ?_⟩
  have hA : A = D + 2 * p := by rw [hp]; ring
  have hτn := hτ0.ne'
  have hBC : B * C = z ^ 2 - 2 * p * z := by linear_combination -hz
  have hd : B * C / z = z - 2 * p := by rw [hBC]; field_simp
  rw [hd]
  have hB : B = (z ^ 2 - 2 * p * z) / C := by rw [← hBC]; field_simp
  rw [rotated_iff]
  set i := 1 / τ with hi
  have hi2 : (C ^ 2 + z ^ 2) * i ^ 2 = 1 := by rw [← hτ2, hi]; field_simp
  rw [show z / τ = z * i by rw [hi]; ring, show C / τ = C * i by rw [hi]; ring]
  clear_value i
  refine ⟨by linear_combination hi2, ?_, ?_, ?_, ?_⟩
  · rw [hA]; linear_combination (-(D + 2 * p)) * hi2 + (z * i ^ 2) * hBC
  · linear_combination (-B) * hi2 + (C * i ^ 2) * hBC
  · linear_combination (-C) * hi2 + (C * i ^ 2) * hBC
  · linear_combination (-D) * hi2 - (z * i ^ 2) * hBC

/-- The inputs for which the crate's early exit is wrong: off-diagonal entries of opposite signs and
diagonal entries that differ by less than the machine epsilon but are not equal. -/
def Spec.NearEqual (A B C D : ℝ) : Prop := A ≠ D ∧ |A - D| < 1 / 2 ^ 52 ∧ B * C < 0

theorem dlanv2_near {A B C D : ℝ} (h : |A - D| < 1 / 2 ^ 52) (hBC : B * C < 0) :
    dlanv2 (fin A) (fin B) (fin C) (fin D) = (outR A B C D 1 0).map fin := by
  have hB : B ≠ 0 := by rintro rfl; simp at hBC
  have hC : C ≠ 0 := by rintro rfl; simp at hBC
  unfold dlanv2
  have h1 : ¬ ((fin C =ᶠ zero) = true) := by simpa using hC
  have h2 : ¬ ((fin B =ᶠ zero) = true) := by simpa using hB
  rw [if_neg h1, if_neg h2, if_pos]
  · rw [← lanv2Out_fin]; simp
  · rw [fin_signum, fin_signum]
    simp only [fin_sub, fin_abs, epsilon_eq, fin_lt, fin_beq, Bool.and_eq_true, decide_eq_true_eq,
      Bool.not_eq_true', decide_eq_false_iff_not]
    exact ⟨h, fun h' => absurd ((sgn_eq_iff hB hC).1 h') (not_lt.2 hBC.le)⟩

theorem id_rotated (A B C D : ℝ) : Rotated A B C D 1 0 A B C D := by
  rw [rotated_iff]; refine ⟨by norm_num, ?_, ?_, ?_, ?_⟩ <;> ring

theorem dlanv2_good {A B C D : ℝ} (hA : 4 * |A| ≤ Spec.fMax) (hB : 4 * |B| ≤ Spec.fMax)
    (hC : 4 * |C| ≤ Spec.fMax) (hD : 4 * |D| ≤ Spec.fMax) (hn : ¬ Spec.NearEqual A B C D) :
    ∃ o : Lanv2 ℝ, dlanv2 (fin A) (fin B) (fin C) (fin D) = o.map fin ∧ Good A B C D o := by
  by_cases hnear : |A - D| < 1 / 2 ^ 52 ∧ B * C < 0
  · rw [dlanv2_near hnear.1 hnear.2]
    have hAD : A = D := by
      by_contra h; exact hn ⟨h, hnear.1, hnear.2⟩
    exact ⟨_, rfl, good_out (id_rotated A B C D) (Or.inr ⟨hAD, hnear.2⟩)⟩
  unfold dlanv2
  by_cases c0 : C = 0
  · have : (fin C =ᶠ zero) = true := by simpa using c0
    rw [if_pos this]
    refine ⟨outR A B C D 1 0, ?_, good_out (id_rotated A B C D) (Or.inl c0)⟩
    rw [← lanv2Out_fin]; simp
  have hc0 : ¬ ((fin C =ᶠ zero) = true) := by simpa using c0
  rw [if_neg hc0]
  by_cases b0 : B = 0
  · have : (fin B =ᶠ zero) = true := by simpa using b0
    rw [if_pos this]
    refine ⟨outR D (-C) 0 A 0 1, ?_, good_out ?_ (Or.inl rfl)⟩
    · rw [← lanv2Out_fin]; simp
    · rw [rotated_iff, b0]; refine ⟨by norm_num, ?_, ?_, ?_, ?_⟩ <;> ring
  have hb0 : ¬ ((fin B =ᶠ zero) = true) := by simpa using b0
  have hne : ¬ (((Scalar.abs (fin A - fin D) <ᶠ Scalar.epsilon) && (Scalar.signum (fin B) ≠ᶠ Scalar.signum (fin C))) = true) := by
    rw [fin_signum, fin_signum]
    simp only [fin_sub, fin_abs, epsilon_eq, fin_lt, fin_beq, Bool.and_eq_true, decide_eq_true_eq,
      Bool.not_eq_true', decide_eq_false_iff_not]
    rintro ⟨h1, h2⟩
    apply hnear
    refine ⟨h1, ?_⟩
    have h3 : ¬ 0 < B * C := fun h' => h2 ((sgn_eq_iff b0 c0).2 h')
    exact lt_of_le_of_ne (not_lt.1 h3) (mul_ne_zero b0 c0)
  rw [if_neg hb0, if_neg hne]
  simp only [fin_sub, fin_abs, fin_fmax, fin_fmin, lit_eq, fin_mul, fin_signum]
  set p : ℝ := ((1 : Int) : ℝ) / 2 ^ 1 * (A - D) with hp
  have hp' : p = 1 / 2 * (A - D) := by rw [hp]; norm_num
  set mx := max |B| |C| with hmx
  set ms := min |B| |C| * (if B < 0 then (-1 : ℝ) else 1) * (if C < 0 then (-1 : ℝ) else 1) with hms
  have hprod : mx * ms = B * C := bc_prod B C
  have hmx0 : 0 < mx := lt_max_of_lt_left (abs_pos.2 b0)
  set sc := max |p| mx with hsc
  have hsc0 : 0 < sc := lt_max_of_lt_right hmx0
  rw [fin_div _ _ hsc0.ne', fin_div _ _ hsc0.ne']
  set z0 : ℝ := p / sc * p + mx / sc * ms with hz0
  rw [show fin (p / sc) * fin p + fin (mx / sc) * fin ms = fin z0 from rfl]
  have hz0sc : sc * z0 = p ^ 2 + B * C := by
    rw [hz0, ← hprod]; field_simp
  rw [dlamch_P]
  by_cases hbig : ((Scalar.ofInt 4 * fin (1 / 2 ^ 52)) ≤ᶠ fin z0) = true
  · rw [if_pos hbig]
    have hz0pos : 0 < z0 := by
      simp only [ofInt_eq, fin_mul, fin_le, decide_eq_true_eq] at hbig
      exact lt_of_lt_of_le (by norm_num) hbig
    rw [fin_sqrt _ hsc0.le, fin_sqrt _ hz0pos.le, fin_mul, fin_copysign]
    simp only [fin_add]
    set r := Real.sqrt sc * Real.sqrt z0 with hr
    have hr0 : 0 < r := mul_pos (Real.sqrt_pos.2 hsc0) (Real.sqrt_pos.2 hz0pos)
    have hr2 : r ^ 2 = p ^ 2 + B * C := by
      rw [hr, mul_pow, Real.sq_sqrt hsc0.le, Real.sq_sqrt hz0pos.le, hz0sc]
    rw [abs_of_pos hr0]
    set s : ℝ := if p < 0 then -1 else 1 with hs
    have hs2 : s ^ 2 = 1 := sgn_sq p
    set z := p + r * s with hz
    have hzz : (z - p) ^ 2 = p ^ 2 + B * C := by
      rw [← hr2, hz]; linear_combination r ^ 2 * hs2
    have hzs : z * s = |p| + r := by
      have := sgn_mul_self p
      rw [hz]; rw [← hs] at this; linear_combination this + r * hs2
    have hzn : z ≠ 0 := by
      intro h; rw [h] at hzs
      have := abs_nonneg p
      linarith
    have hzabs : |z| = |p| + r := by
      have h1 : |s| = 1 := by
        rw [hs]; by_cases h : p < 0 <;> simp [h]
      have h2 : |z * s| = |z| := by rw [abs_mul, h1, mul_one]
      rw [← h2, hzs, abs_of_pos]
      have := abs_nonneg p
      linarith
    rw [fin_div _ _ hzn]
    have hbz : |z| ≤ Spec.fMax := by
      have hpb : |p| ≤ Spec.fMax / 4 := by
        rw [hp', abs_mul]
        have := abs_sub A D
        rw [abs_of_pos (by norm_num : (0 : ℝ) < 1 / 2)]
        linarith
      have hrb : r ≤ Spec.fMax / 2 := by
        have hM := fMax_pos
        refine abs_le_of_sq_le_sq' ?_ (by linarith) |>.2
        rw [hr2]
        have h1 : p ^ 2 ≤ (Spec.fMax / 4) ^ 2 := sq_le_sq' (by linarith [neg_abs_le p]) (by linarith [le_abs_self p])
        have h2 : B * C ≤ (Spec.fMax / 4) * (Spec.fMax / 4) := by
          calc B * C ≤ |B * C| := le_abs_self _
            _ = |B| * |C| := abs_mul _ _
            _ ≤ _ := mul_le_mul (by linarith) (by linarith) (abs_nonneg _) (by linarith)
        nlinarith
      rw [hzabs]
      have hM := fMax_pos
      linarith
    have hcC : |C| ≤ Spec.fMax := by
      have := abs_nonneg C
      linarith
    rw [C32_dlapy2 _ _ hcC hbz]
    obtain ⟨hτ, hrot⟩ := triangularise (B := B) c0 hp' hzz hzn rfl
    rw [fin_div _ _ hτ.ne', fin_div _ _ hτ.ne']
    simp only [fin_mul, fin_sub]
    refine ⟨_, ?_, good_out hrot (Or.inl rfl)⟩
    rw [← lanv2Out_fin, ← hprod]
    simp only [ofInt_eq, Int.cast_zero]
    congr 3
    ring
  · rw [if_neg hbig]
    apply lanv2Complex_good
    · by_contra h
      push Not at h
      apply hnear
      refine ⟨by rw [h.2]; norm_num, ?_⟩
      have : B = -C := by linarith [h.1]
      rw [this]
      have : 0 < C ^ 2 := by positivity
      linarith
    · have := abs_add_le B C
      have := fMax_pos
      linarith
    · have := abs_sub A D
      have := fMax_pos
      linarith

/-! ### The properties -/

/-- **C37** (factorisation). For all real `A, B, C, D` of magnitude at most `MAX / 4`, all ten outputs
are real numbers, `(cs, sn)` is a rotation and it transforms the output block into the input block.
There is no exception for nearly equal diagonal entries. -/
theorem C37_dlanv2_factors (A B C D : ℝ) (hA : 4 * |A| ≤ Spec.fMax) (hB : 4 * |B| ≤ Spec.fMax)
    (hC : 4 * |C| ≤ Spec.fMax) (hD : 4 * |D| ≤ Spec.fMax) :
    ∃ o : Lanv2 ℝ, dlanv2 (fin A) (fin B) (fin C) (fin D) = o.map fin ∧
      Rotated A B C D o.cs o.sn o.a o.b o.c o.d := by
  by_cases hn : Spec.NearEqual A B C D
  · exact ⟨_, dlanv2_near hn.2.1 hn.2.2, id_rotated A B C D⟩
  · obtain ⟨o, h1, h2⟩ := dlanv2_good hA hB hC hD hn
    exact ⟨o, h1, h2.rot⟩

/-- **C37** (standard form). Unless the off-diagonal entries have opposite signs and the diagonal
entries differ by less than `2^-52` without being equal, the output block is in standard form. -/
theorem C37_dlanv2_standard (A B C D : ℝ) (hA : 4 * |A| ≤ Spec.fMax) (hB : 4 * |B| ≤ Spec.fMax)
    (hC : 4 * |C| ≤ Spec.fMax) (hD : 4 * |D| ≤ Spec.fMax) (hn : ¬ Spec.NearEqual A B C D) :
    ∃ o : Lanv2 ℝ, dlanv2 (fin A) (fin B) (fin C) (fin D) = o.map fin ∧
      Rotated A B C D o.cs o.sn o.a o.b o.c o.d ∧ Standard o.a o.b o.c o.d := by
  obtain ⟨o, h1, h2⟩ := dlanv2_good hA hB hC hD hn
  exact ⟨o, h1, h2.rot, h2.std⟩

/-- **C37** (the exception). On every excepted input the block comes back unchanged with the identity
rotation, and it is not in standard form. -/
theorem C37_dlanv2_exception (A B C D : ℝ) (hn : Spec.NearEqual A B C D) :
    ∃ o : Lanv2 ℝ, dlanv2 (fin A) (fin B) (fin C) (fin D) = o.map fin ∧
      o.a = A ∧ o.b = B ∧ o.c = C ∧ o.d = D ∧ o.cs = 1 ∧ o.sn = 0 ∧
      ¬ Standard o.a o.b o.c o.d := by
  refine ⟨_, dlanv2_near hn.2.1 hn.2.2, rfl, rfl, rfl, rfl, rfl, rfl, ?_⟩
  rintro (h | ⟨h, -⟩)
  · have := hn.2.2
    change C = 0 at h
    rw [h] at this; simp at this
  · exact hn.1 h

/-- **C38**. With the same exception, the returned pairs are the two eigenvalues. -/
theorem C38_dlanv2_eigenvalues (A B C D : ℝ) (hA : 4 * |A| ≤ Spec.fMax) (hB : 4 * |B| ≤ Spec.fMax)
    (hC : 4 * |C| ≤ Spec.fMax) (hD : 4 * |D| ≤ Spec.fMax) (hn : ¬ Spec.NearEqual A B C D) :
    ∃ o : Lanv2 ℝ, dlanv2 (fin A) (fin B) (fin C) (fin D) = o.map fin ∧
      Eigenvalues A B C D ⟨o.rt1r, o.rt1i⟩ ⟨o.rt2r, o.rt2i⟩ := by
  obtain ⟨o, h1, h2⟩ := dlanv2_good hA hB hC hD hn
  exact ⟨o, h1, h2.eig⟩

/-- **C38** (the exception). On every excepted input the returned pairs are not the eigenvalues: their
product is not even real. -/
theorem C38_dlanv2_exception (A B C D : ℝ) (hn : Spec.NearEqual A B C D) :
    ∃ o : Lanv2 ℝ, dlanv2 (fin A) (fin B) (fin C) (fin D) = o.map fin ∧
      ((⟨o.rt1r, o.rt1i⟩ * ⟨o.rt2r, o.rt2i⟩ : ℂ)).im ≠ 0 ∧
      ¬ Eigenvalues A B C D ⟨o.rt1r, o.rt1i⟩ ⟨o.rt2r, o.rt2i⟩ := by
  have him : ((⟨(outR A B C D 1 0).rt1r, (outR A B C D 1 0).rt1i⟩ *
      ⟨(outR A B C D 1 0).rt2r, (outR A B C D 1 0).rt2i⟩ : ℂ)).im ≠ 0 := by
    have hb : B ≠ 0 := by intro h; have := hn.2.2; rw [h] at this; simp at this
    have hc : C ≠ 0 := by intro h; have := hn.2.2; rw [h] at this; simp at this
    have hr : 0 < Real.sqrt |B| * Real.sqrt |C| :=
      mul_pos (Real.sqrt_pos.2 (abs_pos.2 hb)) (Real.sqrt_pos.2 (abs_pos.2 hc))
    simp only [Complex.mul_im, outR, if_neg hc]
    intro h
    have h' : (D - A) * (Real.sqrt |B| * Real.sqrt |C|) = 0 := by linear_combination h
    rcases mul_eq_zero.1 h' with h'' | h''
    · exact hn.1 (by linarith)
    · exact hr.ne' h''
  refine ⟨_, dlanv2_near hn.2.1 hn.2.2, him, fun h => him ?_⟩
  rw [h.prod]; simp

/-- Concrete inputs meeting the hypotheses: the ordinary case and the exception. -/
example : 4 * |(1 : ℝ)| ≤ Spec.fMax ∧ ¬ Spec.NearEqual 1 2 (-3) 4 := by
  refine ⟨?_, ?_⟩
  · have h1 : (1 : ℝ) ≤ 2 - 1 / 2 ^ 52 := by norm_num
    have h2 : (4 : ℝ) ≤ 2 ^ 1023 := by
      calc (4 : ℝ) = 2 ^ 2 := by norm_num
        _ ≤ 2 ^ 1023 := pow_le_pow_right₀ (by norm_num) (by norm_num)
    unfold Spec.fMax
    rw [abs_one, mul_one]
    calc (4 : ℝ) = 1 * 4 := by norm_num
      _ ≤ _ := mul_le_mul h1 h2 (by norm_num) (by norm_num)
  · rintro ⟨-, h, -⟩; norm_num [abs_of_neg] at h

example : Spec.NearEqual 1 1 (-1) (1 + 1 / 2 ^ 60) := by
  refine ⟨by norm_num, ?_, by norm_num⟩
  rw [abs_lt]; constructor <;> norm_num

end Verif

import Verif.Lib.Lanv2F64f

/-!
# `dlanv2` on binary64 (C76)
-/

namespace Verif
open F64 Scalar Spec

namespace Spec

/-- The largest of four magnitudes. -/
noncomputable def maxAbs (a b c d : ℝ) : ℝ := max (max |a| |b|) (max |c| |d|)

/-- What `dlanv2` promises on binary64 for the matrix `[a b; c d]`, in terms of the exact notions
`Standard`, `Rotated` and `Eigenvalues` used in exact arithmetic and of `m`, the largest magnitude of
an entry. -/
structure Lanv2Accurate (a b c d : Float) (o : Lanv2 Float) : Prop where
  /-- No result is infinite or NaN. -/
  finite : o.a.isFinite = true ∧ o.b.isFinite = true ∧ o.c.isFinite = true ∧ o.d.isFinite = true ∧
    o.rt1r.isFinite = true ∧ o.rt1i.isFinite = true ∧ o.rt2r.isFinite = true ∧ o.rt2i.isFinite = true ∧
    o.cs.isFinite = true ∧ o.sn.isFinite = true
  /-- The block returned is in standard form, exactly. -/
  standard : Standard (toR o.a) (toR o.b) (toR o.c) (toR o.d)
  /-- It is exactly similar, by an exact rotation close to the one returned, to a matrix close to the
  given one. -/
  similar : ∃ cs sn e11 e12 e21 e22 : ℝ, |toR o.cs - cs| ≤ 200 / 2 ^ 53 ∧ |toR o.sn - sn| ≤ 200 / 2 ^ 53 ∧
    (∀ e ∈ [e11, e12, e21, e22], |e| ≤ 900 / 2 ^ 53 * maxAbs (toR a) (toR b) (toR c) (toR d)) ∧
    Rotated (toR a + e11) (toR b + e12) (toR c + e21) (toR d + e22) cs sn (toR o.a) (toR o.b) (toR o.c) (toR o.d)
  /-- The numbers returned are exactly the eigenvalues of a matrix close to the given one. -/
  eigenvalues : ∃ e11 e12 e21 e22 : ℝ,
    (∀ e ∈ [e11, e12, e21, e22], |e| ≤ 1030 / 2 ^ 53 * maxAbs (toR a) (toR b) (toR c) (toR d)) ∧
    Eigenvalues (toR a + e11) (toR b + e12) (toR c + e21) (toR d + e22) ⟨toR o.rt1r, toR o.rt1i⟩ ⟨toR o.rt2r, toR o.rt2i⟩

end Spec

theorem eps_f64 : (Scalar.epsilon : Float).isFinite = true ∧ toR (Scalar.epsilon : Float) = 1 / 2 ^ 52 := by
  obtain ⟨h1, h2⟩ := toR_of (show up (Scalar.epsilon : Float) = .finite .positive (2 ^ 52) (-104) (by norm_num) from rfl)
  refine ⟨h1, ?_⟩
  rw [h2, show (-104 : Int) = -((104 : Nat) : Int) from rfl, zpneg]; norm_num [sgnR]

theorem thr_f64 : (Scalar.ofInt 4 * dlamch 'P' : Float).isFinite = true ∧ toR (Scalar.ofInt 4 * dlamch 'P' : Float) = 1 / 2 ^ 50 := by
  obtain ⟨h1, h2⟩ := toR_of (show up (Scalar.ofInt 4 * dlamch 'P' : Float) = .finite .positive (2 ^ 52) (-102) (by norm_num) from rfl)
  refine ⟨h1, ?_⟩
  rw [h2, show (-102 : Int) = -((102 : Nat) : Int) from rfl, zpneg]; norm_num [sgnR]

/-- The test of `dlanv2` for nearly equal diagonal entries. -/
theorem near_f64 {a b c d : Float} (fb : b.isFinite = true) (fc : c.isFinite = true) (ft : (a - d).isFinite = true)
    (hb : toR b ≠ 0) (hc : toR c ≠ 0) :
    ((Scalar.abs (a - d) <ᶠ Scalar.epsilon) && (Scalar.signum b ≠ᶠ Scalar.signum c)) =
      decide (|toR (a - d)| < 1 / 2 ^ 52 ∧ toR b * toR c < 0) := by
  obtain ⟨sb, h1, h2, h3, h4⟩ := signum_fin fb
  obtain ⟨sc, g1, g2, g3, g4⟩ := signum_fin fc
  obtain ⟨e1, e2⟩ := eps_f64
  show ((Float.abs (a - d) <ᶠ (Scalar.epsilon : Float)) && (F64.signum b ≠ᶠ F64.signum c)) = _
  rw [ltF (abs_fin ft) e1, beqF h3 g3, abs_toR, e2, h4, g4, Bool.decide_and]
  congr 1
  have hb' := abs_pos.2 hb
  have hc' := abs_pos.2 hc
  rw [← decide_not]
  rw [decide_eq_decide]
  rw [← h2] at hb'
  rw [← g2] at hc'
  rcases h1 with rfl | rfl <;> rcases g1 with rfl | rfl
  · have := mul_pos hb' hc'
    simp at hb' hc' ⊢; exact (mul_pos hb' hc').le
  · simp at hb' hc' ⊢
    exact ⟨fun _ => mul_neg_of_pos_of_neg hb' hc', fun _ => by norm_num⟩
  · simp at hb' hc' ⊢
    exact ⟨fun _ => mul_neg_of_neg_of_pos hb' hc', fun _ => by norm_num⟩
  · simp at hb' hc' ⊢; exact (mul_pos_of_neg_of_neg hb' hc').le

set_option maxHeartbeats 1000000 in
theorem dlanv2_f64_ok {a b c d : Float} {M : ℝ} (fa : a.isFinite = true) (fb : b.isFinite = true) (fc : c.isFinite = true)
    (fd : d.isFinite = true) (ha : |toR a| ≤ M) (hb : |toR b| ≤ M) (hc : |toR c| ≤ M) (hd : |toR d| ≤ M) (hM' : M ≤ big)
    (hc0 : toR c = 0 ∨ tiny ≤ |toR c|)
    (hn : toR b * toR c < 0 → toR a = toR d ∨ 1 / 2 ^ 52 ≤ |toR (a - d)|) :
    Lanv2Ok 900 200 M (toR a) (toR b) (toR c) (toR d) (dlanv2 a b c d) := by
  have M0 : 0 ≤ M := (abs_nonneg _).trans ha
  have u0 := ur_pos
  have us := ur_small
  have t0 := tiny_pos
  have B1 := one_le_big
  obtain ⟨fO, vO⟩ := toR_zero
  obtain ⟨fI, vI⟩ := toR_one'
  have pos : 0 ≤ 900 * ur * M := by positivity
  have pos' : 0 ≤ 200 * ur := by positivity
  have bkOf : ∀ {cs sn x y z w : ℝ}, Rotated (toR a) (toR b) (toR c) (toR d) cs sn x y z w →
      Bk ur 900 200 M (toR a) (toR b) (toR c) (toR d) cs sn x y z w := by
    intro cs sn x y z w h
    refine ⟨cs, sn, 0, 0, 0, 0, ?_, ?_, ?_, ?_, ?_, ?_, ?_⟩ <;> try simpa using pos
    · simpa using u0.le
    · simpa using u0.le
    · simpa using h
  have idb : Bk ur 900 200 M (toR a) (toR b) (toR c) (toR d) (toR (Scalar.one : Float)) (toR (Scalar.zero : Float)) (toR a) (toR b) (toR c) (toR d) := by
    rw [vO, vI]; exact bkOf (id_rotated _ _ _ _)
  unfold dlanv2
  rw [beqF fc fO, beqF fb fO, vO]
  by_cases hcz : toR c = 0
  · rw [if_pos (by simpa using hcz)]
    exact lanv2Out_ok fa fb fc fd fI fO (Or.inl hcz) idb M0 (fun h => absurd hcz h)
  rw [if_neg (by simpa using hcz)]
  have hc1 := hc0.resolve_left hcz
  by_cases hbz : toR b = 0
  · rw [if_pos (by simpa using hbz)]
    refine lanv2Out_ok fd (by show (-c).isFinite = true; rw [neg_finite]; exact fc) fO fa fO fI (Or.inl vO) ?_ M0 (fun h => absurd vO h)
    have e : toR (-c) = -toR c := neg_toR c
    rw [e, vO, vI]
    refine bkOf ?_
    rw [rotated_iff, hbz]
    refine ⟨by norm_num, ?_, ?_, ?_, ?_⟩ <;> ring
  rw [if_neg (by simpa using hbz)]
  have hM : tiny ≤ M := hc1.trans hc
  have Mp := t0.trans_le hM
  have uM : 0 < ur * M := by positivity
  have uM1 := ur_big hM' M0
  have eM := eta_M hM
  have adM : |toR a - toR d| ≤ 2 * M := (abs_sub _ _).trans (by linarith)
  obtain ⟨ft, rt⟩ := subF fa fd (by linarith)
  rw [near_f64 fb fc ft hbz hcz]
  by_cases hnear : |toR (a - d)| < 1 / 2 ^ 52 ∧ toR b * toR c < 0
  · rw [if_pos (by simpa using hnear)]
    have hed : toR a = toR d := (hn hnear.2).resolve_right (not_le.2 hnear.1)
    exact lanv2Out_ok fa fb fc fd fI fO (Or.inr ⟨hed, hnear.2⟩) idb M0 (fun _ => ⟨hM, hM', by linarith, by linarith⟩)
  rw [if_neg (by simpa using hnear)]
  have rte := rt.err
  have ate := rt.abs_le (by norm_num)
  have tM : |toR (a - d) - (toR a - toR d)| ≤ 2 * ur * M := by
    have := mul_le_mul_of_nonneg_left adM u0.le
    linarith
  obtain ⟨fh, vh⟩ := half_exact
  have hx : |toR (Scalar.lit 1 1 : Float) * toR (a - d)| ≤ 1002 / 1000 * M := by
    rw [vh, abs_mul, abs_of_pos (show (0 : ℝ) < 1 / 2 by norm_num)]; linarith
  obtain ⟨fp, lp⟩ := mulF fh ft (by linarith)
  have ep := lp.abs1 hx
  rw [vh] at ep
  obtain ⟨fm, vm⟩ := fmax_fin fb fc
  obtain ⟨fmi, vmi⟩ := fmin_fin fb fc
  obtain ⟨sb, b1, b2, b3, b4⟩ := signum_fin fb
  obtain ⟨sc, c1, c2, c3, c4⟩ := signum_fin fc
  obtain ⟨f1, v1⟩ := mul_sign b1 b3 b4 fmi
  obtain ⟨f2, v2⟩ := mul_sign c1 c3 c4 f1
  rw [v1, vmi] at v2
  have vq : |toR (F64.fmin b.abs c.abs * F64.signum b * F64.signum c)| = min |toR b| |toR c| := by
    rw [v2, abs_mul, abs_mul, sign_abs b1, sign_abs c1, one_mul, one_mul, abs_of_nonneg (le_min (abs_nonneg _) (abs_nonneg _))]
  have vmq : toR (F64.fmax b.abs c.abs) * toR (F64.fmin b.abs c.abs * F64.signum b * F64.signum c) = toR b * toR c := by
    rw [v2, vm]
    have h1 : max |toR b| |toR c| * min |toR b| |toR c| = |toR b| * |toR c| := max_mul_min _ _
    have h2 := sign_sq b1
    have h3 := sign_sq c1
    rw [show max |toR b| |toR c| * (sc * (sb * min |toR b| |toR c|)) = sb * sc * (max |toR b| |toR c| * min |toR b| |toR c|) by ring,
      h1, ← b2, ← c2]
    rcases b1 with rfl | rfl <;> rcases c1 with rfl | rfl <;> ring
  obtain ⟨fs, vs⟩ := fmaxF (abs_fin fp) fm
  rw [abs_toR] at vs
  have pM : |toR (Scalar.lit 1 1 * (a - d) : Float)| ≤ 101 / 100 * M := by
    have h := abs_le.1 ep
    rw [vh] at hx
    have h' := abs_le.1 hx
    rw [abs_le]; constructor <;> linarith
  have p5 : |2 * toR (Scalar.lit 1 1 * (a - d) : Float) - (toR a - toR d)| ≤ 5 * ur * M := by
    have h := abs_le.1 ep
    have h' := abs_le.1 tM
    rw [abs_le]; constructor <;> linarith
  have cplx : Lanv2Ok 900 200 M (toR a) (toR b) (toR c) (toR d) (lanv2Complex a b c d) := by
    refine complex_ok fa fb fc fd ha hb hc hd hM hM' ?_
    rcases lt_or_ge (toR b * toR c) 0 with h | h
    · right
      have h1 : 1 / 2 ^ 52 ≤ |toR (a - d)| := by
        rw [not_and_or, not_lt, not_lt] at hnear
        rcases hnear with h' | h'
        · exact h'
        · exact absurd h (not_lt.2 h')
      have h2 : tiny ≤ 1 / 2 * (1 / 2 ^ 52) := by
        unfold tiny
        rw [show (1 : ℝ) / 2 * (1 / 2 ^ 52) = 1 / 2 ^ 53 by norm_num]
        exact one_div_le_one_div_of_le (by positivity) (pow_le_pow_right₀ (by norm_num) (by norm_num))
      generalize (1 : ℝ) / 2 ^ 52 = k at *
      linarith
    · left
      have e : |toR b + toR c| = |toR b| + |toR c| := abs_add_eq_add_abs_iff (toR b) (toR c) |>.2 (by
        rcases mul_nonneg_iff.1 h with h' | h'
        · exact Or.inl h'
        · exact Or.inr h')
      rw [e]; linarith [abs_nonneg (toR b)]
  show Lanv2Ok 900 200 M _ _ _ _ (if (((Scalar.lit 1 1 * (a - d) : Float) / (F64.fmax (Scalar.lit 1 1 * (a - d) : Float).abs (F64.fmax b.abs c.abs))) * (Scalar.lit 1 1 * (a - d) : Float) + ((F64.fmax b.abs c.abs) / (F64.fmax (Scalar.lit 1 1 * (a - d) : Float).abs (F64.fmax b.abs c.abs))) * (F64.fmin b.abs c.abs * F64.signum b * F64.signum c)) ≥ᶠ Scalar.ofInt 4 * dlamch 'P' then
    (let z := (Scalar.lit 1 1 * (a - d) : Float) + F64.copysign (Float.sqrt (F64.fmax (Scalar.lit 1 1 * (a - d) : Float).abs (F64.fmax b.abs c.abs)) * Float.sqrt (((Scalar.lit 1 1 * (a - d) : Float) / (F64.fmax (Scalar.lit 1 1 * (a - d) : Float).abs (F64.fmax b.abs c.abs))) * (Scalar.lit 1 1 * (a - d) : Float) + ((F64.fmax b.abs c.abs) / (F64.fmax (Scalar.lit 1 1 * (a - d) : Float).abs (F64.fmax b.abs c.abs))) * (F64.fmin b.abs c.abs * F64.signum b * F64.signum c))) (Scalar.lit 1 1 * (a - d) : Float)
     lanv2Out (d + z) (b - c) Scalar.zero (d - ((F64.fmax b.abs c.abs) / z) * (F64.fmin b.abs c.abs * F64.signum b * F64.signum c)) (z / dlapy2 c z) (c / dlapy2 c z)) else lanv2Complex a b c d)
  generalize hp : (Scalar.lit 1 1 * (a - d) : Float) = p at *
  generalize hm : F64.fmax b.abs c.abs = m at *
  generalize hq : F64.fmin b.abs c.abs * F64.signum b * F64.signum c = q at *
  generalize hs : F64.fmax p.abs m = s at *
  by_cases hz : (((p / s) * p + (m / s) * q) ≥ᶠ (Scalar.ofInt 4 * dlamch 'P' : Float)) = true
  · rw [if_pos hz]
    obtain ⟨fth, vth⟩ := thr_f64
    have hlow : ((p / s) * p + (m / s) * q).isFinite = true → 1 / 2 ^ 52 ≤ toR ((p / s) * p + (m / s) * q) := by
      intro f
      rw [leF fth f, vth, decide_eq_true_eq] at hz
      exact le_trans (by norm_num) hz
    have mM : toR m ≤ M := by rw [vm]; exact max_le hb hc
    have m0 : tiny ≤ toR m := by rw [vm]; exact hc1.trans (le_max_right _ _)
    have qm : |toR q| ≤ toR m := by rw [vq, vm]; exact min_le_max
    have sM : toR s ≤ 101 / 100 * M := by rw [vs]; exact max_le pM (by linarith)
    obtain ⟨fz, e1, e2⟩ := disc_ok fp fm f2 fs m0 qm vs (by linarith) hlow
    exact real_ok fa fb fc fd ha hb hc hd hM' hbz hc1 fp fm f2 fs fz p5 vm qm vmq vs (hlow fz) e1 e2
  · rw [if_neg hz]; exact cplx

/-- **C76.** On binary64, for finite entries of magnitude at most `2^1000` whose entry below the
diagonal is zero or at least `2^-969` in magnitude, `dlanv2` is backward stable: everything it returns is
finite, the block is exactly in standard form and exactly similar, by a rotation within `200/2^53` of
the one returned, to a matrix whose entries are within `900/2^53` of the largest magnitude of the given
entries, and the eigenvalues are exactly those of such a matrix (within `1030/2^53`).  The only
exception is when the off-diagonal entries have opposite signs and the diagonal entries, without being
equal, have a computed difference below `2^-52`. -/
theorem C76_dlanv2_f64 (a b c d : Float)
    (fa : a.isFinite = true) (fb : b.isFinite = true) (fc : c.isFinite = true) (fd : d.isFinite = true)
    (hM : maxAbs (toR a) (toR b) (toR c) (toR d) ≤ 2 ^ 1000)
    (hc : toR c = 0 ∨ 1 / 2 ^ 969 ≤ |toR c|)
    (hn : toR b * toR c < 0 → toR a = toR d ∨ 1 / 2 ^ 52 ≤ |toR (a - d)|) :
    Lanv2Accurate a b c d (dlanv2 a b c d) := by
  have ok := dlanv2_f64_ok fa fb fc fd (M := maxAbs (toR a) (toR b) (toR c) (toR d))
    ((le_max_left _ _).trans (le_max_left _ _)) ((le_max_right _ _).trans (le_max_left _ _))
    ((le_max_left _ _).trans (le_max_right _ _)) ((le_max_right _ _).trans (le_max_right _ _)) hM hc hn
  have e : ∀ k : ℝ, k / 2 ^ 53 = k * ur := fun k => by unfold ur; ring
  refine ⟨ok.finite, ok.std, ?_, ?_⟩
  · obtain ⟨cs, sn, e1, e2, e3, e4, h1, h2, h3, h4, h5, h6, h7⟩ := ok.back
    rw [e, e]
    exact ⟨cs, sn, e1, e2, e3, e4, h1, h2, by simpa using ⟨h3, h4, h5, h6⟩, h7⟩
  · obtain ⟨e1, e2, e3, e4, h3, h4, h5, h6, h7⟩ := ok.eig
    rw [show (900 + 130 : ℝ) = 1030 by norm_num] at h3 h4 h5 h6
    rw [e]
    exact ⟨e1, e2, e3, e4, by simpa using ⟨h3, h4, h5, h6⟩, h7⟩

/-- **C76** (the exception). If the off-diagonal entries have opposite signs and the computed difference
of the diagonal entries is below `2^-52`, the block is returned as it is with the identity rotation, and
the eigenvalues are reported as the diagonal entries with imaginary parts of opposite signs and not zero: when
the diagonal entries differ, the block is not in standard form and these are not conjugate. -/
theorem C76_dlanv2_f64_exception (a b c d : Float)
    (fb : b.isFinite = true) (fc : c.isFinite = true) (fd : (a - d).isFinite = true)
    (mb : |toR b| ≤ 2 ^ 1000) (mc : |toR c| ≤ 2 ^ 1000)
    (hbc : toR b * toR c < 0) (hn : |toR (a - d)| < 1 / 2 ^ 52) :
    ∃ r : Float, dlanv2 a b c d = ⟨a, b, c, d, a, r, d, -r, Scalar.one, Scalar.zero⟩ ∧ r.isFinite = true ∧ 0 < toR r ∧
      (toR a ≠ toR d → ¬ Standard (toR a) (toR b) (toR c) (toR d) ∧
        ∀ A B C D : ℝ, ¬ Eigenvalues A B C D ⟨toR a, toR r⟩ ⟨toR d, toR (-r)⟩) := by
  have hb : toR b ≠ 0 := by rintro h; rw [h] at hbc; simp at hbc
  have hc : toR c ≠ 0 := by rintro h; rw [h] at hbc; simp at hbc
  obtain ⟨fO, vO⟩ := toR_zero
  obtain ⟨r, hr, fr, r0⟩ : ∃ r : Float, r = Float.sqrt b.abs * Float.sqrt c.abs ∧ r.isFinite = true ∧ 0 < toR r := by
    refine ⟨_, rfl, ?_⟩
    have u0 := ur_pos
    have us := ur_small
    have gb := sqrt_ge_eta (abs_ge_min hb)
    have gc := sqrt_ge_eta (abs_ge_min hc)
    obtain ⟨f1, n1, r1⟩ := sqrtF (x := b.abs) (abs_fin fb) (by rw [abs_toR]; exact abs_nonneg _)
    obtain ⟨f2, n2, r2⟩ := sqrtF (x := c.abs) (abs_fin fc) (by rw [abs_toR]; exact abs_nonneg _)
    rw [abs_toR] at r1 r2
    have r3 := r1.mul r2 (by norm_num) (by norm_num) (by norm_num) (by norm_num)
    set s := Real.sqrt |toR b| * Real.sqrt |toR c| with hs
    have s0 : 0 ≤ s := by positivity
    have sM : s ≤ big := by
      rw [hs, ← Real.sqrt_mul (abs_nonneg _), show big = Real.sqrt (big * big) by rw [Real.sqrt_mul_self big_pos.le]]
      exact Real.sqrt_le_sqrt (mul_le_mul mb mc (abs_nonneg _) big_pos.le)
    have hη : eta ≤ s / 2 := by
      have : (2 : ℝ) ^ (-537 : ℤ) * 2 ^ (-537 : ℤ) ≤ s := mul_le_mul gb gc (zp _).le (Real.sqrt_nonneg _)
      rw [z2] at this
      rw [eta_z, show (-1075 : ℤ) = -537 + -537 + -1 by norm_num, ← z2 (-537 + -537)]
      rw [show (2 : ℝ) ^ (-1 : ℤ) = 1 / 2 by norm_num]
      generalize (2 : ℝ) ^ (-537 + -537 : ℤ) = w at *
      linarith only [this]
    have ra := r3.abs_le (by norm_num)
    rw [abs_of_nonneg s0] at ra
    obtain ⟨f3, fl3⟩ := mulF f1 f2 (by linarith [big_pos])
    refine ⟨f3, ?_⟩
    have e3 := fl3.abs1 ra
    have e4 := r3.err
    rw [abs_of_nonneg s0] at e4
    have h1 := abs_sub_le (toR (b.abs.sqrt * c.abs.sqrt)) (toR b.abs.sqrt * toR c.abs.sqrt) s
    have h2 := (abs_le.1 (h1.trans (add_le_add e3 e4))).1
    have h3 : ur * s ≤ 1 / 1000 * s := mul_le_mul_of_nonneg_right (by linarith) s0
    have := eta_pos
    linarith
  refine ⟨r, ?_, fr, r0, fun h => ⟨?_, ?_⟩⟩
  · unfold dlanv2
    rw [near_f64 fb fc fd hb hc, beqF fc fO, beqF fb fO, vO, if_neg (by simpa using hc), if_neg (by simpa using hb),
      if_pos (decide_eq_true ⟨hn, hbc⟩)]
    unfold lanv2Out
    rw [beqF fc fO, vO, if_neg (by simpa using hc), hr]
    rfl
  · rintro (h' | ⟨h', -⟩)
    · exact hc h'
    · exact h h'
  · rintro A B C D ⟨-, -, h' | h'⟩
    · exact r0.ne' h'.1
    · exact h h'.1

/-- A matrix of small integers with complex eigenvalues, one with real eigenvalues, and one close to the
identity meet the hypotheses. -/
example : (∀ z : Int, z.natAbs < 2 ^ 53 → (Float.ofInt z).isFinite = true ∧ |toR (Float.ofInt z)| ≤ 2 ^ 1000 ∧
      (toR (Float.ofInt z) = 0 ∨ 1 / 2 ^ 969 ≤ |toR (Float.ofInt z)|)) ∧
    1 / 2 ^ 52 ≤ |toR (Float.ofInt 3 - Float.ofInt 1)| ∧ toR (Float.ofInt 2) * toR (Float.ofInt (-5)) < 0 := by
  refine ⟨fun z hz => ?_, ?_, ?_⟩
  · obtain ⟨h1, h2⟩ := moderate_int hz
    refine ⟨h1, h2.trans (pow_le_pow_right₀ (by norm_num) (by norm_num)), ?_⟩
    rw [(ofInt_exact z hz).2]
    by_cases h : z = 0
    · left; rw [h]; norm_num
    · right
      have h3 : (1 : ℝ) ≤ |(z : ℝ)| := by
        rw [← Int.cast_abs]
        exact_mod_cast Int.one_le_abs h
      refine le_trans ?_ h3
      rw [div_le_one (by positivity)]
      exact one_le_pow₀ (by norm_num)
  · obtain ⟨h1, h2⟩ := ofInt_exact 3 (by norm_num)
    obtain ⟨h3, h4⟩ := ofInt_exact 1 (by norm_num)
    obtain ⟨-, t, ht, e⟩ := subF h1 h3 (by rw [h2, h4]; have := one_le_big; norm_num; linarith)
    rw [e, h2, h4]
    have := abs_le.1 ht
    have := ur_small
    norm_num
    rw [abs_of_pos (by linarith)]
    linarith
  · rw [(ofInt_exact 2 (by norm_num)).2, (ofInt_exact (-5) (by norm_num)).2]; norm_num

/-- The diagonal `2^-60`, `0` with off-diagonal entries `1`, `-1` is a case of the exception. -/
example : (Float.ofBits 0x3C30000000000000 - Float.ofInt 0).isFinite = true ∧
    |toR (Float.ofBits 0x3C30000000000000 - Float.ofInt 0)| < 1 / 2 ^ 52 ∧ toR (Float.ofInt 1) * toR (Float.ofInt (-1)) < 0 ∧
    toR (Float.ofBits 0x3C30000000000000) ≠ toR (Float.ofInt 0) := by
  obtain ⟨h1, h2⟩ := toR_of (show up (Float.ofBits 0x3C30000000000000 - Float.ofInt 0) = .finite .positive (2 ^ 52) (-112) (by norm_num) from rfl)
  obtain ⟨-, h3⟩ := toR_of (show up (Float.ofBits 0x3C30000000000000) = .finite .positive (2 ^ 52) (-112) (by norm_num) from rfl)
  rw [show (-112 : Int) = -((112 : Nat) : Int) from rfl, zpneg] at h2 h3
  refine ⟨h1, ?_, ?_, ?_⟩
  · rw [h2]; norm_num [sgnR]
  · rw [(ofInt_exact 1 (by norm_num)).2, (ofInt_exact (-1) (by norm_num)).2]; norm_num
  · rw [h3, (ofInt_exact 0 (by norm_num)).2]; norm_num [sgnR]

end Verif

import Verif.Props.NormLower

/-!
# C112: bounds without slack for `dlarfg` on binary64
-/

namespace Verif
open Float.Model F64 Scalar Spec

namespace F64

theorem fl_symm (X : ℝ) : fl (-X) = -fl X := by
  unfold fl
  rcases lt_trichotomy X 0 with h | rfl | h
  · rw [if_neg (by linarith), if_pos (by linarith), if_neg h.ne, if_neg (by linarith), neg_neg]
  · simp
  · rw [if_neg (by linarith), if_neg (by linarith), if_neg h.ne', if_pos h, neg_neg]

/-- The tie above one is rounded down. -/
theorem fl_one_tie : fl (1 + 1 / 2 ^ 53) ≤ 1 := by
  have hc : (1 : Float) + Float.ofBits 0x3CA0000000000000 = 1 := by decide +kernel
  have hb : toR (Float.ofBits 0x3CA0000000000000) = 1 / 2 ^ 53 ∧ (Float.ofBits 0x3CA0000000000000).isFinite = true := by
    obtain ⟨h1, h2⟩ := toR_of (show up (Float.ofBits 0x3CA0000000000000) = .finite .positive (2 ^ 52) (-105) (by norm_num) from rfl)
    refine ⟨?_, h1⟩
    rw [h2]
    norm_num [sgnR]
  have := add_fl (x := 1) (y := Float.ofBits 0x3CA0000000000000) (by rw [hc]; exact toR_one.1)
  rw [hc, toR_one.2, hb.1] at this
  exact this.ge

/-- Nothing in `x·fl(1/d)` exceeds one if `|x| ≤ |d|`. -/
theorem recip_mul_le {x d : ℝ} {q : Float} (hd : (0 : ℝ) < |d|) (hd2 : |d| ≤ 2 ^ (1002 : ℤ)) (hx : |x| ≤ |d|) (h : Fl (1 / d) (toR q)) : |x * toR q| ≤ 1 + 1 / 2 ^ 53 := by
  have e := h.err
  have hX : (1 : ℝ) / 2 ^ 1075 ≤ |1 / d| / 2 ^ 53 := by
    rw [abs_div, abs_one, div_div, one_div_le_one_div (by positivity) (by positivity)]
    calc |d| * 2 ^ 53 ≤ 2 ^ (1002 : ℤ) * 2 ^ 53 := by gcongr
      _ ≤ 2 ^ 1075 := by rw [← zpow_natCast, ← zpow_natCast, ← zpow_add₀ (by norm_num)]; exact zpow_le_zpow_right₀ (by norm_num) (by norm_num)
  rw [max_eq_left hX] at e
  have h1 : |toR q| ≤ |1 / d| * (1 + 1 / 2 ^ 53) := by
    calc |toR q| = |(toR q - 1 / d) + 1 / d| := by ring_nf
      _ ≤ |toR q - 1 / d| + |1 / d| := abs_add_le _ _
      _ ≤ |1 / d| / 2 ^ 53 + |1 / d| := by gcongr
      _ = _ := by ring
  rw [abs_mul]
  calc |x| * |toR q| ≤ |d| * (|1 / d| * (1 + 1 / 2 ^ 53)) := mul_le_mul hx h1 (abs_nonneg _) hd.le
    _ = 1 + 1 / 2 ^ 53 := by rw [← mul_assoc, ← abs_mul, mul_one_div_cancel (abs_pos.1 hd), abs_one, one_mul]

theorem sub_ge {alpha r : Float} (fa : alpha.isFinite = true) (d0 : 0 ≤ toR (dlapy2 alpha r)) {beta : Float} (fb : beta.isFinite = true)
    (hb : toR beta = -toR (Scalar.signum alpha) * toR (dlapy2 alpha r)) (f : (alpha - beta).isFinite = true) :
    |toR beta| = toR (dlapy2 alpha r) ∧ toR (dlapy2 alpha r) ≤ |toR (alpha - beta)| := by
  obtain ⟨s, hs, hsa, -, sv⟩ := signum_fin fa
  have sv' : toR (Scalar.signum alpha) = s := sv
  rw [sv'] at hb
  have ab : |toR beta| = toR (dlapy2 alpha r) := by rw [hb, abs_mul, abs_neg, sign_abs hs, one_mul, abs_of_nonneg d0]
  refine ⟨ab, ?_⟩
  have sum : toR alpha - toR beta = s * (|toR alpha| + toR (dlapy2 alpha r)) := by
    rw [← hsa, hb]
    rcases hs with rfl | rfl <;> ring
  have a0 := abs_nonneg (toR alpha)
  have asum : |toR alpha - toR beta| = |toR alpha| + toR (dlapy2 alpha r) := by
    rw [sum, abs_mul, sign_abs hs, one_mul, abs_of_nonneg (by linarith)]
  exact ((sub_rounds alpha beta fa fb).fl f).abs_ge (grid_toR _) (by rw [asum]; linarith)

end F64

/-- **C112.** `dlarfg` on binary64, with the elements of `x` zero or between `2^-511` and `2^505` in magnitude, `alpha` at most `2^1000` and a finite non-zero norm of `x`: without any
slack for rounding, `|beta|` is at least `|alpha|` and at least the magnitude of every element of `x`, and every element of the vector of the reflector is at most one in magnitude. -/
theorem C112_dlarfg (n : Nat) (hn : 1 ≤ n) (alpha : Float) (ha : alpha.isFinite = true) (hb : |toR alpha| ≤ 2 ^ (1000 : ℤ)) (x : List Float) (incx : Int) (hinc : 1 ≤ incx)
    (hox : n * incx.natAbs + 1 < 2 ^ 31) (hl : x.length < 2 ^ 62) (hx : StrideFits n incx x.length) (hm : ∀ l (hl : l < n), MidRange (x[strideIx n incx l]'(hx l hl)))
    (r : Float) (hr : dnrm2 (n : Int) x incx = (pure r : R Float)) (fr : r.isFinite = true) (h0 : (r == 0) = false) :
    ∃ (beta tau : Float) (v : List Float), dlarfg ((n : Int) + 1) alpha x incx = (pure (beta, v, tau) : R (Float × List Float × Float)) ∧
      alpha.abs ≤ beta.abs ∧ v.length = x.length ∧
      ∀ l (hl : l < n), (x[strideIx n incx l]'(hx l hl)).abs ≤ beta.abs ∧ ∃ w, v[strideIx n incx l]? = some w ∧ w.abs ≤ 1 := by
  have hn31 : n < 2 ^ 31 - 1 := by
    have : n * 1 ≤ n * incx.natAbs := Nat.mul_le_mul_left n (by omega)
    omega
  have hso : StrideOK n incx := by unfold StrideOK; omega
  have inj : ∀ {a b : Float}, (pure a : R Float) = pure b → a = b := fun h => by
    have := congrFun h .release
    injection this
  obtain ⟨q, qs, e, es, hq⟩ := C104_dnrm2 n hn 0 x x incx hso hl hl hx hx (fun l hl => Sc.refl (hm l hl).1) fun l hl => ⟨hm l hl, hm l hl⟩
  rw [hr] at e es
  cases inj e; cases inj es
  obtain ⟨-, low, high⟩ := hq fr fr
  have hmem : ∀ e ∈ strided n incx x, ∃ l, ∃ hl : l < n, e = x[strideIx n incx l]'(hx l hl) := by
    intro e he
    unfold strided at he
    obtain ⟨l, hl, rfl⟩ := List.mem_map.1 he
    have hl := List.mem_range.1 hl
    exact ⟨l, hl, by rw [List.getD_eq_getElem?_getD, List.getElem?_eq_getElem (hx l hl)]; rfl⟩
  obtain ⟨r', er, hge⟩ := C109_dnrm2_ge n hn x incx hso hl (fun e he => by obtain ⟨l, hl, rfl⟩ := hmem e he; exact hm l hl)
  rw [hr] at er
  cases inj er
  have r0 : toR r ≠ 0 := by
    intro hh
    have : Float.beq r 0 = true := by
      rw [beq_toXR, toXR_fin fr, hh, show toXR (0 : Float) = XR.fin 0 from (toXR_fin toR_zero.1).trans (congrArg XR.fin toR_zero.2)]
      simp [XR.beq]
    exact absurd (this.symm.trans h0) (by simp)
  have low := low.resolve_left r0
  have h512 : (2 : ℝ) ^ (512 : ℤ) ≤ 2 ^ (1000 : ℤ) := zpow_le_zpow_right₀ (by norm_num) (by norm_num)
  have db := lapy2_bounds ha fr low (high.trans h512) hb
  obtain ⟨beta, eb, bf, bv, bl, g1, g2, g3, g4, g5, g6⟩ := reflect ha fr low (high.trans h512) hb
  obtain ⟨ab, dge⟩ := sub_ge ha ((zp _).le.trans db.2.1) bf bv g2
  have rle : toR r ≤ toR (dlapy2 alpha r) := by
    have := (C47_dlapy2_ge alpha r (finite_not_nan ha) (finite_not_nan fr)).2
    rw [le_iff (by rw [abs_finite]; exact fr) db.1, abs_toR] at this
    exact (le_abs_self _).trans this
  have xle : ∀ l (hl : l < n), |toR (x[strideIx n incx l]'(hx l hl))| ≤ toR r := by
    intro l hl
    have he : (x[strideIx n incx l]'(hx l hl)) ∈ strided n incx x := by
      unfold strided
      refine List.mem_map.2 ⟨l, List.mem_range.2 hl, ?_⟩
      rw [List.getD_eq_getElem?_getD, List.getElem?_eq_getElem (hx l hl)]; rfl
    have := hge _ he
    rw [le_iff (by rw [abs_finite]; exact (hm l hl).1) fr, abs_toR] at this
    exact this
  obtain ⟨c1, c2, c3, c4⟩ := recip_fin g2 g5 g6
  have pf : ∀ {v d : Float}, MidRange v → d.isFinite = true → |toR d| ≤ 2 ^ (511 : ℤ) → (v * d).isFinite = true := by
    intro v d hv fd hd
    refine (mul_rounds v d hv.1 fd).finite (F64.lt_ovf (a := 505 + 511) ?_ (by norm_num))
    rw [abs_mul, zpow_add₀ (by norm_num)]
    refine mul_le_mul ?_ hd (abs_nonneg _) (zp _).le
    rcases hv.2 with h | h
    · rw [h, abs_zero]; exact (zp _).le
    · exact h.2
  obtain ⟨v, ev, lv, hv⟩ := dscal_flv n (1 / (alpha - beta)) c1 x incx hinc hox hx fun l hl => pf (hm l hl) c1 c2
  have hge : (Scalar.abs beta <ᶠ (dlamch 'S' / dlamch 'E' : Float)) = false := by
    obtain ⟨smf, smv⟩ := safmin_f64
    cases hc : (Scalar.abs beta <ᶠ (dlamch 'S' / dlamch 'E' : Float))
    · rfl
    · have := (lt_iff (abs_fin bf) smf).1 hc
      rw [smv, abs_toR] at this
      have h3 : (2 : ℝ) ^ (-969 : ℤ) ≤ 2 ^ (-511 : ℤ) := zpow_le_zpow_right₀ (by norm_num) (by norm_num)
      exact absurd (lt_of_le_of_lt bl this) (not_lt.2 h3)
  refine ⟨beta, (beta - alpha) / beta, v, ?_, ?_, lv, ?_⟩
  · rw [larfg_unfold hn hn31 alpha x incx hr h0, ← eb, if_neg (by rw [hge]; simp)]
    unfold dlarfgFinish
    rw [isub_ok (by unfold FitsI32; omega), pure_bind, show (n : Int) + 1 - 1 = n by omega]
    show (dscal (n : Int) (1 / (alpha - beta)) x incx >>= _ : R _) = _
    rw [ev, pure_bind]
    rfl
  · rw [le_iff (by rw [abs_finite]; exact ha) (by rw [abs_finite]; exact bf), abs_toR, abs_toR, ab]
    exact db.2.2.1
  · intro l hl
    constructor
    · rw [le_iff (by rw [abs_finite]; exact (hm l hl).1) (by rw [abs_finite]; exact bf), abs_toR, abs_toR, ab]
      exact (xle l hl).trans rle
    · obtain ⟨w, w1, w2, w3⟩ := hv l hl
      refine ⟨w, w1, ?_⟩
      have rq := (div_rounds 1 (alpha - beta) toR_one.1 g2 c4).fl c1
      rw [toR_one.2] at rq
      have hB := recip_mul_le (abs_pos.2 c4) g6 ((xle l hl).trans (rle.trans dge)) rq
      rw [le_iff (by rw [abs_finite]; exact w2) toR_one.1, abs_toR, toR_one.2, w3]
      have hB := abs_le.1 hB
      have u := (fl_mono hB.2).trans fl_one_tie
      have m := fl_mono hB.1
      rw [fl_symm] at m
      rw [abs_le]
      exact ⟨by linarith [fl_one_tie], u⟩

/-- A case: `(-0.3; 0.1, 0.7)`. -/
theorem C112_example (pr : Profile) :
    ((dlarfg (F := Float) 3 (-0.3) ([0.1, 0.7] : List Float) 1 pr).val?.map fun o => (decide ((0.7 : Float) ≤ o.1.abs), o.2.1.map fun w => decide (w.abs ≤ 1))) = some (true, [true, true]) ∧
    ((dnrm2 (F := Float) 2 ([0.1, 0.7] : List Float) 1 pr).val?.map fun r => (r.isFinite, r == 0)) = some (true, false) := by
  cases pr <;> decide +kernel

/-- The bound one is attained: `alpha = 0` and one element. -/
theorem C112_sharp (pr : Profile) : ((dlarfg (F := Float) 2 0 ([0.1] : List Float) 1 pr).val?.map fun o => o.2.1.map fun w => w.abs) = some [1] := by
  cases pr <;> decide +kernel

end Verif

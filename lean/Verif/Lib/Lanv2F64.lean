import Verif.Lib.F64Rel
import Verif.Lib.Lanv2Alg

/-!
# `dlanv2` on binary64: the steps
-/

namespace Verif
open F64 Scalar Spec

namespace F64

theorem beqF {x y : Float} (hx : x.isFinite = true) (hy : y.isFinite = true) : (x =ᶠ y) = decide (toR x = toR y) := by
  show Float.beq x y = _
  rw [beq_toXR, toXR_fin hx, toXR_fin hy]; simp [XR.beq]

theorem leF {x y : Float} (hx : x.isFinite = true) (hy : y.isFinite = true) : (x ≤ᶠ y) = decide (toR x ≤ toR y) := by
  show Float.le x y = _
  rw [le_toXR, toXR_fin hx, toXR_fin hy]
  simp [XR.le, XR.lt, XR.beq, le_iff_lt_or_eq]

theorem ltF {x y : Float} (hx : x.isFinite = true) (hy : y.isFinite = true) : (x <ᶠ y) = decide (toR x < toR y) := by
  show Float.lt x y = _
  rw [lt_toXR, toXR_fin hx, toXR_fin hy]; simp [XR.lt]

/-- `copysign` and `signum` use the same sign. -/
theorem copysign_fin {x y : Float} (hx : x.isFinite = true) (hy : y.isFinite = true) :
    ∃ s : ℝ, (s = 1 ∨ s = -1) ∧ s * toR y = |toR y| ∧ (F64.copysign x y).isFinite = true ∧ toR (F64.copysign x y) = s * |toR x| := by
  obtain ⟨s, h1, h2, -, h3⟩ := signum_fin hy
  have hn : y.isNaN = false := finite_not_nan hy
  have h4 : toR (1 : Float).abs = 1 := by rw [abs_toR, toR_one.2, abs_one]
  unfold F64.signum F64.copysign at h3
  rw [hn, if_neg (by simp)] at h3
  refine ⟨s, h1, h2, ?_⟩
  unfold F64.copysign
  by_cases hb : signBit y = true
  · rw [if_pos hb, neg_toR, h4] at h3
    rw [if_pos hb, neg_finite, neg_toR, abs_toR, ← h3]
    exact ⟨abs_fin hx, by ring⟩
  · rw [if_neg hb, h4] at h3
    rw [if_neg hb, abs_toR, ← h3]
    exact ⟨abs_fin hx, by ring⟩

theorem Fl.abs1 {X Y B : ℝ} (h : Fl X Y) (hX : |X| ≤ B) : |Y - X| ≤ ur * B + eta :=
  h.general.trans (by linarith [mul_le_mul_of_nonneg_left hX ur_pos.le])

theorem eta_ur : eta ≤ ur * (1 / 1000000000000000) := by
  have h1 := eta_tiny
  have h2 := tiny_le_one
  have h3 := ur_small
  have h4 := ur_pos
  have h5 : ur * ur * tiny ≤ ur * ur * 1 := mul_le_mul_of_nonneg_left h2 (by positivity)
  have h6 : ur * ur ≤ ur * (1 / 1000000000000000) := mul_le_mul_of_nonneg_left h3 h4.le
  linarith

theorem eta_M {M : ℝ} (h : tiny ≤ M) : eta ≤ 1 / 1000000000000000 * (ur * M) := by
  have h1 := eta_tiny
  have h3 := ur_small
  have h4 := ur_pos
  have h5 : ur * ur * tiny ≤ ur * ur * M := mul_le_mul_of_nonneg_left h (by positivity)
  have h6 : ur * (ur * M) ≤ 1 / 1000000000000000 * (ur * M) :=
    mul_le_mul_of_nonneg_right h3 (mul_nonneg h4.le (tiny_pos.le.trans h))
  linarith

theorem ur_big {M : ℝ} (h : M ≤ big) (h0 : 0 ≤ M) : ur * M ≤ 1 / 1000000000000000 * M := mul_le_mul_of_nonneg_right ur_small h0

/-- One product of perturbed factors. -/
theorem prodF {x w : Float} {X W α μ M : ℝ} (fx : x.isFinite = true) (fw : w.isFinite = true)
    (hx : |toR x - X| ≤ α * ur * M) (hX : |X| ≤ μ * M) (hw : |toR w - W| ≤ 40 * ur) (hW : |W| ≤ 1)
    (ha : 0 ≤ α) (ha' : α ≤ 1000) (hm : 0 ≤ μ) (hm' : μ ≤ 2) (hM : tiny ≤ M) (hM' : M ≤ big) :
    (x * w).isFinite = true ∧ |toR (x * w) - X * W| ≤ (42 * μ + α + 1) * ur * M := by
  have M0 := tiny_pos.trans_le hM
  have u0 := ur_pos
  have us := ur_small
  have e0 := eta_M hM
  have uM0 : 0 ≤ ur * M := by positivity
  have au : α * ur * M ≤ 1 / 1000000000 * M := by
    have := ku ha'
    have := mul_le_mul_of_nonneg_right this M0.le
    linarith
  have xa : |toR x| ≤ (μ + 1 / 1000) * M := by
    have : |toR x| ≤ |X| + |toR x - X| := by
      calc |toR x| = |X + (toR x - X)| := by ring_nf
        _ ≤ _ := abs_add_le _ _
    linarith
  have wa : |toR w| ≤ 1001 / 1000 := by
    have : |toR w| ≤ |W| + |toR w - W| := by
      calc |toR w| = |W + (toR w - W)| := by ring_nf
        _ ≤ _ := abs_add_le _ _
    linarith
  have xw : |toR x * toR w| ≤ (μ + 1 / 100) * M := by
    rw [abs_mul]
    calc _ ≤ (μ + 1 / 1000) * M * (1001 / 1000) := mul_le_mul xa wa (abs_nonneg _) (by positivity)
      _ ≤ _ := by nlinarith
  obtain ⟨hf, hfl⟩ := mulF fx fw (by nlinarith [big_pos])
  refine ⟨hf, ?_⟩
  have e1 := hfl.abs1 xw
  have e2 : |toR x * toR w - X * W| ≤ (μ + 1 / 1000) * M * (40 * ur) + α * ur * M := by
    rw [show toR x * toR w - X * W = toR x * (toR w - W) + (toR x - X) * W by ring]
    refine (abs_add_le _ _).trans ?_
    rw [abs_mul, abs_mul]
    have a1 := mul_le_mul xa hw (abs_nonneg _) (by positivity)
    have a2 : |toR x - X| * |W| ≤ α * ur * M * 1 := mul_le_mul hx hW (abs_nonneg _) (by positivity)
    linarith
  have e3 : |toR (x * w) - X * W| ≤ |toR (x * w) - toR x * toR w| + |toR x * toR w - X * W| := abs_sub_le _ _ _
  have hmu : 0 ≤ μ * (ur * M) := by positivity
  linarith

/-- A sum of perturbed terms. -/
theorem sumF {p q : Float} {P Q β ν M : ℝ} (fp : p.isFinite = true) (fq : q.isFinite = true)
    (hp : |toR p - P| ≤ β * ur * M) (hq : |toR q - Q| ≤ β * ur * M) (hPQ : |P + Q| ≤ ν * M)
    (hb : 0 ≤ β) (hb' : β ≤ 1000) (hn : 0 ≤ ν) (hn' : ν ≤ 8) (hM : tiny ≤ M) (hM' : M ≤ big) :
    (p + q).isFinite = true ∧ |toR (p + q) - (P + Q)| ≤ (2 * β + ν + 1) * ur * M := by
  have M0 := tiny_pos.trans_le hM
  have u0 := ur_pos
  have us := ur_small
  have uM0 : 0 ≤ ur * M := by positivity
  have bu : β * ur * M ≤ 1 / 1000000000 * M := by
    have := ku hb'
    have := mul_le_mul_of_nonneg_right this M0.le
    linarith
  have e1 : |toR p + toR q - (P + Q)| ≤ 2 * (β * ur * M) := by
    rw [show toR p + toR q - (P + Q) = (toR p - P) + (toR q - Q) by ring]
    have := abs_add_le (toR p - P) (toR q - Q)
    linarith
  have pq : |toR p + toR q| ≤ (ν + 1 / 1000) * M := by
    have : |toR p + toR q| ≤ |P + Q| + |toR p + toR q - (P + Q)| := by
      calc |toR p + toR q| = |(P + Q) + (toR p + toR q - (P + Q))| := by ring_nf
        _ ≤ _ := abs_add_le _ _
    linarith
  obtain ⟨hf, hrl⟩ := addF fp fq (by nlinarith [big_pos])
  refine ⟨hf, ?_⟩
  have e2 := hrl.err
  have e3 : |toR (p + q) - (P + Q)| ≤ |toR (p + q) - (toR p + toR q)| + |toR p + toR q - (P + Q)| := abs_sub_le _ _ _
  have e4 : 1 * ur * |toR p + toR q| ≤ 1 * ur * ((ν + 1 / 1000) * M) := mul_le_mul_of_nonneg_left pq (by positivity)
  linarith

end F64

/-! ### The eigenvalues -/

/-- What is shown about each branch. -/
structure Lanv2Ok (K L M A B C D : ℝ) (o : Lanv2 Float) : Prop where
  finite : o.a.isFinite = true ∧ o.b.isFinite = true ∧ o.c.isFinite = true ∧ o.d.isFinite = true ∧
    o.rt1r.isFinite = true ∧ o.rt1i.isFinite = true ∧ o.rt2r.isFinite = true ∧ o.rt2i.isFinite = true ∧
    o.cs.isFinite = true ∧ o.sn.isFinite = true
  std : Standard (toR o.a) (toR o.b) (toR o.c) (toR o.d)
  back : Bk ur K L M A B C D (toR o.cs) (toR o.sn) (toR o.a) (toR o.b) (toR o.c) (toR o.d)
  eig : ∃ e1 e2 e3 e4 : ℝ, |e1| ≤ (K + 130) * ur * M ∧ |e2| ≤ (K + 130) * ur * M ∧ |e3| ≤ (K + 130) * ur * M ∧ |e4| ≤ (K + 130) * ur * M ∧
    Eigenvalues (A + e1) (B + e2) (C + e3) (D + e4) ⟨toR o.rt1r, toR o.rt1i⟩ ⟨toR o.rt2r, toR o.rt2i⟩

theorem eig_tri {A B C D cs sn a b d : ℝ} (h : Rotated A B C D cs sn a b 0 d) : Eigenvalues A B C D ⟨a, 0⟩ ⟨d, 0⟩ := by
  have ht := h.trace
  have hd := h.det
  refine ⟨?_, ?_, Or.inl ⟨rfl, rfl⟩⟩
  · rw [← ht]; apply Complex.ext <;> simp
  · rw [← hd]; apply Complex.ext <;> simp

theorem eig_cplx {A B C D cs sn a b c r : ℝ} (h : Rotated A B C D cs sn a b c a) (hr : r * r = -(b * c)) :
    Eigenvalues A B C D ⟨a, r⟩ ⟨a, -r⟩ := by
  have ht := h.trace
  have hd := h.det
  refine ⟨?_, ?_, Or.inr ⟨rfl, by simp⟩⟩
  · rw [← ht]; apply Complex.ext <;> simp
  · rw [← hd]; apply Complex.ext
    · simp; linear_combination hr
    · simp; ring

/-- A slightly wrong square root belongs to slightly different off-diagonal elements. -/
theorem move_root {b c r s u η : ℝ} (hbc : b * c < 0) (hs : s = Real.sqrt |b| * Real.sqrt |c|) (hu : 0 ≤ u) (hu1 : u ≤ 1 / 1000)
    (hη : 0 ≤ η) (hη1 : η ≤ s / 2) (hr : |r - s| ≤ 6 * u * s + η) :
    ∃ b' c' : ℝ, r * r = -(b' * c') ∧ |b' - b| ≤ 18 * u * max |b| |c| + 3 * η ∧ |c' - c| ≤ 18 * u * max |b| |c| + 3 * η := by
  have hb : b ≠ 0 := by rintro rfl; simp at hbc
  have hc : c ≠ 0 := by rintro rfl; simp at hbc
  have s2 : s * s = -(b * c) := by
    rw [hs, mul_mul_mul_comm, Real.mul_self_sqrt (abs_nonneg _), Real.mul_self_sqrt (abs_nonneg _), ← abs_mul, abs_of_neg hbc]
  have s0 : 0 ≤ s := by rw [hs]; positivity
  have hr' := abs_le.1 hr
  have us : 6 * u * s ≤ 6 / 1000 * s := mul_le_mul_of_nonneg_right (by linarith) s0
  have key : |r * r - s * s| ≤ (6 * u * s + η) * (3 * s) := by
    rw [show r * r - s * s = (r - s) * (r + s) by ring, abs_mul]
    refine mul_le_mul hr ?_ (abs_nonneg _) (by positivity)
    rw [abs_le]; constructor <;> linarith
  have m0 : 0 ≤ max |b| |c| := le_max_of_le_left (abs_nonneg _)
  have sm : ∀ x y : ℝ, |y| ≤ |x| → x * y = b * c → x ≠ 0 → |x| ≤ max |b| |c| → ∃ y', r * r = -(x * y') ∧ |y' - y| ≤ 18 * u * max |b| |c| + 3 * η := by
    intro x y hyx hxy hx hxm
    have hx0 := abs_pos.2 hx
    refine ⟨-(r * r) / x, by field_simp, ?_⟩
    have sx : s ≤ |x| := by
      have e : s * s = |x| * |y| := by rw [s2, ← abs_mul, hxy, abs_of_neg hbc]
      have : s * s ≤ |x| * |x| := by rw [e]; exact mul_le_mul_of_nonneg_left hyx hx0.le
      exact abs_le_of_sq_le_sq' (by rw [sq, sq]; exact this) hx0.le |>.2
    rw [show -(r * r) / x - y = -(r * r - s * s) / x by rw [s2, ← hxy]; field_simp; ring, abs_div, abs_neg, div_le_iff₀ hx0]
    refine key.trans ?_
    have h1 : 18 * u * (s * s) ≤ 18 * u * (max |b| |c| * |x|) := by
      refine mul_le_mul_of_nonneg_left ?_ (by positivity)
      exact mul_le_mul (sx.trans hxm) sx s0 m0
    have h2 : 3 * η * s ≤ 3 * η * |x| := mul_le_mul_of_nonneg_left sx (by positivity)
    linarith
  have z0 : (0 : ℝ) ≤ 18 * u * max |b| |c| + 3 * η := by positivity
  rcases le_total |c| |b| with h | h
  · obtain ⟨y, h1, h2⟩ := sm b c h rfl hb (le_max_left _ _)
    exact ⟨b, y, h1, by simpa using z0, h2⟩
  · obtain ⟨y, h1, h2⟩ := sm c b h (mul_comm _ _) hc (le_max_right _ _)
    exact ⟨y, c, by rw [h1]; ring, h2, by simpa using z0⟩

theorem sqrt_ge_eta {x : ℝ} (h : (2 : ℝ) ^ (-1074 : ℤ) ≤ x) : (2 : ℝ) ^ (-537 : ℤ) ≤ Real.sqrt x := by
  rw [← z2sqrt]; exact Real.sqrt_le_sqrt h

theorem abs_ge_min {x : Float} (h : toR x ≠ 0) : (2 : ℝ) ^ (-1074 : ℤ) ≤ |toR x| := by
  have := pos_ge (x := x.abs) (by rw [abs_toR]; exact abs_pos.2 h)
  rwa [abs_toR] at this

theorem lanv2Out_ok {K L M A B C D : ℝ} {a b c d cs sn : Float} (fa : a.isFinite = true) (fb : b.isFinite = true)
    (fc : c.isFinite = true) (fd : d.isFinite = true) (fcs : cs.isFinite = true) (fsn : sn.isFinite = true)
    (std : Standard (toR a) (toR b) (toR c) (toR d))
    (back : Bk ur K L M A B C D (toR cs) (toR sn) (toR a) (toR b) (toR c) (toR d)) (M0 : 0 ≤ M)
    (hM : toR c ≠ 0 → tiny ≤ M ∧ M ≤ big ∧ |toR b| ≤ 3 * M ∧ |toR c| ≤ 3 * M) : Lanv2Ok K L M A B C D (lanv2Out a b c d cs sn) := by
  have u0 := ur_pos
  have us := ur_small
  obtain ⟨fz, vz⟩ := toR_zero
  unfold lanv2Out
  by_cases hc : toR c = 0
  · rw [if_pos (by rw [beqF fc fz, vz]; simpa using hc)]
    refine ⟨⟨fa, fb, fc, fd, fa, fz, fd, fz, fcs, fsn⟩, std, back, ?_⟩
    obtain ⟨x, y, e1, e2, e3, e4, h1, h2, h3, h4, h5, h6, h7⟩ := back
    have hk : K * ur * M ≤ (K + 130) * ur * M := mul_le_mul_of_nonneg_right (mul_le_mul_of_nonneg_right (by linarith) u0.le) M0
    refine ⟨e1, e2, e3, e4, h3.trans hk, h4.trans hk, h5.trans hk, h6.trans hk, ?_⟩
    rw [hc] at h7
    simp only [vz]
    exact eig_tri h7
  · obtain ⟨hM1, hM2, hb3, hc3⟩ := hM hc
    rw [if_neg (by rw [beqF fc fz, vz]; simpa using hc)]
    have hbc : toR a = toR d ∧ toR b * toR c < 0 := by
      rcases std with h | h
      · exact absurd h hc
      · exact h
    have hb : toR b ≠ 0 := by intro h; rw [h] at hbc; simp at hbc
    have gb := sqrt_ge_eta (abs_ge_min hb)
    have gc := sqrt_ge_eta (abs_ge_min hc)
    obtain ⟨f1, n1, r1⟩ := sqrtF (x := b.abs) (abs_fin fb) (by rw [abs_toR]; exact abs_nonneg _)
    obtain ⟨f2, n2, r2⟩ := sqrtF (x := c.abs) (abs_fin fc) (by rw [abs_toR]; exact abs_nonneg _)
    rw [abs_toR] at r1 r2
    have r3 := r1.mul r2 (by norm_num) (by norm_num) (by norm_num) (by norm_num)
    set s := Real.sqrt |toR b| * Real.sqrt |toR c| with hs
    have s0 : 0 ≤ s := by positivity
    have sM : s ≤ 3 * M := by
      rw [hs, ← Real.sqrt_mul (abs_nonneg _)]
      rw [show 3 * M = Real.sqrt ((3 * M) * (3 * M)) by rw [Real.sqrt_mul_self (by positivity)]]
      exact Real.sqrt_le_sqrt (mul_le_mul hb3 hc3 (abs_nonneg _) (by positivity))
    have hη : eta ≤ s / 2 := by
      have : (2 : ℝ) ^ (-537 : ℤ) * 2 ^ (-537 : ℤ) ≤ s := mul_le_mul gb gc (zp _).le (Real.sqrt_nonneg _)
      rw [z2] at this
      rw [eta_z, show (-1075 : ℤ) = -537 + -537 + -1 by norm_num, ← z2 (-537 + -537)]
      rw [show (2 : ℝ) ^ (-1 : ℤ) = 1 / 2 by norm_num]
      generalize (2 : ℝ) ^ (-537 + -537 : ℤ) = w at *
      linarith only [this]
    have ra := r3.abs_le (by norm_num)
    rw [abs_of_nonneg s0] at ra
    obtain ⟨f3, fl3⟩ := mulF f1 f2 (by linarith [big_pos])
    have e3 := fl3.abs1 ra
    have e4 := r3.err
    rw [abs_of_nonneg s0] at e4
    have er : |toR (b.abs.sqrt * c.abs.sqrt) - s| ≤ 6 * ur * s + eta := by
      have := abs_sub_le (toR (b.abs.sqrt * c.abs.sqrt)) (toR b.abs.sqrt * toR c.abs.sqrt) s
      have : 0 ≤ ur * s := by positivity
      linarith
    obtain ⟨b', c', g1, g2, g3⟩ := move_root hbc.2 rfl u0.le (by linarith) eta_pos.le hη er
    have hmax : 18 * ur * max |toR b| |toR c| + 3 * eta ≤ 60 * ur * M := by
      have := mul_le_mul_of_nonneg_left (max_le hb3 hc3) (show 0 ≤ 18 * ur by positivity)
      have := eta_M hM1
      have : 0 ≤ ur * M := by positivity
      linarith
    refine ⟨⟨fa, fb, fc, fd, fa, f3, fd, by rw [neg_finite]; exact f3, fcs, fsn⟩, std, back, ?_⟩
    have z60 : |toR a - toR a| ≤ 60 * ur * M := by rw [sub_self, abs_zero]; positivity
    have z60' : |toR d - toR d| ≤ 60 * ur * M := by rw [sub_self, abs_zero]; positivity
    have zL : ∀ x : ℝ, |x - x| ≤ 0 * ur := fun x => by simp
    obtain ⟨x, y, e1, e2, e3, e4, h1, h2, h3, h4, h5, h6, h7⟩ := back.perturb (zL _) (zL _) z60 (g2.trans hmax) (g3.trans hmax) z60'
    have hk : (K + 2 * 60) * ur * M ≤ (K + 130) * ur * M := mul_le_mul_of_nonneg_right (mul_le_mul_of_nonneg_right (by linarith) u0.le) M0
    refine ⟨e1, e2, e3, e4, h3.trans hk, h4.trans hk, h5.trans hk, h6.trans hk, ?_⟩
    rw [← hbc.1] at h7
    simp only [neg_toR, ← hbc.1]
    exact eig_cplx h7 g1

end Verif

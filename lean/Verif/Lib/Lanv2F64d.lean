import Verif.Lib.Lanv2F64c

/-!
# `dlanv2` on binary64: the two branches put together
-/

namespace Verif
open F64 Scalar Spec

theorem lanv2Complex_f64 {a b c d s t cs sn : Float} (hs : b + c = s) (ht : a - d = t) (h : lanv2Scale 21 0 s t = (s, t))
    (hc : Float.sqrt ((Scalar.one + s.abs / dlapy2 s t) * Scalar.lit 1 1) = cs)
    (hn : -((Scalar.lit 1 1 * t) / (dlapy2 s t * cs)) * F64.signum s = sn) :
    ∃ aa bb cc dd : Float, aa = a * cs + b * sn ∧ bb = -(a * sn) + b * cs ∧ cc = c * cs + d * sn ∧ dd = -(c * sn) + d * cs ∧
    lanv2Complex a b c d =
      lanv2Finish (Scalar.lit 1 1 * ((aa * cs + cc * sn) + (-(bb * sn) + dd * cs))) (bb * cs + dd * sn) (-(aa * sn) + cc * cs) cs sn := by
  refine ⟨_, _, _, _, rfl, rfl, rfl, rfl, ?_⟩
  unfold lanv2Complex
  rw [hs, ht, h]
  subst hc
  subst hn
  rfl

set_option maxHeartbeats 1000000 in
theorem complex_ok {a b c d : Float} {M : ℝ} (fa : a.isFinite = true) (fb : b.isFinite = true) (fc : c.isFinite = true) (fd : d.isFinite = true)
    (ha : |toR a| ≤ M) (hb : |toR b| ≤ M) (hc : |toR c| ≤ M) (hd : |toR d| ≤ M) (hM : tiny ≤ M) (hM' : M ≤ big)
    (hl : tiny ≤ |toR b + toR c| ∨ tiny ≤ |toR a - toR d|) :
    Lanv2Ok 900 200 M (toR a) (toR b) (toR c) (toR d) (lanv2Complex a b c d) := by
  have u0 := ur_pos
  have us := ur_small
  have B0 := big_pos
  have M0 := tiny_pos.trans_le hM
  have t0 := tiny_pos
  have uM : 0 < ur * M := by positivity
  have bc : |toR b + toR c| ≤ 2 * M := (abs_add_le _ _).trans (by linarith)
  have ad : |toR a - toR d| ≤ 2 * M := (abs_sub _ _).trans (by linarith)
  obtain ⟨fs, rs⟩ := addF fb fc (by linarith)
  obtain ⟨ft, rt⟩ := subF fa fd (by linarith)
  have as1 := rs.abs_le (by norm_num)
  have as2 := rs.abs_ge (by norm_num)
  have at1 := rt.abs_le (by norm_num)
  have at2 := rt.abs_ge (by norm_num)
  have hl' : tiny / 2 ≤ |toR (b + c)| ∨ tiny / 2 ≤ |toR (a - d)| := by
    rcases hl with h | h
    · left; linarith
    · right; linarith
  have hne : toR (b + c) ≠ 0 ∨ toR (a - d) ≠ 0 := by
    rcases hl' with h | h
    · left; intro h'; rw [h', abs_zero] at h; linarith
    · right; intro h'; rw [h', abs_zero] at h; linarith
  obtain ⟨fcs, fsn, c0, s0, hu, hdd, ec, es⟩ := angle_ok fs ft (by linarith) (by linarith) hl'
  generalize hcs : Float.sqrt ((Scalar.one + (b + c).abs / dlapy2 (b + c) (a - d)) * Scalar.lit 1 1) = cs at *
  generalize hsn : -((Scalar.lit 1 1 * (a - d)) / (dlapy2 (b + c) (a - d) * cs)) * F64.signum (b + c) = sn at *
  obtain ⟨aa, bb, cc, dd, haa', hbb', hcc', hdd'', key⟩ := lanv2Complex_f64 rfl rfl (scale_f64 fs ft hne 21 0) hcs hsn
  rw [key]
  obtain ⟨c1, s1, cs1, cs2⟩ := unit_le hu
  have z0 : ∀ x : ℝ, |x - x| ≤ 0 * ur * M := fun x => by simp
  have one : ∀ {x : Float}, |toR x| ≤ M → |toR x| ≤ 1 * M := fun h => by linarith
  have two : ∀ {X Y V W : ℝ}, |X| ≤ M → |Y| ≤ M → |V| ≤ 1 → |W| ≤ 1 → |X * V + Y * W| ≤ 2 * M ∧ |-(X * V) + Y * W| ≤ 2 * M := by
    intro X Y V W h1 h2 h3 h4
    have a1 : |X * V| ≤ M * 1 := by rw [abs_mul]; exact mul_le_mul h1 h3 (abs_nonneg _) M0.le
    have a2 : |Y * W| ≤ M * 1 := by rw [abs_mul]; exact mul_le_mul h2 h4 (abs_nonneg _) M0.le
    constructor
    · exact (abs_add_le _ _).trans (by linarith)
    · refine (abs_add_le _ _).trans ?_
      rw [abs_neg]; linarith
  -- first products
  have st1 : ∀ {x y : Float}, x.isFinite = true → y.isFinite = true → |toR x| ≤ M → |toR y| ≤ M →
      ((x * cs + y * sn).isFinite = true ∧ |toR (x * cs + y * sn) - (toR x * c0 + toR y * s0)| ≤ 90 * ur * M ∧ |toR x * c0 + toR y * s0| ≤ 2 * M) ∧
      ((-(x * sn) + y * cs).isFinite = true ∧ |toR (-(x * sn) + y * cs) - (-(toR x * s0) + toR y * c0)| ≤ 90 * ur * M ∧ |-(toR x * s0) + toR y * c0| ≤ 2 * M) := by
    intro x y fx fy hx hy
    obtain ⟨p1, e1⟩ := prodF fx fcs (z0 _) (one hx) ec c1 le_rfl (by norm_num) (by norm_num) (by norm_num) hM hM'
    obtain ⟨p2, e2⟩ := prodF fy fsn (z0 _) (one hy) es s1 le_rfl (by norm_num) (by norm_num) (by norm_num) hM hM'
    obtain ⟨p3, e3⟩ := prodF fx fsn (z0 _) (one hx) es s1 le_rfl (by norm_num) (by norm_num) (by norm_num) hM hM'
    obtain ⟨p4, e4⟩ := prodF fy fcs (z0 _) (one hy) ec c1 le_rfl (by norm_num) (by norm_num) (by norm_num) hM hM'
    have e3' : |toR (-(x * sn)) - -(toR x * s0)| ≤ (42 * 1 + 0 + 1) * ur * M := by
      rw [neg_toR, show ∀ p q : ℝ, -p - -q = -(p - q) by intros; ring, abs_neg]; exact e3
    have t1 := (two hx hy c1 s1).1
    have t2 := (two hx hy s1 c1).2
    obtain ⟨q1, g1⟩ := sumF p1 p2 e1 e2 t1 (by norm_num) (by norm_num) (by norm_num) (by norm_num) hM hM'
    obtain ⟨q2, g2⟩ := sumF (by rw [neg_finite]; exact p3) p4 e3' e4 t2 (by norm_num) (by norm_num) (by norm_num) (by norm_num) hM hM'
    exact ⟨⟨q1, by linarith, t1⟩, ⟨q2, by linarith, t2⟩⟩
  obtain ⟨⟨faa, eaa, haa⟩, ⟨fbb, ebb, hbb⟩⟩ := st1 fa fb ha hb
  obtain ⟨⟨fcc, ecc, hcc⟩, ⟨fdd, edd, hdd'⟩⟩ := st1 fc fd hc hd
  rw [← haa'] at faa eaa
  rw [← hbb'] at fbb ebb
  rw [← hcc'] at fcc ecc
  rw [← hdd''] at fdd edd
  -- second products
  have st2 : ∀ {x y : Float} {X Y : ℝ}, x.isFinite = true → y.isFinite = true → |toR x - X| ≤ 90 * ur * M → |toR y - Y| ≤ 90 * ur * M →
      |X| ≤ 2 * M → |Y| ≤ 2 * M →
      ((x * cs + y * sn).isFinite = true ∧ |toR (x * cs + y * sn) - (X * c0 + Y * s0)| ≤ 360 * ur * M) ∧
      ((-(x * sn) + y * cs).isFinite = true ∧ |toR (-(x * sn) + y * cs) - (-(X * s0) + Y * c0)| ≤ 360 * ur * M) := by
    intro x y X Y fx fy ex ey hX hY
    obtain ⟨p1, e1⟩ := prodF fx fcs ex hX ec c1 (by norm_num) (by norm_num) (by norm_num) (by norm_num) hM hM'
    obtain ⟨p2, e2⟩ := prodF fy fsn ey hY es s1 (by norm_num) (by norm_num) (by norm_num) (by norm_num) hM hM'
    obtain ⟨p3, e3⟩ := prodF fx fsn ex hX es s1 (by norm_num) (by norm_num) (by norm_num) (by norm_num) hM hM'
    obtain ⟨p4, e4⟩ := prodF fy fcs ey hY ec c1 (by norm_num) (by norm_num) (by norm_num) (by norm_num) hM hM'
    have e3' : |toR (-(x * sn)) - -(X * s0)| ≤ (42 * 2 + 90 + 1) * ur * M := by
      rw [neg_toR, show ∀ p q : ℝ, -p - -q = -(p - q) by intros; ring, abs_neg]; exact e3
    have a1 : ∀ {V W : ℝ}, |V| ≤ 1 → |W| ≤ 1 → |X * V + Y * W| ≤ 4 * M ∧ |-(X * V) + Y * W| ≤ 4 * M := by
      intro V W h3 h4
      have a1 : |X * V| ≤ 2 * M * 1 := by rw [abs_mul]; exact mul_le_mul hX h3 (abs_nonneg _) (by positivity)
      have a2 : |Y * W| ≤ 2 * M * 1 := by rw [abs_mul]; exact mul_le_mul hY h4 (abs_nonneg _) (by positivity)
      constructor
      · exact (abs_add_le _ _).trans (by linarith)
      · refine (abs_add_le _ _).trans ?_
        rw [abs_neg]; linarith
    obtain ⟨q1, g1⟩ := sumF p1 p2 e1 e2 (a1 c1 s1).1 (by norm_num) (by norm_num) (by norm_num) (by norm_num) hM hM'
    obtain ⟨q2, g2⟩ := sumF (by rw [neg_finite]; exact p3) p4 e3' e4 (a1 s1 c1).2 (by norm_num) (by norm_num) (by norm_num) (by norm_num) hM hM'
    exact ⟨⟨q1, by linarith⟩, ⟨q2, by linarith⟩⟩
  obtain ⟨⟨fA, eA⟩, ⟨fC, eC⟩⟩ := st2 faa fcc eaa ecc haa hcc
  obtain ⟨⟨fB, eB⟩, ⟨fD, eD⟩⟩ := st2 fbb fdd ebb edd hbb hdd'
  -- the exact rotated matrix
  have rot := rotated_of (A := toR a) (B := toR b) (C := toR c) (D := toR d) hu
  set A0 := c0 * (c0 * toR a + s0 * toR b) + s0 * (c0 * toR c + s0 * toR d) with hA0
  set B0' := c0 * (-s0 * toR a + c0 * toR b) + s0 * (-s0 * toR c + c0 * toR d) with hB0
  set C0 := -s0 * (c0 * toR a + s0 * toR b) + c0 * (c0 * toR c + s0 * toR d) with hC0
  set D0 := -s0 * (-s0 * toR a + c0 * toR b) + c0 * (-s0 * toR c + c0 * toR d) with hD0
  have eA' : |toR (aa * cs + cc * sn) - A0| ≤ 360 * ur * M := by
    rw [show A0 = (toR a * c0 + toR b * s0) * c0 + (toR c * c0 + toR d * s0) * s0 by rw [hA0]; ring]; exact eA
  have eB' : |toR (bb * cs + dd * sn) - B0'| ≤ 360 * ur * M := by
    rw [show B0' = (-(toR a * s0) + toR b * c0) * c0 + (-(toR c * s0) + toR d * c0) * s0 by rw [hB0]; ring]; exact eB
  have eC' : |toR (-(aa * sn) + cc * cs) - C0| ≤ 360 * ur * M := by
    rw [show C0 = -((toR a * c0 + toR b * s0) * s0) + (toR c * c0 + toR d * s0) * c0 by rw [hC0]; ring]; exact eC
  have eD' : |toR (-(bb * sn) + dd * cs) - D0| ≤ 360 * ur * M := by
    rw [show D0 = -((-(toR a * s0) + toR b * c0) * s0) + (-(toR c * s0) + toR d * c0) * c0 by rw [hD0]; ring]; exact eD
  have sizes : ∀ {x y z w : ℝ}, |x| ≤ M → |y| ≤ M → |z| ≤ M → |w| ≤ M → |c0 ^ 2 * x + c0 * s0 * y + c0 * s0 * z + s0 ^ 2 * w| ≤ 2 * M :=
    fun h1 h2 h3 h4 => four_terms hu h1 h2 h3 h4
  have ng : ∀ {x : ℝ}, |x| ≤ M → |-x| ≤ M := fun h => by rwa [abs_neg]
  have sA : |A0| ≤ 2 * M := by
    rw [show A0 = c0 ^ 2 * toR a + c0 * s0 * toR b + c0 * s0 * toR c + s0 ^ 2 * toR d by rw [hA0]; ring]; exact sizes ha hb hc hd
  have sB : |B0'| ≤ 2 * M := by
    rw [show B0' = c0 ^ 2 * toR b + c0 * s0 * -toR a + c0 * s0 * toR d + s0 ^ 2 * -toR c by rw [hB0]; ring]; exact sizes hb (ng ha) hd (ng hc)
  have sC : |C0| ≤ 2 * M := by
    rw [show C0 = c0 ^ 2 * toR c + c0 * s0 * -toR a + c0 * s0 * toR d + s0 ^ 2 * -toR b by rw [hC0]; ring]; exact sizes hc (ng ha) hd (ng hb)
  have sD : |D0| ≤ 2 * M := by
    rw [show D0 = c0 ^ 2 * toR d + c0 * s0 * -toR b + c0 * s0 * -toR c + s0 ^ 2 * toR a by rw [hD0]; ring]; exact sizes hd (ng hb) (ng hc) ha
  -- equal diagonal
  have dif : |A0 - D0| ≤ 5 * ur * M := by
    have e : A0 - D0 = -((toR (a - d) - (toR a - toR d)) * (c0 ^ 2 - s0 ^ 2)) - (toR (b + c) - (toR b + toR c)) * (2 * (s0 * c0)) := by
      rw [hA0, hD0]; linear_combination hdd
    rw [e]
    have h1 : |(toR (a - d) - (toR a - toR d)) * (c0 ^ 2 - s0 ^ 2)| ≤ 2 * ur * M * 1 := by
      rw [abs_mul]
      refine mul_le_mul ?_ cs2 (abs_nonneg _) (by positivity)
      have := mul_le_mul_of_nonneg_left ad u0.le
      linarith [rt.err]
    have h2 : |(toR (b + c) - (toR b + toR c)) * (2 * (s0 * c0))| ≤ 2 * ur * M * 1 := by
      rw [abs_mul]
      refine mul_le_mul ?_ ?_ (abs_nonneg _) (by positivity)
      · have := mul_le_mul_of_nonneg_left bc u0.le
        linarith [rs.err]
      · rw [abs_mul, abs_mul, abs_two]; linarith
    have := abs_sub (-((toR (a - d) - (toR a - toR d)) * (c0 ^ 2 - s0 ^ 2))) ((toR (b + c) - (toR b + toR c)) * (2 * (s0 * c0)))
    rw [abs_neg] at this
    linarith
  -- the mean
  obtain ⟨fh, vh⟩ := half_exact
  obtain ⟨fS, eS⟩ := sumF fA fD eA' eD' (show |A0 + D0| ≤ 4 * M from (abs_add_le _ _).trans (by linarith)) (by norm_num) (by norm_num) (by norm_num) (by norm_num) hM hM'
  set SS := (aa * cs + cc * sn) + (-(bb * sn) + dd * cs) with hSS
  have uMM := ur_big hM' M0.le
  have aS : |toR SS| ≤ 5 * M := by
    have : |toR SS| ≤ |A0 + D0| + |toR SS - (A0 + D0)| := by
      calc |toR SS| = |A0 + D0 + (toR SS - (A0 + D0))| := by ring_nf
        _ ≤ _ := abs_add_le _ _
    have := abs_add_le A0 D0
    linarith
  have aH : |toR (Scalar.lit 1 1 : Float) * toR SS| ≤ 3 * M := by rw [vh, abs_mul]; norm_num; linarith
  obtain ⟨fT, flT⟩ := mulF fh fS (by linarith)
  have eT := flT.abs1 aH
  rw [vh] at eT
  have eM := eta_M hM
  have eT' : |toR (Scalar.lit 1 1 * SS) - A0| ≤ 370 * ur * M ∧ |toR (Scalar.lit 1 1 * SS) - D0| ≤ 370 * ur * M := by
    have h1 := abs_le.1 eT
    have h2 := abs_le.1 eS
    have h3 := abs_le.1 dif
    constructor
    · rw [abs_le]; constructor <;> linarith
    · rw [abs_le]; constructor <;> linarith
  have bk : Bk ur 740 40 M (toR a) (toR b) (toR c) (toR d) (toR cs) (toR sn) (toR (Scalar.lit 1 1 * SS)) (toR (bb * cs + dd * sn))
      (toR (-(aa * sn) + cc * cs)) (toR (Scalar.lit 1 1 * SS)) := by
    obtain ⟨e1, e2, e3, e4, g1, g2, g3, g4, g5⟩ := rot.perturb eT'.1 (eB'.trans (by linarith)) (eC'.trans (by linarith)) eT'.2
    exact ⟨c0, s0, e1, e2, e3, e4, ec, es, by linarith, by linarith, by linarith, by linarith, g5⟩
  have bnd : ∀ {x X : ℝ}, |x - X| ≤ 370 * ur * M → |X| ≤ 2 * M → |x| ≤ 3 * M := by
    intro x X h1 h2
    have : |x| ≤ |X| + |x - X| := by
      calc |x| = |X + (x - X)| := by ring_nf
        _ ≤ _ := abs_add_le _ _
    linarith
  have c2 : ∀ {x X : ℝ}, |x - X| ≤ 40 * ur → |X| ≤ 1 → |x| ≤ 2 := by
    intro x X h1 h2
    have : |x| ≤ |X| + |x - X| := by
      calc |x| = |X + (x - X)| := by ring_nf
        _ ≤ _ := abs_add_le _ _
    linarith
  have ok := lanv2Finish_ok fT fB fC fcs fsn bk hM hM' (by norm_num) (bnd eT'.1 sA) (bnd (eB'.trans (by linarith)) sB) (bnd (eC'.trans (by linarith)) sC)
    (c2 ec c1) (c2 es s1)
  refine ⟨ok.finite, ok.std, ok.back.mono u0.le M0.le (by norm_num) (by norm_num), ?_⟩
  obtain ⟨e1, e2, e3, e4, h3, h4, h5, h6, h7⟩ := ok.eig
  exact ⟨e1, e2, e3, e4, by linarith, by linarith, by linarith, by linarith, h7⟩

end Verif

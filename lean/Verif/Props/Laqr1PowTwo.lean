import Verif.Props.PowTwoNrm
import Verif.Props.Laqr1Sign

/-!
# C119: `dlaqr1` on binary64 follows a scaling by a power of two
-/

namespace Verif
open Float.Model F64 Scalar Spec

/-- Specification: `x` is zero, or finite with `2^-200 ≤ |x| ≤ 2^200`. -/
def Spec.Medium200 (x : Float) : Prop :=
  x.isFinite = true ∧ (toR x = 0 ∨ (2 : ℝ) ^ (-200 : ℤ) ≤ |toR x|) ∧ |toR x| ≤ (2 : ℝ) ^ (200 : ℤ)

namespace F64

theorem grid_multiple {G : ℝ} (h : Grid G) (lo : ℤ) (hG : (2 : ℝ) ^ (lo + 52) ≤ |G|) : ∃ n : ℤ, G = n * (2 : ℝ) ^ lo := by
  obtain ⟨m, e, hm, -, he⟩ := h
  have hp := zp e
  have hlo : lo ≤ e := by
    by_contra hc
    have h1 : (m : ℝ) < 2 ^ (53 : ℤ) := by exact_mod_cast hm
    have h2 : |G| < 2 ^ (53 + e) := by
      rw [he, zpow_add₀ (by norm_num)]
      exact mul_lt_mul_of_pos_right h1 hp
    have h3 : (2 : ℝ) ^ (53 + e) ≤ 2 ^ (lo + 52) := zpow_le_zpow_right₀ (by norm_num) (by omega)
    linarith
  have e1 : |G| = ((m * 2 ^ (e - lo).toNat : ℕ) : ℤ) * (2 : ℝ) ^ lo := by
    rw [he]
    push_cast
    rw [← zpow_natCast, Int.toNat_of_nonneg (by omega), mul_assoc, ← zpow_add₀ (by norm_num)]
    congr 2
    omega
  rcases abs_choice G with h | h
  · exact ⟨_, by rw [← h]; exact e1⟩
  · refine ⟨-((m * 2 ^ (e - lo).toNat : ℕ) : ℤ), ?_⟩
    rw [h] at e1
    rw [Int.cast_neg, neg_mul, ← e1, neg_neg]

theorem Fl.multiple {X Y : ℝ} (h : Fl X Y) (hY : Grid Y) {lo n : ℤ} (hlo : -1074 ≤ lo) (hX : X = n * (2 : ℝ) ^ lo) : ∃ n' : ℤ, Y = n' * (2 : ℝ) ^ lo := by
  have hp := zp lo
  by_cases hn : |n| < 2 ^ 53
  · have : Grid X := by
      refine ⟨n.natAbs, lo, by rw [← Int.natCast_natAbs] at hn; exact_mod_cast hn, hlo, ?_⟩
      rw [hX, abs_mul, abs_of_pos hp, ← Int.cast_abs, Int.abs_eq_natAbs, Int.cast_natCast]
    exact ⟨n, by rw [h.exact this, hX]⟩
  · refine grid_multiple hY lo (h.abs_ge (grid_z _ (by omega)) ?_)
    rw [not_lt] at hn
    have h1 : (2 : ℝ) ^ (52 : ℤ) ≤ |(n : ℝ)| := by
      have : ((2 ^ 53 : ℤ) : ℝ) ≤ ((|n| : ℤ) : ℝ) := by exact_mod_cast hn
      rw [Int.cast_abs] at this
      push_cast at this
      refine le_trans ?_ this
      norm_num
    rw [hX, abs_mul, abs_of_pos hp, zpow_add₀ (by norm_num), mul_comm]
    exact mul_le_mul_of_nonneg_right h1 hp.le

/-- A finite multiple of `2^-252`, at most `2^b` in magnitude. -/
structure Wd (b : ℤ) (x : Float) : Prop where
  fin : x.isFinite = true
  mul : ∃ n : ℤ, toR x = n * (2 : ℝ) ^ (-252 : ℤ)
  le : |toR x| ≤ (2 : ℝ) ^ b

theorem Wd.mono {a b : ℤ} {x : Float} (h : Wd a x) (hab : a ≤ b) : Wd b x :=
  ⟨h.fin, h.mul, h.le.trans (zpow_le_zpow_right₀ (by norm_num) hab)⟩

theorem Wd.of {x : Float} (h : Medium200 x) : Wd 200 x := by
  refine ⟨h.1, ?_, h.2.2⟩
  rcases h.2.1 with h0 | h0
  · exact ⟨0, by rw [h0]; simp⟩
  · exact grid_multiple (grid_toR x) _ (by norm_num at h0 ⊢; exact h0)

theorem Wd.neg {b : ℤ} {x : Float} (h : Wd b x) : Wd b (-x) := by
  obtain ⟨n, hn⟩ := h.mul
  exact ⟨by rw [neg_finite]; exact h.fin, ⟨-n, by rw [neg_toR, hn]; push_cast; ring⟩, by rw [neg_toR, abs_neg]; exact h.le⟩

theorem Wd.abs {b : ℤ} {x : Float} (h : Wd b x) : Wd b x.abs := by
  obtain ⟨n, hn⟩ := h.mul
  refine ⟨by rw [abs_finite]; exact h.fin, ⟨|n|, ?_⟩, by rw [abs_toR, abs_abs]; exact h.le⟩
  rw [abs_toR, hn, abs_mul, abs_of_pos (zp _), Int.cast_abs]

theorem two_zpow (b : ℤ) : (2 : ℝ) ^ b + 2 ^ b = 2 ^ (b + 1) := by rw [zpow_add₀ (by norm_num)]; norm_num; ring

theorem Wd.add {b : ℤ} {x y : Float} (h : Wd b x) (h' : Wd b y) (hb : 0 ≤ b) (hb' : b ≤ 1000) : Wd (b + 1) (x + y) := by
  obtain ⟨n, hn⟩ := h.mul
  obtain ⟨n', hn'⟩ := h'.mul
  have r := add_rounds _ _ h.fin h'.fin
  have le : |toR x + toR y| ≤ 2 ^ (b + 1) := by
    rw [← two_zpow]
    exact (abs_add_le _ _).trans (add_le_add h.le h'.le)
  have f := r.finite (lt_ovf le (by omega))
  exact ⟨f, (r.fl f).multiple (grid_toR _) (n := n + n') (by norm_num) (by rw [hn, hn']; push_cast; ring), (r.fl f).abs_le (grid_z _ (by omega)) le⟩

theorem Wd.sub {b : ℤ} {x y : Float} (h : Wd b x) (h' : Wd b y) (hb : 0 ≤ b) (hb' : b ≤ 1000) : Wd (b + 1) (x - y) := by
  rw [sub_eq_add_neg']
  exact h.add h'.neg hb hb'

/-- Finite; zero or at least `2^a`, and at most `2^b` in magnitude. -/
structure Bd (a b : ℤ) (x : Float) : Prop where
  fin : x.isFinite = true
  ge : toR x = 0 ∨ (2 : ℝ) ^ a ≤ |toR x|
  le : |toR x| ≤ (2 : ℝ) ^ b

theorem Wd.bd {b : ℤ} {x : Float} (h : Wd b x) : Bd (-252) b x := by
  refine ⟨h.fin, ?_, h.le⟩
  obtain ⟨n, hn⟩ := h.mul
  by_cases h0 : n = 0
  · left; rw [hn, h0]; simp
  · right
    rw [hn, abs_mul, abs_of_pos (zp _)]
    have : (1 : ℝ) ≤ |(n : ℝ)| := by rw [← Int.cast_abs]; exact_mod_cast Int.one_le_abs h0
    nlinarith [zp (-252)]

theorem noUnder {a : ℤ} {X : ℝ} (ha : -1022 ≤ a) (h : X = 0 ∨ (2 : ℝ) ^ a ≤ |X|) : NoUnderflow X := by
  refine h.imp id fun h => le_trans ?_ h
  have e2 : (1 : ℝ) / 2 ^ 1022 = 2 ^ (-1022 : ℤ) := by rw [zpow_neg, one_div, ← zpow_natCast]; norm_num
  rw [e2]
  exact zpow_le_zpow_right₀ (by norm_num) ha

theorem bd_of {a b : ℤ} {X : ℝ} {f : Float} (r : Rounds X f) (ha : -1022 ≤ a) (hb : -1074 ≤ b) (hb' : b ≤ 1022) (h : X = 0 ∨ (2 : ℝ) ^ a ≤ |X|) (h' : |X| ≤ 2 ^ b) : Bd a b f := by
  have f := r.finite (lt_ovf h' hb')
  refine ⟨f, ?_, (r.fl f).abs_le (grid_z _ hb) h'⟩
  rcases h with h | h
  · left
    have := (r.fl f).exact (by rw [h]; exact ⟨0, 0, by norm_num, by norm_num, by simp⟩)
    rw [this, h]
  · exact Or.inr ((r.fl f).abs_ge (grid_z _ (by omega)) h)

theorem mul_range {a b c d : ℤ} {X Y : ℝ} (h : X = 0 ∨ (2 : ℝ) ^ a ≤ |X|) (h' : |X| ≤ 2 ^ b) (g : Y = 0 ∨ (2 : ℝ) ^ c ≤ |Y|) (g' : |Y| ≤ 2 ^ d) :
    (X * Y = 0 ∨ (2 : ℝ) ^ (a + c) ≤ |X * Y|) ∧ |X * Y| ≤ 2 ^ (b + d) := by
  rw [abs_mul, zpow_add₀ (by norm_num), zpow_add₀ (by norm_num)]
  refine ⟨?_, mul_le_mul h' g' (abs_nonneg _) (zp b).le⟩
  rcases h with h | h
  · left; rw [h, zero_mul]
  · rcases g with g | g
    · left; rw [g, mul_zero]
    · exact Or.inr (mul_le_mul h g (zp c).le (abs_nonneg _))

theorem inv_range {c d : ℤ} {Y : ℝ} (h0 : Y ≠ 0) (g : Y = 0 ∨ (2 : ℝ) ^ c ≤ |Y|) (g' : |Y| ≤ 2 ^ d) :
    (Y⁻¹ = 0 ∨ (2 : ℝ) ^ (-d) ≤ |Y⁻¹|) ∧ |Y⁻¹| ≤ 2 ^ (-c) := by
  have hy : 0 < |Y| := abs_pos.2 h0
  rw [abs_inv, zpow_neg, zpow_neg]
  exact ⟨Or.inr (inv_anti₀ hy g'), inv_anti₀ (zp c) (g.resolve_left h0)⟩

/-- Scaled by `2^k`, and both in the range of `Bd`. -/
structure Bs (k a b : ℤ) (x x' : Float) : Prop where
  sc : Sc k x x'
  l : Bd a b x
  r : Bd a b x'

theorem Bs.mul {k j a b c d : ℤ} {x x' y y' : Float} (h : Bs k a b x x') (g : Bs j c d y y') (h1 : -1022 ≤ a + c) (h2 : -1074 ≤ b + d) (h3 : b + d ≤ 1022) :
    Bs (k + j) (a + c) (b + d) (x * y) (x' * y') := by
  obtain ⟨p, q⟩ := mul_range h.l.ge h.l.le g.l.ge g.l.le
  obtain ⟨p', q'⟩ := mul_range h.r.ge h.r.le g.r.ge g.r.le
  have u := bd_of (mul_rounds x y h.l.fin g.l.fin) h1 h2 h3 p q
  have u' := bd_of (mul_rounds x' y' h.r.fin g.r.fin) h1 h2 h3 p' q'
  exact ⟨h.sc.mul g.sc (noUnder h1 p) (noUnder h1 p') u.fin u'.fin, u, u'⟩

theorem Bs.div {k j a b c d : ℤ} {x x' y y' : Float} (h : Bs k a b x x') (g : Bs j c d y y') (h0 : toR y ≠ 0) (h1 : -1022 ≤ a + -d) (h2 : -1074 ≤ b + -c) (h3 : b + -c ≤ 1022) :
    Bs (k - j) (a + -d) (b + -c) (x / y) (x' / y') := by
  have h0' : toR y' ≠ 0 := by rw [g.sc.eq]; exact mul_ne_zero h0 (zp j).ne'
  obtain ⟨i, j⟩ := inv_range h0 g.l.ge g.l.le
  obtain ⟨i', j'⟩ := inv_range h0' g.r.ge g.r.le
  obtain ⟨p, q⟩ := mul_range h.l.ge h.l.le i j
  obtain ⟨p', q'⟩ := mul_range h.r.ge h.r.le i' j'
  rw [← div_eq_mul_inv] at p q p' q'
  have u := bd_of (div_rounds x y h.l.fin g.l.fin h0) h1 h2 h3 p q
  have u' := bd_of (div_rounds x' y' h.r.fin g.r.fin h0') h1 h2 h3 p' q'
  exact ⟨h.sc.div g.sc h0 (noUnder h1 p) (noUnder h1 p') u.fin u'.fin, u, u'⟩

/-- Scaled by `2^k`, and both in the range of `Wd`. -/
structure Ws (k b : ℤ) (x x' : Float) : Prop where
  sc : Sc k x x'
  l : Wd b x
  r : Wd b x'

theorem Ws.mono {k a b : ℤ} {x x' : Float} (h : Ws k a x x') (hab : a ≤ b) : Ws k b x x' := ⟨h.sc, h.l.mono hab, h.r.mono hab⟩
theorem Ws.abs {k b : ℤ} {x x' : Float} (h : Ws k b x x') : Ws k b x.abs x'.abs := ⟨h.sc.abs, h.l.abs, h.r.abs⟩
theorem Ws.add {k b : ℤ} {x x' y y' : Float} (h : Ws k b x x') (g : Ws k b y y') (hb : 0 ≤ b) (hb' : b ≤ 1000) : Ws k (b + 1) (x + y) (x' + y') :=
  have u := h.l.add g.l hb hb'
  have u' := h.r.add g.r hb hb'
  ⟨h.sc.add g.sc u.fin u'.fin, u, u'⟩
theorem Ws.sub {k b : ℤ} {x x' y y' : Float} (h : Ws k b x x') (g : Ws k b y y') (hb : 0 ≤ b) (hb' : b ≤ 1000) : Ws k (b + 1) (x - y) (x' - y') :=
  have u := h.l.sub g.l hb hb'
  have u' := h.r.sub g.r hb hb'
  ⟨h.sc.sub g.sc u.fin u'.fin, u, u'⟩
theorem Ws.bs {k b : ℤ} {x x' : Float} (h : Ws k b x x') : Bs k (-252) b x x' := ⟨h.sc, h.l.bd, h.r.bd⟩

/-- Scaled by `2^k`, and both finite and at most `2^b` in magnitude. -/
structure Us (k b : ℤ) (x x' : Float) : Prop where
  sc : Sc k x x'
  l : |toR x| ≤ (2 : ℝ) ^ b
  r : |toR x'| ≤ (2 : ℝ) ^ b

theorem Bs.us {k a b : ℤ} {x x' : Float} (h : Bs k a b x x') : Us k b x x' := ⟨h.sc, h.l.le, h.r.le⟩
theorem Us.mono {k a b : ℤ} {x x' : Float} (h : Us k a x x') (hab : a ≤ b) : Us k b x x' :=
  ⟨h.sc, h.l.trans (zpow_le_zpow_right₀ (by norm_num) hab), h.r.trans (zpow_le_zpow_right₀ (by norm_num) hab)⟩
theorem Us.neg {k b : ℤ} {x x' : Float} (h : Us k b x x') : Us k b (-x) (-x') :=
  ⟨h.sc.neg, by rw [neg_toR, abs_neg]; exact h.l, by rw [neg_toR, abs_neg]; exact h.r⟩

theorem us_bound {b : ℤ} {x y : Float} (fx : x.isFinite = true) (fy : y.isFinite = true) (h : |toR x| ≤ (2 : ℝ) ^ b) (g : |toR y| ≤ (2 : ℝ) ^ b) (hb : 0 ≤ b) (hb' : b ≤ 1000) :
    (x + y).isFinite = true ∧ |toR (x + y)| ≤ (2 : ℝ) ^ (b + 1) := by
  have r := add_rounds _ _ fx fy
  have le : |toR x + toR y| ≤ 2 ^ (b + 1) := by
    rw [← two_zpow]
    exact (abs_add_le _ _).trans (add_le_add h g)
  have f := r.finite (lt_ovf le (by omega))
  exact ⟨f, (r.fl f).abs_le (grid_z _ (by omega)) le⟩

theorem Us.add {k b : ℤ} {x x' y y' : Float} (h : Us k b x x') (g : Us k b y y') (hb : 0 ≤ b) (hb' : b ≤ 1000) : Us k (b + 1) (x + y) (x' + y') :=
  have u := us_bound h.sc.fx g.sc.fx h.l g.l hb hb'
  have u' := us_bound h.sc.fy g.sc.fy h.r g.r hb hb'
  ⟨h.sc.add g.sc u.1 u'.1, u.2, u'.2⟩
theorem Us.sub {k b : ℤ} {x x' y y' : Float} (h : Us k b x x') (g : Us k b y y') (hb : 0 ≤ b) (hb' : b ≤ 1000) : Us k (b + 1) (x - y) (x' - y') := by
  rw [sub_eq_add_neg', sub_eq_add_neg']
  exact h.add g.neg hb hb'

theorem eq_zero_sc {k : ℤ} {x x' : Float} (h : Sc k x x') : (x' =ᶠ (zero : Float)) = (x =ᶠ (zero : Float)) := by
  show Float.beq x' zero = Float.beq x zero
  rw [beq_toXR, beq_toXR, toXR_fin h.fx, toXR_fin h.fy, toXR_fin toR_zero.1, toR_zero.2]
  simp only [XR.beq, h.eq, mul_eq_zero, (zp k).ne', or_false]

theorem ne_zero_of {x : Float} (f : x.isFinite = true) (h : ¬ (x =ᶠ (zero : Float)) = true) : toR x ≠ 0 := by
  intro h0
  apply h
  show Float.beq x zero = true
  rw [beq_toXR, toXR_fin f, toXR_fin toR_zero.1, toR_zero.2, h0]
  simp [XR.beq]

end F64

theorem laqr1Val_scale (n : Nat) (hn : n = 2 ∨ n = 3) (g g' : Nat → Nat → Float) (k : ℤ) (h : ∀ i < n, ∀ j < n, Ws k 200 (g i j) (g' i j))
    {sr1 si1 sr2 si2 sr1' si1' sr2' si2' : Float} (h1 : Ws k 200 sr1 sr1') (k1 : Ws k 200 si1 si1') (h2 : Ws k 200 sr2 sr2') (k2 : Ws k 200 si2 si2') (i : Nat) (hi : i < n) :
    Sc k (laqr1Val n g sr1 si1 sr2 si2 i) (laqr1Val n g' sr1' si1' sr2' si2' i) := by
  have h00 := h 0 (by omega) 0 (by omega)
  have h10 := h 1 (by omega) 0 (by omega)
  have h01 := h 0 (by omega) 1 (by omega)
  have h11 := h 1 (by omega) 1 (by omega)
  have d1 := h00.sub h1 (by norm_num) (by norm_num)
  have d2 := h00.sub h2 (by norm_num) (by norm_num)
  have hs : Ws k 204 (laqr1S n g sr2 si2) (laqr1S n g' sr2' si2') := by
    have a := (d2.abs.add (k2.abs.mono (by norm_num)) (by norm_num) (by norm_num)).add (h10.abs.mono (by norm_num)) (by norm_num) (by norm_num)
    unfold laqr1S
    rcases hn with rfl | rfl
    · exact a.mono (by norm_num)
    · exact (a.add ((h 2 (by omega) 0 (by omega)).abs.mono (by norm_num)) (by norm_num) (by norm_num)).mono (by norm_num)
  unfold laqr1Val
  simp only [eq_zero_sc hs.sc]
  generalize laqr1S n g sr2 si2 = s at *
  generalize laqr1S n g' sr2' si2' = s' at *
  split
  · exact ⟨toR_zero.1, toR_zero.1, by rw [toR_zero.2, zero_mul]⟩
  · rename_i hz
    have h0 := ne_zero_of hs.sc.fx hz
    have q : ∀ {x x' : Float}, Ws k 204 x x' → Bs 0 (-456) 456 (x / s) (x' / s') := by
      intro x x' hx
      have := hx.bs.div hs.bs h0 (by norm_num) (by norm_num) (by norm_num)
      rw [sub_self] at this
      norm_num at this
      exact this
    have m : ∀ {x x' y y' : Float}, Ws k 204 x x' → Ws k 204 y y' → Us k 660 (x * (y / s)) (x' * (y' / s')) := by
      intro x x' y y' hx hy
      have := (hx.bs.mul (q hy) (by norm_num) (by norm_num) (by norm_num)).us
      rw [add_zero] at this
      exact this.mono (by norm_num)
    have m' : ∀ {x x' y y' : Float}, Ws k 204 x x' → Ws k 204 y y' → Us k 660 ((y / s) * x) ((y' / s') * x') := by
      intro x x' y y' hx hy
      rw [mul_comm' (y / s), mul_comm' (y' / s')]
      exact m hx hy
    have w : ∀ {x x' : Float} {b : ℤ}, Ws k b x x' → b ≤ 204 → Ws k 204 x x' := fun h hb => h.mono hb
    have tr : ∀ j < n, Ws k 203 (g 0 0 + g j j - sr1 - sr2) (g' 0 0 + g' j j - sr1' - sr2') := by
      intro j hj
      exact ((h00.add (h j hj j hj) (by norm_num) (by norm_num)).sub (h1.mono (by norm_num)) (by norm_num) (by norm_num)).sub (h2.mono (by norm_num)) (by norm_num) (by norm_num)
    have t0 := m (w d1 (by norm_num)) (w d2 (by norm_num))
    have t := m (w k1 (by norm_num)) (w k2 (by norm_num))
    rcases hn with rfl | rfl
    · rw [if_pos (rfl : (2 : Nat) = 2), if_pos (rfl : (2 : Nat) = 2)]
      have : i = 0 ∨ i = 1 := by omega
      rcases this with rfl | rfl
      · rw [if_pos (rfl : (0 : Nat) = 0), if_pos (rfl : (0 : Nat) = 0)]
        exact (((m' (w h01 (by norm_num)) (w h10 (by norm_num))).add t0 (by norm_num) (by norm_num)).sub (t.mono (by norm_num)) (by norm_num) (by norm_num)).sc
      · rw [if_neg (show ¬ (1 : Nat) = 0 by norm_num), if_neg (show ¬ (1 : Nat) = 0 by norm_num)]
        exact (m' (w (tr 1 (by omega)) (by norm_num)) (w h10 (by norm_num))).sc
    · rw [if_neg (show ¬ (3 : Nat) = 2 by norm_num), if_neg (show ¬ (3 : Nat) = 2 by norm_num)]
      have h20 := w (h 2 (by omega) 0 (by omega)) (by norm_num)
      have : i = 0 ∨ i = 1 ∨ i = 2 := by omega
      rcases this with rfl | rfl | rfl
      · rw [if_pos (rfl : (0 : Nat) = 0), if_pos (rfl : (0 : Nat) = 0)]
        exact (((t0.sub t (by norm_num) (by norm_num)).add ((m (w h01 (by norm_num)) (w h10 (by norm_num))).mono (by norm_num)) (by norm_num) (by norm_num)).add
          ((m (w (h 0 (by omega) 2 (by omega)) (by norm_num)) h20).mono (by norm_num)) (by norm_num) (by norm_num)).sc
      · rw [if_neg (show ¬ (1 : Nat) = 0 by norm_num), if_pos (rfl : (1 : Nat) = 1), if_neg (show ¬ (1 : Nat) = 0 by norm_num), if_pos (rfl : (1 : Nat) = 1)]
        exact ((m' (w (tr 1 (by omega)) (by norm_num)) (w h10 (by norm_num))).add (m (w (h 1 (by omega) 2 (by omega)) (by norm_num)) h20) (by norm_num) (by norm_num)).sc
      · rw [if_neg (show ¬ (2 : Nat) = 0 by norm_num), if_neg (show ¬ (2 : Nat) = 1 by norm_num), if_neg (show ¬ (2 : Nat) = 0 by norm_num), if_neg (show ¬ (2 : Nat) = 1 by norm_num)]
        exact ((m' (w (tr 2 (by omega)) (by norm_num)) h20).add (m' (w (h 2 (by omega) 1 (by omega)) (by norm_num)) (w h10 (by norm_num))) (by norm_num) (by norm_num)).sc

/-- **C119.** Multiplying `H` and both shifts by a power of two multiplies the vector of `dlaqr1` by the same power, on binary64 without any further rounding error, as long as
all the arguments of both calls are zero or between `2^-200` and `2^200` in magnitude.  The shifts may be any complex numbers. -/
theorem C119_dlaqr1 (n : Nat) (hn : n = 2 ∨ n = 3) (k : ℤ) (h h' : List Float) (ldh : Nat) (sh : Stored h ldh n n) (sh' : Stored h' ldh n n)
    (hm : ∀ i < n, ∀ j < n, Medium200 (entry h ldh i j) ∧ Medium200 (entry h' ldh i j) ∧ toR (entry h' ldh i j) = toR (entry h ldh i j) * 2 ^ k)
    (sr1 si1 sr2 si2 sr1' si1' sr2' si2' : Float)
    (hr1 : Medium200 sr1 ∧ Medium200 sr1' ∧ toR sr1' = toR sr1 * 2 ^ k) (hi1 : Medium200 si1 ∧ Medium200 si1' ∧ toR si1' = toR si1 * 2 ^ k)
    (hr2 : Medium200 sr2 ∧ Medium200 sr2' ∧ toR sr2' = toR sr2 * 2 ^ k) (hi2 : Medium200 si2 ∧ Medium200 si2' ∧ toR si2' = toR si2 * 2 ^ k)
    (v v' : List Float) (hv : n ≤ v.length) (hv' : n ≤ v'.length) :
    ∃ r r' : List Float, dlaqr1 (n : Int) h ldh sr1 si1 sr2 si2 v = pure r ∧ dlaqr1 (n : Int) h' ldh sr1' si1' sr2' si2' v' = pure r' ∧
      ∀ i < n, ∃ x y, r[i]? = some x ∧ r'[i]? = some y ∧ x.isFinite = true ∧ y.isFinite = true ∧ toR y = toR x * 2 ^ k := by
  have mk : ∀ {x x' : Float}, Medium200 x ∧ Medium200 x' ∧ toR x' = toR x * 2 ^ k → Ws k 200 x x' := fun h => ⟨⟨h.1.1, h.2.1.1, h.2.2⟩, Wd.of h.1, Wd.of h.2.1⟩
  obtain ⟨r, e1, -, hr, -⟩ := dlaqr1_ok n hn h ldh sh sr1 si1 sr2 si2 v
  obtain ⟨r', e2, -, hr', -⟩ := dlaqr1_ok n hn h' ldh sh' sr1' si1' sr2' si2' v'
  refine ⟨r, r', e1, e2, fun i hi => ⟨_, _, hr i hi (by omega), hr' i hi (by omega), ?_⟩⟩
  have s := laqr1Val_scale n hn _ _ k (fun i hi j hj => mk (hm i hi j hj)) (mk hr1) (mk hi1) (mk hr2) (mk hi2) i hi
  exact ⟨s.fx, s.fy, s.eq⟩

/-- A case with rounding and a factor `8`. -/
theorem C119_example (pr : Profile) :
    ((dlaqr1 (F := Float) 3 ([0.1, 0.7, 0.3, 1, 2, 3, 5, 6, 7] : List Float) 3 0.2 0.9 0.2 (-0.9) ([0, 0, 0] : List Float) pr).val?.map fun r => r.map (· * 8)) =
      (dlaqr1 (F := Float) 3 (([0.1, 0.7, 0.3, 1, 2, 3, 5, 6, 7] : List Float).map (· * 8)) 3 (0.2 * 8) (0.9 * 8) (0.2 * 8) (-0.9 * 8) ([0, 0, 0] : List Float) pr).val? := by
  cases pr <;> decide +kernel

theorem medium200_of {x : Float} (h : ((Float.ofBits 0x3370000000000000) ≤ x.abs ∧ x.abs ≤ (Float.ofBits 0x4C70000000000000) : Prop) ∧ x.isFinite = true) : Medium200 x := by
  obtain ⟨f1, e1⟩ := toR_of (x := Float.ofBits 0x3370000000000000) (show up (Float.ofBits 0x3370000000000000) = .finite .positive (2 ^ 52) (-252) (by norm_num) from rfl)
  obtain ⟨f2, e2⟩ := toR_of (x := Float.ofBits 0x4C70000000000000) (show up (Float.ofBits 0x4C70000000000000) = .finite .positive (2 ^ 52) 148 (by norm_num) from rfl)
  rw [pow52_mul] at e1 e2
  have fa : x.abs.isFinite = true := by rw [abs_finite]; exact h.2
  have a := (F64.le_iff f1 fa).1 h.1.1
  have b := (F64.le_iff fa f2).1 h.1.2
  rw [e1, abs_toR] at a
  rw [e2, abs_toR] at b
  simp only [sgnR, one_mul] at a b
  exact ⟨h.2, Or.inr (by rwa [show (-252 + 52 : ℤ) = -200 by norm_num] at a), by rwa [show (148 + 52 : ℤ) = 200 by norm_num] at b⟩

/-- The arguments of that case meet the hypotheses of `C119_dlaqr1` with `k = 3`. -/
theorem C119_meets : ∀ x ∈ ([0.1, 0.7, 0.3, 1, 2, 3, 5, 6, 7, 0.2, 0.9, -0.9] : List Float), Medium200 x ∧ Medium200 (x * 8) ∧ toR (x * 8) = toR x * 2 ^ (3 : ℤ) := by
  have e8 : toR (8 : Float) = 2 ^ (3 : ℤ) := by
    obtain ⟨-, h⟩ := toR_of (x := 8) (show up (8 : Float) = .finite .positive (2 ^ 52) (-49) (by norm_num) from rfl)
    rw [h, pow52_mul]; norm_num [sgnR]
  have key : ∀ x ∈ ([0.1, 0.7, 0.3, 1, 2, 3, 5, 6, 7, 0.2, 0.9, -0.9] : List Float),
      (((Float.ofBits 0x3370000000000000) ≤ x.abs ∧ x.abs ≤ (Float.ofBits 0x4C70000000000000)) ∧ x.isFinite = true) ∧
      (((Float.ofBits 0x3370000000000000) ≤ (x * 8).abs ∧ (x * 8).abs ≤ (Float.ofBits 0x4C70000000000000)) ∧ (x * 8).isFinite = true) := by decide +kernel
  intro x hx
  obtain ⟨a, b⟩ := key x hx
  exact ⟨medium200_of a, medium200_of b, (mul_pow_two a.2 e8 (Or.inl (by norm_num)) b.2).eq⟩

/-- With a factor that is no power of two the vector of the scaled arguments is not the scaled vector. -/
theorem C119_three (pr : Profile) :
    ((dlaqr1 (F := Float) 2 ([0.1, 0.7, 1, 2] : List Float) 2 0.2 0.9 0.2 (-0.9) ([0, 0] : List Float) pr).val?.map fun r => r.map (· * 3)) ≠
      (dlaqr1 (F := Float) 2 (([0.1, 0.7, 1, 2] : List Float).map (· * 3)) 2 (0.2 * 3) (0.9 * 3) (0.2 * 3) (-0.9 * 3) ([0, 0] : List Float) pr).val? := by
  cases pr <;> decide +kernel

end Verif

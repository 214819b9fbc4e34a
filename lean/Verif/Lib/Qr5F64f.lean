import Verif.Lib.Qr5F64e

/-!
# The reflectors of `dlaqr5` on binary64
-/

namespace Verif
open F64 Scalar Spec Matrix

/-- A reflector has been built from column `k` of `G` and the column has been stored. -/
structure Built (r c ldv cv : Nat) (rest : List Float) (kt kb k : ℤ) (G : ℤ → ℤ → Float) (h' v' : FA Float) (beta : Float) (β : ℝ) (v2 v3 t : Float)
    (V2 V3 θ : ℝ) : Prop where
  arr : Is2 h' r c (r * c) (col5 kt kb k beta G)
  vm : V5F ldv cv rest v' t v2 v3
  near : NearR kb (k + 1) v2 v3 t V2 V3 θ
  refl : Refl V2 V3 θ
  head : kt ≤ k → HeadF (toR (G (k + 1) k)) (toR (G (k + 2) k)) (if k + 3 ≤ kb then toR (G (k + 3) k) else 0) beta β V2 V3 θ

/-- The shifts. -/
structure Shift5 (s : Qr5S Float) (a1 b1 a2 b2 : Float) (M : ℝ) : Prop where
  sr1 : s.sr.get1 1 = a1
  si1 : s.si.get1 1 = b1
  sr2 : s.sr.get1 2 = a2
  si2 : s.si.get1 2 = b2
  f1 : a1.isFinite = true
  f2 : b1.isFinite = true
  f3 : a2.isFinite = true
  f4 : b2.isFinite = true
  hM : |toR a1| + |toR b1| + |toR a2| + |toR b2| ≤ M

/-- How well the first reflector fits the shifts. -/
structure Start5F (kt kb : ℤ) (H : ℤ → ℤ → ℝ) (a1 b1 a2 b2 P : ℝ) (V2 V3 θ : ℝ) (t v3 : Float) : Prop where
  first : ∃ γ, ∀ a, |γ * houseR kt V2 V3 θ idT a kt - startX kt kb H a1 b1 a2 b2 a| ≤ 30 * (ur * P ^ 2) + 5 * (mu * P)
  third : kt + 2 ≤ kb → ∃ x y w, Third x y w t v3 V3 ∧ |x| ≤ 3 * P + mu ∧ |y| ≤ 3 * P + mu ∧ |w| ≤ 3 * P + mu ∧
    |H (kt + 1) kt| * |H (kt + 2) (kt + 1)| ≤ 11 / 5 * P * (|w| + 101 / 100 * (eta * (4 + 4 * P)))

section
variable {p : Qr5P Float} {r c ldv cv : Nat} {rest : List Float} {lo hi k : ℤ} {g : ℤ → ℤ → Float} {v2 v3 t a1 b1 a2 b2 : Float} {sm N M : ℝ} {s : Qr5S Float}

/-- The three-element reflector of a later step. -/
theorem refl3_F (hd : Dim5F p r c ldv lo hi sm) (hm : Is2 s.h r c (r * c) g) (hv : V5F ldv cv rest s.v t v2 v3) (k1 : p.ktop ≤ k) (k3 : k + 3 ≤ p.kbot)
    (hG : ∀ a, k + 1 ≤ a → a ≤ k + 3 → Bn (late5 k v2 v3 t g a k) big) (hne : toR (late5 k v2 v3 t g (k + 3) k) ≠ 0) :
    ∃ h' v' beta β v2' v3' t' V2 V3 θ, qr5Refl3 p k 1 s = pure (h', v', s.vt) ∧
      Built r c ldv cv rest p.ktop p.kbot k (late5 k v2 v3 t g) h' v' beta β v2' v3' t' V2 V3 θ ∧
      Third (toR (late5 k v2 v3 t g (k + 1) k)) (toR (late5 k v2 v3 t g (k + 2) k)) (toR (late5 k v2 v3 t g (k + 3) k)) t' v3' V3 := by
  have l1 := hd.lok; have l2 := hd.hik
  obtain ⟨h1, h2, h3, q0, q1, q2, q3, i1⟩ := row_code (v2 := v2) (v3 := v3) (t := t) hd.fits hm (k := k) (by omega) (by omega)
  set G := late5 k v2 v3 t g with hGd
  obtain ⟨va, ea, ka⟩ := hv.set2 (G (k + 2) k)
  obtain ⟨vb, eb, kb⟩ := ka.set3 (G (k + 3) k)
  obtain ⟨f1, c1⟩ := hG (k + 1) (by omega) (by omega)
  obtain ⟨f2, c2⟩ := hG (k + 2) (by omega) (by omega)
  obtain ⟨f3, c3⟩ := hG (k + 3) (by omega) (by omega)
  obtain ⟨beta, v2', v3', t', β, V2, V3, θ, v', e3, k5, hn, hh, ht⟩ := larfg5_near kb (i := p.kbot) (k := k + 1) (by omega) f1 f2 (fun _ => f3) c1 c2 (fun _ => c3)
  rw [show min 3 (p.kbot - (k + 1) + 1) = 3 by omega] at e3
  rw [if_pos (by omega)] at hh
  obtain ⟨ha1, ha2, ha3, s1, s2, s3, i2⟩ := store3_code hd.fits i1 l1 k1 k3 l2 beta
  refine ⟨ha3, v', beta, β, v2', v3', t', V2, V3, θ, ?_, ⟨i2, k5, hn, hh.refl, fun _ => by rw [if_pos k3]; exact hh⟩, ht (by omega)⟩
  have gt : ∀ a b, lo ≤ a → a ≤ hi → lo ≤ b → b ≤ hi → h3.get2 a b = pure (G a b) := fun a b a1 a2 b1 b2 =>
    get2_is2 i1 (hd.fits.cell a1 a2 b1 b2) hd.fits.size
  have tn : (G (k + 3) k ≠ᶠ Scalar.zero) = true := by
    by_contra hc
    apply hne
    have hb : (G (k + 3) k =ᶠ (Scalar.zero : Float)) = true := by
      cases hq : (G (k + 3) k =ᶠ (Scalar.zero : Float)) with
      | true => rfl
      | false => simp [hq] at hc
    exact (eq_toR toR_zero.1 hb).2.trans toR_zero.2
  unfold qr5Refl3
  rw [if_neg (by omega)]
  obtain ⟨w1, w2, w3⟩ := hv.get
  simp only [w1, w2, w3, pure_bind, q0, q1, q2, q3]
  rw [gt (k + 1) k (by omega) (by omega) (by omega) (by omega), gt (k + 2) k (by omega) (by omega) (by omega) (by omega),
    gt (k + 3) k (by omega) (by omega) (by omega) (by omega), gt (k + 3) (k + 1) (by omega) (by omega) (by omega) (by omega),
    gt (k + 3) (k + 2) (by omega) (by omega) (by omega) (by omega)]
  simp only [pure_bind, ea, eb, hd.lv, e3, tn, Bool.true_or, if_true, s1, s2, s3]

/-- The two-element reflector of the last step. -/
theorem refl2_F (hd : Dim5F p r c ldv lo hi sm) (hm : Is2 s.h r c (r * c) g) (hv : V5F ldv cv rest s.v t v2 v3) (k1 : p.ktop ≤ k) (k3 : k + 2 = p.kbot)
    (hG : ∀ a, k + 1 ≤ a → a ≤ k + 2 → Bn (g a k) big) :
    ∃ h' v' beta β v2' v3' t' V2 V3 θ, qr5Bmp22Refl p k 1 s = pure (h', v') ∧
      Built r c ldv cv rest p.ktop p.kbot k g h' v' beta β v2' v3' t' V2 V3 θ := by
  have l1 := hd.lok; have l2 := hd.hik
  obtain ⟨va, ea, ka⟩ := hv.set2 (g (k + 2) k)
  obtain ⟨f1, c1⟩ := hG (k + 1) (by omega) (by omega)
  obtain ⟨f2, c2⟩ := hG (k + 2) (by omega) (by omega)
  obtain ⟨beta, v2', v3', t', β, V2, V3, θ, v', e3, k5, hn, hh, ht⟩ := larfg5_near ka (i := p.kbot) (k := k + 1) (by omega) f1 f2 (fun _ => by omega) c1 c2 (fun _ => by omega)
  rw [show min 3 (p.kbot - (k + 1) + 1) = 2 by omega] at e3
  rw [if_neg (by omega)] at hh
  obtain ⟨ha1, ha2, s1, s2, i2⟩ := store2_code hd.fits hm l1 k1 k3 l2 beta
  refine ⟨ha2, v', beta, β, v2', v3', t', V2, V3, θ, ?_, ⟨i2, k5, hn, hh.refl, fun _ => by rw [if_neg (by omega)]; exact hh⟩⟩
  unfold qr5Bmp22Refl
  rw [if_neg (by omega)]
  rw [get2_is2 hm (hd.fits.cell (a := k + 1) (b := k) (by omega) (by omega) (by omega) (by omega)) hd.fits.size,
    get2_is2 hm (hd.fits.cell (a := k + 2) (b := k) (by omega) (by omega) (by omega) (by omega)) hd.fits.size]
  simp only [pure_bind, ea, hd.lv, e3, s1, s2]

theorem first_combine {kt kb : ℤ} {H : ℤ → ℤ → ℝ} {α1 β1 α2 β2 σ P x y w β V2 V3 θ : ℝ} {beta : Float} (hh : HeadF x y w beta β V2 V3 θ) (σ0 : 0 < σ)
    (σP : σ ≤ 21 / 10 * P) (h0 : ∀ a, |σ * (if a = kt then x else if a = kt + 1 then y else if a = kt + 2 then w else 0) - startX kt kb H α1 β1 α2 β2 a| ≤
      29 * (ur * P ^ 2) + 9 * (eta * P)) (a : ℤ) :
    |(σ * β) * houseR kt V2 V3 θ idT a kt - startX kt kb H α1 β1 α2 β2 a| ≤ 30 * (ur * P ^ 2) + 5 * (mu * P) := by
  have e0 := eta_pos
  have u0 := ur_pos
  have mu0 := mu_pos
  have P0 : 0 ≤ P := by linarith
  have emu : 9 * eta ≤ 1 / 10 * mu := by
    unfold eta mu
    rw [show (9 : ℝ) * (1 / 2 ^ 1075) = 9 / 2 ^ 24 * (1 / 2 ^ 1051) by rw [show (1075 : ℕ) = 24 + 1051 by norm_num, pow_add]; ring]
    have : (0 : ℝ) < 1 / 2 ^ 1051 := by positivity
    generalize (1 : ℝ) / 2 ^ 1051 = q at *
    norm_num
    linarith
  have h1 := first_near (kt := kt) hh a
  have h2 := h0 a
  set z := (if a = kt then x else if a = kt + 1 then y else if a = kt + 2 then w else 0) with hz
  have e : (σ * β) * houseR kt V2 V3 θ idT a kt - startX kt kb H α1 β1 α2 β2 a =
      σ * (β * houseR kt V2 V3 θ idT a kt - z) + (σ * z - startX kt kb H α1 β1 α2 β2 a) := by ring
  rw [e]
  refine (abs_add_le _ _).trans ?_
  rw [abs_mul, abs_of_pos σ0]
  have h3 : σ * |β * houseR kt V2 V3 θ idT a kt - z| ≤ 21 / 10 * P * (2 * mu) := mul_le_mul σP h1 (abs_nonneg _) (by linarith)
  have h4 : 0 ≤ ur * P ^ 2 := mul_nonneg u0.le (sq_nonneg _)
  have h5 : 9 * eta * P ≤ 1 / 10 * mu * P := mul_le_mul_of_nonneg_right emu P0
  have h6 : 0 ≤ mu * P := mul_nonneg mu0.le P0
  linarith

/-- The first reflector, three elements. -/
theorem start3_F (hd : Dim5F p r c ldv lo hi sm) (hm : Is2 s.h r c (r * c) g) (hv : V5F ldv cv rest s.v t v2 v3) (hs : Shift5 s a1 b1 a2 b2 M)
    (k1 : k = p.ktop - 1) (k3 : p.ktop + 2 ≤ p.kbot) (hG : ∀ a b, p.ktop ≤ a → a ≤ p.ktop + 2 → p.ktop ≤ b → b ≤ p.ktop + 2 → Bn (g a b) N)
    (M0 : 0 ≤ M) (hP : 8 * (N + M) ≤ big) (h31 : toR (g (p.ktop + 2) p.ktop) = 0) (h21 : toR (g (p.ktop + 1) p.ktop) ≠ 0) :
    ∃ v' beta β v2' v3' t' V2 V3 θ, qr5Refl3 p k 1 s = pure (s.h, v', s.vt) ∧
      Built r c ldv cv rest p.ktop p.kbot k g s.h v' beta β v2' v3' t' V2 V3 θ ∧
      Start5F p.ktop p.kbot (fun a b => toR (g a b)) (toR a1) (toR b1) (toR a2) (toR b2) (N + M) V2 V3 θ t' v3' := by
  have l1 := hd.lok; have l2 := hd.hik; have f1 := hd.fits.lo1; have f2 := hd.fits.hir; have f3 := hd.fits.hic
  have B1 : (2 : ℝ) ≤ big := by
    unfold big
    calc (2 : ℝ) = 2 ^ 1 := by norm_num
      _ ≤ 2 ^ 1000 := pow_le_pow_right₀ (by norm_num) (by norm_num)
  have mu1 : mu ≤ 1 := by
    unfold mu
    rw [div_le_one (by positivity)]
    exact one_le_pow₀ (by norm_num)
  obtain ⟨src, e1, hst, hent⟩ := from2_block hm hd.fits.size (k := p.ktop) (n := 3) (by omega) (by norm_num) (by omega) (by omega)
  have N0 : 0 ≤ N := (abs_nonneg _).trans (hG p.ktop p.ktop (by omega) (by omega) (by omega) (by omega)).2
  have ent : ∀ i j : Nat, i < 3 → j < 3 → entry src r i j = g (p.ktop + i) (p.ktop + j) := fun i j hi hj => hent i j (by omega) (by omega)
  obtain ⟨σ, σ0, σP, hw, hlow⟩ := laqr1_near5 3 (Or.inr rfl) (entry src r) a1 b1 a2 b2 M0
    (fun i hi j hj => by rw [ent i j hi hj]; exact hG _ _ (by omega) (by omega) (by omega) (by omega)) hs.f1 hs.f2 hs.f3 hs.f4 hs.hM (by linarith)
    (by rw [ent 1 0 (by norm_num) (by norm_num)]; push_cast; rw [add_zero]; exact h21)
    (fun _ => by rw [ent 2 0 (by norm_num) (by norm_num)]; push_cast; rw [add_zero]; exact h31)
  obtain ⟨v1, f4, f5, f6, f7⟩ := dlaqr1_ok (F := Float) 3 (Or.inr rfl) src r hst a1 b1 a2 b2 (t :: v2 :: v3 :: rest)
  push_cast at f4
  obtain ⟨xf, hx⟩ : ∃ xf, laqr1Val 3 (entry src r) a1 b1 a2 b2 0 = xf := ⟨_, rfl⟩
  obtain ⟨yf, hy⟩ : ∃ yf, laqr1Val 3 (entry src r) a1 b1 a2 b2 1 = yf := ⟨_, rfl⟩
  obtain ⟨wf, hwf⟩ : ∃ wf, laqr1Val 3 (entry src r) a1 b1 a2 b2 2 = wf := ⟨_, rfl⟩
  have hv1 : v1 = xf :: yf :: wf :: rest := by
    apply List.ext_getElem?
    intro i
    by_cases hi3 : i < 3
    · rw [f6 i hi3 (by simp; omega)]
      interval_cases i
      · rw [hx]; rfl
      · rw [hy]; rfl
      · rw [hwf]; rfl
    · rw [f7 i (by omega)]
      obtain ⟨j, rfl⟩ : ∃ j, i = j + 3 := ⟨i - 3, by omega⟩
      simp
  subst hv1
  obtain ⟨v2f, e2, k2⟩ := hv.of_list xf yf wf (faOfVec (xf :: yf :: wf :: rest)) rfl
  obtain ⟨x1, x2, x3⟩ := hw 0 (by norm_num)
  obtain ⟨y1, y2, y3⟩ := hw 1 (by norm_num)
  obtain ⟨w1, w2, w3⟩ := hw 2 (by norm_num)
  have hl := hlow rfl
  rw [hx] at x1 x2 x3
  rw [hy] at y1 y2 y3
  rw [hwf] at w1 w2 w3 hl
  obtain ⟨beta, v2', v3', t', β, V2, V3, θ, v', e3, k5, hn, hh, ht⟩ := larfg5_near k2 (i := p.kbot) (k := p.ktop) (by omega) x1 y1 (fun _ => w1)
    (by linarith) (by linarith) (fun _ => by linarith)
  rw [show min 3 (p.kbot - p.ktop + 1) = 3 by omega] at e3
  rw [if_pos k3] at hh
  rw [ent 1 0 (by norm_num) (by norm_num), ent 2 1 (by norm_num) (by norm_num)] at hl
  push_cast at hl
  rw [add_zero] at hl
  refine ⟨v', beta, β, v2', v3', t', V2, V3, θ, ?_, ⟨?_, k5, ?_, hh.refl, fun h => by omega⟩, ⟨⟨σ * β, ?_⟩, fun _ => ⟨_, _, _, ht k3, x2, y2, w2, hl⟩⟩⟩
  · unfold qr5Refl3
    rw [if_pos k1, e1, hv.from1]
    rw [show (2 : ℤ) * 1 - 1 = 1 by norm_num, show (2 : ℤ) * 1 = 2 by norm_num, hs.sr1, hs.si1, hs.sr2, hs.si2, hd.ldh, hd.lv]
    have e4 : ToFA.toFa2d (F := Float) (xf :: yf :: wf :: rest) (ldv : ℤ) = pure v2f := e2
    simp only [pure_bind, f4, e4, k2.get.1, e3]
  · rw [col5_start (by omega)]
    exact hm
  · rw [show k + 1 = p.ktop by omega]
    exact hn
  · refine first_combine hh σ0 σP fun a => ?_
    have g0 : 0 ≤ 29 * (ur * (N + M) ^ 2) + 9 * (eta * (N + M)) := by
      have := mul_nonneg ur_pos.le (sq_nonneg (N + M))
      have := mul_nonneg eta_pos.le (show 0 ≤ N + M by linarith)
      linarith
    unfold startV at x3 y3 w3
    rw [if_pos rfl] at x3
    rw [if_neg (by norm_num), if_pos rfl] at y3
    rw [if_neg (by norm_num), if_neg (by norm_num)] at w3
    simp only [ent 0 0 (by norm_num) (by norm_num), ent 0 1 (by norm_num) (by norm_num), ent 1 0 (by norm_num) (by norm_num),
      ent 1 1 (by norm_num) (by norm_num), ent 2 1 (by norm_num) (by norm_num)] at x3 y3 w3
    push_cast at x3 y3 w3
    simp only [add_zero] at x3 y3 w3
    unfold startX
    by_cases c1 : a = p.ktop
    · rw [if_pos c1, if_pos c1]; exact x3
    · rw [if_neg c1, if_neg c1]
      by_cases c2 : a = p.ktop + 1
      · rw [if_pos c2, if_pos c2]; exact y3
      · rw [if_neg c2, if_neg c2]
        by_cases c3 : a = p.ktop + 2
        · rw [if_pos c3, if_pos ⟨c3, k3⟩]; exact w3
        · rw [if_neg c3, if_neg (by tauto), mul_zero, sub_zero, abs_zero]; exact g0

/-- The first reflector, two elements. -/
theorem start2_F (hd : Dim5F p r c ldv lo hi sm) (hm : Is2 s.h r c (r * c) g) (hv : V5F ldv cv rest s.v t v2 v3) (hs : Shift5 s a1 b1 a2 b2 M)
    (k1 : k = p.ktop - 1) (k3 : p.ktop + 1 = p.kbot) (hG : ∀ a b, p.ktop ≤ a → a ≤ p.ktop + 1 → p.ktop ≤ b → b ≤ p.ktop + 1 → Bn (g a b) N)
    (M0 : 0 ≤ M) (hP : 8 * (N + M) ≤ big) (h21 : toR (g (p.ktop + 1) p.ktop) ≠ 0) :
    ∃ v' beta β v2' v3' t' V2 V3 θ, qr5Bmp22Refl p k 1 s = pure (s.h, v') ∧
      Built r c ldv cv rest p.ktop p.kbot k g s.h v' beta β v2' v3' t' V2 V3 θ ∧
      Start5F p.ktop p.kbot (fun a b => toR (g a b)) (toR a1) (toR b1) (toR a2) (toR b2) (N + M) V2 V3 θ t' v3' := by
  have l1 := hd.lok; have l2 := hd.hik; have f1 := hd.fits.lo1; have f2 := hd.fits.hir; have f3 := hd.fits.hic
  have B1 : (2 : ℝ) ≤ big := by
    unfold big
    calc (2 : ℝ) = 2 ^ 1 := by norm_num
      _ ≤ 2 ^ 1000 := pow_le_pow_right₀ (by norm_num) (by norm_num)
  have mu1 : mu ≤ 1 := by
    unfold mu
    rw [div_le_one (by positivity)]
    exact one_le_pow₀ (by norm_num)
  obtain ⟨src, e1, hst, hent⟩ := from2_block hm hd.fits.size (k := p.ktop) (n := 2) (by omega) (by norm_num) (by omega) (by omega)
  have N0 : 0 ≤ N := (abs_nonneg _).trans (hG p.ktop p.ktop (by omega) (by omega) (by omega) (by omega)).2
  have ent : ∀ i j : Nat, i < 2 → j < 2 → entry src r i j = g (p.ktop + i) (p.ktop + j) := fun i j hi hj => hent i j (by omega) (by omega)
  obtain ⟨σ, σ0, σP, hw, -⟩ := laqr1_near5 2 (Or.inl rfl) (entry src r) a1 b1 a2 b2 M0
    (fun i hi j hj => by rw [ent i j hi hj]; exact hG _ _ (by omega) (by omega) (by omega) (by omega)) hs.f1 hs.f2 hs.f3 hs.f4 hs.hM (by linarith)
    (by rw [ent 1 0 (by norm_num) (by norm_num)]; push_cast; rw [add_zero]; exact h21) (fun h => by omega)
  obtain ⟨v1, f4, f5, f6, f7⟩ := dlaqr1_ok (F := Float) 2 (Or.inl rfl) src r hst a1 b1 a2 b2 (t :: v2 :: v3 :: rest)
  push_cast at f4
  obtain ⟨xf, hx⟩ : ∃ xf, laqr1Val 2 (entry src r) a1 b1 a2 b2 0 = xf := ⟨_, rfl⟩
  obtain ⟨yf, hy⟩ : ∃ yf, laqr1Val 2 (entry src r) a1 b1 a2 b2 1 = yf := ⟨_, rfl⟩
  have hv1 : v1 = xf :: yf :: v3 :: rest := by
    apply List.ext_getElem?
    intro i
    by_cases hi3 : i < 2
    · rw [f6 i hi3 (by simp; omega)]
      interval_cases i
      · rw [hx]; rfl
      · rw [hy]; rfl
    · rw [f7 i (by omega)]
      obtain ⟨j, rfl⟩ : ∃ j, i = j + 2 := ⟨i - 2, by omega⟩
      simp
  subst hv1
  obtain ⟨v2f, e2, k2⟩ := hv.of_list xf yf v3 (faOfVec (xf :: yf :: v3 :: rest)) rfl
  obtain ⟨x1, x2, x3⟩ := hw 0 (by norm_num)
  obtain ⟨y1, y2, y3⟩ := hw 1 (by norm_num)
  rw [hx] at x1 x2 x3
  rw [hy] at y1 y2 y3
  obtain ⟨beta, v2', v3', t', β, V2, V3, θ, v', e3, k5, hn, hh, ht⟩ := larfg5_near k2 (i := p.kbot) (k := p.ktop) (by omega) x1 y1 (fun _ => by omega)
    (by linarith) (by linarith) (fun _ => by omega)
  rw [show min 3 (p.kbot - p.ktop + 1) = 2 by omega] at e3
  rw [if_neg (by omega)] at hh
  refine ⟨v', beta, β, v2', v3', t', V2, V3, θ, ?_, ⟨?_, k5, ?_, hh.refl, fun h => by omega⟩, ⟨⟨σ * β, ?_⟩, fun _ => by omega⟩⟩
  · unfold qr5Bmp22Refl
    rw [if_pos k1, show k + 1 = p.ktop by omega, e1, hv.from1]
    rw [show (2 : ℤ) * 1 - 1 = 1 by norm_num, show (2 : ℤ) * 1 = 2 by norm_num, hs.sr1, hs.si1, hs.sr2, hs.si2, hd.ldh, hd.lv]
    have e4 : ToFA.toFa2d (F := Float) (xf :: yf :: v3 :: rest) (ldv : ℤ) = pure v2f := e2
    simp only [pure_bind, f4, e4, k2.get.1, e3]
  · rw [col5_start (by omega)]
    exact hm
  · rw [show k + 1 = p.ktop by omega]
    exact hn
  · refine first_combine hh σ0 σP fun a => ?_
    have g0 : 0 ≤ 29 * (ur * (N + M) ^ 2) + 9 * (eta * (N + M)) := by
      have := mul_nonneg ur_pos.le (sq_nonneg (N + M))
      have := mul_nonneg eta_pos.le (show 0 ≤ N + M by linarith)
      linarith
    unfold startV at x3 y3
    rw [if_pos rfl] at x3
    rw [if_neg (by norm_num), if_pos rfl] at y3
    simp only [ent 0 0 (by norm_num) (by norm_num), ent 0 1 (by norm_num) (by norm_num), ent 1 0 (by norm_num) (by norm_num),
      ent 1 1 (by norm_num) (by norm_num)] at x3 y3
    push_cast at x3 y3
    simp only [add_zero] at x3 y3
    unfold startX
    by_cases c1 : a = p.ktop
    · rw [if_pos c1, if_pos c1]; exact x3
    · rw [if_neg c1, if_neg c1]
      by_cases c2 : a = p.ktop + 1
      · rw [if_pos c2, if_pos c2]; exact y3
      · rw [if_neg c2, if_neg c2, ite_self, if_neg (show ¬ (a = p.ktop + 2 ∧ p.ktop + 2 ≤ p.kbot) by omega), mul_zero, sub_zero, abs_zero]; exact g0

end

end Verif

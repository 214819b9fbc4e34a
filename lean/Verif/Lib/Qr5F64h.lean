import Verif.Lib.Qr5F64g

/-!
# The chase of `dlaqr5` on binary64
-/

namespace Verif
open F64 Scalar Spec Matrix

section
variable {lo hi kt kb k : ℤ} {H : ℤ → ℤ → ℝ} {sm ε D B P m ρ : ℝ}

theorem NC5.ρ0 (h : NC5 kt kb H P m ρ) : 0 < ρ := by
  have h1 := h.m0
  rw [h.mP] at h1
  have h2 := h.P1
  by_contra hc
  push Not at hc
  have : 16 * P * ρ ≤ 0 := mul_nonpos_of_nonneg_of_nonpos (by linarith) hc
  linarith

theorem NC5.pow (h : NC5 kt kb H P m ρ) {j : ℕ} (hj : j ≤ (kb - kt).toNat) : 1 / 2 ^ 1000 ≤ ρ ^ j :=
  h.pw.trans (pow_le_pow_of_le_one h.ρ0.le h.ρ1 hj)

theorem eta_1000 : 2 ^ 40 * eta ≤ 1 / 2 ^ 1000 ∧ 2 ^ 40 * mu ≤ 1 / 2 ^ 1000 := by
  have h : (0 : ℝ) < 1 / 2 ^ 1000 := by positivity
  unfold eta mu
  rw [show (1075 : ℕ) = 75 + 1000 by norm_num, show (1051 : ℕ) = 51 + 1000 by norm_num, pow_add, pow_add]
  constructor
  · rw [show (2 : ℝ) ^ 40 * (1 / (2 ^ 75 * 2 ^ 1000)) = 2 ^ 40 / 2 ^ 75 * (1 / 2 ^ 1000) by ring]
    generalize (1 : ℝ) / 2 ^ 1000 = q at *
    norm_num
    linarith
  · rw [show (2 : ℝ) ^ 40 * (1 / (2 ^ 51 * 2 ^ 1000)) = 2 ^ 40 / 2 ^ 51 * (1 / 2 ^ 1000) by ring]
    generalize (1 : ℝ) / 2 ^ 1000 = q at *
    norm_num
    linarith

/-- The third element of a reflector is not too small. -/
theorem third_low {x y w V3 M L : ℝ} {t v3 : Float} (h : Third x y w t v3 V3) (hx : |x| ≤ M) (hy : |y| ≤ M) (hw : |w| ≤ M) (hmu : mu < L) (hL : L ≤ |w|)
    (hM : 0 < M) (he : 16 * eta * M ≤ L) : 1 ≤ toR t ∧ L ≤ 4 * M * |toR v3| := by
  obtain ⟨h1, h2, h3⟩ := h (hmu.trans_le hL)
  refine ⟨h1, ?_⟩
  have h4 := h3 M hx hy hw
  have us := ur_small
  have e0 := eta_pos
  have mu0 := mu_pos
  have h5 := abs_sub_abs_le_abs_sub V3 (toR v3)
  rw [abs_sub_comm] at h5
  have h6 : 66 * ur * |V3| ≤ 1 / 100 * |V3| := mul_le_mul_of_nonneg_right (by linarith) (abs_nonneg _)
  have h7 : 99 / 100 * |V3| ≤ |toR v3| + eta := by linarith
  have h8 : M * (99 / 100 * |V3|) ≤ M * (|toR v3| + eta) := mul_le_mul_of_nonneg_left h7 hM.le
  have e1 : M * (99 / 100 * |V3|) = 33 / 100 * (3 * M * |V3|) := by ring
  have e2 : M * (|toR v3| + eta) = M * |toR v3| + eta * M := by ring
  rw [e1, e2] at h8
  have e3 : 16 * eta * M = 16 * (eta * M) := by ring
  have e4 : 4 * M * |toR v3| = 4 * (M * |toR v3|) := by ring
  rw [e3] at he
  rw [e4]
  linarith

theorem Con5.entry (hC : Con5 lo hi kt kb H sm ε D B P m ρ) (hlt : kt < kb) {a b : ℤ} (a1 : lo ≤ a) (a2 : a ≤ hi) (b1 : lo ≤ b) (b2 : b ≤ hi) : |H a b| ≤ B := by
  refine (fro_entry (block lo hi H) ⟨a, Finset.mem_Icc.2 ⟨a1, a2⟩⟩ ⟨b, Finset.mem_Icc.2 ⟨b1, b2⟩⟩).trans ?_
  have h1 := hC.hB
  have h2 : 0 ≤ ((kb - kt : ℤ) : ℝ) * ε := mul_nonneg (by exact_mod_cast (by omega : (0 : ℤ) ≤ kb - kt)) hC.eps0
  have h3 := hC.D0
  linarith

theorem startX_congr {f g : ℤ → ℤ → ℝ} (hlt : kt < kb) (h : ∀ a b, kt ≤ a → a ≤ kb → kt ≤ b → b ≤ kt + 1 → f a b = g a b) (a1 b1 a2 b2 : ℝ) :
    startX kt kb f a1 b1 a2 b2 = startX kt kb g a1 b1 a2 b2 := by
  funext a
  unfold startX
  rw [h kt kt (by omega) (by omega) (by omega) (by omega), h kt (kt + 1) (by omega) (by omega) (by omega) (by omega),
    h (kt + 1) kt (by omega) (by omega) (by omega) (by omega), h (kt + 1) (kt + 1) (by omega) (by omega) (by omega) (by omega)]
  by_cases c : a = kt + 2 ∧ kt + 2 ≤ kb
  · rw [h (kt + 2) (kt + 1) (by omega) (by omega) (by omega) (by omega)]
  · rw [if_neg c, if_neg c]

section arr
variable {r c ldv cv : Nat} {rest : List Float} {g0 g : ℤ → ℤ → Float} {h v : FA Float} {T Zq : ℤ → ℤ → ℝ} {t v2 v3 : Float} {X : ℤ → ℝ} {E1 : ℝ}

/-- There is no row left over. -/
theorem ArrF.mid0 (hA : ArrF r c ldv cv rest lo hi kt kb k H ρ g0 h v T g t v2 v3) (hR : RealF lo hi kt kb H ε D X E1 k T Zq)
    (hC : Con5 lo hi kt kb H sm ε D B P m ρ) (hn : ¬ (kt ≤ k ∧ k + 3 ≤ kb)) : Mid5 lo hi kt kb k H ε D B g T Zq :=
  ⟨fun a b a1 a2 b1 b2 => ⟨hA.fin a b a1 a2 b1 b2, hA.on a b a1 a2 b1 b2 (by tauto)⟩, hR.shape, hR.sub, hR.track.mono (by have := hC.parts.1; linarith)⟩

/-- The row left over is completed. -/
theorem ArrF.midL (hA : ArrF r c ldv cv rest lo hi kt kb k H ρ g0 h v T g t v2 v3) (hR : RealF lo hi kt kb H ε D X E1 k T Zq)
    (hC : Con5 lo hi kt kb H sm ε D B P m ρ) (hlo : lo ≤ kt) (hhi : kb ≤ hi) (k1 : kt ≤ k) (k3 : k + 3 ≤ kb) :
    ∃ T1, Mid5 lo hi kt kb k H ε D B (late5 k v2 v3 t g) T1 Zq ∧
      (∀ a b, ¬ (lo ≤ a ∧ a ≤ hi ∧ lo ≤ b ∧ b ≤ hi) → late5 k v2 v3 t g a b = g0 a b) ∧
      ρ ^ (k - kt + 2).toNat * m / 4 ≤ |toR (late5 k v2 v3 t g (k + 3) k)| := by
  obtain ⟨V2, V3, θ, hN, hx, t1, t2, t3, l1, l2⟩ := hA.late k1 k3
  have hnc := hC.nc (by omega)
  have B0 := hC.B0
  have hBb : B ≤ big := by have := hC.hBb; linarith
  have hxB : |toR (g (k + 3) (k + 2))| ≤ B := by
    rw [hx]
    exact hC.entry (by omega) (by omega) (by omega) (by omega) (by omega)
  obtain ⟨T1, o1, s1, u1, f1⟩ := late_near hA.fin (fun a b a1 a2 b1 b2 hn => hA.on a b a1 a2 b1 b2 (by omega)) hlo hhi k1 k3 hN t1 t2 t3 hxB hBb hR.shape
  refine ⟨T1, ⟨o1, s1, fun j j1 j2 => (u1 j j1).trans (hR.sub j j1 j2), hR.track.perturb f1⟩, fun a b hab => ?_, ?_⟩
  · unfold late5
    rw [if_neg (by rintro ⟨rfl, rfl⟩; exact hab ⟨by omega, by omega, by omega, by omega⟩),
      if_neg (by rintro ⟨rfl, rfl⟩; exact hab ⟨by omega, by omega, by omega, by omega⟩),
      if_neg (by rintro ⟨rfl, rfl⟩; exact hab ⟨by omega, by omega, by omega, by omega⟩)]
    exact hA.out a b hab
  · have fx := hA.fin (k + 3) (k + 2) (by omega) (by omega) (by omega) (by omega)
    obtain ⟨fs, -, -⟩ := refsum_near B0 hBb (hN.n3 (by omega)) fx hxB
    have ff := (o1 (k + 3) k (by omega) (by omega) (by omega) (by omega)).1
    have e : late5 k v2 v3 t g (k + 3) k = -(v3 * g (k + 3) (k + 2)) * t := by
      unfold late5
      rw [if_pos ⟨rfl, rfl⟩]
    rw [e] at ff ⊢
    refine late_lower l2 l1 ?_ (pow_nonneg hnc.ρ0.le _) hnc.m0.le (hN.n3 (by omega)).fin hN.t1.fin fx fs ff ?_
    · rw [hx]
      have := hnc.low (k + 2) (by omega) (by omega)
      rwa [show k + 2 + 1 = k + 3 by ring] at this
    · have h1 := hnc.pow (j := (k - kt + 2).toNat + 1) (by omega)
      have h2 : ρ ^ (k - kt + 2).toNat * m = 16 * P * ρ ^ ((k - kt + 2).toNat + 1) := by
        rw [hnc.mP, pow_succ]
        ring
      rw [h2]
      have h3 : 16 * 1 * ρ ^ ((k - kt + 2).toNat + 1) ≤ 16 * P * ρ ^ ((k - kt + 2).toNat + 1) :=
        mul_le_mul_of_nonneg_right (by have := hnc.P1; linarith) (pow_nonneg hnc.ρ0.le _)
      have h4 := eta_1000.1
      have h5 := eta_pos
      generalize (1 : ℝ) / 2 ^ 1000 = q at *
      linarith

/-- The next reflector has a third element that is not too small. -/
theorem low_next {V3 x y : ℝ} {t' v3' : Float} {w : ℝ} (hC : Con5 lo hi kt kb H sm ε D B P m ρ) (k1 : kt ≤ k) (k4 : k + 4 ≤ kb) (hT : Third x y w t' v3' V3)
    (hx : |x| ≤ B) (hy : |y| ≤ B) (hw : |w| ≤ B) (hl : ρ ^ (k - kt + 2).toNat * m / 4 ≤ |w|) :
    ρ ^ (k + 1 - kt + 2).toNat ≤ |toR v3'| ∧ 1 ≤ toR t' := by
  have hnc := hC.nc (by omega)
  have ρ0 := hnc.ρ0
  have P1 := hnc.P1
  have he : (k + 1 - kt + 2).toNat = (k - kt + 2).toNat + 1 := by omega
  have h1 := hnc.pow (j := (k - kt + 2).toNat + 1) (by omega)
  have h2 : ρ ^ (k - kt + 2).toNat * m / 4 = 4 * P * ρ ^ ((k - kt + 2).toNat + 1) := by
    rw [hnc.mP, pow_succ]
    ring
  rw [h2] at hl
  rw [he]
  set L := ρ ^ ((k - kt + 2).toNat + 1) with hL
  have L0 : 0 ≤ L := pow_nonneg ρ0.le _
  have h3 : 4 * 1 * L ≤ 4 * P * L := mul_le_mul_of_nonneg_right (by linarith) L0
  obtain ⟨h4, h5⟩ := eta_1000
  have e0 := eta_pos
  have mu0 := mu_pos
  have hP := hC.hP
  have B0 := hC.B0
  have hwP : |w| ≤ P := hw.trans hP
  have h6 : eta * P ≤ L * P := mul_le_mul_of_nonneg_right (by generalize (1 : ℝ) / 2 ^ 1000 = q at *; linarith) (by linarith)
  obtain ⟨q1, q2⟩ := third_low hT (hx.trans hP) (hy.trans hP) hwP (L := 4 * P * L) (by generalize (1 : ℝ) / 2 ^ 1000 = q at *; linarith) hl (by linarith) (by
    have h7 : 2 ^ 40 * eta * P ≤ L * P := mul_le_mul_of_nonneg_right (by generalize (1 : ℝ) / 2 ^ 1000 = q at *; linarith) (by linarith)
    have h8 : 0 ≤ eta * P := mul_nonneg e0.le (by linarith)
    have e1 : (2 : ℝ) ^ 40 * eta * P = 2 ^ 40 * (eta * P) := by ring
    have e2 : 16 * eta * P = 16 * (eta * P) := by ring
    have e3 : 4 * P * L = 4 * (L * P) := by ring
    rw [e1] at h7
    rw [e2, e3]
    linarith)
  exact ⟨le_of_mul_le_mul_left q2 (by linarith), q1⟩

/-- The first reflector has a third element that is not too small. -/
theorem low_start {V3 x y w : ℝ} {t' v3' : Float} (hC : Con5 lo hi kt kb H sm ε D B P m ρ) (k4 : kt + 3 ≤ kb) (hT : Third x y w t' v3' V3)
    (hx : |x| ≤ 3 * P + mu) (hy : |y| ≤ 3 * P + mu) (hw : |w| ≤ 3 * P + mu)
    (hl : |H (kt + 1) kt| * |H (kt + 2) (kt + 1)| ≤ 11 / 5 * P * (|w| + 101 / 100 * (eta * (4 + 4 * P)))) :
    ρ ^ (kt - 1 + 1 - kt + 2).toNat ≤ |toR v3'| ∧ 1 ≤ toR t' := by
  have hnc := hC.nc (by omega)
  have ρ0 := hnc.ρ0
  have P1 := hnc.P1
  rw [show (kt - 1 + 1 - kt + 2).toNat = 2 by omega]
  have h1 := hnc.pow (j := 2) (by omega)
  obtain ⟨h4, h5⟩ := eta_1000
  have e0 := eta_pos
  have mu0 := mu_pos
  have l1 := hnc.low kt (by omega) (by omega)
  have l2 := hnc.low (kt + 1) (by omega) (by omega)
  rw [show kt + 1 + 1 = kt + 2 by ring] at l2
  have l3 : m * m ≤ |H (kt + 1) kt| * |H (kt + 2) (kt + 1)| := mul_le_mul l1 l2 hnc.m0.le (hnc.m0.le.trans l1)
  have e1 : m * m = 11 / 5 * P * (1280 / 11 * (P * ρ ^ 2)) := by rw [hnc.mP]; ring
  rw [e1] at l3
  have l4 : 1280 / 11 * (P * ρ ^ 2) ≤ |w| + 101 / 100 * (eta * (4 + 4 * P)) := le_of_mul_le_mul_left (l3.trans hl) (by linarith)
  set L := ρ ^ 2 with hL
  have h6 : 2 ^ 40 * eta ≤ L ∧ 2 ^ 40 * mu ≤ L := ⟨by linarith, by linarith⟩
  have h7 : 2 ^ 40 * eta * P ≤ L * P := mul_le_mul_of_nonneg_right h6.1 (by linarith)
  have h8 : 0 ≤ eta * P := mul_nonneg e0.le (by linarith)
  have h9 : eta * 1 ≤ eta * P := mul_le_mul_of_nonneg_left P1 e0.le
  have h10 : L * 1 ≤ L * P := mul_le_mul_of_nonneg_left P1 (sq_nonneg _)
  have e2 : (2 : ℝ) ^ 40 * eta * P = 2 ^ 40 * (eta * P) := by ring
  have e3 : eta * (4 + 4 * P) = 4 * eta + 4 * (eta * P) := by ring
  have e4 : P * L = L * P := by ring
  rw [e2] at h7
  rw [e3, e4] at l4
  have m1 : mu ≤ P := by
    unfold mu
    refine le_trans ?_ P1
    rw [div_le_one (by positivity)]
    exact one_le_pow₀ (by norm_num)
  obtain ⟨q1, q2⟩ := third_low hT (hx.trans (show 3 * P + mu ≤ 4 * P by linarith)) (hy.trans (by linarith)) (hw.trans (by linarith)) (L := 16 * (L * P))
    (by linarith) (by linarith) (by linarith) (by
    have : 16 * eta * (4 * P) = 64 * (eta * P) := by ring
    rw [this]
    linarith)
  have e5 : 16 * (L * P) = 16 * P * L := by ring
  have e6 : 4 * (4 * P) * |toR v3'| = 16 * P * |toR v3'| := by ring
  rw [e5, e6] at q2
  exact ⟨le_of_mul_le_mul_left q2 (by linarith), q1⟩

end arr

end

end Verif

import Verif.Lib.HqrF64e

/-!
# A whole bulge chase of `dlahqr` on binary64
-/

namespace Verif
open F64 Scalar Spec Matrix XR

/-- The order of the active block. -/
noncomputable def HqrP.nh {F : Type} (p : HqrP F) : ℝ := (((p.ihi - p.ilo + 1).toNat : ℕ) : ℝ)

/-- The error of one step. -/
noncomputable def HqrP.eps {F : Type} (p : HqrP F) (B : ℝ) : ℝ := 6000 * ur * B + 2 * p.nh * tiny

/-- The error of one step in a row of `z`. -/
noncomputable def epsz (C : ℝ) : ℝ := 2320 * ur * C + 24 * eta

/-- `N` steps keep the norms below `B` and `C`. -/
structure Bd (p : HqrP Float) (A : Matrix (Blk p.ilo p.ihi) (Blk p.ilo p.ihi) ℝ) (Z0 : ℤ → ℤ → ℝ) (B C : ℝ) (N : ℕ) : Prop where
  norm : fro A + N * p.eps B ≤ B
  lim : 2 ^ 20 * B ≤ big
  zn : p.wantz = true → ∀ a, p.iloz ≤ a → a ≤ p.ihiz → fro (colsM p.ilo p.ihi (fun (_ : Unit) => Z0 a)) + N * epsz C ≤ C
  zlim : C ≤ big
  b0 : 0 ≤ B
  c0 : 0 ≤ C
  nh2 : p.ilo + 1 ≤ p.ihi
  nh : (p.ihi - p.ilo + 1).toNat < 2 ^ 31

/-- What is known of the array `z`. -/
def ZF (p : HqrP Float) (rz cz : Nat) (zg0 : ℤ → ℤ → Float) (Z0 : ℤ → ℤ → ℝ) (δ : ℝ) (Q : Matrix (Blk p.ilo p.ihi) (Blk p.ilo p.ihi) ℝ)
    (z : FA Float) : Prop :=
  p.wantz = true → ∃ zg, Is2 z rz cz (rz * cz) zg ∧ (∀ a, p.iloz ≤ a → a ≤ p.ihiz → ZRow p.ilo p.ihi (zg a) (Z0 a) Q δ) ∧
    (∀ a b, ¬ (p.iloz ≤ a ∧ a ≤ p.ihiz ∧ p.ilo ≤ b ∧ b ≤ p.ihi) → zg a b = zg0 a b)

section
variable {p : HqrP Float} {r c rz cz : Nat} {A Q : Matrix (Blk p.ilo p.ihi) (Blk p.ilo p.ihi) ℝ} {Z0 : ℤ → ℤ → ℝ} {zg0 : ℤ → ℤ → Float}
  {B C : ℝ} {N : ℕ}

theorem mu_le_tiny : 120 * eta + 3 * mu ≤ tiny := by
  unfold eta mu tiny
  have e1 : (2 : ℝ) ^ 1075 = 2 ^ 969 * 2 ^ 106 := by rw [← pow_add]
  have e2 : (2 : ℝ) ^ 1051 = 2 ^ 969 * 2 ^ 82 := by rw [← pow_add]
  rw [e1, e2]
  have h : (0 : ℝ) < 2 ^ 969 := pow_pos (by norm_num) _
  generalize (2 : ℝ) ^ 969 = q at *
  rw [one_div, one_div, one_div, mul_inv, mul_inv]
  have hq : 0 < q⁻¹ := inv_pos.2 h
  have : (120 : ℝ) * ((2 : ℝ) ^ 106)⁻¹ + 3 * ((2 : ℝ) ^ 82)⁻¹ ≤ 1 := by norm_num
  nlinarith

theorem tiny_le_ur : tiny ≤ ur := by
  unfold tiny ur
  exact one_div_le_one_div_of_le (by positivity) (pow_le_pow_right₀ (by norm_num) (by norm_num))

theorem tiny_pos' : 0 < tiny := by unfold tiny; exact one_div_pos.2 (pow_pos (by norm_num) _)

theorem epsz_nonneg (hC : 0 ≤ C) : 0 ≤ epsz C := by
  unfold epsz
  have := mul_nonneg ur_pos.le hC
  have := eta_pos
  nlinarith

theorem Bd.one_le (h : Bd p A Z0 B C N) : 1 ≤ p.nh := by
  unfold HqrP.nh
  have := h.nh2
  exact_mod_cast (by omega : 1 ≤ (p.ihi - p.ilo + 1).toNat)

theorem Bd.eps0 (h : Bd p A Z0 B C N) : 0 ≤ p.eps B := by
  unfold HqrP.eps
  have h1 := mul_nonneg ur_pos.le h.b0
  have h2 := mul_nonneg (zero_le_one.trans h.one_le) tiny_pos'.le
  linarith

theorem Bd.trk (h : Bd p A Z0 B C N) {n : ℕ} (hn : n ≤ N) {T : ℤ → ℤ → ℝ} (ht : Trk A Q (n * p.eps B) T) : fro (block p.ilo p.ihi T) ≤ B := by
  have h1 := ht.norm
  have h2 : (n : ℝ) * p.eps B ≤ N * p.eps B := mul_le_mul_of_nonneg_right (by exact_mod_cast hn) h.eps0
  linarith [h.norm]

theorem Bd.entry (h : Bd p A Z0 B C N) {n : ℕ} (hn : n ≤ N) {T : ℤ → ℤ → ℝ} (ht : Trk A Q (n * p.eps B) T) {a b : ℤ} (a1 : p.ilo ≤ a)
    (a2 : a ≤ p.ihi) (b1 : p.ilo ≤ b) (b2 : b ≤ p.ihi) : |T a b| ≤ B :=
  (fro_entry (block p.ilo p.ihi T) ⟨a, Finset.mem_Icc.2 ⟨a1, a2⟩⟩ ⟨b, Finset.mem_Icc.2 ⟨b1, b2⟩⟩).trans (h.trk hn ht)

theorem Bd.z (h : Bd p A Z0 B C N) {n : ℕ} (hn : n ≤ N) (hw : p.wantz = true) {a : ℤ} (a1 : p.iloz ≤ a) (a2 : a ≤ p.ihiz) :
    fro (colsM p.ilo p.ihi (fun (_ : Unit) => Z0 a)) + n * epsz C ≤ C := by
  have h2 : (n : ℝ) * epsz C ≤ N * epsz C := mul_le_mul_of_nonneg_right (by exact_mod_cast hn) (epsz_nonneg h.c0)
  linarith [h.zn hw a a1 a2]

variable {l i m k : ℤ} {G0 : ℤ → ℤ → XR} {T0 : ℤ → ℤ → ℝ}

/-- The state of the chase before step `k`. -/
structure ChF (p : HqrP Float) (r c rz cz : Nat) (A : Matrix (Blk p.ilo p.ihi) (Blk p.ilo p.ihi) ℝ) (Z0 : ℤ → ℤ → ℝ) (zg0 : ℤ → ℤ → Float)
    (B C : ℝ) (n0 : ℕ) (l i m : ℤ) (G0 : ℤ → ℤ → XR) (T0 : ℤ → ℤ → ℝ) (k : ℤ) (s : FA Float × FA Float × FA Float) : Prop where
  ex : ∃ g T Q x y w, Is2 s.1 r c (r * c) g ∧ Win p.ilo p.ihi l i m k G0 (xg g) T0 T ∧ Trk A Q ((n0 + (k - m).toNat : ℕ) * p.eps B) T ∧
    ZF p rz cz zg0 Z0 ((n0 + (k - m).toNat : ℕ) * epsz C) Q s.2.1 ∧ WorkG s.2.2 x y w ∧ (k = m → StartF l m T B x y w)

/-- A step of the chase. -/
theorem chaseF_step (hd : Dim p r c rz cz) (hb : Bd p A Z0 B C N) {n0 : ℕ} (hlo : p.ilo ≤ l) (hhi : i ≤ p.ihi) (hlm : l ≤ m) (hmk : m ≤ k)
    (hki : k + 1 ≤ i) (hm2 : m + 2 ≤ i) (hn : n0 + (k - m).toNat ≤ N) {s : FA Float × FA Float × FA Float}
    (hs : ChF p r c rz cz A Z0 zg0 B C n0 l i m G0 T0 k s) :
    Tot (hqrChase p m l i l i s k) (ChF p r c rz cz A Z0 zg0 B C n0 l i m G0 T0 (k + 1)) := by
  obtain ⟨h, z, v⟩ := s
  obtain ⟨⟨g, T, Q, x, y, w, hh, hW, hT, hZ, hv, hst⟩⟩ := hs
  simp only at hh hZ hv
  have u0 := ur_pos
  have us := ur_small
  have e0 := eta_pos
  have eu := eta_le_ur
  have m0 := mu_pos
  have B1 := one_le_big
  have b0 := hb.b0
  have lim := hb.lim
  have hB := hb.trk hn hT
  have uB : ur * B ≤ B / 1000000000000000 := by have := mul_le_mul_of_nonneg_right us b0; linarith
  have uB0 := mul_nonneg u0.le b0
  have mt := mu_le_tiny
  have tu := tiny_le_ur
  set H := headG m i k g x y w with hH
  have head : H.1.isFinite = true ∧ H.2.1.isFinite = true ∧ (k + 2 ≤ i → H.2.2.isFinite = true) ∧ |toR H.1| ≤ big ∧ |toR H.2.1| ≤ big ∧
      (k + 2 ≤ i → |toR H.2.2| ≤ big) := by
    by_cases hk : m < k
    · have val : ∀ j, l ≤ j → j ≤ i → (g j (k - 1)).isFinite = true ∧ |toR (g j (k - 1))| ≤ big := fun j j1 j2 => by
        obtain ⟨f, e⟩ := hW.fin (a := j) (b := k - 1) ⟨j1, j2, by omega, by omega⟩
        refine ⟨f, ?_⟩
        rw [e]
        have := hb.entry hn hT (a := j) (b := k - 1) (by omega) (by omega) (by omega) (by omega)
        linarith
      rw [hH]
      unfold headG
      simp only [if_pos hk]
      obtain ⟨f1, q1⟩ := val k (by omega) (by omega)
      obtain ⟨f2, q2⟩ := val (k + 1) (by omega) (by omega)
      refine ⟨f1, f2, fun hk2 => ?_, q1, q2, fun hk2 => ?_⟩
      · rw [if_pos hk2]; exact (val (k + 2) (by omega) (by omega)).1
      · rw [if_pos hk2]; exact (val (k + 2) (by omega) (by omega)).2
    · have st := hst (by omega)
      rw [hH]
      unfold headG
      simp only [if_neg hk]
      have b2 : (2 : ℝ) ≤ big := by unfold big; exact le_self_pow₀ (by norm_num) (by norm_num)
      exact ⟨st.fx, st.fy, fun _ => st.fw, st.bx.trans b2, st.by'.trans b2, fun _ => st.bw.trans b2⟩
  obtain ⟨beta, v2, v3, t, β, V2, V3, θ, e, hR, hF⟩ := larfg_near hki head.1 head.2.1 head.2.2.1 head.2.2.2.1 head.2.2.2.2.1 head.2.2.2.2.2
  obtain ⟨zg, hzg⟩ : ∃ zg, p.wantz = true → Is2 z rz cz (rz * cz) zg ∧
      (∀ a, p.iloz ≤ a → a ≤ p.ihiz → ZRow p.ilo p.ihi (zg a) (Z0 a) Q ((n0 + (k - m).toNat : ℕ) * epsz C)) ∧
      (∀ a b, ¬ (p.iloz ≤ a ∧ a ≤ p.ihiz ∧ p.ilo ≤ b ∧ b ≤ p.ihi) → zg a b = zg0 a b) := by
    by_cases hw : p.wantz = true
    · obtain ⟨zg, hz⟩ := hZ hw; exact ⟨zg, fun _ => hz⟩
    · exact ⟨zg0, fun h => absurd h hw⟩
  refine (hqrChaseG hd hlo hhi hh hlm hmk hki hm2 hv (fun hw => (hzg hw).1) e).mono ?_
  rintro ⟨h', z', v'⟩ ⟨k1, k2, k3⟩
  simp only at k1 k2 k3
  have col := fun hlk a a1 a2 a3 => col_near (a := a) hW hlo hhi hlm hmk hki hm2 hR hF hB (by linarith) hst hlk a1 a2 a3
  obtain ⟨T', hW', hT'⟩ := step_near (κ := 300 * ur * B + 20 * eta + mu) hW hlo hhi hlm hmk hki hR hF.refl hB (by linarith)
    (by linarith) (by linarith) hb.nh (fun hlk a a1 a2 a3 => ⟨(col hlk a a1 a2 a3).1, (col hlk a a1 a2 a3).2.1⟩)
    (fun hlk a a1 a2 a3 => (col hlk a (by omega) a2 a3).2.2 a1)
  have en : (n0 + (k + 1 - m).toNat : ℕ) = (n0 + (k - m).toNat) + 1 := by omega
  refine ⟨⟨_, T', _, beta, v2, v3, k1, hW', (hT' A Q _ hT).mono ?_, ?_, k3, fun h => by omega⟩⟩
  · rw [en]
    have es : (((n0 + (k - m).toNat + 1 : ℕ)) : ℝ) * p.eps B = ((n0 + (k - m).toNat : ℕ) : ℝ) * p.eps B + p.eps B := by push_cast; ring
    rw [es]
    have : 4650 * ur * B + 3 * (300 * ur * B + 20 * eta + mu) + 50 * ((p.ihi - p.ilo + 1).toNat : ℕ) * eta ≤ p.eps B := by
      unfold HqrP.eps
      have n1 := hb.one_le
      have hnh : (((p.ihi - p.ilo + 1).toNat : ℕ) : ℝ) = p.nh := rfl
      rw [hnh]
      have h1 : eta ≤ p.nh * eta := by nlinarith
      have h2 : mu ≤ p.nh * mu := by nlinarith
      have h3 : p.nh * (120 * eta + 3 * mu) ≤ p.nh * tiny := mul_le_mul_of_nonneg_left mt (by linarith)
      have h4 : 0 ≤ p.nh * tiny := mul_nonneg (by linarith) tiny_pos'.le
      nlinarith
    linarith
  · intro hw
    obtain ⟨z1, z2, z3⟩ := hzg hw
    refine ⟨_, k2 hw, fun a a1 a2 => ?_, fun a b hab => ?_⟩
    · have := (z2 a a1 a2).refl hT.orth (hb.z hn hw a1 a2) hb.zlim (by omega) hki hhi hR hF.refl
      have er : colsG p.iloz p.ihiz i k v2 v3 t zg a = reflG i k v2 v3 t (zg a) := by
        funext b
        unfold colsG
        rw [if_pos ⟨a1, a2⟩]
      rw [er]
      refine this.mono (le_of_eq ?_)
      rw [en]
      push_cast
      unfold epsz
      ring
    · unfold colsG
      split
      · rename_i ha
        rw [reflG_ne (by omega) (by omega) (by omega)]
        exact z3 a b hab
      · exact z3 a b hab

/-- The whole chase. -/
theorem chaseF_all (hd : Dim p r c rz cz) (hb : Bd p A Z0 B C N) {n0 : ℕ} (hlo : p.ilo ≤ l) (hhi : i ≤ p.ihi) (hlm : l ≤ m) (hm2 : m + 2 ≤ i)
    (hn : n0 + (i - m).toNat ≤ N) {s : FA Float × FA Float × FA Float} (hs : ChF p r c rz cz A Z0 zg0 B C n0 l i m G0 T0 m s) :
    Tot (forUp m (i - 1) s (hqrChase p m l i l i)) (ChF p r c rz cz A Z0 zg0 B C n0 l i m G0 T0 i) := by
  have := Tot.forUp (P := ChF p r c rz cz A Z0 zg0 B C n0 l i m G0 T0) (lo := m) (hi := i - 1) (by omega) hs
    (fun k s h1 h2 hk => chaseF_step hd hb hlo hhi hlm h1 (by omega) hm2 (by omega) hk)
  rwa [show i - 1 + 1 = i by ring] at this

end

end Verif

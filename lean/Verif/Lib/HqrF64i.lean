import Verif.Lib.HqrF64h

/-!
# A round of `'loop_140` of `dlahqr` on binary64
-/

namespace Verif
open F64 Scalar Spec Matrix XR

/-- The constants of `dlahqr`. -/
structure PF (p : HqrP Float) : Prop where
  uf : p.ulp.isFinite = true
  u : toR p.ulp = 2 * ur
  sf : p.smlnum.isFinite = true
  s1 : tiny ≤ toR p.smlnum
  s2 : toR p.smlnum ≤ p.nh * tiny

/-- What is known inside `'loop_140` for the active end `i` after `n` steps; `T0` is the matrix at the start of the loop. -/
structure InnF (p : HqrP Float) (r c rz cz : Nat) (A : Matrix (Blk p.ilo p.ihi) (Blk p.ilo p.ihi) ℝ) (Z0 : ℤ → ℤ → ℝ) (zg0 : ℤ → ℤ → Float)
    (B C : ℝ) (n : ℕ) (i : ℤ) (T0 : ℤ → ℤ → ℝ) (h z v : FA Float) (l : ℤ) (T : ℤ → ℤ → ℝ) : Prop where
  ex : ∃ g, Is2 h r c (r * c) g ∧ Rel p.ilo p.ihi (xg g) T
  good : ∃ Q, Trk A Q (n * p.eps B) T ∧ ZF p rz cz zg0 Z0 (n * epsz C) Q z
  work : ∃ x y w, WorkG v x y w
  lo : p.ilo ≤ l
  top : p.ilo < l → T l (l - 1) = 0
  bot : i < p.ihi → T (i + 1) i = 0
  same : ∀ a b, i < a → i < b → T a b = T0 a b

section
variable {p : HqrP Float} {r c rz cz : Nat} {A : Matrix (Blk p.ilo p.ihi) (Blk p.ilo p.ihi) ℝ} {Z0 : ℤ → ℤ → ℝ} {zg0 : ℤ → ℤ → Float}
  {B C : ℝ} {N n n' : ℕ} {i l : ℤ} {T0 T : ℤ → ℤ → ℝ}

theorem ZF.mono {δ δ' : ℝ} {Q : Matrix (Blk p.ilo p.ihi) (Blk p.ilo p.ihi) ℝ} {z : FA Float} (h : ZF p rz cz zg0 Z0 δ Q z) (hd : δ ≤ δ') :
    ZF p rz cz zg0 Z0 δ' Q z := fun hw => by
  obtain ⟨zg, h1, h2, h3⟩ := h hw
  exact ⟨zg, h1, fun a a1 a2 => (h2 a a1 a2).mono hd, h3⟩

theorem InnF.mono (hb : Bd p A Z0 B C N) {h z v : FA Float} (hs : InnF p r c rz cz A Z0 zg0 B C n i T0 h z v l T) (hn : n ≤ n') :
    InnF p r c rz cz A Z0 zg0 B C n' i T0 h z v l T := by
  obtain ⟨Q, hG, hZ⟩ := hs.good
  have hn' : (n : ℝ) ≤ n' := by exact_mod_cast hn
  exact ⟨hs.ex, ⟨Q, hG.mono (mul_le_mul_of_nonneg_right hn' hb.eps0), hZ.mono (mul_le_mul_of_nonneg_right hn' (epsz_nonneg hb.c0))⟩, hs.work,
    hs.lo, hs.top, hs.bot, hs.same⟩

/-- A sweep. -/
theorem sweepF (hd : Dim p r c rz cz) (hb : Bd p A Z0 B C N) (hp : PF p) {s : HqrS Float} (hli : s.l + 2 ≤ i) (hhi : i ≤ p.ihi)
    (hs : InnF p r c rz cz A Z0 zg0 B C n i T0 s.h s.z s.v s.l T) (hT : ∀ j, s.l < j → j ≤ i → T j (j - 1) ≠ 0) (hn : n + (i - s.l).toNat ≤ N) :
    Tot (hqrSweep p i s) fun s' => s'.l = s.l ∧ s'.k = s.k ∧
      ((∃ T', InnF p r c rz cz A Z0 zg0 B C (n + (i - s.l).toNat) i T0 s'.h s'.z s'.v s'.l T') ∨ Pois p r c rz cz i s') := by
  obtain ⟨⟨g, hh, hR⟩, ⟨Q, hG, hZ⟩, ⟨x0, y0, w0, hv⟩, hlo, htop, hbot, hsame⟩ := hs
  have ha : Active s.l i (xg g) T := hR.active hlo hhi hT
  have hTB : ∀ a b, s.l ≤ a → a ≤ i → s.l ≤ b → b ≤ i → |T a b| ≤ B := fun a b a1 a2 b1 b2 =>
    hb.entry (by omega) hG (by omega) (by omega) (by omega) (by omega)
  have b0 := hb.b0
  have hA : ActF s.l i g (B + 1) := fun a b a1 a2 b1 b2 => by
    obtain ⟨f, e⟩ := fin_toXR (ha a b a1 a2 b1 b2)
    exact ⟨f, by rw [e]; linarith [hTB a b a1 a2 b1 b2]⟩
  have D1 : (2 : ℝ) ^ 19 * (B + 1) ≤ big := by
    have : (2 : ℝ) ^ 20 ≤ big := by unfold big; exact pow_le_pow_right₀ (by norm_num) (by norm_num)
    linarith [hb.lim]
  unfold hqrSweep
  obtain ⟨x11, x12, x21, x22, e1, q11, q12, q21, q22⟩ := shiftMatF hd hlo hhi hli hh hA (by linarith) D1 (s.kdefl + 1)
  obtain ⟨c1, c2, c3, c4⟩ := shifts_bn (by linarith) D1 q11 q12 q21 q22
  obtain ⟨m, v', e3, m1, m2, x, y, w, hw, hst⟩ := startF hd hp.uf hp.u hlo hhi hh hb.b0 hb.lim ha hTB hT c1 c2 c3 c4 (cm := i - 2) (by omega)
    (by omega) hv s.m
  simp only [hd.wantt, if_true]
  rw [e1, pure_bind]
  simp only
  rw [e3, pure_bind]
  simp only
  rcases hst with hst | ⟨hm, nx, ny, nw⟩
  · have d1 : ∀ a b, s.l ≤ a → a ≤ p.ihi → p.ilo ≤ b → b < s.l → T a b = 0 := fun a b a1 a2 b1 b2 => hR.cross htop a1 a2 b1 b2
    have d2 : ∀ a b, i < a → a ≤ p.ihi → p.ilo ≤ b → b ≤ i → T a b = 0 := fun a b a1 a2 b1 b2 =>
      hR.cross (d := i + 1) (fun _ => by rw [show i + 1 - 1 = i by ring]; exact hbot (by omega)) (by omega) a2 b1 (by omega)
    have start : ChF p r c rz cz A Z0 zg0 B C n s.l i m (xg g) T m (s.h, s.z, v') := by
      refine ⟨⟨g, T, Q, x, y, w, hh, ⟨ha, fun _ _ _ => rfl, fun _ _ _ _ => rfl, d1, d2, ?_⟩, ?_, ?_, hw, fun _ => hst⟩⟩
      · exact fun a b b1 hba ai _ _ => hR.hess a b (by omega) hba (by omega)
      · rw [sub_self, Int.toNat_zero, add_zero]; exact hG
      · rw [sub_self, Int.toNat_zero, add_zero]; exact hZ
    refine Tot.bind (chaseF_all hd hb hlo hhi m1 (by omega) (by omega) start) ?_
    rintro ⟨h', z', v''⟩ ⟨⟨g', T', Q', x', y', w', hh', hW, hG', hZ', hv', -⟩⟩
    refine Tot.pure ⟨rfl, rfl, Or.inl ⟨T', InnF.mono hb (n := n + (i - m).toNat) ?_ (by omega)⟩⟩
    refine ⟨⟨g', hh', ?_⟩, ⟨Q', hG', hZ'⟩, ⟨x', y', w', hv'⟩, hlo, ?_, ?_, ?_⟩
    · exact rel_of_win hR hlo (by omega) hhi hW.win (fun a b hab _ => hW.outg a b hab) hW.outT hW.dec1 hW.dec2
        (fun a b b1 hba ai => hW.hess a b b1 hba ai (by omega) (by omega)) d1 d2
    · intro hl
      have hl' : p.ilo < s.l := hl
      exact hW.dec1 s.l (s.l - 1) (le_refl _) (by omega) (by omega) (by omega)
    · exact fun hl => hW.dec2 _ _ (by omega) (by omega) (by omega) (by omega)
    · intro a b a1 b1
      rw [hW.outT a b (by omega) (by omega)]
      exact hsame a b a1 b1
  · have hZ' : p.wantz = true → ∃ zg, Is2 s.z rz cz (rz * cz) zg := fun hw => by
      obtain ⟨zg, h1, -⟩ := hZ hw
      exact ⟨zg, h1⟩
    refine Tot.bind (chaseP_first hd hlo hhi m1 (by omega) (s := (s.h, s.z, v'))
      ⟨⟨g, x, y, w, hh, hZ', hw, fun _ => ⟨nx, ny, nw⟩, fun h => by omega, fun h => by omega⟩⟩) ?_
    rintro ⟨h', z', v''⟩ ⟨⟨g', x', y', w', hh', hZ'', hv', k1, k2, -⟩⟩
    exact Tot.pure ⟨rfl, rfl, Or.inr ⟨⟨g', hh', k1, k2⟩, hZ'', ⟨_, _, _, hv'⟩, hlo, hli⟩⟩

/-! ### Deflation -/

/-- The product of the second test. -/
theorem ulp_mul (hp : PF p) (hb : Bd p A Z0 B C N) {t : Float} (ht : Bn t (11 / 4 * B)) : Bn (p.ulp * t) (p.eps B) := by
  have b0 := hb.b0
  have u0 := ur_pos
  have us := ur_small
  have uB := mul_nonneg u0.le b0
  have h1 : |toR p.ulp * toR t| ≤ 11 / 2 * (ur * B) := by
    rw [hp.u, abs_mul, abs_of_nonneg (by linarith)]
    have := mul_le_mul_of_nonneg_left ht.2 (show 0 ≤ 2 * ur by linarith)
    linarith
  have h2 : ur * B ≤ B := by nlinarith
  obtain ⟨f, r⟩ := mulF hp.uf ht.1 (by have := hb.lim; linarith)
  refine ⟨f, ?_⟩
  have h3 := r.general
  have h4 : |toR (p.ulp * t)| ≤ |toR p.ulp * toR t| + |toR (p.ulp * t) - toR p.ulp * toR t| := by
    have := abs_add_le (toR p.ulp * toR t) (toR (p.ulp * t) - toR p.ulp * toR t)
    rwa [show toR p.ulp * toR t + (toR (p.ulp * t) - toR p.ulp * toR t) = toR (p.ulp * t) by ring] at this
  have h5 : ur * |toR p.ulp * toR t| ≤ |toR p.ulp * toR t| := by nlinarith [abs_nonneg (toR p.ulp * toR t)]
  have n1 := hb.one_le
  have mt := mu_le_tiny
  have m0 := mu_pos
  have e0 := eta_pos
  have t0 := tiny_pos'
  have h6 : tiny ≤ p.nh * tiny := by nlinarith
  unfold HqrP.eps
  linarith

/-- The search for a negligible subdiagonal element. -/
theorem searchF (hd : Dim p r c rz cz) (hb : Bd p A Z0 B C N) (hp : PF p)
    (hlo : p.ilo ≤ l) (hhi : i ≤ p.ihi) {h : FA Float} {g : ℤ → ℤ → Float} (hh : Is2 h r c (r * c) g) (hR : Rel p.ilo p.ihi (xg g) T)
    (hT : ∀ a b, p.ilo ≤ a → a ≤ p.ihi → p.ilo ≤ b → b ≤ p.ihi → |T a b| ≤ B) {e : ℤ} (hle : l < e) (hei : e ≤ i)
    (hnz : ∀ j, e < j → j ≤ i → tiny ≤ |T j (j - 1)|) (k0 : ℤ) :
    Tot (hqrSearch p h (irange (l + 1) e).reverse k0) fun k => l ≤ k ∧ k ≤ e ∧ (∀ j, k < j → j ≤ i → tiny ≤ |T j (j - 1)|) ∧
      (l < k → |T k (k - 1)| ≤ p.eps B) := by
  have b0 := hb.b0
  have lim := hb.lim
  have low : ∀ a b, p.ilo ≤ b → b ≤ a → a ≤ p.ihi → h.get2 a b = pure (g a b) ∧ (g a b).isFinite = true ∧ toR (g a b) = T a b := by
    intro a b b1 hba a2
    exact ⟨get2_is2 hh (hd.cell (by omega) (by omega) (by omega) (by omega)) hd.size, fin_toXR (hR.low a b b1 hba a2)⟩
  have bn : ∀ a b, p.ilo ≤ b → b ≤ a → a ≤ p.ihi → Bn (Scalar.abs (g a b)) B := fun a b b1 hba a2 => by
    obtain ⟨-, f, e⟩ := low a b b1 hba a2
    exact Bn.abs ⟨f, by rw [e]; exact hT a b (by omega) (by omega) (by omega) (by omega)⟩
  -- what the search does after looking at `e`
  have next : ∀ e, l < e → e ≤ i → (∀ j, e < j → j ≤ i → tiny ≤ |T j (j - 1)|) → ∀ k0, ∀ rest : List ℤ, (tiny ≤ |T e (e - 1)| → Tot (hqrSearch p h rest (e - 1)) fun k => l ≤ k ∧ k ≤ e ∧
        (∀ j, k < j → j ≤ i → tiny ≤ |T j (j - 1)|) ∧ (l < k → |T k (k - 1)| ≤ p.eps B)) →
      Tot (hqrSearch p h (e :: rest) k0) fun k => l ≤ k ∧ k ≤ e ∧ (∀ j, k < j → j ≤ i → tiny ≤ |T j (j - 1)|) ∧
        (l < k → |T k (k - 1)| ≤ p.eps B) := by
    intro e hle hei hnz k0 rest hrest
    obtain ⟨g1, f1, v1⟩ := low e (e - 1) (by omega) (by omega) (by omega)
    obtain ⟨g2, -, -⟩ := low (e - 1) (e - 1) (by omega) (by omega) (by omega)
    obtain ⟨g3, -, -⟩ := low e e (by omega) (by omega) (by omega)
    have va : toR (Scalar.abs (g e (e - 1)) : Float) = |T e (e - 1)| := by rw [← v1]; exact abs_toR _
    have fa : (Scalar.abs (g e (e - 1)) : Float).isFinite = true := abs_fin f1
    have n1 := hb.one_le
    have t0 := tiny_pos'
    have hsm : toR p.smlnum ≤ p.eps B := by
      have := hp.s2
      have := mul_nonneg ur_pos.le b0
      have : 0 ≤ p.nh * tiny := mul_nonneg (by linarith) t0.le
      unfold HqrP.eps
      linarith
    simp only [hqrSearch]
    rw [g1, pure_bind]
    rw [leF fa hp.sf, va]
    simp only [decide_eq_true_eq]
    refine Tot.ite (fun hs => Tot.pure ⟨by omega, le_refl _, hnz, fun _ => by linarith⟩) fun hs => ?_
    have hne : tiny ≤ |T e (e - 1)| := by have := hp.s1; linarith
    rw [g2, pure_bind, g3, pure_bind]
    have b1 := (Bn.add (bn (e - 1) (e - 1) (by omega) (by omega) (by omega)) (bn e e (by omega) (by omega) (by omega)) (by linarith)).mono (b := 9 / 4 * B) (by linarith)
    have last : ∀ t : Float, Bn t (11 / 4 * B) → Tot (if (Scalar.abs (g e (e - 1)) ≤ᶠ p.ulp * t) = true then do
          let hk1k ← h.get2 (e - 1) e
          if hqrCrit p (g e (e - 1)) hk1k (g e e) (g (e - 1) (e - 1)) = true then pure e
            else hqrSearch p h rest (e - 1)
        else hqrSearch p h rest (e - 1)) fun k => l ≤ k ∧ k ≤ e ∧ (∀ (j : ℤ), k < j → j ≤ i → tiny ≤ |T j (j - 1)|) ∧
          (l < k → |T k (k - 1)| ≤ p.eps B) := by
      intro t ht
      have hm := ulp_mul hp hb ht
      rw [leF fa hm.1, va]
      simp only [decide_eq_true_eq]
      refine Tot.ite (fun h1 => ?_) fun h1 => hrest hne
      rw [get2_is2 hh (hd.cell (a := e - 1) (b := e) (by omega) (by omega) (by omega) (by omega)) hd.size, pure_bind]
      refine Tot.ite (fun _ => Tot.pure ⟨by omega, le_refl _, hnz, fun _ => ?_⟩) fun _ => hrest hne
      exact h1.trans ((le_abs_self _).trans hm.2)
    rw [beqF b1.1 toR_zero.1, toR_zero.2]
    simp only [decide_eq_true_eq]
    split
    · rename_i h0
      have z1 : Bn (Scalar.abs (g (e - 1) (e - 1)) + Scalar.abs (g e e) : Float) 0 := ⟨b1.1, by rw [h0, abs_zero]⟩
      split
      · rename_i h1
        obtain ⟨g4, -, -⟩ := low (e - 1) (e - 2) (by omega) (by omega) (by omega)
        rw [g4]
        simp only [pure_bind]
        have z2 := (Bn.add z1 (bn (e - 1) (e - 2) (by omega) (by omega) (by omega)) (by linarith)).mono (b := 5 / 4 * B) (by linarith)
        split
        · rename_i h2
          obtain ⟨g5, -, -⟩ := low (e + 1) e (by omega) (by omega) (by omega)
          rw [g5]
          simp only [pure_bind]
          exact last _ ((Bn.add z2 (bn (e + 1) e (by omega) (by omega) (by omega)) (by linarith)).mono (by linarith))
        · exact last _ (z2.mono (by linarith))
      · simp only [pure_bind]
        split
        · rename_i h2
          obtain ⟨g5, -, -⟩ := low (e + 1) e (by omega) (by omega) (by omega)
          rw [g5]
          simp only [pure_bind]
          exact last _ ((Bn.add z1 (bn (e + 1) e (by omega) (by omega) (by omega)) (by linarith)).mono (by linarith))
        · exact last _ (z1.mono (by linarith))
    · simp only [pure_bind]
      exact last _ (b1.mono (by linarith))
  obtain ⟨n, hn⟩ : ∃ n : Nat, l + 1 + n = e := ⟨(e - l - 1).toNat, by omega⟩
  induction n generalizing e k0 with
  | zero =>
    have : e = l + 1 := by omega
    subst this
    rw [irange_snoc (le_refl _), irange_empty (by omega)]
    simp only [List.nil_append, List.reverse_cons, List.reverse_nil]
    refine next _ hle hei hnz k0 [] fun hne => ?_
    simp only [hqrSearch]
    refine Tot.pure ⟨by omega, by omega, fun j h1 h2 => ?_, fun h => absurd h (by omega)⟩
    by_cases hj : j = l + 1
    · rw [hj]; exact hne
    · exact hnz j (by omega) h2
  | succ n ih =>
    rw [irange_snoc (by omega), List.reverse_append]
    simp only [List.reverse_cons, List.reverse_nil, List.nil_append, List.cons_append]
    refine next _ hle hei hnz k0 _ fun hne => ?_
    refine (ih (e := e - 1) (by omega) (by omega) (fun j h1 h2 => ?_) (e - 1) (by omega)).mono fun k hk =>
      ⟨hk.1, by omega, hk.2.2.1, hk.2.2.2⟩
    by_cases hj : j = e
    · rw [hj]; exact hne
    · exact hnz j (by omega) h2

/-- Storing a zero. -/
theorem Trk.cut {lo hi : ℤ} {A Q : Matrix (Blk lo hi) (Blk lo hi) ℝ} {δ : ℝ} {T : ℤ → ℤ → ℝ} (h : Trk A Q δ T) (k j : ℤ) {d : ℝ} (hd : |T k j| ≤ d) :
    Trk A Q (δ + d) (fun a b => if a = k ∧ b = j then 0 else T a b) := by
  refine h.perturb ?_
  by_cases hin : (lo ≤ k ∧ k ≤ hi) ∧ (lo ≤ j ∧ j ≤ hi)
  · rw [fro_single _ ⟨k, Finset.mem_Icc.2 hin.1⟩ ⟨j, Finset.mem_Icc.2 hin.2⟩]
    · simp [block, hd]
    · intro a b hab
      have : ¬ ((a : ℤ) = k ∧ (b : ℤ) = j) := fun ⟨e1, e2⟩ => hab ⟨Subtype.ext e1, Subtype.ext e2⟩
      simp only [Matrix.sub_apply, block, if_neg this, sub_self]
  · have : block lo hi (fun a b => if a = k ∧ b = j then 0 else T a b) - block lo hi T = 0 := by
      ext a b
      have : ¬ ((a : ℤ) = k ∧ (b : ℤ) = j) := by
        rintro ⟨e1, e2⟩
        exact hin ⟨e1 ▸ Finset.mem_Icc.1 a.2, e2 ▸ Finset.mem_Icc.1 b.2⟩
      simp only [Matrix.sub_apply, block, if_neg this, sub_self, Matrix.zero_apply]
    rw [this, fro_zero]
    exact (abs_nonneg _).trans hd

/-- Deflation. -/
theorem deflateF (hd : Dim p r c rz cz) (hb : Bd p A Z0 B C N) (hp : PF p) {s : HqrS Float} (hli : s.l < i) (hhi : i ≤ p.ihi)
    (hs : InnF p r c rz cz A Z0 zg0 B C n i T0 s.h s.z s.v s.l T) (hn : n ≤ N) :
    Tot (hqrDeflate p i s) fun s' => s'.k = s'.l ∧ s'.l ≤ i ∧
      ∃ T', InnF p r c rz cz A Z0 zg0 B C (n + 1) i T0 s'.h s'.z s'.v s'.l T' ∧ (∀ j, s'.l < j → j ≤ i → tiny ≤ |T' j (j - 1)|) := by
  have hs' := hs
  obtain ⟨⟨g, hh, hR⟩, ⟨Q, hG, hZ⟩, hwork, hlo, htop, hbot, hsame⟩ := hs
  have e0 := hb.eps0
  unfold hqrDeflate
  refine Tot.bind (searchF hd hb hp hlo hhi hh hR (fun a b a1 a2 b1 b2 => hb.entry hn hG a1 a2 b1 b2) hli (le_refl i)
    (fun j h1 h2 => by omega) s.k) fun k hk => ?_
  obtain ⟨k1, k2, knz, kb⟩ := hk
  by_cases hkl : k > p.ilo
  · rw [if_pos hkl]
    obtain ⟨h', e', hh'⟩ := set2_is2 hh (hd.cell (a := k) (b := k - 1) (by omega) (by omega) (by omega) (by omega)) hd.size Scalar.zero
    rw [e', pure_bind]
    have hcut : |T k (k - 1)| ≤ p.eps B := by
      by_cases h : s.l < k
      · exact kb h
      · have e : k = s.l := by omega
        rw [e, htop (by omega), abs_zero]
        exact e0
    have en : ((n + 1 : ℕ) : ℝ) * p.eps B = n * p.eps B + p.eps B := by push_cast; ring
    refine Tot.pure ⟨rfl, k2, fun a b => if a = k ∧ b = k - 1 then 0 else T a b,
      ⟨⟨_, hh', ⟨?_, ?_, ?_⟩⟩, ⟨Q, by rw [en]; exact hG.cut k (k - 1) hcut, hZ.mono ?_⟩, hwork, by simp only; omega, ?_, ?_, ?_⟩, ?_⟩
    · intro a b b1 hba a2
      simp only [xg, upd2]
      split
      · rw [toXR_fin toR_zero.1, toR_zero.2]
      · exact hR.low a b b1 hba a2
    · intro a b a1 hab b2 hnz
      simp only [xg, upd2]
      rw [if_neg (by omega), if_neg (by omega)]
      refine hR.up a b a1 hab b2 fun d d1 d2 => ?_
      have := hnz d d1 d2
      intro h0
      apply this
      beta_reduce
      split
      · rfl
      · exact h0
    · intro a b b1 hba a2
      beta_reduce
      split
      · rfl
      · exact hR.hess a b b1 hba a2
    · have := epsz_nonneg hb.c0
      push_cast
      linarith
    · intro _; simp
    · intro h
      beta_reduce
      split
      · rfl
      · exact hbot h
    · intro a b a1 b1
      beta_reduce
      rw [if_neg (by omega)]
      exact hsame a b a1 b1
    · intro j j1 j2
      simp only at j1 ⊢
      rw [if_neg (by omega)]
      exact knz j j1 j2
  · rw [if_neg hkl, pure_bind]
    have hI := hs'.mono hb (Nat.le_succ n)
    exact Tot.pure ⟨rfl, k2, T, ⟨hI.ex, hI.good, hI.work, by simp only; omega, fun h => absurd h hkl, hbot, hsame⟩, knz⟩

/-- `'loop_140`: a round takes at most `p.ihi - p.ilo + 1` steps. -/
theorem innerF (hd : Dim p r c rz cz) (hb : Bd p A Z0 B C N) (hp : PF p) (hhi : i ≤ p.ihi) (rounds its : Nat) (n : ℕ) (s : HqrS Float) (hli : s.l < i)
    (T : ℤ → ℤ → ℝ) (hs : InnF p r c rz cz A Z0 zg0 B C n i T0 s.h s.z s.v s.l T) (hn : n + (rounds + 1) * (p.ihi - p.ilo + 1).toNat ≤ N) :
    Tot (hqrInner p i rounds its s) fun q => q.2 = its + rounds ∨ (q.1.k = q.1.l ∧ q.1.l ≤ i ∧ i - 1 ≤ q.1.l ∧
      ∃ T', InnF p r c rz cz A Z0 zg0 B C (n + (rounds + 1) * (p.ihi - p.ilo + 1).toNat) i T0 q.1.h q.1.z q.1.v q.1.l T' ∧
        (∀ j, q.1.l < j → j ≤ i → tiny ≤ |T' j (j - 1)|)) := by
  have h2 := hb.nh2
  have t0 := tiny_pos'
  set W := (p.ihi - p.ilo + 1).toNat with hW
  induction rounds generalizing its n s T with
  | zero =>
    unfold hqrInner
    refine Tot.bind (deflateF hd hb hp hli hhi hs (by omega)) fun s1 h1 => ?_
    obtain ⟨e1, l1, T1, I1, nz1⟩ := h1
    refine Tot.ite (fun hl => Tot.pure (Or.inl rfl)) fun hl => ?_
    have := I1.lo
    refine Tot.bind (sweepF hd hb hp (by omega) hhi I1 (fun j j1 j2 h => by have := nz1 j j1 j2; rw [h, abs_zero] at this; linarith) (by omega)) fun s2 h2 =>
      Tot.pure (Or.inl rfl)
  | succ m ih =>
    unfold hqrInner
    have em : (m + 1 + 1) * W = (m + 1) * W + W := by ring
    rw [em] at hn ⊢
    refine Tot.bind (deflateF hd hb hp hli hhi hs (by omega)) fun s1 h1 => ?_
    obtain ⟨e1, l1, T1, I1, nz1⟩ := h1
    refine Tot.ite (fun hl => Tot.pure (Or.inr ⟨e1, l1, hl, T1, I1.mono hb (by omega), nz1⟩)) fun hl => ?_
    have := I1.lo
    refine Tot.bind (sweepF hd hb hp (by omega) hhi I1 (fun j j1 j2 h => by have := nz1 j j1 j2; rw [h, abs_zero] at this; linarith) (by omega)) fun s2 h2 => ?_
    obtain ⟨l2, k2, h2 | h2⟩ := h2
    · obtain ⟨T2, I2⟩ := h2
      have I3 := I2.mono hb (n' := n + W) (by omega)
      refine (ih (its + 1) (n + W) s2 (by omega) T2 I3 (by omega)).mono fun q hq => ?_
      rcases hq with hq | ⟨a1, a2, a3, T4, I4, a5⟩
      · exact Or.inl (by omega)
      · exact Or.inr ⟨a1, a2, a3, T4, I4.mono hb (by omega), a5⟩
    · exact (innerP hd hhi m (its + 1) h2).mono fun q hq => Or.inl (by omega)

end

end Verif

import Verif.Lib.HqrF64d
import Verif.Lib.Qr5Start

/-!
# The reflector column `v` of `dlaqr5` on any numbers, and `dlarfg` on it on binary64
-/

namespace Verif
open F64 Scalar Spec Matrix

/-- The array `v`: an `ldv`-by-`c` matrix of finite numbers whose first column starts with `x`, `y`, `w`. -/
structure V5F {F : Type} [Scalar F] (ldv c : Nat) (rest : List F) (v : FA F) (x y w : F) : Prop where
  ld : 3 ≤ ldv
  mat : IsMatrix v ldv c
  data : v.data = (x :: y :: w :: rest)

section
variable {F : Type} [Scalar F] {ldv c : Nat} {rest : List F} {v : FA F} {x y w : F}

theorem V5F.len (h : V5F ldv c rest v x y w) : rest.length + 3 = ldv * c ∧ ldv * c < 2 ^ 31 := by
  have := h.mat.length
  rw [h.data] at this
  simp at this
  exact ⟨by omega, h.mat.small⟩

theorem V5F.cpos (h : V5F ldv c rest v x y w) : 1 ≤ c := by
  have := h.len.1
  rcases Nat.eq_zero_or_pos c with e | e
  · rw [e] at this; omega
  · exact e

theorem V5F.cell (h : V5F ldv c rest v x y w) {i : ℤ} (h1 : 1 ≤ i) (h2 : i ≤ 3) : Cell ldv (ldv * c) i 1 := by
  have := h.len.1
  have := h.ld
  refine ⟨h1, by omega, le_refl _, ?_⟩
  rw [sub_self, zero_mul]
  omega

theorem V5F.off (h : V5F ldv c rest v x y w) {i : ℤ} (h1 : 1 ≤ i) (h2 : i ≤ 3) : v.off i 1 = pure (i - 1) := by
  rw [off_ok h.mat.rows (h.cell h1 h2) h.mat.small]
  congr 1; ring

theorem V5F.get (h : V5F ldv c rest v x y w) : v.get2 1 1 = pure (x) ∧ v.get2 2 1 = pure (y) ∧ v.get2 3 1 = pure (w) := by
  refine ⟨?_, ?_, ?_⟩
  · unfold FA.get2; rw [h.off (by norm_num) (by norm_num), pure_bind, h.data]; rfl
  · unfold FA.get2; rw [h.off (by norm_num) (by norm_num), pure_bind, h.data]; rfl
  · unfold FA.get2; rw [h.off (by norm_num) (by norm_num), pure_bind, h.data]; rfl

theorem V5F.set2 (h : V5F ldv c rest v x y w) (y' : F) : ∃ v', v.set2 2 1 (y') = pure v' ∧ V5F ldv c rest v' x y' w := by
  refine ⟨{ v with data := (x :: y' :: w :: rest) }, ?_, h.ld, ⟨h.mat.rows, h.mat.cols, ?_, h.mat.small⟩, rfl⟩
  · unfold FA.set2 FA.modify2; rw [h.off (by norm_num) (by norm_num), pure_bind, h.data]; rfl
  · have := h.len.1; simp; omega

theorem V5F.set3 (h : V5F ldv c rest v x y w) (w' : F) : ∃ v', v.set2 3 1 (w') = pure v' ∧ V5F ldv c rest v' x y w' := by
  refine ⟨{ v with data := (x :: y :: w' :: rest) }, ?_, h.ld, ⟨h.mat.rows, h.mat.cols, ?_, h.mat.small⟩, rfl⟩
  · unfold FA.set2 FA.modify2; rw [h.off (by norm_num) (by norm_num), pure_bind, h.data]; rfl
  · have := h.len.1; simp; omega

theorem V5F.from1 (h : V5F ldv c rest v x y w) : v.from2 1 1 = pure ((x :: y :: w :: rest)) := by
  have := h.ld; have := h.cpos
  rw [C07_from2 h.mat (by norm_num) (by omega) (by norm_num) (by omega), h.data]
  simp

theorem V5F.from2 (h : V5F ldv c rest v x y w) : v.from2 2 1 = pure ((y :: w :: rest)) := by
  have := h.ld; have := h.cpos
  rw [C07_from2 h.mat (by norm_num) (by omega) (by norm_num) (by omega), h.data]
  simp

/-- The array rebuilt from a list. -/
theorem V5F.of_list (h : V5F ldv c rest v x y w) (x' y' w' : F) (a : FA F) (ha : a.data = (x' :: y' :: w' :: rest)) :
    ∃ v', a.as2d ldv = pure v' ∧ V5F ldv c rest v' x' y' w' := by
  have hl := h.len
  have h3 := h.ld
  have hc := h.cpos
  have hlen : a.data.length = ldv * c := by rw [ha]; simp; omega
  refine ⟨{ a with rows := ldv, cols := c }, ?_, h3, ⟨rfl, rfl, hlen, h.mat.small⟩, ha⟩
  unfold FA.as2d
  rw [if_neg (by omega), hlen]
  have hs : ((ldv * c : Nat) : Int) < 2147483648 := by exact_mod_cast hl.2
  have e : wrap32 ((ldv * c : Nat) : Int) = ((ldv * c : Nat) : Int) := wrap32_of_fits (by unfold FitsI32; omega)
  have hdiv : ((ldv * c : Nat) : Int).tdiv ldv = c := by
    push_cast
    exact Int.mul_tdiv_cancel_left _ (by omega)
  have hcs : c ≤ ldv * c := Nat.le_mul_of_pos_left _ (by omega)
  rw [e, hdiv, chk_ok (by unfold FitsI32; omega), pure_bind]

theorem V5F.insert (h : V5F ldv c rest v x y w) (y' w' t : F) :
    ∃ v' : FA F, (faOfVec ((y' :: w' :: rest))).insert 1 (t) = pure v' ∧ v'.data = (t :: y' :: w' :: rest) := by
  have hl := h.len
  have hs : ((ldv * c : Nat) : Int) < 2147483648 := by exact_mod_cast hl.2
  refine ⟨{ faOfVec ((y' :: w' :: rest)) with data := (t :: y' :: w' :: rest) }, ?_, rfl⟩
  unfold FA.insert FA.len FA.is2d faOfVec
  simp only [show decide ((0 : Int) > 0) = false by decide, Bool.and_false, Bool.false_eq_true, if_false, pure_bind]
  have e : wrap32 (((y' :: w' :: rest)).length : Int) = rest.length + 2 := by
    rw [wrap32_of_fits (by simp; unfold FitsI32; omega)]; simp; ring
  rw [e, if_pos (by omega)]
  have e1 : asUsize 1 - 1 = 0 := by decide
  rw [e1, if_pos (Nat.zero_le _)]
  rfl

end

/-- If the third element of the column the reflector was built from is not negligible, then the reflector is not the identity, and its third
element is accurate and not too small. -/
def Third (a b c : ℝ) (t v3 : Float) (V3 : ℝ) : Prop :=
  mu < |c| → 1 ≤ toR t ∧ |toR v3 - V3| ≤ 66 * ur * |V3| + eta ∧ ∀ M, |a| ≤ M → |b| ≤ M → |c| ≤ M → |c| ≤ 3 * M * |V3|

theorem third_le {a b c β V2 V3 T M : ℝ} (h : Maps a b c β V2 V3 T) (ha : |a| ≤ M) (hb : |b| ≤ M) (hc : |c| ≤ M) : |c| ≤ 3 * M * |V3| := by
  have hn := h.norm
  have M0 : 0 ≤ M := (abs_nonneg _).trans ha
  have e : c = V3 * (a - β) := by linear_combination h.e3 - V3 * h.e1
  have hβ : |β| ≤ 2 * M := by
    refine abs_le_of_sq_le_sq ?_ (by linarith)
    rw [hn]
    have h1 := sq_le_sq' (abs_le.1 ha).1 (abs_le.1 ha).2
    have h2 := sq_le_sq' (abs_le.1 hb).1 (abs_le.1 hb).2
    have h3 := sq_le_sq' (abs_le.1 hc).1 (abs_le.1 hc).2
    nlinarith
  have hd : |a - β| ≤ 3 * M := (abs_sub _ _).trans (by linarith)
  calc |c| = |V3| * |a - β| := by rw [← abs_mul, ← e]
    _ ≤ |V3| * (3 * M) := mul_le_mul_of_nonneg_left hd (abs_nonneg _)
    _ = _ := by ring

/-- `dlarfg` on the first one or two elements of a longer vector. -/
theorem larfg_nearR (rest : List Float) (hl : rest.length < 2 ^ 31) {i k : ℤ} (hki : k + 1 ≤ i) {a b c : Float} (fa : a.isFinite = true) (fb : b.isFinite = true)
    (fc : k + 2 ≤ i → c.isFinite = true) (ba : |toR a| ≤ big) (bb : |toR b| ≤ big) (bc : k + 2 ≤ i → |toR c| ≤ big) :
    ∃ beta v2 v3 t β V2 V3 T, dlarfg (min 3 (i - k + 1)) a (b :: c :: rest) 1 = pure (beta, v2 :: v3 :: rest, t) ∧ NearR i k v2 v3 t V2 V3 T ∧
      HeadF (toR a) (toR b) (if k + 2 ≤ i then toR c else 0) beta β V2 V3 T ∧
      (k + 2 ≤ i → Third (toR a) (toR b) (toR c) t v3 V3) := by
  have e66 : (3 : ℝ) * ((2 : Nat) + 20) / 2 ^ 53 = 66 * ur := by unfold ur; norm_num
  have e63 : (3 : ℝ) * ((1 : Nat) + 20) / 2 ^ 53 = 63 * ur := by unfold ur; norm_num
  have eeta : (1 : ℝ) / 2 ^ 1075 = eta := rfl
  by_cases hk : k + 2 ≤ i
  · rw [show min 3 (i - k + 1) = 3 by omega, if_pos hk]
    have e0 : ∀ y z : Float, fel 2 1 (y :: z :: rest) 0 = y := fun _ _ => rfl
    have e1 : ∀ y z : Float, fel 2 1 (y :: z :: rest) 1 = z := fun _ _ => rfl
    obtain ⟨beta, tau, x', e, ho, hcase⟩ := C66_dlarfg_f64_simple 2 (by norm_num) a (b :: c :: rest) 1 (le_refl _) (fun k hk => by
        have : k = 0 ∨ k = 1 := by omega
        rcases this with rfl | rfl
        · rw [show strideIx 2 1 0 = 0 by decide]; simp
        · rw [show strideIx 2 1 1 = 1 by decide]; simp) (by simp; omega) (by norm_num) fa
      (fun k hk' => by
        have : k = 0 ∨ k = 1 := by omega
        rcases this with rfl | rfl
        · rw [e0]; exact fb
        · rw [e1]; exact fc hk) (Or.inl (by norm_num)) (by
        rw [Finset.sum_range_succ, Finset.sum_range_one, e0, e1]
        have q1 := sq_big ba
        have q2 := sq_big bb
        have q3 := sq_big (bc hk)
        apply sqrt_big
        generalize (2 : ℝ) ^ (2000 : ℤ) = w at *
        linarith only [q1, q2, q3])
    obtain ⟨v2, v3, rest', rfl⟩ : ∃ p q r, x' = p :: q :: r := by
      match x', ho.length with
      | p :: q :: r, _ => exact ⟨p, q, r, rfl⟩
    have hrest : rest' = rest := by
      apply List.ext_getElem?
      intro i
      have := ho.frame (i + 2) (by intro k hk; unfold strideIx; simp; omega)
      simpa using this
    subst hrest
    rcases hcase with ⟨rfl, h2, rfl, h4⟩ | h
    · simp only [List.cons.injEq, and_true] at h2
      obtain ⟨rfl, rfl⟩ := h2
      rw [Finset.sum_range_succ, Finset.sum_range_one, e0, e1] at h4
      have s2 : |toR v2| ≤ mu := small_of_sqrt (le_refl 2) (by nlinarith [sq_nonneg (toR v3)]) h4
      have s3 : |toR v3| ≤ mu := small_of_sqrt (le_refl 2) (by nlinarith [sq_nonneg (toR v2)]) h4
      exact ⟨_, _, _, _, toR beta, 0, 0, 0, e, ⟨nearV_small fb s2, fun _ => nearV_small (fc hk) s3, fun h => absurd hk h, nearT_zero',
        nearT_zero fb, fun _ => nearT_zero (fc hk)⟩, headF_triv fa s2 s3, fun _ h => absurd h (not_lt.2 s3)⟩
    · obtain ⟨B, T, V, hR, f1, h1, f2, t1, t2, h2, h3⟩ := h
      obtain ⟨ro, r1, r2, rn, -⟩ := hR
      have g0 := h3 0 (by norm_num)
      have g1 := h3 1 (by norm_num)
      have q0 := r2 0 (by norm_num)
      have q1 := r2 1 (by norm_num)
      simp only [Finset.sum_range_succ, Finset.sum_range_zero, zero_add, e0, e1, e66, eeta] at ro r1 q0 q1 h1 h2 g0 g1
      have ro' : T * (1 + V 0 ^ 2 + V 1 ^ 2) = 2 := by linarith
      obtain ⟨T0, n2, n3, m1, m2, m3⟩ := near_factors (n := True) ro' f2 t1 h2 g0 (fun _ => g1)
      refine ⟨beta, v2, v3, tau, B, V 0, V 1, T, e, ⟨n2, fun _ => n3 trivial, fun h => absurd hk h, m1, m2, fun _ => m3 trivial⟩, ?_⟩
      have hm : Maps (toR a) (toR b) (toR c) B (V 0) (V 1) T := by
        refine ⟨?_, ?_, ?_, ?_, T0, ?_⟩
        · unfold Refl; rw [ro']; ring
        · rw [← r1]; ring
        · rw [← q0]; ring
        · rw [← q1]; ring
        · have := m1.le; rwa [abs_of_nonneg T0] at this
      exact ⟨headF_of_maps hm f1 h1, fun _ _ => ⟨t1, g1.2, fun M ha hb hc => third_le hm ha hb hc⟩⟩
  · rw [show min 3 (i - k + 1) = 2 by omega, if_neg hk]
    have e0 : ∀ y z : Float, fel 1 1 (y :: z :: rest) 0 = y := fun _ _ => rfl
    obtain ⟨beta, tau, x', e, ho, hcase⟩ := C66_dlarfg_f64_simple 1 (by norm_num) a (b :: c :: rest) 1 (le_refl _) (fun k hk => by
        have : k = 0 := by omega
        rcases this with rfl
        rw [show strideIx 1 1 0 = 0 by decide]; simp) (by simp; omega) (by norm_num) fa
      (fun k hk' => by
        have : k = 0 := by omega
        rcases this with rfl
        rw [e0]; exact fb) (Or.inl (by norm_num)) (by
        rw [Finset.sum_range_one, e0]
        have q1 := sq_big ba
        have q2 := sq_big bb
        have q3 := zp 2000
        apply sqrt_big
        generalize (2 : ℝ) ^ (2000 : ℤ) = w at *
        linarith only [q1, q2, q3])
    obtain ⟨v2, v3, rest', rfl⟩ : ∃ p q r, x' = p :: q :: r := by
      match x', ho.length with
      | p :: q :: r, _ => exact ⟨p, q, r, rfl⟩
    have hrest : rest' = rest := by
      apply List.ext_getElem?
      intro i
      have := ho.frame (i + 2) (by intro k hk; unfold strideIx; simp; omega)
      simpa using this
    subst hrest
    have hv3 : v3 = c := by
      have := ho.frame 1 (by intro k hk; unfold strideIx; simp; omega)
      simpa using this
    subst hv3
    rcases hcase with ⟨rfl, h2, rfl, h4⟩ | h
    · simp only [List.cons.injEq, and_true] at h2
      obtain ⟨rfl, rfl⟩ := h2
      rw [Finset.sum_range_one, e0] at h4
      have s2 : |toR b| ≤ mu := small_of_sqrt (by norm_num) (le_refl _) h4
      exact ⟨_, _, _, _, toR beta, 0, 0, 0, e, ⟨nearV_small fb s2, fun h => absurd h hk, fun h => rfl, nearT_zero',
        nearT_zero fb, fun h => absurd h hk⟩, headF_triv fa s2 (by rw [abs_zero]; exact mu_pos.le), fun h => absurd h hk⟩
    · obtain ⟨B, T, V, hR, f1, h1, f2, t1, t2, h2, h3⟩ := h
      obtain ⟨ro, r1, r2, rn, -⟩ := hR
      have g0 := h3 0 (by norm_num)
      have q0 := r2 0 (by norm_num)
      simp only [Finset.sum_range_one, e0, e63, eeta] at ro r1 q0 h1 h2 g0
      have lift : ∀ x : ℝ, 0 ≤ x → 63 * ur * x ≤ 66 * ur * x := fun x hx => by
        have := mul_nonneg ur_pos.le hx; nlinarith
      have ro' : T * (1 + V 0 ^ 2 + 0 ^ 2) = 2 := by linarith
      obtain ⟨T0, n2, -, m1, m2, -⟩ := near_factors (n := False) (v3 := v3) (V3 := 0) ro' f2 t1 (h2.trans (lift _ (abs_nonneg _)))
        ⟨g0.1, g0.2.trans (by linarith [lift _ (abs_nonneg (V 0))])⟩ (fun h => h.elim)
      refine ⟨beta, v2, v3, tau, B, V 0, 0, T, e, ⟨n2, fun h => absurd h hk, fun _ => rfl, m1, m2, fun h => absurd h hk⟩, ?_⟩
      refine ⟨headF_of_maps ⟨?_, ?_, ?_, ?_, T0, ?_⟩ f1 (h1.trans (by linarith [lift _ (abs_nonneg B)])), fun h => absurd h hk⟩
      · unfold Refl; rw [ro']; ring
      · rw [← r1]; ring
      · linear_combination q0
      · ring
      · have := m1.le; rwa [abs_of_nonneg T0] at this

section
variable {ldv c : Nat} {rest : List Float} {v : FA Float} {x y w a : Float}

/-- Building a reflector in the column `v`. -/
theorem larfg5_near (h : V5F ldv c rest v x y w) {i k : ℤ} (hki : k + 1 ≤ i) (fa : a.isFinite = true) (fb : y.isFinite = true)
    (fc : k + 2 ≤ i → w.isFinite = true) (ba : |toR a| ≤ big) (bb : |toR y| ≤ big) (bc : k + 2 ≤ i → |toR w| ≤ big) :
    ∃ beta v2 v3 t β V2 V3 T v', qr5Larfg ldv (min 3 (i - k + 1)) 1 a v = pure (beta, v') ∧ V5F ldv c rest v' t v2 v3 ∧
      NearR i k v2 v3 t V2 V3 T ∧ HeadF (toR a) (toR y) (if k + 2 ≤ i then toR w else 0) beta β V2 V3 T ∧
      (k + 2 ≤ i → Third (toR a) (toR y) (toR w) t v3 V3) := by
  obtain ⟨hl1, hl2⟩ := h.len
  obtain ⟨beta, v2, v3, t, β, V2, V3, T, e, hn, hh, h3⟩ := larfg_nearR rest (by omega) hki fa fb fc ba bb bc
  obtain ⟨v1, e1, d1⟩ := h.insert v2 v3 t
  obtain ⟨v', e', k'⟩ := h.of_list t v2 v3 v1 d1
  refine ⟨beta, v2, v3, t, β, V2, V3, T, v', ?_, k', hn, hh, h3⟩
  unfold qr5Larfg
  rw [h.from2, pure_bind, e, pure_bind]
  simp only
  rw [e1, pure_bind, e', pure_bind]

end

end Verif

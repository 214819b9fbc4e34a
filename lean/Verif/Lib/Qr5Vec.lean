import Verif.Lib.Qr5Mat
import Verif.Props.Laqr1
import Verif.Model.Qr5

/-!
# The reflector column `v` of `dlaqr5` in exact arithmetic
-/

namespace Verif
open Scalar Spec XR

/-- `dlarfg` on the first two elements of a longer vector. -/
theorem dlarfg_three' {a b c : ℝ} (rest : List ℝ) (hl : rest.length < 2 ^ 31) (ha : |a| ≤ 2 ^ 500) (hb : |b| ≤ 2 ^ 500) (hc : |c| ≤ 2 ^ 500) :
    ∃ beta v2 v3 t, dlarfg 3 (fin a) ((b :: c :: rest).map fin) 1 = pure (fin beta, (v2 :: v3 :: rest).map fin, fin t) ∧
      Maps a b c beta v2 v3 t := by
  have hfit : StrideFits 2 1 (b :: c :: rest).length := by
    intro k hk; unfold strideIx; simp; omega
  have hmix : Unmixed 2 1 (b :: c :: rest) := small_unmixed _ _ (by
    intro k hk
    interval_cases k <;> simpa)
  have hlen : (b :: c :: rest).length < 2 ^ 60 := by simp; omega
  by_cases hz : b = 0 ∧ c = 0
  · obtain ⟨rfl, rfl⟩ := hz
    have hn := C16_dnrm2_euclid 2 (0 :: 0 :: rest) 1 hfit hlen (by norm_num) hmix
    refine ⟨a, 0, 0, 0, ?_, ⟨by simp [Refl], by simp, by simp, by simp, le_refl _, by norm_num⟩⟩
    refine (C35_dlarfg_zero 3 (by norm_num) (by norm_num) _ _ _ _ hn ?_).trans (by simp)
    · have : (∑ k ∈ Finset.range 2, (0 :: 0 :: rest : List ℝ).getD (strideIx 2 1 k) 0 ^ 2) = 0 := by
        simp [Finset.sum_range_succ, strideIx]
      rw [this]; simp
  · have hne : ∃ k < 2, elt 2 1 (b :: c :: rest) k ≠ 0 := by
      by_cases hb0 : b = 0
      · exact ⟨1, by norm_num, by rw [elt_one]; simp; tauto⟩
      · exact ⟨0, by norm_num, by rw [elt_one]; simpa⟩
    obtain ⟨beta, tau, x', e, hl', hframe, hbeta, -, ht1, ht2, h3⟩ := C34_dlarfg 2 (by norm_num) a (b :: c :: rest) 1 (by norm_num) hfit hlen
      (by norm_num) hmix hne (by
        simp only [Finset.sum_range_succ, Finset.sum_range_zero, elt_one]
        have := sqrt3_le ha hb hc
        simpa [add_assoc] using this)
    obtain ⟨v2, v3, rest', rfl⟩ : ∃ p q r, x' = p :: q :: r := by
      match x', hl' with
      | p :: q :: r, _ => exact ⟨p, q, r, rfl⟩
    have hrest : rest' = rest := by
      apply List.ext_getElem?
      intro i
      have := hframe (i + 2) (by intro k hk; unfold strideIx; simp; omega)
      simpa using this
    subst hrest
    obtain ⟨hmap, hnorm⟩ := h3
    refine ⟨beta, v2, v3, tau, by simpa using e, ?_⟩
    have m0 := hmap 0 (by norm_num)
    have m1 := hmap 1 (by norm_num)
    have m2 := hmap 2 (by norm_num)
    have n0 := hnorm (fun i => if i = 0 then 1 else 0)
    simp [Finset.sum_range_succ, consStride, strideIx, elt] at m0 m1 m2 n0
    refine ⟨?_, m0, by linear_combination m1, by linear_combination m2, by linarith, ht2⟩
    unfold Refl
    linear_combination n0

/-- `dlarfg` on the first element of a longer vector. -/
theorem dlarfg_two' {a b : ℝ} (rest : List ℝ) (hl : rest.length < 2 ^ 31) (ha : |a| ≤ 2 ^ 500) (hb : |b| ≤ 2 ^ 500) :
    ∃ beta v2 t, dlarfg 2 (fin a) ((b :: rest).map fin) 1 = pure (fin beta, (v2 :: rest).map fin, fin t) ∧ Maps a b 0 beta v2 0 t := by
  have hfit : StrideFits 1 1 (b :: rest).length := by
    intro k hk; unfold strideIx; simp; omega
  have hmix : Unmixed 1 1 (b :: rest) := small_unmixed _ _ (by
    intro k hk
    interval_cases k; simpa)
  have hlen : (b :: rest).length < 2 ^ 60 := by simp; omega
  by_cases hz : b = 0
  · subst hz
    have hn := C16_dnrm2_euclid 1 (0 :: rest) 1 hfit hlen (by norm_num) hmix
    refine ⟨a, 0, 0, ?_, ⟨by simp [Refl], by simp, by simp, by simp, le_refl _, by norm_num⟩⟩
    refine (C35_dlarfg_zero 2 (by norm_num) (by norm_num) _ _ _ _ hn ?_).trans (by simp)
    · have : (∑ k ∈ Finset.range 1, (0 :: rest : List ℝ).getD (strideIx 1 1 k) 0 ^ 2) = 0 := by
        simp [Finset.sum_range_succ, strideIx]
      rw [this]; simp
  · have hne : ∃ k < 1, elt 1 1 (b :: rest) k ≠ 0 := ⟨0, by norm_num, by rw [elt_one]; simpa⟩
    obtain ⟨beta, tau, x', e, hl', hframe, hbeta, -, ht1, ht2, h3⟩ := C34_dlarfg 1 (by norm_num) a (b :: rest) 1 (by norm_num) hfit hlen
      (by norm_num) hmix hne (by
        simp only [Finset.sum_range_succ, Finset.sum_range_zero, elt_one]
        have := sqrt3_le ha hb (show |(0 : ℝ)| ≤ 2 ^ 500 by rw [abs_zero]; positivity)
        simpa [add_assoc] using this)
    obtain ⟨v2, rest', rfl⟩ : ∃ p r, x' = p :: r := by
      match x', hl' with
      | p :: r, _ => exact ⟨p, r, rfl⟩
    have hrest : rest' = rest := by
      apply List.ext_getElem?
      intro i
      have := hframe (i + 1) (by intro k hk; unfold strideIx; simp; omega)
      simpa using this
    subst hrest
    obtain ⟨hmap, hnorm⟩ := h3
    refine ⟨beta, v2, tau, by simpa using e, ?_⟩
    have m0 := hmap 0 (by norm_num)
    have m1 := hmap 1 (by norm_num)
    have n0 := hnorm (fun i => if i = 0 then 1 else 0)
    simp [Finset.sum_range_succ, consStride, strideIx, elt] at m0 m1 n0
    refine ⟨?_, by linear_combination m0, by linear_combination m1, by simp, by linarith, ht2⟩
    unfold Refl
    linear_combination n0

/-- The array `v`: an `ldv`-by-`c` matrix of finite numbers whose first column starts with `x`, `y`, `w`. -/
structure V5 (ldv c : Nat) (rest : List ℝ) (v : FA XR) (x y w : ℝ) : Prop where
  ld : 3 ≤ ldv
  mat : IsMatrix v ldv c
  data : v.data = (x :: y :: w :: rest).map fin

section
variable {ldv c : Nat} {rest : List ℝ} {v : FA XR} {x y w : ℝ}

theorem V5.len (h : V5 ldv c rest v x y w) : rest.length + 3 = ldv * c ∧ ldv * c < 2 ^ 31 := by
  have := h.mat.length
  rw [h.data] at this
  simp at this
  exact ⟨by omega, h.mat.small⟩

theorem V5.cpos (h : V5 ldv c rest v x y w) : 1 ≤ c := by
  have := h.len.1
  rcases Nat.eq_zero_or_pos c with e | e
  · rw [e] at this; omega
  · exact e

theorem V5.cell (h : V5 ldv c rest v x y w) {i : ℤ} (h1 : 1 ≤ i) (h2 : i ≤ 3) : Cell ldv (ldv * c) i 1 := by
  have := h.len.1
  have := h.ld
  refine ⟨h1, by omega, le_refl _, ?_⟩
  rw [sub_self, zero_mul]
  omega

theorem V5.off (h : V5 ldv c rest v x y w) {i : ℤ} (h1 : 1 ≤ i) (h2 : i ≤ 3) : v.off i 1 = pure (i - 1) := by
  rw [off_ok h.mat.rows (h.cell h1 h2) h.mat.small]
  congr 1; ring

theorem V5.get (h : V5 ldv c rest v x y w) : v.get2 1 1 = pure (fin x) ∧ v.get2 2 1 = pure (fin y) ∧ v.get2 3 1 = pure (fin w) := by
  refine ⟨?_, ?_, ?_⟩
  · unfold FA.get2; rw [h.off (by norm_num) (by norm_num), pure_bind, h.data]; rfl
  · unfold FA.get2; rw [h.off (by norm_num) (by norm_num), pure_bind, h.data]; rfl
  · unfold FA.get2; rw [h.off (by norm_num) (by norm_num), pure_bind, h.data]; rfl

theorem V5.set2 (h : V5 ldv c rest v x y w) (y' : ℝ) : ∃ v', v.set2 2 1 (fin y') = pure v' ∧ V5 ldv c rest v' x y' w := by
  refine ⟨{ v with data := (x :: y' :: w :: rest).map fin }, ?_, h.ld, ⟨h.mat.rows, h.mat.cols, ?_, h.mat.small⟩, rfl⟩
  · unfold FA.set2 FA.modify2; rw [h.off (by norm_num) (by norm_num), pure_bind, h.data]; rfl
  · have := h.len.1; simp; omega

theorem V5.set3 (h : V5 ldv c rest v x y w) (w' : ℝ) : ∃ v', v.set2 3 1 (fin w') = pure v' ∧ V5 ldv c rest v' x y w' := by
  refine ⟨{ v with data := (x :: y :: w' :: rest).map fin }, ?_, h.ld, ⟨h.mat.rows, h.mat.cols, ?_, h.mat.small⟩, rfl⟩
  · unfold FA.set2 FA.modify2; rw [h.off (by norm_num) (by norm_num), pure_bind, h.data]; rfl
  · have := h.len.1; simp; omega

theorem V5.from1 (h : V5 ldv c rest v x y w) : v.from2 1 1 = pure ((x :: y :: w :: rest).map fin) := by
  have := h.ld; have := h.cpos
  rw [C07_from2 h.mat (by norm_num) (by omega) (by norm_num) (by omega), h.data]
  simp

theorem V5.from2 (h : V5 ldv c rest v x y w) : v.from2 2 1 = pure ((y :: w :: rest).map fin) := by
  have := h.ld; have := h.cpos
  rw [C07_from2 h.mat (by norm_num) (by omega) (by norm_num) (by omega), h.data]
  simp

/-- The array rebuilt from a list. -/
theorem V5.of_list (h : V5 ldv c rest v x y w) (x' y' w' : ℝ) (a : FA XR) (ha : a.data = (x' :: y' :: w' :: rest).map fin) :
    ∃ v', a.as2d ldv = pure v' ∧ V5 ldv c rest v' x' y' w' := by
  have hl := h.len
  have h3 := h.ld
  have hc := h.cpos
  have hlen : a.data.length = ldv * c := by rw [ha]; simp; omega
  refine ⟨{ a with rows := ldv, cols := c }, ?_, h3, ⟨rfl, rfl, hlen, h.mat.small⟩, ha⟩
  unfold FA.as2d
  rw [if_neg (by omega), hlen]
  have hs : ((ldv * c : Nat) : Int) < 2147483648 := by exact_mod_cast hl.2
  have e : wrap32 ((ldv * c : Nat) : Int) = ((ldv * c : Nat) : Int) := wrap32_of_fits (by unfold FitsI32; omega)
  have hdiv : ((ldv * c : Nat) : Int).tdiv ldv = c := by
    push_cast
    exact Int.mul_tdiv_cancel_left _ (by omega)
  have hcs : c ≤ ldv * c := Nat.le_mul_of_pos_left _ (by omega)
  rw [e, hdiv, chk_ok (by unfold FitsI32; omega), pure_bind]

theorem V5.insert (h : V5 ldv c rest v x y w) (y' w' t : ℝ) :
    ∃ v' : FA XR, (faOfVec ((y' :: w' :: rest).map fin)).insert 1 (fin t) = pure v' ∧ v'.data = (t :: y' :: w' :: rest).map fin := by
  have hl := h.len
  have hs : ((ldv * c : Nat) : Int) < 2147483648 := by exact_mod_cast hl.2
  refine ⟨{ faOfVec ((y' :: w' :: rest).map fin) with data := (t :: y' :: w' :: rest).map fin }, ?_, rfl⟩
  unfold FA.insert FA.len FA.is2d faOfVec
  simp only [show decide ((0 : Int) > 0) = false by decide, Bool.and_false, Bool.false_eq_true, if_false, pure_bind]
  have e : wrap32 (((y' :: w' :: rest).map fin).length : Int) = rest.length + 2 := by
    rw [wrap32_of_fits (by simp; unfold FitsI32; omega)]; simp; ring
  rw [e, if_pos (by omega)]
  have e1 : asUsize 1 - 1 = 0 := by decide
  rw [e1, if_pos (Nat.zero_le _)]
  rfl

/-- Building a three-element reflector. -/
theorem larfg5_three {a : ℝ} (h : V5 ldv c rest v x y w) (ha : |a| ≤ 2 ^ 500) (hy : |y| ≤ 2 ^ 500) (hw : |w| ≤ 2 ^ 500) :
    ∃ beta v2 v3 t v', qr5Larfg ldv 3 1 (fin a) v = pure (fin beta, v') ∧ Maps a y w beta v2 v3 t ∧ V5 ldv c rest v' t v2 v3 := by
  obtain ⟨hl1, hl2⟩ := h.len
  obtain ⟨beta, v2, v3, t, e, hm⟩ := dlarfg_three' rest (by omega) ha hy hw
  obtain ⟨v1, e1, d1⟩ := h.insert v2 v3 t
  obtain ⟨v', e', k'⟩ := h.of_list t v2 v3 v1 d1
  refine ⟨beta, v2, v3, t, v', ?_, hm, k'⟩
  unfold qr5Larfg
  rw [h.from2, pure_bind, e, pure_bind]
  simp only
  rw [e1, pure_bind, e', pure_bind]

/-- Building a two-element reflector. -/
theorem larfg5_two {a : ℝ} (h : V5 ldv c rest v x y w) (ha : |a| ≤ 2 ^ 500) (hy : |y| ≤ 2 ^ 500) :
    ∃ beta v2 t v', qr5Larfg ldv 2 1 (fin a) v = pure (fin beta, v') ∧ Maps a y 0 beta v2 0 t ∧ V5 ldv c rest v' t v2 w := by
  obtain ⟨hl1, hl2⟩ := h.len
  have hc := h.cpos; have h3 := h.ld
  obtain ⟨beta, v2, t, e, hm⟩ := dlarfg_two' (w :: rest) (by simp; omega) ha hy
  obtain ⟨v1, e1, d1⟩ := h.insert v2 w t
  obtain ⟨v', e', k'⟩ := h.of_list t v2 w v1 d1
  refine ⟨beta, v2, t, v', ?_, hm, k'⟩
  unfold qr5Larfg
  rw [h.from2, pure_bind, e, pure_bind]
  simp only
  rw [e1, pure_bind, e', pure_bind]

end

end Verif

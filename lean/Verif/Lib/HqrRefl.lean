import Verif.Lib.Sim
import Verif.Lib.Refl
import Verif.Lib.HqrMat
import Verif.Props.Larfg

/-!
# The reflectors of `dlahqr` in exact arithmetic
-/

namespace Verif
open Scalar Spec XR

/-- The reflector `(1, v2, v3)`, `t` maps `(a, b, c)` to `(beta, 0, 0)`. -/
structure Maps (a b c beta v2 v3 t : ℝ) : Prop where
  refl : Refl v2 v3 t
  e1 : a - t * (a + v2 * b + v3 * c) = beta
  e2 : b - t * v2 * (a + v2 * b + v3 * c) = 0
  e3 : c - t * v3 * (a + v2 * b + v3 * c) = 0
  t0 : 0 ≤ t
  t2 : t ≤ 2

theorem Maps.sum {a b c beta v2 v3 t : ℝ} (h : Maps a b c beta v2 v3 t) : t * (a + v2 * b + v3 * c + beta) = 0 := by
  have h1 := h.refl
  have h2 := h.e1
  have h3 := h.e2
  have h4 := h.e3
  unfold Refl at h1
  by_cases ht : t = 0
  · rw [ht, zero_mul]
  · have hw : t * (1 + v2 ^ 2 + v3 ^ 2) - 2 = 0 := by
      rcases mul_eq_zero.1 h1 with h | h
      · exact absurd h ht
      · exact h
    linear_combination (-t) * h2 + (-t * v2) * h3 + (-t * v3) * h4 + (-(t * (a + v2 * b + v3 * c))) * hw - t * h2 +
      t * h2 + t * 2 * h2 - t * 2 * h2

theorem Maps.b {a b c beta v2 v3 t : ℝ} (h : Maps a b c beta v2 v3 t) : t * v2 * beta = -b := by
  linear_combination v2 * h.sum + h.e2

theorem Maps.c {a b c beta v2 v3 t : ℝ} (h : Maps a b c beta v2 v3 t) : t * v3 * beta = -c := by
  linear_combination v3 * h.sum + h.e3

theorem Maps.norm {a b c beta v2 v3 t : ℝ} (h : Maps a b c beta v2 v3 t) : beta ^ 2 = a ^ 2 + b ^ 2 + c ^ 2 := by
  have h1 := h.refl
  have h2 := h.e1
  have h3 := h.e2
  have h4 := h.e3
  unfold Refl at h1
  have e1 : beta = a - t * (a + v2 * b + v3 * c) := h2.symm
  have e2 : b = t * v2 * (a + v2 * b + v3 * c) := by linarith
  have e3 : c = t * v3 * (a + v2 * b + v3 * c) := by linarith
  set s := a + v2 * b + v3 * c with hs
  rw [e1]
  linear_combination s ^ 2 * h1 + (-(b + t * v2 * s) + 2 * t * s * v2) * h3 + (-(c + t * v3 * s) + 2 * t * s * v3) * h4 + 2 * t * s * hs

theorem elt_one (m : Nat) (x : List ℝ) (k : Nat) : elt m 1 x k = x.getD k 0 := by
  unfold elt strideIx
  simp

/-- Half of the bound that keeps `dnrm2` exact. -/
theorem small_unmixed (m : Nat) (x : List ℝ) (hx : ∀ k < m, |x.getD k 0| ≤ 2 ^ 500) : Unmixed m 1 x := by
  rintro ⟨⟨j, hj, h⟩, -⟩
  rw [elt_one] at h
  have h1 : (2 : ℝ) ^ 500 ≤ 2 ^ 505 := pow_le_pow_right₀ (by norm_num) (by norm_num)
  exact absurd ((hx j hj).trans h1) (not_le.2 h)

theorem sqrt3_le {a b c : ℝ} (ha : |a| ≤ 2 ^ 500) (hb : |b| ≤ 2 ^ 500) (hc : |c| ≤ 2 ^ 500) :
    Real.sqrt (a ^ 2 + b ^ 2 + c ^ 2) ≤ fMax := by
  have h0 : (0 : ℝ) ≤ 2 ^ 500 := by positivity
  have sq (x : ℝ) (hx : |x| ≤ 2 ^ 500) : x ^ 2 ≤ (2 ^ 500) ^ 2 := sq_le_sq.2 (by rwa [abs_of_nonneg h0])
  have h1 : Real.sqrt (a ^ 2 + b ^ 2 + c ^ 2) ≤ 2 * 2 ^ 500 := by
    apply Real.sqrt_le_iff.2
    refine ⟨by positivity, ?_⟩
    have := sq a ha; have := sq b hb; have := sq c hc
    have h4 : (0 : ℝ) ≤ (2 ^ 500) ^ 2 := sq_nonneg _
    have e : (2 * (2 : ℝ) ^ 500) ^ 2 = 4 * (2 ^ 500) ^ 2 := by ring
    rw [e]
    generalize ((2 : ℝ) ^ 500) ^ 2 = T at *
    clear ha hb hc e sq h0
    linarith
  refine h1.trans ?_
  have h2 : (1 : ℝ) ≤ 2 - 1 / 2 ^ 52 := by norm_num
  have h3 : 2 * (2 : ℝ) ^ 500 ≤ 2 ^ 1023 := by
    rw [← pow_succ']
    exact pow_le_pow_right₀ (by norm_num) (by norm_num)
  calc 2 * (2 : ℝ) ^ 500 ≤ 1 * 2 ^ 1023 := by rw [one_mul]; exact h3
    _ ≤ _ := mul_le_mul_of_nonneg_right h2 (by positivity)

/-- `dlarfg` on the vector `(b, c)`, three elements. -/
theorem dlarfg_three {a b c : ℝ} (ha : |a| ≤ 2 ^ 500) (hb : |b| ≤ 2 ^ 500) (hc : |c| ≤ 2 ^ 500) :
    ∃ beta v2 v3 t, dlarfg 3 (fin a) [fin b, fin c] 1 = pure (fin beta, [fin v2, fin v3], fin t) ∧ Maps a b c beta v2 v3 t := by
  have hfit : StrideFits 2 1 [b, c].length := by
    intro k hk; unfold strideIx; simp; omega
  have hmix : Unmixed 2 1 [b, c] := small_unmixed _ _ (by
    intro k hk
    interval_cases k <;> simpa)
  by_cases hz : b = 0 ∧ c = 0
  · obtain ⟨rfl, rfl⟩ := hz
    have hn := C16_dnrm2_euclid 2 [0, 0] 1 hfit (by simp) (by norm_num) hmix
    refine ⟨a, 0, 0, 0, ?_, ⟨by simp [Refl], by simp, by simp, by simp, le_refl _, by norm_num⟩⟩
    refine (C35_dlarfg_zero 3 (by norm_num) (by norm_num) _ _ _ _ hn ?_).trans (by simp)
    · 
      have : (∑ k ∈ Finset.range 2, ([0, 0] : List ℝ).getD (strideIx 2 1 k) 0 ^ 2) = 0 := by
        simp [Finset.sum_range_succ, strideIx]
      rw [this]; simp
  · have hne : ∃ k < 2, elt 2 1 [b, c] k ≠ 0 := by
      by_cases hb0 : b = 0
      · exact ⟨1, by norm_num, by rw [elt_one]; simp; tauto⟩
      · exact ⟨0, by norm_num, by rw [elt_one]; simpa⟩
    obtain ⟨beta, tau, x', e, hl, -, hbeta, -, ht1, ht2, h3⟩ := C34_dlarfg 2 (by norm_num) a [b, c] 1 (by norm_num) hfit (by simp)
      (by norm_num) hmix hne (by
        simp only [Finset.sum_range_succ, Finset.sum_range_zero, elt_one]
        have := sqrt3_le ha hb hc
        simpa [add_assoc] using this)
    obtain ⟨v2, v3, rfl⟩ : ∃ p q, x' = [p, q] := by
      match x', hl with
      | [p, q], _ => exact ⟨p, q, rfl⟩
    obtain ⟨hmap, hnorm⟩ := h3
    refine ⟨beta, v2, v3, tau, by simpa using e, ?_⟩
    have m0 := hmap 0 (by norm_num)
    have m1 := hmap 1 (by norm_num)
    have m2 := hmap 2 (by norm_num)
    have n0 := hnorm (fun i => if i = 0 then 1 else 0)
    simp [Finset.sum_range_succ, consStride, strideIx, elt] at m0 m1 m2 n0
    refine ⟨?_, m0, by linear_combination m1, by linear_combination m2, by linarith, ht2⟩
    unfold Refl
    linear_combination n0

/-- `dlarfg` on the first element of `(b, y)`, two elements. -/
theorem dlarfg_two {a b : ℝ} (y : ℝ) (ha : |a| ≤ 2 ^ 500) (hb : |b| ≤ 2 ^ 500) :
    ∃ beta v2 t, dlarfg 2 (fin a) [fin b, fin y] 1 = pure (fin beta, [fin v2, fin y], fin t) ∧ Maps a b 0 beta v2 0 t := by
  have hfit : StrideFits 1 1 [b, y].length := by
    intro k hk; unfold strideIx; simp; omega
  have hmix : Unmixed 1 1 [b, y] := small_unmixed _ _ (by
    intro k hk
    interval_cases k; simpa)
  by_cases hz : b = 0
  · subst hz
    have hn := C16_dnrm2_euclid 1 [0, y] 1 hfit (by simp) (by norm_num) hmix
    refine ⟨a, 0, 0, ?_, ⟨by simp [Refl], by simp, by simp, by simp, le_refl _, by norm_num⟩⟩
    refine (C35_dlarfg_zero 2 (by norm_num) (by norm_num) _ _ _ _ hn ?_).trans (by simp)
    · 
      have : (∑ k ∈ Finset.range 1, ([0, y] : List ℝ).getD (strideIx 1 1 k) 0 ^ 2) = 0 := by
        simp [Finset.sum_range_succ, strideIx]
      rw [this]; simp
  · have hne : ∃ k < 1, elt 1 1 [b, y] k ≠ 0 := ⟨0, by norm_num, by rw [elt_one]; simpa⟩
    obtain ⟨beta, tau, x', e, hl, hframe, hbeta, -, ht1, ht2, h3⟩ := C34_dlarfg 1 (by norm_num) a [b, y] 1 (by norm_num) hfit (by simp)
      (by norm_num) hmix hne (by
        simp only [Finset.sum_range_succ, Finset.sum_range_zero, elt_one]
        have := sqrt3_le ha hb (show |(0 : ℝ)| ≤ 2 ^ 500 by rw [abs_zero]; positivity)
        simpa [add_assoc] using this)
    obtain ⟨v2, y', rfl⟩ : ∃ p q, x' = [p, q] := by
      match x', hl with
      | [p, q], _ => exact ⟨p, q, rfl⟩
    have hy := hframe 1 (by intro k hk; unfold strideIx; simp; omega)
    simp at hy
    subst hy
    obtain ⟨hmap, hnorm⟩ := h3
    refine ⟨beta, v2, tau, by simpa using e, ?_⟩
    have m0 := hmap 0 (by norm_num)
    have m1 := hmap 1 (by norm_num)
    have n0 := hnorm (fun i => if i = 0 then 1 else 0)
    simp [Finset.sum_range_succ, consStride, strideIx, elt] at m0 m1 n0
    refine ⟨?_, by linear_combination m0, by linear_combination m1, by simp, by linarith, ht2⟩
    unfold Refl
    linear_combination n0

/-! ### The reflector computed by one step of the sweep -/

/-- The work vector of `dlahqr`: three finite elements, two or three of them accounted for. -/
structure Work (v : FA XR) (a b c : ℝ) : Prop where
  data : v.data = [fin a, fin b, fin c]
  rows : v.rows = 2 ∨ v.rows = 3
  cols : v.cols = 0

theorem Work.get1 {v : FA XR} {a b c : ℝ} (h : Work v a b c) : v.get1 1 = fin a ∧ v.get1 2 = fin b ∧ v.get1 3 = fin c := by
  unfold FA.get1
  rw [h.data]
  refine ⟨?_, ?_, ?_⟩ <;> rfl

theorem Work.from1 {v : FA XR} {a b c : ℝ} (h : Work v a b c) : v.from1 2 = pure [fin b, fin c] := by
  have hl : v.len = pure v.rows := by
    unfold FA.len FA.is2d
    rw [h.cols]; simp
  unfold FA.from1
  rw [hl, pure_bind, if_pos (by rcases h.rows with e | e <;> rw [e] <;> norm_num), h.data]
  rfl

theorem Work.insert {w : FA XR} {b c : ℝ} (hd : w.data = [fin b, fin c]) (hr : w.rows = 2) (hc : w.cols = 0) (a : ℝ) :
    Tot (w.insert 1 (fin a)) fun v => Work v a b c := by
  have hl : w.len = pure w.rows := by
    unfold FA.len FA.is2d
    rw [hc]; simp
  unfold FA.insert
  rw [hl, pure_bind, hr, if_pos (by norm_num), hd]
  exact Tot.pure ⟨rfl, Or.inl rfl, hc⟩

theorem reflector_three {a b c : ℝ} (ha : |a| ≤ 2 ^ 500) (hb : |b| ≤ 2 ^ 500) (hc : |c| ≤ 2 ^ 500) :
    ∃ beta v2 v3 t, Maps a b c beta v2 v3 t ∧
      ∀ v, Work v a b c → Tot (do
        let v1 := v.get1 1
        let v2 := faOfVec (← v.from1 2)
        let (v1, v2, t1) ← dlarfg 3 v1 v2 1
        let v ← v2.insert 1 v1
        pure (v, t1)) fun r => Work r.1 beta v2 v3 ∧ r.2 = fin t := by
  obtain ⟨beta, v2, v3, t, e, hm⟩ := dlarfg_three ha hb hc
  refine ⟨beta, v2, v3, t, hm, fun v hv => ?_⟩
  have hs := dlarfg_sim 3 (fin a) (faOfVec [fin b, fin c]) (faOfVec [fin b, fin c]) [fin b, fin c] 1 ⟨rfl, rfl, rfl⟩
  rw [e] at hs
  rw [hv.get1.1, hv.from1]
  simp only [pure_bind]
  refine Tot.bind hs.tot ?_
  rintro ⟨b1, w, t1⟩ ⟨h1, ⟨h2, h3, h4⟩, h5⟩
  simp only at h1 h2 h3 h4 h5
  subst h1 h5
  have h3' : w.rows = 2 := h3.trans (show wrap32 (2 : Nat) = 2 by decide)
  have h4' : w.cols = 0 := h4
  exact Tot.bind (Work.insert h2 h3' h4' beta) fun v hv => Tot.pure ⟨hv, rfl⟩

theorem reflector_two {a b c : ℝ} (ha : |a| ≤ 2 ^ 500) (hb : |b| ≤ 2 ^ 500) :
    ∃ beta v2 t, Maps a b 0 beta v2 0 t ∧
      ∀ v, Work v a b c → Tot (do
        let v1 := v.get1 1
        let v2 := faOfVec (← v.from1 2)
        let (v1, v2, t1) ← dlarfg 2 v1 v2 1
        let v ← v2.insert 1 v1
        pure (v, t1)) fun r => Work r.1 beta v2 c ∧ r.2 = fin t := by
  obtain ⟨beta, v2, t, e, hm⟩ := dlarfg_two c ha hb
  refine ⟨beta, v2, t, hm, fun v hv => ?_⟩
  have hs := dlarfg_sim 2 (fin a) (faOfVec [fin b, fin c]) (faOfVec [fin b, fin c]) [fin b, fin c] 1 ⟨rfl, rfl, rfl⟩
  rw [e] at hs
  rw [hv.get1.1, hv.from1]
  simp only [pure_bind]
  refine Tot.bind hs.tot ?_
  rintro ⟨b1, w, t1⟩ ⟨h1, ⟨h2, h3, h4⟩, h5⟩
  simp only at h1 h2 h3 h4 h5
  subst h1 h5
  have h3' : w.rows = 2 := h3.trans (show wrap32 (2 : Nat) = 2 by decide)
  have h4' : w.cols = 0 := h4
  exact Tot.bind (Work.insert h2 h3' h4' beta) fun v hv => Tot.pure ⟨hv, rfl⟩

section
variable {F : Type} [Scalar F] {ld L : Nat} {cols : Int} {g : Int → Int → F}

/-- `h[(k, j)..]` of a matrix: reading element `d + 1` of the copy. -/
theorem from2_get {h : FA F} (hh : Is2 h ld cols L g) (hL : L < 2 ^ 31) (hlen : h.len = pure (L : Int)) {k j : Int}
    (hc : Cell ld L k j) : ∃ src, h.from2 k j = pure src ∧
      ∀ d : Nat, d < 2 ^ 30 → Cell ld L (k + d) j → (ToFA.toFa src : FA F).get1 ((d : Int) + 1) = g (k + d) j := by
  obtain ⟨h1, h2, h3, h4⟩ := hc
  have hm : (0 : Int) ≤ (j - 1) * ld := Int.mul_nonneg (by omega) (by omega)
  have hj : j - 1 ≤ (j - 1) * ld := by nlinarith
  have hL' : (L : Int) < 2147483648 := by exact_mod_cast hL
  have hlen' : h.data.length = L := by rw [hh.data, length_tab2]
  refine ⟨h.data.drop ((j - 1) * ld + (k - 1)).toNat, ?_, ?_⟩
  · unfold FA.from2
    rw [isub_ok (by unfold FitsI32; omega), hh.rows]
    simp only [pure_bind]
    rw [imul_ok (by unfold FitsI32; omega)]
    simp only [pure_bind]
    rw [iadd_ok (by unfold FitsI32; omega)]
    simp only [pure_bind]
    unfold FA.from1
    rw [hlen, pure_bind, if_pos (by omega), asUsize_nonneg (by omega) (by unfold FitsI32; omega), if_pos (by omega)]
    congr 3; ring
  · intro d hd hcd
    obtain ⟨q, hq, hi, hj'⟩ := cell_idx hcd.1 hcd.2.1 hcd.2.2.1
    have hqL : q < L := by have := hcd.2.2.2; omega
    show (faOfVec _).get1 _ = _
    unfold FA.get1 faOfVec
    rw [if_neg (by omega), asUsize_nonneg (by omega) (by unfold FitsI32; omega), hh.data]
    simp only
    rw [List.getElem?_drop]
    have e : ((j - 1) * ld + (k - 1)).toNat + (((d : Int) + 1).toNat - 1) = q := by omega
    rw [e, tab2_getElem?, if_pos hqL, hi, hj']

end

/-- The copy of a column of `h` into the work vector. -/
theorem dcopy_work {nr : Nat} (hnr : nr = 2 ∨ nr = 3) {src : List XR} {v : FA XR} {a b c x y z : ℝ} (hv : Work v a b c)
    (h1 : (ToFA.toFa src : FA XR).get1 1 = fin x) (h2 : (ToFA.toFa src : FA XR).get1 2 = fin y)
    (h3 : nr = 3 → (ToFA.toFa src : FA XR).get1 3 = fin z) (h3' : nr = 2 → z = c) :
    Tot (dcopy (F := XR) (nr : Int) src 1 v 1) fun v' => Work v' x y z := by
  have s1 : ∀ (v : FA XR) (p q r w : XR), v.data = [p, q, r] → (v.set1 1 w).data = [w, q, r] := by
    intro v p q r w h; unfold FA.set1 FA.modify1; rw [h]; rfl
  have s2 : ∀ (v : FA XR) (p q r w : XR), v.data = [p, q, r] → (v.set1 2 w).data = [p, w, r] := by
    intro v p q r w h; unfold FA.set1 FA.modify1; rw [h]; rfl
  have s3 : ∀ (v : FA XR) (p q r w : XR), v.data = [p, q, r] → (v.set1 3 w).data = [p, q, w] := by
    intro v p q r w h; unfold FA.set1 FA.modify1; rw [h]; rfl
  set S : FA XR := ToFA.toFa src with hS
  have d1 := s1 v _ _ _ (S.get1 1) hv.data
  have d2 := s2 _ _ _ _ (S.get1 2) d1
  have d3 := s3 _ _ _ _ (S.get1 3) d2
  have sh1 := set1_shape v 1 (S.get1 1)
  have sh2 := sh1.trans (set1_shape _ 2 (S.get1 2))
  have sh3 := sh2.trans (set1_shape _ 3 (S.get1 3))
  unfold dcopy dcopyFA
  rcases hnr with rfl | rfl
  · have e : forUp 1 ((2 : Int).tmod 7) v (fun dy i => pure (dy.set1 i (S.get1 i))) =
        pure ((v.set1 1 (S.get1 1)).set1 2 (S.get1 2)) := rfl
    refine Tot.of_eq (a := (v.set1 1 (S.get1 1)).set1 2 (S.get1 2)) rfl ⟨?_, ?_, ?_⟩
    · rw [d2, h1, h2, h3' rfl]
    · rw [← sh2.1]; exact hv.rows
    · rw [← sh2.2.1]; exact hv.cols
  · refine Tot.of_eq (a := ((v.set1 1 (S.get1 1)).set1 2 (S.get1 2)).set1 3 (S.get1 3)) rfl ⟨?_, ?_, ?_⟩
    · rw [d3, h1, h2, h3 rfl]
    · rw [← sh3.1]; exact hv.rows
    · rw [← sh3.2.1]; exact hv.cols

end Verif

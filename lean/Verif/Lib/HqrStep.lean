import Verif.Lib.HqrChase

/-!
# One step of the bulge chase of `dlahqr` on the arrays
-/

namespace Verif
open Scalar Spec XR Matrix

/-- `0` and `1` as values. -/
theorem zero_eq : (Scalar.zero : XR) = fin 0 := by simp [Scalar.zero]
theorem one_eq : (Scalar.one : XR) = fin 1 := by simp [Scalar.one]

section fin
variable {k : ℤ} {v2 v3 t : ℝ}

theorem refl3_fin {x : ℤ → XR} {y : ℤ → ℝ} (h1 : x k = fin (y k)) (h2 : x (k + 1) = fin (y (k + 1)))
    (h3 : x (k + 2) = fin (y (k + 2))) {i : ℤ} (hi : x i = fin (y i)) :
    refl3 k (k + 1) (k + 2) (fin v2) (fin v3) (fin t) (fin t * fin v2) (fin t * fin v3) x i = fin (house k v2 v3 t y i) := by
  unfold refl3 house dirv
  simp only [h1, h2, h3, fin_mul, fin_add, fin_sub]
  by_cases e1 : i = k
  · subst e1
    rw [if_neg (by omega), if_neg (by omega), if_pos rfl, if_pos rfl]
    congr 1; ring
  · by_cases e2 : i = k + 1
    · subst e2
      rw [if_neg (by omega), if_pos rfl, if_neg (by omega), if_pos rfl]
      congr 1; ring
    · by_cases e3 : i = k + 2
      · subst e3
        rw [if_pos rfl, if_neg (by omega), if_neg (by omega), if_pos rfl]
        congr 1; ring
      · rw [if_neg e3, if_neg e2, if_neg e1, if_neg e1, if_neg e2, if_neg e3, hi]
        congr 1; ring

theorem refl2_fin {x : ℤ → XR} {y : ℤ → ℝ} (h1 : x k = fin (y k)) (h2 : x (k + 1) = fin (y (k + 1))) {i : ℤ} (hi : x i = fin (y i)) :
    refl2 k (k + 1) (fin v2) (fin t) (fin t * fin v2) x i = fin (house k v2 0 t y i) := by
  unfold refl2 house dirv
  simp only [h1, h2, fin_mul, fin_add, fin_sub]
  by_cases e1 : i = k
  · subst e1
    rw [if_neg (by omega), if_pos rfl, if_pos rfl]
    congr 1; ring
  · by_cases e2 : i = k + 1
    · subst e2
      rw [if_pos rfl, if_neg (by omega), if_pos rfl]
      congr 1; ring
    · rw [if_neg e2, if_neg e1, if_neg e1, if_neg e2, hi]
      congr 1
      split <;> ring

theorem refl3_ne {F : Type} [Scalar F] {r1 r2 r3 : ℤ} {w2 w3 t1 t2 t3 : F} (x : ℤ → F) {i : ℤ} (h1 : i ≠ r1) (h2 : i ≠ r2) (h3 : i ≠ r3) :
    refl3 r1 r2 r3 w2 w3 t1 t2 t3 x i = x i := by
  unfold refl3
  simp only [if_neg h1, if_neg h2, if_neg h3]

theorem refl2_ne {F : Type} [Scalar F] {r1 r2 : ℤ} {w2 t1 t2 : F} (x : ℤ → F) {i : ℤ} (h1 : i ≠ r1) (h2 : i ≠ r2) :
    refl2 r1 r2 w2 t1 t2 x i = x i := by
  unfold refl2
  simp only [if_neg h1, if_neg h2]

end fin

/-- The sizes the arrays of `dlahqr` must have. -/
structure Dim {F : Type} (p : HqrP F) (r c rz cz : Nat) : Prop where
  wantt : p.wantt = true
  size : r * c < 2 ^ 31
  lo1 : 1 ≤ p.ilo
  hir : p.ihi ≤ r
  hic : p.ihi ≤ c
  zsize : rz * cz < 2 ^ 31
  z1 : p.wantz = true → 1 ≤ p.iloz
  zr : p.wantz = true → p.ihiz ≤ rz
  zc : p.wantz = true → p.ihi ≤ cz

theorem Dim.cell {F : Type} {p : HqrP F} {r c rz cz : Nat} (hd : Dim p r c rz cz) {a b : ℤ} (a1 : p.ilo ≤ a) (a2 : a ≤ p.ihi) (b1 : p.ilo ≤ b)
    (b2 : b ≤ p.ihi) : Cell r (r * c) a b := by
  have := hd.lo1; have := hd.hir; have := hd.hic
  refine ⟨by omega, by omega, by omega, ?_⟩
  have : (b - 1) * (r : ℤ) ≤ (c - 1) * r := mul_le_mul_of_nonneg_right (by omega) (by omega)
  have e : ((c : ℤ) - 1) * r = r * c - r := by ring
  push_cast
  omega

theorem Dim.zcell {F : Type} {p : HqrP F} {r c rz cz : Nat} (hd : Dim p r c rz cz) (hz : p.wantz = true) {a b : ℤ} (a1 : p.iloz ≤ a) (a2 : a ≤ p.ihiz)
    (b1 : p.ilo ≤ b) (b2 : b ≤ p.ihi) : Cell rz (rz * cz) a b := by
  have := hd.lo1; have := hd.z1 hz; have := hd.zr hz; have := hd.zc hz
  refine ⟨by omega, by omega, by omega, ?_⟩
  have : (b - 1) * (rz : ℤ) ≤ (cz - 1) * rz := mul_le_mul_of_nonneg_right (by omega) (by omega)
  have e : ((cz : ℤ) - 1) * rz = rz * cz - rz := by ring
  push_cast
  omega

theorem len_is2 {F : Type} {h : FA F} {r c : Nat} {g : ℤ → ℤ → F} (hh : Is2 h r c (r * c) g) (hL : r * c < 2 ^ 31) (hc : 0 < c) :
    h.len = pure ((r * c : Nat) : Int) := by
  have h1 := hh.rows
  have h2 := hh.cols
  unfold FA.len FA.is2d
  rw [h2, h1]
  have hf : FitsI32 ((r : ℤ) * c) := by
    have : ((r * c : Nat) : ℤ) < 2 ^ 31 := by exact_mod_cast hL
    have h0 : (0 : ℤ) ≤ r * c := by positivity
    push_cast at this
    rw [fits_iff]
    constructor <;> omega
  rw [imul_ok hf]
  push_cast
  simp only [show decide ((c : ℤ) > 0) = true by simpa using hc, Bool.and_true, decide_eq_true_eq]
  split
  · rfl
  · rw [show (r : ℤ) = 0 by omega, zero_mul]

section chase
variable {p : HqrP XR} {r c rz cz : Nat} {l i m k : ℤ} {g0 g : ℤ → ℤ → XR} {T0 T : ℤ → ℤ → ℝ}

theorem bool_ite_cell {h : FA XR} (hd : Dim p r c rz cz) (hh : Is2 h r c (r * c) g) (hlo : p.ilo ≤ l) (hhi : i ≤ p.ihi)
    {a b : ℤ} (a1 : l ≤ a) (a2 : a ≤ i) (b1 : l ≤ b) (b2 : b ≤ i) (x : XR) :
    ∃ h', h.set2 a b x = pure h' ∧ Is2 h' r c (r * c) (upd2 g a b x) :=
  set2_is2 hh (hd.cell (by omega) (by omega) (by omega) (by omega)) hd.size x

/-- Storing the reflected column. -/
theorem storeCol_ok (hd : Dim p r c rz cz) (hlo : p.ilo ≤ l) (hhi : i ≤ p.ihi) {h : FA XR} (hh : Is2 h r c (r * c) g)
    (hW : Win p.ilo p.ihi l i m k g0 g T0 T) (hlm : l ≤ m) (hmk : m ≤ k) (hki : k + 1 ≤ i) {v : FA XR} {beta b' c' t : ℝ}
    (hv : Work v beta b' c') :
    ∃ h', hqrStoreCol m l i k (fin t) v h = pure h' ∧ ∃ g1, Is2 h' r c (r * c) g1 ∧
      (∀ a b, l ≤ a → a ≤ i → l ≤ b → b ≤ i → g1 a b = fin (codeT1 m l k beta t T a b)) ∧
      (∀ a b, ¬ (l ≤ a ∧ a ≤ i ∧ l ≤ b ∧ b ≤ i) → g1 a b = g a b) := by
  unfold hqrStoreCol
  by_cases hk : k > m
  · rw [if_pos hk, hv.get1.1]
    obtain ⟨h1, e1, k1⟩ := bool_ite_cell hd hh hlo hhi (a := k) (b := k - 1) (by omega) (by omega) (by omega) (by omega) (fin beta)
    obtain ⟨h2, e2, k2⟩ := bool_ite_cell hd k1 hlo hhi (a := k + 1) (b := k - 1) (by omega) (by omega) (by omega) (by omega) zero
    rw [e1, pure_bind, e2, pure_bind]
    by_cases hk2 : k < i - 1
    · obtain ⟨h3, e3, k3⟩ := bool_ite_cell hd k2 hlo hhi (a := k + 2) (b := k - 1) (by omega) (by omega) (by omega) (by omega) zero
      rw [if_pos hk2, e3]
      refine ⟨h3, rfl, _, k3, ?_, ?_⟩
      · intro a b a1 a2 b1 b2
        simp only [upd2, codeT1]
        by_cases hb : b = k - 1
        · subst hb
          by_cases c1 : a = k
          · subst c1
            rw [if_neg (by omega), if_neg (by omega), if_pos ⟨rfl, rfl⟩, if_pos ⟨hk, rfl, rfl⟩]
          · by_cases c2 : a = k + 1
            · subst c2
              rw [if_neg (by omega), if_pos ⟨rfl, rfl⟩, if_neg (by omega), if_pos ⟨hk, rfl, Or.inl rfl⟩, zero_eq]
            · by_cases c3 : a = k + 2
              · subst c3
                rw [if_pos ⟨rfl, rfl⟩, if_neg (by omega), if_pos ⟨hk, rfl, Or.inr rfl⟩, zero_eq]
              · rw [if_neg (by tauto), if_neg (by tauto), if_neg (by tauto), if_neg (by tauto), if_neg (by tauto), if_neg (by tauto)]
                exact hW.win _ _ a1 a2 b1 b2
        · rw [if_neg (by tauto), if_neg (by tauto), if_neg (by tauto), if_neg (by tauto), if_neg (by tauto), if_neg (by tauto)]
          exact hW.win _ _ a1 a2 b1 b2
      · intro a b hab
        simp only [upd2]
        rw [if_neg (by omega), if_neg (by omega), if_neg (by omega)]
    · rw [if_neg hk2]
      refine ⟨h2, rfl, _, k2, ?_, ?_⟩
      · intro a b a1 a2 b1 b2
        simp only [upd2, codeT1]
        by_cases hb : b = k - 1
        · subst hb
          by_cases c1 : a = k
          · subst c1
            rw [if_neg (by omega), if_pos ⟨rfl, rfl⟩, if_pos ⟨hk, rfl, rfl⟩]
          · by_cases c2 : a = k + 1
            · subst c2
              rw [if_pos ⟨rfl, rfl⟩, if_neg (by omega), if_pos ⟨hk, rfl, Or.inl rfl⟩, zero_eq]
            · rw [if_neg (by tauto), if_neg (by tauto), if_neg (by tauto), if_neg (by omega), if_neg (by tauto)]
              exact hW.win _ _ a1 a2 b1 b2
        · rw [if_neg (by tauto), if_neg (by tauto), if_neg (by tauto), if_neg (by tauto), if_neg (by tauto)]
          exact hW.win _ _ a1 a2 b1 b2
      · intro a b hab
        simp only [upd2]
        rw [if_neg (by omega), if_neg (by omega)]
  · rw [if_neg hk]
    by_cases hml : m > l
    · rw [if_pos hml]
      obtain ⟨h1, e1, k1⟩ := modify2_is2 hh (hd.cell (a := k) (b := k - 1) (by omega) (by omega) (by omega) (by omega)) hd.size
        (· * (Scalar.one - fin t))
      refine ⟨h1, e1, _, k1, ?_, ?_⟩
      · intro a b a1 a2 b1 b2
        simp only [upd2, codeT1]
        rw [if_neg (c := m < k ∧ b = k - 1 ∧ a = k) (by tauto), if_neg (c := m < k ∧ b = k - 1 ∧ (a = k + 1 ∨ a = k + 2)) (by tauto)]
        by_cases hab : a = k ∧ b = k - 1
        · obtain ⟨rfl, rfl⟩ := hab
          rw [if_pos ⟨rfl, rfl⟩, if_pos ⟨hk, by omega, rfl, rfl⟩, hW.win _ _ a1 a2 b1 b2]
          rw [one_eq, fin_sub, fin_mul]
        · rw [if_neg hab, if_neg (by tauto)]
          exact hW.win _ _ a1 a2 b1 b2
      · intro a b hab
        simp only [upd2]
        rw [if_neg (by omega)]
    · rw [if_neg hml]
      refine ⟨h, rfl, g, hh, ?_, fun _ _ _ => rfl⟩
      intro a b a1 a2 b1 b2
      simp only [codeT1]
      rw [if_neg (by tauto), if_neg (by tauto), if_neg (by omega)]
      exact hW.win _ _ a1 a2 b1 b2

/-- The vector the reflector of step `k` is made from. -/
def headVec (m i k : ℤ) (T : ℤ → ℤ → ℝ) (a b c : ℝ) : ℝ × ℝ × ℝ :=
  if m < k then (T k (k - 1), T (k + 1) (k - 1), if k + 2 ≤ i then T (k + 2) (k - 1) else 0) else (a, b, c)

theorem reflector_ok (hd : Dim p r c rz cz) (hlo : p.ilo ≤ l) (hhi : i ≤ p.ihi) {h : FA XR} (hh : Is2 h r c (r * c) g)
    (hW : Win p.ilo p.ihi l i m k g0 g T0 T) (hlm : l ≤ m) (hmk : m ≤ k) (hki : k + 1 ≤ i) (hm2 : m + 2 ≤ i)
    (hT : ∀ a b, l ≤ a → a ≤ i → l ≤ b → b ≤ i → |T a b| ≤ 2 ^ 500)
    {v : FA XR} {x y w : ℝ} (hv : Work v x y w)
    (hb : k = m → |x| ≤ 2 ^ 500 ∧ |y| ≤ 2 ^ 500 ∧ |w| ≤ 2 ^ 500) :
    ∃ beta v2 v3 t, Maps (headVec m i k T x y w).1 (headVec m i k T x y w).2.1 (headVec m i k T x y w).2.2 beta v2 v3 t ∧
      (k + 2 ≤ i ∨ v3 = 0) ∧ Tot (hqrReflector h m k (min 3 (i - k + 1)) v) fun q =>
        (∃ c', Work q.1 beta v2 c' ∧ (k + 2 ≤ i → c' = v3)) ∧ q.2 = fin t := by
  have hc : 0 < c := by have := hd.lo1; have := hd.hic; omega
  by_cases hk : m < k
  · obtain ⟨src, es, hs⟩ := from2_get hh hd.size (len_is2 hh hd.size hc) (hd.cell (a := k) (b := k - 1) (by omega) (by omega) (by omega) (by omega))
    have s1 := hs 0 (by norm_num) (by simpa using hd.cell (a := k) (b := k - 1) (by omega) (by omega) (by omega) (by omega))
    have s2 := hs 1 (by norm_num) (hd.cell (by push_cast; omega) (by push_cast; omega) (by omega) (by omega))
    have s3 := fun hk2 : k + 2 ≤ i => hs 2 (by norm_num) (hd.cell (by push_cast; omega) (by push_cast; omega) (by omega) (by omega))
    norm_num at s1 s2 s3
    rw [hW.win _ _ (by omega) (by omega) (by omega) (by omega)] at s1 s2
    have t1 := hT k (k - 1) (by omega) (by omega) (by omega) (by omega)
    have t2 := hT (k + 1) (k - 1) (by omega) (by omega) (by omega) (by omega)
    unfold headVec hqrReflector
    rw [if_pos hk, if_pos (show k > m from hk), es]
    simp only [pure_bind]
    by_cases hk2 : k + 2 ≤ i
    · rw [if_pos hk2, show min 3 (i - k + 1) = 3 by omega]
      obtain ⟨beta, v2, v3, t, hM, ht⟩ := reflector_three t1 t2 (hT (k + 2) (k - 1) (by omega) hk2 (by omega) (by omega))
      refine ⟨beta, v2, v3, t, hM, Or.inl hk2, ?_⟩
      have s3' := s3 hk2
      rw [hW.win _ _ (by omega) hk2 (by omega) (by omega)] at s3'
      refine Tot.bind (dcopy_work (nr := 3) (Or.inr rfl) hv s1 s2 (fun _ => s3') (by omega)) fun v' hv' => ?_
      exact (ht v' hv').mono fun q hq => ⟨⟨v3, hq.1, fun _ => rfl⟩, hq.2⟩
    · rw [if_neg hk2, show min 3 (i - k + 1) = 2 by omega]
      obtain ⟨beta, v2, t, hM, ht⟩ := reflector_two (c := w) t1 t2
      refine ⟨beta, v2, 0, t, hM, Or.inr rfl, ?_⟩
      refine Tot.bind (dcopy_work (nr := 2) (z := w) (Or.inl rfl) hv s1 s2 (by omega) (fun _ => rfl)) fun v' hv' => ?_
      exact (ht v' hv').mono fun q hq => ⟨⟨w, hq.1, fun h => absurd h hk2⟩, hq.2⟩
  · have hk2 : k + 2 ≤ i := by omega
    unfold headVec hqrReflector
    rw [if_neg hk, if_neg (show ¬ k > m from hk), show min 3 (i - k + 1) = 3 by omega]
    simp only [pure_bind]
    obtain ⟨beta, v2, v3, t, hM, ht⟩ := reflector_three (hb (by omega)).1 (hb (by omega)).2.1 (hb (by omega)).2.2
    refine ⟨beta, v2, v3, t, hM, Or.inl hk2, ?_⟩
    exact (ht v hv).mono fun q hq => ⟨⟨v3, hq.1, fun _ => rfl⟩, hq.2⟩

/-- The update of `h` by a three-element reflector. -/
theorem updH3 (hd : Dim p r c rz cz) (hlo : p.ilo ≤ l) (hhi : i ≤ p.ihi) {h : FA XR} (hh : Is2 h r c (r * c) g) (hlk : l ≤ k)
    (hki : k + 2 ≤ i) {v2 v3 t : ℝ} (hg : ∀ a b, l ≤ a → a ≤ i → l ≤ b → b ≤ i → g a b = fin (T a b)) :
    ∃ h1 h2, refl3Rows k i k (k + 1) (k + 2) (fin v2) (fin v3) (fin t) (fin t * fin v2) (fin t * fin v3) h = pure h1 ∧
      refl3Cols l (min i (k + 4)) k (k + 1) (k + 2) (fin v2) (fin v3) (fin t) (fin t * fin v2) (fin t * fin v3) h1 = pure h2 ∧
      ∃ g', Is2 h2 r c (r * c) g' ∧
        (∀ a b, l ≤ a → a ≤ i → l ≤ b → b ≤ i → g' a b = fin (codeT3 k v2 v3 t (codeT2 k v2 v3 t T) a b)) ∧
        (∀ a b, ¬ (l ≤ a ∧ a ≤ i ∧ l ≤ b ∧ b ≤ i) → g' a b = g a b) := by
  obtain ⟨h1, e1, k1⟩ := refl3Rows_ok (fin v2) (fin v3) (fin t) (fin t * fin v2) (fin t * fin v3) hh hd.size (lo := k) (hi := i)
    (r1 := k) (r2 := k + 1) (r3 := k + 2) (by omega) (by omega) (by omega) (fun j j1 j2 =>
      ⟨hd.cell (by omega) (by omega) (by omega) (by omega), hd.cell (by omega) (by omega) (by omega) (by omega),
        hd.cell (by omega) (by omega) (by omega) (by omega)⟩)
  obtain ⟨h2, e2, k2⟩ := refl3Cols_ok (fin v2) (fin v3) (fin t) (fin t * fin v2) (fin t * fin v3) k1 hd.size (lo := l) (hi := min i (k + 4))
    (r1 := k) (r2 := k + 1) (r3 := k + 2) (by omega) (by omega) (by omega) (fun j j1 j2 =>
      ⟨hd.cell (by omega) (by omega) (by omega) (by omega), hd.cell (by omega) (by omega) (by omega) (by omega),
        hd.cell (by omega) (by omega) (by omega) (by omega)⟩)
  refine ⟨h1, h2, e1, e2, _, k2, ?_, ?_⟩
  · have w : ∀ a b, l ≤ a → a ≤ i → l ≤ b → b ≤ i →
        (if k ≤ b ∧ b ≤ i then refl3 k (k + 1) (k + 2) (fin v2) (fin v3) (fin t) (fin t * fin v2) (fin t * fin v3) (fun i => g i b) a
          else g a b) = fin (codeT2 k v2 v3 t T a b) := by
      intro a b a1 a2 b1 b2
      unfold codeT2
      by_cases hkb : k ≤ b
      · rw [if_pos ⟨hkb, b2⟩, if_pos hkb]
        exact refl3_fin (x := fun i => g i b) (y := fun i => T i b) (hg _ _ (by omega) (by omega) b1 b2) (hg _ _ (by omega) (by omega) b1 b2)
          (hg _ _ (by omega) (by omega) b1 b2) (hg _ _ a1 a2 b1 b2)
      · rw [if_neg (by omega), if_neg hkb]
        exact hg _ _ a1 a2 b1 b2
    intro a b a1 a2 b1 b2
    unfold codeT3
    by_cases ha : a ≤ k + 4
    · rw [if_pos ⟨a1, by omega⟩, if_pos ha]
      exact refl3_fin (y := codeT2 k v2 v3 t T a) (w _ _ a1 a2 (by omega) (by omega)) (w _ _ a1 a2 (by omega) (by omega))
        (w _ _ a1 a2 (by omega) (by omega)) (w _ _ a1 a2 b1 b2)
    · rw [if_neg (by omega), if_neg ha]
      exact w _ _ a1 a2 b1 b2
  · intro a b hab
    have w : (if k ≤ b ∧ b ≤ i then refl3 k (k + 1) (k + 2) (fin v2) (fin v3) (fin t) (fin t * fin v2) (fin t * fin v3) (fun i => g i b) a
          else g a b) = g a b := by
      split
      · rw [refl3_ne _ (by omega) (by omega) (by omega)]
      · rfl
    split
    · rw [refl3_ne _ (by omega) (by omega) (by omega)]
      exact w
    · exact w

/-- The update of `h` by a two-element reflector. -/
theorem updH2 (hd : Dim p r c rz cz) (hlo : p.ilo ≤ l) (hhi : i ≤ p.ihi) {h : FA XR} (hh : Is2 h r c (r * c) g) (hlk : l ≤ k)
    (hki : k + 1 = i) {v2 t : ℝ} (hg : ∀ a b, l ≤ a → a ≤ i → l ≤ b → b ≤ i → g a b = fin (T a b)) :
    ∃ h1 h2, refl2Rows k i k (k + 1) (fin v2) (fin t) (fin t * fin v2) h = pure h1 ∧
      refl2Cols l i k (k + 1) (fin v2) (fin t) (fin t * fin v2) h1 = pure h2 ∧
      ∃ g', Is2 h2 r c (r * c) g' ∧
        (∀ a b, l ≤ a → a ≤ i → l ≤ b → b ≤ i → g' a b = fin (codeT3 k v2 0 t (codeT2 k v2 0 t T) a b)) ∧
        (∀ a b, ¬ (l ≤ a ∧ a ≤ i ∧ l ≤ b ∧ b ≤ i) → g' a b = g a b) := by
  obtain ⟨h1, e1, k1⟩ := refl2Rows_ok (fin v2) (fin t) (fin t * fin v2) hh hd.size (lo := k) (hi := i)
    (r1 := k) (r2 := k + 1) (by omega) (fun j j1 j2 =>
      ⟨hd.cell (by omega) (by omega) (by omega) (by omega), hd.cell (by omega) (by omega) (by omega) (by omega)⟩)
  obtain ⟨h2, e2, k2⟩ := refl2Cols_ok (fin v2) (fin t) (fin t * fin v2) k1 hd.size (lo := l) (hi := i)
    (r1 := k) (r2 := k + 1) (by omega) (fun j j1 j2 =>
      ⟨hd.cell (by omega) (by omega) (by omega) (by omega), hd.cell (by omega) (by omega) (by omega) (by omega)⟩)
  refine ⟨h1, h2, e1, e2, _, k2, ?_, ?_⟩
  · have w : ∀ a b, l ≤ a → a ≤ i → l ≤ b → b ≤ i →
        (if k ≤ b ∧ b ≤ i then refl2 k (k + 1) (fin v2) (fin t) (fin t * fin v2) (fun i => g i b) a
          else g a b) = fin (codeT2 k v2 0 t T a b) := by
      intro a b a1 a2 b1 b2
      unfold codeT2
      by_cases hkb : k ≤ b
      · rw [if_pos ⟨hkb, b2⟩, if_pos hkb]
        exact refl2_fin (x := fun i => g i b) (y := fun i => T i b) (hg _ _ (by omega) (by omega) b1 b2) (hg _ _ (by omega) (by omega) b1 b2)
          (hg _ _ a1 a2 b1 b2)
      · rw [if_neg (by omega), if_neg hkb]
        exact hg _ _ a1 a2 b1 b2
    intro a b a1 a2 b1 b2
    unfold codeT3
    rw [if_pos ⟨a1, by omega⟩, if_pos (by omega)]
    exact refl2_fin (y := codeT2 k v2 0 t T a) (w _ _ a1 a2 (by omega) (by omega)) (w _ _ a1 a2 (by omega) (by omega))
      (w _ _ a1 a2 b1 b2)
  · intro a b hab
    have w : (if k ≤ b ∧ b ≤ i then refl2 k (k + 1) (fin v2) (fin t) (fin t * fin v2) (fun i => g i b) a
          else g a b) = g a b := by
      split
      · rw [refl2_ne _ (by omega) (by omega)]
      · rfl
    split
    · rw [refl2_ne _ (by omega) (by omega)]
      exact w
    · exact w

/-- What is known of the array `z`: rows `iloz..ihiz`, columns `ilo..ihi` hold `Zq`, the rest is as at the start. -/
def ZOK (p : HqrP XR) (rz cz : Nat) (zg0 : ℤ → ℤ → XR) (z : FA XR) (Zq : ℤ → ℤ → ℝ) : Prop :=
  p.wantz = true → ∃ zg, Is2 z rz cz (rz * cz) zg ∧
    (∀ a b, p.iloz ≤ a → a ≤ p.ihiz → p.ilo ≤ b → b ≤ p.ihi → zg a b = fin (Zq a b)) ∧
    (∀ a b, ¬ (p.iloz ≤ a ∧ a ≤ p.ihiz ∧ p.ilo ≤ b ∧ b ≤ p.ihi) → zg a b = zg0 a b)

theorem updZ3 (hd : Dim p r c rz cz) {zg0 : ℤ → ℤ → XR} {z : FA XR} {Zq : ℤ → ℤ → ℝ} (hz : ZOK p rz cz zg0 z Zq) (hlk : p.ilo ≤ k)
    (hki : k + 2 ≤ p.ihi) (v2 v3 t : ℝ) :
    Tot (if p.wantz then refl3Cols p.iloz p.ihiz k (k + 1) (k + 2) (fin v2) (fin v3) (fin t) (fin t * fin v2) (fin t * fin v3) z else pure z)
      fun z' => ZOK p rz cz zg0 z' (houseR k v2 v3 t Zq) := by
  refine Tot.ite (fun hw => ?_) fun hw => Tot.pure fun h => absurd h hw
  obtain ⟨zg, h1, h2, h3⟩ := hz hw
  obtain ⟨z', e, k1⟩ := refl3Cols_ok (fin v2) (fin v3) (fin t) (fin t * fin v2) (fin t * fin v3) h1 hd.zsize (lo := p.iloz) (hi := p.ihiz)
    (r1 := k) (r2 := k + 1) (r3 := k + 2) (by omega) (by omega) (by omega) (fun j j1 j2 =>
      ⟨hd.zcell hw j1 j2 (by omega) (by omega), hd.zcell hw j1 j2 (by omega) (by omega), hd.zcell hw j1 j2 (by omega) (by omega)⟩)
  refine Tot.of_eq e fun _ => ⟨_, k1, ?_, ?_⟩
  · intro a b a1 a2 b1 b2
    beta_reduce
    rw [if_pos ⟨a1, a2⟩]
    exact refl3_fin (y := Zq a) (h2 _ _ a1 a2 (by omega) (by omega)) (h2 _ _ a1 a2 (by omega) (by omega))
      (h2 _ _ a1 a2 (by omega) (by omega)) (h2 _ _ a1 a2 b1 b2)
  · intro a b hab
    beta_reduce
    split
    · rw [refl3_ne _ (by omega) (by omega) (by omega)]
      exact h3 a b hab
    · exact h3 a b hab

theorem updZ2 (hd : Dim p r c rz cz) {zg0 : ℤ → ℤ → XR} {z : FA XR} {Zq : ℤ → ℤ → ℝ} (hz : ZOK p rz cz zg0 z Zq) (hlk : p.ilo ≤ k)
    (hki : k + 1 ≤ p.ihi) (v2 t : ℝ) :
    Tot (if p.wantz then refl2Cols p.iloz p.ihiz k (k + 1) (fin v2) (fin t) (fin t * fin v2) z else pure z)
      fun z' => ZOK p rz cz zg0 z' (houseR k v2 0 t Zq) := by
  refine Tot.ite (fun hw => ?_) fun hw => Tot.pure fun h => absurd h hw
  obtain ⟨zg, h1, h2, h3⟩ := hz hw
  obtain ⟨z', e, k1⟩ := refl2Cols_ok (fin v2) (fin t) (fin t * fin v2) h1 hd.zsize (lo := p.iloz) (hi := p.ihiz)
    (r1 := k) (r2 := k + 1) (by omega) (fun j j1 j2 =>
      ⟨hd.zcell hw j1 j2 (by omega) (by omega), hd.zcell hw j1 j2 (by omega) (by omega)⟩)
  refine Tot.of_eq e fun _ => ⟨_, k1, ?_, ?_⟩
  · intro a b a1 a2 b1 b2
    beta_reduce
    rw [if_pos ⟨a1, a2⟩]
    exact refl2_fin (y := Zq a) (h2 _ _ a1 a2 (by omega) (by omega)) (h2 _ _ a1 a2 (by omega) (by omega)) (h2 _ _ a1 a2 b1 b2)
  · intro a b hab
    beta_reduce
    split
    · rw [refl2_ne _ (by omega) (by omega)]
      exact h3 a b hab
    · exact h3 a b hab

/-- Column `m` of `Zq`: before the first step `Zq` is `Zs` and the start vector is `(x0, y0, w0)`; afterwards column `m` of `Zq` is
`Zs` times the normalised start vector. -/
def ColOK (m k : ℤ) (Zs : ℤ → ℤ → ℝ) (x0 y0 w0 : ℝ) (Zq : ℤ → ℤ → ℝ) (x y w : ℝ) : Prop :=
  (k = m → Zq = Zs ∧ x = x0 ∧ y = y0 ∧ w = w0) ∧
  (m < k → ∃ β : ℝ, β ^ 2 = x0 ^ 2 + y0 ^ 2 + w0 ^ 2 ∧ ∀ a, β * Zq a m = Zs a m * x0 + Zs a (m + 1) * y0 + Zs a (m + 2) * w0)

/-- The state of the chase before step `k`. -/
structure Chase (p : HqrP XR) (r c rz cz : Nat) (A : Matrix (Blk p.ilo p.ihi) (Blk p.ilo p.ihi) ℝ) (Z0 : ℤ → ℤ → ℝ) (zg0 : ℤ → ℤ → XR)
    (B δ ε : ℝ) (l i m : ℤ) (g0 : ℤ → ℤ → XR) (T0 : ℤ → ℤ → ℝ) (Zs : ℤ → ℤ → ℝ) (x0 y0 w0 : ℝ) (k : ℤ) (s : FA XR × FA XR × FA XR) : Prop where
  ex : ∃ g T Zq x y w, Is2 s.1 r c (r * c) g ∧ Win p.ilo p.ihi l i m k g0 g T0 T ∧
    Track p.ilo p.ihi A Z0 B (if m < k then δ + ε else δ) T Zq ∧ ZOK p rz cz zg0 s.2.1 Zq ∧ Work s.2.2 x y w ∧
    (k = m → |x| ≤ 2 ^ 500 ∧ |y| ≤ 2 ^ 500 ∧ |w| ≤ 2 ^ 500 ∧ (l < m → w ≠ 0 ∧ |T m (m - 1)| * (|y| + |w|) ≤ ε * |x|)) ∧
    ∃ Zp, Track p.ilo p.ihi (block p.ilo p.ihi T0) Zs B (if m < k then 0 + ε else 0) T Zp ∧ ColOK m k Zs x0 y0 w0 Zp x y w

theorem dirv1 (k : ℤ) (v2 v3 : ℝ) : dirv k v2 v3 (k + 1) = v2 := by simp [dirv]
theorem dirv2 (k : ℤ) (v2 v3 : ℝ) : dirv k v2 v3 (k + 2) = v3 := by simp [dirv]
theorem dirv0 (k : ℤ) (v2 v3 : ℝ) : dirv k v2 v3 k = 1 := by simp [dirv]

/-- The fill-in below column `k - 1`. -/
theorem fill_in (hW : Win p.ilo p.ihi l i m k g0 g T0 T) (hlm : l ≤ m) (hmk : m ≤ k) (hki : k + 1 ≤ i) (hm2 : m + 2 ≤ i)
    {x y w beta v2 v3 t ε : ℝ} (hM : Maps (headVec m i k T x y w).1 (headVec m i k T x y w).2.1 (headVec m i k T x y w).2.2 beta v2 v3 t)
    (hv3 : k + 2 ≤ i ∨ v3 = 0) (hε : 0 ≤ ε) (hst : k = m → l < m → w ≠ 0 ∧ |T m (m - 1)| * (|y| + |w|) ≤ ε * |x|) :
    (m < k → beta = houseL k v2 v3 t T k (k - 1)) ∧
    (l ≤ k - 1 → |houseL k v2 v3 t T (k + 1) (k - 1)| + (if k + 2 ≤ i then |houseL k v2 v3 t T (k + 2) (k - 1)| else 0) ≤
      if m < k then 0 else ε) := by
  by_cases hk : m < k
  · unfold headVec at hM
    rw [if_pos hk] at hM
    simp only at hM
    have e3 : v3 * (if k + 2 ≤ i then T (k + 2) (k - 1) else 0) = v3 * T (k + 2) (k - 1) := by
      split
      · rfl
      · rcases hv3 with h | h
        · contradiction
        · rw [h]; ring
    have m1 := hM.e1
    have m2 := hM.e2
    rw [e3] at m1 m2
    refine ⟨fun _ => ?_, fun _ => ?_⟩
    · unfold houseL house
      rw [dirv0, ← m1]; ring
    · rw [if_pos hk]
      have z1 : houseL k v2 v3 t T (k + 1) (k - 1) = 0 := by
        unfold houseL house
        rw [dirv1, ← m2]
      rw [z1, abs_zero, zero_add]
      split
      · rename_i hk2
        have m3 := hM.e3
        rw [e3, if_pos hk2] at m3
        have z2 : houseL k v2 v3 t T (k + 2) (k - 1) = 0 := by
          unfold houseL house
          rw [dirv2, ← m3]
        rw [z2, abs_zero]
      · exact le_refl _
  · have hk' : k = m := by omega
    subst hk'
    unfold headVec at hM
    rw [if_neg hk] at hM
    simp only at hM
    refine ⟨fun h => absurd h hk, fun hl => ?_⟩
    obtain ⟨hw0, hb⟩ := hst rfl (by omega)
    have z1 : T (k + 1) (k - 1) = 0 := hW.hess _ _ hl (by omega) (by omega) (by omega) (by omega)
    have z2 : T (k + 2) (k - 1) = 0 := hW.hess _ _ hl (by omega) hm2 (by omega) (by omega)
    rw [if_pos hm2, if_neg hk]
    have f1 : houseL k v2 v3 t T (k + 1) (k - 1) = -(t * v2 * T k (k - 1)) := by
      unfold houseL house
      beta_reduce
      rw [dirv1, z1, z2]; ring
    have f2 : houseL k v2 v3 t T (k + 2) (k - 1) = -(t * v3 * T k (k - 1)) := by
      unfold houseL house
      beta_reduce
      rw [dirv2, z1, z2]; ring
    rw [f1, f2, abs_neg, abs_neg, abs_mul (t * v2), abs_mul (t * v3)]
    have n1 : |t * v2| * |beta| = |y| := by rw [← abs_mul, hM.b, abs_neg]
    have n2 : |t * v3| * |beta| = |w| := by rw [← abs_mul, hM.c, abs_neg]
    have hbeta : |x| ≤ |beta| := by
      apply sq_le_sq.1
      rw [hM.norm]
      nlinarith [sq_nonneg y, sq_nonneg w]
    have hb0 : 0 < |beta| := by
      rw [abs_pos]
      rintro rfl
      rw [abs_zero, mul_zero] at n2
      exact hw0 (abs_eq_zero.1 n2.symm)
    have key : (|t * v2| * |T k (k - 1)| + |t * v3| * |T k (k - 1)|) * |beta| ≤ ε * |beta| := by
      calc (|t * v2| * |T k (k - 1)| + |t * v3| * |T k (k - 1)|) * |beta|
          = |T k (k - 1)| * (|t * v2| * |beta| + |t * v3| * |beta|) := by ring
        _ = |T k (k - 1)| * (|y| + |w|) := by rw [n1, n2]
        _ ≤ ε * |x| := hb
        _ ≤ ε * |beta| := mul_le_mul_of_nonneg_left hbeta hε
    exact le_of_mul_le_mul_right key hb0

theorem chase_step (hd : Dim p r c rz cz) {A : Matrix (Blk p.ilo p.ihi) (Blk p.ilo p.ihi) ℝ} {Z0 : ℤ → ℤ → ℝ} {zg0 : ℤ → ℤ → XR}
    {B δ ε : ℝ} {Zs : ℤ → ℤ → ℝ} {x0 y0 w0 : ℝ} (hB : B ≤ 2 ^ 500) (hε : 0 ≤ ε) (hlo : p.ilo ≤ l) (hhi : i ≤ p.ihi) (hlm : l ≤ m) (hmk : m ≤ k) (hki : k + 1 ≤ i)
    (hm2 : m + 2 ≤ i) {s : FA XR × FA XR × FA XR} (hs : Chase p r c rz cz A Z0 zg0 B δ ε l i m g0 T0 Zs x0 y0 w0 k s) :
    Tot (hqrChase p m l i l i s k) (Chase p r c rz cz A Z0 zg0 B δ ε l i m g0 T0 Zs x0 y0 w0 (k + 1)) := by
  obtain ⟨⟨g, T, Zq, x, y, w, hh, hW, hG, hZ, hv, hst, Zp, hGp, hC⟩⟩ := hs
  obtain ⟨h, z, v⟩ := s
  simp only at hh hZ hv
  have hT : ∀ a b, l ≤ a → a ≤ i → l ≤ b → b ≤ i → |T a b| ≤ 2 ^ 500 := fun a b a1 a2 b1 b2 =>
    (hG.entry ⟨by omega, by omega⟩ ⟨by omega, by omega⟩).trans hB
  obtain ⟨beta, v2, v3, t, hM, hv3, hR⟩ := reflector_ok hd hlo hhi hh hW hlm hmk hki hm2 hT hv
    (fun e => ⟨(hst e).1, (hst e).2.1, (hst e).2.2.1⟩)
  obtain ⟨f1, f2⟩ := fill_in hW hlm hmk hki hm2 hM hv3 hε (fun e => (hst e).2.2.2)
  have hw : InWin l i m k v3 := ⟨hlm, hmk, hki, hv3⟩
  have track : ∀ {A' : Matrix (Blk p.ilo p.ihi) (Blk p.ilo p.ihi) ℝ} {Z0' Zq' : ℤ → ℤ → ℝ} {δ' : ℝ}, Track p.ilo p.ihi A' Z0' B (if m < k then δ' + ε else δ') T Zq' →
      Track p.ilo p.ihi A' Z0' B (if m < k + 1 then δ' + ε else δ') (stepT l i k v2 v3 t T) (houseR k v2 v3 t Zq') := by
    intro A' Z0' Zq' δ' hG
    rw [if_pos (by omega)]
    by_cases hk : m < k
    · simp only [if_pos hk] at hG f2
      have := hG.step hw hlo hhi hM.refl (le_refl 0) f2
      rwa [add_zero] at this
    · simp only [if_neg hk] at hG f2
      exact hG.step hw hlo hhi hM.refl hε f2
  have hG' := track hG
  have hC' : ∀ x' y' w', ColOK m (k + 1) Zs x0 y0 w0 (houseR k v2 v3 t Zp) x' y' w' := by
    refine fun x' y' w' => ⟨fun h => by omega, fun _ => ?_⟩
    by_cases hk : m < k
    · obtain ⟨β, b1, b2⟩ := hC.2 hk
      refine ⟨β, b1, fun a => ?_⟩
      unfold houseR
      rw [house_ne _ (by omega) (by omega) (Or.inl (by omega))]
      exact b2 a
    · have hkm : k = m := by omega
      obtain ⟨e1, e2, e3, e4⟩ := hC.1 hkm
      subst hkm e1 e2 e3 e4
      unfold headVec at hM
      rw [if_neg hk] at hM
      simp only at hM
      refine ⟨beta, hM.norm, fun a => ?_⟩
      unfold houseR house
      rw [dirv0]
      have q1 : beta - t * beta = x := by linarith [hM.e1, hM.sum]
      have q2 := hM.b; have q3 := hM.c
      linear_combination (Zp a k) * q1 - (Zp a (k + 1)) * q2 - (Zp a (k + 2)) * q3
  unfold hqrChase
  simp only
  refine Tot.bind hR ?_
  rintro ⟨v', t'⟩ ⟨⟨c', hv', hc'⟩, ht⟩
  simp only at hv' ht
  subst ht
  obtain ⟨h1, e1, g1, k1, o1, o2⟩ := storeCol_ok hd hlo hhi hh hW hlm hmk hki (t := t) hv'
  simp only
  rw [e1, pure_bind, hv'.get1.2.1]
  by_cases hk2 : k + 2 ≤ i
  · rw [if_pos (by omega), hv'.get1.2.2, hc' hk2]
    obtain ⟨h2, h3, e2, e3, g3, k3, o3, o4⟩ := updH3 hd hlo hhi k1 (by omega) hk2 (v2 := v2) (v3 := v3) (t := t) o1
    rw [e2, pure_bind, e3, pure_bind]
    refine Tot.iteBind (updZ3 hd hZ (k := k) (by omega) (by omega) v2 v3 t) fun z' hz' => Tot.pure ⟨?_⟩
    refine ⟨g3, _, _, _, _, _, k3, hW.step hw hlo hhi ?_ ?_, hG', hz', hv', fun e => by omega, _, track hGp, hC' _ _ _⟩
    · intro a b a1 a2 b1 b2
      rw [o3 a b a1 a2 b1 b2, codeT_eq hW hw f1 a2 b1]
    · exact fun a b hab => (o4 a b hab).trans (o2 a b hab)
  · have hv30 : v3 = 0 := by
      rcases hv3 with h | h
      · exact absurd h hk2
      · exact h
    subst hv30
    rw [if_neg (by omega), if_pos (by omega)]
    obtain ⟨h2, h3, e2, e3, g3, k3, o3, o4⟩ := updH2 hd hlo hhi k1 (k := k) (by omega) (by omega) (v2 := v2) (t := t) o1
    rw [e2, pure_bind, e3, pure_bind]
    refine Tot.iteBind (updZ2 hd hZ (k := k) (by omega) (by omega) v2 t) fun z' hz' => Tot.pure ⟨?_⟩
    refine ⟨g3, _, _, _, _, _, k3, hW.step hw hlo hhi ?_ ?_, hG', hz', hv', fun e => by omega, _, track hGp, hC' _ _ _⟩
    · intro a b a1 a2 b1 b2
      rw [o3 a b a1 a2 b1 b2, codeT_eq hW hw f1 a2 b1]
    · exact fun a b hab => (o4 a b hab).trans (o2 a b hab)

/-- The whole chase. -/
theorem chase_all (hd : Dim p r c rz cz) {A : Matrix (Blk p.ilo p.ihi) (Blk p.ilo p.ihi) ℝ} {Z0 : ℤ → ℤ → ℝ} {zg0 : ℤ → ℤ → XR}
    {B δ ε : ℝ} {Zs : ℤ → ℤ → ℝ} {x0 y0 w0 : ℝ} (hB : B ≤ 2 ^ 500) (hε : 0 ≤ ε) (hlo : p.ilo ≤ l) (hhi : i ≤ p.ihi) (hlm : l ≤ m)
    (hm2 : m + 2 ≤ i) {s : FA XR × FA XR × FA XR} (hs : Chase p r c rz cz A Z0 zg0 B δ ε l i m g0 T0 Zs x0 y0 w0 m s) :
    Tot (forUp m (i - 1) s (hqrChase p m l i l i)) (Chase p r c rz cz A Z0 zg0 B δ ε l i m g0 T0 Zs x0 y0 w0 i) := by
  have := Tot.forUp (P := Chase p r c rz cz A Z0 zg0 B δ ε l i m g0 T0 Zs x0 y0 w0) (lo := m) (hi := i - 1) (by omega) hs
    (fun k s h1 h2 hk => chase_step hd hB hε hlo hhi hlm h1 (by omega) hm2 hk)
  rwa [show i - 1 + 1 = i by ring] at this

end chase

end Verif

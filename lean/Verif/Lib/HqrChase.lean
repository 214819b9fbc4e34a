import Verif.Lib.HqrRefl
import Mathlib.Tactic.IntervalCases

/-!
# One step of the bulge chase of `dlahqr` in exact arithmetic
-/

namespace Verif
open Scalar Spec XR Matrix

/-! ### What is known of the matrix `T` the array stands for -/

/-- `T` is orthogonally similar to `A` up to `δ`, `Zq` is `Z0` times the orthogonal matrix, and the norm of `T` is at most `B`. -/
structure Track (lo hi : ℤ) (A : Matrix (Blk lo hi) (Blk lo hi) ℝ) (Z0 : ℤ → ℤ → ℝ) (B δ : ℝ) (T Zq : ℤ → ℤ → ℝ) : Prop where
  ex : ∃ Q E, Backward A Q E (block lo hi T) δ ∧ colsM lo hi Zq = colsM lo hi Z0 * Q
  nrm : fro (block lo hi T) ≤ B

section good
variable {lo hi : ℤ} {A : Matrix (Blk lo hi) (Blk lo hi) ℝ} {Z0 : ℤ → ℤ → ℝ} {B δ : ℝ} {T Zq : ℤ → ℤ → ℝ}

theorem Track.mono {δ' : ℝ} (h : Track lo hi A Z0 B δ T Zq) (hd : δ ≤ δ') : Track lo hi A Z0 B δ' T Zq := by
  obtain ⟨⟨Q, E, h1, h2⟩, h3⟩ := h
  exact ⟨⟨Q, E, ⟨h1.orth, h1.eq, h1.trace, h1.bound.trans hd⟩, h2⟩, h3⟩

theorem Track.congr {T' : ℤ → ℤ → ℝ} (h : Track lo hi A Z0 B δ T Zq) (e : ∀ a b, lo ≤ a → a ≤ hi → lo ≤ b → b ≤ hi → T' a b = T a b) :
    Track lo hi A Z0 B δ T' Zq := by
  have : block lo hi T' = block lo hi T := by
    ext a b
    obtain ⟨a1, a2⟩ := Finset.mem_Icc.1 a.2
    obtain ⟨b1, b2⟩ := Finset.mem_Icc.1 b.2
    exact e _ _ a1 a2 b1 b2
  exact ⟨by rw [this]; exact h.ex, by rw [this]; exact h.nrm⟩

theorem Track.house (h : Track lo hi A Z0 B δ T Zq) {k : ℤ} {v2 v3 t : ℝ} (hi' : Inside lo hi k v3) (hu : Refl v2 v3 t) :
    Track lo hi A Z0 B δ (houseR k v2 v3 t (houseL k v2 v3 t T)) (houseR k v2 v3 t Zq) := by
  obtain ⟨⟨Q, E, h1, h2⟩, h3⟩ := h
  refine ⟨⟨_, E, backward_house h1 hi' hu, ?_⟩, by rw [fro_house hi' hu]; exact h3⟩
  rw [← Matrix.mul_assoc, ← h2, mul_houseM hi']
  rfl

/-- Setting an entry off the diagonal to zero. -/
theorem Track.cut (h : Track lo hi A Z0 B δ T Zq) (a0 b0 : ℤ) (hne : a0 ≠ b0) {ε : ℝ} (h0 : 0 ≤ ε) (hε : |T a0 b0| ≤ ε) :
    Track lo hi A Z0 B (δ + ε) (fun a b => if a = a0 ∧ b = b0 then 0 else T a b) Zq := by
  obtain ⟨⟨Q, E, h1, h2⟩, h3⟩ := h
  set T' : ℤ → ℤ → ℝ := fun a b => if a = a0 ∧ b = b0 then 0 else T a b with hT'
  have hb : fro (block lo hi T' - block lo hi T) ≤ ε := by
    by_cases hin : (lo ≤ a0 ∧ a0 ≤ hi) ∧ (lo ≤ b0 ∧ b0 ≤ hi)
    · rw [fro_single _ ⟨a0, Finset.mem_Icc.2 hin.1⟩ ⟨b0, Finset.mem_Icc.2 hin.2⟩]
      · simp [block, hT', hε]
      · intro a b hab
        have : ¬ ((a : ℤ) = a0 ∧ (b : ℤ) = b0) := fun ⟨e1, e2⟩ => hab ⟨Subtype.ext e1, Subtype.ext e2⟩
        simp only [Matrix.sub_apply, block, hT', if_neg this, sub_self]
    · have : block lo hi T' - block lo hi T = 0 := by
        ext a b
        have : ¬ ((a : ℤ) = a0 ∧ (b : ℤ) = b0) := by
          rintro ⟨e1, e2⟩
          exact hin ⟨e1 ▸ Finset.mem_Icc.1 a.2, e2 ▸ Finset.mem_Icc.1 b.2⟩
        simp only [Matrix.sub_apply, block, hT', if_neg this, sub_self, Matrix.zero_apply]
      rw [this, fro_zero]
      exact h0
  obtain ⟨E', hE'⟩ := backward_perturb h1 (M' := block lo hi T') (by
    intro a
    simp only [block, hT']
    rw [if_neg (by rintro ⟨e1, e2⟩; exact hne (e1.symm.trans e2))]) hb
  refine ⟨⟨Q, E', hE', h2⟩, (fro_mono ?_).trans h3⟩
  intro a b
  simp only [block, hT']
  split
  · simp
  · exact le_refl _

theorem Track.entry (h : Track lo hi A Z0 B δ T Zq) {a b : ℤ} (ha : lo ≤ a ∧ a ≤ hi) (hb : lo ≤ b ∧ b ≤ hi) : |T a b| ≤ B :=
  (fro_entry (block lo hi T) ⟨a, Finset.mem_Icc.2 ha⟩ ⟨b, Finset.mem_Icc.2 hb⟩).trans h.nrm

end good

/-! ### The window the sweep works in -/

/-- Before step `k` of a sweep on `l..i` that started at `m` from the array `g0` standing for `T0`. -/
structure Win (lo hi l i m k : ℤ) (g0 g : ℤ → ℤ → XR) (T0 T : ℤ → ℤ → ℝ) : Prop where
  win : ∀ a b, l ≤ a → a ≤ i → l ≤ b → b ≤ i → g a b = fin (T a b)
  outg : ∀ a b, ¬ (l ≤ a ∧ a ≤ i ∧ l ≤ b ∧ b ≤ i) → g a b = g0 a b
  outT : ∀ a b, ¬ (l ≤ a ∧ a ≤ i) → ¬ (l ≤ b ∧ b ≤ i) → T a b = T0 a b
  dec1 : ∀ a b, l ≤ a → a ≤ hi → lo ≤ b → b < l → T a b = 0
  dec2 : ∀ a b, i < a → a ≤ hi → lo ≤ b → b ≤ i → T a b = 0
  hess : ∀ a b, l ≤ b → b + 1 < a → a ≤ i → ¬ (m < k ∧ b = k - 1 ∧ (a = k + 1 ∨ a = k + 2)) → ¬ (m < k ∧ b = k ∧ a = k + 2) → T a b = 0

theorem dirv_ne {k : ℤ} {v2 v3 : ℝ} {i : ℤ} (h1 : i ≠ k) (h2 : i ≠ k + 1) (h3 : i ≠ k + 2 ∨ v3 = 0) : dirv k v2 v3 i = 0 := by
  unfold dirv
  rw [if_neg h1, if_neg h2]
  split
  · rcases h3 with h3 | h3
    · exact absurd ‹_› h3
    · exact h3
  · rfl

theorem house_ne {k : ℤ} {v2 v3 t : ℝ} {i : ℤ} (x : ℤ → ℝ) (h1 : i ≠ k) (h2 : i ≠ k + 1) (h3 : i ≠ k + 2 ∨ v3 = 0) :
    house k v2 v3 t x i = x i := by
  unfold house
  rw [dirv_ne h1 h2 h3]; ring

/-- A reflector does nothing to a vector that is zero where it acts. -/
theorem house_zero {k : ℤ} {v2 v3 t : ℝ} {i : ℤ} (x : ℤ → ℝ) (h1 : x k = 0) (h2 : x (k + 1) = 0) (h3 : x (k + 2) = 0 ∨ v3 = 0) :
    house k v2 v3 t x i = x i := by
  unfold house
  rw [h1, h2]
  rcases h3 with h3 | h3 <;> rw [h3] <;> ring

/-- The matrix after step `k`: the fill-in below column `k - 1` is set to zero. -/
def stepT (l i k : ℤ) (v2 v3 t : ℝ) (T : ℤ → ℤ → ℝ) (a b : ℤ) : ℝ :=
  if (b = k - 1 ∧ l ≤ b) ∧ a ≤ i ∧ (a = k + 1 ∨ a = k + 2) then 0 else houseR k v2 v3 t (houseL k v2 v3 t T) a b

/-- Column `k - 1` as stored by the code. -/
def codeT1 (m l k : ℤ) (beta t : ℝ) (T : ℤ → ℤ → ℝ) (a b : ℤ) : ℝ :=
  if m < k ∧ b = k - 1 ∧ a = k then beta else if m < k ∧ b = k - 1 ∧ (a = k + 1 ∨ a = k + 2) then 0
  else if ¬ m < k ∧ l < m ∧ b = k - 1 ∧ a = k then T a b * (1 - t) else T a b

/-- Columns `k..i` updated from the left. -/
def codeT2 (k : ℤ) (v2 v3 t : ℝ) (T : ℤ → ℤ → ℝ) (a b : ℤ) : ℝ := if k ≤ b then houseL k v2 v3 t T a b else T a b

/-- Rows up to `k + 4` updated from the right. -/
def codeT3 (k : ℤ) (v2 v3 t : ℝ) (T : ℤ → ℤ → ℝ) (a b : ℤ) : ℝ := if a ≤ k + 4 then houseR k v2 v3 t T a b else T a b

section step
variable {lo hi l i m k : ℤ} {g0 g : ℤ → ℤ → XR} {T0 T : ℤ → ℤ → ℝ} {beta v2 v3 t : ℝ}

/-- The reflector step inside the window. -/
def InWin (l i m k : ℤ) (v3 : ℝ) : Prop := l ≤ m ∧ m ≤ k ∧ k + 1 ≤ i ∧ (k + 2 ≤ i ∨ v3 = 0)

theorem full_left (h : Win lo hi l i m k g0 g T0 T) (hw : InWin l i m k v3) {a b : ℤ} (ha : a ≤ i) (hb1 : l ≤ b) (hb : b < k - 1) :
    houseR k v2 v3 t (houseL k v2 v3 t T) a b = T a b := by
  obtain ⟨w1, w2, w3, w4⟩ := hw
  unfold houseR
  rw [house_ne _ (by omega) (by omega) (Or.inl (by omega))]
  unfold houseL
  apply house_zero
  · exact h.hess _ _ hb1 (by omega) (by omega) (by omega) (by omega)
  · exact h.hess _ _ hb1 (by omega) (by omega) (by omega) (by omega)
  · rcases w4 with w4 | w4
    · exact Or.inl (h.hess _ _ hb1 (by omega) (by omega) (by omega) (by omega))
    · exact Or.inr w4

theorem full_col (hw : InWin l i m k v3) (a : ℤ) :
    houseR k v2 v3 t (houseL k v2 v3 t T) a (k - 1) = houseL k v2 v3 t T a (k - 1) := by
  unfold houseR
  rw [house_ne _ (by omega) (by omega) (Or.inl (by omega))]

/-- Rows below the reflector. -/
theorem full_low (h : Win lo hi l i m k g0 g T0 T) (hw : InWin l i m k v3) {a b : ℤ} (ha : k + 4 ≤ a) (hai : a ≤ i) (hb : k ≤ b) :
    houseR k v2 v3 t (houseL k v2 v3 t T) a b = T a b := by
  obtain ⟨w1, w2, w3, w4⟩ := hw
  have hL : ∀ b, houseL k v2 v3 t T a b = T a b := fun b => by
    unfold houseL
    rw [house_ne _ (by omega) (by omega) (Or.inl (by omega))]
  unfold houseR
  rw [house_zero]
  · exact hL b
  · rw [hL]; exact h.hess _ _ (by omega) (by omega) hai (by omega) (by omega)
  · rw [hL]; exact h.hess _ _ (by omega) (by omega) hai (by omega) (by omega)
  · rw [hL]; exact Or.inl (h.hess _ _ (by omega) (by omega) hai (by omega) (by omega))

theorem codeT_eq (h : Win lo hi l i m k g0 g T0 T) (hw : InWin l i m k v3)
    (hbeta : m < k → beta = houseL k v2 v3 t T k (k - 1)) {a b : ℤ} (ha2 : a ≤ i) (hb1 : l ≤ b) :
    codeT3 k v2 v3 t (codeT2 k v2 v3 t (codeT1 m l k beta t T)) a b = stepT l i k v2 v3 t T a b := by
  obtain ⟨w1, w2, w3, w4⟩ := id hw
  unfold stepT
  have e1 : ∀ a b, b ≠ k - 1 → codeT1 m l k beta t T a b = T a b := by
    intro a b hb
    unfold codeT1
    rw [if_neg (by tauto), if_neg (by tauto), if_neg (by tauto)]
  have e2 : ∀ a b, b < k → codeT2 k v2 v3 t (codeT1 m l k beta t T) a b = codeT1 m l k beta t T a b := by
    intro a b hb
    unfold codeT2
    rw [if_neg (by omega)]
  have e3 : ∀ a b, b < k → codeT3 k v2 v3 t (codeT2 k v2 v3 t (codeT1 m l k beta t T)) a b = codeT1 m l k beta t T a b := by
    intro a b hb
    rw [← e2 a b hb]
    unfold codeT3
    split
    · unfold houseR
      rw [house_ne _ (by omega) (by omega) (Or.inl (by omega))]
    · rfl
  rcases lt_trichotomy b (k - 1) with hb | hb | hb
  · rw [if_neg (by omega), full_left h hw ha2 hb1 hb, e3 _ _ (by omega), e1 _ _ (by omega)]
  · subst hb
    rw [full_col hw, e3 _ _ (by omega)]
    unfold codeT1
    by_cases hmk : m < k
    · by_cases ak : a = k
      · subst ak
        rw [if_pos ⟨hmk, rfl, rfl⟩, if_neg (by omega), hbeta hmk]
      · rw [if_neg (by tauto)]
        by_cases ak1 : a = k + 1 ∨ a = k + 2
        · rw [if_pos ⟨hmk, rfl, ak1⟩, if_pos ⟨⟨rfl, hb1⟩, ha2, ak1⟩]
        · rw [if_neg (by tauto), if_neg (by tauto), if_neg (by tauto)]
          unfold houseL
          rw [house_ne _ ak (by omega) (Or.inl (by omega))]
    · have hmk' : m = k := by omega
      subst hmk'
      rw [if_neg (by tauto), if_neg (by tauto)]
      have z1 : T (m + 1) (m - 1) = 0 := h.hess _ _ hb1 (by omega) (by omega) (by omega) (by omega)
      have z2 : m + 2 ≤ i → T (m + 2) (m - 1) = 0 := fun hm => h.hess _ _ hb1 (by omega) hm (by omega) (by omega)
      by_cases ak : a = m
      · subst ak
        rw [if_pos ⟨hmk, by omega, rfl, rfl⟩, if_neg (by omega)]
        unfold houseL house
        beta_reduce
        rw [z1]
        have : dirv a v2 v3 a = 1 := by simp [dirv]
        rw [this]
        rcases w4 with w4 | w4
        · rw [z2 w4]; ring
        · rw [w4]; ring
      · rw [if_neg (by tauto)]
        by_cases ak1 : a = m + 1 ∨ a = m + 2
        · rw [if_pos ⟨⟨rfl, hb1⟩, ha2, ak1⟩]
          rcases ak1 with rfl | rfl
          · exact z1
          · exact z2 ha2
        · rw [if_neg (by tauto)]
          unfold houseL
          rw [house_ne _ ak (by omega) (Or.inl (by omega))]
  · rw [if_neg (by omega)]
    have eL : ∀ a b, k ≤ b → codeT2 k v2 v3 t (codeT1 m l k beta t T) a b = houseL k v2 v3 t T a b := by
      intro a b hb
      unfold codeT2
      rw [if_pos hb]
      unfold houseL house
      simp only [e1 _ b (by omega)]
    unfold codeT3
    split
    · unfold houseR house
      rw [eL _ _ (by omega), eL _ _ (by omega), eL _ _ (by omega), eL _ _ (by omega)]
    · rw [eL _ _ (by omega), full_low h hw (by omega) ha2 (by omega)]
      unfold houseL
      rw [house_ne _ (by omega) (by omega) (Or.inl (by omega))]

/-- The window after the step. -/
theorem Win.step (h : Win lo hi l i m k g0 g T0 T) (hw : InWin l i m k v3) (hlo : lo ≤ l) (hhi : i ≤ hi) {g' : ℤ → ℤ → XR}
    (hg : ∀ a b, l ≤ a → a ≤ i → l ≤ b → b ≤ i → g' a b = fin (stepT l i k v2 v3 t T a b))
    (hout : ∀ a b, ¬ (l ≤ a ∧ a ≤ i ∧ l ≤ b ∧ b ≤ i) → g' a b = g a b) :
    Win lo hi l i m (k + 1) g0 g' T0 (stepT l i k v2 v3 t T) := by
  obtain ⟨w1, w2, w3, w4⟩ := id hw
  refine ⟨hg, fun a b hab => (hout a b hab).trans (h.outg a b hab), ?_, ?_, ?_, ?_⟩
  · intro a b ha hb
    unfold stepT
    rw [if_neg (by omega)]
    have hb' : b ≠ k + 2 ∨ v3 = 0 := by
      rcases w4 with w4 | w4
      · left; omega
      · exact Or.inr w4
    have ha' : a ≠ k + 2 ∨ v3 = 0 := by
      rcases w4 with w4 | w4
      · left; omega
      · exact Or.inr w4
    unfold houseR
    rw [house_ne _ (by omega) (by omega) hb']
    unfold houseL
    rw [house_ne _ (by omega) (by omega) ha']
    exact h.outT a b ha hb
  · intro a b a1 a2 b1 b2
    unfold stepT
    split
    · rfl
    · unfold houseR
      rw [house_ne _ (by omega) (by omega) (Or.inl (by omega))]
      unfold houseL
      rw [house_zero]
      · exact h.dec1 a b a1 a2 b1 b2
      · exact h.dec1 _ _ (by omega) (by omega) b1 b2
      · exact h.dec1 _ _ (by omega) (by omega) b1 b2
      · rcases w4 with w4 | w4
        · exact Or.inl (h.dec1 _ _ (by omega) (by omega) b1 b2)
        · exact Or.inr w4
  · intro a b a1 a2 b1 b2
    unfold stepT
    rw [if_neg (by omega)]
    have ha' : a ≠ k + 2 ∨ v3 = 0 := by
      rcases w4 with w4 | w4
      · left; omega
      · exact Or.inr w4
    have hL : ∀ b, houseL k v2 v3 t T a b = T a b := fun b => by
      unfold houseL
      rw [house_ne _ (by omega) (by omega) ha']
    unfold houseR
    rw [house_zero]
    · rw [hL]; exact h.dec2 a b a1 a2 b1 b2
    · rw [hL]; exact h.dec2 a _ a1 a2 (by omega) (by omega)
    · rw [hL]; exact h.dec2 a _ a1 a2 (by omega) (by omega)
    · rcases w4 with w4 | w4
      · left; rw [hL]; exact h.dec2 a _ a1 a2 (by omega) (by omega)
      · exact Or.inr w4
  · intro a b b1 hba ai n1 n2
    unfold stepT
    rcases lt_trichotomy b (k - 1) with hb | hb | hb
    · rw [if_neg (by omega), full_left h hw ai b1 hb]
      exact h.hess a b b1 hba ai (by omega) (by omega)
    · subst hb
      by_cases hak : a = k + 1 ∨ a = k + 2
      · rw [if_pos ⟨⟨rfl, b1⟩, ai, hak⟩]
      · rw [if_neg (by tauto), full_col hw]
        unfold houseL
        rw [house_ne _ (by omega) (by omega) (Or.inl (by omega))]
        exact h.hess a _ b1 hba ai (by omega) (by omega)
    · rw [if_neg (by omega)]
      by_cases hak : k + 4 ≤ a
      · rw [full_low h hw hak ai (by omega)]
        exact h.hess a b b1 hba ai (by omega) (by omega)
      · exfalso; omega

/-- The norm and the similarity after the step. -/
theorem Track.step {A : Matrix (Blk lo hi) (Blk lo hi) ℝ} {Z0 Zq : ℤ → ℤ → ℝ} {B δ ε : ℝ} (hG : Track lo hi A Z0 B δ T Zq)
    (hw : InWin l i m k v3) (hlo : lo ≤ l) (hhi : i ≤ hi) (hr : Refl v2 v3 t) (h0 : 0 ≤ ε)
    (hcut : l ≤ k - 1 → |houseL k v2 v3 t T (k + 1) (k - 1)| + (if k + 2 ≤ i then |houseL k v2 v3 t T (k + 2) (k - 1)| else 0) ≤ ε) :
    Track lo hi A Z0 B (δ + ε) (stepT l i k v2 v3 t T) (houseR k v2 v3 t Zq) := by
  obtain ⟨w1, w2, w3, w4⟩ := id hw
  have hin : Inside lo hi k v3 := ⟨by omega, by omega, by rcases w4 with w4 | w4; exacts [Or.inl (by omega), Or.inr w4]⟩
  have h1 := hG.house (v2 := v2) (t := t) hin hr
  by_cases hlk : l ≤ k - 1
  · have hc := hcut hlk
    rw [← full_col hw, ← full_col hw] at hc
    set F := houseR k v2 v3 t (houseL k v2 v3 t T) with hF
    by_cases hk2 : k + 2 ≤ i
    · rw [if_pos hk2] at hc
      have h2 := h1.cut (k + 1) (k - 1) (by omega) (abs_nonneg _) (le_refl _)
      have h3 := h2.cut (k + 2) (k - 1) (by omega) (abs_nonneg _) (le_refl _)
      beta_reduce at h3
      rw [if_neg (by omega)] at h3
      refine (h3.congr ?_).mono (by linarith)
      intro a b a1 a2 b1 b2
      unfold stepT
      by_cases hb : b = k - 1
      · subst hb
        by_cases e1 : a = k + 1
        · subst e1
          rw [if_pos ⟨⟨rfl, hlk⟩, w3, Or.inl rfl⟩, if_neg (by omega), if_pos ⟨rfl, rfl⟩]
        · by_cases e2 : a = k + 2
          · subst e2
            rw [if_pos ⟨⟨rfl, hlk⟩, hk2, Or.inr rfl⟩, if_pos ⟨rfl, rfl⟩]
          · rw [if_neg (by tauto), if_neg (by tauto), if_neg (by tauto)]
      · rw [if_neg (by tauto), if_neg (by tauto), if_neg (by tauto)]
    · rw [if_neg hk2, add_zero] at hc
      have h2 := h1.cut (k + 1) (k - 1) (by omega) (abs_nonneg _) (le_refl _)
      refine (h2.congr ?_).mono (by linarith)
      intro a b a1 a2 b1 b2
      unfold stepT
      by_cases hb : b = k - 1
      · subst hb
        by_cases e1 : a = k + 1
        · subst e1
          rw [if_pos ⟨⟨rfl, hlk⟩, w3, Or.inl rfl⟩, if_pos ⟨rfl, rfl⟩]
        · rw [if_neg (by omega), if_neg (by tauto)]
      · rw [if_neg (by tauto), if_neg (by tauto)]
  · refine (h1.congr ?_).mono (by linarith)
    intro a b a1 a2 b1 b2
    unfold stepT
    rw [if_neg (by omega)]

end step

end Verif

import Verif.Lib.HqrF64b
import Verif.Lib.HqrF64c

/-!
# One step of the bulge chase of `dlahqr` on binary64
-/

namespace Verif
open F64 Scalar Spec Matrix XR

/-- Inside the window. -/
def InW (l i a b : ℤ) : Prop := l ≤ a ∧ a ≤ i ∧ l ≤ b ∧ b ≤ i

instance (l i a b : ℤ) : Decidable (InW l i a b) := by unfold InW; infer_instance

/-- A change of the matrix inside the window that keeps the zeros. -/
theorem Win.perturb {lo hi l i m k : ℤ} {g0 g g' : ℤ → ℤ → XR} {T0 T T' : ℤ → ℤ → ℝ} (h : Win lo hi l i m k g0 g T0 T)
    (hlo : lo ≤ l) (hhi : i ≤ hi)
    (hT : ∀ a b, lo ≤ a → a ≤ hi → lo ≤ b → b ≤ hi → ¬ InW l i a b → T' a b = T a b)
    (hT2 : ∀ a b, ¬ (l ≤ a ∧ a ≤ i) → ¬ (l ≤ b ∧ b ≤ i) → T' a b = T a b)
    (hg : ∀ a b, InW l i a b → g' a b = fin (T' a b)) (hout : ∀ a b, ¬ InW l i a b → g' a b = g a b)
    (hz : ∀ a b, l ≤ b → b + 1 < a → a ≤ i → ¬ (m < k ∧ b = k - 1 ∧ (a = k + 1 ∨ a = k + 2)) → ¬ (m < k ∧ b = k ∧ a = k + 2) → T' a b = 0) :
    Win lo hi l i m k g0 g' T0 T' := by
  refine ⟨fun a b a1 a2 b1 b2 => hg a b ⟨a1, a2, b1, b2⟩, fun a b hab => (hout a b hab).trans (h.outg a b hab), ?_, ?_, ?_, hz⟩
  · intro a b ha hb
    exact (hT2 a b ha hb).trans (h.outT a b ha hb)
  · intro a b a1 a2 b1 b2
    rw [hT a b (by omega) a2 b1 (by omega) (by unfold InW; omega)]
    exact h.dec1 a b a1 a2 b1 b2
  · intro a b a1 a2 b1 b2
    by_cases hb : b ≤ hi
    · rw [hT a b (by omega) a2 b1 hb (by unfold InW; omega)]
      exact h.dec2 a b a1 a2 b1 b2
    · omega

theorem house_congr {k : ℤ} {v2 v3 t : ℝ} {x y : ℤ → ℝ} {j : ℤ} (h0 : x j = y j) (h1 : x k = y k) (h2 : x (k + 1) = y (k + 1))
    (h3 : v3 = 0 ∨ x (k + 2) = y (k + 2)) : house k v2 v3 t x j = house k v2 v3 t y j := by
  unfold house
  rw [h0, h1, h2]
  rcases h3 with h | h
  · rw [h]; ring
  · rw [h]

section step
variable {lo hi l i m k : ℤ} {G0 : ℤ → ℤ → XR} {g : ℤ → ℤ → Float} {T0 T : ℤ → ℤ → ℝ} {beta v2 v3 t : Float} {V2 V3 θ B κ : ℝ}

/-- The array as extended reals. -/
noncomputable def xg (g : ℤ → ℤ → Float) (a b : ℤ) : XR := toXR (g a b)

theorem Win.fin (h : Win lo hi l i m k G0 (xg g) T0 T) {a b : ℤ} (hab : InW l i a b) : (g a b).isFinite = true ∧ toR (g a b) = T a b :=
  fin_toXR (h.win a b hab.1 hab.2.1 hab.2.2.1 hab.2.2.2)

theorem colG_ne {a b : ℤ} (h : b ≠ k - 1 ∨ a < k ∨ k + 2 < a ∨ (¬ l < m ∧ ¬ m < k) ∨ (a = k + 2 ∧ ¬ k + 2 ≤ i)) :
    colG m l i k beta t g a b = g a b := by
  unfold colG
  split
  · split
    · rw [if_neg (by omega), if_neg (by omega)]
    · rw [if_neg (by omega)]
  · rfl

/-- The array after the row operations. -/
theorem left_ok (hW : Win lo hi l i m k G0 (xg g) T0 T) (hlo : lo ≤ l) (hhi : i ≤ hi) (hlm : l ≤ m) (hmk : m ≤ k) (hki : k + 1 ≤ i)
    (hR : NearR i k v2 v3 t V2 V3 θ) (hB : fro (block lo hi T) ≤ big)
    (hcol : l ≤ k - 1 → ∀ a, k ≤ a → a ≤ k + 2 → a ≤ i → (colG m l i k beta t g a (k - 1)).isFinite = true ∧
      |toR (colG m l i k beta t g a (k - 1)) - houseL k V2 V3 θ T a (k - 1)| ≤ κ)
    {a b : ℤ} (ha : lo ≤ a ∧ a ≤ hi) (hb : lo ≤ b ∧ b ≤ hi) (hab : InW l i a b) :
    (rowsG i k v2 v3 t (colG m l i k beta t g) a b).isFinite = true ∧
      (¬ (k ≤ a ∧ a ≤ k + 2) → rowsG i k v2 v3 t (colG m l i k beta t g) a b = g a b ∧ houseL k V2 V3 θ T a b = T a b) ∧
      (b < k - 1 → rowsG i k v2 v3 t (colG m l i k beta t g) a b = g a b ∧ houseL k V2 V3 θ T a b = T a b) ∧
      (k ≤ a ∧ a ≤ k + 2 → |toR (rowsG i k v2 v3 t (colG m l i k beta t g) a b) - houseL k V2 V3 θ T a b| ≤
        1160 * ur * cnorm (block lo hi T) ⟨b, Finset.mem_Icc.2 hb⟩ + (12 * eta + if b = k - 1 then κ else 0)) := by
  obtain ⟨a1, a2, b1, b2⟩ := id hab
  have z3 : k + 2 ≤ i ∨ V3 = 0 := by
    by_cases h : k + 2 ≤ i
    · exact Or.inl h
    · exact Or.inr (hR.z3 h)
  have out : ¬ (k ≤ a ∧ a ≤ k + 2) → rowsG i k v2 v3 t (colG m l i k beta t g) a b = g a b ∧ houseL k V2 V3 θ T a b = T a b := by
    intro hn
    constructor
    · unfold rowsG
      have : colG m l i k beta t g a b = g a b := colG_ne (by omega)
      split
      · rw [reflG_ne (by omega) (by omega) (Or.inl (by omega))]; exact this
      · exact this
    · unfold houseL
      rw [house_ne _ (by omega) (by omega) (Or.inl (by omega))]
  have left : b < k - 1 → rowsG i k v2 v3 t (colG m l i k beta t g) a b = g a b ∧ houseL k V2 V3 θ T a b = T a b := by
    intro hn
    constructor
    · unfold rowsG
      rw [if_neg (by omega)]
      exact colG_ne (Or.inl (by omega))
    · unfold houseL
      apply house_zero
      · exact hW.hess _ _ b1 (by omega) (by omega) (by omega) (by omega)
      · exact hW.hess _ _ b1 (by omega) (by omega) (by omega) (by omega)
      · rcases z3 with w4 | w4
        · exact Or.inl (hW.hess _ _ b1 (by omega) (by omega) (by omega) (by omega))
        · exact Or.inr w4
  set M := cnorm (block lo hi T) ⟨b, Finset.mem_Icc.2 hb⟩ with hM
  have M0 : 0 ≤ M := cnorm_nonneg _ _
  have MB : M ≤ big := (cnorm_le _ _).trans hB
  have uM0 : 0 ≤ ur * M := mul_nonneg ur_pos.le M0
  have ent : ∀ j, lo ≤ j → j ≤ hi → |T j b| ≤ M := fun j j1 j2 => cnorm_entry (block lo hi T) ⟨j, Finset.mem_Icc.2 ⟨j1, j2⟩⟩ ⟨b, Finset.mem_Icc.2 hb⟩
  by_cases hK : k ≤ a ∧ a ≤ k + 2
  · rcases lt_trichotomy b (k - 1) with h | h | h
    · obtain ⟨e1, e2⟩ := left h
      obtain ⟨f, e⟩ := hW.fin hab
      refine ⟨by rw [e1]; exact f, out, left, fun _ => ?_⟩
      rw [e1, e2, e, sub_self, abs_zero, if_neg (by omega)]
      have := eta_pos
      nlinarith
    · subst h
      obtain ⟨f, e⟩ := hcol b1 a hK.1 hK.2 a2
      have e1 : rowsG i k v2 v3 t (colG m l i k beta t g) a (k - 1) = colG m l i k beta t g a (k - 1) := by
        unfold rowsG
        rw [if_neg (by omega)]
      refine ⟨by rw [e1]; exact f, out, left, fun _ => ?_⟩
      rw [e1, if_pos rfl]
      have := eta_pos
      nlinarith
    · have hx : ∀ j, k ≤ j → j ≤ k + 2 → j ≤ i → (colG m l i k beta t g j b).isFinite = true ∧ |toR (colG m l i k beta t g j b)| ≤ M := by
        intro j j1 j2 j3
        obtain ⟨f, e⟩ := hW.fin (a := j) (b := b) ⟨by omega, j3, b1, b2⟩
        rw [colG_ne (Or.inl (by omega)), e]
        exact ⟨f, ent j (by omega) (by omega)⟩
      obtain ⟨f, e⟩ := reflG_near (x := fun a => colG m l i k beta t g a b) hR M0 MB hx hki hK.1 hK.2 a2
      have e1 : rowsG i k v2 v3 t (colG m l i k beta t g) a b = reflG i k v2 v3 t (fun a => colG m l i k beta t g a b) a := by
        unfold rowsG
        rw [if_pos ⟨by omega, b2⟩]
      refine ⟨by rw [e1]; exact f, out, left, fun _ => ?_⟩
      rw [e1, if_neg (by omega)]
      have val : ∀ j, l ≤ j → j ≤ i → toR (colG m l i k beta t g j b) = T j b := fun j j1 j2 => by
        rw [colG_ne (Or.inl (by omega))]; exact (hW.fin ⟨j1, j2, b1, b2⟩).2
      have e2 : house k V2 V3 θ (fun a => toR (colG m l i k beta t g a b)) a = houseL k V2 V3 θ T a b := by
        unfold houseL
        refine house_congr (val _ a1 a2) (val _ (by omega) (by omega)) (val _ (by omega) (by omega)) ?_
        rcases z3 with w4 | w4
        · exact Or.inr (val _ (by omega) w4)
        · exact Or.inl w4
      rw [e2] at e
      refine e.trans ?_
      linarith
  · obtain ⟨e1, e2⟩ := out hK
    obtain ⟨f, e⟩ := hW.fin hab
    exact ⟨by rw [e1]; exact f, out, left, fun h => absurd h hK⟩

set_option maxHeartbeats 1600000 in
/-- One step of the chase: the new array stands for a matrix that differs little from an exact orthogonal similarity. -/
theorem step_near (hW : Win lo hi l i m k G0 (xg g) T0 T) (hlo : lo ≤ l) (hhi : i ≤ hi) (hlm : l ≤ m) (hmk : m ≤ k) (hki : k + 1 ≤ i)
    (hR : NearR i k v2 v3 t V2 V3 θ) (hrefl : Refl V2 V3 θ) (hB : fro (block lo hi T) ≤ B) (hBb : 1024 * B ≤ big)
    (κ0 : 0 ≤ κ) (κ1 : 1024 * κ ≤ big) (hn : (hi - lo + 1).toNat < 2 ^ 31)
    (hcol : l ≤ k - 1 → ∀ a, k ≤ a → a ≤ k + 2 → a ≤ i → (colG m l i k beta t g a (k - 1)).isFinite = true ∧
      |toR (colG m l i k beta t g a (k - 1)) - houseL k V2 V3 θ T a (k - 1)| ≤ κ)
    (hcz : l ≤ k - 1 → ∀ a, k + 1 ≤ a → a ≤ k + 2 → a ≤ i → toR (colG m l i k beta t g a (k - 1)) = 0) :
    ∃ T', Win lo hi l i m (k + 1) G0 (xg (stepG m l i k beta v2 v3 t g)) T0 T' ∧
      ∀ A Q δ, Trk A Q δ T → Trk A (Q * houseM lo hi k V2 V3 θ) (δ + (4650 * ur * B + 3 * κ + 50 * (hi - lo + 1).toNat * eta)) T' := by
  have u0 := ur_pos
  have us := ur_small
  have e0 := eta_pos
  have eu := eta_le_ur
  have B1 := one_le_big
  have B0 : 0 ≤ B := (fro_nonneg _).trans hB
  have uB0 : 0 ≤ ur * B := mul_nonneg u0.le B0
  have uB : ur * B ≤ B / 1000000000000000 := by have := mul_le_mul_of_nonneg_right us B0; linarith
  have uuB : ur * (ur * B) ≤ ur * B / 1000000000000000 := by have := mul_le_mul_of_nonneg_right us uB0; linarith
  have uκ : ur * κ ≤ κ / 1000000000000000 := by have := mul_le_mul_of_nonneg_right us κ0; linarith
  set nh : ℝ := (((hi - lo + 1).toNat : ℕ) : ℝ) with hnh
  have n0 : 0 ≤ nh := Nat.cast_nonneg _
  have n1 : nh ≤ 2 ^ 31 := by rw [hnh]; exact_mod_cast hn.le
  have ne0 : 0 ≤ nh * eta := mul_nonneg n0 e0.le
  have une : ur * (nh * eta) ≤ nh * eta / 1000000000000000 := by have := mul_le_mul_of_nonneg_right us ne0; linarith
  have nee : nh * eta ≤ 1 / 1000 := by
    have h1 : nh * eta ≤ 2 ^ 31 * eta := mul_le_mul_of_nonneg_right n1 e0.le
    have h2 : (2 : ℝ) ^ 31 * eta ≤ 2 ^ 31 * ur := mul_le_mul_of_nonneg_left eu (by norm_num)
    have h3 : (2 : ℝ) ^ 31 * ur ≤ 1 / 1000 := by unfold ur; norm_num
    linarith
  have hin : Inside lo hi k V3 := ⟨by omega, by omega, by
    by_cases h : k + 2 ≤ i
    · exact Or.inl (by omega)
    · exact Or.inr (hR.z3 h)⟩
  have z3 : k + 2 ≤ i ∨ V3 = 0 := by
    by_cases h : k + 2 ≤ i
    · exact Or.inl h
    · exact Or.inr (hR.z3 h)
  set g2 := rowsG i k v2 v3 t (colG m l i k beta t g) with hg2
  set G : ℤ → ℤ → ℝ := fun a b => if InW l i a b then toR (g2 a b) else houseL k V2 V3 θ T a b with hG
  have left := fun a b (hab : InW l i a b) => left_ok (a := a) (b := b) hW hlo hhi hlm hmk hki hR (by linarith) hcol
    ⟨by have := hab.1; omega, by have := hab.2.1; omega⟩ ⟨by have := hab.2.2.1; omega, by have := hab.2.2.2; omega⟩ hab
  simp only [← hg2] at left
  have GW : ∀ a b, InW l i a b → G a b = toR (g2 a b) := fun a b h => by simp only [hG, if_pos h]
  -- the left error
  have d1 : fro (block lo hi G - block lo hi (houseL k V2 V3 θ T)) ≤ 2 * (1160 * ur * B) + 2 * (nh * (12 * eta) + κ) := by
    refine (fro_rows (T := block lo hi T) (c := 1160 * ur) (y := fun b => 12 * eta + if (b : ℤ) = k - 1 then κ else 0) (rows3 lo hi k)
      (card_rows3 k) (by linarith) ?_ ?_ ?_).trans ?_
    · intro b
      have : (0 : ℝ) ≤ if (b : ℤ) = k - 1 then κ else 0 := by split <;> [exact κ0; exact le_refl _]
      show 0 ≤ 12 * eta + _
      linarith
    · intro a ha b
      rw [mem_rows3] at ha
      rw [Matrix.sub_apply]
      simp only [block]
      by_cases hab : InW l i a b
      · obtain ⟨e1, e2⟩ := (left a b hab).2.1 ha
        rw [GW _ _ hab, e1, e2, (hW.fin hab).2, sub_self]
      · simp only [hG, if_neg hab, sub_self]
    · intro a ha b
      rw [mem_rows3] at ha
      rw [Matrix.sub_apply]
      simp only [block]
      by_cases hab : InW l i a b
      · rw [GW _ _ hab]
        exact (left a b hab).2.2.2 ha
      · simp only [hG, if_neg hab, sub_self, abs_zero]
        have h1 : (0 : ℝ) ≤ if (b : ℤ) = k - 1 then κ else 0 := by split <;> [exact κ0; exact le_refl _]
        have h2 := cnorm_nonneg (block lo hi T) b
        have h3 := mul_nonneg u0.le h2
        linarith
    · have h1 := sum_spike (lo := lo) (hi := hi) (τ := 12 * eta) κ0 (k - 1)
      have h2 : 1160 * ur * fro (block lo hi T) ≤ 1160 * ur * B := mul_le_mul_of_nonneg_left hB (by linarith)
      linarith
  set D1 := 2 * (1160 * ur * B) + 2 * (nh * (12 * eta) + κ) with hD1
  have froG : fro (block lo hi G) ≤ B + D1 := by
    have e : block lo hi G = block lo hi (houseL k V2 V3 θ T) + (block lo hi G - block lo hi (houseL k V2 V3 θ T)) := by abel
    rw [e]
    refine (fro_add _ _).trans ?_
    rw [fro_houseL hin hrefl]
    linarith
  have froGb : fro (block lo hi G) ≤ big := by
    refine froG.trans ?_
    rw [hD1]; linarith
  -- the right factor
  set g3 := stepG m l i k beta v2 v3 t g with hg3
  have g3e : ∀ a b, g3 a b = if l ≤ a ∧ a ≤ min i (k + 4) then reflG i k v2 v3 t (g2 a) b else g2 a b := fun a b => rfl
  set T' : ℤ → ℤ → ℝ := fun a b => if InW l i a b then toR (g3 a b) else houseR k V2 V3 θ G a b with hT'
  have rowdata : ∀ a, l ≤ a → a ≤ i → ∀ (ha : lo ≤ a ∧ a ≤ hi), ∀ j, k ≤ j → j ≤ k + 2 → j ≤ i →
      (g2 a j).isFinite = true ∧ |toR (g2 a j)| ≤ cnorm (block lo hi G).transpose ⟨a, Finset.mem_Icc.2 ha⟩ := by
    intro a a1 a2 ha j j1 j2 j3
    have hab : InW l i a j := ⟨a1, a2, by omega, j3⟩
    refine ⟨(left a j hab).1, ?_⟩
    rw [← GW a j hab]
    exact cnorm_entry (block lo hi G).transpose ⟨j, Finset.mem_Icc.2 ⟨by omega, by omega⟩⟩ ⟨a, Finset.mem_Icc.2 ha⟩
  have lowz : ∀ a j, k + 4 ≤ a → a ≤ i → k ≤ j → j ≤ k + 2 → (g2 a j).isFinite = true ∧ toR (g2 a j) = 0 := by
    intro a j a1 a2 j1 j2
    have hab : InW l i a j := ⟨by omega, a2, by omega, by omega⟩
    obtain ⟨e1, -⟩ := (left a j hab).2.1 (by omega)
    obtain ⟨f, e⟩ := hW.fin hab
    rw [e1]
    exact ⟨f, e.trans (hW.hess a j (by omega) (by omega) a2 (by omega) (by omega))⟩
  have right : ∀ a b, InW l i a b → (g3 a b).isFinite = true ∧
      (¬ (k ≤ b ∧ b ≤ k + 2) → g3 a b = g2 a b ∧ houseR k V2 V3 θ G a b = G a b) ∧
      (∀ ha : lo ≤ a ∧ a ≤ hi, k ≤ b ∧ b ≤ k + 2 → |toR (g3 a b) - houseR k V2 V3 θ G a b| ≤
        1160 * ur * cnorm (block lo hi G).transpose ⟨a, Finset.mem_Icc.2 ha⟩ + 12 * eta) := by
    intro a b hab
    obtain ⟨a1, a2, b1, b2⟩ := id hab
    have ha : lo ≤ a ∧ a ≤ hi := ⟨by omega, by omega⟩
    have h1 : ¬ (k ≤ b ∧ b ≤ k + 2) → g3 a b = g2 a b ∧ houseR k V2 V3 θ G a b = G a b := by
      intro hK
      constructor
      · rw [g3e]
        split
        · exact reflG_ne (by omega) (by omega) (Or.inl (by omega))
        · rfl
      · unfold houseR
        rw [house_ne _ (by omega) (by omega) (Or.inl (by omega))]
    by_cases hK : k ≤ b ∧ b ≤ k + 2
    · by_cases h4 : a ≤ min i (k + 4)
      · obtain ⟨f, e⟩ := reflG_near (x := g2 a) hR (cnorm_nonneg _ _) ((cnorm_le _ _).trans (by rw [fro_transpose]; exact froGb))
          (rowdata a a1 a2 ha) hki hK.1 hK.2 b2
        have e3 : g3 a b = reflG i k v2 v3 t (g2 a) b := by rw [g3e, if_pos ⟨a1, h4⟩]
        refine ⟨by rw [e3]; exact f, h1, fun _ _ => ?_⟩
        have e2 : house k V2 V3 θ (fun j => toR (g2 a j)) b = houseR k V2 V3 θ G a b := by
          unfold houseR
          have val : ∀ j, l ≤ j → j ≤ i → toR (g2 a j) = G a j := fun j j1 j2 => (GW a j ⟨a1, a2, j1, j2⟩).symm
          refine house_congr (val _ b1 b2) (val _ (by omega) (by omega)) (val _ (by omega) (by omega)) ?_
          rcases z3 with w4 | w4
          · exact Or.inr (val _ (by omega) w4)
          · exact Or.inl w4
        rw [e3, ← e2]
        exact e.trans (by linarith)
      · have e3 : g3 a b = g2 a b := by rw [g3e, if_neg (by tauto)]
        have z := fun j => lowz a j (by omega) a2
        have e2 : houseR k V2 V3 θ G a b = G a b := by
          unfold houseR
          have val : ∀ j, k ≤ j → j ≤ k + 2 → j ≤ i → G a j = 0 := fun j j1 j2 j3 => by
            rw [GW a j ⟨a1, a2, by omega, j3⟩]; exact (z j j1 j2).2
          exact house_zero _ (val _ (by omega) (by omega) (by omega)) (val _ (by omega) (by omega) (by omega))
            (Or.inl (val _ (by omega) (by omega) (by omega)))
        refine ⟨by rw [e3]; exact (z b hK.1 hK.2).1, h1, fun ha _ => ?_⟩
        rw [e2, e3, GW a b hab, sub_self, abs_zero]
        have := mul_nonneg u0.le (cnorm_nonneg (block lo hi G).transpose ⟨a, Finset.mem_Icc.2 ha⟩)
        linarith
    · obtain ⟨e3, -⟩ := h1 hK
      exact ⟨by rw [e3]; exact (left a b hab).1, h1, fun _ h => absurd h hK⟩
  have TW : ∀ a b, InW l i a b → T' a b = toR (g3 a b) := fun a b h => by simp only [hT', if_pos h]
  have d2 : fro (block lo hi T' - block lo hi (houseR k V2 V3 θ G)) ≤ 2 * (1160 * ur * (B + D1)) + 2 * (nh * (12 * eta)) := by
    refine (fro_cols (T := block lo hi G) (c := 1160 * ur) (y := fun _ => 12 * eta) (rows3 lo hi k)
      (card_rows3 k) (by linarith) (fun _ => by linarith) ?_ ?_).trans ?_
    · intro b hb a
      rw [mem_rows3] at hb
      rw [Matrix.sub_apply]
      simp only [block]
      by_cases hab : InW l i a b
      · obtain ⟨e1, e2⟩ := (right a b hab).2.1 hb
        rw [TW _ _ hab, e1, e2, GW _ _ hab, sub_self]
      · simp only [hT', if_neg hab, sub_self]
    · intro b hb a
      rw [mem_rows3] at hb
      rw [Matrix.sub_apply]
      simp only [block]
      by_cases hab : InW l i a b
      · rw [TW _ _ hab]
        exact (right a b hab).2.2 (Finset.mem_Icc.1 a.2) hb
      · simp only [hT', if_neg hab, sub_self, abs_zero]
        have h2 := mul_nonneg u0.le (cnorm_nonneg (block lo hi G).transpose a)
        linarith
    · have h1 := sum_spike (lo := lo) (hi := hi) (τ := 12 * eta) (le_refl 0) (k - 1)
      simp only [ite_self, add_zero] at h1
      have h2 : 1160 * ur * fro (block lo hi G) ≤ 1160 * ur * (B + D1) := mul_le_mul_of_nonneg_left froG (by linarith)
      linarith
  refine ⟨T', ?_, fun A Q δ hT => (hT.house hin hrefl d1 d2).mono ?_⟩
  · -- the window
    have hw : InWin l i m k V3 := ⟨hlm, hmk, hki, z3⟩
    have h0 := hW.step (v2 := V2) (t := θ) hw hlo hhi (g' := fun a b => if InW l i a b then XR.fin (stepT l i k V2 V3 θ T a b) else xg g a b)
      (fun a b a1 a2 b1 b2 => by rw [if_pos ⟨a1, a2, b1, b2⟩]) (fun a b hab => by rw [if_neg (show ¬ InW l i a b from hab)])
    have outEq : ∀ a b, ¬ InW l i a b → (¬ (l ≤ a ∧ a ≤ i) ∨ lo ≤ a) → T' a b = stepT l i k V2 V3 θ T a b := by
      intro a b hab _
      simp only [hT', if_neg hab]
      unfold stepT
      rw [if_neg (by unfold InW at hab; omega)]
      by_cases hra : l ≤ a ∧ a ≤ i
      · -- the column is outside
        unfold houseR
        have hb : ¬ (l ≤ b ∧ b ≤ i) := by unfold InW at hab; tauto
        have hb' : b ≠ k + 2 ∨ V3 = 0 := by
          rcases z3 with w4 | w4
          · left; omega
          · exact Or.inr w4
        rw [house_ne _ (by omega) (by omega) hb', house_ne _ (by omega) (by omega) hb']
        simp only [hG, if_neg hab]
      · have : ∀ b, G a b = houseL k V2 V3 θ T a b := fun b => by simp only [hG]; rw [if_neg (by unfold InW; tauto)]
        unfold houseR
        exact house_congr (this _) (this _) (this _) (Or.inr (this _))
    refine h0.perturb hlo hhi ?_ ?_ ?_ ?_ ?_
    · intro a b a1 a2 b1 b2 hab
      exact outEq a b hab (Or.inr a1)
    · intro a b ha hb
      exact outEq a b (by unfold InW; tauto) (Or.inl ha)
    · intro a b hab
      rw [TW a b hab]
      exact toXR_fin (right a b hab).1
    · intro a b hab
      rw [if_neg hab]
      show toXR _ = toXR _
      congr 1
      rw [hg3]
      have e2 : ∀ b, ¬ InW l i a b → g2 a b = g a b := by
        intro b hab
        have e1 : colG m l i k beta t g a b = g a b := by
          apply colG_ne
          unfold InW at hab
          omega
        have e1' : ¬ InW l i a b → rowsG i k v2 v3 t (colG m l i k beta t g) a b = g a b := by
          intro hab
          unfold rowsG
          split
          · rw [reflG_ne (by unfold InW at hab; omega) (by unfold InW at hab; omega) (by unfold InW at hab; omega)]; exact e1
          · exact e1
        exact e1' hab
      show (if l ≤ a ∧ a ≤ min i (k + 4) then reflG i k v2 v3 t (g2 a) b else g2 a b) = g a b
      split
      · rw [reflG_ne (by unfold InW at hab; omega) (by unfold InW at hab; omega) (by unfold InW at hab; omega)]
        exact e2 b hab
      · exact e2 b hab
    · intro a b b1 hba ai n1 n2
      have hab : InW l i a b := ⟨by omega, ai, b1, by omega⟩
      rw [TW a b hab]
      rcases lt_trichotomy b (k - 1) with hb | hb | hb
      · rw [((right a b hab).2.1 (by omega)).1, ((left a b hab).2.2.1 hb).1, (hW.fin hab).2]
        exact hW.hess a b b1 hba ai (by omega) (by omega)
      · subst hb
        rw [((right a _ hab).2.1 (by omega)).1]
        by_cases hak : k ≤ a ∧ a ≤ k + 2
        · have : g2 a (k - 1) = colG m l i k beta t g a (k - 1) := by
            rw [hg2]; unfold rowsG; rw [if_neg (by omega)]
          rw [this]
          exact hcz b1 a (by omega) hak.2 ai
        · rw [((left a _ hab).2.1 hak).1, (hW.fin hab).2]
          exact hW.hess a _ b1 hba ai (by omega) (by omega)
      · by_cases hK : k ≤ b ∧ b ≤ k + 2
        · have hak : k + 4 ≤ a := by omega
          by_cases h4 : a ≤ min i (k + 4)
          · rw [g3e, if_pos ⟨by omega, h4⟩]
            exact (reflG_zero hR (fun j j1 j2 _ => lowz a j hak ai j1 j2) (by omega) hK.1 hK.2).2
          · rw [g3e, if_neg (by tauto)]
            exact (lowz a b hak ai hK.1 hK.2).2
        · rw [((right a b hab).2.1 hK).1, ((left a b hab).2.1 (by omega)).1, (hW.fin hab).2]
          exact hW.hess a b b1 hba ai (by omega) (by omega)
  · have e1 : ur * (B + D1) = ur * B + 2320 * (ur * (ur * B)) + 24 * (ur * (nh * eta)) + 2 * (ur * κ) := by rw [hD1]; ring
    have e2 : 2 * (1160 * ur * (B + D1)) = 2320 * (ur * (B + D1)) := by ring
    have e3 : D1 = 2320 * (ur * B) + 24 * (nh * eta) + 2 * κ := by rw [hD1]; ring
    have e4 : 4650 * ur * B = 4650 * (ur * B) := by ring
    have e5 : 50 * nh * eta = 50 * (nh * eta) := by ring
    rw [e2, e1, e4, e5]
    linarith

end step

end Verif

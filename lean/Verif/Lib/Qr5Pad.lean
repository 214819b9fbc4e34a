import Verif.Lib.Qr5Acc
import Verif.Lib.Qr5Chase
import Verif.Lib.HqrRot

/-!
# Reflectors applied to columns that may lie outside the array

A read outside the array gives the smallest positive normal number, a write outside is lost.  `dlaqr5` applies reflectors to such columns of `z`.
-/

namespace Verif
open Scalar XR

section
variable {F : Type} [Scalar F] {a : FA F} {rz cz : Nat} {cols : ℤ} {g : ℤ → ℤ → F} {i j : ℤ}

/-- What is read at `(i, j)`. -/
def padX (cz : Nat) (g : ℤ → ℤ → F) (i j : ℤ) : F := if 1 ≤ j ∧ j ≤ cz then g i j else minPositive

theorem off_near (hr : a.rows = rz) (hs : rz * (cz + 1) < 2 ^ 31) (h2 : 2 ≤ cz) (i1 : 1 ≤ i) (i2 : i ≤ rz) (j1 : -1 ≤ j) (j2 : j ≤ cz + 1) :
    a.off i j = pure ((j - 1) * rz + (i - 1)) ∧ FitsI32 ((j - 1) * rz + (i - 1)) := by
  have hs' : (rz : ℤ) * cz + rz < 2147483648 := by
    have : rz * cz + rz < 2147483648 := by rw [show rz * cz + rz = rz * (cz + 1) by ring]; exact hs
    exact_mod_cast this
  have a1 : (j - 1) * (rz : ℤ) ≤ cz * rz := Int.mul_le_mul_of_nonneg_right (by omega) (by omega)
  have a2 : (-2) * (rz : ℤ) ≤ (j - 1) * rz := Int.mul_le_mul_of_nonneg_right (by omega) (by omega)
  have a3 : (2 : ℤ) * rz ≤ cz * rz := Int.mul_le_mul_of_nonneg_right (by omega) (by omega)
  have a4 : (rz : ℤ) * cz = cz * rz := by ring
  have a5 : (cz : ℤ) * 1 ≤ cz * rz := Int.mul_le_mul_of_nonneg_left (by omega) (by omega)
  refine ⟨?_, by unfold FitsI32; omega⟩
  unfold FA.off
  rw [isub_ok (by unfold FitsI32; omega), isub_ok (by unfold FitsI32; omega), hr]
  simp only [pure_bind]
  rw [imul_ok (by unfold FitsI32; omega)]
  simp only [pure_bind]
  rw [iadd_ok (by unfold FitsI32; omega)]

omit [Scalar F] in
theorem out_none (h : Is2 a rz cols (rz * cz) g) (hs : rz * (cz + 1) < 2 ^ 31) (i1 : 1 ≤ i) (i2 : i ≤ rz) (hn : ¬ (1 ≤ j ∧ j ≤ cz))
    (hf : FitsI32 ((j - 1) * rz + (i - 1))) : a.data[asUsize ((j - 1) * rz + (i - 1))]? = none := by
  rw [h.data, List.getElem?_eq_none_iff, length_tab2]
  have hs' : rz * cz < 2 ^ 31 := lt_of_le_of_lt (Nat.mul_le_mul_left _ (by omega)) hs
  by_cases hj : 1 ≤ j
  · have hj2 : (cz : ℤ) + 1 ≤ j := by omega
    have a1 : (cz : ℤ) * rz ≤ (j - 1) * rz := Int.mul_le_mul_of_nonneg_right (by omega) (by omega)
    have a2 : (0 : ℤ) ≤ cz * rz := by positivity
    rw [asUsize_nonneg (by omega) hf]
    have a3 : ((rz * cz : ℕ) : ℤ) = cz * rz := by push_cast; ring
    omega
  · have a1 : (j - 1) * (rz : ℤ) ≤ (-1) * rz := Int.mul_le_mul_of_nonneg_right (by omega) (by omega)
    have := asUsize_neg (show (j - 1) * (rz : ℤ) + (i - 1) < 0 by omega) hf
    have : (2 : Nat) ^ 62 + 2 ^ 62 = 2 ^ 63 := by norm_num
    have : (2 : Nat) ^ 31 ≤ 2 ^ 62 := Nat.pow_le_pow_right (by norm_num) (by norm_num)
    omega

theorem get2_near (h : Is2 a rz cols (rz * cz) g) (hs : rz * (cz + 1) < 2 ^ 31) (h2 : 2 ≤ cz) (i1 : 1 ≤ i) (i2 : i ≤ rz) (j1 : -1 ≤ j)
    (j2 : j ≤ cz + 1) : a.get2 i j = pure (padX cz g i j) := by
  unfold padX
  by_cases hj : 1 ≤ j ∧ j ≤ cz
  · rw [if_pos hj]
    exact get2_is2 h (cell_rc i1 i2 hj.1 hj.2) (lt_of_le_of_lt (Nat.mul_le_mul_left _ (by omega)) hs)
  · rw [if_neg hj]
    obtain ⟨e, hf⟩ := off_near (a := a) (j := j) h.rows hs h2 i1 i2 j1 j2
    unfold FA.get2
    rw [e, pure_bind, out_none h hs i1 i2 hj hf]

theorem modify2_near (h : Is2 a rz cols (rz * cz) g) (hs : rz * (cz + 1) < 2 ^ 31) (h2 : 2 ≤ cz) (i1 : 1 ≤ i) (i2 : i ≤ rz) (j1 : -1 ≤ j)
    (j2 : j ≤ cz + 1) (f : F → F) :
    ∃ a', a.modify2 i j f = pure a' ∧ Is2 a' rz cols (rz * cz) (if 1 ≤ j ∧ j ≤ cz then upd2 g i j (f (g i j)) else g) := by
  by_cases hj : 1 ≤ j ∧ j ≤ cz
  · rw [if_pos hj]
    exact modify2_is2 h (cell_rc i1 i2 hj.1 hj.2) (lt_of_le_of_lt (Nat.mul_le_mul_left _ (by omega)) hs) f
  · rw [if_neg hj]
    obtain ⟨e, hf⟩ := off_near (a := a) (j := j) h.rows hs h2 i1 i2 j1 j2
    refine ⟨{ a with defaultValue := f a.defaultValue }, ?_, h.rows, h.cols, h.data⟩
    unfold FA.modify2
    rw [e, pure_bind, out_none h hs i1 i2 hj hf]

theorem refl3Cols_near {lo hi r1 r2 r3 : ℤ} (v2 v3 t1 t2 t3 : F) (ha : Is2 a rz cols (rz * cz) g) (hs : rz * (cz + 1) < 2 ^ 31) (h2 : 2 ≤ cz)
    (h12 : r1 ≠ r2) (h13 : r1 ≠ r3) (h23 : r2 ≠ r3) (l1 : 1 ≤ lo) (l2 : hi ≤ rz) (b1 : -1 ≤ r1 ∧ r1 ≤ cz + 1) (b2 : -1 ≤ r2 ∧ r2 ≤ cz + 1)
    (b3 : -1 ≤ r3 ∧ r3 ≤ cz + 1) :
    ∃ a', refl3Cols lo hi r1 r2 r3 v2 v3 t1 t2 t3 a = pure a' ∧
      Is2 a' rz cols (rz * cz) fun i j => if lo ≤ i ∧ i ≤ hi then if 1 ≤ j ∧ j ≤ cz then refl3 r1 r2 r3 v2 v3 t1 t2 t3 (padX cz g i) j else g i j else g i j := by
  refine lineLoop (E := fun g i j => if 1 ≤ j ∧ j ≤ cz then refl3 r1 r2 r3 v2 v3 t1 t2 t3 (padX cz g i) j else g i j) ?_ ?_ ha
  · intro j h1 h3 c g hg
    have j1 : 1 ≤ j := by omega
    have j2 : j ≤ rz := by omega
    obtain ⟨d1, e1, k1⟩ := modify2_near hg hs h2 j1 j2 b1.1 b1.2 fun _ => padX cz g j r1 - (padX cz g j r1 + v2 * padX cz g j r2 + v3 * padX cz g j r3) * t1
    obtain ⟨d2, e2, k2⟩ := modify2_near k1 hs h2 j1 j2 b2.1 b2.2 (· - (padX cz g j r1 + v2 * padX cz g j r2 + v3 * padX cz g j r3) * t2)
    obtain ⟨d3, e3, k3⟩ := modify2_near k2 hs h2 j1 j2 b3.1 b3.2 (· - (padX cz g j r1 + v2 * padX cz g j r2 + v3 * padX cz g j r3) * t3)
    refine ⟨d3, ?_, ?_⟩
    · rw [get2_near hg hs h2 j1 j2 b1.1 b1.2, get2_near hg hs h2 j1 j2 b2.1 b2.2, get2_near hg hs h2 j1 j2 b3.1 b3.2]
      simp only [pure_bind]
      unfold FA.set2
      rw [e1, pure_bind, e2, pure_bind, e3]
    · convert k3 using 1
      funext i' j'
      have hp : ∀ x, 1 ≤ x ∧ x ≤ (cz : ℤ) → padX cz g j x = g j x := fun x hx => by unfold padX; rw [if_pos hx]
      have up : ∀ (g : ℤ → ℤ → F) (x : ℤ) (w : F), (if 1 ≤ x ∧ x ≤ (cz : ℤ) then upd2 g j x w else g) i' j' =
          if i' = j ∧ j' = x ∧ (1 ≤ j' ∧ j' ≤ cz) then w else g i' j' := by
        intro g x w
        by_cases hx : 1 ≤ x ∧ x ≤ (cz : ℤ)
        · rw [if_pos hx]
          unfold upd2
          by_cases h : i' = j ∧ j' = x
          · rw [if_pos h, if_pos ⟨h.1, h.2, h.2 ▸ hx⟩]
          · rw [if_neg h, if_neg (by tauto)]
        · rw [if_neg hx, if_neg]
          rintro ⟨-, rfl, h⟩
          exact hx h
      rw [up, up, up]
      by_cases hi' : i' = j
      · subst hi'
        rw [if_pos rfl]
        by_cases hj' : 1 ≤ j' ∧ j' ≤ (cz : ℤ)
        · rw [if_pos hj']
          have hpj := hp j' hj'
          unfold refl3
          by_cases a3 : j' = r3
          · subst a3
            have q1 : ¬ (j' = r1) := fun e => h13 e.symm
            have q2 : ¬ (j' = r2) := fun e => h23 e.symm
            have w1 : ∀ w : F, (if 1 ≤ r1 ∧ r1 ≤ (cz : ℤ) then upd2 g i' r1 w else g) i' j' = g i' j' := fun w => by rw [up, if_neg (by tauto)]
            have w2 : ∀ (g' : ℤ → ℤ → F) (w : F), (if 1 ≤ r2 ∧ r2 ≤ (cz : ℤ) then upd2 g' i' r2 w else g') i' j' = g' i' j' :=
              fun g' w => by rw [up, if_neg (by tauto)]
            rw [if_pos rfl, if_pos ⟨rfl, rfl, hj'⟩, w2, w1, hpj]
          · rw [if_neg a3, if_neg (show ¬ (i' = i' ∧ j' = r3 ∧ (1 ≤ j' ∧ j' ≤ (cz : ℤ))) by tauto)]
            by_cases a2 : j' = r2
            · subst a2
              have q1 : ¬ (j' = r1) := fun e => h12 e.symm
              have w1 : ∀ w : F, (if 1 ≤ r1 ∧ r1 ≤ (cz : ℤ) then upd2 g i' r1 w else g) i' j' = g i' j' := fun w => by rw [up, if_neg (by tauto)]
              rw [if_pos rfl, if_pos ⟨rfl, rfl, hj'⟩, w1, hpj]
            · rw [if_neg a2, if_neg (show ¬ (i' = i' ∧ j' = r2 ∧ (1 ≤ j' ∧ j' ≤ (cz : ℤ))) by tauto)]
              by_cases a1 : j' = r1
              · subst a1
                rw [if_pos rfl, if_pos ⟨rfl, rfl, hj'⟩]
              · rw [if_neg a1, if_neg (by tauto), hpj]
        · rw [if_neg hj', if_neg (by tauto), if_neg (by tauto), if_neg (by tauto)]
      · rw [if_neg hi', if_neg (by tauto), if_neg (by tauto), if_neg (by tauto)]
  · intro i h1 h3 g g' hgg j
    have : g i = g' i := funext hgg
    have hp : padX cz g i = padX cz g' i := by unfold padX; rw [this]
    rw [hp, this]

end

/-! ### The real entries -/

/-- The entries as they are read. -/
noncomputable def pad (cz : Nat) (M : ℤ → ℤ → ℝ) (a b : ℤ) : ℝ := if 1 ≤ b ∧ b ≤ cz then M a b else 1 / 2 ^ 1022

/-- Rows `i0..i1` of `z` hold `M`; the other rows are those of `g0`. -/
structure ZOn (rz cz : Nat) (i0 i1 : ℤ) (g0 : ℤ → ℤ → XR) (M : ℤ → ℤ → ℝ) (z : FA XR) : Prop where
  ex : ∃ g, Is2 z rz cz (rz * cz) g ∧ (∀ a b : ℤ, i0 ≤ a → a ≤ i1 → 1 ≤ b → b ≤ cz → g a b = fin (M a b)) ∧ ∀ a b, ¬ (i0 ≤ a ∧ a ≤ i1) → g a b = g0 a b

section
variable {rz cz : Nat} {i0 i1 q : ℤ} {g0 : ℤ → ℤ → XR} {M M' : ℤ → ℤ → ℝ} {z : FA XR}

theorem ZOn.congr (h : ZOn rz cz i0 i1 g0 M z) (he : ∀ a b : ℤ, i0 ≤ a → a ≤ i1 → 1 ≤ b → b ≤ cz → M a b = M' a b) : ZOn rz cz i0 i1 g0 M' z := by
  obtain ⟨g, k1, k2, k3⟩ := h.ex
  exact ⟨g, k1, fun a b x1 x2 y1 y2 => by rw [k2 a b x1 x2 y1 y2, he a b x1 x2 y1 y2], k3⟩

theorem ZOn.refl3 (h : ZOn rz cz i0 i1 g0 M z) (hs : rz * (cz + 1) < 2 ^ 31) (h2 : 2 ≤ cz) (l1 : 1 ≤ i0) (l2 : i1 ≤ rz) (q1 : -1 ≤ q) (q2 : q + 1 ≤ cz)
    (v2 v3 t : ℝ) : ∃ z', refl3Cols i0 i1 q (q + 1) (q + 2) (fin v2) (fin v3) (fin t) (fin t * fin v2) (fin t * fin v3) z = pure z' ∧
      ZOn rz cz i0 i1 g0 (houseR q v2 v3 t (pad cz M)) z' := by
  obtain ⟨g, k1, k2, k3⟩ := h.ex
  obtain ⟨z', e, k⟩ := refl3Cols_near (lo := i0) (hi := i1) (r1 := q) (r2 := q + 1) (r3 := q + 2) (fin v2) (fin v3) (fin t) (fin t * fin v2) (fin t * fin v3) k1 hs h2
    (by omega) (by omega) (by omega) l1 l2 ⟨by omega, by omega⟩ ⟨by omega, by omega⟩ ⟨by omega, by omega⟩
  refine ⟨z', e, _, k, ?_, ?_⟩
  · intro a b x1 x2 y1 y2
    have hp : ∀ c, padX cz g a c = fin (pad cz M a c) := by
      intro c
      unfold padX pad
      split
      · next hc => exact k2 a c x1 x2 hc.1 hc.2
      · rfl
    beta_reduce
    rw [if_pos ⟨x1, x2⟩, if_pos ⟨y1, y2⟩]
    exact refl3_fin (hp _) (hp _) (hp _) (hp _)
  · intro a b hn
    beta_reduce
    rw [if_neg hn]
    exact k3 a b hn

/-- A reflector on columns inside the array. -/
theorem ZOn.refl3_in (h : ZOn rz cz i0 i1 g0 M z) (hs : rz * (cz + 1) < 2 ^ 31) (h2 : 2 ≤ cz) (l1 : 1 ≤ i0) (l2 : i1 ≤ rz) (q1 : 1 ≤ q) (q2 : q + 2 ≤ cz)
    (v2 v3 t : ℝ) : ∃ z', refl3Cols i0 i1 q (q + 1) (q + 2) (fin v2) (fin v3) (fin t) (fin t * fin v2) (fin t * fin v3) z = pure z' ∧
      ZOn rz cz i0 i1 g0 (houseR q v2 v3 t M) z' := by
  obtain ⟨z', e, k⟩ := h.refl3 (q := q) hs h2 l1 l2 (by omega) (by omega) v2 v3 t
  refine ⟨z', e, k.congr fun a b x1 x2 y1 y2 => ?_⟩
  have hp : ∀ c, 1 ≤ c → c ≤ (cz : ℤ) → pad cz M a c = M a c := fun c c1 c2 => by unfold pad; rw [if_pos ⟨c1, c2⟩]
  unfold houseR house
  rw [hp b y1 y2, hp q (by omega) (by omega), hp (q + 1) (by omega) (by omega), hp (q + 2) (by omega) (by omega)]

theorem ZOn.refl2_in (h : ZOn rz cz i0 i1 g0 M z) (hs : rz * (cz + 1) < 2 ^ 31) (l1 : 1 ≤ i0) (l2 : i1 ≤ rz) (q1 : 1 ≤ q) (q2 : q + 1 ≤ cz)
    (v2 t : ℝ) : ∃ z', refl2Cols i0 i1 q (q + 1) (fin v2) (fin t) (fin t * fin v2) z = pure z' ∧
      ZOn rz cz i0 i1 g0 (houseR q v2 0 t M) z' := by
  obtain ⟨g, k1, k2, k3⟩ := h.ex
  obtain ⟨z', e, k⟩ := refl2Cols_ok (lo := i0) (hi := i1) (r1 := q) (r2 := q + 1) (fin v2) (fin t) (fin t * fin v2) k1
    (lt_of_le_of_lt (Nat.mul_le_mul_left _ (by omega)) hs) (by omega)
    (fun i x1 x2 => ⟨cell_rc (by omega) (by omega) (by omega) (by omega), cell_rc (by omega) (by omega) (by omega) (by omega)⟩)
  refine ⟨z', e, _, k, ?_, ?_⟩
  · intro a b x1 x2 y1 y2
    beta_reduce
    rw [if_pos ⟨x1, x2⟩]
    exact refl2_fin (k2 _ _ x1 x2 (by omega) (by omega)) (k2 _ _ x1 x2 (by omega) (by omega)) (k2 _ _ x1 x2 y1 y2)
  · intro a b hn
    beta_reduce
    rw [if_neg hn]
    exact k3 a b hn

end

/-- The column before the first one. -/
theorem V5.get0 {ldv c : Nat} {rest : List ℝ} {v : FA XR} {x y w : ℝ} (h : V5 ldv c rest v x y w) {i : ℤ} (i1 : 1 ≤ i) (i2 : i ≤ 3) :
    v.get2 i 0 = pure (fin (1 / 2 ^ 1022)) := by
  have hld := h.ld
  have hc := h.cpos
  have hsm := h.mat.small
  have hlt : ldv < 2 ^ 31 := lt_of_le_of_lt (Nat.le_mul_of_pos_right _ hc) hsm
  have hf : FitsI32 (((0 : ℤ) - 1) * ldv + (i - 1)) := by unfold FitsI32; omega
  have e : v.off i 0 = pure (((0 : ℤ) - 1) * ldv + (i - 1)) := by
    unfold FA.off
    rw [isub_ok (by unfold FitsI32; omega), isub_ok (by unfold FitsI32; omega), h.mat.rows]
    simp only [pure_bind]
    rw [imul_ok (by unfold FitsI32; omega)]
    simp only [pure_bind]
    rw [iadd_ok hf]
  unfold FA.get2
  rw [e, pure_bind]
  have : v.data[asUsize (((0 : ℤ) - 1) * ldv + (i - 1))]? = none := by
    rw [List.getElem?_eq_none_iff, h.mat.length]
    have := asUsize_neg (show ((0 : ℤ) - 1) * (ldv : ℤ) + (i - 1) < 0 by omega) hf
    have : (2 : Nat) ^ 62 + 2 ^ 62 = 2 ^ 63 := by norm_num
    have : (2 : Nat) ^ 31 ≤ 2 ^ 62 := Nat.pow_le_pow_right (by norm_num) (by norm_num)
    omega
  rw [this]
  rfl

end Verif

import Verif.Lib.Qr5Step

/-!
# The first reflector of `dlaqr5` in exact arithmetic
-/

namespace Verif
open Scalar Spec XR

section val
variable {hX : Nat → Nat → XR} {h11 h21 h12 h22 h13 h23 h32 h33 a1 b1 a2 b2 : ℝ}

theorem div_le_self {y s : ℝ} (x : ℝ) (hs : 0 < s) (hy : |y| ≤ s) : |x * (y / s)| ≤ |x| := by
  rw [abs_mul, abs_div, abs_of_pos hs]
  calc |x| * (|y| / s) ≤ |x| * 1 := mul_le_mul_of_nonneg_left ((div_le_one hs).2 hy) (abs_nonneg _)
    _ = |x| := mul_one _

theorem laqr1_real3 (e11 : hX 0 0 = fin h11) (e21 : hX 1 0 = fin h21) (e31 : hX 2 0 = fin 0) (e12 : hX 0 1 = fin h12) (e22 : hX 1 1 = fin h22)
    (e32 : hX 2 1 = fin h32) (e13 : hX 0 2 = fin h13) (e23 : hX 1 2 = fin h23) (e33 : hX 2 2 = fin h33) (h0 : h21 ≠ 0) :
    ∃ x y w s, laqr1Val 3 hX (fin a1) (fin b1) (fin a2) (fin b2) 0 = fin x ∧ laqr1Val 3 hX (fin a1) (fin b1) (fin a2) (fin b2) 1 = fin y ∧
      laqr1Val 3 hX (fin a1) (fin b1) (fin a2) (fin b2) 2 = fin w ∧ s ≠ 0 ∧ s * x = (h11 - a1) * (h11 - a2) - b1 * b2 + h12 * h21 ∧
      s * y = h21 * (h11 + h22 - a1 - a2) ∧ s * w = h21 * h32 ∧ |x| ≤ |h11 - a1| + |b1| + |h12| ∧ |y| ≤ |h11 + h22 - a1 - a2| ∧
      |w| ≤ |h32| := by
  obtain ⟨s, hs⟩ : ∃ s, |h11 - a2| + |b2| + |h21| + |(0 : ℝ)| = s := ⟨_, rfl⟩
  have n1 := abs_nonneg (h11 - a2); have n2 := abs_nonneg b2; have n3 := abs_pos.2 h0; have n4 : |(0 : ℝ)| = 0 := abs_zero
  have hspos : 0 < s := by rw [← hs, n4]; positivity
  have hS : laqr1S 3 hX (fin a2) (fin b2) = fin s := by
    unfold laqr1S
    rw [if_neg (by norm_num), e11, e21, e31, ← hs]
    simp
  unfold laqr1Val
  simp only [hS, if_neg (show ¬ (3 = 2) by norm_num), zero_eq, fin_beq, decide_eq_true_eq, if_neg hspos.ne']
  rw [e11, e21, e31, e12, e22, e32, e13, e23, e33]
  simp only [fin_div _ _ hspos.ne', fin_mul, fin_sub, fin_add]
  refine ⟨_, _, _, s, rfl, rfl, rfl, hspos.ne', ?_, ?_, ?_, ?_, ?_, ?_⟩
  · field_simp; ring
  · field_simp; ring
  · field_simp; ring
  · have q1 := div_le_self (h11 - a1) hspos (y := h11 - a2) (by linarith)
    have q2 := div_le_self b1 hspos (y := b2) (by linarith)
    have q3 := div_le_self h12 hspos (y := h21) (by linarith)
    rw [zero_div, mul_zero, add_zero]
    refine (abs_add_le _ _).trans (add_le_add ((abs_sub _ _).trans (add_le_add q1 q2)) q3)
  · have q1 := div_le_self (h11 + h22 - a1 - a2) hspos (y := h21) (by linarith)
    rw [zero_div, mul_zero, add_zero, mul_comm]
    exact q1
  · have q1 := div_le_self h32 hspos (y := h21) (by linarith)
    rw [zero_div, zero_mul, zero_add, mul_comm]
    exact q1

theorem laqr1_real2 (e11 : hX 0 0 = fin h11) (e21 : hX 1 0 = fin h21) (e12 : hX 0 1 = fin h12) (e22 : hX 1 1 = fin h22) (h0 : h21 ≠ 0) :
    ∃ x y s, laqr1Val 2 hX (fin a1) (fin b1) (fin a2) (fin b2) 0 = fin x ∧ laqr1Val 2 hX (fin a1) (fin b1) (fin a2) (fin b2) 1 = fin y ∧
      s ≠ 0 ∧ s * x = (h11 - a1) * (h11 - a2) - b1 * b2 + h12 * h21 ∧
      s * y = h21 * (h11 + h22 - a1 - a2) ∧ |x| ≤ |h11 - a1| + |b1| + |h12| ∧ |y| ≤ |h11 + h22 - a1 - a2| := by
  obtain ⟨s, hs⟩ : ∃ s, |h11 - a2| + |b2| + |h21| = s := ⟨_, rfl⟩
  have n1 := abs_nonneg (h11 - a2); have n2 := abs_nonneg b2; have n3 := abs_pos.2 h0
  have hspos : 0 < s := by rw [← hs]; positivity
  have hS : laqr1S 2 hX (fin a2) (fin b2) = fin s := by
    unfold laqr1S
    rw [if_pos rfl, e11, e21, ← hs]
    simp
  unfold laqr1Val
  simp only [hS, if_true, zero_eq, fin_beq, decide_eq_true_eq, if_neg hspos.ne']
  rw [e11, e21, e12, e22]
  simp only [fin_div _ _ hspos.ne', fin_mul, fin_sub, fin_add]
  refine ⟨_, _, s, rfl, rfl, hspos.ne', ?_, ?_, ?_, ?_⟩
  · field_simp; ring
  · field_simp
  · have q1 := div_le_self (h11 - a1) hspos (y := h11 - a2) (by linarith)
    have q2 := div_le_self b1 hspos (y := b2) (by linarith)
    have q3 := div_le_self h12 hspos (y := h21) (by linarith)
    rw [mul_comm h12] at q3
    have := (abs_sub _ _).trans (add_le_add ((abs_add_le _ _).trans (add_le_add q3 q1)) q2)
    linarith
  · have q1 := div_le_self (h11 + h22 - a1 - a2) hspos (y := h21) (by linarith)
    rw [mul_comm]
    exact q1

end val

section
variable {F : Type} [Scalar F] {r c : Nat} {g : ℤ → ℤ → F} {h : FA F}

theorem Is2.matrix (hh : Is2 h r c (r * c) g) (hs : r * c < 2 ^ 31) : IsMatrix h r c :=
  ⟨hh.rows, hh.cols, by rw [hh.data, length_tab2], hs⟩

/-- The copy of a diagonal block of `h`. -/
theorem from2_block (hh : Is2 h r c (r * c) g) (hs : r * c < 2 ^ 31) {k n : ℤ} (hk : 1 ≤ k) (hn : 1 ≤ n) (hr : k + n - 1 ≤ r)
    (hc : k + n - 1 ≤ c) : ∃ src, h.from2 k k = pure src ∧ Stored src r n.toNat n.toNat ∧
      ∀ i j : Nat, (i : ℤ) < n → (j : ℤ) < n → entry src r i j = g (k + i) (k + j) := by
  refine ⟨_, C07_from2 (hh.matrix hs) hk (by omega) hk (by omega), ?_, ?_⟩
  · have hlen : h.data.length = r * c := by rw [hh.data, length_tab2]
    have hrs : r ≤ r * c := Nat.le_mul_of_pos_right _ (by omega)
    refine ⟨by omega, by omega, by omega, by rw [List.length_drop, hlen]; omega, ?_⟩
    intro i hi j hj
    rw [List.length_drop, hlen]
    have h1 : (k - 1 + j) * (r : ℤ) ≤ (c - 1) * r := mul_le_mul_of_nonneg_right (by omega) (by omega)
    have h2 : ((c : ℤ) - 1) * r = r * c - r := by ring
    have h3 : (k - 1 + j) * (r : ℤ) = (k - 1) * r + j * r := by ring
    have h4 : 0 ≤ (k - 1) * (r : ℤ) := mul_nonneg (by omega) (by omega)
    have e : ((j * r : Nat) : ℤ) = (j : ℤ) * r := by push_cast; ring
    have e' : ((r * c : Nat) : ℤ) = (r : ℤ) * c := by push_cast; ring
    omega
  · intro i j hi hj
    obtain ⟨q, hq, q1, q2⟩ := cell_idx (ld := r) (i := k + i) (j := k + j) (by omega) (by omega) (by omega)
    unfold entry
    rw [List.getD_eq_getElem?_getD, List.getElem?_drop]
    have h4 : 0 ≤ (k - 1) * (r : ℤ) := mul_nonneg (by omega) (by omega)
    have h3 : (k + j - 1) * (r : ℤ) = (k - 1) * r + j * r := by ring
    have e : ((j * r : Nat) : ℤ) = (j : ℤ) * r := by push_cast; ring
    have e2 : ((k - 1) * r + (k - 1)).toNat + (i + j * r) = q := by omega
    have hqL : q < r * c := by
      have h1 : (k - 1 + j) * (r : ℤ) ≤ (c - 1) * r := mul_le_mul_of_nonneg_right (by omega) (by omega)
      have h2 : ((c : ℤ) - 1) * r = r * c - r := by ring
      have h3' : (k - 1 + j) * (r : ℤ) = (k - 1) * r + j * r := by ring
      have e' : ((r * c : Nat) : ℤ) = (r : ℤ) * c := by push_cast; ring
      omega
    rw [e2, hh.data, tab2_getElem?, if_pos hqL, q1, q2]
    rfl

end

section start
variable {r c ldv cv : Nat} {lo hi jt jb : ℤ} {g : ℤ → ℤ → XR} {H : ℤ → ℤ → ℝ} {h v : FA XR} {rest : List ℝ} {x0 y0 w0 a1 b1 a2 b2 B : ℝ} {kt : ℤ}

theorem two_pow_491 : 4 * (2 : ℝ) ^ 490 ≤ 2 ^ 500 := by
  rw [show (500 : ℕ) = 10 + 490 by norm_num, pow_add]
  exact mul_le_mul_of_nonneg_right (by norm_num) (by positivity)

/-- The start vector, three elements, and its reflector. -/
theorem start3_ok (hS : OnR lo hi jt jb g H) (hd : Fits5 r c lo hi jt jb) (hh : Is2 h r c (r * c) g) (hv : V5 ldv cv rest v x0 y0 w0) (hlo : jt ≤ kt)
    (hhi : kt + 2 ≤ jb) (hB : ∀ a b, lo ≤ a → a ≤ hi → lo ≤ b → b ≤ hi → |H a b| ≤ B) (hB2 : B ≤ 2 ^ 490) (ha1 : |a1| ≤ 2 ^ 490)
    (hb1 : |b1| ≤ 2 ^ 490) (ha2 : |a2| ≤ 2 ^ 490) (h31 : H (kt + 2) kt = 0) (h21 : H (kt + 1) kt ≠ 0) (h32 : H (kt + 2) (kt + 1) ≠ 0) :
    ∃ x y w s beta v2 v3 t v' src l1 l2 v1 al, h.from2 kt kt = pure src ∧ v.from2 1 1 = pure l1 ∧
      dlaqr1 3 src (r : ℤ) (fin a1) (fin b1) (fin a2) (fin b2) l1 = pure l2 ∧ ToFA.toFa2d (F := XR) l2 (ldv : ℤ) = pure v1 ∧
      v1.get2 1 1 = pure al ∧ qr5Larfg (ldv : ℤ) 3 1 al v1 = pure (fin beta, v') ∧ V5 ldv cv rest v' t v2 v3 ∧ Maps x y w beta v2 v3 t ∧ s ≠ 0 ∧ w ≠ 0 ∧
      s * x = (H kt kt - a1) * (H kt kt - a2) - b1 * b2 + H kt (kt + 1) * H (kt + 1) kt ∧
      s * y = H (kt + 1) kt * (H kt kt + H (kt + 1) (kt + 1) - a1 - a2) ∧ s * w = H (kt + 1) kt * H (kt + 2) (kt + 1) := by
  have l1 := hd.lo1; have l2 := hd.hir; have l3 := hd.hic; have l4 := hd.ljt; have l5 := hd.jbh
  obtain ⟨src, e1, hst, hent⟩ := from2_block hh hd.size (k := kt) (n := 3) (by omega) (by norm_num) (by omega) (by omega)
  have ent : ∀ i j : Nat, i < 3 → j < 3 → entry src r i j = fin (H (kt + i) (kt + j)) := by
    intro i j hi hj
    rw [hent i j (by omega) (by omega)]
    exact hS _ _ (by omega) (by omega) (by omega) (by omega)
  have en := ent 2 0 (by norm_num) (by norm_num)
  push_cast at en
  rw [add_zero, h31] at en
  obtain ⟨x, y, w, s, f1, f2, f3, s0, m1, m2, m3, q1, q2, q3⟩ := laqr1_real3 (a1 := a1) (b1 := b1) (a2 := a2) (b2 := b2)
    (ent 0 0 (by norm_num) (by norm_num)) (ent 1 0 (by norm_num) (by norm_num)) en (ent 0 1 (by norm_num) (by norm_num))
    (ent 1 1 (by norm_num) (by norm_num)) (ent 2 1 (by norm_num) (by norm_num)) (ent 0 2 (by norm_num) (by norm_num))
    (ent 1 2 (by norm_num) (by norm_num)) (ent 2 2 (by norm_num) (by norm_num)) (by push_cast; simpa using h21)
  obtain ⟨v1, f4, f5, f6, f7⟩ := dlaqr1_ok (F := XR) 3 (Or.inr rfl) src r hst (fin a1) (fin b1) (fin a2) (fin b2)
    ((x0 :: y0 :: w0 :: rest).map fin)
  push_cast at f4 m1 m2 m3 q1 q2 q3
  simp only [add_zero] at m1 m2 m3 q1 q2 q3
  have hv1 : v1 = (x :: y :: w :: rest).map fin := by
    apply List.ext_getElem?
    intro i
    by_cases hi3 : i < 3
    · rw [f6 i hi3 (by simp; omega)]
      interval_cases i
      · rw [f1]; rfl
      · rw [f2]; rfl
      · rw [f3]; rfl
    · rw [f7 i (by omega)]
      obtain ⟨j, rfl⟩ : ∃ j, i = j + 3 := ⟨i - 3, by omega⟩
      simp
  subst hv1
  obtain ⟨v2', e2, k2⟩ := hv.of_list x y w (faOfVec ((x :: y :: w :: rest).map fin)) rfl
  have b11 := hB kt kt (by omega) (by omega) (by omega) (by omega)
  have b12 := hB kt (kt + 1) (by omega) (by omega) (by omega) (by omega)
  have b22 := hB (kt + 1) (kt + 1) (by omega) (by omega) (by omega) (by omega)
  have b32 := hB (kt + 2) (kt + 1) (by omega) (by omega) (by omega) (by omega)
  have hpow := two_pow_491
  have hpos : (0 : ℝ) ≤ 2 ^ 490 := by positivity
  have bx : |x| ≤ 2 ^ 500 := by
    refine q1.trans ?_
    have := abs_sub (H kt kt) a1
    generalize (2 : ℝ) ^ 490 = P at *
    generalize (2 : ℝ) ^ 500 = P' at *
    linarith
  have by' : |y| ≤ 2 ^ 500 := by
    refine q2.trans ?_
    have := abs_sub (H kt kt + H (kt + 1) (kt + 1) - a1) a2
    have := abs_sub (H kt kt + H (kt + 1) (kt + 1)) a1
    have := abs_add_le (H kt kt) (H (kt + 1) (kt + 1))
    generalize (2 : ℝ) ^ 490 = P at *
    generalize (2 : ℝ) ^ 500 = P' at *
    linarith
  have bw : |w| ≤ 2 ^ 500 := by
    refine q3.trans ?_
    generalize (2 : ℝ) ^ 490 = P at *
    generalize (2 : ℝ) ^ 500 = P' at *
    linarith
  obtain ⟨beta, v2, v3, t, v', e3, hm, k3⟩ := larfg5_three k2 bx by' bw
  refine ⟨x, y, w, s, beta, v2, v3, t, v', _, _, _, _, _, e1, hv.from1, f4, e2, k2.get.1, e3, k3, hm, s0, ?_, m1, m2, m3⟩
  intro h0
  rw [h0, mul_zero] at m3
  exact mul_ne_zero h21 h32 m3.symm

/-- The start vector, two elements, and its reflector. -/
theorem start2_ok (hS : OnR lo hi jt jb g H) (hd : Fits5 r c lo hi jt jb) (hh : Is2 h r c (r * c) g) (hv : V5 ldv cv rest v x0 y0 w0) (hlo : jt ≤ kt)
    (hhi : kt + 1 ≤ jb) (hB : ∀ a b, lo ≤ a → a ≤ hi → lo ≤ b → b ≤ hi → |H a b| ≤ B) (hB2 : B ≤ 2 ^ 490) (ha1 : |a1| ≤ 2 ^ 490)
    (hb1 : |b1| ≤ 2 ^ 490) (ha2 : |a2| ≤ 2 ^ 490) (h21 : H (kt + 1) kt ≠ 0) :
    ∃ x y s beta v2 t v' src l1 l2 v1 al, h.from2 kt kt = pure src ∧ v.from2 1 1 = pure l1 ∧
      dlaqr1 2 src (r : ℤ) (fin a1) (fin b1) (fin a2) (fin b2) l1 = pure l2 ∧ ToFA.toFa2d (F := XR) l2 (ldv : ℤ) = pure v1 ∧
      v1.get2 1 1 = pure al ∧ qr5Larfg (ldv : ℤ) 2 1 al v1 = pure (fin beta, v') ∧ V5 ldv cv rest v' t v2 w0 ∧ Maps x y 0 beta v2 0 t ∧ s ≠ 0 ∧
      s * x = (H kt kt - a1) * (H kt kt - a2) - b1 * b2 + H kt (kt + 1) * H (kt + 1) kt ∧
      s * y = H (kt + 1) kt * (H kt kt + H (kt + 1) (kt + 1) - a1 - a2) := by
  have l1 := hd.lo1; have l2 := hd.hir; have l3 := hd.hic; have l4 := hd.ljt; have l5 := hd.jbh
  obtain ⟨src, e1, hst, hent⟩ := from2_block hh hd.size (k := kt) (n := 2) (by omega) (by norm_num) (by omega) (by omega)
  have ent : ∀ i j : Nat, i < 2 → j < 2 → entry src r i j = fin (H (kt + i) (kt + j)) := by
    intro i j hi hj
    rw [hent i j (by omega) (by omega)]
    exact hS _ _ (by omega) (by omega) (by omega) (by omega)
  obtain ⟨x, y, s, f1, f2, s0, m1, m2, q1, q2⟩ := laqr1_real2 (a1 := a1) (b1 := b1) (a2 := a2) (b2 := b2)
    (ent 0 0 (by norm_num) (by norm_num)) (ent 1 0 (by norm_num) (by norm_num)) (ent 0 1 (by norm_num) (by norm_num))
    (ent 1 1 (by norm_num) (by norm_num)) (by push_cast; simpa using h21)
  obtain ⟨v1, f4, f5, f6, f7⟩ := dlaqr1_ok (F := XR) 2 (Or.inl rfl) src r hst (fin a1) (fin b1) (fin a2) (fin b2)
    ((x0 :: y0 :: w0 :: rest).map fin)
  push_cast at f4 m1 m2 q1 q2
  simp only [add_zero] at m1 m2 q1 q2
  have hv1 : v1 = (x :: y :: w0 :: rest).map fin := by
    apply List.ext_getElem?
    intro i
    by_cases hi3 : i < 2
    · rw [f6 i hi3 (by simp; omega)]
      interval_cases i
      · rw [f1]; rfl
      · rw [f2]; rfl
    · rw [f7 i (by omega)]
      obtain ⟨j, rfl⟩ : ∃ j, i = j + 2 := ⟨i - 2, by omega⟩
      simp
  subst hv1
  obtain ⟨v2', e2, k2⟩ := hv.of_list x y w0 (faOfVec ((x :: y :: w0 :: rest).map fin)) rfl
  have b11 := hB kt kt (by omega) (by omega) (by omega) (by omega)
  have b12 := hB kt (kt + 1) (by omega) (by omega) (by omega) (by omega)
  have b22 := hB (kt + 1) (kt + 1) (by omega) (by omega) (by omega) (by omega)
  have hpow := two_pow_491
  have hpos : (0 : ℝ) ≤ 2 ^ 490 := by positivity
  have bx : |x| ≤ 2 ^ 500 := by
    refine q1.trans ?_
    have := abs_sub (H kt kt) a1
    generalize (2 : ℝ) ^ 490 = P at *
    generalize (2 : ℝ) ^ 500 = P' at *
    linarith
  have by' : |y| ≤ 2 ^ 500 := by
    refine q2.trans ?_
    have := abs_sub (H kt kt + H (kt + 1) (kt + 1) - a1) a2
    have := abs_sub (H kt kt + H (kt + 1) (kt + 1)) a1
    have := abs_add_le (H kt kt) (H (kt + 1) (kt + 1))
    generalize (2 : ℝ) ^ 490 = P at *
    generalize (2 : ℝ) ^ 500 = P' at *
    linarith
  obtain ⟨beta, v2, t, v', e3, hm, k3⟩ := larfg5_two k2 bx by'
  exact ⟨x, y, s, beta, v2, t, v', _, _, _, _, _, e1, hv.from1, f4, e2, k2.get.1, e3, k3, hm, s0, m1, m2⟩

end start

end Verif

import Verif.Lib.HqrSweep
import Verif.Lib.HqrRot
import Verif.Props.Lanv2

/-!
# Splitting off a 2-by-2 block in `dlahqr`, in exact arithmetic
-/

namespace Verif
open Scalar Spec XR Matrix

/-! ### Plane rotations -/

/-- The plane rotation of the entries `l` and `l + 1`. -/
def rotv (l : ℤ) (cs sn : ℝ) (x : ℤ → ℝ) (b : ℤ) : ℝ :=
  if b = l then cs * x l + sn * x (l + 1) else if b = l + 1 then cs * x (l + 1) - sn * x l else x b

/-- The rotation applied to rows and columns. -/
def rotT (l : ℤ) (cs sn : ℝ) (T : ℤ → ℤ → ℝ) (a b : ℤ) : ℝ :=
  rotv l cs sn (fun b => rotv l cs sn (fun a => T a b) a) b

/-- The rotation as a matrix. -/
def rotM (lo hi l : ℤ) (cs sn : ℝ) : Matrix (Blk lo hi) (Blk lo hi) ℝ :=
  colsM lo hi fun a : Blk lo hi => rotv l cs sn fun j => if (a : ℤ) = j then 1 else 0

section
variable {lo hi l : ℤ} {cs sn : ℝ}

theorem rotv_ne {x : ℤ → ℝ} {b : ℤ} (h1 : b ≠ l) (h2 : b ≠ l + 1) : rotv l cs sn x b = x b := by
  unfold rotv; rw [if_neg h1, if_neg h2]

theorem rotv_zero {x : ℤ → ℝ} {b : ℤ} (h1 : x l = 0) (h2 : x (l + 1) = 0) : rotv l cs sn x b = x b := by
  unfold rotv
  rw [h1, h2]
  split
  · rename_i h; rw [h, h1]; ring
  · split
    · rename_i h; rw [h, h2]; ring
    · rfl

theorem sum_delta (x : ℤ → ℝ) {j : ℤ} (h1 : lo ≤ j) (h2 : j ≤ hi) : ∑ d : Blk lo hi, x d * (if (d : ℤ) = j then 1 else 0) = x j := by
  rw [Finset.sum_coe_sort (Finset.Icc lo hi) (fun d => x d * (if d = j then (1 : ℝ) else 0))]
  simp [h1, h2]

theorem mul_rotM {m : Type} (h1 : lo ≤ l) (h2 : l + 1 ≤ hi) (f : m → ℤ → ℝ) :
    colsM lo hi f * rotM lo hi l cs sn = colsM lo hi fun a => rotv l cs sn (f a) := by
  ext a b
  obtain ⟨b1, b2⟩ := Finset.mem_Icc.1 b.2
  simp only [mul_apply, rotM, colsM, rotv]
  by_cases c1 : (b : ℤ) = l
  · simp only [if_pos c1, mul_add, Finset.sum_add_distrib, mul_left_comm _ cs, mul_left_comm _ sn, ← Finset.mul_sum]
    rw [sum_delta _ h1 (by omega), sum_delta _ (by omega) h2]
  · simp only [if_neg c1]
    by_cases c2 : (b : ℤ) = l + 1
    · simp only [if_pos c2, mul_sub, Finset.sum_sub_distrib, mul_left_comm _ cs, mul_left_comm _ sn, ← Finset.mul_sum]
      rw [sum_delta _ h1 (by omega), sum_delta _ (by omega) h2]
    · simp only [if_neg c2]
      rw [sum_delta _ b1 b2]

theorem rotM_transpose : (rotM lo hi l cs sn).transpose = rotM lo hi l cs (-sn) := by
  ext a b
  simp only [transpose_apply, rotM, colsM, rotv]
  by_cases a1 : (a : ℤ) = l
  · by_cases b1 : (b : ℤ) = l
    · simp [a1, b1]
    · by_cases b2 : (b : ℤ) = l + 1
      · simp [a1, b2]
      · simp [a1, b1, b2]
        omega
  · by_cases a2 : (a : ℤ) = l + 1
    · by_cases b1 : (b : ℤ) = l
      · simp [a2, b1]
      · by_cases b2 : (b : ℤ) = l + 1
        · simp [a2, b2]
        · simp [a2, b1, b2, eq_comm]
    · by_cases b1 : (b : ℤ) = l
      · simp [a1, a2, b1]
        omega
      · by_cases b2 : (b : ℤ) = l + 1
        · simp [a1, a2, b2, eq_comm]
        · simp [a1, a2, b1, b2, eq_comm]

theorem rotM_orth (h1 : lo ≤ l) (h2 : l + 1 ≤ hi) (hu : cs ^ 2 + sn ^ 2 = 1) : (rotM lo hi l cs sn).transpose * rotM lo hi l cs sn = 1 := by
  rw [rotM_transpose]
  unfold rotM
  have := mul_rotM (m := Blk lo hi) (cs := cs) (sn := sn) h1 h2 (fun a : Blk lo hi => rotv l cs (-sn) fun j => if (a : ℤ) = j then 1 else 0)
  unfold rotM at this
  rw [this]
  ext a b
  have hone : (1 : Matrix (Blk lo hi) (Blk lo hi) ℝ) a b = if (a : ℤ) = b then 1 else 0 := by
    rw [Matrix.one_apply]
    by_cases hab : a = b
    · subst hab; simp
    · rw [if_neg hab, if_neg (fun h => hab (Subtype.ext h))]
  rw [hone]
  unfold colsM rotv
  beta_reduce
  have n1 : l + 1 ≠ l := by omega
  by_cases b1 : (b : ℤ) = l
  · rw [if_pos b1, if_pos rfl, if_neg n1, if_pos rfl, b1]
    linear_combination (if (a : ℤ) = l then (1 : ℝ) else 0) * hu
  · rw [if_neg b1]
    by_cases b2 : (b : ℤ) = l + 1
    · rw [if_pos b2, if_pos rfl, if_neg n1, if_pos rfl, b2]
      linear_combination (if (a : ℤ) = l + 1 then (1 : ℝ) else 0) * hu
    · rw [if_neg b2, if_neg b1, if_neg b2]

theorem rotM_mul (h1 : lo ≤ l) (h2 : l + 1 ≤ hi) (f : ℤ → ℤ → ℝ) :
    (rotM lo hi l cs sn).transpose * block lo hi f = block lo hi fun a b => rotv l cs sn (fun a => f a b) a := by
  have := mul_rotM (m := Blk lo hi) (cs := cs) (sn := sn) h1 h2 (fun b a => f a b)
  have t := congrArg Matrix.transpose this
  rw [Matrix.transpose_mul] at t
  exact t

theorem rot_similar (h1 : lo ≤ l) (h2 : l + 1 ≤ hi) (f : ℤ → ℤ → ℝ) :
    (rotM lo hi l cs sn).transpose * block lo hi f * rotM lo hi l cs sn = block lo hi (rotT l cs sn f) := by
  rw [rotM_mul h1 h2]
  exact mul_rotM (m := Blk lo hi) (cs := cs) (sn := sn) h1 h2 (fun a b => rotv l cs sn (fun a => f a b) a)

theorem Track.rot {A : Matrix (Blk lo hi) (Blk lo hi) ℝ} {Z0 : ℤ → ℤ → ℝ} {B δ : ℝ} {T Zq : ℤ → ℤ → ℝ} (h : Track lo hi A Z0 B δ T Zq)
    (h1 : lo ≤ l) (h2 : l + 1 ≤ hi) (hu : cs ^ 2 + sn ^ 2 = 1) :
    Track lo hi A Z0 B δ (rotT l cs sn T) fun a => rotv l cs sn (Zq a) := by
  obtain ⟨⟨Q, E, hb, hz⟩, h3⟩ := h
  have ho := rotM_orth h1 h2 hu
  refine ⟨⟨Q * rotM lo hi l cs sn, E, ?_, ?_⟩, ?_⟩
  · have := backward_similar hb _ ho
    rwa [rot_similar h1 h2] at this
  · rw [← Matrix.mul_assoc, ← hz, mul_rotM h1 h2]
  · rw [← rot_similar h1 h2, fro_mul_right _ (blk_orth ho), fro_mul_left _ (by rw [transpose_transpose]; exact blk_orth ho)]
    exact h3

end

/-! ### `dlanv2` -/

/-- Every output of `dlanv2` in the range is a rotation, `outR`, and upper triangular or almost in standard form. -/
theorem dlanv2_all {A B C D : ℝ} (hA : 4 * |A| ≤ Spec.fMax) (hB : 4 * |B| ≤ Spec.fMax) (hC : 4 * |C| ≤ Spec.fMax) (hD : 4 * |D| ≤ Spec.fMax) :
    ∃ a b c d cs sn : ℝ, dlanv2 (fin A) (fin B) (fin C) (fin D) = (outR a b c d cs sn).map fin ∧ Rotated A B C D cs sn a b c d ∧
      (c ≠ 0 → b * c < 0 ∧ |a - d| < 1 / 2 ^ 52) := by
  by_cases hn : Spec.NearEqual A B C D
  · exact ⟨_, _, _, _, _, _, dlanv2_near hn.2.1 hn.2.2, id_rotated A B C D, fun _ => ⟨hn.2.2, hn.2.1⟩⟩
  · obtain ⟨o, h1, h2⟩ := dlanv2_good hA hB hC hD hn
    refine ⟨o.a, o.b, o.c, o.d, o.cs, o.sn, by rw [h1, ← h2.out], h2.rot, fun hc => ?_⟩
    rcases h2.std with h | ⟨h, h'⟩
    · exact absurd h hc
    · exact ⟨h', by rw [h]; norm_num⟩

theorem rotT_block {l : ℤ} {T : ℤ → ℤ → ℝ} {cs sn a b c d : ℝ} (h : Rotated (T l l) (T l (l + 1)) (T (l + 1) l) (T (l + 1) (l + 1)) cs sn a b c d) :
    rotT l cs sn T l l = a ∧ rotT l cs sn T l (l + 1) = b ∧ rotT l cs sn T (l + 1) l = c ∧ rotT l cs sn T (l + 1) (l + 1) = d := by
  rw [rotated_iff] at h
  obtain ⟨u, e1, e2, e3, e4⟩ := h
  have n1 : l + 1 ≠ l := by omega
  unfold rotT rotv
  beta_reduce
  simp only [if_true, if_neg n1]
  rw [e1, e2, e3, e4]
  have u2 : sn ^ 2 = 1 - cs ^ 2 := by linarith
  refine ⟨?_, ?_, ?_, ?_⟩
  · linear_combination (a * (cs ^ 2 + sn ^ 2 + 1)) * u
  · linear_combination (b * (cs ^ 2 + sn ^ 2 + 1)) * u
  · linear_combination (c * (cs ^ 2 + sn ^ 2 + 1)) * u
  · linear_combination (d * (cs ^ 2 + sn ^ 2 + 1)) * u

/-! ### Recording a block -/

section
variable {lo hi i : ℤ} {T T' : ℤ → ℤ → ℝ} {wr wi : ℤ → ℝ}

theorem Spec.Schur.congr (h : Schur lo hi T wr wi) {wr' wi' : ℤ → ℝ} (eT : ∀ a b, lo ≤ a → lo ≤ b → T' a b = T a b)
    (er : ∀ j, lo ≤ j → wr' j = wr j) (ei : ∀ j, lo ≤ j → wi' j = wi j) : Schur lo hi T' wr' wi' := by
  refine ⟨?_, ?_, ?_, ?_⟩
  · intro j j1 j2
    rw [eT _ _ (by omega) (by omega), eT _ _ (by omega) (by omega)]
    exact h.quasi j j1 j2
  · intro j j1 j2
    rw [eT _ _ (by omega) (by omega), er _ j1]
    exact h.re j j1 j2
  · intro j j1 j2 k1 k2
    rw [ei _ j1]
    refine h.real j j1 j2 (fun hl => ?_) (fun hl => ?_)
    · rw [← eT _ _ (by omega) (by omega)]; exact k1 hl
    · rw [← eT _ _ (by omega) (by omega)]; exact k2 hl
  · intro j j1 j2 hne
    rw [eT _ _ (by omega) (by omega)] at hne
    rw [eT _ _ (by omega) (by omega), eT _ _ (by omega) (by omega), eT _ _ (by omega) (by omega), eT _ _ (by omega) (by omega), ei _ j1, ei _ (by omega)]
    exact h.pair j j1 j2 hne

/-- A 1-by-1 block in front. -/
theorem Spec.Schur.one (h : Schur (i + 1) hi T wr wi) (hb : i < hi → T (i + 1) i = 0) :
    Schur i hi T (fun j => if j = i then T i i else wr j) fun j => if j = i then 0 else wi j := by
  refine ⟨?_, ?_, ?_, ?_⟩
  · intro j j1 j2
    by_cases hj : j = i
    · rw [hj]; exact Or.inl (hb (by omega))
    · exact h.quasi j (by omega) j2
  · intro j j1 j2
    beta_reduce
    by_cases hj : j = i
    · rw [if_pos hj, hj]
    · rw [if_neg hj]; exact h.re j (by omega) j2
  · intro j j1 j2 k1 k2
    beta_reduce
    by_cases hj : j = i
    · rw [if_pos hj]
    · rw [if_neg hj]
      exact h.real j (by omega) j2 (fun hl => k1 (by omega)) k2
  · intro j j1 j2 hne
    beta_reduce
    have hj : j ≠ i := by rintro rfl; exact hne (hb j2)
    rw [if_neg hj, if_neg (by omega)]
    exact h.pair j (by omega) j2 hne

/-- A 2-by-2 block in front. -/
theorem Spec.Schur.two (h : Schur (i + 1) hi T wr wi) (hi2 : i ≤ hi) (hb : i < hi → T (i + 1) i = 0)
    (hp : T i (i - 1) ≠ 0 → T (i - 1) i * T i (i - 1) < 0 ∧ |T (i - 1) (i - 1) - T i i| < 1 / 2 ^ 52) :
    Schur (i - 1) hi T (fun j => if j = i then T i i else if j = i - 1 then T (i - 1) (i - 1) else wr j)
      fun j => if j = i then (if T i (i - 1) = 0 then 0 else -(Real.sqrt |T (i - 1) i| * Real.sqrt |T i (i - 1)|))
        else if j = i - 1 then (if T i (i - 1) = 0 then 0 else Real.sqrt |T (i - 1) i| * Real.sqrt |T i (i - 1)|) else wi j := by
  have e1 : i - 1 + 1 = i := by ring
  refine ⟨?_, ?_, ?_, ?_⟩
  · intro j j1 j2
    by_cases hj : j = i
    · rw [hj]; exact Or.inl (hb (by omega))
    · by_cases hj' : j = i - 1
      · rw [hj', e1, show i - 1 + 2 = i + 1 by ring]; exact Or.inr (hb (by omega))
      · exact h.quasi j (by omega) j2
  · intro j j1 j2
    beta_reduce
    by_cases hj : j = i
    · rw [if_pos hj, hj]
    · rw [if_neg hj]
      by_cases hj' : j = i - 1
      · rw [if_pos hj', hj']
      · rw [if_neg hj']; exact h.re j (by omega) j2
  · intro j j1 j2 k1 k2
    beta_reduce
    by_cases hj : j = i
    · rw [if_pos hj, if_pos]
      rw [← hj]; exact k1 (by omega)
    · rw [if_neg hj]
      by_cases hj' : j = i - 1
      · rw [if_pos hj', if_pos]
        have := k2 (by omega)
        rwa [hj', e1] at this
      · rw [if_neg hj']
        exact h.real j (by omega) j2 (fun hl => k1 (by omega)) k2
  · intro j j1 j2 hne
    beta_reduce
    have hj : j ≠ i := by rintro rfl; exact hne (hb j2)
    rw [if_neg hj]
    by_cases hj' : j = i - 1
    · subst hj'
      rw [e1] at hne ⊢
      rw [if_pos rfl, if_neg hne, if_pos rfl, if_neg hne]
      obtain ⟨p1, p2⟩ := hp hne
      have n1 : T (i - 1) i ≠ 0 := by intro h0; rw [h0, zero_mul] at p1; exact lt_irrefl _ p1
      refine ⟨p1, p2, ?_, ?_, rfl⟩
      · exact mul_pos (Real.sqrt_pos.2 (abs_pos.2 n1)) (Real.sqrt_pos.2 (abs_pos.2 hne))
      · rw [mul_pow, Real.sq_sqrt (abs_nonneg _), Real.sq_sqrt (abs_nonneg _), ← abs_mul, abs_of_neg p1]
    · rw [if_neg hj', if_neg (by omega), if_neg (by omega)]
      exact h.pair j (by omega) j2 hne

end

/-- What is known between rounds of the outer loop with the active block `ilo..i`. -/
structure Out (p : HqrP XR) (r c rz cz nr ni : Nat) (A : Matrix (Blk p.ilo p.ihi) (Blk p.ilo p.ihi) ℝ) (Z0 : ℤ → ℤ → ℝ) (zg0 : ℤ → ℤ → XR)
    (gr0 gi0 : ℤ → XR) (B δ : ℝ) (i : ℤ) (T : ℤ → ℤ → ℝ) (wr wi : ℤ → ℝ) (a : HqrA XR) : Prop where
  ex : ∃ g, Is2 a.h r c (r * c) g ∧ Rel p.ilo p.ihi g T
  good : ∃ Zq, Track p.ilo p.ihi A Z0 B δ T Zq ∧ ZOK p rz cz zg0 a.z Zq
  bot : p.ilo ≤ i → i < p.ihi → T (i + 1) i = 0
  schur : Schur (i + 1) p.ihi T wr wi
  wr1 : Is1 a.wr nr fun j => if i < j ∧ j ≤ p.ihi then fin (wr j) else gr0 j
  wi1 : Is1 a.wi ni fun j => if i < j ∧ j ≤ p.ihi then fin (wi j) else gi0 j

section
variable {p : HqrP XR} {r c rz cz nr ni : Nat} {A : Matrix (Blk p.ilo p.ihi) (Blk p.ilo p.ihi) ℝ} {Z0 : ℤ → ℤ → ℝ} {zg0 : ℤ → ℤ → XR}
    {gr0 gi0 : ℤ → XR} {B δ : ℝ} {i : ℤ} {T : ℤ → ℤ → ℝ} {wr wi : ℤ → ℝ} {a : HqrA XR}

theorem Is1.congr' {F : Type} {a : FA F} {L : Nat} {g g' : ℤ → F} (h : Is1 a L g) (e : ∀ k, g k = g' k) : Is1 a L g' := by
  have : g = g' := funext e
  rwa [← this]

/-- Recording a 1-by-1 block. -/
theorem record_one (hd : Dim p r c rz cz) (hs : Out p r c rz cz nr ni A Z0 zg0 gr0 gi0 B δ i T wr wi a) (h1 : p.ilo ≤ i) (h2 : i ≤ p.ihi)
    (htop : p.ilo < i → T i (i - 1) = 0) :
    Tot (hqrRecord p i i a) fun a' => ∃ T' wr' wi', Out p r c rz cz nr ni A Z0 zg0 gr0 gi0 B δ (i - 1) T' wr' wi' a' ∧ T' = T := by
  obtain ⟨⟨g, hh, hR⟩, hgood, hbot, hS, hr, hi⟩ := hs
  unfold hqrRecord
  rw [if_pos rfl, get2_is2 hh (hd.cell h1 h2 h1 h2) hd.size, hR.low i i h1 (le_refl _) h2]
  have hf : FitsI32 i := by
    have := hd.lo1; have := hd.hir; have hsz := hd.size; have := hd.hic
    have : r ≤ r * c := Nat.le_mul_of_pos_right r (by omega)
    unfold FitsI32; omega
  have hp1 : 1 ≤ i := by have := hd.lo1; omega
  have hS' := hS.one (hbot h1)
  refine Tot.pure ⟨T, _, _, ⟨⟨g, hh, hR⟩, hgood, ?_, by rw [show i - 1 + 1 = i by ring]; exact hS', ?_, ?_⟩, rfl⟩
  · intro g1 g2
    rw [show i - 1 + 1 = i by ring]; exact htop (by omega)
  · refine (set1_is1 hr hp1 hf _).congr' fun k => ?_
    unfold upd
    by_cases hk : k = i
    · rw [if_pos hk, if_pos (by omega), if_pos hk]
    · rw [if_neg hk]
      beta_reduce
      by_cases hk2 : i < k ∧ k ≤ p.ihi
      · rw [if_pos hk2, if_pos (by omega), if_neg hk]
      · rw [if_neg hk2, if_neg (by omega)]
  · refine (set1_is1 hi hp1 hf _).congr' fun k => ?_
    unfold upd
    by_cases hk : k = i
    · rw [if_pos hk, if_pos (by omega), if_pos hk, zero_eq]
    · rw [if_neg hk]
      beta_reduce
      by_cases hk2 : i < k ∧ k ≤ p.ihi
      · rw [if_pos hk2, if_pos (by omega), if_neg hk]
      · rw [if_neg hk2, if_neg (by omega)]

/-- Recording a 2-by-2 block. -/
theorem record_two (hd : Dim p r c rz cz) (hld : p.ldh = r) (hn : p.n ≤ c) (hz : p.wantz = true → p.iloz ≤ p.ihiz) (hB : B ≤ 2 ^ 500)
    (hs : Out p r c rz cz nr ni A Z0 zg0 gr0 gi0 B δ i T wr wi a) (h1 : p.ilo < i) (h2 : i ≤ p.ihi)
    (htop : p.ilo < i - 1 → T (i - 1) (i - 2) = 0) (hne : T i (i - 1) ≠ 0) :
    Tot (hqrRecord p i (i - 1) a) fun a' => ∃ T' wr' wi', Out p r c rz cz nr ni A Z0 zg0 gr0 gi0 B δ (i - 2) T' wr' wi' a' ∧
      (∀ x y, i < x → i < y → T' x y = T x y) ∧ (∀ x y, i < x → x ≤ p.ihi → p.ilo ≤ y → y ≤ i → T' x y = 0) := by
  obtain ⟨⟨g, hh, hR⟩, ⟨Zq, hG, hZ⟩, hbot, hS, hr, hi⟩ := hs
  have hlo1 := hd.lo1
  have e1 : i - 1 + 1 = i := by ring
  have hf : ∀ j : ℤ, 1 ≤ j → j ≤ i → FitsI32 j := by
    have := hd.hir; have hsz := hd.size; have := hd.hic
    have : r ≤ r * c := Nat.le_mul_of_pos_right r (by omega)
    intro j j1 j2
    unfold FitsI32; omega
  have hA : Active (i - 1) i g T := hR.active (by omega) h2 (fun j j1 j2 => by rw [show j = i by omega]; exact hne)
  have big : ∀ x y, i - 1 ≤ x → x ≤ i → i - 1 ≤ y → y ≤ i → 4 * |T x y| ≤ Spec.fMax := by
    intro x y x1 x2 y1 y2
    have := hG.entry (a := x) (b := y) ⟨by omega, by omega⟩ ⟨by omega, by omega⟩
    have hM : (4 : ℝ) * 2 ^ 500 ≤ Spec.fMax := by
      have h2 : (1 : ℝ) ≤ 2 - 1 / 2 ^ 52 := by norm_num
      have h3 : 4 * (2 : ℝ) ^ 500 ≤ 2 ^ 1023 := by
        rw [show (4 : ℝ) = 2 ^ 2 by norm_num, ← pow_add]
        exact pow_le_pow_right₀ (by norm_num) (by norm_num)
      calc 4 * (2 : ℝ) ^ 500 ≤ 1 * 2 ^ 1023 := by rw [one_mul]; exact h3
        _ ≤ _ := mul_le_mul_of_nonneg_right h2 (by positivity)
    clear hA
    calc 4 * |T x y| ≤ 4 * 2 ^ 500 := by
          exact mul_le_mul_of_nonneg_left (this.trans hB) (by norm_num)
      _ ≤ _ := hM
  obtain ⟨a', b', c', d', cs, sn, eo, hrot, hstd⟩ := dlanv2_all (big (i - 1) (i - 1) (by omega) (by omega) (by omega) (by omega))
    (big (i - 1) i (by omega) (by omega) (by omega) (by omega)) (big i (i - 1) (by omega) (by omega) (by omega) (by omega))
    (big i i (by omega) (by omega) (by omega) (by omega))
  have hblk := rotT_block (l := i - 1) (T := T) (by rw [e1]; exact hrot)
  rw [e1] at hblk
  obtain ⟨t11, t12, t21, t22⟩ := hblk
  have cell : ∀ x y, i - 1 ≤ x → x ≤ i → i - 1 ≤ y → y ≤ i → Cell r (r * c) x y := fun x y x1 x2 y1 y2 =>
    hd.cell (by omega) (by omega) (by omega) (by omega)
  have get : ∀ x y, i - 1 ≤ x → x ≤ i → i - 1 ≤ y → y ≤ i → a.h.get2 x y = pure (fin (T x y)) := fun x y x1 x2 y1 y2 =>
    hA.get hd (by omega) h2 hh x1 x2 y1 y2
  unfold hqrRecord
  rw [if_neg (by omega), if_pos rfl]
  unfold hqrTwo
  rw [get _ _ (by omega) (by omega) (by omega) (by omega), get _ _ (by omega) (by omega) (by omega) (by omega),
    get _ _ (by omega) (by omega) (by omega) (by omega), get _ _ (by omega) (by omega) (by omega) (by omega)]
  simp only [pure_bind]
  rw [eo]
  simp only [Lanv2.map, outR]
  obtain ⟨k1, s1, q1⟩ := set2_is2 hh (cell (i - 1) (i - 1) (by omega) (by omega) (by omega) (by omega)) hd.size (fin a')
  rw [s1]; simp only [pure_bind]
  obtain ⟨k2, s2, q2⟩ := set2_is2 q1 (cell (i - 1) i (by omega) (by omega) (by omega) (by omega)) hd.size (fin b')
  rw [s2]; simp only [pure_bind]
  obtain ⟨k3, s3, q3⟩ := set2_is2 q2 (cell i (i - 1) (by omega) (by omega) (by omega) (by omega)) hd.size (fin c')
  rw [s3]; simp only [pure_bind]
  obtain ⟨k4, s4, q4⟩ := set2_is2 q3 (cell i i (by omega) (by omega) (by omega) (by omega)) hd.size (fin d')
  rw [s4]; simp only [pure_bind]
  obtain ⟨k5, g5, s5, q5, f5⟩ := hqrRotH_ok q4 hd.size p hld (i := i) (by omega) (by have := hd.hir; omega) (by have := hd.hic; omega) hn (fin cs) (fin sn)
  simp only [if_pos hd.wantt]
  rw [s5]; simp only [pure_bind]
  set T' := rotT (i - 1) cs sn T with hT'
  have hTr := hG.rot (l := i - 1) (by omega) (by omega) hrot.unit
  -- `T'` away from the window
  have outT : ∀ x y, ¬ (i - 1 ≤ x ∧ x ≤ i) → ¬ (i - 1 ≤ y ∧ y ≤ i) → T' x y = T x y := by
    intro x y nx ny
    rw [hT']; unfold rotT
    rw [rotv_ne (by omega) (by omega), rotv_ne (by omega) (by omega)]
  have dz : ∀ x y, ¬ (i - 1 ≤ y ∧ y ≤ i) → T (i - 1) y = 0 → T i y = 0 → T' x y = T x y := by
    intro x y ny z1 z2
    rw [hT']; unfold rotT
    rw [rotv_ne (by omega) (by omega), rotv_zero (x := fun a => T a y) z1 (by rw [e1]; exact z2)]
  have dz' : ∀ x y, ¬ (i - 1 ≤ x ∧ x ≤ i) → T x (i - 1) = 0 → T x i = 0 → T' x y = T x y := by
    intro x y nx z1 z2
    rw [hT']; unfold rotT
    rw [rotv_zero (by rw [rotv_ne (by omega) (by omega)]; exact z1) (by rw [rotv_ne (by omega) (by omega), e1]; exact z2),
      rotv_ne (by omega) (by omega)]
  have D1 : ∀ x y, i - 1 ≤ x → x ≤ p.ihi → p.ilo ≤ y → y < i - 1 → T x y = 0 := fun x y x1 x2 y1 y2 =>
    hR.cross (d := i - 1) (fun h => by rw [show i - 1 - 1 = i - 2 by ring]; exact htop h) x1 x2 y1 y2
  have D2 : ∀ x y, i < x → x ≤ p.ihi → p.ilo ≤ y → y ≤ i → T x y = 0 := fun x y x1 x2 y1 y2 =>
    hR.cross (d := i + 1) (fun h => by rw [show i + 1 - 1 = i by ring]; exact hbot (by omega) (by omega)) (by omega) x2 y1 (by omega)
  have dec1 : ∀ x y, i - 1 ≤ x → x ≤ p.ihi → p.ilo ≤ y → y < i - 1 → T' x y = 0 := fun x y x1 x2 y1 y2 => by
    rw [dz x y (by omega) (D1 _ _ (by omega) (by omega) y1 y2) (D1 _ _ (by omega) (by omega) y1 y2)]
    exact D1 x y x1 x2 y1 y2
  have dec2 : ∀ x y, i < x → x ≤ p.ihi → p.ilo ≤ y → y ≤ i → T' x y = 0 := fun x y x1 x2 y1 y2 => by
    rw [dz' x y (by omega) (D2 _ _ (by omega) (by omega) (by omega) (by omega)) (D2 _ _ (by omega) (by omega) (by omega) (by omega))]
    exact D2 x y x1 x2 y1 y2
  have win : ∀ x y, i - 1 ≤ x → x ≤ i → i - 1 ≤ y → y ≤ i → g5 x y = fin (T' x y) := by
    intro x y x1 x2 y1 y2
    rw [f5 x y (by omega)]
    unfold upd2
    rcases (by omega : x = i - 1 ∨ x = i) with hx | hx <;> rcases (by omega : y = i - 1 ∨ y = i) with hy | hy
    · rw [if_neg (by omega), if_neg (by omega), if_neg (by omega), if_pos ⟨hx, hy⟩, hx, hy, t11]
    · rw [if_neg (by omega), if_neg (by omega), if_pos ⟨hx, hy⟩, hx, hy, t12]
    · rw [if_neg (by omega), if_pos ⟨hx, hy⟩, hx, hy, t21]
    · rw [if_pos ⟨hx, hy⟩, hx, hy, t22]
  have outg : ∀ x y, ¬ (i - 1 ≤ x ∧ x ≤ i ∧ i - 1 ≤ y ∧ y ≤ i) → (y ≤ i ∨ i < x) → g5 x y = g x y := by
    intro x y hw hor
    rw [f5 x y (by omega)]
    unfold upd2
    rw [if_neg (by omega), if_neg (by omega), if_neg (by omega), if_neg (by omega)]
  have hR' : Rel p.ilo p.ihi g5 T' := rel_of_win hR (by omega) (by omega) h2 win outg outT dec1 dec2 (fun x y y1 y2 x2 => by omega) D1 D2
  have hS2 : Schur (i + 1) p.ihi T' wr wi := hS.congr (fun x y x1 y1 => outT x y (by omega) (by omega)) (fun _ _ => rfl) (fun _ _ => rfl)
  have hS3 := hS2.two h2 (fun h => dec2 (i + 1) i (by omega) (by omega) (by omega) (le_refl _)) (fun h => by
    rw [t11, t12, t21, t22]; rw [t21] at h; exact hstd h)
  have fin_ok : ∀ z' : FA XR, ZOK p rz cz zg0 z' (fun a => rotv (i - 1) cs sn (Zq a)) →
      ∃ T'' wr' wi', Out p r c rz cz nr ni A Z0 zg0 gr0 gi0 B δ (i - 2) T'' wr' wi' ⟨k5, (a.wr.set1 (i - 1) (fin a')).set1 i (fin d'),
        (a.wi.set1 (i - 1) (fin (if c' = 0 then 0 else √|b'| * √|c'|))).set1 i (fin (if c' = 0 then 0 else -(√|b'| * √|c'|))), z'⟩ ∧
        (∀ x y, i < x → i < y → T'' x y = T x y) ∧ (∀ x y, i < x → x ≤ p.ihi → p.ilo ≤ y → y ≤ i → T'' x y = 0) := by
    intro z' hz'
    refine ⟨T', _, _, ⟨⟨g5, q5, hR'⟩, ⟨_, hTr, hz'⟩, ?_, by rw [show i - 2 + 1 = i - 1 by ring]; exact hS3, ?_, ?_⟩,
      fun x y x1 y1 => outT x y (by omega) (by omega), dec2⟩
    · intro g1 g2
      rw [show i - 2 + 1 = i - 1 by ring]
      exact dec1 (i - 1) (i - 2) (le_refl _) (by omega) g1 (by omega)
    · refine (set1_is1 (set1_is1 hr (by omega) (hf _ (by omega) (by omega)) _) (by omega) (hf _ (by omega) (by omega)) _).congr' fun k => ?_
      unfold upd
      by_cases hk : k = i
      · rw [if_pos hk, if_pos (by omega), if_pos hk, t22]
      · rw [if_neg hk]
        by_cases hk1 : k = i - 1
        · rw [if_pos hk1, if_pos (by omega), if_neg hk, if_pos hk1, t11]
        · rw [if_neg hk1]
          beta_reduce
          by_cases hk2 : i < k ∧ k ≤ p.ihi
          · rw [if_pos hk2, if_pos (by omega), if_neg hk, if_neg hk1]
          · rw [if_neg hk2, if_neg (by omega)]
    · refine (set1_is1 (set1_is1 hi (by omega) (hf _ (by omega) (by omega)) _) (by omega) (hf _ (by omega) (by omega)) _).congr' fun k => ?_
      unfold upd
      by_cases hk : k = i
      · rw [if_pos hk, if_pos (show i - 2 < k ∧ k ≤ p.ihi by omega), if_pos hk, t21, t12]
      · rw [if_neg hk]
        by_cases hk1 : k = i - 1
        · rw [if_pos hk1, if_pos (show i - 2 < k ∧ k ≤ p.ihi by omega), if_neg hk, if_pos hk1, t21, t12]
        · rw [if_neg hk1]
          beta_reduce
          by_cases hk2 : i < k ∧ k ≤ p.ihi
          · rw [if_pos hk2, if_pos (by omega), if_neg hk, if_neg hk1]
          · rw [if_neg hk2, if_neg (by omega)]
  by_cases hw : p.wantz = true
  · simp only [if_pos hw]
    obtain ⟨zg, z1, z2, z3⟩ := hZ hw
    obtain ⟨z', ez, z1'⟩ := hqrRotZ_ok z1 hd.zsize p (i := i) (hd.z1 hw) (hz hw) (hd.zr hw) (by omega) (by have := hd.zc hw; omega) (fin cs) (fin sn)
    rw [ez]; simp only [pure_bind]
    refine Tot.pure (fin_ok z' fun _ => ⟨_, z1', ?_, ?_⟩)
    · intro x y x1 x2 y1 y2
      beta_reduce
      rw [if_pos ⟨x1, x2⟩]
      unfold rotv
      rw [e1, z2 x (i - 1) x1 x2 (by omega) (by omega), z2 x i x1 x2 (by omega) (by omega)]
      by_cases y3 : y = i - 1
      · rw [if_pos y3, if_pos y3]; simp
      · rw [if_neg y3, if_neg y3]
        by_cases y4 : y = i
        · rw [if_pos y4, if_pos y4]; simp
        · rw [if_neg y4, if_neg y4]; exact z2 x y x1 x2 y1 y2
    · intro x y hxy
      beta_reduce
      by_cases hx : p.iloz ≤ x ∧ x ≤ p.ihiz
      · rw [if_pos hx, if_neg (by omega), if_neg (by omega)]; exact z3 x y hxy
      · rw [if_neg hx]; exact z3 x y hxy
  · simp only [if_neg hw, pure_bind]
    exact Tot.pure (fin_ok a.z fun h => absurd h hw)

end

end Verif

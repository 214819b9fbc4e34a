import Verif.Lib.Qr5F64a

/-!
# One step of the chase of `dlaqr5` on binary64: the matrices

`col5`, `right5` and `left5` are what the code does to the entries in step `k`.
-/

namespace Verif
open F64 Scalar Spec Matrix

section blk
variable {lo hi : ℤ} {A Q : Matrix (Blk lo hi) (Blk lo hi) ℝ} {δ : ℝ} {T : ℤ → ℤ → ℝ} {k : ℤ} {v2 v3 t : ℝ}

theorem block_houseL (hi' : Inside lo hi k v3) (f : ℤ → ℤ → ℝ) :
    block lo hi (houseL k v2 v3 t f) = houseM lo hi k v2 v3 t * block lo hi f :=
  (houseM_mul hi' f).symm

theorem fro_houseR (hi' : Inside lo hi k v3) (hu : Refl v2 v3 t) (f : ℤ → ℤ → ℝ) :
    fro (block lo hi (houseR k v2 v3 t f)) = fro (block lo hi f) := by
  rw [block_houseR hi', fro_mul_right _ (blk_orth (by rw [houseM_symm, houseM_orth hi' hu]))]

/-- A reflector with errors `d1` on the right and `d2` on the left. -/
theorem Trk.house' (h : Trk A Q δ T) (hi' : Inside lo hi k v3) (hu : Refl v2 v3 t) {G T' : ℤ → ℤ → ℝ} {d1 d2 : ℝ}
    (h1 : fro (block lo hi G - block lo hi (houseR k v2 v3 t T)) ≤ d1) (h2 : fro (block lo hi T' - block lo hi (houseL k v2 v3 t G)) ≤ d2) :
    Trk A (Q * houseM lo hi k v2 v3 t) (δ + (d1 + d2)) T' := by
  have hP : (houseM lo hi k v2 v3 t).transpose * houseM lo hi k v2 v3 t = 1 := by rw [houseM_symm, houseM_orth hi' hu]
  have h3 : Trk A (Q * houseM lo hi k v2 v3 t) δ (houseL k v2 v3 t (houseR k v2 v3 t T)) :=
    h.similar hP (by rw [block_houseL hi', block_houseR hi', houseM_symm, Matrix.mul_assoc])
  refine h3.perturb ?_
  have : block lo hi T' - block lo hi (houseL k v2 v3 t (houseR k v2 v3 t T)) =
      houseM lo hi k v2 v3 t * (block lo hi G - block lo hi (houseR k v2 v3 t T)) + (block lo hi T' - block lo hi (houseL k v2 v3 t G)) := by
    rw [block_houseL hi', block_houseL hi', Matrix.mul_sub]; abel
  rw [this]
  refine (fro_add _ _).trans (add_le_add ?_ h2)
  rw [fro_mul_left _ (by rw [houseM_symm, houseM_orth hi' hu])]
  exact h1

end blk

section code
variable {F : Type} [Scalar F]

/-- Column `k` as stored by the code. -/
def col5 (kt kb k : ℤ) (beta : F) (g : ℤ → ℤ → F) (a b : ℤ) : F :=
  if kt ≤ k ∧ b = k ∧ k + 1 ≤ a ∧ a ≤ k + 3 ∧ a ≤ kb then (if a = k + 1 then beta else Scalar.zero) else g a b

/-- Rows `lo..min kb (k + 3)` updated from the right. -/
def right5 (lo kb k : ℤ) (v2 v3 t : F) (g : ℤ → ℤ → F) (a b : ℤ) : F :=
  if lo ≤ a ∧ a ≤ min kb (k + 3) then reflG kb (k + 1) v2 v3 t (g a) b else g a b

/-- Columns `k + 1..m` updated from the left. -/
def left5 (m kb k : ℤ) (v2 v3 t : F) (g : ℤ → ℤ → F) (a b : ℤ) : F :=
  if k + 1 ≤ b ∧ b ≤ m then reflG kb (k + 1) v2 v3 t (fun i => g i b) a else g a b

end code

/-- The entries of `g` in rows and columns `lo..hi` are finite and those of `T`. -/
def OnF (lo hi : ℤ) (g : ℤ → ℤ → Float) (T : ℤ → ℤ → ℝ) : Prop :=
  ∀ a b, lo ≤ a → a ≤ hi → lo ≤ b → b ≤ hi → (g a b).isFinite = true ∧ toR (g a b) = T a b

/-- What is known after step `k`: `T'` are the exact entries, `g'` those in the array, in which the row `k + 4` has not been updated. -/
structure After5 (lo hi kt kb k : ℤ) (V2 V3 θ : ℝ) (T : ℤ → ℤ → ℝ) (g g' : ℤ → ℤ → Float) (T' : ℤ → ℤ → ℝ) : Prop where
  fin : ∀ a b, lo ≤ a → a ≤ hi → lo ≤ b → b ≤ hi → (g' a b).isFinite = true
  on : ∀ a b, lo ≤ a → a ≤ hi → lo ≤ b → b ≤ hi → ¬ (a = k + 4 ∧ a ≤ kb ∧ k + 1 ≤ b ∧ b ≤ k + 3) → toR (g' a b) = T' a b
  late : k + 4 ≤ kb → g' (k + 4) (k + 3) = g (k + 4) (k + 3) ∧ T' (k + 4) (k + 1) = -(V3 * T (k + 4) (k + 3)) * θ ∧
    T' (k + 4) (k + 2) = -(V3 * T (k + 4) (k + 3)) * (θ * V2) ∧ T' (k + 4) (k + 3) = T (k + 4) (k + 3) - V3 * T (k + 4) (k + 3) * (θ * V3)
  sub : ∀ j, k + 4 ≤ j → j < kb → T' (j + 1) j = T (j + 1) j
  shape : Shape lo hi kt kb (k + 1) T'

section step
variable {lo hi kt kb k : ℤ} {g : ℤ → ℤ → Float} {T : ℤ → ℤ → ℝ} {beta v2 v3 t : Float} {V2 V3 θ B β : ℝ}

theorem col5_ne {F : Type} [Scalar F] {beta : F} {g : ℤ → ℤ → F} {a b : ℤ} (h : b ≠ k ∨ a < k + 1 ∨ k + 3 < a ∨ kb < a ∨ k < kt) :
    col5 kt kb k beta g a b = g a b := by
  unfold col5
  rw [if_neg (by omega)]

/-- Rows that the step does not reach. -/
theorem gF_low {F : Type} [Scalar F] {beta v2 v3 t : F} {g : ℤ → ℤ → F} {a b m : ℤ} (h : k + 3 < a ∨ kb < a) (hk : k + 2 ≤ kb) :
    left5 m kb k v2 v3 t (right5 lo kb k v2 v3 t (col5 kt kb k beta g)) a b = g a b := by
  have e1 : right5 lo kb k v2 v3 t (col5 kt kb k beta g) a b = g a b := by
    unfold right5
    rw [if_neg (by omega)]
    exact col5_ne (by omega)
  unfold left5
  split
  · unfold reflG
    split
    · rw [refl3_ne _ (by omega) (by omega) (by omega)]; exact e1
    · rw [refl2_ne _ (by omega) (by omega)]; exact e1
  · exact e1

/-- Columns up to `k`. -/
theorem gF_left {F : Type} [Scalar F] {beta v2 v3 t : F} {g : ℤ → ℤ → F} {a b m : ℤ} (h : b ≤ k) :
    left5 m kb k v2 v3 t (right5 lo kb k v2 v3 t (col5 kt kb k beta g)) a b = col5 kt kb k beta g a b := by
  unfold left5
  rw [if_neg (by omega)]
  unfold right5
  split
  · unfold reflG
    split
    · rw [refl3_ne _ (by omega) (by omega) (by omega)]
    · rw [refl2_ne _ (by omega) (by omega)]
  · rfl

set_option maxHeartbeats 1600000 in
/-- One step: the new array stands for a matrix that differs little from an exact orthogonal similarity. -/
theorem step5_near (hS : OnF lo hi g T) (hsh : Shape lo hi kt kb k T) (hlo : lo ≤ kt) (hhi : kb ≤ hi) (k1 : kt - 1 ≤ k) (k2 : k + 2 ≤ kb)
    (hR : NearR kb (k + 1) v2 v3 t V2 V3 θ) (hrefl : Refl V2 V3 θ)
    (hH : kt ≤ k → HeadF (T (k + 1) k) (T (k + 2) k) (if k + 3 ≤ kb then T (k + 3) k else 0) beta β V2 V3 θ)
    (hB : fro (block lo hi T) ≤ B) (hBb : 1024 * B ≤ big) (hn : (hi - lo + 1).toNat < 2 ^ 31) :
    ∃ T', After5 lo hi kt kb k V2 V3 θ T g (left5 hi kb k v2 v3 t (right5 lo kb k v2 v3 t (col5 kt kb k beta g))) T' ∧
      ∀ A Q δ, Trk A Q δ T → Trk A (Q * houseM lo hi (k + 1) V2 V3 θ) (δ + (4800 * ur * B + 60 * (hi - lo + 1).toNat * eta + 4 * mu)) T' := by
  have u0 := ur_pos
  have us := ur_small
  have e0 := eta_pos
  have eu := eta_le_ur
  have mu0 := mu_pos
  have emu : eta ≤ mu := by
    unfold eta mu
    exact one_div_le_one_div_of_le (by positivity) (pow_le_pow_right₀ (by norm_num) (by norm_num))
  have muu : mu ≤ ur := by
    unfold mu ur
    exact one_div_le_one_div_of_le (by positivity) (pow_le_pow_right₀ (by norm_num) (by norm_num))
  have B1 := one_le_big
  have B0 : 0 ≤ B := (fro_nonneg _).trans hB
  have uB0 : 0 ≤ ur * B := mul_nonneg u0.le B0
  have uB : ur * B ≤ B / 1000000000000000 := by have := mul_le_mul_of_nonneg_right us B0; linarith
  have uuB : ur * (ur * B) ≤ ur * B / 1000000000000000 := by have := mul_le_mul_of_nonneg_right us uB0; linarith
  set nh : ℝ := (((hi - lo + 1).toNat : ℕ) : ℝ) with hnh
  have n0 : 0 ≤ nh := Nat.cast_nonneg _
  have n1 : nh ≤ 2 ^ 31 := by rw [hnh]; exact_mod_cast hn.le
  have ne0 : 0 ≤ nh * eta := mul_nonneg n0 e0.le
  have une : ur * (nh * eta) ≤ nh * eta / 1000000000000000 := by have := mul_le_mul_of_nonneg_right us ne0; linarith
  have nee : nh * eta ≤ 1 / 1000 := by
    have h1 : nh * eta ≤ 2 ^ 31 * eta := mul_le_mul_of_nonneg_right n1 e0.le
    have h2 : (2 : ℝ) ^ 31 * eta ≤ 2 ^ 31 * ur := mul_le_mul_of_nonneg_left eu (by norm_num)
    have h3 : (2 : ℝ) ^ 31 * ur ≤ 1 / 1000 := by unfold ur; norm_num
    linarith
  have z3 : k + 3 ≤ kb ∨ V3 = 0 := by
    by_cases h : k + 3 ≤ kb
    · exact Or.inl h
    · exact Or.inr (hR.z3 (by omega))
  have hw : InBlk lo hi kt kb k V3 := ⟨hlo, hhi, k1, by
    by_cases h : k + 3 ≤ kb
    · exact Or.inl h
    · exact Or.inr ⟨by omega, hR.z3 (by omega)⟩⟩
  have hin : Inside lo hi (k + 1) V3 := hw.inside
  have q2 : k + 1 + 1 = k + 2 := by ring
  have q3 : k + 1 + 2 = k + 3 := by ring
  set gs := col5 kt kb k beta g with hgs
  set gR := right5 lo kb k v2 v3 t gs with hgR
  set gF := left5 hi kb k v2 v3 t gR with hgF
  set TR := houseR (k + 1) V2 V3 θ T with hTR
  have gsne : ∀ a b, b ≠ k → gs a b = g a b := fun a b h => col5_ne (Or.inl h)
  -- rows the reflector does not reach
  have zrow : ∀ a j, (k + 3 < a ∨ kb < a) → a ≤ hi → ¬ (a = k + 4 ∧ a ≤ kb) → k + 1 ≤ j → j ≤ k + 3 → j ≤ kb → T a j = 0 := by
    intro a j h h2 h3 j1 j2 j3
    by_cases hk : kb < a
    · exact hsh.below hk h2 (by omega) j3
    · exact hsh.hess _ _ (by omega) (by omega) h2 (by omega)
  have TRlow : ∀ a b, (k + 3 < a ∨ kb < a) → a ≤ hi → ¬ (a = k + 4 ∧ a ≤ kb) → TR a b = T a b := by
    intro a b h h2 h3
    rw [hTR]
    unfold houseR
    apply house_zero
    · exact zrow a _ h h2 h3 (by omega) (by omega) (by omega)
    · exact zrow a _ h h2 h3 (by omega) (by omega) (by omega)
    · rcases z3 with w | w
      · exact Or.inl (zrow a _ h h2 h3 (by omega) (by omega) (by omega))
      · exact Or.inr w
  have TRne : ∀ a b, (b < k + 1 ∨ k + 3 < b ∨ kb < b) → TR a b = T a b := by
    intro a b h
    rw [hTR]
    unfold houseR
    rw [house_ne _ (by omega) (by omega) (by rw [q3]; rcases z3 with w | w; · left; omega
                                             · exact Or.inr w)]
  -- the intermediate matrix
  set G : ℤ → ℤ → ℝ := fun a b => if lo ≤ a ∧ a ≤ min kb (k + 3) ∧ k + 1 ≤ b ∧ b ≤ k + 3 ∧ b ≤ kb then toR (gR a b) else TR a b with hG
  have rowdata : ∀ a (ha : lo ≤ a ∧ a ≤ hi), ∀ j, k + 1 ≤ j → j ≤ k + 1 + 2 → j ≤ kb →
      (gs a j).isFinite = true ∧ |toR (gs a j)| ≤ cnorm (block lo hi T).transpose ⟨a, Finset.mem_Icc.2 ha⟩ := by
    intro a ha j j1 j2 j3
    rw [gsne a j (by omega)]
    obtain ⟨f, e⟩ := hS a j ha.1 ha.2 (by omega) (by omega)
    refine ⟨f, ?_⟩
    rw [e]
    exact cnorm_entry (block lo hi T).transpose ⟨j, Finset.mem_Icc.2 ⟨by omega, by omega⟩⟩ ⟨a, Finset.mem_Icc.2 ha⟩
  have right : ∀ a b (ha : lo ≤ a ∧ a ≤ hi), a ≤ min kb (k + 3) → k + 1 ≤ b → b ≤ k + 3 → b ≤ kb → (gR a b).isFinite = true ∧
      |toR (gR a b) - TR a b| ≤ 1160 * ur * cnorm (block lo hi T).transpose ⟨a, Finset.mem_Icc.2 ha⟩ + 12 * eta := by
    intro a b ha a2 b1 b2 b3
    obtain ⟨f, e⟩ := reflG_near (x := gs a) hR (cnorm_nonneg _ _) ((cnorm_le _ _).trans (by rw [fro_transpose]; linarith))
      (rowdata a ha) (by omega) (j := b) (by omega) (by omega) b3
    have e1 : gR a b = reflG kb (k + 1) v2 v3 t (gs a) b := by
      rw [hgR]; unfold right5; rw [if_pos ⟨ha.1, a2⟩]
    have e2 : house (k + 1) V2 V3 θ (fun j => toR (gs a j)) b = TR a b := by
      rw [hTR]
      unfold houseR
      have val : ∀ j, k + 1 ≤ j → j ≤ kb → toR (gs a j) = T a j := fun j j1 j2 => by
        rw [gsne a j (by omega)]; exact (hS a j ha.1 ha.2 (by omega) (by omega)).2
      refine house_congr (val _ b1 b3) (val _ (by omega) (by omega)) (val _ (by omega) (by omega)) ?_
      rcases z3 with w4 | w4
      · exact Or.inr (val _ (by omega) (by omega))
      · exact Or.inl w4
    rw [e1, ← e2]
    exact ⟨f, e.trans (by linarith)⟩
  have d1 : fro (block lo hi G - block lo hi TR) ≤ 2 * (1160 * ur * B) + 2 * (nh * (12 * eta)) := by
    refine (fro_cols (T := block lo hi T) (c := 1160 * ur) (y := fun _ => 12 * eta) (rows3 lo hi (k + 1))
      (card_rows3 _) (by linarith) (fun _ => by linarith) ?_ ?_).trans ?_
    · intro b hb a
      rw [mem_rows3] at hb
      rw [Matrix.sub_apply]
      simp only [block, hG]
      rw [if_neg (by omega), sub_self]
    · intro b hb a
      rw [mem_rows3] at hb
      rw [Matrix.sub_apply]
      simp only [block, hG]
      split
      · next h => exact (right a b (Finset.mem_Icc.1 a.2) h.2.1 h.2.2.1 h.2.2.2.1 h.2.2.2.2).2
      · rw [sub_self, abs_zero]
        have h2 := mul_nonneg u0.le (cnorm_nonneg (block lo hi T).transpose a)
        linarith
    · have h1 := sum_spike (lo := lo) (hi := hi) (τ := 12 * eta) (le_refl 0) (k - 1)
      simp only [ite_self, add_zero] at h1
      have h2 : 1160 * ur * fro (block lo hi T) ≤ 1160 * ur * B := mul_le_mul_of_nonneg_left hB (by linarith)
      linarith
  set D1 := 2 * (1160 * ur * B) + 2 * (nh * (12 * eta)) with hD1
  have froG : fro (block lo hi G) ≤ B + D1 := by
    have e : block lo hi G = block lo hi TR + (block lo hi G - block lo hi TR) := by abel
    rw [e]
    refine (fro_add _ _).trans ?_
    rw [hTR, fro_houseR hin hrefl]
    rw [hTR] at d1
    linarith
  have froGb : fro (block lo hi G) ≤ big := by
    refine froG.trans ?_
    rw [hD1]; linarith
  -- entries of the array after the right factor
  have gRG : ∀ a b, lo ≤ a → a ≤ min kb (k + 3) → k + 1 ≤ b → b ≤ hi → (gR a b).isFinite = true ∧ toR (gR a b) = G a b := by
    intro a b a1 a2 b1 b2
    by_cases hb : b ≤ k + 3 ∧ b ≤ kb
    · refine ⟨(right a b ⟨a1, by omega⟩ a2 b1 hb.1 hb.2).1, ?_⟩
      simp only [hG]
      rw [if_pos ⟨a1, a2, b1, hb⟩]
    · have e1 : gR a b = g a b := by
        rw [hgR]
        unfold right5
        rw [if_pos ⟨a1, a2⟩, reflG_ne (by omega) (by omega) (by omega), gsne _ _ (by omega)]
      obtain ⟨f, e⟩ := hS a b a1 (by omega) (by omega) b2
      rw [e1]
      refine ⟨f, ?_⟩
      simp only [hG]
      rw [if_neg (by omega), e, TRne a b (by omega)]
  have GT : ∀ a b, b < k + 1 → G a b = T a b := by
    intro a b hb
    simp only [hG]
    rw [if_neg (by omega), TRne a b (by omega)]
  -- the column that is stored
  have hβ : kt ≤ k → |β| ≤ B ∧ houseL (k + 1) V2 V3 θ T (k + 1) k = β ∧ |houseL (k + 1) V2 V3 θ T (k + 2) k| ≤ mu ∧
      (k + 3 ≤ kb → |houseL (k + 1) V2 V3 θ T (k + 3) k| ≤ mu) := by
    intro hk
    have hh := hH hk
    have hc : V3 * (if k + 3 ≤ kb then T (k + 3) k else 0) = V3 * T (k + 3) k := by
      rcases z3 with w | w
      · rw [if_pos w]
      · rw [w, zero_mul, zero_mul]
    have h1 := hh.e1
    have h2 := hh.e2
    have h3 := hh.e3
    rw [hc] at h1 h2 h3
    have e1 : houseL (k + 1) V2 V3 θ T (k + 1) k = β := by
      unfold houseL house dirv
      rw [if_pos rfl, q2, q3, ← h1]
      ring
    refine ⟨?_, e1, ?_, ?_⟩
    · rw [← e1]
      have := fro_entry (block lo hi (houseL (k + 1) V2 V3 θ T)) ⟨k + 1, Finset.mem_Icc.2 ⟨by omega, by omega⟩⟩ ⟨k, Finset.mem_Icc.2 ⟨by omega, by omega⟩⟩
      rw [fro_houseL hin hrefl] at this
      exact this.trans hB
    · unfold houseL house dirv
      rw [if_neg (by omega), if_pos (by omega), q2, q3]
      convert h2 using 2
    · intro h33
      rw [if_pos h33] at h3
      unfold houseL house dirv
      rw [if_neg (by omega), if_neg (by omega), if_pos (by omega), q2, q3]
      convert h3 using 2
  set κ := 70 * ur * B + eta + mu with hκ
  have κ0 : 0 ≤ κ := by rw [hκ]; linarith
  have hcol : kt ≤ k → ∀ a, k + 1 ≤ a → a ≤ k + 3 → a ≤ kb → (gs a k).isFinite = true ∧ |toR (gs a k) - houseL (k + 1) V2 V3 θ T a k| ≤ κ ∧
      (a ≠ k + 1 → toR (gs a k) = 0) := by
    intro hk a a1 a2 a3
    obtain ⟨b0, b1, b2, b3⟩ := hβ hk
    have hgs' : gs a k = if a = k + 1 then beta else Scalar.zero := by
      rw [hgs]; unfold col5; rw [if_pos ⟨hk, rfl, a1, a2, a3⟩]
    rw [hgs']
    by_cases ha : a = k + 1
    · subst ha
      rw [if_pos rfl]
      refine ⟨(hH hk).fin, ?_, fun h => absurd rfl h⟩
      rw [b1]
      refine (hH hk).err.trans ?_
      have : ur * |β| ≤ ur * B := mul_le_mul_of_nonneg_left b0 u0.le
      rw [hκ]; linarith
    · rw [if_neg ha]
      refine ⟨toR_zero.1, ?_, fun _ => toR_zero.2⟩
      have ez : toR (Scalar.zero : Float) = 0 := toR_zero.2
      rw [ez, zero_sub, abs_neg]
      by_cases ha2 : a = k + 2
      · rw [ha2]; rw [hκ]; linarith
      · have : a = k + 3 := by omega
        rw [this] at a3 ⊢
        have := b3 a3
        rw [hκ]; linarith
  -- the left factor
  have coldata : ∀ b (hb : lo ≤ b ∧ b ≤ hi), k + 1 ≤ b → ∀ j, k + 1 ≤ j → j ≤ k + 1 + 2 → j ≤ kb →
      (gR j b).isFinite = true ∧ |toR (gR j b)| ≤ cnorm (block lo hi G) ⟨b, Finset.mem_Icc.2 hb⟩ := by
    intro b hb b1 j j1 j2 j3
    obtain ⟨f, e⟩ := gRG j b (by omega) (by omega) b1 hb.2
    refine ⟨f, ?_⟩
    rw [e]
    exact cnorm_entry (block lo hi G) ⟨j, Finset.mem_Icc.2 ⟨by omega, by omega⟩⟩ ⟨b, Finset.mem_Icc.2 hb⟩
  set T' : ℤ → ℤ → ℝ := fun a b => if a = k + 4 ∧ a ≤ kb then TR a b else toR (gF a b) with hT'
  have gFlow : ∀ a b, (k + 3 < a ∨ kb < a) → gF a b = g a b := fun a b h => gF_low h k2
  have gFleft : ∀ a b, b ≤ k → gF a b = gs a b := fun a b h => gF_left h
  have tlow : ∀ a b, lo ≤ a → a ≤ hi → lo ≤ b → b ≤ hi → (k + 3 < a ∨ kb < a) → ¬ (a = k + 4 ∧ a ≤ kb) →
      (gF a b).isFinite = true ∧ T' a b = T a b ∧ houseL (k + 1) V2 V3 θ G a b = T a b := by
    intro a b a1 a2 b1 b2 h h4
    obtain ⟨f, e⟩ := hS a b a1 a2 b1 b2
    refine ⟨by rw [gFlow a b h]; exact f, ?_, ?_⟩
    · simp only [hT']
      rw [if_neg h4, gFlow a b h, e]
    · unfold houseL
      rw [house_ne _ (by omega) (by omega) (by rw [q3]; rcases z3 with w | w; · left; omega
                                               · exact Or.inr w)]
      simp only [hG]
      rw [if_neg (by omega), TRlow a b h a2 h4]
  have thigh : ∀ a b, lo ≤ a → lo ≤ b → b ≤ hi → a ≤ k → (gF a b).isFinite = true ∧ T' a b = G a b ∧ houseL (k + 1) V2 V3 θ G a b = G a b := by
    intro a b a1 b1 b2 h
    have e1 : gF a b = gR a b := by
      rw [hgF]
      unfold left5
      split
      · exact reflG_ne (by omega) (by omega) (by omega)
      · rfl
    have e3 : houseL (k + 1) V2 V3 θ G a b = G a b := by
      unfold houseL
      rw [house_ne _ (by omega) (by omega) (Or.inl (by omega))]
    have e2 : (gR a b).isFinite = true ∧ toR (gR a b) = G a b := by
      by_cases hb : k + 1 ≤ b
      · exact gRG a b a1 (by omega) hb b2
      · rw [← e1, gFleft a b (by omega), hgs, col5_ne (by omega), GT a b (by omega)]
        exact hS a b a1 (by omega) b1 b2
    refine ⟨by rw [e1]; exact e2.1, ?_, e3⟩
    simp only [hT']
    rw [if_neg (by omega), e1, e2.2]
  have tmid : ∀ a b, k + 1 ≤ a → a ≤ k + 3 → a ≤ kb → ∀ hb : lo ≤ b ∧ b ≤ hi, (gF a b).isFinite = true ∧
      |T' a b - houseL (k + 1) V2 V3 θ G a b| ≤ 1160 * ur * cnorm (block lo hi G) ⟨b, Finset.mem_Icc.2 hb⟩ + (12 * eta + if b = k then κ else 0) := by
    intro a b a1 a2 a3 hb
    have eT : T' a b = toR (gF a b) := by simp only [hT']; rw [if_neg (by omega)]
    have c0 := mul_nonneg u0.le (cnorm_nonneg (block lo hi G) ⟨b, Finset.mem_Icc.2 hb⟩)
    rw [eT]
    by_cases hbk : k + 1 ≤ b
    · obtain ⟨f, e⟩ := reflG_near (x := fun i => gR i b) hR (cnorm_nonneg _ _) ((cnorm_le _ _).trans froGb)
        (coldata b hb hbk) (by omega) (j := a) (by omega) (by omega) a3
      have e1 : gF a b = reflG kb (k + 1) v2 v3 t (fun i => gR i b) a := by
        rw [hgF]; unfold left5; rw [if_pos ⟨hbk, hb.2⟩]
      have e2 : house (k + 1) V2 V3 θ (fun j => toR (gR j b)) a = houseL (k + 1) V2 V3 θ G a b := by
        unfold houseL
        have val : ∀ j, k + 1 ≤ j → j ≤ k + 3 → j ≤ kb → toR (gR j b) = G j b := fun j j1 j2 j3 => (gRG j b (by omega) (by omega) hbk hb.2).2
        refine house_congr (val _ a1 a2 a3) (val _ (by omega) (by omega) (by omega)) (val _ (by omega) (by omega) (by omega)) ?_
        rcases z3 with w4 | w4
        · exact Or.inr (val _ (by omega) (by omega) (by omega))
        · exact Or.inl w4
      rw [e1, ← e2, if_neg (by omega)]
      exact ⟨f, e.trans (by linarith)⟩
    · have eh : houseL (k + 1) V2 V3 θ G a b = houseL (k + 1) V2 V3 θ T a b := by
        unfold houseL
        exact house_congr (GT _ _ (by omega)) (GT _ _ (by omega)) (GT _ _ (by omega)) (Or.inr (GT _ _ (by omega)))
      rw [gFleft a b (by omega), eh]
      by_cases hbe : b = k ∧ kt ≤ k
      · obtain ⟨rfl, hk⟩ := hbe
        obtain ⟨f, e, -⟩ := hcol hk a a1 a2 a3
        rw [if_pos rfl]
        exact ⟨f, e.trans (by linarith)⟩
      · have eg : gs a b = g a b := by rw [hgs]; exact col5_ne (by omega)
        obtain ⟨f, e⟩ := hS a b (by omega) (by omega) hb.1 hb.2
        have z : ∀ j, k + 1 ≤ j → j ≤ k + 3 → j ≤ kb → T j b = 0 := by
          intro j j1 j2 j3
          by_cases hbk : b < kt
          · exact hsh.left k1 (by omega) (by omega) hb.1 hbk
          · exact hsh.hess _ _ hb.1 (by omega) (by omega) (by omega)
        have e2 : houseL (k + 1) V2 V3 θ T a b = T a b := by
          unfold houseL
          apply house_zero
          · exact z _ (by omega) (by omega) (by omega)
          · exact z _ (by omega) (by omega) (by omega)
          · rcases z3 with w4 | w4
            · exact Or.inl (z _ (by omega) (by omega) (by omega))
            · exact Or.inr w4
        rw [eg, e2, e, sub_self, abs_zero]
        refine ⟨f, ?_⟩
        split <;> linarith
  have d2 : fro (block lo hi T' - block lo hi (houseL (k + 1) V2 V3 θ G)) ≤ 2 * (1160 * ur * (B + D1)) + 2 * (nh * (12 * eta) + κ) := by
    refine (fro_rows (T := block lo hi G) (c := 1160 * ur) (y := fun b => 12 * eta + if (b : ℤ) = k then κ else 0) (rows3 lo hi (k + 1))
      (card_rows3 _) (by linarith) ?_ ?_ ?_).trans ?_
    · intro b
      have : (0 : ℝ) ≤ if (b : ℤ) = k then κ else 0 := by split <;> [exact κ0; exact le_refl _]
      show 0 ≤ 12 * eta + _
      linarith
    · intro a ha b
      rw [mem_rows3] at ha
      obtain ⟨a1, a2⟩ := Finset.mem_Icc.1 a.2
      obtain ⟨b1, b2⟩ := Finset.mem_Icc.1 b.2
      rw [Matrix.sub_apply]
      simp only [block]
      by_cases h1 : (a : ℤ) ≤ k
      · obtain ⟨-, e1, e2⟩ := thigh a b a1 b1 b2 h1
        rw [e1, e2, sub_self]
      · by_cases h4 : (a : ℤ) = k + 4 ∧ (a : ℤ) ≤ kb
        · have e1 : T' a b = TR a b := by simp only [hT']; rw [if_pos h4]
          have e2 : houseL (k + 1) V2 V3 θ G a b = TR a b := by
            unfold houseL
            rw [house_ne _ (by omega) (by omega) (Or.inl (by omega))]
            simp only [hG]
            rw [if_neg (by omega)]
          rw [e1, e2, sub_self]
        · obtain ⟨-, e1, e2⟩ := tlow a b a1 a2 b1 b2 (by omega) h4
          rw [e1, e2, sub_self]
    · intro a ha b
      rw [mem_rows3] at ha
      obtain ⟨a1, a2⟩ := Finset.mem_Icc.1 a.2
      obtain ⟨b1, b2⟩ := Finset.mem_Icc.1 b.2
      rw [Matrix.sub_apply]
      simp only [block]
      by_cases h1 : (a : ℤ) ≤ kb
      · exact (tmid a b (by omega) (by omega) h1 ⟨b1, b2⟩).2
      · obtain ⟨-, e1, e2⟩ := tlow a b a1 a2 b1 b2 (by omega) (by omega)
        rw [e1, e2, sub_self, abs_zero]
        have h1 : (0 : ℝ) ≤ if (b : ℤ) = k then κ else 0 := by split <;> [exact κ0; exact le_refl _]
        have h2 := cnorm_nonneg (block lo hi G) b
        have h3 := mul_nonneg u0.le h2
        linarith
    · have h1 := sum_spike (lo := lo) (hi := hi) (τ := 12 * eta) κ0 k
      have h2 : 1160 * ur * fro (block lo hi G) ≤ 1160 * ur * (B + D1) := mul_le_mul_of_nonneg_left froG (by linarith)
      linarith
  refine ⟨T', ⟨?_, ?_, ?_, ?_, ⟨?_, ?_, ?_⟩⟩, fun A Q δ hT => (hT.house' hin hrefl d1 d2).mono ?_⟩
  · -- finite
    intro a b a1 a2 b1 b2
    by_cases h1 : a ≤ k
    · exact (thigh a b a1 b1 b2 h1).1
    · by_cases h2 : k + 3 < a ∨ kb < a
      · rw [gFlow a b h2]; exact (hS a b a1 a2 b1 b2).1
      · exact (tmid a b (by omega) (by omega) (by omega) ⟨b1, b2⟩).1
  · -- the entries
    intro a b a1 a2 b1 b2 hne
    simp only [hT']
    split
    · next h =>
      rw [TRne a b (by omega), gFlow a b (by omega)]
      exact (hS a b a1 a2 b1 b2).2
    · rfl
  · -- the late row
    intro h4
    have z1 : T (k + 4) (k + 1) = 0 := hsh.hess _ _ (by omega) (by omega) (by omega) (by omega)
    have z2 : T (k + 4) (k + 2) = 0 := hsh.hess _ _ (by omega) (by omega) (by omega) (by omega)
    have eT : ∀ b, T' (k + 4) b = TR (k + 4) b := fun b => by simp only [hT']; rw [if_pos ⟨trivial, h4⟩]
    refine ⟨gFlow _ _ (by omega), ?_, ?_, ?_⟩
    · rw [eT, hTR]
      unfold houseR house dirv
      rw [if_pos rfl, q2, q3, z1, z2]; ring
    · rw [eT, hTR]
      unfold houseR house dirv
      rw [if_neg (by omega), if_pos (by omega), q2, q3, z1, z2]; ring
    · rw [eT, hTR]
      unfold houseR house dirv
      rw [if_neg (by omega), if_neg (by omega), if_pos (by omega), q2, q3, z1, z2]; ring
  · -- the subdiagonal below
    intro j j1 j2
    exact (tlow (j + 1) j (by omega) (by omega) (by omega) (by omega) (by omega) (by omega)).2.1
  · -- zeros
    intro a b b1 hba ai hne
    by_cases hb : b ≤ k
    · by_cases hc : kt ≤ k ∧ b = k ∧ a ≤ k + 3 ∧ a ≤ kb
      · obtain ⟨c1, rfl, c3, c4⟩ := hc
        simp only [hT']
        rw [if_neg (by omega), gFleft _ _ (le_refl _)]
        exact (hcol c1 a (by omega) c3 c4).2.2 (by omega)
      · have e : T' a b = T a b := by
          simp only [hT']
          split
          · exact TRne a b (by omega)
          · rw [gFleft a b hb, hgs, col5_ne (by omega)]
            exact (hS a b (by omega) ai b1 (by omega)).2
        rw [e]
        exact hsh.hess a b b1 hba ai (by omega)
    · rw [(tlow a b (by omega) ai b1 (by omega) (by omega) (by omega)).2.1]
      exact hsh.hess a b b1 hba ai (by omega)
  · intro hl
    have e : T' kt (kt - 1) = T kt (kt - 1) := by
      simp only [hT']
      rw [if_neg (by omega), gFleft _ _ (by omega), hgs, col5_ne (by omega)]
      exact (hS _ _ (by omega) (by omega) (by omega) (by omega)).2
    rw [e]
    exact hsh.top hl
  · intro hl
    rw [(tlow (kb + 1) kb (by omega) (by omega) (by omega) (by omega) (by omega) (by omega)).2.1]
    exact hsh.bot hl
  · have e1 : ur * (B + D1) = ur * B + 2320 * (ur * (ur * B)) + 24 * (ur * (nh * eta)) := by rw [hD1]; ring
    have e2 : 2 * (1160 * ur * (B + D1)) = 2320 * (ur * (B + D1)) := by ring
    have e3 : D1 = 2320 * (ur * B) + 24 * (nh * eta) := by rw [hD1]; ring
    have e4 : 4800 * ur * B = 4800 * (ur * B) := by ring
    have e5 : 60 * nh * eta = 60 * (nh * eta) := by ring
    rw [e2, e1, e4, e5, e3, hκ]
    linarith

/-- Setting the subdiagonal element to zero. -/
theorem After5.cut {g' : ℤ → ℤ → Float} {T' : ℤ → ℤ → ℝ} (h : After5 lo hi kt kb k V2 V3 θ T g g' T') (k2 : k + 2 ≤ kb)
    (k1 : kt ≤ k) : After5 lo hi kt kb k V2 V3 θ T g (fun a b => if a = k + 1 ∧ b = k then Scalar.zero else g' a b)
      (fun a b => if a = k + 1 ∧ b = k then 0 else T' a b) := by
  refine ⟨?_, ?_, ?_, ?_, ⟨?_, ?_, ?_⟩⟩
  · intro a b a1 a2 b1 b2
    beta_reduce
    split
    · exact toR_zero.1
    · exact h.fin a b a1 a2 b1 b2
  · intro a b a1 a2 b1 b2 hne
    beta_reduce
    split
    · exact toR_zero.2
    · exact h.on a b a1 a2 b1 b2 hne
  · intro h4
    beta_reduce
    rw [if_neg (by omega), if_neg (by omega), if_neg (by omega), if_neg (by omega)]
    exact h.late h4
  · intro j j1 j2
    beta_reduce
    rw [if_neg (by omega)]
    exact h.sub j j1 j2
  · intro a b b1 hba ai hne
    beta_reduce
    split
    · rfl
    · exact h.shape.hess a b b1 hba ai hne
  · intro hl
    beta_reduce
    rw [if_neg (by omega)]
    exact h.shape.top hl
  · intro hl
    beta_reduce
    rw [if_neg (by omega)]
    exact h.shape.bot hl

end step

end Verif

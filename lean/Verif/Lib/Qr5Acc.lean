import Verif.Lib.Qr5Chase
import Verif.Lib.Qr5Block

/-!
# The accumulating mode of `dlaqr5` with one bulge: the product of the reflectors of a sweep
-/

namespace Verif
open Scalar Spec XR

/-- A reflector acting on `q`, `q + 1`, `q + 2`. -/
structure Rfl5 where
  q : ℤ
  v2 : ℝ
  v3 : ℝ
  t : ℝ

/-- The reflectors applied to a vector, the first one first. -/
noncomputable def applyV (rs : List Rfl5) (x : ℤ → ℝ) : ℤ → ℝ := rs.foldl (fun x r => house r.q r.v2 r.v3 r.t x) x

/-- The reflectors applied from the right. -/
noncomputable def applyR (rs : List Rfl5) (M : ℤ → ℤ → ℝ) (a b : ℤ) : ℝ := applyV rs (M a) b

/-- The reflectors applied from the left. -/
noncomputable def applyL (rs : List Rfl5) (M : ℤ → ℤ → ℝ) (a b : ℤ) : ℝ := applyV rs (fun i => M i b) a

/-- The reflectors act on `lo..hi` only. -/
def AllIn (lo hi : ℤ) (rs : List Rfl5) : Prop := ∀ r ∈ rs, Inside lo hi r.q r.v3

theorem applyV_snoc (rs : List Rfl5) (r : Rfl5) (x : ℤ → ℝ) : applyV (rs ++ [r]) x = house r.q r.v2 r.v3 r.t (applyV rs x) := by
  unfold applyV
  rw [List.foldl_append]
  rfl

theorem applyV_append (rs rs' : List Rfl5) (x : ℤ → ℝ) : applyV (rs ++ rs') x = applyV rs' (applyV rs x) := by
  unfold applyV
  rw [List.foldl_append]

theorem applyR_snoc (rs : List Rfl5) (r : Rfl5) (M : ℤ → ℤ → ℝ) : applyR (rs ++ [r]) M = houseR r.q r.v2 r.v3 r.t (applyR rs M) := by
  funext a b
  unfold applyR houseR
  rw [applyV_snoc]

theorem applyL_snoc (rs : List Rfl5) (r : Rfl5) (M : ℤ → ℤ → ℝ) : applyL (rs ++ [r]) M = houseL r.q r.v2 r.v3 r.t (applyL rs M) := by
  funext a b
  unfold applyL houseL
  rw [applyV_snoc]

theorem applyR_append (rs rs' : List Rfl5) (M : ℤ → ℤ → ℝ) : applyR (rs ++ rs') M = applyR rs' (applyR rs M) := by
  funext a b
  unfold applyR
  rw [applyV_append]

theorem AllIn.snoc {lo hi : ℤ} {rs : List Rfl5} {r : Rfl5} (h : AllIn lo hi rs) (hr : Inside lo hi r.q r.v3) : AllIn lo hi (rs ++ [r]) := by
  intro r' h'
  rcases List.mem_append.1 h' with h1 | h1
  · exact h r' h1
  · rw [List.mem_singleton.1 h1]; exact hr

theorem AllIn.append {lo hi : ℤ} {rs rs' : List Rfl5} (h : AllIn lo hi rs) (h' : AllIn lo hi rs') : AllIn lo hi (rs ++ rs') := by
  intro r hr
  rcases List.mem_append.1 hr with h1 | h1
  · exact h r h1
  · exact h' r h1

theorem AllIn.wider {lo hi lo' hi' : ℤ} {rs : List Rfl5} (h : AllIn lo hi rs) (h1 : lo' ≤ lo) (h2 : hi ≤ hi') : AllIn lo' hi' rs := by
  intro r hr
  obtain ⟨q1, q2, q3⟩ := h r hr
  exact ⟨by omega, by omega, q3.imp (fun h => by omega) id⟩

theorem house_out {lo hi q : ℤ} {v2 v3 t : ℝ} (h : Inside lo hi q v3) (x : ℤ → ℝ) {i : ℤ} (hi' : i < lo ∨ hi < i) : house q v2 v3 t x i = x i := by
  obtain ⟨h1, h2, h3⟩ := h
  have : dirv q v2 v3 i = 0 := by
    unfold dirv
    rw [if_neg (by omega), if_neg (by omega)]
    split
    · rcases h3 with h3 | h3
      · omega
      · exact h3
    · rfl
  unfold house
  rw [this]; ring

theorem applyV_out {lo hi : ℤ} {rs : List Rfl5} (h : AllIn lo hi rs) (x : ℤ → ℝ) {i : ℤ} (hi' : i < lo ∨ hi < i) : applyV rs x i = x i := by
  induction rs using List.reverseRecOn with
  | nil => rfl
  | append_singleton rs r ih =>
    rw [applyV_snoc, house_out (h r (by simp)) _ hi', ih fun r' h' => h r' (by simp [h'])]

/-- Applying the reflectors is multiplying by their product. -/
theorem applyV_sum {ι : Type} {S : Finset ι} {e : ι → ℤ} {lo hi : ℤ} (hS : ∀ (f : ℤ → ℝ) i, lo ≤ i → i ≤ hi → ∑ d ∈ S, f (e d) * idT (e d) i = f i)
    {rs : List Rfl5} (h : AllIn lo hi rs) (x : ℤ → ℝ) {i : ℤ} (i1 : lo ≤ i) (i2 : i ≤ hi) :
    applyV rs x i = ∑ d ∈ S, x (e d) * applyV rs (idT (e d)) i := by
  induction rs using List.reverseRecOn generalizing i with
  | nil => exact (hS x i i1 i2).symm
  | append_singleton rs r ih =>
    have h' : AllIn lo hi rs := fun r' h' => h r' (by simp [h'])
    obtain ⟨q1, q2, q3⟩ := h r (by simp)
    simp only [applyV_snoc]
    have e3 : r.v3 * applyV rs x (r.q + 2) = ∑ d ∈ S, x (e d) * (r.v3 * applyV rs (idT (e d)) (r.q + 2)) := by
      rcases q3 with q3 | q3
      · rw [ih h' (by omega) (by omega), Finset.mul_sum]
        exact Finset.sum_congr rfl fun d _ => by ring
      · simp [q3]
    unfold house
    rw [e3, ih h' i1 i2, ih h' q1 (by omega), ih h' (by omega) q2, Finset.mul_sum, ← Finset.sum_add_distrib, ← Finset.sum_add_distrib, Finset.mul_sum,
      ← Finset.sum_sub_distrib]
    exact Finset.sum_congr rfl fun d _ => by ring

theorem range_delta {w1 : ℤ} {nu : Nat} (f : ℤ → ℝ) {i : ℤ} (i1 : w1 ≤ i) (i2 : i ≤ w1 + nu - 1) :
    ∑ l ∈ Finset.range nu, f (w1 + l) * idT (w1 + l) i = f i := by
  rw [Finset.sum_eq_single (i - w1).toNat]
  · rw [show w1 + ((i - w1).toNat : ℤ) = i by omega]
    simp [idT]
  · intro d _ hd
    unfold idT
    rw [if_neg (by omega), mul_zero]
  · intro hn
    exact absurd (Finset.mem_range.2 (by omega)) hn

theorem blk_delta {lo hi : ℤ} (f : ℤ → ℝ) {i : ℤ} (i1 : lo ≤ i) (i2 : i ≤ hi) : ∑ d : Blk lo hi, f d * idT d i = f i := by
  have hi' : i ∈ Finset.Icc lo hi := Finset.mem_Icc.2 ⟨i1, i2⟩
  rw [Finset.sum_eq_single (⟨i, by simpa using hi'⟩ : Blk lo hi)]
  · simp [idT]
  · intro d _ hd
    unfold idT
    rw [if_neg (fun h => hd (Subtype.ext h)), mul_zero]
  · intro hn
    exact absurd (Finset.mem_univ _) hn

theorem gemmEntry_beta0 (nota : Bool) {k : Nat} (x y : Nat → XR) (x' y' : Nat → ℝ) (hx : ∀ l < k, x l = fin (x' l)) (hy : ∀ l < k, y l = fin (y' l)) (c : XR) :
    gemmEntry nota k one zero x y c = fin (∑ l ∈ Finset.range k, x' l * y' l) := by
  have e : gemmEntry nota k one zero x y c = gemmEntry nota k (fin 1) (fin 0) (fun l => fin (x' l)) (fun l => fin (y' l)) (fin 0) := by
    rw [gemmEntry_congr hx hy]
    unfold gemmEntry scaled
    simp
  rw [e, gemmEntry_fin]
  simp

/-! ### The block products -/

/-- The block written: rows `w1..w2` and columns `i0..i1` if `hz`, rows `i0..i1` and columns `w1..w2` otherwise. -/
def Reg (hz : Bool) (w1 w2 i0 i1 a b : ℤ) : Prop := if hz then (w1 ≤ a ∧ a ≤ w2) ∧ i0 ≤ b ∧ b ≤ i1 else (i0 ≤ a ∧ a ≤ i1) ∧ w1 ≤ b ∧ b ≤ w2

/-- What is written there. -/
noncomputable def Val (hz : Bool) (rs : List Rfl5) (M : ℤ → ℤ → ℝ) (a b : ℤ) : ℝ := if hz then applyL rs M a b else applyR rs M a b

section
variable {hz : Bool} {rs : List Rfl5} {M : ℤ → ℤ → ℝ} {u x w : FA XR} {ru cu r c rw' cw nu : Nat} {g ug : ℤ → ℤ → XR} {incol k1 w1 : ℤ}

/-- `ug` holds the product of the reflectors. -/
structure UProd (ru cu : Nat) (incol k1 : ℤ) (nu : Nat) (rs : List Rfl5) (u : FA XR) (ug : ℤ → ℤ → XR) : Prop where
  mat : Is2 u ru cu (ru * cu) ug
  small : ru * cu < 2 ^ 31
  k1p : 1 ≤ k1
  rows : k1 + nu ≤ ru + 1
  cols : k1 + nu ≤ cu + 1
  pos : 0 < nu
  all : AllIn (incol + k1) (incol + k1 + nu - 1) rs
  val : ∀ i j, k1 ≤ i → i < k1 + nu → k1 ≤ j → j < k1 + nu → ug i j = fin (applyV rs (idT (incol + i)) (incol + j))

theorem blockStep (hU : UProd ru cu incol k1 nu rs u ug) (hw1 : w1 = incol + k1) {jlen : Nat} {i : ℤ}
    (hx : Is2 x r c (r * c) g) (hxs : r * c < 2 ^ 31) (hw : IsMatrix w rw' cw) (j0 : 0 < jlen) (w11 : 1 ≤ w1) (i1 : 1 ≤ i)
    (hb : if hz then w1 + nu ≤ r + 1 ∧ i + jlen ≤ c + 1 ∧ nu ≤ rw' ∧ jlen ≤ cw else i + jlen ≤ r + 1 ∧ w1 + nu ≤ c + 1 ∧ jlen ≤ rw' ∧ nu ≤ cw)
    (hg : ∀ a b, Reg hz w1 (w1 + nu - 1) i (i + jlen - 1) a b → g a b = fin (M a b)) :
    ∃ x' w', qr5Block hz nu jlen ru r rw' r (if hz then w1 else i) (if hz then i else w1) k1 u x w = pure (x', w') ∧ IsMatrix w' rw' cw ∧
      ∃ g', Is2 x' r c (r * c) g' ∧ (∀ a b, Reg hz w1 (w1 + nu - 1) i (i + jlen - 1) a b → g' a b = fin (Val hz rs M a b)) ∧
        ∀ a b, ¬ Reg hz w1 (w1 + nu - 1) i (i + jlen - 1) a b → g' a b = g a b := by
  cases hz with
  | true =>
    rw [if_pos rfl] at hb
    obtain ⟨b1, b2, b3, b4⟩ := hb
    obtain ⟨x', w', e, h1, h2⟩ := qr5Block_ok (hz := true) (nu := nu) (jlen := jlen) (m := nu) (n := jlen) (a := w1) (b := i) (k1 := k1) rfl rfl
      hU.mat hU.small hx hxs hw hU.pos j0 hU.k1p hU.rows hU.cols w11 i1 b1 b2 b3 b4
    refine ⟨x', w', e, h1, _, h2, fun a b hR => ?_, fun a b hR => ?_⟩
    · have hR' : (w1 ≤ a ∧ a ≤ w1 + nu - 1) ∧ i ≤ b ∧ b ≤ i + jlen - 1 := hR
      rw [if_pos (by omega)]
      rw [gemmEntry_beta0 _ _ _ (fun l => applyV rs (idT (w1 + l)) a) (fun l => M (w1 + l) b) (fun l hl => ?_) (fun l hl => ?_)]
      · have := applyV_sum (S := Finset.range nu) (e := fun l => w1 + (l : ℤ)) (lo := w1) (hi := w1 + nu - 1) (fun f i i1 i2 => range_delta f i1 i2)
          (by rw [hw1]; exact hU.all) (fun d => M d b) hR'.1.1 hR'.1.2
        unfold Val
        rw [if_pos rfl]
        unfold applyL
        rw [this]
        congr 1
        exact Finset.sum_congr rfl fun l _ => mul_comm _ _
      · rw [if_pos rfl, hU.val _ _ (by omega) (by omega) (by omega) (by omega), hw1]
        congr 2 <;> [congr 1; skip] <;> ring
      · rw [if_pos rfl]
        exact hg _ _ (show (w1 ≤ w1 + (l : ℤ) ∧ w1 + (l : ℤ) ≤ w1 + nu - 1) ∧ i ≤ b ∧ b ≤ i + jlen - 1 by omega)
    · have hR' : ¬ ((w1 ≤ a ∧ a ≤ w1 + nu - 1) ∧ i ≤ b ∧ b ≤ i + jlen - 1) := hR
      rw [if_neg (by omega)]
  | false =>
    rw [if_neg (by simp)] at hb
    obtain ⟨b1, b2, b3, b4⟩ := hb
    obtain ⟨x', w', e, h1, h2⟩ := qr5Block_ok (hz := false) (nu := nu) (jlen := jlen) (m := jlen) (n := nu) (a := i) (b := w1) (k1 := k1) rfl rfl
      hU.mat hU.small hx hxs hw hU.pos j0 hU.k1p hU.rows hU.cols i1 w11 b1 b2 b3 b4
    refine ⟨x', w', e, h1, _, h2, fun a b hR => ?_, fun a b hR => ?_⟩
    · have hR' : (i ≤ a ∧ a ≤ i + jlen - 1) ∧ w1 ≤ b ∧ b ≤ w1 + nu - 1 := hR
      rw [if_pos (by omega)]
      rw [gemmEntry_beta0 _ _ _ (fun l => M a (w1 + l)) (fun l => applyV rs (idT (w1 + l)) b) (fun l hl => ?_) (fun l hl => ?_)]
      · have := applyV_sum (S := Finset.range nu) (e := fun l => w1 + (l : ℤ)) (lo := w1) (hi := w1 + nu - 1) (fun f i i1 i2 => range_delta f i1 i2)
          (by rw [hw1]; exact hU.all) (M a) hR'.2.1 hR'.2.2
        unfold Val
        rw [if_neg (by simp)]
        unfold applyR
        rw [this]
      · rw [if_neg (by simp)]
        exact hg _ _ (show (i ≤ a ∧ a ≤ i + jlen - 1) ∧ w1 ≤ w1 + (l : ℤ) ∧ w1 + (l : ℤ) ≤ w1 + nu - 1 by omega)
      · rw [if_neg (by simp), hU.val _ _ (by omega) (by omega) (by omega) (by omega), hw1]
        congr 2 <;> [congr 1; skip] <;> ring
    · have hR' : ¬ ((i ≤ a ∧ a ≤ i + jlen - 1) ∧ w1 ≤ b ∧ b ≤ w1 + nu - 1) := hR
      rw [if_neg (by omega)]

theorem Reg.mono {w2 i0 i1 i0' i1' a b : ℤ} (h : Reg hz w1 w2 i0 i1 a b) (h1 : i0' ≤ i0) (h2 : i1 ≤ i1') : Reg hz w1 w2 i0' i1' a b := by
  unfold Reg at *
  split at h
  · rename_i hz'; rw [if_pos hz']; omega
  · rename_i hz'; rw [if_neg hz']; omega

theorem Reg.split {w2 i0 i1 m a b : ℤ} (h : Reg hz w1 w2 i0 i1 a b) (hn : ¬ Reg hz w1 w2 i0 (m - 1) a b) : Reg hz w1 w2 m i1 a b := by
  unfold Reg at *
  split at h
  · rename_i hz'; rw [if_pos hz'] at hn ⊢; omega
  · rename_i hz'; rw [if_neg hz'] at hn ⊢; omega

theorem Reg.disj {w2 i0 i1 m a b : ℤ} (h : Reg hz w1 w2 m i1 a b) (hn : Reg hz w1 w2 i0 (m - 1) a b) : False := by
  unfold Reg at *
  split at h
  · rename_i hz'; rw [if_pos hz'] at hn; omega
  · rename_i hz'; rw [if_neg hz'] at hn; omega

theorem Reg.empty {w2 i0 i1 a b : ℤ} (hlt : i1 < i0) (hn : Reg hz w1 w2 i0 i1 a b) : False := by
  unfold Reg at hn
  split at hn <;> omega

/-- The loop over the blocks. -/
theorem blockLoop {σ : Type} {gx gw : σ → FA XR} {put : σ → FA XR → FA XR → σ} (px : ∀ s x w, gx (put s x w) = x) (pw : ∀ s x w, gw (put s x w) = w)
    (pp : ∀ s x w x' w', put (put s x w) x' w' = put s x' w') (hU : UProd ru cu incol k1 nu rs u ug) (hw1 : w1 = incol + k1) {i0 i1 : ℤ} {d : Nat}
    (d0 : 0 < d) {s0 : σ} (p0 : put s0 (gx s0) (gw s0) = s0) (hx : Is2 (gx s0) r c (r * c) g) (hxs : r * c < 2 ^ 31) (hw : IsMatrix (gw s0) rw' cw)
    (w11 : 1 ≤ w1) (i01 : 1 ≤ i0)
    (hb : if hz then w1 + nu ≤ r + 1 ∧ i1 ≤ c ∧ nu ≤ rw' ∧ d ≤ cw else i1 ≤ r ∧ w1 + nu ≤ c + 1 ∧ d ≤ rw' ∧ nu ≤ cw)
    (hg : ∀ a b, Reg hz w1 (w1 + nu - 1) i0 i1 a b → g a b = fin (M a b)) {f : σ → ℤ → R σ}
    (hf : ∀ s i, s = put s0 (gx s) (gw s) → f s i = (qr5Block hz nu (min (d : ℤ) (i1 - i + 1)) ru r rw' r (if hz then w1 else i) (if hz then i else w1) k1 u (gx s) (gw s) >>=
      fun q => pure (put s q.1 q.2))) :
    Tot (forStep i0 i1 d s0 f) fun s => s = put s0 (gx s) (gw s) ∧ IsMatrix (gw s) rw' cw ∧ ∃ g', Is2 (gx s) r c (r * c) g' ∧
      (∀ a b, Reg hz w1 (w1 + nu - 1) i0 i1 a b → g' a b = fin (Val hz rs M a b)) ∧ ∀ a b, ¬ Reg hz w1 (w1 + nu - 1) i0 i1 a b → g' a b = g a b := by
  refine (Tot.forStep (P := fun i s => s = put s0 (gx s) (gw s) ∧ IsMatrix (gw s) rw' cw ∧ ∃ g', Is2 (gx s) r c (r * c) g' ∧
      (∀ a b, Reg hz w1 (w1 + nu - 1) i0 (min (i - 1) i1) a b → g' a b = fin (Val hz rs M a b)) ∧
      ∀ a b, ¬ Reg hz w1 (w1 + nu - 1) i0 (min (i - 1) i1) a b → g' a b = g a b) d0 ⟨p0.symm, hw, g, hx, ?_, fun _ _ _ => rfl⟩ ?_).mono ?_
  · intro a b hR
    exact (hR.empty (by omega)).elim
  · rintro i s h1 h2 ⟨es, hws, g', hgs, q1, q2⟩
    rw [hf s i es]
    rw [show min (i - 1) i1 = i - 1 by omega] at q1 q2
    obtain ⟨jl, hjl⟩ : ∃ jl : Nat, min (d : ℤ) (i1 - i + 1) = jl := ⟨(min (d : ℤ) (i1 - i + 1)).toNat, by omega⟩
    obtain ⟨x', w', e, m1, g2, m2, m3, m4⟩ := blockStep (hz := hz) (M := M) hU hw1 (jlen := jl) (i := i) hgs hxs hws (by omega) w11 (by omega)
      (by
        split at hb
        · rename_i hz'; rw [if_pos hz']; omega
        · rename_i hz'; rw [if_neg hz']; omega)
      (fun a b hR => by
        rw [q2 a b fun hn => hR.disj hn]
        exact hg a b (hR.mono h1 (by omega)))
    rw [hjl, e, pure_bind]
    refine Tot.pure ⟨by rw [px, pw]; conv_lhs => rw [es, pp], by rw [pw]; exact m1, g2, by rw [px]; exact m2, fun a b hR => ?_, fun a b hR => ?_⟩
    · by_cases hn : Reg hz w1 (w1 + nu - 1) i0 (i - 1) a b
      · rw [m4 a b fun hn' => hn'.disj hn]
        exact q1 a b hn
      · exact m3 a b ((hR.split hn).mono (le_refl _) (by omega))
    · rw [m4 a b fun hn => hR (hn.mono h1 (by omega)), q2 a b fun hn => hR (hn.mono (le_refl _) (by omega))]
  · rintro s ⟨i, hi, hi0, es, hws, g', hgs, q1, q2⟩
    by_cases hc : i1 < i0
    · refine ⟨es, hws, g', hgs, fun a b hR => (hR.empty hc).elim, fun a b hR => q2 a b fun hn => hR (hn.mono (le_refl _) (by omega))⟩
    · rw [show min (i - 1) i1 = i1 by omega] at q1 q2
      exact ⟨es, hws, g', hgs, q1, q2⟩

end

end Verif

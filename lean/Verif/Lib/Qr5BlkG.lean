import Verif.Lib.Qr5Acc

/-!
# The block products of `dlaqr5` over any scalar type
-/

namespace Verif
open Scalar Spec

section
variable {F : Type} [Scalar F]

/-- `y` is what the product with the part of `ug` that begins at `(k1, k1)` and has order `nu` puts at `(a, b)`. -/
def GemmAt (hz : Bool) (nu : Nat) (ug g : ℤ → ℤ → F) (k1 w1 a b : ℤ) (y : F) : Prop :=
  ∃ c, y = gemmEntry (!hz) nu one zero (fun l => if hz then ug (k1 + l) (k1 + (a - w1)) else g a (w1 + l))
    (fun l => if hz then g (w1 + l) b else ug (k1 + l) (k1 + (b - w1))) c

variable {hz : Bool} {u x w : FA F} {ru cu r c rw' cw nu : Nat} {g ug : ℤ → ℤ → F} {k1 w1 : ℤ}

/-- The part of `u` in use. -/
structure UPart (ru cu : Nat) (k1 : ℤ) (nu : Nat) (u : FA F) (ug : ℤ → ℤ → F) : Prop where
  mat : Is2 u ru cu (ru * cu) ug
  small : ru * cu < 2 ^ 31
  k1p : 1 ≤ k1
  rows : k1 + nu ≤ ru + 1
  cols : k1 + nu ≤ cu + 1
  pos : 0 < nu

theorem blockStepG (hU : UPart ru cu k1 nu u ug) {jlen : Nat} {i : ℤ}
    (hx : Is2 x r c (r * c) g) (hxs : r * c < 2 ^ 31) (hw : IsMatrix w rw' cw) (j0 : 0 < jlen) (w11 : 1 ≤ w1) (i1 : 1 ≤ i)
    (hb : if hz then w1 + nu ≤ r + 1 ∧ i + jlen ≤ c + 1 ∧ nu ≤ rw' ∧ jlen ≤ cw else i + jlen ≤ r + 1 ∧ w1 + nu ≤ c + 1 ∧ jlen ≤ rw' ∧ nu ≤ cw) :
    ∃ x' w', qr5Block hz nu jlen ru r rw' r (if hz then w1 else i) (if hz then i else w1) k1 u x w = pure (x', w') ∧ IsMatrix w' rw' cw ∧
      ∃ g', Is2 x' r c (r * c) g' ∧ (∀ a b, Reg hz w1 (w1 + nu - 1) i (i + jlen - 1) a b → GemmAt hz nu ug g k1 w1 a b (g' a b)) ∧
        ∀ a b, ¬ Reg hz w1 (w1 + nu - 1) i (i + jlen - 1) a b → g' a b = g a b := by
  cases hz with
  | true =>
    rw [if_pos rfl] at hb
    obtain ⟨b1, b2, b3, b4⟩ := hb
    obtain ⟨x', w', e, h1, h2⟩ := qr5Block_ok (hz := true) (nu := nu) (jlen := jlen) (m := nu) (n := jlen) (a := w1) (b := i) (k1 := k1) rfl rfl
      hU.mat hU.small hx hxs hw hU.pos j0 hU.k1p hU.rows hU.cols w11 i1 b1 b2 b3 b4
    refine ⟨x', w', e, h1, _, h2, fun a b hR => ?_, fun a b hR => ?_⟩
    · have hR' : (w1 ≤ a ∧ a ≤ w1 + nu - 1) ∧ i ≤ b ∧ b ≤ i + jlen - 1 := hR
      rw [if_pos (by omega)]
      exact ⟨_, rfl⟩
    · have hR' : ¬ ((w1 ≤ a ∧ a ≤ w1 + nu - 1) ∧ i ≤ b ∧ b ≤ i + jlen - 1) := hR
      rw [if_neg (by omega)]
  | false =>
    rw [if_neg (by simp)] at hb
    obtain ⟨b1, b2, b3, b4⟩ := hb
    obtain ⟨x', w', e, h1, h2⟩ := qr5Block_ok (hz := false) (nu := nu) (jlen := jlen) (m := jlen) (n := nu) (a := i) (b := w1) (k1 := k1) rfl rfl
      hU.mat hU.small hx hxs hw hU.pos j0 hU.k1p hU.rows hU.cols i1 w11 b1 b2 b3 b4
    refine ⟨x', w', e, h1, _, h2, fun a b hR => ?_, fun a b hR => ?_⟩
    · have hR' : (i ≤ a ∧ a ≤ i + jlen - 1) ∧ w1 ≤ b ∧ b ≤ w1 + nu - 1 := hR
      rw [if_pos (by omega)]
      exact ⟨_, rfl⟩
    · have hR' : ¬ ((i ≤ a ∧ a ≤ i + jlen - 1) ∧ w1 ≤ b ∧ b ≤ w1 + nu - 1) := hR
      rw [if_neg (by omega)]

theorem GemmAt.congr {g' : ℤ → ℤ → F} {a b : ℤ} {y : F} (h : GemmAt hz nu ug g k1 w1 a b y)
    (e : ∀ l < nu, if hz then g' (w1 + l) b = g (w1 + l) b else g' a (w1 + l) = g a (w1 + l)) : GemmAt hz nu ug g' k1 w1 a b y := by
  obtain ⟨c, rfl⟩ := h
  refine ⟨c, gemmEntry_congr (fun l hl => ?_) fun l hl => ?_⟩
  · have := e l hl
    cases hz
    · simp only [Bool.false_eq_true, if_false] at this ⊢
      exact this.symm
    · rfl
  · have := e l hl
    cases hz
    · rfl
    · simp only [if_true] at this ⊢
      exact this.symm

/-- The loop over the blocks. -/
theorem blockLoopG {σ : Type} {gx gw : σ → FA F} {put : σ → FA F → FA F → σ} (px : ∀ s x w, gx (put s x w) = x) (pw : ∀ s x w, gw (put s x w) = w)
    (pp : ∀ s x w x' w', put (put s x w) x' w' = put s x' w') (hU : UPart ru cu k1 nu u ug) {i0 i1 : ℤ} {d : Nat}
    (d0 : 0 < d) {s0 : σ} (p0 : put s0 (gx s0) (gw s0) = s0) (hx : Is2 (gx s0) r c (r * c) g) (hxs : r * c < 2 ^ 31) (hw : IsMatrix (gw s0) rw' cw)
    (w11 : 1 ≤ w1) (i01 : 1 ≤ i0)
    (hb : if hz then w1 + nu ≤ r + 1 ∧ i1 ≤ c ∧ nu ≤ rw' ∧ d ≤ cw else i1 ≤ r ∧ w1 + nu ≤ c + 1 ∧ d ≤ rw' ∧ nu ≤ cw) {f : σ → ℤ → R σ}
    (hf : ∀ s i, s = put s0 (gx s) (gw s) → f s i = (qr5Block hz nu (min (d : ℤ) (i1 - i + 1)) ru r rw' r (if hz then w1 else i) (if hz then i else w1) k1 u (gx s) (gw s) >>=
      fun q => pure (put s q.1 q.2))) :
    Tot (forStep i0 i1 d s0 f) fun s => s = put s0 (gx s) (gw s) ∧ IsMatrix (gw s) rw' cw ∧ ∃ g', Is2 (gx s) r c (r * c) g' ∧
      (∀ a b, Reg hz w1 (w1 + nu - 1) i0 i1 a b → GemmAt hz nu ug g k1 w1 a b (g' a b)) ∧ ∀ a b, ¬ Reg hz w1 (w1 + nu - 1) i0 i1 a b → g' a b = g a b := by
  refine (Tot.forStep (P := fun i s => s = put s0 (gx s) (gw s) ∧ IsMatrix (gw s) rw' cw ∧ ∃ g', Is2 (gx s) r c (r * c) g' ∧
      (∀ a b, Reg hz w1 (w1 + nu - 1) i0 (min (i - 1) i1) a b → GemmAt hz nu ug g k1 w1 a b (g' a b)) ∧
      ∀ a b, ¬ Reg hz w1 (w1 + nu - 1) i0 (min (i - 1) i1) a b → g' a b = g a b) d0 ⟨p0.symm, hw, g, hx, ?_, fun _ _ _ => rfl⟩ ?_).mono ?_
  · intro a b hR
    exact (hR.empty (by omega)).elim
  · rintro i s h1 h2 ⟨es, hws, g', hgs, q1, q2⟩
    rw [hf s i es]
    rw [show min (i - 1) i1 = i - 1 by omega] at q1 q2
    obtain ⟨jl, hjl⟩ : ∃ jl : Nat, min (d : ℤ) (i1 - i + 1) = jl := ⟨(min (d : ℤ) (i1 - i + 1)).toNat, by omega⟩
    obtain ⟨x', w', e, m1, g2, m2, m3, m4⟩ := blockStepG (hz := hz) (w1 := w1) hU (jlen := jl) (i := i) hgs hxs hws (by omega) w11 (by omega)
      (by
        split at hb
        · rename_i hz'; rw [if_pos hz']; omega
        · rename_i hz'; rw [if_neg hz']; omega)
    rw [hjl, e, pure_bind]
    refine Tot.pure ⟨by rw [px, pw]; conv_lhs => rw [es, pp], by rw [pw]; exact m1, g2, by rw [px]; exact m2, fun a b hR => ?_, fun a b hR => ?_⟩
    · by_cases hn : Reg hz w1 (w1 + nu - 1) i0 (i - 1) a b
      · rw [m4 a b fun hn' => hn'.disj hn]
        exact q1 a b hn
      · have hR2 := (hR.split hn).mono (le_refl _) (show min (i + (d : ℤ) - 1) i1 ≤ i + (jl : ℤ) - 1 by omega)
        refine (m3 a b hR2).congr fun l hl => ?_
        cases hz
        · rw [if_neg (by simp)]
          refine (q2 _ _ fun hn' => ?_).symm
          unfold Reg at hn' hR2
          simp only [Bool.false_eq_true, if_false] at hn' hR2
          omega
        · rw [if_pos rfl]
          refine (q2 _ _ fun hn' => ?_).symm
          unfold Reg at hn' hR2
          simp only [if_true] at hn' hR2
          omega
    · rw [m4 a b fun hn => hR (hn.mono h1 (by omega)), q2 a b fun hn => hR (hn.mono (le_refl _) (by omega))]
  · rintro s ⟨i, hi, hi0, es, hws, g', hgs, q1, q2⟩
    by_cases hc : i1 < i0
    · refine ⟨es, hws, g', hgs, fun a b hR => (hR.empty hc).elim, fun a b hR => q2 a b fun hn => hR (hn.mono (le_refl _) (by omega))⟩
    · rw [show min (i - 1) i1 = i1 by omega] at q1 q2
      exact ⟨es, hws, g', hgs, q1, q2⟩

end

end Verif

import Verif.Props.Nrm2F64

/-!
# C17: `dnrm2` of vectors with infinite elements
-/

namespace Verif
open Float.Model Float.Model.UnpackedFloat F64 Scalar Spec

namespace F64

/-- Plus infinity, or finite and not negative. -/
def NN (a : Float) : Prop := up a = .infinity .positive ∨ (a.isFinite = true ∧ 0 ≤ toR a)

theorem NN.of_rounds {X : ℝ} {f : Float} (h : Rounds X f) (hX : 0 ≤ X) : NN f := by
  rcases h.cases with hc | hc | hc
  · refine Or.inr ⟨hc.1, ?_⟩
    exact hc.2.lower 0 (by have := grid_toR 0; rwa [show toR 0 = 0 from rfl] at this) hX
  · exact Or.inl hc.1
  · exact absurd (hX.trans hc.2) (not_le.2 (neg_lt_zero.2 (zero_lt_one.trans one_lt_ovf)))

theorem fin_up_cases {a : Float} (h : a.isFinite = true) : (∃ s, up a = .zero s) ∨ ∃ s m e hm, up a = .finite s m e hm := by
  rw [isFinite_up] at h
  cases hu : up a with
  | zero s => exact Or.inl ⟨s, rfl⟩
  | finite s m e hm => exact Or.inr ⟨s, m, e, hm, rfl⟩
  | infinity s => rw [hu] at h; cases h
  | notANumber => rw [hu] at h; cases h

theorem inf_add {a b : Float} (ha : up a = .infinity .positive) (hb : NN b) : up (a + b) = .infinity .positive := by
  rcases hb with hb | hb
  · exact up_add_of ha hb rfl trivial
  · rcases fin_up_cases hb.1 with ⟨s, e⟩ | ⟨s, m, x, hm, e⟩
    · exact up_add_of ha e rfl trivial
    · exact up_add_of ha e rfl trivial

theorem add_inf {a b : Float} (hb : up b = .infinity .positive) (ha : NN a) : up (a + b) = .infinity .positive := by
  rcases ha with ha | ha
  · exact up_add_of ha hb rfl trivial
  · rcases fin_up_cases ha.1 with ⟨s, e⟩ | ⟨s, m, x, hm, e⟩
    · exact up_add_of e hb rfl trivial
    · exact up_add_of e hb rfl trivial

theorem NN.add {a b : Float} (ha : NN a) (hb : NN b) : NN (a + b) := by
  rcases ha with ha | ha
  · exact Or.inl (inf_add ha hb)
  · rcases hb with hb | hb
    · exact Or.inl (add_inf hb (Or.inr ha))
    · exact NN.of_rounds (add_rounds a b ha.1 hb.1) (add_nonneg ha.2 hb.2)

/-- A positive finite factor. -/
theorem NN.mul_pos {a b : Float} {m : Nat} {x : Int} {hm} (ha : NN a) (hb : up b = .finite .positive m x hm) : NN (a * b) := by
  obtain ⟨h1, h2⟩ := toR_of hb
  rcases ha with ha | ha
  · exact Or.inl (up_mul_of ha hb rfl trivial)
  · refine NN.of_rounds (mul_rounds a b ha.1 h1) (mul_nonneg ha.2 ?_)
    rw [h2]
    simp only [sgnR]
    positivity

theorem NN.sq {a : Float} (ha : NN a) : NN (a * a) := by
  rcases ha with ha | ha
  · exact Or.inl (up_mul_of ha ha rfl trivial)
  · exact NN.of_rounds (mul_rounds a a ha.1 ha.1) (mul_nonneg ha.2 ha.2)

theorem NN.abs {x : Float} (h : x.isNaN = false) : NN x.abs := by
  unfold NN
  rw [isNaN_up] at h
  cases hu : up x with
  | zero s => exact Or.inr ⟨by rw [isFinite_up, up_abs', hu]; rfl, by rw [abs_toR]; exact abs_nonneg _⟩
  | finite s m e hm => exact Or.inr ⟨by rw [isFinite_up, up_abs', hu]; rfl, by rw [abs_toR]; exact abs_nonneg _⟩
  | infinity s => exact Or.inl (by rw [up_abs', hu]; rfl)
  | notANumber => rw [hu] at h; cases h

theorem up_sbig : up (sbig : Float) = .finite .positive (2 ^ 52) (-571) (by norm_num) := by rw [sbig_bits]; rfl

/-- No accumulator is NaN or negative. -/
def Nrm2.Good (s : Nrm2 Float) : Prop := NN s.amed ∧ NN s.abig

theorem nrm2Acc_good {s : Nrm2 Float} {x : Float} (hs : Nrm2.Good s) (hx : x.isNaN = false) : Nrm2.Good (nrm2Acc s x) := by
  rw [nrm2Acc_def]
  split
  · exact ⟨hs.1, hs.2.add ((NN.abs hx).mul_pos up_sbig).sq⟩
  · split
    · split
      · exact hs
      · exact hs
    · exact ⟨hs.1.add (NN.abs hx).sq, hs.2⟩

theorem nrm2Acc_inf_elem {s : Nrm2 Float} {x : Float} (hs : Nrm2.Good s) (hx : x.isInf = true) : up (nrm2Acc s x).abig = .infinity .positive := by
  have ha : up x.abs = .infinity .positive := by
    rw [up_abs']
    rw [isInf_up] at hx
    cases hu : up x <;> rw [hu] at hx <;> first | rfl | (revert hx; simp [UnpackedFloat.isInf])
  have hl : Float.lt tbig x.abs = true := by
    rw [lt_toXR, toXR_fin toR_tbig.1, show toXR x.abs = .pinf by unfold toXR; rw [ha]; rfl]
    rfl
  have hm : up (x.abs * sbig) = .infinity .positive := up_mul_of ha up_sbig rfl trivial
  rw [nrm2Acc_def, if_pos hl]
  exact add_inf (up_mul_of hm hm rfl trivial) hs.2

theorem nrm2Acc_inf_abig {s : Nrm2 Float} {x : Float} (hx : x.isNaN = false) (h : up s.abig = .infinity .positive) : up (nrm2Acc s x).abig = .infinity .positive := by
  rw [nrm2Acc_def]
  split
  · exact inf_add h ((NN.abs hx).mul_pos up_sbig).sq
  · split
    · split <;> exact h
    · exact h

theorem nrm2_fold_good {l : List Float} {s : Nrm2 Float} (hs : Nrm2.Good s) (hn : ∀ e ∈ l, e.isNaN = false) : Nrm2.Good (l.foldl nrm2Acc s) := by
  induction l generalizing s with
  | nil => exact hs
  | cons x l ih =>
    rw [List.foldl_cons]
    exact ih (nrm2Acc_good hs (hn x List.mem_cons_self)) fun e he => hn e (List.mem_cons_of_mem _ he)

theorem nrm2_fold_abig {l : List Float} {s : Nrm2 Float} (hn : ∀ e ∈ l, e.isNaN = false) (h : up s.abig = .infinity .positive) :
    up (l.foldl nrm2Acc s).abig = .infinity .positive := by
  induction l generalizing s with
  | nil => exact h
  | cons x l ih =>
    rw [List.foldl_cons]
    exact ih (fun e he => hn e (List.mem_cons_of_mem _ he)) (nrm2Acc_inf_abig (hn x List.mem_cons_self) h)

theorem nrm2_fold_inf {l : List Float} {s : Nrm2 Float} (hs : Nrm2.Good s) (hn : ∀ e ∈ l, e.isNaN = false) (h : ∃ e ∈ l, e.isInf = true) :
    up (l.foldl nrm2Acc s).abig = .infinity .positive := by
  induction l generalizing s with
  | nil => obtain ⟨e, he, -⟩ := h; cases he
  | cons x l ih =>
    rw [List.foldl_cons]
    obtain ⟨e, he, hi⟩ := h
    rcases List.mem_cons.1 he with rfl | he
    · exact nrm2_fold_abig (fun e he => hn e (List.mem_cons_of_mem _ he)) (nrm2Acc_inf_elem hs hi)
    · exact ih (nrm2Acc_good hs (hn x List.mem_cons_self)) (fun e he => hn e (List.mem_cons_of_mem _ he)) ⟨e, he, hi⟩

theorem nrm2Final_inf {s : Nrm2 Float} (hs : Nrm2.Good s) (h : up s.abig = .infinity .positive) : nrm2Final s = 1 / 0 := by
  have hl : Float.lt 0 s.abig = true := by
    rw [lt_toXR, show toXR s.abig = .pinf by unfold toXR; rw [h]; rfl]
    rfl
  have hi : up (if medBad s.amed = true then s.abig + (s.amed * sbig) * sbig else s.abig) = .infinity .positive := by
    split
    · exact inf_add h ((hs.1.mul_pos up_sbig).mul_pos up_sbig)
    · exact h
  rw [nrm2Final_def, if_pos hl]
  generalize (if medBad s.amed = true then s.abig + (s.amed * sbig) * sbig else s.abig) = y at hi
  have hq : up (Float.sqrt y) = .infinity .positive := by rw [up_sqrt, hi]; rfl
  have h1 : up (1 / (sbig : Float)) = .finite .positive (2 ^ 52) 467 (by norm_num) := by
    rw [show (1 / (sbig : Float)) = Float.ofBits 0x6060000000000000 by decide +kernel]; rfl
  apply up_inj
  rw [up_mul_of h1 hq rfl trivial]
  rfl

end F64

/-- **C17.** An infinite element, of either sign, makes the result plus infinity unless some element is `NaN`. -/
theorem C17_dnrm2_inf (n : Nat) (x : List Float) (incx : Int) (hn : 0 < n) (h : StrideOK n incx)
    (hl : x.length < 2 ^ 62) (hi : ∃ e ∈ strided n incx x, e.isInf = true) (hN : ∀ e ∈ strided n incx x, e.isNaN = false) :
    dnrm2 (F := Float) (n : Int) x incx = pure (1 / 0) := by
  unfold dnrm2
  rw [dnrm2FA_fold hn h _ hl]
  have g0 : F64.Nrm2.Good ⟨true, Scalar.zero, Scalar.zero, Scalar.zero⟩ := ⟨Or.inr ⟨rfl, le_of_eq (by rfl)⟩, Or.inr ⟨rfl, le_of_eq (by rfl)⟩⟩
  congr 1
  exact nrm2Final_inf (nrm2_fold_good g0 hN) (nrm2_fold_inf g0 hN hi)

/-- The hypotheses hold for the vector `[-∞, 1, x, x]` with increment `1`, `n = 2`, whatever `x` is. -/
theorem C17_inf_example (x : Float) : dnrm2 (F := Float) 2 ([-1 / 0, 1, x, x] : List Float) 1 = pure (1 / 0) := by
  have e : strided 2 1 ([-1 / 0, 1, x, x] : List Float) = [-1 / 0, 1] := rfl
  refine C17_dnrm2_inf 2 _ 1 (by norm_num) ?_ (by simp) ⟨-1 / 0, by rw [e]; exact List.mem_cons_self, by decide +kernel⟩ fun a ha => ?_
  · unfold StrideOK; norm_num
  · rw [e] at ha
    simp only [List.mem_cons, List.not_mem_nil, or_false] at ha
    rcases ha with rfl | rfl <;> decide +kernel

end Verif

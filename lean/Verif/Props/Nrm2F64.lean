import Verif.Props.Lapy2F64
import Verif.Props.Nrm2

/-!
# C17, C18: `dnrm2` on binary64, special values and premature overflow
-/

namespace Verif
open Float.Model Float.Model.UnpackedFloat F64 Scalar Spec

namespace F64

theorem tbig_bits : (tbig : Float) = Float.ofBits 0x5F80000000000000 := by decide +kernel
theorem tsml_bits : (tsml : Float) = Float.ofBits 0x2000000000000000 := by decide +kernel
theorem ssml_bits : (ssml : Float) = Float.ofBits 0x6050000000000000 := by decide +kernel
theorem sbig_bits : (sbig : Float) = Float.ofBits 0x1F80000000000000 := by decide +kernel

theorem pow52_mul (e : Int) : ((2 ^ 52 : Nat) : ℝ) * (2 : ℝ) ^ e = 2 ^ (e + 52) := by
  rw [zpow_add₀ (by norm_num)]; push_cast; norm_num; ring

theorem toR_tbig : (tbig : Float).isFinite = true ∧ toR tbig = 2 ^ (505 : Int) := by
  obtain ⟨h1, h2⟩ := toR_of (x := tbig) (show up (tbig : Float) = .finite .positive (2 ^ 52) 453 (by norm_num) by
    rw [tbig_bits]; rfl)
  refine ⟨h1, ?_⟩
  rw [h2, pow52_mul]; simp [sgnR]
theorem toR_tsml : (tsml : Float).isFinite = true ∧ toR tsml = 2 ^ (-511 : Int) := by
  obtain ⟨h1, h2⟩ := toR_of (x := tsml) (show up (tsml : Float) = .finite .positive (2 ^ 52) (-563) (by norm_num) by
    rw [tsml_bits]; rfl)
  refine ⟨h1, ?_⟩
  rw [h2, pow52_mul]; simp [sgnR]
theorem toR_ssml : (ssml : Float).isFinite = true ∧ toR ssml = 2 ^ (518 : Int) := by
  obtain ⟨h1, h2⟩ := toR_of (x := ssml) (show up (ssml : Float) = .finite .positive (2 ^ 52) 466 (by norm_num) by
    rw [ssml_bits]; rfl)
  refine ⟨h1, ?_⟩
  rw [h2, pow52_mul]; simp [sgnR]
theorem toR_sbig : (sbig : Float).isFinite = true ∧ toR sbig = 2 ^ (-519 : Int) := by
  obtain ⟨h1, h2⟩ := toR_of (x := sbig) (show up (sbig : Float) = .finite .positive (2 ^ 52) (-571) (by norm_num) by
    rw [sbig_bits]; rfl)
  refine ⟨h1, ?_⟩
  rw [h2, pow52_mul]; simp [sgnR]

theorem powf_two (x : Float) : Scalar.powf x Scalar.two = x * x := by
  show F64.powf x _ = _
  unfold F64.powf
  rw [if_pos (by decide +kernel)]

/-- `nrm2Acc` on binary64. -/
theorem nrm2Acc_def (s : Nrm2 Float) (x : Float) : nrm2Acc s x =
    if Float.lt tbig x.abs then { s with abig := s.abig + (x.abs * sbig) * (x.abs * sbig), notbig := false }
    else if Float.lt x.abs tsml then
      if s.notbig then { s with asml := s.asml + (x.abs * ssml) * (x.abs * ssml) } else s
    else { s with amed := s.amed + x.abs * x.abs } := by
  unfold nrm2Acc
  simp only [powf_two]
  rfl

/-- "amed is non-zero (or NaN)" in the final combination. -/
def medBad (m : Float) : Bool := Float.lt 0 m || Float.lt Scalar.maxValue m || !(Float.beq m m)

theorem nrm2Final_def (s : Nrm2 Float) : nrm2Final s =
    if Float.lt 0 s.abig then
      (1 / sbig) * Float.sqrt (if medBad s.amed then s.abig + (s.amed * sbig) * sbig else s.abig)
    else if Float.lt 0 s.asml then
      if medBad s.amed then
        let y := if Float.lt (Float.sqrt s.amed) (Float.sqrt s.asml / ssml) then
          (Float.sqrt s.amed, Float.sqrt s.asml / ssml) else (Float.sqrt s.asml / ssml, Float.sqrt s.amed)
        1 * Float.sqrt ((y.2 * y.2) * (1 + (y.1 / y.2) * (y.1 / y.2)))
      else (1 / ssml) * Float.sqrt s.asml
    else 1 * Float.sqrt s.amed := by
  have hz : (Scalar.zero : Float) = 0 := rfl
  have ho : (Scalar.one : Float) = 1 := rfl
  unfold nrm2Final
  simp only [powf_two]
  show _ = if Float.lt 0 s.abig = true then _ else _
  by_cases h1 : Float.lt 0 s.abig = true
  · rw [if_pos h1]
    rw [if_pos (show Scalar.lt Scalar.zero s.abig = true from h1)]
    rfl
  · rw [if_neg h1]
    rw [if_neg (show ¬ (Scalar.lt Scalar.zero s.abig = true) from h1)]
    by_cases h2 : Float.lt 0 s.asml = true
    · rw [if_pos h2]
      rw [if_pos (show Scalar.lt Scalar.zero s.asml = true from h2)]
      by_cases h3 : medBad s.amed = true
      · rw [if_pos h3]
        have h3' : ((Scalar.lt Scalar.zero s.amed) || (Scalar.lt Scalar.maxValue s.amed) || !(Scalar.beq s.amed s.amed)) = true := h3
        rw [if_pos h3']
        rfl
      · rw [if_neg h3]
        have h3' : ¬ ((Scalar.lt Scalar.zero s.amed) || (Scalar.lt Scalar.maxValue s.amed) || !(Scalar.beq s.amed s.amed)) = true := h3
        rw [if_neg h3']
        rfl
    · rw [if_neg h2]
      rw [if_neg (show ¬ (Scalar.lt Scalar.zero s.asml = true) from h2)]
      rfl

/-! ### NaN -/

theorem nan_add {x : Float} (y : Float) (h : x.isNaN = true) : (x + y).isNaN = true := by
  rw [isNaN_up] at h ⊢
  rw [up_add]
  cases hu : up x <;> rw [hu] at h <;> first | (revert h; simp [UnpackedFloat.isNaN]; done) | skip
  have : UnpackedFloat.add Format.binary64 .notANumber (up y) = .notANumber := by cases up y <;> rfl
  rw [this, fix_nan]; rfl
theorem add_nan (x : Float) {y : Float} (h : y.isNaN = true) : (x + y).isNaN = true := by
  rw [isNaN_up] at h ⊢
  rw [up_add]
  cases hu : up y <;> rw [hu] at h <;> first | (revert h; simp [UnpackedFloat.isNaN]; done) | skip
  have : UnpackedFloat.add Format.binary64 (up x) .notANumber = .notANumber := by cases up x <;> rfl
  rw [this, fix_nan]; rfl
theorem nan_mul {x : Float} (y : Float) (h : x.isNaN = true) : (x * y).isNaN = true := by
  rw [isNaN_up] at h ⊢
  rw [up_mul]
  cases hu : up x <;> rw [hu] at h <;> first | (revert h; simp [UnpackedFloat.isNaN]; done) | skip
  have : UnpackedFloat.mul Format.binary64 .notANumber (up y) = .notANumber := by cases up y <;> rfl
  rw [this, fix_nan]; rfl
theorem mul_nan (x : Float) {y : Float} (h : y.isNaN = true) : (x * y).isNaN = true := by
  rw [isNaN_up] at h ⊢
  rw [up_mul]
  cases hu : up y <;> rw [hu] at h <;> first | (revert h; simp [UnpackedFloat.isNaN]; done) | skip
  have : UnpackedFloat.mul Format.binary64 (up x) .notANumber = .notANumber := by cases up x <;> rfl
  rw [this, fix_nan]; rfl
theorem nan_div {x : Float} (y : Float) (h : x.isNaN = true) : (x / y).isNaN = true := by
  rw [isNaN_up] at h ⊢
  rw [up_div]
  cases hu : up x <;> rw [hu] at h <;> first | (revert h; simp [UnpackedFloat.isNaN]; done) | skip
  have : UnpackedFloat.div Format.binary64 .notANumber (up y) = .notANumber := by cases up y <;> rfl
  rw [this, fix_nan]; rfl
theorem div_nan (x : Float) {y : Float} (h : y.isNaN = true) : (x / y).isNaN = true := by
  rw [isNaN_up] at h ⊢
  rw [up_div]
  cases hu : up y <;> rw [hu] at h <;> first | (revert h; simp [UnpackedFloat.isNaN]; done) | skip
  have : UnpackedFloat.div Format.binary64 (up x) .notANumber = .notANumber := by cases up x <;> rfl
  rw [this, fix_nan]; rfl
theorem sqrt_nan {x : Float} (h : x.isNaN = true) : x.sqrt.isNaN = true := by
  rw [isNaN_up] at h ⊢
  rw [up_sqrt]
  cases hu : up x <;> rw [hu] at h <;> first | (revert h; simp [UnpackedFloat.isNaN]; done) | skip
  rw [show UnpackedFloat.sqrt Format.binary64 .notANumber = .notANumber from rfl, fix_nan]; rfl
theorem lt_nan (x : Float) {y : Float} (h : y.isNaN = true) : Float.lt x y = false := by
  rw [lt_toXR]
  rw [isNaN_toXR] at h
  cases hy : toXR y <;> rw [hy] at h <;> first | (revert h; simp [XR.isNaN]; done) | skip
  cases toXR x <;> rfl
theorem nan_lt {x : Float} (y : Float) (h : x.isNaN = true) : Float.lt x y = false := by
  rw [lt_toXR]
  rw [isNaN_toXR] at h
  cases hy : toXR x <;> rw [hy] at h <;> first | (revert h; simp [XR.isNaN]; done) | skip
  cases toXR y <;> rfl
theorem nan_beq {x : Float} (y : Float) (h : x.isNaN = true) : Float.beq x y = false := by
  rw [beq_toXR]
  rw [isNaN_toXR] at h
  cases hy : toXR x <;> rw [hy] at h <;> first | (revert h; simp [XR.isNaN]; done) | skip
  cases toXR y <;> rfl

theorem nrm2Acc_nan_elem (s : Nrm2 Float) {x : Float} (h : x.isNaN = true) :
    (nrm2Acc s x).amed.isNaN = true := by
  have ha : x.abs.isNaN = true := by rw [isNaN_abs]; exact h
  rw [nrm2Acc_def, lt_nan _ ha, nan_lt _ ha, if_neg Bool.false_ne_true, if_neg Bool.false_ne_true]
  exact add_nan _ (nan_mul _ ha)

theorem nrm2Acc_nan_amed {s : Nrm2 Float} (x : Float) (h : s.amed.isNaN = true) :
    (nrm2Acc s x).amed.isNaN = true := by
  rw [nrm2Acc_def]
  split
  · exact h
  · split
    · split <;> exact h
    · exact nan_add _ h

theorem nrm2_fold_amed {l : List Float} {s : Nrm2 Float} (h : s.amed.isNaN = true) :
    (l.foldl nrm2Acc s).amed.isNaN = true := by
  induction l generalizing s with
  | nil => exact h
  | cons x l ih =>
    rw [List.foldl_cons]
    exact ih (nrm2Acc_nan_amed x h)

theorem nrm2_fold_nan {l : List Float} {s : Nrm2 Float} (h : ∃ x ∈ l, x.isNaN = true) :
    (l.foldl nrm2Acc s).amed.isNaN = true := by
  induction l generalizing s with
  | nil => simp at h
  | cons x l ih =>
    rw [List.foldl_cons]
    by_cases hx : x.isNaN = true
    · exact nrm2_fold_amed (nrm2Acc_nan_elem s hx)
    · apply ih
      obtain ⟨y, hy, hn⟩ := h
      rcases List.mem_cons.1 hy with rfl | hy
      · exact absurd hn hx
      · exact ⟨y, hy, hn⟩

theorem nrm2Final_nan {s : Nrm2 Float} (h : s.amed.isNaN = true) : (nrm2Final s).isNaN = true := by
  have hb : medBad s.amed = true := by
    unfold medBad
    rw [nan_beq _ h]; simp
  rw [nrm2Final_def]
  simp only [hb, if_true]
  split
  · exact mul_nan _ (sqrt_nan (add_nan _ (nan_mul _ (nan_mul _ h))))
  · split
    · rw [nan_lt _ (sqrt_nan h)]
      exact mul_nan _ (sqrt_nan (nan_mul _ (nan_mul _ (sqrt_nan h))))
    · exact mul_nan _ (sqrt_nan h)

/-! ### Zero vectors -/

theorem nrm2Acc_zero {s : Nrm2 Float} {x : Float} {t} (h : up x = .zero t) (hs : up s.asml = .zero .positive) :
    up (nrm2Acc s x).asml = .zero .positive ∧ (nrm2Acc s x).amed = s.amed ∧ (nrm2Acc s x).abig = s.abig := by
  have hx : toXR x.abs = .fin 0 := by unfold toXR; rw [up_abs', h]; rfl
  have h1 : Float.lt tbig x.abs = false := by
    rw [lt_toXR, hx, toXR_fin toR_tbig.1, toR_tbig.2]
    have := zp 505
    simp only [XR.lt, decide_eq_false_iff_not]
    exact not_lt.2 this.le
  have h2 : Float.lt x.abs tsml = true := by
    rw [lt_toXR, hx, toXR_fin toR_tsml.1, toR_tsml.2]
    have := zp (-511)
    simp only [XR.lt, decide_eq_true_eq]
    exact this
  rw [nrm2Acc_def, h1, h2, if_neg Bool.false_ne_true]
  rw [if_pos rfl]
  split
  · refine ⟨?_, rfl, rfl⟩
    have hm : up (x.abs * ssml) = .zero .positive := by
      have hss : up (ssml : Float) = .finite .positive (2 ^ 52) 466 (by norm_num) := by rw [ssml_bits]; rfl
      exact up_mul_of (u := .zero .positive) (by rw [up_abs', h]; rfl) hss rfl trivial
    exact up_add_of hs (up_mul_of hm hm rfl trivial) rfl trivial
  · exact ⟨hs, rfl, rfl⟩

theorem nrm2_fold_zero {l : List Float} (h : ∀ x ∈ l, ∃ t, up x = .zero t) {s : Nrm2 Float}
    (hs : up s.asml = .zero .positive) :
    up (l.foldl nrm2Acc s).asml = .zero .positive ∧ (l.foldl nrm2Acc s).amed = s.amed ∧
      (l.foldl nrm2Acc s).abig = s.abig := by
  induction l generalizing s with
  | nil => exact ⟨hs, rfl, rfl⟩
  | cons x l ih =>
    obtain ⟨t, ht⟩ := h x List.mem_cons_self
    rw [List.foldl_cons]
    obtain ⟨h1, h2, h3⟩ := nrm2Acc_zero ht hs
    obtain ⟨g1, g2, g3⟩ := ih (fun y hy => h y (List.mem_cons_of_mem _ hy)) h1
    exact ⟨g1, g2.trans h2, g3.trans h3⟩

theorem zero_of_beq {x : Float} (h : Float.beq x 0 = true) : ∃ t, up x = .zero t := by
  rw [beq_toXR, show toXR 0 = .fin 0 from rfl] at h
  cases hx : toXR x with
  | fin r =>
    rw [hx] at h
    obtain ⟨h1, h2⟩ := fin_toXR hx
    apply toR_eq_zero h1
    rw [h2]; simpa [XR.beq] using h
  | _ => rw [hx] at h; cases h

end F64

/-- **C17.** `dnrm2` of `n ≤ 0` elements is `0`. -/
theorem C17_dnrm2_empty {X : Type} [ToFA Float X] (n : Int) (hn : n ≤ 0) (x : X) (incx : Int) :
    dnrm2 (F := Float) n x incx = pure 0 := by
  unfold dnrm2 dnrm2FA
  rw [if_pos hn]; rfl

/-- **C17.** `dnrm2` of zeros (of either sign) is `+0`. -/
theorem C17_dnrm2_zero (n : Nat) (x : List Float) (incx : Int) (hn : 0 < n) (h : StrideOK n incx)
    (hl : x.length < 2 ^ 62) (hz : ∀ e ∈ strided n incx x, Float.beq e 0 = true) :
    dnrm2 (F := Float) (n : Int) x incx = pure 0 := by
  unfold dnrm2
  rw [dnrm2FA_fold hn h _ hl]
  obtain ⟨h1, h2, h3⟩ := nrm2_fold_zero (s := ⟨true, Scalar.zero, Scalar.zero, Scalar.zero⟩) (l := strided n incx x)
    (fun e he => zero_of_beq (hz e he)) rfl
  have h1' : List.foldl nrm2Acc ⟨true, Scalar.zero, Scalar.zero, Scalar.zero⟩ (strided n incx (ToFA.toFa (F := Float) x).data) =
    List.foldl nrm2Acc ⟨true, Scalar.zero, Scalar.zero, Scalar.zero⟩ (strided n incx x) := rfl
  rw [h1']
  generalize List.foldl nrm2Acc ⟨true, Scalar.zero, Scalar.zero, Scalar.zero⟩ (strided n incx x) = s at *
  obtain ⟨nb, sm, md, bg⟩ := s
  simp only at h1 h2 h3
  subst h2 h3
  have : sm = 0 := up_inj h1
  subst this
  have hz0 : Float.lt 0 (Scalar.zero : Float) = false := by decide +kernel
  have hz1 : Float.lt 0 (0 : Float) = false := by decide +kernel
  have hz2 : 1 * Float.sqrt (Scalar.zero : Float) = 0 := by decide +kernel
  rw [nrm2Final_def]
  simp only [hz0, hz1, hz2]
  rfl

/-- **C17.** A `NaN` among the elements makes the result `NaN`. -/
theorem C17_dnrm2_nan (n : Nat) (x : List Float) (incx : Int) (hn : 0 < n) (h : StrideOK n incx)
    (hl : x.length < 2 ^ 62) (hz : ∃ e ∈ strided n incx x, e.isNaN = true) :
    ∃ r, dnrm2 (F := Float) (n : Int) x incx = pure r ∧ r.isNaN = true := by
  unfold dnrm2
  rw [dnrm2FA_fold hn h _ hl]
  exact ⟨_, rfl, nrm2Final_nan (nrm2_fold_nan hz)⟩

namespace F64

/-- Numbers of magnitude `2^1024` or more round to infinity. -/
theorem Rounds.inf {X : ℝ} {f : Float} (h : Rounds X f) (hX : 2 ^ (1024 : Int) ≤ X) :
    up f = .infinity .positive := by
  have ho : ovf < 2 ^ (1024 : Int) := by
    rw [ovf, show (1024 : Int) = 53 + 971 by norm_num, zpow_add₀ (by norm_num)]
    rw [show (2 : ℝ) ^ (971 : Int) = 2 ^ 971 from zpn 971]
    apply mul_lt_mul_of_pos_right _ (by positivity)
    norm_num
  rcases h.cases with hc | hc | hc
  · have h1 := hc.2.lower (2 ^ (1024 : Int)) (grid_pow _ (by norm_num)) hX
    have h2 := abs_toR_lt f
    have h3 := le_abs_self (toR f)
    exact absurd (h1.trans (h3.trans h2.le)) (not_le.2 ho)
  · exact hc.1
  · have h2 := hc.2
    have h3 := one_lt_ovf
    have h4 : -ovf < 0 := neg_lt_zero.2 (zero_lt_one.trans h3)
    exact absurd (hX.trans h2) (not_le.2 (h4.trans (zp 1024)))

theorem lt_ovf_of {k : Nat} (hk : k < 2 ^ 14) : (k : ℝ) * 2 ^ (1010 : Int) < ovf := by
  have : (k : ℝ) * 2 ^ (1010 : Int) = ((k * 2 ^ 39 : Nat) : ℝ) * 2 ^ (971 : Int) := by
    push_cast
    rw [mul_assoc, show (1010 : Int) = 39 + 971 by norm_num, zpow_add₀ (by norm_num)]
    norm_num
  rw [this]
  exact val_lt_ovf (by omega) le_rfl

/-- State after `k` elements of magnitude `2^505`. -/
def BigMed (k : Nat) (s : Nrm2 Float) : Prop :=
  s.asml = 0 ∧ s.abig = 0 ∧
  ((k < 2 ^ 14 ∧ s.amed.isFinite = true ∧ toR s.amed = k * 2 ^ (1010 : Int)) ∨
    (2 ^ 14 ≤ k ∧ up s.amed = .infinity .positive))

theorem bigMed_step {k : Nat} {s : Nrm2 Float} (h : BigMed k s) {x : Float} (hx : x.isFinite = true)
    (hv : toR x = 2 ^ (505 : Int)) : BigMed (k + 1) (nrm2Acc s x) := by
  obtain ⟨h1, h2, h3⟩ := h
  have hax : x.abs.isFinite = true := by rw [abs_finite]; exact hx
  have hav : toR x.abs = 2 ^ (505 : Int) := by rw [abs_toR, hv, abs_of_pos (zp _)]
  have l1 : Float.lt tbig x.abs = false := by
    rw [lt_toXR, toXR_fin hax, toXR_fin toR_tbig.1, toR_tbig.2, hav]
    simp [XR.lt]
  have l2 : Float.lt x.abs tsml = false := by
    rw [lt_toXR, toXR_fin hax, toXR_fin toR_tsml.1, toR_tsml.2, hav]
    simp only [XR.lt, decide_eq_false_iff_not, not_lt]
    exact zpow_le_zpow_right₀ (by norm_num) (by norm_num)
  rw [nrm2Acc_def, l1, l2, if_neg Bool.false_ne_true, if_neg Bool.false_ne_true]
  refine ⟨h1, h2, ?_⟩
  simp only
  have sq : (2 : ℝ) ^ (505 : Int) * 2 ^ (505 : Int) = 2 ^ (1010 : Int) := by
    rw [← zpow_add₀ (by norm_num)]; norm_num
  have hm := mul_rounds _ _ hax hax
  rw [hav, sq] at hm
  have hm1 := hm.exact (by
    rw [abs_of_pos (zp _)]; simpa using lt_ovf_of (k := 1) (by norm_num)) (grid_pow _ (by norm_num))
  have hk : ∀ k : Nat, ((k : ℝ) + 1) * 2 ^ (1010 : Int) = (k : ℝ) * 2 ^ (1010 : Int) + 2 ^ (1010 : Int) := fun k => by ring
  rcases h3 with ⟨g1, g2, g3⟩ | ⟨g1, g2⟩
  · have ha := add_rounds _ _ g2 hm1.1
    rw [g3, hm1.2, ← hk] at ha
    by_cases hc : k + 1 < 2 ^ 14
    · left
      have := ha.exact (by
        rw [abs_of_nonneg (mul_nonneg (by positivity) (zp _).le)]
        exact_mod_cast lt_ovf_of hc) ⟨k + 1, 1010, by omega, by norm_num, by
          rw [abs_of_nonneg (mul_nonneg (by positivity) (zp _).le)]; push_cast; rfl⟩
      refine ⟨hc, this.1, ?_⟩
      rw [this.2]; push_cast; rfl
    · right
      refine ⟨by omega, ha.inf ?_⟩
      have hk14 : k + 1 = 2 ^ 14 := by omega
      have : ((k : ℝ) + 1) = 2 ^ (14 : Int) := by
        have : ((k + 1 : Nat) : ℝ) = ((2 ^ 14 : Nat) : ℝ) := by rw [hk14]
        push_cast at this; rw [this]; norm_num
      rw [this, ← zpow_add₀ (by norm_num)]
      norm_num
  · right
    refine ⟨by omega, ?_⟩
    have hfin := hm1.1
    rw [isFinite_up] at hfin
    cases hu : up (x.abs * x.abs) with
    | notANumber => rw [hu] at hfin; exact absurd hfin (by decide)
    | infinity s => rw [hu] at hfin; exact absurd hfin (by simp [UnpackedFloat.isFinite])
    | zero s => exact up_add_of g2 hu rfl trivial
    | finite s m e h => exact up_add_of g2 hu rfl trivial

theorem bigMed_fold {l : List Float} (hl : ∀ x ∈ l, x.isFinite = true ∧ toR x = 2 ^ (505 : Int)) {k : Nat}
    {s : Nrm2 Float} (h : BigMed k s) : BigMed (k + l.length) (l.foldl nrm2Acc s) := by
  induction l generalizing k s with
  | nil => exact h
  | cons x l ih =>
    rw [List.foldl_cons, List.length_cons, show k + (l.length + 1) = (k + 1) + l.length by omega]
    exact ih (fun y hy => hl y (List.mem_cons_of_mem _ hy))
      (bigMed_step h (hl x List.mem_cons_self).1 (hl x List.mem_cons_self).2)

end F64

/-- **C18.** At least `2^14` elements, all equal to `2^505` (so that the norm of `2^14` of them is `2^512`, far
below `f64::MAX`): `dnrm2` overflows to `+∞`, whatever the stride. -/
theorem C18_dnrm2_overflow (n : Nat) (x : List Float) (incx : Int) (hn : 2 ^ 14 ≤ n) (h : StrideOK n incx)
    (hl : x.length < 2 ^ 62)
    (hx : ∀ e ∈ strided n incx x, e.isFinite = true ∧ toR e = 2 ^ (505 : Int)) :
    dnrm2 (F := Float) (n : Int) x incx = pure (1 / 0) := by
  unfold dnrm2
  rw [dnrm2FA_fold (by omega) h _ hl]
  have h0 : BigMed 0 (⟨true, Scalar.zero, Scalar.zero, Scalar.zero⟩ : Nrm2 Float) := by
    refine ⟨rfl, rfl, Or.inl ⟨by norm_num, rfl, ?_⟩⟩
    show toR 0 = _
    rw [show toR 0 = 0 from rfl]; simp
  have hb := bigMed_fold (l := strided n incx x) hx h0
  rw [Nat.zero_add, show (strided n incx x).length = n by simp [strided]] at hb
  have h1' : List.foldl nrm2Acc ⟨true, Scalar.zero, Scalar.zero, Scalar.zero⟩ (strided n incx (ToFA.toFa (F := Float) x).data) =
    List.foldl nrm2Acc ⟨true, Scalar.zero, Scalar.zero, Scalar.zero⟩ (strided n incx x) := rfl
  rw [h1']
  generalize List.foldl nrm2Acc ⟨true, Scalar.zero, Scalar.zero, Scalar.zero⟩ (strided n incx x) = s at *
  obtain ⟨h2, h3, h4⟩ := hb
  have h5 : up s.amed = .infinity .positive := by
    rcases h4 with h4 | h4
    · omega
    · exact h4.2
  have hz1 : Float.lt 0 (0 : Float) = false := by decide +kernel
  rw [nrm2Final_def, h2, h3, hz1, if_neg Bool.false_ne_true, if_neg Bool.false_ne_true]
  congr 1
  apply up_inj
  have h6 : up (Float.sqrt s.amed) = .infinity .positive := by rw [up_sqrt, h5]; exact fix_inf _
  exact up_mul_of (u := .finite .positive (2 ^ 52) (-52) (by norm_num)) rfl h6 rfl trivial

/-- The hypotheses of `C18_dnrm2_overflow` are met by a plain vector. -/
example : (2 : Nat) ^ 14 ≤ 16384 ∧ StrideOK 16384 1 ∧
    ∀ e ∈ strided 16384 1 (List.replicate 16384 (tbig : Float)), e.isFinite = true ∧ toR e = 2 ^ (505 : Int) := by
  refine ⟨by norm_num, by unfold StrideOK; norm_num, ?_⟩
  intro e he
  simp only [strided, List.mem_map, List.mem_range] at he
  obtain ⟨k, hk, rfl⟩ := he
  have : (List.replicate 16384 (tbig : Float)).getD (strideIx 16384 1 k) Scalar.minPositive = tbig := by
    rw [List.getD_eq_getElem?_getD, List.getElem?_replicate]
    rw [if_pos (by simp [strideIx]; omega)]; rfl
  rw [this]
  exact toR_tbig

namespace F64

/-- A float smaller than the smallest positive float is zero. -/
theorem toR_tiny {x : Float} (h : |toR x| < 1 / 2 ^ 1074) : toR x = 0 := by
  obtain ⟨n, e, hn, he, hv⟩ := grid_toR x
  by_contra hne
  have hpos : 0 < |toR x| := abs_pos.2 hne
  have hn1 : n ≠ 0 := by rintro rfl; rw [hv] at hpos; simp at hpos
  have h1 : (1 : ℝ) ≤ n := by exact_mod_cast Nat.one_le_iff_ne_zero.2 hn1
  have h2 : (2 : ℝ) ^ (-1074 : Int) ≤ 2 ^ e := zpow_le_zpow_right₀ (by norm_num) (by omega)
  have h3 : (2 : ℝ) ^ (-1074 : Int) ≤ n * 2 ^ e := by
    calc (2 : ℝ) ^ (-1074 : Int) = 1 * 2 ^ (-1074 : Int) := (one_mul _).symm
      _ ≤ n * 2 ^ e := mul_le_mul h1 h2 (zp _).le (by linarith)
  rw [← hv, show (2 : ℝ) ^ (-1074 : Int) = 1 / 2 ^ 1074 from zpneg 1074] at h3
  exact absurd h (not_lt.2 h3)

/-- Squares of numbers up to `2^-538` underflow to zero. -/
theorem mul_self_tiny {x : Float} (hx : x.isFinite = true) (h0 : 0 ≤ toR x) (h : toR x ≤ 2 ^ (-538 : Int)) :
    (x * x).isFinite = true ∧ toR (x * x) = 0 := by
  have hm := mul_rounds x x hx hx
  have hnn : 0 ≤ toR x * toR x := mul_nonneg h0 h0
  have hle : toR x * toR x ≤ 2 ^ (-1076 : Int) := by
    calc toR x * toR x ≤ 2 ^ (-538 : Int) * 2 ^ (-538 : Int) := mul_le_mul h h h0 (zp _).le
      _ = 2 ^ (-1076 : Int) := by rw [← zpow_add₀ (by norm_num)]; norm_num
  have hle1 : toR x * toR x ≤ 1 := hle.trans (by
    have : (2 : ℝ) ^ (-1076 : Int) ≤ 2 ^ (0 : Int) := zpow_le_zpow_right₀ (by norm_num) (by norm_num)
    rwa [zpow_zero] at this)
  have hfin := hm.finite (by rw [abs_of_nonneg hnn]; linarith [one_lt_ovf])
  refine ⟨hfin, toR_tiny ?_⟩
  have herr := (hm.fl hfin).err
  rw [show (2 : ℝ) ^ (-1076 : Int) = 1 / 2 ^ 1076 from zpneg 1076] at hle
  have hq : (0 : ℝ) < 1 / 2 ^ 1076 := by positivity
  have e1 : (1 : ℝ) / 2 ^ 1074 = 4 * (1 / 2 ^ 1076) := by
    rw [show (2 : ℝ) ^ 1076 = 2 ^ 1074 * 2 ^ 2 from pow_add 2 1074 2]; field_simp; norm_num
  have e2 : (1 : ℝ) / 2 ^ 1075 = 2 * (1 / 2 ^ 1076) := by
    rw [show (2 : ℝ) ^ 1076 = 2 ^ 1075 * 2 ^ 1 from pow_add 2 1075 1]; field_simp
  rw [e1]
  rw [e2, abs_of_nonneg hnn] at herr
  generalize (1 : ℝ) / 2 ^ 1076 = q at *
  have hmax : max (toR x * toR x / 2 ^ 53) (2 * q) ≤ 2 * q := by
    apply max_le _ le_rfl
    have : toR x * toR x / 2 ^ 53 ≤ toR x * toR x := div_le_self hnn (by norm_num)
    linarith
  have := abs_le.1 (herr.trans hmax)
  rw [abs_lt]
  constructor <;> linarith [this.1, this.2]

/-- State while only tiny elements were seen. -/
def TinyState (s : Nrm2 Float) : Prop :=
  s.asml.isFinite = true ∧ toR s.asml = 0 ∧ s.amed = 0 ∧ s.abig = 0

theorem tiny_step {s : Nrm2 Float} (h : TinyState s) {x : Float} (hx : x.isFinite = true)
    (hv : |toR x| ≤ 2 ^ (-1056 : Int)) : TinyState (nrm2Acc s x) := by
  obtain ⟨h1, h2, h3, h4⟩ := h
  have hax : x.abs.isFinite = true := by rw [abs_finite]; exact hx
  have hav : toR x.abs = |toR x| := abs_toR x
  have l1 : Float.lt tbig x.abs = false := by
    rw [lt_toXR, toXR_fin hax, toXR_fin toR_tbig.1, toR_tbig.2, hav]
    simp only [XR.lt, decide_eq_false_iff_not, not_lt]
    exact hv.trans (zpow_le_zpow_right₀ (by norm_num) (by norm_num))
  have l2 : Float.lt x.abs tsml = true := by
    rw [lt_toXR, toXR_fin hax, toXR_fin toR_tsml.1, toR_tsml.2, hav]
    simp only [XR.lt, decide_eq_true_eq]
    exact hv.trans_lt (zpow_lt_zpow_right₀ (by norm_num) (by norm_num))
  rw [nrm2Acc_def, l1, l2, if_neg Bool.false_ne_true, if_pos rfl]
  split
  · refine ⟨?_, ?_, h3, h4⟩ <;> simp only
    all_goals
      have hm := mul_rounds _ _ hax toR_ssml.1
      rw [hav, toR_ssml.2] at hm
      have hnn : 0 ≤ |toR x| * 2 ^ (518 : Int) := mul_nonneg (abs_nonneg _) (zp _).le
      have hle : |toR x| * 2 ^ (518 : Int) ≤ 2 ^ (-538 : Int) := by
        calc |toR x| * 2 ^ (518 : Int) ≤ 2 ^ (-1056 : Int) * 2 ^ (518 : Int) :=
              mul_le_mul_of_nonneg_right hv (zp _).le
          _ = 2 ^ (-538 : Int) := by rw [← zpow_add₀ (by norm_num)]; norm_num
      have hle1 : (2 : ℝ) ^ (-538 : Int) ≤ 1 := by
        have : (2 : ℝ) ^ (-538 : Int) ≤ 2 ^ (0 : Int) := zpow_le_zpow_right₀ (by norm_num) (by norm_num)
        rwa [zpow_zero] at this
      have hfin := hm.finite (by rw [abs_of_nonneg hnn]; exact (hle.trans hle1).trans_lt one_lt_ovf)
      have hsq := mul_self_tiny hfin ((hm.fl hfin).nonneg hnn)
        ((hm.fl hfin).upper _ (grid_pow _ (by norm_num)) hle)
      have ha := add_rounds _ _ h1 hsq.1
      rw [h2, hsq.2, add_zero] at ha
      have := ha.exact (by rw [abs_zero]; linarith [one_lt_ovf]) ⟨0, 0, by norm_num, by norm_num, by simp⟩
      first | exact this.1 | exact this.2
  · exact ⟨h1, h2, h3, h4⟩

theorem tiny_fold {l : List Float} (hl : ∀ x ∈ l, x.isFinite = true ∧ |toR x| ≤ 2 ^ (-1056 : Int))
    {s : Nrm2 Float} (h : TinyState s) : TinyState (l.foldl nrm2Acc s) := by
  induction l generalizing s with
  | nil => exact h
  | cons x l ih =>
    rw [List.foldl_cons]
    exact ih (fun y hy => hl y (List.mem_cons_of_mem _ hy))
      (tiny_step h (hl x List.mem_cons_self).1 (hl x List.mem_cons_self).2)

end F64

/-- **C48.** A vector whose elements all have magnitude at most `2^-1056` has computed norm exactly zero, although
its elements may be non-zero: the scaling factor `ssml = 2^518` is too small for the squares not to underflow. -/
theorem C48_dnrm2_tiny (n : Nat) (x : List Float) (incx : Int) (hn : 0 < n) (h : StrideOK n incx)
    (hl : x.length < 2 ^ 62)
    (hx : ∀ e ∈ strided n incx x, e.isFinite = true ∧ |toR e| ≤ 2 ^ (-1056 : Int)) :
    dnrm2 (F := Float) (n : Int) x incx = pure 0 := by
  unfold dnrm2
  rw [dnrm2FA_fold hn h _ hl]
  have hb := tiny_fold (l := strided n incx x) hx (s := ⟨true, Scalar.zero, Scalar.zero, Scalar.zero⟩)
    ⟨rfl, rfl, rfl, rfl⟩
  have h1' : List.foldl nrm2Acc ⟨true, Scalar.zero, Scalar.zero, Scalar.zero⟩ (strided n incx (ToFA.toFa (F := Float) x).data) =
    List.foldl nrm2Acc ⟨true, Scalar.zero, Scalar.zero, Scalar.zero⟩ (strided n incx x) := rfl
  rw [h1']
  generalize List.foldl nrm2Acc ⟨true, Scalar.zero, Scalar.zero, Scalar.zero⟩ (strided n incx x) = s at *
  obtain ⟨h1, h2, h3, h4⟩ := hb
  have hz1 : Float.lt 0 (0 : Float) = false := by decide +kernel
  have hz2 : Float.lt 0 s.asml = false := by
    rw [lt_toXR, toXR_fin h1, h2, toXR_fin (x := 0) rfl, show toR 0 = 0 from rfl]
    simp [XR.lt]
  have hz3 : 1 * Float.sqrt (0 : Float) = 0 := by decide +kernel
  rw [nrm2Final_def, h4, h3, hz1, hz2, if_neg Bool.false_ne_true, if_neg Bool.false_ne_true, hz3]

/-- The smallest positive double has norm 0. -/
example : dnrm2 (F := Float) 1 [Float.ofBits 1] 1 = pure 0 ∧ 0 < Float.ofBits 1 := by
  refine ⟨C48_dnrm2_tiny 1 [Float.ofBits 1] 1 (by norm_num) (by unfold StrideOK; norm_num) (by norm_num) ?_,
    by decide +kernel⟩
  intro e he
  have : e = Float.ofBits 1 := by
    simp only [strided, List.mem_map, List.mem_range] at he
    obtain ⟨k, hk, rfl⟩ := he
    have : k = 0 := by omega
    subst this; rfl
  subst this
  refine ⟨rfl, ?_⟩
  have hu : up (Float.ofBits 1) = .finite .positive 1 (-1074) (by norm_num) := rfl
  have : toR (Float.ofBits 1) = 1 * 2 ^ (-1074 : Int) := by
    rw [(toR_of hu).2]; simp [sgnR]
  rw [this, one_mul, abs_of_pos (zp _)]
  exact zpow_le_zpow_right₀ (by norm_num) (by norm_num)

/-- A vector meeting the hypotheses of `C17_dnrm2_zero` and one meeting those of `C17_dnrm2_nan`. -/
example : (∀ e ∈ strided 2 1 [(0 : Float), -0], Float.beq e 0 = true) ∧
    (∃ e ∈ strided 2 1 [(1 : Float), 0 / 0], e.isNaN = true) := by
  constructor
  · intro e he
    have : e = 0 ∨ e = -0 := by
      have : strided 2 1 [(0 : Float), -0] = [0, -0] := rfl
      rw [this] at he; simpa using he
    rcases this with rfl | rfl <;> decide +kernel
  · exact ⟨0 / 0, by rw [show strided 2 1 [(1 : Float), 0 / 0] = [1, 0 / 0] from rfl]; simp, by decide +kernel⟩

end Verif

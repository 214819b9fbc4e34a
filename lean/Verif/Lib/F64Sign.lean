import Verif.Lib.F64Alg

/-!
# Signs in binary64

Rounding to nearest is symmetric, so negating operands negates results: bitwise for products, quotients and
absolute values, and up to the sign of a zero for sums and differences.
-/

namespace Verif
namespace F64
open Float.Model Float.Model.UnpackedFloat

theorem fix_neg (u : UnpackedFloat) : fix u.neg = (fix u).neg := by
  cases u with
  | notANumber => exact fix_nan.trans (by rw [fix_nan]; rfl)
  | infinity s => exact (fix_inf (-s)).trans (by rw [fix_inf]; rfl)
  | zero s => exact (fix_zero (-s)).trans (by rw [fix_zero]; rfl)
  | finite s m e h =>
    show fix (.finite (-s) m e h) = _
    unfold fix
    rw [pack_finite, pack_finite]
    split
    · exact (fix_inf (-s)).trans (by
        show _ = UnpackedFloat.neg (fix (.infinity s))
        rw [fix_inf]; rfl)
    · split <;> rw [unpack_packComponents, unpack_packComponents] <;> (repeat' split) <;> rfl

theorem sneg_mul (s t : Sign) : -s * t = -(s * t) := by cases s <;> cases t <;> rfl
theorem sneg_div (s t : Sign) : -s / t = -(s / t) := by cases s <;> cases t <;> rfl
theorem sdiv_neg (s t : Sign) : s / -t = -(s / t) := by cases s <;> cases t <;> rfl
theorem sneg_neg (s : Sign) : - -s = s := by cases s <;> rfl

theorem rwa_neg (s : Sign) (M : Nat) (E : Int) (acc : Accuracy) :
    roundWithAccuracy Format.binary64 (-s) M E acc = (roundWithAccuracy Format.binary64 s M E acc).neg := by
  unfold roundWithAccuracy
  simp only
  split <;> rfl

theorem uneg_mul (u v : UnpackedFloat) :
    UnpackedFloat.mul Format.binary64 u.neg v = (UnpackedFloat.mul Format.binary64 u v).neg := by
  cases u <;> cases v <;> simp only [UnpackedFloat.mul, UnpackedFloat.neg, sneg_mul, rwa_neg]

theorem uneg_div (u v : UnpackedFloat) :
    UnpackedFloat.div Format.binary64 u.neg v = (UnpackedFloat.div Format.binary64 u v).neg := by
  cases u <;> cases v <;> simp only [UnpackedFloat.div, UnpackedFloat.neg, sneg_div, rwa_neg]

theorem udiv_neg (u v : UnpackedFloat) :
    UnpackedFloat.div Format.binary64 u v.neg = (UnpackedFloat.div Format.binary64 u v).neg := by
  cases u <;> cases v <;> simp only [UnpackedFloat.div, UnpackedFloat.neg, sdiv_neg, rwa_neg]

/-- Negation is an involution, bitwise. -/
theorem neg_neg' (x : Float) : - -x = x := up_inj (by
  rw [up_neg', up_neg']
  cases up x <;> simp only [UnpackedFloat.neg, sneg_neg])

theorem neg_mul' (x y : Float) : -x * y = -(x * y) := up_inj (by
  rw [up_neg', up_mul, up_mul, up_neg', uneg_mul, fix_neg])

theorem mul_neg' (x y : Float) : x * -y = -(x * y) := by
  rw [mul_comm', neg_mul', mul_comm']

theorem neg_mul_neg' (x y : Float) : -x * -y = x * y := by
  rw [neg_mul', mul_neg', neg_neg']

theorem neg_div' (x y : Float) : -x / y = -(x / y) := up_inj (by
  rw [up_neg', up_div, up_div, up_neg', uneg_div, fix_neg])

theorem div_neg' (x y : Float) : x / -y = -(x / y) := up_inj (by
  rw [up_neg', up_div, up_div, up_neg', udiv_neg, fix_neg])

theorem neg_div_neg' (x y : Float) : -x / -y = x / y := by
  rw [neg_div', div_neg', neg_neg']

/-! ### Sums -/

/-- The views of two opposite numbers; the sign of a zero is ignored. -/
def OppU (u v : UnpackedFloat) : Prop := v = u.neg ∨ ∃ s t, u = .zero s ∧ v = .zero t

theorem OppU.fix {u v : UnpackedFloat} (h : OppU u v) : OppU (fix u) (fix v) := by
  rcases h with rfl | ⟨s, t, rfl, rfl⟩
  · exact Or.inl (fix_neg u)
  · exact Or.inr ⟨s, t, fix_zero s, fix_zero t⟩

theorem round_neg (s : Sign) (M : Nat) (E : Int) :
    UnpackedFloat.round Format.binary64 (-s) M E = (UnpackedFloat.round Format.binary64 s M E).neg := rwa_neg s _ _ _

theorem normalize_neg_ne {M : Int} (h0 : M ≠ 0) (E : Int) (zs : Sign) :
    UnpackedFloat.normalize Format.binary64 (-M) E zs = (UnpackedFloat.normalize Format.binary64 M E zs).neg := by
  unfold UnpackedFloat.normalize
  rcases lt_or_gt_of_ne h0 with h | h
  · rw [compare_lt_iff_lt.2 h, compare_gt_iff_gt.2 (show -M > 0 by omega)]
    exact round_neg .negative _ _
  · rw [compare_gt_iff_gt.2 h, compare_lt_iff_lt.2 (show -M < 0 by omega)]
    show UnpackedFloat.round Format.binary64 .negative (- -M).toNat E = _
    rw [neg_neg]
    exact round_neg .positive _ _

theorem normalize_neg (M : Int) (E : Int) (zs : Sign) :
    OppU (UnpackedFloat.normalize Format.binary64 M E zs) (UnpackedFloat.normalize Format.binary64 (-M) E zs) := by
  by_cases h : M = 0
  · subst h
    exact Or.inr ⟨zs, zs, rfl, rfl⟩
  · exact Or.inl (normalize_neg_ne h E zs)

theorem apply_neg (s : Sign) (n : Int) : (-s).apply n = -(s.apply n) := by
  cases s
  · show n = - -n
    omega
  · rfl

theorem oppU_add {u u' v v' : UnpackedFloat} (h : OppU u u') (h' : OppU v v') :
    OppU (UnpackedFloat.add Format.binary64 u v) (UnpackedFloat.add Format.binary64 u' v') := by
  rcases h with rfl | ⟨s, t, rfl, rfl⟩
  · rcases h' with rfl | ⟨s', t', rfl, rfl⟩
    · cases u with
      | notANumber => left; cases v <;> rfl
      | infinity s =>
        left
        cases v with
        | infinity t => cases s <;> cases t <;> rfl
        | _ => rfl
      | zero s =>
        cases v with
        | zero t => right; cases s <;> cases t <;> exact ⟨_, _, rfl, rfl⟩
        | _ => left; rfl
      | finite s m e hm =>
        cases v with
        | finite t m' e' hm' =>
          simp only [UnpackedFloat.neg, UnpackedFloat.add, apply_neg]
          rw [← neg_add]
          exact normalize_neg _ _ _
        | _ => left; rfl
    · cases u with
      | zero s => right; cases s <;> cases s' <;> cases t' <;> exact ⟨_, _, rfl, rfl⟩
      | _ => left; rfl
  · rcases h' with rfl | ⟨s', t', rfl, rfl⟩
    · cases v with
      | zero s' => right; cases s <;> cases t <;> cases s' <;> exact ⟨_, _, rfl, rfl⟩
      | _ => left; rfl
    · right; cases s <;> cases t <;> cases s' <;> cases t' <;> exact ⟨_, _, rfl, rfl⟩

theorem oppU_neg {v v' : UnpackedFloat} (h : OppU v v') : OppU v.neg v'.neg := by
  rcases h with rfl | ⟨s, t, rfl, rfl⟩
  · exact Or.inl rfl
  · exact Or.inr ⟨-s, -t, rfl, rfl⟩

theorem oppU_mul {u u' v : UnpackedFloat} (h : OppU u u') :
    OppU (UnpackedFloat.mul Format.binary64 u v) (UnpackedFloat.mul Format.binary64 u' v) := by
  rcases h with rfl | ⟨s, t, rfl, rfl⟩
  · exact Or.inl (uneg_mul u v)
  · cases v with
    | notANumber => left; rfl
    | infinity s => left; rfl
    | zero s => right; exact ⟨_, _, rfl, rfl⟩
    | finite s m e h => right; exact ⟨_, _, rfl, rfl⟩

theorem usub_eq (u v : UnpackedFloat) : UnpackedFloat.sub Format.binary64 u v = UnpackedFloat.add Format.binary64 u v.neg := by
  cases u <;> cases v <;> simp only [UnpackedFloat.sub, UnpackedFloat.add, UnpackedFloat.neg, apply_neg, sub_eq_add_neg]

/-- Opposite numbers: `y` is `-x`, except that a zero may have any sign. -/
def Opp (x y : Float) : Prop := OppU (up x) (up y)

theorem Opp.of_neg (x : Float) : Opp x (-x) := Or.inl (up_neg' x)
theorem Opp.add {x x' y y' : Float} (h : Opp x x') (h' : Opp y y') : Opp (x + y) (x' + y') := by
  unfold Opp
  rw [up_add, up_add]
  exact (oppU_add h h').fix
theorem Opp.sub {x x' y y' : Float} (h : Opp x x') (h' : Opp y y') : Opp (x - y) (x' - y') := by
  unfold Opp
  rw [up_sub, up_sub, usub_eq, usub_eq]
  exact (oppU_add h (oppU_neg h')).fix
theorem Opp.mulR {x x' : Float} (h : Opp x x') (y : Float) : Opp (x * y) (x' * y) := by
  unfold Opp
  rw [up_mul, up_mul]
  exact (oppU_mul h).fix
theorem Opp.mulL {x x' : Float} (h : Opp x x') (y : Float) : Opp (y * x) (y * x') := by
  rw [mul_comm' y, mul_comm' y]
  exact h.mulR y
theorem Opp.zero {x y : Float} (hx : toR x = 0) (hx' : x.isFinite = true) (hy : toR y = 0) (hy' : y.isFinite = true) :
    Opp x y := by
  obtain ⟨s, hs⟩ := toR_eq_zero hx' hx
  obtain ⟨t, ht⟩ := toR_eq_zero hy' hy
  exact Or.inr ⟨s, t, hs, ht⟩

/-- Two opposite numbers are both `NaN`, or one is equal (`==`) to the negation of the other. -/
theorem Opp.spec {x y : Float} (h : Opp x y) : (x.isNaN = true ∧ y.isNaN = true) ∨ (y == -x) = true := by
  rcases h with h | ⟨s, t, hs, ht⟩
  · have : y = -x := up_inj (by rw [h, up_neg'])
    subst this
    by_cases hn : x.isNaN = true
    · left
      refine ⟨hn, ?_⟩
      rw [isNaN_toXR] at hn ⊢
      rw [neg_toXR]
      cases hx : toXR x <;> rw [hx] at hn <;> first | rfl | cases hn
    · right
      show Float.beq (-x) (-x) = true
      rw [beq_toXR]
      rw [isNaN_toXR] at hn
      rw [neg_toXR]
      cases hx : toXR x with
      | nan => rw [hx] at hn; exact absurd rfl hn
      | pinf => rfl
      | ninf => rfl
      | fin r => simp [XR.neg, XR.beq]
  · right
    show Float.beq y (-x) = true
    rw [beq_up, up_neg', hs, ht]
    cases s <;> cases t <;> rfl

end F64
end Verif

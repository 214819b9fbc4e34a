import Verif.Lib.F64Sign
import Verif.Props.LarfgTau

/-!
# C99: signs in `dnrm2` and `dlarfg` on binary64
-/

namespace Verif
open Float.Model Float.Model.UnpackedFloat F64 Scalar

namespace F64

/-- The sign of a number that is not `NaN`. -/
def sg : UnpackedFloat → Option Sign
  | .notANumber => none
  | .infinity s => some s
  | .zero s => some s
  | .finite s _ _ _ => some s

theorem sg_nan : sg .notANumber = none := rfl
theorem sg_inf (s : Sign) : sg (.infinity s) = some s := rfl
theorem sg_zero (s : Sign) : sg (.zero s) = some s := rfl
theorem sg_fin (s : Sign) (m : Nat) (e : Int) (h : 0 < m) : sg (.finite s m e h) = some s := rfl

theorem sg_fix (u : UnpackedFloat) : sg (fix u) = sg u ∨ sg (fix u) = none := by
  cases u with
  | notANumber => rw [fix_nan]; exact Or.inl rfl
  | infinity s => rw [fix_inf]; exact Or.inl rfl
  | zero s => rw [fix_zero]; exact Or.inl rfl
  | finite s m e h =>
    unfold fix
    rw [pack_finite]
    split
    · left
      show sg (fix (.infinity s)) = _
      rw [fix_inf]; rfl
    · split <;> rw [unpack_packComponents] <;> (repeat' split) <;> first | exact Or.inl rfl | exact Or.inr rfl

theorem sg_round (s : Sign) (M : Nat) (E : Int) (acc : Accuracy) : sg (roundWithAccuracy Format.binary64 s M E acc) = some s := by
  unfold roundWithAccuracy
  simp only
  split <;> rfl

theorem signBit_up (x : Float) (s : Sign) (h : sg (up x) = some s) : signBit x = true ↔ s = .negative := by
  rw [signBit_sign]
  have : s = Sign.ofBitVec (unpackSign (spec := Format.binary64) x.toModel.toBits.toBitVec) := by
    unfold up Float.Model.unpack UnpackedFloat.unpack at h
    simp only at h
    (repeat' split at h) <;> simp only [sg, Option.some.injEq, reduceCtorEq] at h <;> exact h.symm
  rw [this]

/-- The sign is the one of the number `-signum(x)`, if that is not `NaN`. -/
theorem signum_neg' (x : Float) : signum (-x) = -signum x := by
  by_cases hn : x.isNaN = true
  · rw [neg_nan hn]
    unfold F64.signum
    rw [if_pos hn, neg_nan hn]
  · have hn' : (-x).isNaN = false := by rw [isNaN_neg]; simpa using hn
    unfold F64.signum F64.copysign
    rw [if_neg hn, if_neg (by simp [hn'])]
    obtain ⟨s, hs⟩ : ∃ s, sg (up x) = some s := by
      rw [isNaN_up] at hn
      cases hu : up x with
      | notANumber => rw [hu] at hn; exact absurd rfl hn
      | _ => exact ⟨_, rfl⟩
    have hs' : sg (up (-x)) = some (-s) := by
      rw [up_neg']
      cases hu : up x <;> rw [hu] at hs <;> simp only [sg, Option.some.injEq, reduceCtorEq] at hs <;> subst hs <;> rfl
    have h1 := signBit_up x s hs
    have h2 := signBit_up (-x) (-s) hs'
    cases s with
    | negative =>
      rw [if_pos (h1.2 rfl), if_neg (fun h => by have := h2.1 h; cases this), neg_neg']
    | positive =>
      rw [if_pos (h2.2 rfl), if_neg (fun h => by have := h1.1 h; cases this)]

theorem sg_signum (x : Float) (s : Sign) (h : sg (up x) = some s) : sg (up (F64.signum x)) = some s := by
  have hn : ¬ x.isNaN = true := by
    rw [isNaN_up]
    cases hu : up x <;> rw [hu] at h <;> first | (cases h; done) | (intro h'; cases h')
  unfold F64.signum F64.copysign
  rw [if_neg hn]
  have h1 := signBit_up x s h
  cases s with
  | negative => rw [if_pos (h1.2 rfl), up_neg']; rfl
  | positive => rw [if_neg (fun h => by have := h1.1 h; cases this)]; rfl

/-- Nonnegative, `+0` or `NaN`. -/
def Pos (u : UnpackedFloat) : Prop := ∀ s, sg u = some s → s = .positive

theorem Pos.fix {u : UnpackedFloat} (h : Pos u) : Pos (fix u) := by
  intro s hs
  rcases sg_fix u with e | e
  · exact h s (e ▸ hs)
  · rw [e] at hs; cases hs

theorem Pos.abs (x : Float) : Pos (up x.abs) := by
  intro s hs
  rw [up_abs'] at hs
  cases hu : up x <;> rw [hu] at hs <;> simp only [UnpackedFloat.abs, sg, Option.some.injEq, reduceCtorEq] at hs <;> exact hs.symm

theorem Pos.mul {x y : Float} (hx : Pos (up x)) (hy : Pos (up y)) : Pos (up (x * y)) := by
  rw [up_mul]
  apply Pos.fix
  intro s hs
  cases hu : up x <;> cases hv : up y <;> rw [hu, hv] at hs <;> rw [hu] at hx <;> rw [hv] at hy <;>
    simp only [UnpackedFloat.mul, sg_nan, sg_inf, sg_zero, sg_round, Option.some.injEq, reduceCtorEq] at hs <;>
    (rw [← hs, hx _ rfl, hy _ rfl]; rfl)

theorem Pos.div {x y : Float} (hx : Pos (up x)) (hy : Pos (up y)) : Pos (up (x / y)) := by
  rw [up_div]
  apply Pos.fix
  intro s hs
  cases hu : up x <;> cases hv : up y <;> rw [hu, hv] at hs <;> rw [hu] at hx <;> rw [hv] at hy <;>
    simp only [UnpackedFloat.div, sg_nan, sg_inf, sg_zero, sg_round, Option.some.injEq, reduceCtorEq] at hs <;>
    (rw [← hs, hx _ rfl, hy _ rfl]; rfl)

theorem Pos.add {x y : Float} (hx : Pos (up x)) (hy : Pos (up y)) : Pos (up (x + y)) := by
  rw [up_add]
  apply Pos.fix
  intro s hs
  cases hu : up x with
  | notANumber => rw [hu] at hs; cases up y <;> cases hs
  | infinity t =>
    rw [hu] at hs hx
    cases hx t rfl
    cases hv : up y with
    | infinity t' =>
      rw [hv] at hs hy
      cases hy t' rfl
      cases hs; rfl
    | _ => rw [hv] at hs; cases hs <;> rfl
  | zero t =>
    rw [hu] at hs hx
    cases hx t rfl
    cases hv : up y with
    | notANumber => rw [hv] at hs; cases hs
    | infinity t' => rw [hv] at hs hy; cases hy t' rfl; cases hs; rfl
    | zero t' => rw [hv] at hs hy; cases hy t' rfl; cases hs; rfl
    | finite t' m e h => rw [hv] at hs hy; cases hy t' rfl; cases hs; rfl
  | finite t m e h =>
    rw [hu] at hs hx
    cases hx t rfl
    cases hv : up y with
    | notANumber => rw [hv] at hs; cases hs
    | infinity t' => rw [hv] at hs hy; cases hy t' rfl; cases hs; rfl
    | zero t' => rw [hv] at hs; cases hs; rfl
    | finite t' m' e' h' =>
      rw [hv] at hs hy
      cases hy t' rfl
      simp only [UnpackedFloat.add, Sign.apply, UnpackedFloat.normalize] at hs
      split at hs
      · rename_i hc
        rw [compare_lt_iff_lt] at hc
        omega
      · cases hs; rfl
      · unfold UnpackedFloat.round at hs
        simp only [sg_round, Option.some.injEq] at hs
        exact hs.symm

theorem Pos.sqrt {x : Float} (hx : Pos (up x)) : Pos (up x.sqrt) := by
  rw [up_sqrt]
  apply Pos.fix
  intro s hs
  cases hu : up x with
  | notANumber => rw [hu] at hs; cases hs
  | infinity t => rw [hu] at hs hx; cases hx t rfl; cases hs; rfl
  | zero t => rw [hu] at hs hx; cases hx t rfl; cases hs; rfl
  | finite t m e h =>
    rw [hu] at hs hx
    cases hx t rfl
    simp only [UnpackedFloat.sqrt, sg_round, Option.some.injEq] at hs
    exact hs.symm

theorem Pos.of_nan {x : Float} (h : x.isNaN = true) : Pos (up x) := by
  intro s hs
  rw [isNaN_up] at h
  cases hu : up x <;> rw [hu] at h hs <;> first | (cases hs; done) | (cases h; done)

theorem Pos.fmax {x y : Float} (hx : Pos (up x)) (hy : Pos (up y)) : Pos (up (F64.fmax x y)) := by
  unfold F64.fmax
  (repeat' split) <;> assumption

theorem Pos.fmin {x y : Float} (hx : Pos (up x)) (hy : Pos (up y)) : Pos (up (F64.fmin x y)) := by
  unfold F64.fmin
  (repeat' split) <;> assumption

theorem Pos.one : Pos (up (1 : Float)) := by
  intro s hs
  cases hs; rfl

theorem Pos.lapy2 (x y : Float) : Pos (up (dlapy2 x y)) := by
  rw [dlapy2_def]
  split
  · exact Pos.of_nan ‹_›
  · split
    · exact Pos.of_nan ‹_›
    · have hw := Pos.fmax (Pos.abs x) (Pos.abs y)
      have hz := Pos.fmin (Pos.abs x) (Pos.abs y)
      split
      · exact hw
      · exact hw.mul (Pos.one.add ((hz.div hw).mul (hz.div hw))).sqrt

theorem usub_neg (u v : UnpackedFloat) (h : ∀ s t, sg u = some s → sg v = some t → t = -s) :
    UnpackedFloat.sub Format.binary64 u.neg v.neg = (UnpackedFloat.sub Format.binary64 u v).neg := by
  cases u with
  | notANumber => cases v <;> rfl
  | infinity s =>
    cases v with
    | infinity t => cases h s t rfl rfl; cases s <;> rfl
    | _ => rfl
  | zero s =>
    cases v with
    | zero t => cases h s t rfl rfl; cases s <;> rfl
    | _ => rfl
  | finite s m e hm =>
    cases v with
    | finite t m' e' hm' =>
      cases h s t rfl rfl
      simp only [UnpackedFloat.neg, UnpackedFloat.sub, apply_neg]
      have e1 : ∀ a b : Int, -a - - -b = -(a - -b) := by intro a b; ring
      rw [e1]
      apply normalize_neg_ne
      have hp : ∀ (m : Nat) (e k : Int), 0 < m → 0 < (decreaseExponent m e k).1 := by
        intro m e k h
        show 0 < m <<< _
        rw [Nat.shiftLeft_eq]
        positivity
      have p1 := hp m e (min e e') hm
      have p2 := hp m' e' (min e e') hm'
      generalize (decreaseExponent m e (min e e')).1 = A at p1 ⊢
      generalize (decreaseExponent m' e' (min e e')).1 = B at p2 ⊢
      cases s <;> simp only [Sign.apply] <;> omega
    | _ => rfl

/-- `dscal` on binary64, for every factor. -/
theorem dscalF (n : Nat) (a : Float) (x : List Float) (incx : Int) (hinc : 1 ≤ incx) (hox : n * incx.natAbs + 1 < 2 ^ 31) :
    ∃ x' : List Float, dscal (n : Int) a x incx = pure x' ∧ x'.length = x.length ∧
      (∀ k < n, x'[strideIx n incx k]? = (x[strideIx n incx k]?).map (· * a)) ∧
      (∀ p, (∀ k < n, strideIx n incx k ≠ p) → x'[p]? = x[p]?) := by
  by_cases ha : (a =ᶠ one) = true
  · refine ⟨x, C13_dscal_noop _ _ _ _ (Or.inr (Or.inr ha)), rfl, fun k _ => ?_, fun _ _ => rfl⟩
    have h1 := eq_toR toR_one'.1 ha
    have : a = 1 := toR_inj (h1.2.trans (toR_one'.2.trans toR_one.2.symm)) h1.1 toR_one.1 (by rw [h1.2, toR_one'.2]; norm_num)
    subst this
    cases x[strideIx n incx k]? with
    | none => rfl
    | some v => rw [Option.map_some, mul_comm', one_mul']
  · exact C12_dscal_any_length n a (by simpa using ha) x incx hinc hox

theorem map_neg_get (x : List Float) (p : Nat) : (x.map (- ·))[p]? = (x[p]?).map (- ·) := List.getElem?_map

theorem dscal_neg {n : Nat} {incx : Int} (hinc : 1 ≤ incx) (hox : n * incx.natAbs + 1 < 2 ^ 31) (a : Float) (x : List Float) :
    ∃ x' : List Float, dscal (n : Int) a x incx = pure x' ∧ dscal (n : Int) a (x.map (- ·)) incx = pure (x'.map (- ·)) ∧ x'.length = x.length := by
  obtain ⟨x', e, l, h, f⟩ := dscalF n a x incx hinc hox
  obtain ⟨y', e', l', h', f'⟩ := dscalF n a (x.map (- ·)) incx hinc hox
  refine ⟨x', e, e'.trans (congrArg pure ?_), l⟩
  apply List.ext_getElem?
  intro p
  rw [map_neg_get]
  by_cases hp : ∃ k < n, strideIx n incx k = p
  · obtain ⟨k, hk, rfl⟩ := hp
    rw [h' k hk, h k hk, map_neg_get]
    cases x[strideIx n incx k]? with
    | none => rfl
    | some v => simp only [Option.map_some, neg_mul']
  · push Not at hp
    rw [f' p hp, f p hp, map_neg_get]

theorem dscal_neg_neg {n : Nat} {incx : Int} (hinc : 1 ≤ incx) (hox : n * incx.natAbs + 1 < 2 ^ 31) (a : Float) (x : List Float) :
    ∃ x' y' : List Float, dscal (n : Int) a x incx = pure x' ∧ dscal (n : Int) (-a) (x.map (- ·)) incx = pure y' ∧
      x'.length = x.length ∧ y'.length = x.length ∧ (∀ k < n, y'[strideIx n incx k]? = x'[strideIx n incx k]?) ∧
      (∀ p, (∀ k < n, strideIx n incx k ≠ p) → x'[p]? = x[p]? ∧ y'[p]? = (x[p]?).map (- ·)) := by
  obtain ⟨x', e, l, h, f⟩ := dscalF n a x incx hinc hox
  obtain ⟨y', e', l', h', f'⟩ := dscalF n (-a) (x.map (- ·)) incx hinc hox
  refine ⟨x', y', e, e', l, by rw [l', List.length_map], fun k hk => ?_, fun p hp => ⟨f p hp, by rw [f' p hp, map_neg_get]⟩⟩
  rw [h' k hk, h k hk, map_neg_get]
  cases x[strideIx n incx k]? with
  | none => rfl
  | some v => simp only [Option.map_some, neg_mul_neg']

/-- Signs do not matter for one round of the norm. -/
theorem nrm2Acc_neg (s : Nrm2 Float) {x y : Float} (h : y = x ∨ y = -x) : nrm2Acc s y = nrm2Acc s x := by
  rcases h with rfl | rfl
  · rfl
  · unfold nrm2Acc
    rw [show (Scalar.abs (-x) : Float) = Scalar.abs x from abs_neg' x]

end F64

open Spec

theorem get1_signs {x y : FA Float} (hl : y.data.length = x.data.length)
    (h : ∀ (p : Nat) (hp : p < x.data.length), y.data[p]'(hl ▸ hp) = x.data[p] ∨ y.data[p]'(hl ▸ hp) = -x.data[p]) (i : Int) :
    y.get1 i = x.get1 i ∨ y.get1 i = -x.get1 i := by
  unfold FA.get1
  split
  · exact Or.inl rfl
  · by_cases hp : asUsize i - 1 < x.data.length
    · rw [List.getElem?_eq_getElem hp, List.getElem?_eq_getElem (hl ▸ hp)]
      exact h _ hp
    · rw [List.getElem?_eq_none (by omega), List.getElem?_eq_none (by omega)]
      exact Or.inl rfl

/-- **C99.** Changing the signs of any entries of an array does not change `dnrm2` on binary64, bit for bit, whatever the length and stride (a call that panics still panics). -/
theorem C99_dnrm2_signs_array (n : Int) (x y : FA Float) (incx : Int) (hl : y.data.length = x.data.length)
    (h : ∀ (p : Nat) (hp : p < x.data.length), y.data[p]'(hl ▸ hp) = x.data[p] ∨ y.data[p]'(hl ▸ hp) = -x.data[p]) :
    dnrm2 n y incx = (dnrm2 n x incx : R Float) := by
  unfold dnrm2
  show dnrm2FA n y incx = dnrm2FA n x incx
  unfold dnrm2FA
  have : nrm2Step y incx = nrm2Step x incx := by
    funext s i
    unfold nrm2Step
    rw [nrm2Acc_neg s.1 (get1_signs hl h s.2)]
  rw [this]

/-- **C99.** The same for a flat vector. -/
theorem C99_dnrm2_signs (n : Int) (x y : List Float) (incx : Int) (hl : y.length = x.length)
    (h : ∀ (p : Nat) (hp : p < x.length), y[p]'(hl ▸ hp) = x[p] ∨ y[p]'(hl ▸ hp) = -x[p]) :
    dnrm2 n y incx = (dnrm2 n x incx : R Float) :=
  C99_dnrm2_signs_array n (faOfVec x) (faOfVec y) incx hl h

namespace F64

theorem rescale_neg {n : Nat} {incx : Int} (hn : n < 2 ^ 31 - 1) (hinc : 1 ≤ incx) (hox : n * incx.natAbs + 1 < 2 ^ 31) (sm rs : Float) (k : Nat) :
    ∀ (x : List Float) (beta alpha : Float) (knt : Nat), ∃ x' b' a' knt',
      dlarfgRescale ((n : Int) + 1) incx sm rs k x beta alpha knt = pure (x', b', a', knt') ∧
      dlarfgRescale ((n : Int) + 1) incx sm rs k (x.map (- ·)) (-beta) (-alpha) knt = pure (x'.map (- ·), -b', -a', knt') ∧ x'.length = x.length := by
  induction k with
  | zero => exact fun x beta alpha knt => ⟨x, beta, alpha, knt, rfl, rfl, rfl⟩
  | succ k ih =>
    intro x beta alpha knt
    unfold dlarfgRescale
    rw [isub_ok (by unfold FitsI32; omega), pure_bind, pure_bind, show (n : Int) + 1 - 1 = n by omega]
    obtain ⟨x', e, e', l⟩ := dscal_neg (n := n) hinc hox rs x
    rw [e, e', pure_bind, pure_bind]
    simp only [neg_mul']
    rw [show (Scalar.abs (-(beta * rs)) : Float) = Scalar.abs (beta * rs) from abs_neg' _]
    split
    · exact ⟨_, _, _, _, rfl, rfl, l⟩
    · obtain ⟨y, b, a, t, h1, h2, h3⟩ := ih x' (beta * rs) (alpha * rs) (knt + 1)
      exact ⟨y, b, a, t, h1, h2, h3.trans l⟩

theorem mulPow_neg (sm : Float) (k : Nat) (b : Float) : mulPow sm k (-b) = -mulPow sm k b := by
  induction k generalizing b with
  | zero => rfl
  | succ k ih => rw [mulPow, mulPow, neg_mul', ih]

theorem sub_neg_neg {x y : Float} (h : ∀ s t, sg (up x) = some s → sg (up y) = some t → t = -s) : -x - -y = -(x - y) := up_inj (by
  rw [up_neg', up_sub, up_sub, up_neg', up_neg', usub_neg _ _ h, fix_neg])

theorem beta_sign {alpha r : Float} : ∀ s t, sg (up alpha) = some s → sg (up (-Scalar.signum alpha * dlapy2 alpha r)) = some t → t = -s := by
  intro s t hs ht
  have h1 : sg (up (F64.signum alpha)) = some s := sg_signum alpha s hs
  have h2 : sg (up (-F64.signum alpha)) = some (-s) := by
    rw [up_neg']
    cases hu : up (F64.signum alpha) <;> rw [hu] at h1 <;> simp only [sg, Option.some.injEq, reduceCtorEq] at h1 <;> subst h1 <;> rfl
  have hp := Pos.lapy2 alpha r
  change sg (up (-F64.signum alpha * dlapy2 alpha r)) = some t at ht
  rw [up_mul] at ht
  revert ht
  generalize up (-F64.signum alpha) = u at *
  generalize up (dlapy2 alpha r) = v at *
  intro ht
  rcases sg_fix (UnpackedFloat.mul Format.binary64 u v) with e | e
  · rw [e] at ht
    have e1 : ∀ a : Sign, a * .positive = a := by intro a; cases a <;> rfl
    cases u <;> cases v <;> simp only [UnpackedFloat.mul, sg_nan, sg_inf, sg_zero, sg_fin, sg_round, Option.some.injEq, reduceCtorEq] at ht h2 <;>
      (rw [← ht, hp _ rfl, h2, e1])
  · rw [e] at ht; cases ht

theorem finish_neg {n : Nat} {incx : Int} (hn : n < 2 ^ 31 - 1) (hinc : 1 ≤ incx) (hox : n * incx.natAbs + 1 < 2 ^ 31) (sm : Float)
    (alpha r : Float) (x : List Float) (knt : Nat) : ∃ (beta tau : Float) (x1 x2 : List Float),
      dlarfgFinish ((n : Int) + 1) incx sm alpha (-Scalar.signum alpha * dlapy2 alpha r) x knt = pure (beta, x1, tau) ∧
      dlarfgFinish ((n : Int) + 1) incx sm (-alpha) (-Scalar.signum (-alpha) * dlapy2 (-alpha) r) (x.map (- ·)) knt = pure (-beta, x2, tau) ∧
      x1.length = x.length ∧ x2.length = x.length ∧ (∀ k < n, x2[strideIx n incx k]? = x1[strideIx n incx k]?) := by
  have hb : -Scalar.signum (-alpha) * dlapy2 (-alpha) r = -(-Scalar.signum alpha * dlapy2 alpha r) := by
    rw [(C33_dlapy2_sign alpha r).1, show (Scalar.signum (-alpha) : Float) = -Scalar.signum alpha from signum_neg' alpha]
    exact neg_mul' _ _
  rw [hb]
  have hs := beta_sign (alpha := alpha) (r := r)
  generalize -Scalar.signum alpha * dlapy2 alpha r = b at hs
  unfold dlarfgFinish
  rw [isub_ok (by unfold FitsI32; omega), pure_bind, pure_bind, show (n : Int) + 1 - 1 = n by omega]
  rw [sub_neg_neg hs, sub_neg_neg (x := b) (y := alpha) (fun s t h1 h2 => by rw [hs t s h2 h1, sneg_neg]), neg_div_neg', div_neg', mulPow_neg]
  obtain ⟨x', y', e, e', l, l', h, -⟩ := dscal_neg_neg (n := n) hinc hox (one / (alpha - b)) x
  exact ⟨_, _, x', y', by rw [e]; rfl, by rw [e']; rfl, l, l', h⟩

end F64

theorem larfg_unfold {n : Nat} (h1 : 1 ≤ n) (hn : n < 2 ^ 31 - 1) (alpha : Float) (x : List Float) (incx : Int)
    {r : Float} (hr : dnrm2 n x incx = (pure r : R Float)) (h0 : (r == 0) = false) :
    dlarfg ((n : Int) + 1) alpha x incx =
      if Scalar.abs (-Scalar.signum alpha * dlapy2 alpha r) <ᶠ (dlamch 'S' / dlamch 'E' : Float) then do
        let p ← dlarfgRescale ((n : Int) + 1) incx (dlamch 'S' / dlamch 'E' : Float) (one / (dlamch 'S' / dlamch 'E')) 21 x (-Scalar.signum alpha * dlapy2 alpha r) alpha 0
        let xnorm : Float ← dnrm2 (n : Int) p.1 incx
        dlarfgFinish ((n : Int) + 1) incx (dlamch 'S' / dlamch 'E') p.2.2.1 (-Scalar.signum p.2.2.1 * dlapy2 p.2.2.1 xnorm) p.1 p.2.2.2
      else dlarfgFinish ((n : Int) + 1) incx (dlamch 'S' / dlamch 'E') alpha (-Scalar.signum alpha * dlapy2 alpha r) x 0 := by
  have h0' : (r =ᶠ zero) = false := h0
  unfold dlarfg
  rw [if_neg (by omega), isub_ok (by unfold FitsI32; omega), pure_bind, show (n : Int) + 1 - 1 = n by omega, hr, pure_bind,
    if_neg (by rw [h0']; simp)]
  simp only [pure_bind]

/-- The vector `v` of a reflector built from `x` is read at these positions. -/
def Spec.SameStride (n : Nat) (incx : Int) (v v' : List Float) : Prop :=
  v'.length = v.length ∧ ∀ k < n, v'[strideIx n incx k]? = v[strideIx n incx k]?

/-- **C99.** Negating the vector `(alpha, x)` negates `beta` and changes neither the reflector `v` nor `tau`, bit for bit on binary64. -/
theorem C99_dlarfg_negated (n : Nat) (h1 : 1 ≤ n) (alpha : Float) (x : List Float) (incx : Int) (hinc : 1 ≤ incx) (hox : n * incx.natAbs + 1 < 2 ^ 31)
    (hl : x.length < 2 ^ 62) (r : Float) (hr : dnrm2 n x incx = (pure r : R Float)) (h0 : (r == 0) = false) :
    ∃ (beta tau : Float) (v v' : List Float),
      dlarfg ((n : Int) + 1) alpha x incx = (pure (beta, v, tau) : R (Float × List Float × Float)) ∧
      dlarfg ((n : Int) + 1) (-alpha) (x.map (- ·)) incx = (pure (-beta, v', tau) : R (Float × List Float × Float)) ∧
      v.length = x.length ∧ SameStride n incx v v' := by
  have hn : n < 2 ^ 31 - 1 := by
    have : n * 1 ≤ n * incx.natAbs := Nat.mul_le_mul_left n (by omega)
    omega
  have sgn : ∀ z : List Float, dnrm2 (n : Int) (z.map (- ·)) incx = (dnrm2 n z incx : R Float) := fun z =>
    C99_dnrm2_signs n z (z.map (- ·)) incx (List.length_map ..) fun p hp => Or.inr (List.getElem_map ..)
  have hb : -Scalar.signum (-alpha) * dlapy2 (-alpha) r = -(-Scalar.signum alpha * dlapy2 alpha r) := by
    rw [(C33_dlapy2_sign alpha r).1, show (Scalar.signum (-alpha) : Float) = -Scalar.signum alpha from signum_neg' alpha]
    exact neg_mul' _ _
  have fin : ∀ (a : Float) (q : Float) (z : List Float) (knt : Nat), z.length = x.length → ∃ (beta tau : Float) (v v' : List Float),
      dlarfgFinish ((n : Int) + 1) incx (dlamch 'S' / dlamch 'E') a (-Scalar.signum a * dlapy2 a q) z knt = (pure (beta, v, tau) : R (Float × List Float × Float)) ∧
      dlarfgFinish ((n : Int) + 1) incx (dlamch 'S' / dlamch 'E') (-a) (-Scalar.signum (-a) * dlapy2 (-a) q) (z.map (- ·)) knt = (pure (-beta, v', tau) : R (Float × List Float × Float)) ∧
      v.length = x.length ∧ SameStride n incx v v' := by
    intro a q z knt hz
    obtain ⟨b, t, v, v', e, e', l, l', h⟩ := finish_neg hn hinc hox (dlamch 'S' / dlamch 'E') a q z knt
    exact ⟨b, t, v, v', e, e', l.trans hz, l'.trans l.symm, h⟩
  rw [larfg_unfold h1 hn alpha x incx hr h0, larfg_unfold h1 hn (-alpha) (x.map (- ·)) incx ((sgn x).trans hr) h0, hb,
    show (Scalar.abs (-(-Scalar.signum alpha * dlapy2 alpha r)) : Float) = Scalar.abs (-Scalar.signum alpha * dlapy2 alpha r) from abs_neg' _]
  split
  · obtain ⟨x', b', a', knt', e, e', hl'⟩ := rescale_neg hn hinc hox (dlamch 'S' / dlamch 'E') (one / (dlamch 'S' / dlamch 'E')) 21 x
      (-Scalar.signum alpha * dlapy2 alpha r) alpha 0
    rw [e, e', pure_bind, pure_bind]
    dsimp only
    rw [sgn]
    obtain ⟨q, hq⟩ : ∃ q, dnrm2 (n : Int) x' incx = (pure q : R Float) :=
      ⟨_, dnrm2FA_fold (by omega) (by unfold StrideOK; omega) (ToFA.toFa (F := Float) x') (by show x'.length < _; omega)⟩
    rw [hq, pure_bind, pure_bind]
    exact fin a' q x' knt' hl'
  · rw [← hb]
    exact fin alpha r x 0 rfl

/-- The remaining cases: if `n ≤ 1`, or all of `x` counts as zero, the input comes back with `tau = 0`, whatever the signs. -/
theorem C99_dlarfg_trivial (n : Nat) (h1 : 1 ≤ n) (hn : n < 2 ^ 31 - 1) (alpha : Float) (x : List Float) (incx : Int)
    (r : Float) (hr : dnrm2 n x incx = (pure r : R Float)) (h0 : (r == 0) = true) :
    dlarfg ((n : Int) + 1) alpha x incx = (pure (alpha, x, 0) : R (Float × List Float × Float)) ∧
      dlarfg ((n : Int) + 1) (-alpha) (x.map (- ·)) incx = (pure (-alpha, x.map (- ·), 0) : R (Float × List Float × Float)) := by
  have e : (n : Int) + 1 - 1 = n := by omega
  exact ⟨C35_dlarfg_zero _ (by omega) (by omega) _ _ _ r (by rw [e]; exact hr) h0,
    C35_dlarfg_zero _ (by omega) (by omega) _ _ _ r (by
      rw [e, C99_dnrm2_signs n x (x.map (- ·)) incx (List.length_map ..) fun p hp => Or.inr (List.getElem_map ..)]; exact hr) h0⟩

/-- A case: `(3, 4)` and `(-3, -4)` give the same `v` and `tau`, and opposite `beta`. -/
theorem C99_example (pr : Profile) :
    ((dlarfg (F := Float) 2 3 ([4] : List Float) 1 pr).val?.map fun p => [p.1 == -5, p.2.1 == [0.5], p.2.2 == 1.6]) = some [true, true, true] ∧
    ((dlarfg (F := Float) 2 (-3) ([-4] : List Float) 1 pr).val?.map fun p => [p.1 == 5, p.2.1 == [0.5], p.2.2 == 1.6]) = some [true, true, true] := by
  cases pr <;> decide +kernel

/-- The hypotheses of `C99_dlarfg_negated` are met by that case. -/
theorem C99_meets : dnrm2 ((1 : Nat) : Int) ([4] : List Float) 1 = (pure 4 : R Float) ∧ ((4 : Float) == 0) = false := by
  refine ⟨?_, by decide +kernel⟩
  rw [show ((1 : Nat) : Int) = 1 from rfl]
  funext pr
  cases pr <;> decide +kernel

/-- Negating `alpha` alone is not enough: `(-3, 4)` gives the vector `-1/2`. -/
theorem C99_alpha_alone (pr : Profile) :
    ((dlarfg (F := Float) 2 (-3) ([4] : List Float) 1 pr).val?.map fun p => [p.1 == 5, p.2.1 == [-0.5], p.2.2 == 1.6]) = some [true, true, true] := by
  cases pr <;> decide +kernel

end Verif

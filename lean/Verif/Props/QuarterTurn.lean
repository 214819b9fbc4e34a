import Verif.Props.ScalMono

/-!
# C117: quarter turns by `drot` and changes of sign by `dscal` are exact on binary64
-/

namespace Verif
open Float.Model F64 Scalar Spec

/-- The rotations by multiples of a right angle. -/
def Spec.QuarterTurn (c s : Float) : Prop := ((c = 1 ∨ c = -1) ∧ s = 0) ∨ (c = 0 ∧ (s = 1 ∨ s = -1))

namespace F64

theorem toR_m1 : (-1 : Float).isFinite = true ∧ toR (-1 : Float) = -1 :=
  ⟨by rw [neg_finite]; exact toR_one.1, by rw [neg_toR, toR_one.2]⟩

/-- Multiplication by `0`, `1` or `-1` is exact. -/
theorem mul_unit {c x : Float} (hc : toR c = 0 ∨ toR c = 1 ∨ toR c = -1) (fc : c.isFinite = true) (fx : x.isFinite = true) :
    (c * x).isFinite = true ∧ toR (c * x) = toR c * toR x := by
  have r := mul_rounds c x fc fx
  have o := abs_toR_lt x
  have z := one_lt_ovf
  rcases hc with h | h | h
  · rw [h, zero_mul] at r ⊢
    exact r.exact (by rw [abs_zero]; linarith) (by rw [← toR_zero.2]; exact grid_toR _)
  · rw [h, _root_.one_mul] at r ⊢
    exact r.exact o (grid_toR x)
  · rw [h, neg_one_mul] at r ⊢
    exact r.exact (by rw [abs_neg]; exact o) (grid_toR x).neg

/-- Addition of a zero is exact. -/
theorem add_unit {p q : Float} (fp : p.isFinite = true) (fq : q.isFinite = true) (h : toR p = 0 ∨ toR q = 0) :
    (p + q).isFinite = true ∧ toR (p + q) = toR p + toR q := by
  have r := add_rounds p q fp fq
  rcases h with h | h
  · rw [h, zero_add] at r ⊢
    exact r.exact (abs_toR_lt q) (grid_toR q)
  · rw [h, add_zero] at r ⊢
    exact r.exact (abs_toR_lt p) (grid_toR p)

end F64

theorem Spec.QuarterTurn.val {c s : Float} (h : QuarterTurn c s) : c.isFinite = true ∧ s.isFinite = true ∧
    (toR c = 0 ∨ toR c = 1 ∨ toR c = -1) ∧ (toR s = 0 ∨ toR s = 1 ∨ toR s = -1) ∧ (toR c = 0 ∨ toR s = 0) ∧ toR c ^ 2 + toR s ^ 2 = 1 := by
  have z : (0 : Float).isFinite = true ∧ toR (0 : Float) = 0 := toR_zero
  obtain ⟨o1, o2⟩ := toR_one
  obtain ⟨m1, m2⟩ := toR_m1
  rcases h with ⟨rfl | rfl, rfl⟩ | ⟨rfl, rfl | rfl⟩
  · exact ⟨o1, z.1, by simp [o2], by simp [z.2], by simp [z.2], by rw [o2, z.2]; norm_num⟩
  · exact ⟨m1, z.1, by simp [m2], by simp [z.2], by simp [z.2], by rw [m2, z.2]; norm_num⟩
  · exact ⟨z.1, o1, by simp [z.2], by simp [o2], by simp [z.2], by rw [o2, z.2]; norm_num⟩
  · exact ⟨z.1, m1, by simp [z.2], by simp [m2], by simp [z.2], by rw [m2, z.2]; norm_num⟩

theorem rot_unit {c s x y : Float} (h : QuarterTurn c s) (fx : x.isFinite = true) (fy : y.isFinite = true) :
    ((c * x + s * y).isFinite = true ∧ toR (c * x + s * y) = toR c * toR x + toR s * toR y) ∧
    ((c * y - s * x).isFinite = true ∧ toR (c * y - s * x) = toR c * toR y - toR s * toR x) := by
  obtain ⟨fc, fs, hc, hs, h0, -⟩ := h.val
  obtain ⟨a1, a2⟩ := mul_unit hc fc fx
  obtain ⟨b1, b2⟩ := mul_unit hs fs fy
  obtain ⟨c1, c2⟩ := mul_unit hc fc fy
  obtain ⟨d1, d2⟩ := mul_unit hs fs fx
  constructor
  · rw [← a2, ← b2]
    refine add_unit a1 b1 ?_
    rcases h0 with h0 | h0
    · left; rw [a2, h0, zero_mul]
    · right; rw [b2, h0, zero_mul]
  · rw [sub_eq_add_neg', sub_eq_add_neg (toR c * toR y), ← c2, ← d2, ← neg_toR]
    refine add_unit c1 (by rw [neg_finite]; exact d1) ?_
    rcases h0 with h0 | h0
    · left; rw [c2, h0, zero_mul]
    · right; rw [neg_toR, d2, h0, zero_mul, neg_zero]

/-- **C117.** `drot` by a multiple of a right angle is exact on binary64: it only exchanges elements and changes signs. A second call that turns back restores the values of all elements. -/
theorem C117_drot (n : Nat) (x y : List Float) (incx incy : Int) (c s : Float) (hcs : QuarterTurn c s) (hx0 : incx ≠ 0) (hy0 : incy ≠ 0)
    (hx : StrideFits n incx x.length) (hy : StrideFits n incy y.length)
    (hox : n * incx.natAbs + 1 < 2 ^ 31) (hoy : n * incy.natAbs + 1 < 2 ^ 31)
    (hf : ∀ l (hl : l < n), (x[strideIx n incx l]'(hx l hl)).isFinite = true ∧ (y[strideIx n incy l]'(hy l hl)).isFinite = true) :
    ∃ p q p' q' : List Float, drot (n : Int) x incx y incy c s = pure (p, q) ∧ drot (n : Int) p incx q incy c (-s) = pure (p', q') ∧
      ∀ l (hl : l < n), ∃ u v u' v', p[strideIx n incx l]? = some u ∧ q[strideIx n incy l]? = some v ∧ p'[strideIx n incx l]? = some u' ∧ q'[strideIx n incy l]? = some v' ∧
        u.isFinite = true ∧ toR u = toR c * toR (x[strideIx n incx l]'(hx l hl)) + toR s * toR (y[strideIx n incy l]'(hy l hl)) ∧
        v.isFinite = true ∧ toR v = toR c * toR (y[strideIx n incy l]'(hy l hl)) - toR s * toR (x[strideIx n incx l]'(hx l hl)) ∧
        u' == x[strideIx n incx l]'(hx l hl) ∧ v' == y[strideIx n incy l]'(hy l hl) := by
  obtain ⟨p, q, e, lp, lq, h, -⟩ := C14_drot n x y incx incy c s hx0 hy0 hx hy hox hoy
  have hp : StrideFits n incx p.length := by rw [lp]; exact hx
  have hq : StrideFits n incy q.length := by rw [lq]; exact hy
  obtain ⟨p', q', e', -, -, h', -⟩ := C14_drot n p q incx incy c (-s) hx0 hy0 hp hq hox hoy
  refine ⟨p, q, p', q', e, e', fun l hl => ?_⟩
  obtain ⟨g1, g2⟩ := h l hl
  obtain ⟨g1', g2'⟩ := h' l hl
  obtain ⟨⟨a1, a2⟩, b1, b2⟩ := rot_unit hcs (hf l hl).1 (hf l hl).2
  refine ⟨_, _, _, _, g1, g2, g1', g2', a1, a2, b1, b2, ?_⟩
  have ep : p[strideIx n incx l]'(hp l hl) = c * (x[strideIx n incx l]'(hx l hl)) + s * (y[strideIx n incy l]'(hy l hl)) := by
    rw [List.getElem?_eq_getElem (hp l hl)] at g1
    exact Option.some.inj g1
  have eq : q[strideIx n incy l]'(hq l hl) = c * (y[strideIx n incy l]'(hy l hl)) - s * (x[strideIx n incx l]'(hx l hl)) := by
    rw [List.getElem?_eq_getElem (hq l hl)] at g2
    exact Option.some.inj g2
  rw [ep, eq]
  have f := hf l hl
  clear hf
  generalize x[strideIx n incx l]'(hx l hl) = X at *
  generalize y[strideIx n incy l]'(hy l hl) = Y at *
  obtain ⟨fc, fs, hc, hs, h0, h1⟩ := hcs.val
  have fs' : (-s).isFinite = true := by rw [neg_finite]; exact fs
  have hs' : toR (-s) = 0 ∨ toR (-s) = 1 ∨ toR (-s) = -1 := by
    rw [neg_toR]
    rcases hs with h | h | h <;> rw [h] <;> norm_num
  obtain ⟨c1, c2⟩ := mul_unit hc fc a1
  obtain ⟨d1, d2⟩ := mul_unit hs' fs' b1
  obtain ⟨c1', c2'⟩ := mul_unit hc fc b1
  obtain ⟨d1', d2'⟩ := mul_unit hs' fs' a1
  rw [neg_toR] at d2 d2'
  obtain ⟨k1, k2⟩ := add_unit c1 d1 (by
    rcases h0 with h0 | h0
    · left; rw [c2, h0, zero_mul]
    · right; rw [d2, h0, neg_zero, zero_mul])
  obtain ⟨k1', k2'⟩ := add_unit c1' (q := -(-s * (c * X + s * Y))) (by rw [neg_finite]; exact d1') (by
    rcases h0 with h0 | h0
    · left; rw [c2', h0, zero_mul]
    · right; rw [neg_toR, d2', h0, neg_zero, zero_mul, neg_zero])
  rw [← sub_eq_add_neg'] at k1' k2'
  have fin : ∀ {u w : Float}, u.isFinite = true → w.isFinite = true → toR u = toR w → (u == w) = true := by
    intro u w f g h
    show Float.beq u w = true
    rw [beq_toXR, toXR_fin f, toXR_fin g, h]
    simp [XR.beq]
  constructor
  · refine fin k1 f.1 ?_
    rw [k2, c2, d2, a2, b2]
    linear_combination toR X * h1
  · refine fin k1' f.2 ?_
    rw [k2', neg_toR, c2', d2', a2, b2]
    linear_combination toR Y * h1

/-! ### dscal -/

/-- **C117.** `dscal` by `-1` changes the sign of every visited element, of zeros and infinities too, and nothing else; a second call gives the input back bit for bit. -/
theorem C117_dscal (n : Nat) (x : List Float) (incx : Int) (hinc : 1 ≤ incx) (hox : n * incx.natAbs + 1 < 2 ^ 31) :
    ∃ y : List Float, dscal (n : Int) (-1 : Float) x incx = pure y ∧ dscal (n : Int) (-1 : Float) y incx = pure x ∧
      (∀ l < n, y[strideIx n incx l]? = (x[strideIx n incx l]?).map fun v => -v) ∧ ∀ p, (∀ l < n, strideIx n incx l ≠ p) → y[p]? = x[p]? := by
  have ha : ((-1 : Float) =ᶠ (one : Float)) = false := by decide +kernel
  have hm : (fun v : Float => v * -1) = fun v => -v := by
    funext v
    rw [mul_neg', mul_comm', one_mul']
  obtain ⟨y, e, ly, h, f⟩ := C12_dscal_any_length n (-1 : Float) ha x incx hinc hox
  obtain ⟨z, e', lz, h', f'⟩ := C12_dscal_any_length n (-1 : Float) ha y incx hinc hox
  rw [hm] at h h'
  refine ⟨y, e, ?_, h, f⟩
  have : z = x := by
    apply List.ext_getElem?
    intro p
    by_cases hp : ∃ l < n, strideIx n incx l = p
    · obtain ⟨l, hl, rfl⟩ := hp
      rw [h' l hl, h l hl, Option.map_map]
      have : ((fun v : Float => -v) ∘ fun v => -v) = id := by
        funext v
        exact neg_neg' v
      rw [this, Option.map_id, id]
    · have hp : ∀ l < n, strideIx n incx l ≠ p := fun l hl e => hp ⟨l, hl, e⟩
      rw [f' p hp, f p hp]
  rw [e', this]

/-- A case with zeros of both signs and an infinity. -/
theorem C117_dscal_example (pr : Profile) :
    ((dscal (F := Float) 4 (-1) ([0.1, 0, -0.0, 1 / 0] : List Float) 1 pr).val?.map fun r => r.map Float.toBits) = some (([-0.1, -0.0, 0, -1 / 0] : List Float).map Float.toBits) := by
  cases pr <;> decide +kernel

/-- A case: two quarter turns, forth and back. -/
theorem C117_drot_example (pr : Profile) :
    ((drot (F := Float) 1 ([0.1] : List Float) 1 ([0.7] : List Float) 1 0 (-1) pr).val?) = some ([-0.7], [0.1]) ∧
    ((drot (F := Float) 1 ([-0.7] : List Float) 1 ([0.1] : List Float) 1 0 (-(-1)) pr).val?) = some ([0.1], [0.7]) ∧ QuarterTurn 0 (-1) := by
  refine ⟨by cases pr <;> decide +kernel, by cases pr <;> decide +kernel, Or.inr ⟨rfl, Or.inr rfl⟩⟩

end Verif

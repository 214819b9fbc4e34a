import Verif.Lib.F64Even
import Verif.Props.GemmBitsArr
import Verif.Props.RotF64
import Verif.Props.Lapy2F64

/-!
# C103: scaling by powers of two on binary64

Specification: `F64.Sc k v w` says that `v` and `w` are finite and `w = v·2^k` exactly; `F64.NoUnderflow X` says that the real number `X` is zero or at least the
smallest normal number `2^-1022` in magnitude.
-/

namespace Verif
open F64 Scalar Spec

/-! ### dscal -/

/-- What is asked of an element `v` for `v·2^k` to be a binary64 number: the result does not overflow, and does not underflow if `k < 0`. -/
def Spec.ScalesExactly (d : Float) (k : ℤ) (v : Float) : Prop :=
  v.isFinite = true ∧ (v * d).isFinite = true ∧ (0 ≤ k ∨ NoUnderflow (toR v * 2 ^ k))

theorem one_pow_two {d : Float} {k : ℤ} (hd : toR d = 2 ^ k) (h : (d =ᶠ (one : Float)) = true) : k = 0 := by
  have := (eq_toR toR_one'.1 h).2
  rw [toR_one'.2, hd] at this
  exact (zpow_eq_one_iff_right₀ (by norm_num) (by norm_num)).1 this

/-- **C103.** `dscal` with a power of two is exact. -/
theorem C103_dscal_exact (n : Nat) (d : Float) (k : ℤ) (hd : toR d = 2 ^ k) (x : List Float) (incx : Int)
    (hinc : 1 ≤ incx) (hox : n * incx.natAbs + 1 < 2 ^ 31)
    (h : ∀ l < n, ∀ v, x[strideIx n incx l]? = some v → ScalesExactly d k v) :
    ∃ x' : List Float, dscal (n : Int) d x incx = pure x' ∧ x'.length = x.length ∧
      (∀ l < n, ∀ v, x[strideIx n incx l]? = some v → ∃ w, x'[strideIx n incx l]? = some w ∧ Sc k v w) ∧
      (∀ p, (∀ l < n, strideIx n incx l ≠ p) → x'[p]? = x[p]?) := by
  cases ha : (d =ᶠ (one : Float))
  · obtain ⟨x', e, l, h', f⟩ := C12_dscal_any_length n d ha x incx hinc hox
    refine ⟨x', e, l, fun l hl v hv => ⟨v * d, ?_, ?_⟩, f⟩
    · rw [h' l hl, hv]; rfl
    · obtain ⟨h1, h2, h3⟩ := h l hl v hv
      exact mul_pow_two h1 hd h3 h2
  · refine ⟨x, C13_dscal_noop _ _ _ _ (Or.inr (Or.inr ha)), rfl, fun l hl v hv => ⟨v, hv, ?_⟩, fun _ _ => rfl⟩
    rw [one_pow_two hd ha]
    exact Sc.refl (h l hl v hv).1

/-- **C103.** `dscal` with a power of two and then with its inverse gives back the vector, bit for bit. -/
theorem C103_dscal_back (n : Nat) (d d' : Float) (k : ℤ) (fd : d.isFinite = true) (fd' : d'.isFinite = true) (hd : toR d = 2 ^ k) (hd' : toR d' = 2 ^ (-k))
    (x : List Float) (incx : Int) (hinc : 1 ≤ incx) (hox : n * incx.natAbs + 1 < 2 ^ 31)
    (h : ∀ l < n, ∀ v, x[strideIx n incx l]? = some v → ScalesExactly d k v) :
    ∃ y : List Float, dscal (n : Int) d x incx = pure y ∧ dscal (n : Int) d' y incx = pure x := by
  cases ha : (d =ᶠ (one : Float))
  · cases ha' : (d' =ᶠ (one : Float))
    · obtain ⟨y, e, l, h', f⟩ := C12_dscal_any_length n d ha x incx hinc hox
      obtain ⟨z, e', l', h'', f'⟩ := C12_dscal_any_length n d' ha' y incx hinc hox
      refine ⟨y, e, ?_⟩
      rw [e']
      congr 1
      apply List.ext_getElem?
      intro p
      by_cases hp : ∀ l < n, strideIx n incx l ≠ p
      · rw [f' p hp, f p hp]
      · push Not at hp
        obtain ⟨j, hj, rfl⟩ := hp
        rw [h'' j hj, h' j hj]
        cases hv : x[strideIx n incx j]? with
        | none => rfl
        | some v =>
          obtain ⟨h1, h2, h3⟩ := h j hj v hv
          show some (v * d * d') = some v
          rw [mul_pow_two_back h1 hd hd' fd fd' h3 h2]
    · have hk := one_pow_two hd' ha'
      have h1 : d = 1 := toR_inj (by rw [hd, toR_one.2, show k = 0 by omega]; simp) fd toR_one.1 (by rw [hd]; exact (zp k).ne')
      rw [h1, show ((1 : Float) =ᶠ (one : Float)) = true by decide +kernel] at ha
      cases ha
  · have hk := one_pow_two hd ha
    subst hk
    have h1 : d' = 1 := toR_inj (by rw [hd', toR_one.2]; simp) fd' toR_one.1 (by rw [hd']; exact (zp _).ne')
    exact ⟨x, C13_dscal_noop _ _ _ _ (Or.inr (Or.inr ha)), C13_dscal_noop _ _ _ _ (Or.inr (Or.inr (by rw [h1]; decide +kernel)))⟩

/-! ### drot -/

theorem rot_scale {k : ℤ} {c s x y x' y' : Float} (hc : c.isFinite = true) (hs : s.isFinite = true) (hx : Sc k x x') (hy : Sc k y y')
    (u1 : NoUnderflow (toR c * toR x)) (u2 : NoUnderflow (toR s * toR y)) (u1' : NoUnderflow (toR c * toR x')) (u2' : NoUnderflow (toR s * toR y'))
    (f : (c * x + s * y).isFinite = true) (f' : (c * x' + s * y').isFinite = true) : Sc k (c * x + s * y) (c * x' + s * y') := by
  have g := finite_of_add f
  have g' := finite_of_add f'
  have a := (Sc.refl hc).mul hx u1 u1' g.1 g'.1
  have b := (Sc.refl hs).mul hy u2 u2' g.2 g'.2
  rw [zero_add] at a b
  exact a.add b f f'

theorem rot_scale' {k : ℤ} {c s x y x' y' : Float} (hc : c.isFinite = true) (hs : s.isFinite = true) (hx : Sc k x x') (hy : Sc k y y')
    (u1 : NoUnderflow (toR c * toR x)) (u2 : NoUnderflow (toR s * toR y)) (u1' : NoUnderflow (toR c * toR x')) (u2' : NoUnderflow (toR s * toR y'))
    (f : (c * x - s * y).isFinite = true) (f' : (c * x' - s * y').isFinite = true) : Sc k (c * x - s * y) (c * x' - s * y') := by
  have g := finite_of_sub f
  have g' := finite_of_sub f'
  have a := (Sc.refl hc).mul hx u1 u1' g.1 g'.1
  have b := (Sc.refl hs).mul hy u2 u2' g.2 g'.2
  rw [zero_add] at a b
  exact a.sub b f f'

/-- The four products of a rotation do not underflow. -/
def Spec.RotNoUnderflow (c s x y : Float) : Prop :=
  NoUnderflow (toR c * toR x) ∧ NoUnderflow (toR s * toR y) ∧ NoUnderflow (toR c * toR y) ∧ NoUnderflow (toR s * toR x)

/-- **C103.** Rotating vectors scaled by `2^k` gives the rotated vectors scaled by `2^k`, without any further error, where the results of both calls are finite
and no product underflows. -/
theorem C103_drot (n : Nat) (k : ℤ) (x y xs ys : List Float) (incx incy : Int) (c s : Float) (hx0 : incx ≠ 0) (hy0 : incy ≠ 0)
    (hx : StrideFits n incx x.length) (hy : StrideFits n incy y.length) (hxs : StrideFits n incx xs.length) (hys : StrideFits n incy ys.length)
    (hox : n * incx.natAbs + 1 < 2 ^ 31) (hoy : n * incy.natAbs + 1 < 2 ^ 31) (hc : c.isFinite = true) (hs : s.isFinite = true)
    (hk : ∀ l (hl : l < n), Sc k (x[strideIx n incx l]'(hx l hl)) (xs[strideIx n incx l]'(hxs l hl)) ∧
      Sc k (y[strideIx n incy l]'(hy l hl)) (ys[strideIx n incy l]'(hys l hl)))
    (hu : ∀ l (hl : l < n), RotNoUnderflow c s (x[strideIx n incx l]'(hx l hl)) (y[strideIx n incy l]'(hy l hl)) ∧
      RotNoUnderflow c s (xs[strideIx n incx l]'(hxs l hl)) (ys[strideIx n incy l]'(hys l hl))) :
    ∃ p q ps qs : List Float, drot (n : Int) x incx y incy c s = pure (p, q) ∧ drot (n : Int) xs incx ys incy c s = pure (ps, qs) ∧
      ∀ l < n, ∃ u v us vs, p[strideIx n incx l]? = some u ∧ q[strideIx n incy l]? = some v ∧ ps[strideIx n incx l]? = some us ∧ qs[strideIx n incy l]? = some vs ∧
        (u.isFinite = true → us.isFinite = true → Sc k u us) ∧ (v.isFinite = true → vs.isFinite = true → Sc k v vs) := by
  obtain ⟨p, q, e, -, -, h, -⟩ := C14_drot n x y incx incy c s hx0 hy0 hx hy hox hoy
  obtain ⟨ps, qs, es, -, -, h', -⟩ := C14_drot n xs ys incx incy c s hx0 hy0 hxs hys hox hoy
  refine ⟨p, q, ps, qs, e, es, fun l hl => ⟨_, _, _, _, (h l hl).1, (h l hl).2, (h' l hl).1, (h' l hl).2, ?_, ?_⟩⟩
  · obtain ⟨⟨a1, a2, -, -⟩, b1, b2, -, -⟩ := hu l hl
    exact fun f f' => rot_scale hc hs (hk l hl).1 (hk l hl).2 a1 a2 b1 b2 f f'
  · obtain ⟨⟨-, -, a1, a2⟩, -, -, b1, b2⟩ := hu l hl
    exact fun f f' => rot_scale' hc hs (hk l hl).2 (hk l hl).1 a1 a2 b1 b2 f f'

/-! ### dgemm -/

theorem dot_scale {k : Nat} {t : ℤ} {δ ε : Nat → ℤ} {x y x' y' : Nat → Float} (hx : ∀ l < k, Sc (δ l) (x l) (x' l)) (hy : ∀ l < k, Sc (ε l) (y l) (y' l))
    (ht : ∀ l < k, δ l + ε l = t) (hu : ∀ l < k, NoUnderflow (toR (x l) * toR (y l)) ∧ NoUnderflow (toR (x' l) * toR (y' l)))
    (f : (dotF64 k x y).isFinite = true) (f' : (dotF64 k x' y').isFinite = true) : Sc t (dotF64 k x y) (dotF64 k x' y') := by
  induction k with
  | zero =>
    refine ⟨f, f', ?_⟩
    show toR (zero : Float) = toR (zero : Float) * 2 ^ t
    rw [toR_zero.2, zero_mul]
  | succ k ih =>
    have hs : ∀ x y : Nat → Float, dotF64 (k + 1) x y = dotF64 k x y + x k * y k := by
      intro x y
      unfold dotF64
      rw [List.range_succ, List.foldl_append]; rfl
    rw [hs] at f f'
    rw [hs, hs]
    have g := finite_of_add f
    have g' := finite_of_add f'
    refine (ih (fun l hl => hx l (by omega)) (fun l hl => hy l (by omega)) (fun l hl => ht l (by omega)) (fun l hl => hu l (by omega)) g.1 g'.1).add ?_ f f'
    have := (hx k (by omega)).mul (hy k (by omega)) (hu k (by omega)).1 (hu k (by omega)).2 g.2 g'.2
    rwa [ht k (by omega)] at this

/-- `A'` is `D_ρ A D_δ` and `B'` is `D_δ⁻¹ B D_γ` for diagonal matrices of powers of two; no product of two entries underflows. -/
structure Spec.DiagScaled (m n k : Nat) (ρ γ δ : Nat → ℤ) (A B A' B' : Nat → Nat → Float) : Prop where
  left : ∀ i < m, ∀ l < k, Sc (ρ i + δ l) (A i l) (A' i l)
  right : ∀ l < k, ∀ j < n, Sc (γ j - δ l) (B l j) (B' l j)
  under : ∀ i < m, ∀ l < k, ∀ j < n, NoUnderflow (toR (A i l) * toR (B l j))
  under' : ∀ i < m, ∀ l < k, ∀ j < n, NoUnderflow (toR (A' i l) * toR (B' l j))

theorem Spec.DiagScaled.dot {m n k : Nat} {ρ γ δ : Nat → ℤ} {A B A' B' : Nat → Nat → Float} (h : DiagScaled m n k ρ γ δ A B A' B') {i j : Nat} (hi : i < m) (hj : j < n)
    (f : (dotF64 k (A i) fun l => B l j).isFinite = true) (f' : (dotF64 k (A' i) fun l => B' l j).isFinite = true) :
    Sc (ρ i + γ j) (dotF64 k (A i) fun l => B l j) (dotF64 k (A' i) fun l => B' l j) :=
  dot_scale (fun l hl => h.left i hi l hl) (fun l hl => h.right l hl j hj) (fun l hl => by ring) (fun l hl => ⟨h.under i hi l hl j hj, h.under' i hi l hl j hj⟩) f f'

/-- **C103.** Scaling the rows of `op(A)`, the columns of `op(B)`, and the inner index, by powers of two scales the rows and columns of the product, without
any further error: entry `(i, j)` gets the factor `2^(ρ i + γ j)` wherever both results are finite. -/
theorem C103_dgemm {ta tb : Char} (hta : TransFlag ta) (htb : TransFlag tb) (m n k : Nat) (a b c a' b' c' : List Float) (lda ldb ldc : Nat)
    (sa : Stored a lda (storedRows ta m k) (storedCols ta m k)) (sb : Stored b ldb (storedRows tb k n) (storedCols tb k n)) (sc : Stored c ldc m n)
    (sa' : Stored a' lda (storedRows ta m k) (storedCols ta m k)) (sb' : Stored b' ldb (storedRows tb k n) (storedCols tb k n)) (sc' : Stored c' ldc m n)
    (ρ γ δ : Nat → ℤ) (h : DiagScaled m n k ρ γ δ (op ta (entry a lda)) (op tb (entry b ldb)) (op ta (entry a' lda)) (op tb (entry b' ldb))) :
    ∃ r r' : List Float, dgemm ta tb m n k (1 : Float) a lda b ldb 0 c ldc = (pure r : R (List Float)) ∧
      dgemm ta tb m n k (1 : Float) a' lda b' ldb 0 c' ldc = (pure r' : R (List Float)) ∧
      ∀ i < m, ∀ j < n, ∃ v w, r[i + j * ldc]? = some v ∧ r'[i + j * ldc]? = some w ∧ (v.isFinite = true → w.isFinite = true → Sc (ρ i + γ j) v w) := by
  obtain ⟨r, e, u⟩ := C95_dgemm_dot hta htb m n k a b c lda ldb ldc sa sb sc
  obtain ⟨r', e', u'⟩ := C95_dgemm_dot hta htb m n k a' b' c' lda ldb ldc sa' sb' sc'
  exact ⟨r, r', e, e', fun i hi j hj => ⟨_, _, u.block i hi j hj, u'.block i hi j hj, fun f f' => h.dot hi hj f f'⟩⟩

/-- **C103.** `C103_dgemm` for arrays. -/
theorem C103_dgemm_array {ta tb : Char} (hta : TransFlag ta) (htb : TransFlag tb) (m n k : Nat) (a b c a' b' c' : FA Float) (lda ldb ldc : Int) (ra rb rc : Nat)
    (hla : max 1 (storedRows ta m k : Int) ≤ lda) (hlb : max 1 (storedRows tb k n : Int) ≤ ldb) (hlc : max 1 (m : Int) ≤ ldc)
    (ha : a.rows = ra) (hb : b.rows = rb) (hc : c.rows = rc) (ha' : a'.rows = ra) (hb' : b'.rows = rb) (hc' : c'.rows = rc)
    (sa : Stored a.data ra (storedRows ta m k) (storedCols ta m k)) (sb : Stored b.data rb (storedRows tb k n) (storedCols tb k n)) (sc : Stored c.data rc m n)
    (sa' : Stored a'.data ra (storedRows ta m k) (storedCols ta m k)) (sb' : Stored b'.data rb (storedRows tb k n) (storedCols tb k n)) (sc' : Stored c'.data rc m n)
    (ρ γ δ : Nat → ℤ) (h : DiagScaled m n k ρ γ δ (op ta (entry a.data ra)) (op tb (entry b.data rb)) (op ta (entry a'.data ra)) (op tb (entry b'.data rb))) :
    ∃ r r' : FA Float, dgemm ta tb m n k (1 : Float) a lda b ldb 0 c ldc = (pure r : R (FA Float)) ∧
      dgemm ta tb m n k (1 : Float) a' lda b' ldb 0 c' ldc = (pure r' : R (FA Float)) ∧
      ∀ i < m, ∀ j < n, ∃ v w, r.data[i + j * rc]? = some v ∧ r'.data[i + j * rc]? = some w ∧ (v.isFinite = true → w.isFinite = true → Sc (ρ i + γ j) v w) := by
  obtain ⟨r, e, -, -, u⟩ := C95_dgemm_dot_array hta htb m n k a b c lda ldb ldc ra rb rc hla hlb hlc ha hb hc sa sb sc
  obtain ⟨r', e', -, -, u'⟩ := C95_dgemm_dot_array hta htb m n k a' b' c' lda ldb ldc ra rb rc hla hlb hlc ha' hb' hc' sa' sb' sc'
  exact ⟨r, r', e, e', fun i hi j hj => ⟨_, _, u.block i hi j hj, u'.block i hi j hj, fun f f' => h.dot hi hj f f'⟩⟩

/-- **C103.** `C103_dgemm` for nested vectors. -/
theorem C103_dgemm_nested {ta tb : Char} (hta : TransFlag ta) (htb : TransFlag tb) (m n k : Nat) (a b c a' b' c' : List (List Float)) (lda ldb ldc : Int) (ra rb rc : Nat)
    (hla : max 1 (storedRows ta m k : Int) ≤ lda) (hlb : max 1 (storedRows tb k n : Int) ≤ ldb) (hlc : max 1 (m : Int) ≤ ldc)
    (ha : Rect a ra ra) (hb : Rect b rb rb) (hc : Rect c rc rc) (ha' : Rect a' ra ra) (hb' : Rect b' rb rb) (hc' : Rect c' rc rc)
    (sa : Stored a.flatten ra (storedRows ta m k) (storedCols ta m k)) (sb : Stored b.flatten rb (storedRows tb k n) (storedCols tb k n)) (sc : Stored c.flatten rc m n)
    (sa' : Stored a'.flatten ra (storedRows ta m k) (storedCols ta m k)) (sb' : Stored b'.flatten rb (storedRows tb k n) (storedCols tb k n)) (sc' : Stored c'.flatten rc m n)
    (ρ γ δ : Nat → ℤ) (h : DiagScaled m n k ρ γ δ (op ta (entry a.flatten ra)) (op tb (entry b.flatten rb)) (op ta (entry a'.flatten ra)) (op tb (entry b'.flatten rb))) :
    ∃ r r' : List (List Float), dgemm ta tb m n k (1 : Float) a lda b ldb 0 c ldc = (pure r : R (List (List Float))) ∧
      dgemm ta tb m n k (1 : Float) a' lda b' ldb 0 c' ldc = (pure r' : R (List (List Float))) ∧
      ∀ i < m, ∀ j < n, ∃ v w, r.flatten[i + j * rc]? = some v ∧ r'.flatten[i + j * rc]? = some w ∧ (v.isFinite = true → w.isFinite = true → Sc (ρ i + γ j) v w) := by
  obtain ⟨r, e, -, u⟩ := C95_dgemm_dot_nested hta htb m n k a b c lda ldb ldc ra rb rc hla hlb hlc ha hb hc sa sb sc
  obtain ⟨r', e', -, u'⟩ := C95_dgemm_dot_nested hta htb m n k a' b' c' lda ldb ldc ra rb rc hla hlb hlc ha' hb' hc' sa' sb' sc'
  exact ⟨r, r', e, e', fun i hi j hj => ⟨_, _, u.block i hi j hj, u'.block i hi j hj, fun f f' => h.dot hi hj f f'⟩⟩

/-! ### dlapy2 -/

theorem F64.Sc.mul0 {x x' y y' : Float} (h : Sc 0 x x') (h' : Sc 0 y y') (f : (x * y).isFinite = true) (f' : (x' * y').isFinite = true) : Sc 0 (x * y) (x' * y') := by
  refine ⟨f, f', ?_⟩
  have e := h.eq
  have e' := h'.eq
  rw [zpow_zero, mul_one] at e e' ⊢
  rw [mul_fl f, mul_fl f', e, e']

theorem le_ovf {X : ℝ} (h : |X| ≤ 2) : |X| < ovf := by
  have := (int_grid (n := 2) (by norm_num)).2
  rw [abs_of_pos (by norm_num)] at this
  push_cast at this
  linarith

/-- The factor `sqrt(1 + q²)` of `dlapy2`, for a quotient `0 ≤ q ≤ 1`. -/
theorem factor_fin {q : Float} (fq : q.isFinite = true) (h0 : 0 ≤ toR q) (h1 : toR q ≤ 1) :
    (q * q).isFinite = true ∧ ((1 : Float) + q * q).isFinite = true ∧ 1 ≤ toR ((1 : Float) + q * q) ∧ 1 ≤ toR (Float.sqrt (1 + q * q)) := by
  have g1 : Grid (1 : ℝ) := by simpa using grid_nat (n := 1) (by norm_num)
  have hqq : toR q * toR q ≤ 1 := by nlinarith
  have hqq0 : 0 ≤ toR q * toR q := mul_nonneg h0 h0
  have r1 := mul_rounds q q fq fq
  have f1 := r1.finite (le_ovf (by rw [abs_of_nonneg hqq0]; linarith))
  have p1 := (r1.fl f1).nonneg hqq0
  have p1' := (r1.fl f1).upper 1 g1 hqq
  have r2 := add_rounds 1 (q * q) toR_one.1 f1
  rw [toR_one.2] at r2
  have f2 := r2.finite (le_ovf (by rw [abs_of_nonneg (by linarith)]; linarith))
  have p2 := (r2.fl f2).lower 1 g1 (by linarith)
  have r3 := sqrt_rounds _ f2 (by linarith)
  have f3 : (Float.sqrt (1 + q * q)).isFinite = true := by
    have u2 : toR ((1 : Float) + q * q) ≤ 2 := (r2.fl f2).upper 2 (by simpa using grid_nat (n := 2) (by norm_num)) (by linarith)
    refine r3.finite (le_ovf ?_)
    rw [abs_of_nonneg (Real.sqrt_nonneg _)]
    exact Real.sqrt_le_iff.2 ⟨by norm_num, by linarith⟩
  exact ⟨f1, f2, p2, (r3.fl f3).lower 1 g1 (Real.one_le_sqrt.2 p2)⟩

/-- **C103.** `dlapy2` of numbers scaled by `2^k` is the value scaled by `2^k`, without any further error, if the larger number is zero or normal in both
calls and both results are finite. -/
theorem C103_dlapy2 (k : ℤ) (x y x' y' : Float) (hx : Sc k x x') (hy : Sc k y y') (u : NoUnderflow (max |toR x| |toR y|)) (u' : NoUnderflow (max |toR x'| |toR y'|))
    (f : (dlapy2 x y).isFinite = true) (f' : (dlapy2 x' y').isFinite = true) : Sc k (dlapy2 x y) (dlapy2 x' y') := by
  have hp := zp k
  have hW : Sc k (F64.fmax x.abs y.abs) (F64.fmax x'.abs y'.abs) := by
    have a := fmax_fin hx.fx hy.fx
    have b := fmax_fin hx.fy hy.fy
    refine ⟨a.1, b.1, ?_⟩
    rw [a.2, b.2, hx.eq, hy.eq, abs_mul, abs_mul, abs_of_pos hp, max_mul_of_nonneg _ _ hp.le]
  have hZ : Sc k (F64.fmin x.abs y.abs) (F64.fmin x'.abs y'.abs) := by
    have a := fmin_fin hx.fx hy.fx
    have b := fmin_fin hx.fy hy.fy
    refine ⟨a.1, b.1, ?_⟩
    rw [a.2, b.2, hx.eq, hy.eq, abs_mul, abs_mul, abs_of_pos hp, min_mul_of_nonneg _ _ hp.le]
  have uW : NoUnderflow (toR (F64.fmax x.abs y.abs)) := by rw [(fmax_fin hx.fx hy.fx).2]; exact u
  have uW' : NoUnderflow (toR (F64.fmax x'.abs y'.abs)) := by rw [(fmax_fin hx.fy hy.fy).2]; exact u'
  have hle : toR (F64.fmin x.abs y.abs) ≤ toR (F64.fmax x.abs y.abs) := by
    rw [(fmax_fin hx.fx hy.fx).2, (fmin_fin hx.fx hy.fx).2]; exact min_le_max
  have hz0 : 0 ≤ toR (F64.fmin x.abs y.abs) := by
    rw [(fmin_fin hx.fx hy.fx).2]; exact le_min (abs_nonneg _) (abs_nonneg _)
  rw [dlapy2_def, finite_not_nan hx.fx, finite_not_nan hy.fx] at f ⊢
  rw [dlapy2_def, finite_not_nan hx.fy, finite_not_nan hy.fy] at f' ⊢
  generalize F64.fmax x.abs y.abs = W at *
  generalize F64.fmax x'.abs y'.abs = W' at *
  generalize F64.fmin x.abs y.abs = Z at *
  generalize F64.fmin x'.abs y'.abs = Z' at *
  rw [le_max hW.fx] at f ⊢
  rw [le_max hW.fy] at f' ⊢
  have hb : Float.beq Z' 0 = Float.beq Z 0 := by
    rw [beq_toXR, beq_toXR, toXR_fin hZ.fx, toXR_fin hZ.fy, show toXR (0 : Float) = XR.fin 0 from (toXR_fin toR_zero.1).trans (congrArg XR.fin toR_zero.2)]
    simp only [XR.beq, hZ.eq, mul_eq_zero, hp.ne', or_false]
  rw [hb] at f' ⊢
  simp only [Bool.false_eq_true, if_false, Bool.or_false] at f f' ⊢
  by_cases hz : Float.beq Z 0 = true
  · rw [if_pos hz, if_pos hz]; exact hW
  · rw [if_neg hz] at f f' ⊢
    rw [if_neg hz]
    have hZp : 0 < toR Z := by
      refine lt_of_le_of_ne hz0 fun h => hz ?_
      rw [beq_toXR, toXR_fin hZ.fx, show toXR (0 : Float) = XR.fin 0 from (toXR_fin toR_zero.1).trans (congrArg XR.fin toR_zero.2), ← h]
      simp [XR.beq]
    have hWp : 0 < toR W := by linarith
    have hWp' : 0 < toR W' := by rw [hW.eq]; exact mul_pos hWp hp
    have g1 : Grid (1 : ℝ) := by simpa using grid_nat (n := 1) (by norm_num)
    have q1 : toR Z / toR W ≤ 1 := (div_le_one hWp).2 hle
    have q0 : 0 ≤ toR Z / toR W := div_nonneg hz0 hWp.le
    have qe : toR Z' / toR W' = toR Z / toR W := by rw [hZ.eq, hW.eq, mul_div_mul_right _ _ hp.ne']
    have rq := div_rounds Z W hZ.fx hW.fx hWp.ne'
    have rq' := div_rounds Z' W' hZ.fy hW.fy hWp'.ne'
    rw [qe] at rq'
    have fq := rq.finite (le_ovf (by rw [abs_of_nonneg q0]; linarith))
    have fq' := rq'.finite (le_ovf (by rw [abs_of_nonneg q0]; linarith))
    have sq : Sc 0 (Z / W) (Z' / W') := ⟨fq, fq', by rw [div_fl hZ.fx hW.fx hWp.ne' fq, div_fl hZ.fy hW.fy hWp'.ne' fq', qe]; simp⟩
    obtain ⟨a1, a2, a3, a4⟩ := factor_fin fq ((rq.fl fq).nonneg q0) ((rq.fl fq).upper 1 g1 q1)
    obtain ⟨b1, b2, b3, b4⟩ := factor_fin fq' ((rq'.fl fq').nonneg q0) ((rq'.fl fq').upper 1 g1 q1)
    have s2 := (sq.mul0 sq a1 b1)
    have s3 := (Sc.refl toR_one.1).add s2 a2 b2
    have s4 := Sc.sqrt (k := 0) (by simpa using s3) (by linarith)
    have hu : ∀ {V S : Float}, NoUnderflow (toR V) → 1 ≤ toR S → NoUnderflow (toR V * toR S) := by
      intro V S h h1
      rcases h with h | h
      · left; rw [h, zero_mul]
      · right
        rw [abs_mul, abs_of_nonneg (by linarith : 0 ≤ toR S)]
        nlinarith [abs_nonneg (toR V)]
    have := hW.mul s4 (hu uW a4) (hu uW' b4) f f'
    rwa [add_zero] at this

/-! ### Cases -/

/-- Scaling by `1/4` and by `4`: the vector comes back. -/
theorem C103_dscal_example (pr : Profile) :
    ((dscal (F := Float) 3 0.25 ([0.1, -0.7, 3] : List Float) 1 pr).val?.bind fun y => (dscal (F := Float) 3 4 y 1 pr).val?) = some [0.1, -0.7, 3] := by
  cases pr <;> decide +kernel

/-- Underflow spoils it: half of the smallest subnormal number is zero. -/
theorem C103_dscal_underflow (pr : Profile) :
    ((dscal (F := Float) 1 0.5 ([Float.ofBits 1] : List Float) 1 pr).val?.bind fun y => (dscal (F := Float) 1 2 y 1 pr).val?) = some [0] := by
  cases pr <;> decide +kernel

/-- Rows scaled by `2` and `1/8`, the column by `4`: the product is scaled by `8` and `1/2`. -/
theorem C103_dgemm_example (pr : Profile) :
    (dgemm (F := Float) 'N' 'N' 2 1 2 1 ([0.1, 0.3, -0.7, 0.9] : List Float) 2 ([1.1, 1.3] : List Float) 2 0 ([7, 7] : List Float) 2 pr).val?.map
        (fun r => r.zipWith (· * ·) [8, 0.5]) =
      (dgemm (F := Float) 'N' 'N' 2 1 2 1 ([0.1 * 2, 0.3 / 8, -0.7 * 2, 0.9 / 8] : List Float) 2 ([1.1 * 4, 1.3 * 4] : List Float) 2 0 ([7, 7] : List Float) 2 pr).val? := by
  cases pr <;> decide +kernel

/-- `dlapy2` of `0.1` and `0.7`, and of `0.4` and `2.8`. -/
theorem C103_dlapy2_example : dlapy2 (F := Float) (0.1 * 4) (0.7 * 4) = dlapy2 0.1 0.7 * 4 := by decide +kernel

end Verif

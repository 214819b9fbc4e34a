import Verif.Lib.Array
import Verif.Model.Blas
import Verif.Spec.Stride

/-!
# Helper lemmas for the vector routines
-/

set_option linter.unusedSectionVars false

namespace Verif
open Scalar

variable {F : Type} [Scalar F]

/-- Position (1-based, as in the code) of element `k`. -/
def pos (n : Nat) (inc : Int) (k : Nat) : Int := (strideIx n inc k : Int) + 1

theorem pos_nonneg (n : Nat) {inc : Int} (h : 0 ≤ inc) (k : Nat) : pos n inc k = 1 + k * inc := by
  unfold pos strideIx
  rw [if_neg (by omega)]
  push_cast
  rw [abs_of_nonneg h]; ring

theorem pos_neg {n : Nat} {inc : Int} (h : inc < 0) {k : Nat} (hk : k < n) :
    pos n inc k = 1 + ((n : Int) - 1 - k) * (-inc) := by
  unfold pos strideIx
  rw [if_pos h]
  push_cast
  rw [abs_of_neg h]
  have : ((n - 1 - k : Nat) : Int) = (n : Int) - 1 - k := by omega
  rw [this]; ring

/-- The increments are `i32` values small enough that no index computed by the loop overflows. -/
def StrideOK (n : Nat) (inc : Int) : Prop := n * inc.natAbs + 1 < 2 ^ 31

theorem pos_fits {n : Nat} {inc : Int} (h : StrideOK n inc) {k : Nat} (hk : k < n) :
    1 ≤ pos n inc k ∧ FitsI32 (pos n inc k) := by
  unfold StrideOK at h
  have : strideIx n inc k ≤ n * inc.natAbs := by
    unfold strideIx
    split
    · exact Nat.mul_le_mul_right _ (by omega)
    · exact Nat.mul_le_mul_right _ (by omega)
  unfold pos FitsI32
  omega

/-- The index the loop variable holds before round `k ≤ n`. -/
def ixAt (n : Nat) (inc : Int) (k : Nat) : Int :=
  if inc < 0 then 1 + ((n : Int) - 1 - k) * (-inc) else 1 + k * inc

theorem ixAt_eq_pos {n : Nat} {inc : Int} {k : Nat} (hk : k < n) : ixAt n inc k = pos n inc k := by
  unfold ixAt
  split
  · rename_i h; rw [pos_neg h hk]
  · rename_i h; rw [pos_nonneg n (by omega)]

theorem ixAt_succ (n : Nat) (inc : Int) (k : Nat) : ixAt n inc (k + 1) = ixAt n inc k + inc := by
  unfold ixAt
  split <;> (push_cast; ring)

theorem ixAt_fits {n : Nat} {inc : Int} (hn : 0 < n) (h : StrideOK n inc) {k : Nat} (hk : k ≤ n) :
    FitsI32 (ixAt n inc k) := by
  unfold StrideOK at h
  have habs : (n : Int) * |inc| + 1 < 2147483648 := by
    have : ((n * inc.natAbs + 1 : Nat) : Int) < 2147483648 := by exact_mod_cast h
    push_cast at this; exact this
  have h1 : (1 : Int) ≤ n := by omega
  have h2 : (0 : Int) ≤ k := by omega
  have h3 : (k : Int) ≤ n := by omega
  unfold ixAt FitsI32
  split
  · rename_i hneg
    rw [abs_of_neg hneg] at habs
    constructor <;> nlinarith
  · rename_i hnn
    rw [abs_of_nonneg (by omega)] at habs
    constructor <;> nlinarith

theorem startIx_ok {n : Nat} {inc : Int} (hn : 0 < n) (h : StrideOK n inc) :
    startIx (n : Int) inc = pure (ixAt n inc 0) := by
  have hf := ixAt_fits hn h (Nat.zero_le n)
  have habs : (n : Int) * |inc| + 1 < 2147483648 := by
    have : ((n * inc.natAbs + 1 : Nat) : Int) < 2147483648 := by exact_mod_cast h
    push_cast at this; exact this
  have h1 : (1 : Int) ≤ n := by omega
  unfold startIx
  by_cases hneg : inc < 0
  · rw [if_pos hneg]
    have e0 : ixAt n inc 0 = 1 + ((n : Int) - 1) * (-inc) := by
      unfold ixAt; rw [if_pos hneg]; push_cast; ring
    rw [e0] at hf ⊢
    rw [abs_of_neg hneg] at habs
    have hb : (0 : Int) ≤ ((n : Int) - 1) * (-inc) := Int.mul_nonneg (by omega) (by omega)
    have hn2 : (n : Int) ≤ n * (-inc) := by nlinarith
    rw [iadd_ok (by unfold FitsI32; omega)]
    simp only [pure_bind]
    have e1 : (-(n : Int) + 1) * inc = ((n : Int) - 1) * (-inc) := by ring
    rw [imul_ok (by rw [e1]; unfold FitsI32 at hf ⊢; omega), e1]
    simp only [pure_bind]
    rw [iadd_ok (by unfold FitsI32 at hf ⊢; omega)]
    congr 1; ring
  · rw [if_neg hneg]
    unfold ixAt
    rw [if_neg hneg]; simp

/-! ### DCOPY -/

/-- The contents after the first `k` element copies. -/
def copyFold (ps : Nat → Int) (val : Nat → F) (g : Int → F) : Nat → Int → F
  | 0 => g
  | k + 1 => upd (copyFold ps val g k) (ps k) (val k)

theorem copyFold_out (ps : Nat → Int) (val : Nat → F) (g : Int → F) (n : Nat) (p : Int)
    (h : ∀ k < n, ps k ≠ p) : copyFold ps val g n p = g p := by
  induction n with
  | zero => rfl
  | succ n ih =>
    rw [copyFold, upd, if_neg (Ne.symm (h n (by omega))), ih (fun k hk => h k (by omega))]

theorem copyFold_in (ps : Nat → Int) (val : Nat → F) (g : Int → F) (n : Nat) (k : Nat) (hk : k < n)
    (h : ∀ k', k < k' → k' < n → ps k' ≠ ps k) : copyFold ps val g n (ps k) = val k := by
  induction n with
  | zero => omega
  | succ n ih =>
    rw [copyFold, upd]
    by_cases hkn : k = n
    · subst hkn; simp
    · rw [if_neg (Ne.symm (h n (by omega) (by omega))), ih (by omega)
        (fun k' h1 h2 => h k' h1 (by omega))]

/-- The plain loop of `dcopy`. -/
theorem dcopy_plain {n : Nat} {incx incy : Int} (hn : 0 < n) (hx : StrideOK n incx)
    (hy : StrideOK n incy) (dx dy : FA F) {L : Nat} {g : Int → F} (hd : Is1 dy L g) :
    ∃ dy', (forUp 1 (n : Int) (dy, ixAt n incx 0, ixAt n incy 0) (dcopyStep dx incx incy) =
      pure dy') ∧
      Is1 dy'.1 L (copyFold (pos n incy) (fun k => dx.get1 (pos n incx k)) g n) := by
  obtain ⟨s', h1, h2⟩ := forUp_iter (P := fun k (s : FA F × Int × Int) =>
      s.2.1 = ixAt n incx k ∧ s.2.2 = ixAt n incy k ∧
      Is1 s.1 L (copyFold (pos n incy) (fun k => dx.get1 (pos n incx k)) g k))
    (f := dcopyStep dx incx incy) n (s := (dy, ixAt n incx 0, ixAt n incy 0)) ⟨rfl, rfl, hd⟩
    (by
      rintro k ⟨d, ix, iy⟩ hk ⟨rfl, rfl, h3⟩
      unfold dcopyStep
      simp only
      rw [iadd_ok (by rw [← ixAt_succ]; exact ixAt_fits hn hx hk),
        iadd_ok (by rw [← ixAt_succ]; exact ixAt_fits hn hy hk)]
      refine ⟨_, rfl, by rw [ixAt_succ], by rw [ixAt_succ], ?_⟩
      rw [ixAt_eq_pos hk, ixAt_eq_pos hk]
      exact set1_is1 h3 (pos_fits hy hk).1 (pos_fits hy hk).2 _)
  exact ⟨s', h1, h2.2.2⟩

theorem pos_one (n k : Nat) : pos n 1 k = (k : Int) + 1 := by
  rw [pos_nonneg n (by omega)]; ring

/-- The unit-stride loops of `dcopy`: the first `m` elements one by one, then seven at a time. -/
theorem dcopy_unit {n : Nat} (hn : n < 2 ^ 31) (dx dy : FA F) {L : Nat} {g : Int → F}
    (hd : Is1 dy L g) (hn0 : 0 < n) :
    ∃ dy', dcopyFA (n : Int) dx 1 dy 1 = pure (some dy') ∧
      Is1 dy' L (copyFold (fun k => (k : Int) + 1) (fun k => dx.get1 ((k : Int) + 1)) g n) := by
  have hm : (n : Int).tmod 7 = ((n % 7 : Nat) : Int) := by
    rw [Int.tmod_eq_emod_of_nonneg (by omega)]; omega
  have hm7 := Nat.mod_lt n (by norm_num : 7 > 0)
  set ps : Nat → Int := fun k => (k : Int) + 1 with hps
  set val : Nat → F := fun k => dx.get1 ((k : Int) + 1) with hval
  have first : ∀ m : Nat, m ≤ n → ∃ d', forUp 1 (m : Int) dy
      (fun dy i => pure (dy.set1 i (dx.get1 i))) = pure d' ∧ Is1 d' L (copyFold ps val g m) := by
    intro m hmn
    refine forUp_iter (P := fun k d => Is1 d L (copyFold ps val g k)) m (s := dy) hd ?_
    intro k d hk h
    exact ⟨_, rfl, set1_is1 h (by omega) (by unfold FitsI32; omega) _⟩
  unfold dcopyFA
  rw [if_neg (by omega), if_pos ⟨rfl, rfl⟩, hm]
  simp only
  by_cases hsmall : ((n % 7 : Nat) : Int) ≠ 0 ∧ (n : Int) < 7
  · rw [if_pos hsmall]
    have : n % 7 = n := by omega
    rw [this]
    obtain ⟨d', e, h⟩ := first n (le_refl _)
    exact ⟨d', by rw [e]; rfl, h⟩
  · rw [if_neg hsmall]
    have hfirst : ∃ d', (if ((n % 7 : Nat) : Int) ≠ 0 then forUp 1 ((n % 7 : Nat) : Int) dy
        (fun dy i => pure (dy.set1 i (dx.get1 i))) else pure dy) = pure d' ∧
        Is1 d' L (copyFold ps val g (n % 7)) := by
      split
      · exact first (n % 7) (by omega)
      · rename_i h0
        have : n % 7 = 0 := by omega
        rw [this]; exact ⟨dy, rfl, hd⟩
    obtain ⟨d1, e1, h1⟩ := hfirst
    have hq : n % 7 + n / 7 * 7 = n := by omega
    obtain ⟨d2, e2, h2⟩ := forStep_iter (P := fun k d => Is1 d L (copyFold ps val g (n % 7 + k * 7)))
      (f := dcopyUnrolled dx) (n % 7) (n / 7) 7 (by norm_num) (s := d1) (by simpa using h1) (by
        intro k d hk h
        have hb : n % 7 + k * 7 + 7 ≤ n := by omega
        set b := n % 7 + k * 7 with hbdef
        have e0 : ((n % 7 : Nat) : Int) + 1 + (k : Int) * ((7 : Nat) : Int) = (b : Int) + 1 := by
          rw [hbdef]; push_cast; ring
        rw [e0]
        unfold dcopyUnrolled
        rw [iadd_ok (by unfold FitsI32; omega), iadd_ok (by unfold FitsI32; omega),
          iadd_ok (by unfold FitsI32; omega), iadd_ok (by unfold FitsI32; omega),
          iadd_ok (by unfold FitsI32; omega), iadd_ok (by unfold FitsI32; omega)]
        simp only [pure_bind]
        refine ⟨_, rfl, ?_⟩
        have e7 : n % 7 + (k + 1) * 7 = b + 6 + 1 := by omega
        rw [e7]
        have st : ∀ (r : Nat) (d : FA F), r ≤ 6 → Is1 d L (copyFold ps val g (b + r)) →
            Is1 (d.set1 ((b : Int) + 1 + r) (dx.get1 ((b : Int) + 1 + r))) L
              (copyFold ps val g (b + r + 1)) := by
          intro r d hr h
          have e : (b : Int) + 1 + r = ((b + r : Nat) : Int) + 1 := by push_cast; ring
          rw [e]
          exact set1_is1 h (by omega) (by unfold FitsI32; omega) _
        have s0 := st 0 d (by omega) h
        simp only [Nat.cast_zero, add_zero] at s0
        exact st 6 _ (by omega) (st 5 _ (by omega) (st 4 _ (by omega) (st 3 _ (by omega)
          (st 2 _ (by omega) (st 1 _ (by omega) s0))))))
    refine ⟨d2, ?_, by rw [hq] at h2; exact h2⟩
    rw [iadd_ok (by unfold FitsI32; omega)]
    simp only [pure_bind]
    rw [hq] at e2
    by_cases h0 : ((n % 7 : Nat) : Int) ≠ 0
    · rw [if_pos h0] at e1 ⊢
      rw [e1, pure_bind, e2]; rfl
    · rw [if_neg h0] at e1 ⊢
      have : dy = d1 := by
        have := congrFun e1 .debug
        simpa using this
      rw [this, e2]; rfl

/-! ### DSCAL -/

/-- The contents after the first `k` element updates `x ↦ f x`. -/
def modFold (ps : Nat → Int) (f : F → F) (g : Int → F) : Nat → Int → F
  | 0 => g
  | k + 1 => upd (modFold ps f g k) (ps k) (f (modFold ps f g k (ps k)))

theorem modFold_out (ps : Nat → Int) (f : F → F) (g : Int → F) (n : Nat) (p : Int)
    (h : ∀ k < n, ps k ≠ p) : modFold ps f g n p = g p := by
  induction n with
  | zero => rfl
  | succ n ih =>
    rw [modFold, upd, if_neg (Ne.symm (h n (by omega))), ih (fun k hk => h k (by omega))]

theorem modFold_in (ps : Nat → Int) (f : F → F) (g : Int → F) (n : Nat) (k : Nat) (hk : k < n)
    (h : ∀ k k', k < n → k' < n → ps k' = ps k → k' = k) : modFold ps f g n (ps k) = f (g (ps k)) := by
  induction n with
  | zero => omega
  | succ n ih =>
    rw [modFold, upd]
    by_cases hkn : k = n
    · subst hkn
      rw [if_pos rfl, modFold_out]
      intro k' hk' e
      have := h k k' (by omega) (by omega) e
      omega
    · rw [if_neg (fun e => hkn (h n k (by omega) (by omega) e)), ih (by omega)
        (fun k k' h1 h2 => h k k' (by omega) (by omega))]

theorem dscal_unit {n : Nat} (hn : n < 2 ^ 31) (hn0 : 0 < n) (da : F)
    (hda : (da =ᶠ one) = false) (dx : FA F) {L : Nat} {g : Int → F} (hd : Is1 dx L g) :
    ∃ d', dscalFA (n : Int) da dx 1 = pure (some d') ∧
      Is1 d' L (modFold (fun k => (k : Int) + 1) (· * da) g n) := by
  have hm : (n : Int).tmod 5 = ((n % 5 : Nat) : Int) := by
    rw [Int.tmod_eq_emod_of_nonneg (by omega)]; omega
  have hm5 := Nat.mod_lt n (by norm_num : 5 > 0)
  set ps : Nat → Int := fun k => (k : Int) + 1 with hps
  have first : ∀ m : Nat, m ≤ n → ∃ d', forUp 1 (m : Int) dx
      (fun dx i => pure (dx.modify1 i (· * da))) = pure d' ∧ Is1 d' L (modFold ps (· * da) g m) := by
    intro m hmn
    refine forUp_iter (P := fun k d => Is1 d L (modFold ps (· * da) g k)) m (s := dx) hd ?_
    intro k d hk h
    exact ⟨_, rfl, (modify1_is1 h (by omega) (by unfold FitsI32; omega) _).1⟩
  unfold dscalFA
  rw [if_neg (by simp [hda]; omega), if_pos rfl, hm]
  simp only
  by_cases hsmall : ((n % 5 : Nat) : Int) ≠ 0 ∧ (n : Int) < 5
  · rw [if_pos hsmall]
    have : n % 5 = n := by omega
    rw [this]
    obtain ⟨d', e, h⟩ := first n (le_refl _)
    exact ⟨d', by rw [e]; rfl, h⟩
  · rw [if_neg hsmall]
    have hfirst : ∃ d', (if ((n % 5 : Nat) : Int) ≠ 0 then forUp 1 ((n % 5 : Nat) : Int) dx
        (fun dx i => pure (dx.modify1 i (· * da))) else pure dx) = pure d' ∧
        Is1 d' L (modFold ps (· * da) g (n % 5)) := by
      split
      · exact first (n % 5) (by omega)
      · rename_i h0
        have : n % 5 = 0 := by omega
        rw [this]; exact ⟨dx, rfl, hd⟩
    obtain ⟨d1, e1, h1⟩ := hfirst
    have hq : n % 5 + n / 5 * 5 = n := by omega
    obtain ⟨d2, e2, h2⟩ := forStep_iter
      (P := fun k d => Is1 d L (modFold ps (· * da) g (n % 5 + k * 5)))
      (f := dscalUnrolled da) (n % 5) (n / 5) 5 (by norm_num) (s := d1) (by simpa using h1) (by
        intro k d hk h
        have hb : n % 5 + k * 5 + 5 ≤ n := by omega
        set b := n % 5 + k * 5 with hbdef
        have e0 : ((n % 5 : Nat) : Int) + 1 + (k : Int) * ((5 : Nat) : Int) = (b : Int) + 1 := by
          rw [hbdef]; push_cast; ring
        rw [e0]
        unfold dscalUnrolled
        rw [iadd_ok (by unfold FitsI32; omega), iadd_ok (by unfold FitsI32; omega),
          iadd_ok (by unfold FitsI32; omega), iadd_ok (by unfold FitsI32; omega)]
        simp only [pure_bind]
        refine ⟨_, rfl, ?_⟩
        have e7 : n % 5 + (k + 1) * 5 = b + 4 + 1 := by omega
        rw [e7]
        have st : ∀ (r : Nat) (d : FA F), r ≤ 4 → Is1 d L (modFold ps (· * da) g (b + r)) →
            Is1 (d.modify1 ((b : Int) + 1 + r) (· * da)) L
              (modFold ps (· * da) g (b + r + 1)) := by
          intro r d hr h
          have e : (b : Int) + 1 + r = ((b + r : Nat) : Int) + 1 := by push_cast; ring
          rw [e]
          exact (modify1_is1 h (by omega) (by unfold FitsI32; omega) _).1
        have s0 := st 0 d (by omega) h
        simp only [Nat.cast_zero, add_zero] at s0
        exact st 4 _ (by omega) (st 3 _ (by omega)
          (st 2 _ (by omega) (st 1 _ (by omega) s0))))
    refine ⟨d2, ?_, by rw [hq] at h2; exact h2⟩
    rw [iadd_ok (by unfold FitsI32; omega)]
    simp only [pure_bind]
    rw [hq] at e2
    by_cases h0 : ((n % 5 : Nat) : Int) ≠ 0
    · rw [if_pos h0] at e1 ⊢
      rw [e1, pure_bind, e2]; rfl
    · rw [if_neg h0] at e1 ⊢
      have : dx = d1 := by
        have := congrFun e1 .debug
        simpa using this
      rw [this, e2]; rfl

theorem dscalWhile_ok {n : Nat} {incx : Int} (hinc : 1 < incx) (h : StrideOK n incx) (da : F)
    {L : Nat} {g : Int → F} (fuel : Nat) (r : Nat) (hr : r ≤ n) (hfuel : n - r ≤ fuel) (dx : FA F)
    (hd : Is1 dx L (modFold (pos n incx) (· * da) g r)) :
    ∃ d', dscalWhile da (n * incx) incx fuel dx (1 + r * incx) = pure d' ∧
      Is1 d' L (modFold (pos n incx) (· * da) g n) := by
  induction fuel generalizing r dx with
  | zero =>
    have : r = n := by omega
    subst this
    refine ⟨dx, ?_, hd⟩
    unfold dscalWhile; rw [if_neg (by omega)]
  | succ fuel ih =>
    by_cases hrn : r = n
    · subst hrn
      refine ⟨dx, ?_, hd⟩
      unfold dscalWhile; rw [if_neg (by omega)]
    · have hrn' : r < n := by omega
      have hlt : 1 + (r : Int) * incx < n * incx := by
        have : (r : Int) + 1 ≤ n := by omega
        nlinarith
      unfold dscalWhile
      rw [if_pos hlt]
      have hp : (1 + (r : Int) * incx) = pos n incx r := by rw [pos_nonneg n (by omega)]
      have hfit := ixAt_fits (by omega) h (show r + 1 ≤ n by omega)
      have hadd : 1 + (r : Int) * incx + incx = ixAt n incx (r + 1) := by
        rw [ixAt_succ, ixAt_eq_pos hrn', hp]
      rw [iadd_ok (by rw [hadd]; exact hfit)]
      simp only [pure_bind]
      have hm := (modify1_is1 hd (pos_fits h hrn').1 (pos_fits h hrn').2 (· * da)).1
      have e : 1 + (r : Int) * incx + incx = 1 + ((r + 1 : Nat) : Int) * incx := by push_cast; ring
      rw [e, hp]
      exact ih (r + 1) (by omega) (by omega) _ hm

/-! ### DROT -/

/-- The loop invariant of `drot`: the first `k` pairs are rotated, everything else is as before. -/
structure RotInv (n : Nat) (c s : F) (px py : Nat → Int) (X Y : Int → F) (k : Nat)
    (gx gy : Int → F) : Prop where
  doneX : ∀ i < k, gx (px i) = c * X (px i) + s * Y (py i)
  doneY : ∀ i < k, gy (py i) = c * Y (py i) - s * X (px i)
  todoX : ∀ i, k ≤ i → i < n → gx (px i) = X (px i)
  todoY : ∀ i, k ≤ i → i < n → gy (py i) = Y (py i)
  frameX : ∀ p, (∀ i < n, px i ≠ p) → gx p = X p
  frameY : ∀ p, (∀ i < n, py i ≠ p) → gy p = Y p

theorem rotInv_step {n : Nat} {c s : F} {px py : Nat → Int} {X Y : Int → F} {k : Nat}
    {gx gy : Int → F} (hk : k < n)
    (hx : ∀ i j, i < n → j < n → px i = px j → i = j)
    (hy : ∀ i j, i < n → j < n → py i = py j → i = j)
    (h : RotInv n c s px py X Y k gx gy) :
    RotInv n c s px py X Y (k + 1)
      (upd gx (px k) (c * gx (px k) + s * gy (py k)))
      (upd gy (py k) (c * gy (py k) - s * gx (px k))) := by
  have eX := h.todoX k (le_refl _) hk
  have eY := h.todoY k (le_refl _) hk
  constructor
  · intro i hi
    unfold upd
    by_cases e : px i = px k
    · have : i = k := hx i k (by omega) hk e
      subst this; rw [if_pos rfl, eX, eY]
    · rw [if_neg e]
      exact h.doneX i (by rcases Nat.lt_succ_iff_lt_or_eq.1 hi with h | rfl; exact h; exact absurd rfl e)
  · intro i hi
    unfold upd
    by_cases e : py i = py k
    · have : i = k := hy i k (by omega) hk e
      subst this; rw [if_pos rfl, eX, eY]
    · rw [if_neg e]
      exact h.doneY i (by rcases Nat.lt_succ_iff_lt_or_eq.1 hi with h | rfl; exact h; exact absurd rfl e)
  · intro i hi hin
    unfold upd
    rw [if_neg (fun e => by have := hx i k hin hk e; omega)]
    exact h.todoX i (by omega) hin
  · intro i hi hin
    unfold upd
    rw [if_neg (fun e => by have := hy i k hin hk e; omega)]
    exact h.todoY i (by omega) hin
  · intro p hp
    unfold upd
    rw [if_neg (fun e => hp k hk e.symm)]
    exact h.frameX p hp
  · intro p hp
    unfold upd
    rw [if_neg (fun e => hp k hk e.symm)]
    exact h.frameY p hp

theorem pos_inj {n : Nat} {inc : Int} (h : inc ≠ 0) (i j : Nat) (hi : i < n) (hj : j < n)
    (e : pos n inc i = pos n inc j) : i = j := by
  unfold pos at e
  exact strideIx_inj h hi hj (by omega)

theorem drotPair_is1 {c s : F} {dx dy : FA F} {Lx Ly : Nat} {gx gy : Int → F}
    (hx : Is1 dx Lx gx) (hy : Is1 dy Ly gy) {ix iy : Int} (h1 : 1 ≤ ix) (h2 : ix ≤ Lx)
    (h3 : 1 ≤ iy) (h4 : iy ≤ Ly) (f1 : FitsI32 ix) (f2 : FitsI32 iy) :
    Is1 (drotPair c s dx dy ix iy).1 Lx (upd gx ix (c * gx ix + s * gy iy)) ∧
    Is1 (drotPair c s dx dy ix iy).2 Ly (upd gy iy (c * gy iy - s * gx ix)) := by
  unfold drotPair
  simp only
  rw [get1_is1 hx h1 h2 f1, get1_is1 hy h3 h4 f2]
  exact ⟨set1_is1 hx h1 f1 _, set1_is1 hy h3 f2 _⟩

theorem drotFA_ok {n : Nat} {incx incy : Int} (hn : 0 < n) (hx : StrideOK n incx)
    (hy : StrideOK n incy) (hx0 : incx ≠ 0) (hy0 : incy ≠ 0) (c s : F) (dx dy : FA F)
    {Lx Ly : Nat} {X Y : Int → F} (hdx : Is1 dx Lx X) (hdy : Is1 dy Ly Y)
    (hbx : ∀ k < n, pos n incx k ≤ Lx) (hby : ∀ k < n, pos n incy k ≤ Ly) :
    ∃ d', drotFA (n : Int) dx incx dy incy c s = pure (some d') ∧
      ∃ gx gy, Is1 d'.1 Lx gx ∧ Is1 d'.2 Ly gy ∧
        RotInv n c s (pos n incx) (pos n incy) X Y n gx gy := by
  have inv0 : RotInv n c s (pos n incx) (pos n incy) X Y 0 X Y :=
    ⟨fun i hi => by omega, fun i hi => by omega, fun _ _ _ => rfl, fun _ _ _ => rfl,
      fun _ _ => rfl, fun _ _ => rfl⟩
  unfold drotFA
  rw [if_neg (by omega)]
  by_cases hu : incx = 1 ∧ incy = 1
  · rw [if_pos hu]
    obtain ⟨rfl, rfl⟩ := hu
    obtain ⟨s', h1, gx, gy, h2, h3, h4⟩ := forUp_iter (P := fun k (st : FA F × FA F) =>
        ∃ gx gy, Is1 st.1 Lx gx ∧ Is1 st.2 Ly gy ∧
          RotInv n c s (pos n 1) (pos n 1) X Y k gx gy)
      (f := fun st i => pure (drotPair c s st.1 st.2 i i)) n (s := (dx, dy))
      ⟨X, Y, hdx, hdy, inv0⟩ (by
        rintro k ⟨d1, d2⟩ hk ⟨gx, gy, h1, h2, h3⟩
        have hp := pos_one n k
        rw [← hp]
        obtain ⟨a, b⟩ := drotPair_is1 (c := c) (s := s) h1 h2 (pos_fits hx hk).1 (hbx k hk)
          (pos_fits hx hk).1 (hby k hk) (pos_fits hx hk).2 (pos_fits hx hk).2
        exact ⟨_, rfl, _, _, a, b, rotInv_step hk (pos_inj hx0) (pos_inj hy0) h3⟩)
    refine ⟨s', ?_, gx, gy, h2, h3, h4⟩
    rw [h1]; rfl
  · rw [if_neg hu, startIx_ok hn hx, startIx_ok hn hy]
    simp only [pure_bind]
    obtain ⟨s', h1, -, -, gx, gy, h2, h3, h4⟩ := forUp_iter
      (P := fun k (st : (FA F × FA F) × Int × Int) =>
        st.2.1 = ixAt n incx k ∧ st.2.2 = ixAt n incy k ∧
        ∃ gx gy, Is1 st.1.1 Lx gx ∧ Is1 st.1.2 Ly gy ∧
          RotInv n c s (pos n incx) (pos n incy) X Y k gx gy)
      (f := drotStep c s incx incy) n (s := ((dx, dy), ixAt n incx 0, ixAt n incy 0))
      ⟨rfl, rfl, X, Y, hdx, hdy, inv0⟩ (by
        rintro k ⟨⟨d1, d2⟩, ix, iy⟩ hk ⟨rfl, rfl, gx, gy, h1, h2, h3⟩
        unfold drotStep
        simp only
        rw [iadd_ok (by rw [← ixAt_succ]; exact ixAt_fits hn hx hk),
          iadd_ok (by rw [← ixAt_succ]; exact ixAt_fits hn hy hk)]
        rw [ixAt_succ, ixAt_succ, ixAt_eq_pos hk, ixAt_eq_pos hk]
        obtain ⟨a, b⟩ := drotPair_is1 (c := c) (s := s) h1 h2 (pos_fits hx hk).1 (hbx k hk)
          (pos_fits hy hk).1 (hby k hk) (pos_fits hx hk).2 (pos_fits hy hk).2
        exact ⟨_, rfl, rfl, rfl, _, _, a, b, rotInv_step hk (pos_inj hx0) (pos_inj hy0) h3⟩)
    refine ⟨s'.1, ?_, gx, gy, h2, h3, h4⟩
    rw [h1]; rfl

end Verif

import Verif.Props.GemmF64
import Verif.Props.TrmmExact

/-!
# C64: rounding errors of `dtrmm` on binary64
-/

namespace Verif
open F64 Scalar Spec Finset

namespace F64

variable {P : Prop} {n : Nat} {f : Float} {X S U : ℝ}

/-- Terms added one after the other, some of them (known to be zero) left out. -/
theorem Val.foldList {step : Float → Int → Float} {Xs Ss Us : Int → ℝ} (l : List Int) (h : Val P n f X S U)
    (hp : ∀ k ∈ l, (∃ p, (∀ acc, step acc k = acc + p) ∧ Val P n p (Xs k) (Ss k) (Us k)) ∨
      ((∀ acc, step acc k = acc) ∧ Xs k = 0 ∧ Ss k = 0 ∧ 0 ≤ Us k))
    (hB : P → (1 + ur) ^ (n + l.length) * (S + U + ((l.map Ss).sum + (l.map Us).sum)) < ovf) :
    Val P (n + l.length) (l.foldl step f) (X + (l.map Xs).sum) (S + (l.map Ss).sum) (U + (l.map Us).sum) := by
  induction l using List.reverseRecOn with
  | nil => simpa using h
  | append_singleton l k ih =>
    have h0 : ∀ k' ∈ l ++ [k], 0 ≤ Ss k' ∧ 0 ≤ Us k' := by
      intro k' hk'
      rcases hp k' hk' with ⟨p, -, hv⟩ | ⟨-, -, h2, h3⟩
      · exact ⟨hv.s0, hv.under⟩
      · exact ⟨h2.ge, h3⟩
    have hs : 0 ≤ (l.map Ss).sum := List.sum_nonneg fun y hy => by
      obtain ⟨k', hk', rfl⟩ := List.mem_map.1 hy
      exact (h0 k' (by simp [hk'])).1
    have hu : 0 ≤ (l.map Us).sum := List.sum_nonneg fun y hy => by
      obtain ⟨k', hk', rfl⟩ := List.mem_map.1 hy
      exact (h0 k' (by simp [hk'])).2
    have hk := h0 k (by simp)
    have h1 : (1 + ur) ^ (n + l.length) ≤ (1 + ur) ^ (n + (l ++ [k]).length) :=
      pow_le_pow_right₀ (by linarith [ur_pos]) (by simp)
    have h2 := one_le_pow (n + l.length)
    have hc := add_nonneg h.s0 h.under
    simp only [List.map_append, List.sum_append, List.map_cons, List.map_nil, List.sum_cons, List.sum_nil, add_zero] at hB ⊢
    have hih := ih (fun k' hk' => hp k' (by simp [hk'])) (fun hP => lt_of_le_of_lt (mul_le_mul h1 (by linarith) (by linarith) (by linarith)) (hB hP))
    rw [List.foldl_append, List.foldl_cons, List.foldl_nil]
    rcases hp k (by simp) with ⟨p, hst, hv⟩ | ⟨hst, e1, e2, e3⟩
    · rw [hst, ← add_assoc, ← add_assoc, ← add_assoc]
      have := hih.add (hv.mono (n' := n + l.length) (by omega) (le_refl _)) (fun hP => lt_of_le_of_lt
        (mul_le_mul h1 (by linarith) (by linarith) (by linarith)) (hB hP))
      exact this.mono (by simp) (le_refl _)
    · rw [hst, e1, e2, add_zero, add_zero]
      exact hih.mono (by simp) (by linarith)

end F64

section
variable {P : Prop}

/-- The exact value, the size of its terms, the underflow errors and a bound on all that is computed. -/
noncomputable def trmmReal (s : Nat) (alpha : Float) (T x : Nat → ℝ) : ℝ := toR alpha * ∑ l ∈ range s, T l * x l
noncomputable def trmmSize (s : Nat) (alpha : Float) (T x : Nat → ℝ) : ℝ := |toR alpha| * ∑ l ∈ range s, |T l| * |x l|
noncomputable def trmmUnder (s : Nat) (alpha : Float) (T x : Nat → ℝ) : ℝ := ∑ l ∈ range s, (1 + |toR alpha| + |T l| + |x l|)
noncomputable def trmmBig (s : Nat) (alpha : Float) (T x : Nat → ℝ) : ℝ :=
  max 1 |toR alpha| * ∑ l ∈ range s, max 1 |T l| * max 1 |x l|

/-- The list `l`, with `i`, are the numbers (from 1) of the terms that need not vanish. -/
structure Terms (s : Nat) (T : Nat → ℝ) (i : Int) (l : List Int) : Prop where
  i1 : 1 ≤ i
  i2 : i ≤ s
  mem : ∀ k ∈ l, 1 ≤ k ∧ k ≤ s
  sum : ∀ G : Nat → ℝ, (∀ l, T l = 0 → G l = 0) → ∑ l ∈ range s, G l = G (i - 1).toNat + (l.map (fun k => G (k - 1).toNat)).sum
  le : ∀ G : Nat → ℝ, (∀ l, 0 ≤ G l) → G (i - 1).toNat + (l.map (fun k => G (k - 1).toNat)).sum ≤ ∑ l ∈ range s, G l
  len : l.length + 1 ≤ s

theorem irange_length (lo hi : Int) : (irange lo hi).length = (hi + 1 - lo).toNat := by
  unfold irange; simp; omega

theorem terms_upper {s : Nat} {T : Nat → ℝ} {i : Int} (h1 : 1 ≤ i) (h2 : i ≤ s) (hz : ∀ l : Nat, (l : Int) < i - 1 → T l = 0) :
    Terms s T i (irange (i + 1) s) where
  i1 := h1
  i2 := h2
  mem := fun k hk => by rw [mem_irange] at hk; omega
  sum := fun G hG => sum_upper G h1 h2 (fun l hl => hG l (hz l hl))
  le := fun G hG => by
    rw [sum_split G h1 h2]
    have : 0 ≤ ((irange 1 (i - 1)).map (fun k => G (k - 1).toNat)).sum := List.sum_nonneg fun y hy => by
      obtain ⟨k', hk', rfl⟩ := List.mem_map.1 hy
      exact hG _
    linarith
  len := by rw [irange_length]; omega

theorem terms_lower {s : Nat} {T : Nat → ℝ} {i : Int} (h1 : 1 ≤ i) (h2 : i ≤ s)
    (hz : ∀ l : Nat, i - 1 < (l : Int) → l < s → T l = 0) :
    Terms s T i (irange 1 (i - 1)) where
  i1 := h1
  i2 := h2
  mem := fun k hk => by rw [mem_irange] at hk; omega
  sum := fun G hG => sum_lower G h1 h2 (fun l hl hl' => hG l (hz l hl hl'))
  le := fun G hG => by
    rw [sum_split G h1 h2]
    have : 0 ≤ ((irange (i + 1) s).map (fun k => G (k - 1).toNat)).sum := List.sum_nonneg fun y hy => by
      obtain ⟨k', hk', rfl⟩ := List.mem_map.1 hy
      exact hG _
    linarith
  len := by rw [irange_length]; omega

theorem Terms.reverse {s : Nat} {T : Nat → ℝ} {i : Int} {l : List Int} (h : Terms s T i l) : Terms s T i l.reverse where
  i1 := h.i1
  i2 := h.i2
  mem := fun k hk => h.mem k (List.mem_reverse.1 hk)
  sum := fun G hG => by rw [h.sum G hG, List.map_reverse, List.sum_reverse]
  le := fun G hG => by rw [List.map_reverse, List.sum_reverse]; exact h.le G hG
  len := by rw [List.length_reverse]; exact h.len

variable {s : Nat} {alpha : Float} {T x : Nat → ℝ}

/-- `P` rules out overflow. -/
def Safe (P : Prop) (s : Nat) (alpha : Float) (T x : Nat → ℝ) : Prop :=
  P → (1 + ur) ^ (s + 1) * (trmmBig s alpha T x + eta * trmmUnder s alpha T x) < ovf

theorem Safe.lt (h : Safe P s alpha T x) {n : Nat} {V : ℝ} (hn : n ≤ s + 1)
    (hV : V ≤ trmmBig s alpha T x + eta * trmmUnder s alpha T x) (h0 : 0 ≤ V) (hP : P) : (1 + ur) ^ n * V < ovf :=
  lt_of_le_of_lt (mul_le_mul (pow_le_pow_right₀ (by linarith [ur_pos]) hn) hV h0 (by linarith [one_le_pow (s + 1)])) (h hP)

theorem under_nonneg : 0 ≤ eta * trmmUnder s alpha T x :=
  mul_nonneg eta_pos.le (sum_nonneg fun l _ => by have := abs_nonneg (toR alpha); have := abs_nonneg (T l); have := abs_nonneg (x l); linarith)

theorem mm1 (a : ℝ) : 1 ≤ max 1 |a| := le_max_left _ _
theorem mm2 (a : ℝ) : |a| ≤ max 1 |a| := le_max_right _ _

theorem big_ge {l : Nat} (hl : l < s) {a t y : ℝ} (ha : a ≤ max 1 |toR alpha|) (ht : t ≤ max 1 |T l|) (hy : y ≤ max 1 |x l|)
    (ht0 : 0 ≤ t) (hy0 : 0 ≤ y) : a * (t * y) ≤ trmmBig s alpha T x := by
  have h1 : t * y ≤ max 1 |T l| * max 1 |x l| := mul_le_mul ht hy hy0 (by linarith [mm1 (T l)])
  have h2 : max 1 |T l| * max 1 |x l| ≤ ∑ l ∈ range s, max 1 |T l| * max 1 |x l| :=
    single_le_sum (f := fun l => max 1 |T l| * max 1 |x l|) (fun l _ => by positivity) (mem_range.2 hl)
  exact mul_le_mul ha (h1.trans h2) (mul_nonneg ht0 hy0) (by linarith [mm1 (toR alpha)])

theorem under_ge {l : Nat} (hl : l < s) : eta * (1 + |toR alpha| + |T l| + |x l|) ≤ eta * trmmUnder s alpha T x :=
  mul_le_mul_of_nonneg_left (single_le_sum (f := fun l => 1 + |toR alpha| + |T l| + |x l|)
    (fun l _ => by have := abs_nonneg (toR alpha); have := abs_nonneg (T l); have := abs_nonneg (x l); linarith) (mem_range.2 hl)) eta_pos.le

theorem size_le_big : trmmSize s alpha T x ≤ trmmBig s alpha T x :=
  mul_le_mul (mm2 _) (sum_le_sum fun l _ => mul_le_mul (mm2 _) (mm2 _) (abs_nonneg _) (by linarith [mm1 (T l)]))
    (sum_nonneg fun l _ => mul_nonneg (abs_nonneg _) (abs_nonneg _)) (by linarith [mm1 (toR alpha)])

/-- `(alpha * x) * t`. -/
theorem term_ln (hS : Safe P s alpha T x) {l : Nat} (hl : l < s) {tf xf : Float} (ht : T l = toR tf) (hx : x l = toR xf)
    (ha : P → alpha.isFinite = true) (htf : P → tf.isFinite = true) (hxf : P → xf.isFinite = true) :
    Val P 2 (alpha * xf * tf) (toR alpha * (T l * x l)) (|toR alpha| * (|T l| * |x l|)) (eta * (1 + |toR alpha| + |T l| + |x l|)) := by
  have he := eta_pos
  have ba := abs_nonneg (toR alpha)
  have bt := abs_nonneg (T l)
  have bx := abs_nonneg (x l)
  have t1 := (Val.float (P := P) alpha ha).mul (g := xf) hxf (by
    intro hP
    have := hS.lt (n := 0) (V := |toR alpha| * (1 * |x l|)) (by omega) (by
      have := big_ge hl (mm2 (toR alpha)) (mm1 (T l)) (mm2 (x l)) (by norm_num) bx
      linarith [under_nonneg (s := s) (alpha := alpha) (T := T) (x := x)]) (by positivity) hP
    simpa [hx] using this)
  rw [zero_mul, zero_add, zero_add, ← hx] at t1
  have t2 := t1.mul htf (by
    intro hP
    rw [mul_assoc]
    refine hS.lt (by omega) ?_ (by positivity) hP
    have h1 := big_ge hl (mm2 (toR alpha)) (mm2 (T l)) (mm2 (x l)) bt bx
    have h2 := under_ge (alpha := alpha) (T := T) (x := x) hl
    rw [← ht]
    nlinarith)
  rw [← ht] at t2
  have := t2.mono (n' := 2) (U' := eta * (1 + |toR alpha| + |T l| + |x l|)) (by omega) (by nlinarith)
  rwa [mul_assoc, mul_comm (x l), mul_assoc, mul_comm |x l|] at this

/-- `(alpha * t) * x`. -/
theorem term_r (hS : Safe P s alpha T x) {l : Nat} (hl : l < s) {tf xf : Float} (ht : T l = toR tf) (hx : x l = toR xf)
    (ha : P → alpha.isFinite = true) (htf : P → tf.isFinite = true) (hxf : P → xf.isFinite = true) :
    Val P 2 (alpha * tf * xf) (toR alpha * (T l * x l)) (|toR alpha| * (|T l| * |x l|)) (eta * (1 + |toR alpha| + |T l| + |x l|)) := by
  have he := eta_pos
  have ba := abs_nonneg (toR alpha)
  have bt := abs_nonneg (T l)
  have bx := abs_nonneg (x l)
  have t1 := (Val.float (P := P) alpha ha).mul (g := tf) htf (by
    intro hP
    have := hS.lt (n := 0) (V := |toR alpha| * (|T l| * 1)) (by omega) (by
      have := big_ge hl (mm2 (toR alpha)) (mm2 (T l)) (mm1 (x l)) bt (by norm_num)
      linarith [under_nonneg (s := s) (alpha := alpha) (T := T) (x := x)]) (by positivity) hP
    simpa [ht] using this)
  rw [zero_mul, zero_add, zero_add, ← ht] at t1
  have t2 := t1.mul hxf (by
    intro hP
    rw [mul_assoc]
    refine hS.lt (by omega) ?_ (by positivity) hP
    have h1 := big_ge hl (mm2 (toR alpha)) (mm2 (T l)) (mm2 (x l)) bt bx
    have h2 := under_ge (alpha := alpha) (T := T) (x := x) hl
    rw [← hx]
    nlinarith)
  rw [← hx] at t2
  have := t2.mono (n' := 2) (U' := eta * (1 + |toR alpha| + |T l| + |x l|)) (by omega) (by nlinarith)
  rwa [mul_assoc, mul_assoc] at this

/-- A unit diagonal: `alpha * x`. -/
theorem term_unit (hS : Safe P s alpha T x) {l : Nat} (hl : l < s) {xf : Float} (ht : T l = 1) (hx : x l = toR xf)
    (ha : P → alpha.isFinite = true) (hxf : P → xf.isFinite = true) :
    Val P 2 (alpha * xf) (toR alpha * (T l * x l)) (|toR alpha| * (|T l| * |x l|)) (eta * (1 + |toR alpha| + |T l| + |x l|)) := by
  have he := eta_pos
  have ba := abs_nonneg (toR alpha)
  have bt := abs_nonneg (T l)
  have bx := abs_nonneg (x l)
  have t1 := (Val.float (P := P) alpha ha).mul (g := xf) hxf (by
    intro hP
    have := hS.lt (n := 0) (V := |toR alpha| * (1 * |x l|)) (by omega) (by
      have := big_ge hl (mm2 (toR alpha)) (mm1 (T l)) (mm2 (x l)) (by norm_num) bx
      linarith [under_nonneg (s := s) (alpha := alpha) (T := T) (x := x)]) (by positivity) hP
    simpa [hx] using this)
  rw [zero_mul, zero_add, zero_add, ← hx] at t1
  have := t1.mono (n' := 2) (U' := eta * (1 + |toR alpha| + |T l| + |x l|)) (by omega) (by nlinarith)
  rwa [ht, abs_one, one_mul, one_mul] at *

/-- `t * x` and `x * t`. -/
theorem term_lt (hS : Safe P s alpha T x) {l : Nat} (hl : l < s) {tf xf : Float} (ht : T l = toR tf) (hx : x l = toR xf)
    (htf : P → tf.isFinite = true) (hxf : P → xf.isFinite = true) :
    Val P 1 (tf * xf) (T l * x l) (|T l| * |x l|) eta ∧ Val P 1 (xf * tf) (T l * x l) (|T l| * |x l|) eta := by
  have bt := abs_nonneg (T l)
  have bx := abs_nonneg (x l)
  have hB : P → |T l| * |x l| < ovf := by
    intro hP
    have := hS.lt (n := 0) (V := 1 * (|T l| * |x l|)) (by omega) (by
      have := big_ge hl (mm1 (toR alpha)) (mm2 (T l)) (mm2 (x l)) bt bx
      linarith [under_nonneg (s := s) (alpha := alpha) (T := T) (x := x)]) (by positivity) hP
    simpa using this
  have t1 := (Val.float (P := P) tf htf).mul (g := xf) hxf (by intro hP; simpa [← ht, ← hx] using hB hP)
  have t2 := (Val.float (P := P) tf htf).mul' (g := xf) hxf (by intro hP; simpa [← ht, ← hx] using hB hP)
  rw [zero_mul, zero_add, zero_add, ← ht, ← hx] at t1
  rw [mul_zero, zero_add, zero_add, ← ht, ← hx, mul_comm (x l), mul_comm |x l|] at t2
  exact ⟨t1, t2⟩

theorem skip_ok {t x a : ℝ} (h : t = 0 ∨ x = 0) : a * (t * x) = 0 ∧ |a| * (|t| * |x|) = 0 := by
  rcases h with h | h <;> subst h <;> simp

theorem term_under (l : Nat) : 0 ≤ eta * (1 + |toR alpha| + |T l| + |x l|) :=
  mul_nonneg eta_pos.le (by have := abs_nonneg (toR alpha); have := abs_nonneg (T l); have := abs_nonneg (x l); linarith)

/-- Accumulation of the scaled terms. -/
theorem terms_total (hS : Safe P s alpha T x) {i : Int} {ks : List Int} (ht : Terms s T i ks) {step : Float → Int → Float} {start : Float}
    (h0 : Val P 2 start (toR alpha * (T (i - 1).toNat * x (i - 1).toNat)) (|toR alpha| * (|T (i - 1).toNat| * |x (i - 1).toNat|))
      (eta * (1 + |toR alpha| + |T (i - 1).toNat| + |x (i - 1).toNat|)))
    (hp : ∀ k ∈ ks, (∃ p, (∀ acc, step acc k = acc + p) ∧ Val P 2 p (toR alpha * (T (k - 1).toNat * x (k - 1).toNat))
        (|toR alpha| * (|T (k - 1).toNat| * |x (k - 1).toNat|)) (eta * (1 + |toR alpha| + |T (k - 1).toNat| + |x (k - 1).toNat|))) ∨
      ((∀ acc, step acc k = acc) ∧ (T (k - 1).toNat = 0 ∨ x (k - 1).toNat = 0))) :
    Val P (s + 1) (ks.foldl step start) (trmmReal s alpha T x) (trmmSize s alpha T x) (eta * trmmUnder s alpha T x) := by
  have e1 : trmmReal s alpha T x = toR alpha * (T (i - 1).toNat * x (i - 1).toNat) +
      (ks.map (fun k => toR alpha * (T (k - 1).toNat * x (k - 1).toNat))).sum := by
    unfold trmmReal
    rw [mul_sum, ht.sum (fun l => toR alpha * (T l * x l)) (fun l hl => by simp [hl])]
  have e2 : trmmSize s alpha T x = |toR alpha| * (|T (i - 1).toNat| * |x (i - 1).toNat|) +
      (ks.map (fun k => |toR alpha| * (|T (k - 1).toNat| * |x (k - 1).toNat|))).sum := by
    unfold trmmSize
    rw [mul_sum, ht.sum (fun l => |toR alpha| * (|T l| * |x l|)) (fun l hl => by simp [hl])]
  have e3 : eta * (1 + |toR alpha| + |T (i - 1).toNat| + |x (i - 1).toNat|) +
      (ks.map (fun k => eta * (1 + |toR alpha| + |T (k - 1).toNat| + |x (k - 1).toNat|))).sum ≤ eta * trmmUnder s alpha T x := by
    unfold trmmUnder
    rw [mul_sum]
    exact ht.le (fun l => eta * (1 + |toR alpha| + |T l| + |x l|)) (fun l => term_under l)
  have hlen := ht.len
  have n1 : 0 ≤ (ks.map (fun k => |toR alpha| * (|T (k - 1).toNat| * |x (k - 1).toNat|))).sum := List.sum_nonneg fun y hy => by
    obtain ⟨k', hk', rfl⟩ := List.mem_map.1 hy
    positivity
  have n2 : 0 ≤ (ks.map (fun k => eta * (1 + |toR alpha| + |T (k - 1).toNat| + |x (k - 1).toNat|))).sum := List.sum_nonneg fun y hy => by
    obtain ⟨k', hk', rfl⟩ := List.mem_map.1 hy
    exact term_under _
  have := Val.foldList ks h0 (step := step) (Xs := fun k => toR alpha * (T (k - 1).toNat * x (k - 1).toNat))
    (Ss := fun k => |toR alpha| * (|T (k - 1).toNat| * |x (k - 1).toNat|))
    (Us := fun k => eta * (1 + |toR alpha| + |T (k - 1).toNat| + |x (k - 1).toNat|)) (by
      intro k hk
      rcases hp k hk with h | ⟨h, hz⟩
      · exact Or.inl h
      · exact Or.inr ⟨h, (skip_ok hz).1, (skip_ok hz).2, term_under _⟩) (by
      intro hP
      refine hS.lt (by omega) ?_ ?_ hP
      · have := size_le_big (s := s) (alpha := alpha) (T := T) (x := x)
        linarith
      · have := h0.s0; have := h0.under; linarith)
  rw [← e1, ← e2] at this
  exact this.mono (by omega) e3

/-- Accumulation of the unscaled terms, then scaling. -/
theorem terms_dot (hS : Safe P s alpha T x) (ha : P → alpha.isFinite = true) {i : Int} {ks : List Int} (ht : Terms s T i ks)
    {p : Int → Float} {start : Float}
    (h0 : Val P 1 start (T (i - 1).toNat * x (i - 1).toNat) (|T (i - 1).toNat| * |x (i - 1).toNat|) eta)
    (hp : ∀ k ∈ ks, Val P 1 (p k) (T (k - 1).toNat * x (k - 1).toNat) (|T (k - 1).toNat| * |x (k - 1).toNat|) eta) :
    Val P (s + 1) (alpha * ks.foldl (fun acc k => acc + p k) start) (trmmReal s alpha T x) (trmmSize s alpha T x) (eta * trmmUnder s alpha T x) := by
  have he := eta_pos
  have hA := abs_nonneg (toR alpha)
  have e1 : ∑ l ∈ range s, T l * x l = T (i - 1).toNat * x (i - 1).toNat +
      (ks.map (fun k => T (k - 1).toNat * x (k - 1).toNat)).sum :=
    ht.sum (fun l => T l * x l) (fun l hl => by simp [hl])
  have e2 : ∑ l ∈ range s, |T l| * |x l| = |T (i - 1).toNat| * |x (i - 1).toNat| +
      (ks.map (fun k => |T (k - 1).toNat| * |x (k - 1).toNat|)).sum :=
    ht.sum (fun l => |T l| * |x l|) (fun l hl => by simp [hl])
  have hlen := ht.len
  have e3 : eta + (ks.map (fun _ => eta)).sum ≤ s * eta := by
    have := ht.le (fun _ => eta) (fun _ => he.le)
    rwa [sum_const, card_range, nsmul_eq_mul] at this
  have e4 : s * eta ≤ eta * trmmUnder s alpha T x := by
    rw [mul_comm]
    refine mul_le_mul_of_nonneg_left ?_ he.le
    have : ∑ l ∈ range s, (1 : ℝ) ≤ trmmUnder s alpha T x := sum_le_sum fun l _ => by
      have := abs_nonneg (T l); have := abs_nonneg (x l); linarith
    simpa using this
  have e5 : |toR alpha| * (s * eta) + eta ≤ eta * trmmUnder s alpha T x := by
    have : ∑ l ∈ range s, (1 + |toR alpha|) ≤ trmmUnder s alpha T x := sum_le_sum fun l _ => by
      have := abs_nonneg (T l); have := abs_nonneg (x l); linarith
    rw [sum_const, card_range, nsmul_eq_mul] at this
    have h1 : (1 : ℝ) ≤ s := by exact_mod_cast (by omega : 1 ≤ s)
    nlinarith
  have n1 : 0 ≤ ∑ l ∈ range s, |T l| * |x l| := sum_nonneg fun l _ => mul_nonneg (abs_nonneg _) (abs_nonneg _)
  have hsz := size_le_big (s := s) (alpha := alpha) (T := T) (x := x)
  have hsz' : ∑ l ∈ range s, |T l| * |x l| ≤ trmmBig s alpha T x := by
    have : 1 * ∑ l ∈ range s, |T l| * |x l| ≤ trmmBig s alpha T x :=
      mul_le_mul (mm1 _) (sum_le_sum fun l _ => mul_le_mul (mm2 _) (mm2 _) (abs_nonneg _) (by linarith [mm1 (T l)])) n1
        (by linarith [mm1 (toR alpha)])
    linarith
  have n2 : 0 ≤ (ks.map (fun _ => eta)).sum := List.sum_nonneg fun y hy => by
    obtain ⟨k', hk', rfl⟩ := List.mem_map.1 hy
    exact he.le
  have t := Val.foldList ks h0 (step := fun acc k => acc + p k) (Xs := fun k => T (k - 1).toNat * x (k - 1).toNat)
    (Ss := fun k => |T (k - 1).toNat| * |x (k - 1).toNat|) (Us := fun _ => eta)
    (fun k hk => Or.inl ⟨p k, fun _ => rfl, hp k hk⟩) (by
      intro hP
      refine hS.lt (by omega) (by linarith) (by linarith) hP)
  rw [← e1, ← e2] at t
  have t2 := (t.mono (n' := s) (by omega) e3).mul' (g := alpha) ha (by
    intro hP
    rw [mul_assoc]
    refine hS.lt (by omega) ?_ ?_ hP
    · unfold trmmSize at hsz
      linarith
    · have := mul_nonneg (Nat.cast_nonneg s : (0 : ℝ) ≤ s) he.le
      exact mul_nonneg (by linarith) hA)
  exact t2.mono (le_refl _) e5

theorem ne_false {a b : Float} (h : ¬ (a ≠ᶠ b) = true) : Float.beq a b = true := by
  have h' : ¬ (!(Float.beq a b)) = true := h
  simpa using h'

theorem zero_of {a : Float} (h : ¬ (a ≠ᶠ (Scalar.zero : Float)) = true) : a.isFinite = true ∧ toR a = 0 := by
  obtain ⟨h1, h2⟩ := eq_toR toR_zero.1 (ne_false h)
  exact ⟨h1, h2.trans toR_zero.2⟩

theorem val_zero {f : Float} (hf : f.isFinite = true) (h0 : toR f = 0) {t y a U : ℝ} (h : t = 0 ∨ y = 0) (hU : 0 ≤ U) :
    Val P 2 f (a * (t * y)) (|a| * (|t| * |y|)) U := by
  rw [(skip_ok h).1, (skip_ok h).2]
  have := (Val.float (P := P) f (fun _ => hf)).mono (n' := 2) (U' := U) (by omega) hU
  rwa [h0, abs_zero] at this

section
variable {nounit : Bool} {ga : Int → Int → Float} {i : Int}

theorem lnStart_val (hS : Safe P s alpha T x) (h1 : 1 ≤ i) (h2 : i ≤ s) {b : Int → Float} (hx : x (i - 1).toNat = toR (b i))
    (hT : T (i - 1).toNat = if nounit then toR (ga i i) else 1)
    (ha : P → alpha.isFinite = true) (hd : P → nounit = true → (ga i i).isFinite = true) (hb : P → (b i).isFinite = true) :
    Val P 2 (lnStart nounit alpha ga b i) (toR alpha * (T (i - 1).toNat * x (i - 1).toNat))
      (|toR alpha| * (|T (i - 1).toNat| * |x (i - 1).toNat|)) (eta * (1 + |toR alpha| + |T (i - 1).toNat| + |x (i - 1).toNat|)) := by
  unfold lnStart diagMul
  split_ifs with h3 h4
  · rw [if_pos h4] at hT
    exact term_ln hS (by omega) hT hx ha (fun hP => hd hP h4) hb
  · rw [if_neg h4] at hT
    exact term_unit hS (by omega) hT hx ha hb
  · obtain ⟨h5, h6⟩ := zero_of h3
    exact val_zero h5 h6 (Or.inr (hx.trans h6)) (term_under _)

theorem rnStart_val (hS : Safe P s alpha T x) (h1 : 1 ≤ i) (h2 : i ≤ s) {r : Int → Float} (hx : x (i - 1).toNat = toR (r i))
    (hT : T (i - 1).toNat = if nounit then toR (ga i i) else 1)
    (ha : P → alpha.isFinite = true) (hd : P → nounit = true → (ga i i).isFinite = true) (hb : P → (r i).isFinite = true) :
    Val P 2 (diagMul nounit alpha (ga i i) * r i) (toR alpha * (T (i - 1).toNat * x (i - 1).toNat))
      (|toR alpha| * (|T (i - 1).toNat| * |x (i - 1).toNat|)) (eta * (1 + |toR alpha| + |T (i - 1).toNat| + |x (i - 1).toNat|)) := by
  unfold diagMul
  split_ifs with h4
  · rw [if_pos h4] at hT
    exact term_r hS (by omega) hT hx ha (fun hP => hd hP h4) hb
  · rw [if_neg h4] at hT
    exact term_unit hS (by omega) hT hx ha hb

theorem rtStart_val (hS : Safe P s alpha T x) (h1 : 1 ≤ i) (h2 : i ≤ s) {r : Int → Float} (hx : x (i - 1).toNat = toR (r i))
    (hT : T (i - 1).toNat = if nounit then toR (ga i i) else 1)
    (ha : P → alpha.isFinite = true) (hd : P → nounit = true → (ga i i).isFinite = true) (hb : P → (r i).isFinite = true) :
    Val P 2 (rtStart nounit alpha ga r i) (toR alpha * (T (i - 1).toNat * x (i - 1).toNat))
      (|toR alpha| * (|T (i - 1).toNat| * |x (i - 1).toNat|)) (eta * (1 + |toR alpha| + |T (i - 1).toNat| + |x (i - 1).toNat|)) := by
  unfold rtStart
  by_cases h3 : (diagMul nounit alpha (ga i i) ≠ᶠ (Scalar.one : Float)) = true
  · rw [if_pos h3]
    exact rnStart_val hS h1 h2 hx hT ha hd hb
  · rw [if_neg h3]
    obtain ⟨hf, h1'⟩ := eq_toR toR_one'.1 (ne_false h3)
    rw [toR_one'.2] at h1'
    have he := eta_pos
    have ba := abs_nonneg (toR alpha)
    have bt := abs_nonneg (T (i - 1).toNat)
    have bx := abs_nonneg (x (i - 1).toNat)
    refine ⟨by rw [abs_mul, abs_mul], term_under _, fun _ => ?_, hb⟩
    have hap : Appr 1 1 (toR alpha * T (i - 1).toNat) (|toR alpha| * |T (i - 1).toNat|) eta := by
      unfold diagMul at hf h1'
      cases nounit
      · simp only [Bool.false_eq_true, if_false] at hf h1' hT
        rw [h1', hT, abs_one, mul_one]
        have := Appr.exact (1 : ℝ)
        rw [abs_one] at this
        exact this.mono (by omega) he.le
      · simp only [if_true] at hf h1' hT
        obtain ⟨g1, g2⟩ := finite_of_mul hf
        have := (Appr.exact (toR alpha)).mulL (mul_err g1 g2 hf)
        rw [h1', zero_mul, zero_add, zero_add, ← hT] at this
        exact this
    have := hap.mulL (y := toR (r i)) (f := toR (r i)) (by
      rw [one_mul, sub_self, abs_zero]
      exact add_nonneg (mul_nonneg ur_pos.le (abs_nonneg _)) he.le)
    rw [← hx, mul_assoc, mul_assoc] at this
    rw [← hx]
    exact this.mono (le_refl _) (by nlinarith)

end

/-- One entry of the product. -/
theorem trmmVal_val {A B : Nat → Nat → ℝ} {ga gb : Int → Int → Float} {m n : Nat} {uplo diag transa : Char} (lside : Bool)
    (hA : ∀ i j : Int, 1 ≤ i → i ≤ (if lside then m else n : Nat) → 1 ≤ j →
      j ≤ (if lside then m else n : Nat) → toR (ga i j) = A (i - 1).toNat (j - 1).toNat)
    (hB : ∀ i j : Int, 1 ≤ i → i ≤ m → 1 ≤ j → j ≤ n → toR (gb i j) = B (i - 1).toNat (j - 1).toNat)
    {i j : Int} (hi1 : 1 ≤ i) (hi2 : i ≤ m) (hj1 : 1 ≤ j) (hj2 : j ≤ n) {s : Nat} {T x : Nat → ℝ}
    (hs : s = if lside then m else n)
    (hT : T = if lside then fun l => opR transa (tri uplo diag A) (i - 1).toNat l else fun l => opR transa (tri uplo diag A) l (j - 1).toNat)
    (hx : x = if lside then fun l => B l (j - 1).toNat else fun l => B (i - 1).toNat l)
    (ha : P → alpha.isFinite = true)
    (fA : P → ∀ i j : Int, 1 ≤ i → i ≤ s → 1 ≤ j → j ≤ s → InTri uplo diag (i - 1).toNat (j - 1).toNat → (ga i j).isFinite = true)
    (fB : P → ∀ k : Int, 1 ≤ k → k ≤ s → (if lside then gb k j else gb i k).isFinite = true)
    (hS : Safe P s alpha T x) :
    Val P (s + 1) (trmmVal lside (isUpper uplo) (noTrans transa) (!isUnit diag) m n alpha ga gb i j)
      (trmmReal s alpha T x) (trmmSize s alpha T x) (eta * trmmUnder s alpha T x) := by
  unfold trmmVal
  unfold opR at hT
  cases lside
  · simp only [Bool.false_eq_true, if_false] at hA hs hT hx fB ⊢
    subst s
    have hTd : T (j - 1).toNat = if !isUnit diag then toR (ga j j) else 1 := by
      rw [hT]
      beta_reduce
      rw [ite_self, tri_diag, hA j j hj1 hj2 hj1 hj2]
    have hxx : ∀ k, 1 ≤ k → k ≤ (n : Int) → x (k - 1).toNat = toR (gb i k) := by
      intro k h1 h2
      rw [hx, hB i k hi1 hi2 h1 h2]
    have hd : P → (!isUnit diag) = true → (ga j j).isFinite = true := fun hP hu => fA hP j j hj1 hj2 hj1 hj2
      ⟨by split_ifs <;> exact le_refl _, fun h => by simp [h] at hu⟩
    have hb : ∀ k, 1 ≤ k → k ≤ (n : Int) → P → (gb i k).isFinite = true := fun k h1 h2 hP => fB hP k h1 h2
    cases ht : noTrans transa
    · simp only [ht, Bool.false_eq_true, if_false] at hT ⊢
      -- the steps
      have step : ∀ {ks : List Int}, (∀ k ∈ ks, (1 ≤ k ∧ k ≤ n) ∧ k ≠ j ∧ if isUpper uplo then j < k else k < j) → ∀ k ∈ ks,
          (∃ p, (∀ acc, rAcc alpha (ga j k) (gb i) acc k = acc + p) ∧ Val P 2 p (toR alpha * (T (k - 1).toNat * x (k - 1).toNat))
            (|toR alpha| * (|T (k - 1).toNat| * |x (k - 1).toNat|)) (eta * (1 + |toR alpha| + |T (k - 1).toNat| + |x (k - 1).toNat|))) ∨
          ((∀ acc, rAcc alpha (ga j k) (gb i) acc k = acc) ∧ (T (k - 1).toNat = 0 ∨ x (k - 1).toNat = 0)) := by
        intro ks hks k hk
        obtain ⟨⟨k1, k2⟩, hne, htri⟩ := hks k hk
        have hTk : T (k - 1).toNat = toR (ga j k) := by
          rw [hT, hA j k hj1 hj2 k1 k2]
          beta_reduce
          rw [tri_in (by omega) (by cases hu : isUpper uplo <;> simp [hu] at htri ⊢ <;> omega)]
        by_cases hz : (ga j k ≠ᶠ (Scalar.zero : Float)) = true
        · left
          refine ⟨_, fun acc => if_pos hz, term_r hS (by omega) hTk (hxx k k1 k2) ha (fun hP => fA hP j k hj1 hj2 k1 k2 ?_) (hb k k1 k2)⟩
          exact ⟨by cases hu : isUpper uplo <;> simp [hu] at htri ⊢ <;> omega, fun _ => by omega⟩
        · right
          exact ⟨fun acc => if_neg hz, Or.inl (hTk.trans (zero_of hz).2)⟩
      have h0 := rtStart_val (nounit := !isUnit diag) (ga := ga) hS hj1 hj2 (hxx j hj1 hj2) hTd ha hd (hb j hj1 hj2)
      cases hu : isUpper uplo
      · simp only [hu, Bool.false_eq_true, if_false] at step ⊢
        refine terms_total hS (Terms.reverse (terms_lower hj1 hj2 ?_)) h0 (step ?_)
        · intro l h1 h2
          rw [hT]
          exact tri_out (by omega) (by rw [hu]; simp; omega)
        · intro k hk
          rw [List.mem_reverse, mem_irange] at hk
          omega
      · simp only [hu, if_true] at step ⊢
        refine terms_total hS (terms_upper hj1 hj2 ?_) h0 (step ?_)
        · intro l h1
          rw [hT]
          exact tri_out (by omega) (by rw [hu]; simp; omega)
        · intro k hk
          rw [mem_irange] at hk
          omega
    · simp only [ht, if_true] at hT ⊢
      have step : ∀ {ks : List Int}, (∀ k ∈ ks, (1 ≤ k ∧ k ≤ n) ∧ k ≠ j ∧ if isUpper uplo then k < j else j < k) → ∀ k ∈ ks,
          (∃ p, (∀ acc, rAcc alpha (ga k j) (gb i) acc k = acc + p) ∧ Val P 2 p (toR alpha * (T (k - 1).toNat * x (k - 1).toNat))
            (|toR alpha| * (|T (k - 1).toNat| * |x (k - 1).toNat|)) (eta * (1 + |toR alpha| + |T (k - 1).toNat| + |x (k - 1).toNat|))) ∨
          ((∀ acc, rAcc alpha (ga k j) (gb i) acc k = acc) ∧ (T (k - 1).toNat = 0 ∨ x (k - 1).toNat = 0)) := by
        intro ks hks k hk
        obtain ⟨⟨k1, k2⟩, hne, htri⟩ := hks k hk
        have hTk : T (k - 1).toNat = toR (ga k j) := by
          rw [hT, hA k j k1 k2 hj1 hj2]
          beta_reduce
          rw [tri_in (by omega) (by cases hu : isUpper uplo <;> simp [hu] at htri ⊢ <;> omega)]
        by_cases hz : (ga k j ≠ᶠ (Scalar.zero : Float)) = true
        · left
          refine ⟨_, fun acc => if_pos hz, term_r hS (by omega) hTk (hxx k k1 k2) ha (fun hP => fA hP k j k1 k2 hj1 hj2 ?_) (hb k k1 k2)⟩
          exact ⟨by cases hu : isUpper uplo <;> simp [hu] at htri ⊢ <;> omega, fun _ => by omega⟩
        · right
          exact ⟨fun acc => if_neg hz, Or.inl (hTk.trans (zero_of hz).2)⟩
      have h0 := rnStart_val (nounit := !isUnit diag) (ga := ga) hS hj1 hj2 (hxx j hj1 hj2) hTd ha hd (hb j hj1 hj2)
      unfold rnVal
      cases hu : isUpper uplo
      · simp only [hu, Bool.false_eq_true, if_false] at step ⊢
        refine terms_total hS (terms_upper hj1 hj2 ?_) h0 (step ?_)
        · intro l h1
          rw [hT]
          exact tri_out (by omega) (by rw [hu]; simp; omega)
        · intro k hk
          rw [mem_irange] at hk
          omega
      · simp only [hu, if_true] at step ⊢
        refine terms_total hS (terms_lower hj1 hj2 ?_) h0 (step ?_)
        · intro l h1 h2
          rw [hT]
          exact tri_out (by omega) (by rw [hu]; simp; omega)
        · intro k hk
          rw [mem_irange] at hk
          omega
  · simp only [if_true] at hA hs hT hx fB ⊢
    subst s
    have hTd : T (i - 1).toNat = if !isUnit diag then toR (ga i i) else 1 := by
      rw [hT]
      beta_reduce
      rw [ite_self, tri_diag, hA i i hi1 hi2 hi1 hi2]
    have hxx : ∀ k, 1 ≤ k → k ≤ (m : Int) → x (k - 1).toNat = toR (gb k j) := by
      intro k h1 h2
      rw [hx, hB k j h1 h2 hj1 hj2]
    have hd : P → (!isUnit diag) = true → (ga i i).isFinite = true := fun hP hu => fA hP i i hi1 hi2 hi1 hi2
      ⟨by split_ifs <;> exact le_refl _, fun h => by simp [h] at hu⟩
    have hb : ∀ k, 1 ≤ k → k ≤ (m : Int) → P → (gb k j).isFinite = true := fun k h1 h2 hP => fB hP k h1 h2
    cases ht : noTrans transa
    · simp only [ht, Bool.false_eq_true, if_false] at hT ⊢
      have hp : ∀ {ks : List Int}, (∀ k ∈ ks, (1 ≤ k ∧ k ≤ m) ∧ k ≠ i ∧ if isUpper uplo then k < i else i < k) → ∀ k ∈ ks,
          Val P 1 (ga k i * gb k j) (T (k - 1).toNat * x (k - 1).toNat) (|T (k - 1).toNat| * |x (k - 1).toNat|) eta := by
        intro ks hks k hk
        obtain ⟨⟨k1, k2⟩, hne, htri⟩ := hks k hk
        have hTk : T (k - 1).toNat = toR (ga k i) := by
          rw [hT, hA k i k1 k2 hi1 hi2]
          beta_reduce
          rw [tri_in (by omega) (by cases hu : isUpper uplo <;> simp [hu] at htri ⊢ <;> omega)]
        refine (term_lt hS (by omega) hTk (hxx k k1 k2) (fun hP => fA hP k i k1 k2 hi1 hi2 ?_) (hb k k1 k2)).1
        exact ⟨by cases hu : isUpper uplo <;> simp [hu] at htri ⊢ <;> omega, fun _ => by omega⟩
      have h0 : Val P 1 (diagMul (!isUnit diag) (gb i j) (ga i i)) (T (i - 1).toNat * x (i - 1).toNat)
          (|T (i - 1).toNat| * |x (i - 1).toNat|) eta := by
        unfold diagMul
        split_ifs with hu
        · rw [if_pos hu] at hTd
          exact (term_lt hS (by omega) hTd (hxx i hi1 hi2) (fun hP => hd hP hu) (hb i hi1 hi2)).2
        · rw [if_neg hu] at hTd
          have := (Val.float (P := P) (gb i j) (hb i hi1 hi2)).mono (n' := 1) (U' := eta) (by omega) eta_pos.le
          rwa [hTd, abs_one, one_mul, one_mul, hxx i hi1 hi2]
      unfold ltVal
      cases hu : isUpper uplo
      · simp only [hu, Bool.false_eq_true, if_false] at hp ⊢
        refine terms_dot hS ha (terms_upper hi1 hi2 ?_) h0 (hp ?_)
        · intro l h1
          rw [hT]
          exact tri_out (by omega) (by rw [hu]; simp; omega)
        · intro k hk
          rw [mem_irange] at hk
          omega
      · simp only [hu, if_true] at hp ⊢
        refine terms_dot hS ha (terms_lower hi1 hi2 ?_) h0 (hp ?_)
        · intro l h1 h2
          rw [hT]
          exact tri_out (by omega) (by rw [hu]; simp; omega)
        · intro k hk
          rw [mem_irange] at hk
          omega
    · simp only [ht, if_true] at hT ⊢
      have step : ∀ {ks : List Int}, (∀ k ∈ ks, (1 ≤ k ∧ k ≤ m) ∧ k ≠ i ∧ if isUpper uplo then i < k else k < i) → ∀ k ∈ ks,
          (∃ p, (∀ acc, lnStep alpha ga (gb · j) i acc k = acc + p) ∧ Val P 2 p (toR alpha * (T (k - 1).toNat * x (k - 1).toNat))
            (|toR alpha| * (|T (k - 1).toNat| * |x (k - 1).toNat|)) (eta * (1 + |toR alpha| + |T (k - 1).toNat| + |x (k - 1).toNat|))) ∨
          ((∀ acc, lnStep alpha ga (gb · j) i acc k = acc) ∧ (T (k - 1).toNat = 0 ∨ x (k - 1).toNat = 0)) := by
        intro ks hks k hk
        obtain ⟨⟨k1, k2⟩, hne, htri⟩ := hks k hk
        have hTk : T (k - 1).toNat = toR (ga i k) := by
          rw [hT, hA i k hi1 hi2 k1 k2]
          beta_reduce
          rw [tri_in (by omega) (by cases hu : isUpper uplo <;> simp [hu] at htri ⊢ <;> omega)]
        by_cases hz : (gb k j ≠ᶠ (Scalar.zero : Float)) = true
        · left
          refine ⟨_, fun acc => lnStep_pos (b := fun k => gb k j) hz, term_ln hS (by omega) hTk (hxx k k1 k2) ha
            (fun hP => fA hP i k hi1 hi2 k1 k2 ?_) (hb k k1 k2)⟩
          exact ⟨by cases hu : isUpper uplo <;> simp [hu] at htri ⊢ <;> omega, fun _ => by omega⟩
        · right
          exact ⟨fun acc => lnStep_neg (b := fun k => gb k j) hz, Or.inr ((hxx k k1 k2).trans (zero_of hz).2)⟩
      have h0 := lnStart_val (nounit := !isUnit diag) (ga := ga) (b := fun k => gb k j) hS hi1 hi2 (hxx i hi1 hi2) hTd ha hd (hb i hi1 hi2)
      cases hu : isUpper uplo
      · simp only [hu, Bool.false_eq_true, if_false] at step ⊢
        refine terms_total hS (Terms.reverse (terms_lower hi1 hi2 ?_)) h0 (step ?_)
        · intro l h1 h2
          rw [hT]
          exact tri_out (by omega) (by rw [hu]; simp; omega)
        · intro k hk
          rw [List.mem_reverse, mem_irange] at hk
          omega
      · simp only [hu, if_true] at step ⊢
        refine terms_total hS (terms_upper hi1 hi2 ?_) h0 (step ?_)
        · intro l h1
          rw [hT]
          exact tri_out (by omega) (by rw [hu]; simp; omega)
        · intro k hk
          rw [mem_irange] at hk
          omega

end

/-- What is claimed about one entry `w` of the triangular product computed on binary64, `T l` and `x l`, for
`l < s`, being the factors of the terms of the exact value `alpha * Σ T_l x_l`, and `data` saying that all
numbers read are finite. -/
structure TrmmAccurate (s : Nat) (alpha : Float) (T x : Nat → ℝ) (data : Prop) (w : Float) : Prop where
  error : w.isFinite = true →
    |toR w - toR alpha * ∑ l ∈ range s, T l * x l| ≤
      ((1 + 1 / 2 ^ 53) ^ (s + 1) - 1) * (|toR alpha| * ∑ l ∈ range s, |T l| * |x l|) +
      (1 + 1 / 2 ^ 53) ^ (s + 1) * (1 / 2 ^ 1075 * ∑ l ∈ range s, (1 + |toR alpha| + |T l| + |x l|))
  finite : alpha.isFinite = true → data →
    (1 + 1 / 2 ^ 53) ^ (s + 1) * (max 1 |toR alpha| * ∑ l ∈ range s, max 1 |T l| * max 1 |x l| +
      1 / 2 ^ 1075 * ∑ l ∈ range s, (1 + |toR alpha| + |T l| + |x l|)) < ovf → w.isFinite = true

theorem trmmAccurate_of {s : Nat} {alpha : Float} {T x : Nat → ℝ} {data : Prop} {w : Float}
    (h : ∀ P : Prop, (P → alpha.isFinite = true) → (P → data) → Safe P s alpha T x →
      Val P (s + 1) w (trmmReal s alpha T x) (trmmSize s alpha T x) (eta * trmmUnder s alpha T x)) : TrmmAccurate s alpha T x data w where
  error hw := ((h False (fun h => h.elim) (fun h => h.elim) (fun h => h.elim)).appr hw).err
  finite h1 h2 h3 := (h True (fun _ => h1) (fun _ => h2) (fun _ => h3)).fin trivial

theorem entry_eq_ofList2 (v : List Float) (ld : Nat) {i j : Int} (h1 : 1 ≤ i) (h2 : 1 ≤ j) :
    ofList2 ld v i j = entry v ld (i - 1).toNat (j - 1).toNat := by
  rw [← entry_ofList2, show (((i - 1).toNat : Int) + 1) = i by omega, show (((j - 1).toNat : Int) + 1) = j by omega]

/-- **C64.** On binary64 `dtrmm` on arrays overwrites every entry of the `m`-by-`n` block of `B` by that of
`alpha*op(T)*B` (side left) or `alpha*B*op(T)` (side right) with a small componentwise error, and
without overflow unless the data come near the overflow threshold.  Outside the named triangle `A` may hold
anything. -/
theorem C64_dtrmm_f64 {side uplo transa diag : Char} (h1 : SideFlag side) (h2 : UploFlag uplo)
    (h3 : TransFlag transa) (h4 : DiagFlag diag) {m n : Nat} {lda ldb : Int}
    (hla : max 1 (if isLeft side then (m : Int) else n) ≤ lda) (hlb : max 1 (m : Int) ≤ ldb)
    (alpha : Float) (a b : FA Float) (ra rb : Nat) (ha : a.rows = ra) (hb : b.rows = rb)
    (sa : Stored a.data ra (triOrder side m n) (triOrder side m n))
    (sb : Stored b.data rb m n) :
    ∃ b' : FA Float, dtrmm side uplo transa diag m n alpha a lda b ldb = pure (a, b') ∧
      b'.rows = b.rows ∧ b'.cols = b.cols ∧ b'.data.length = b.data.length ∧
      (∀ i < m, ∀ j < n, ∃ w, b'.data[i + j * rb]? = some w ∧
        TrmmAccurate (if isLeft side then m else n) alpha
          (fun l => if isLeft side then opR transa (tri uplo diag (fun i j => toR (entry a.data ra i j))) i l
            else opR transa (tri uplo diag (fun i j => toR (entry a.data ra i j))) l j)
          (fun l => if isLeft side then toR (entry b.data rb l j) else toR (entry b.data rb i l))
          ((∀ i < triOrder side m n, ∀ j < triOrder side m n, InTri uplo diag i j → (entry a.data ra i j).isFinite = true) ∧
            ∀ i < m, ∀ j < n, (entry b.data rb i j).isFinite = true) w) ∧
      (∀ p, ¬ InBlock rb m n p → b'.data[p]? = b.data[p]?) := by
  by_cases hq : m = 0 ∨ n = 0
  · refine ⟨b, C27_empty h1 h2 h3 h4 hla hlb hq _ a b, rfl, rfl, rfl, ?_, fun _ _ => rfl⟩
    intro i hi j hj; omega
  · by_cases h0 : (alpha =ᶠ (Scalar.zero : Float)) = true
    · obtain ⟨b', e, r, c, u⟩ := C27_alpha_zero h1 h2 h3 h4 hla hlb alpha h0 b rb hb sb
      refine ⟨b', e a, r, c, u.length, ?_, u.frame⟩
      intro i hi j hj
      refine ⟨_, u.block i hi j hj, trmmAccurate_of fun P _ _ _ => ?_⟩
      obtain ⟨-, z⟩ := eq_toR toR_zero.1 h0
      rw [toR_zero.2] at z
      have := (Val.float (P := P) (Scalar.zero : Float) (fun _ => toR_zero.1))
      unfold trmmReal trmmSize
      rw [z, abs_zero, zero_mul, zero_mul]
      rw [toR_zero.2, abs_zero] at this
      exact this.mono (by omega) under_nonneg
    · obtain ⟨b', e, r, c, u⟩ := dtrmmFA_ok h1 h2 h3 h4 hla hlb (by omega) (by omega) alpha
        (by simpa using h0) a b ra rb ha hb sa sb
      refine ⟨b', ?_, r, c, u.length, ?_, u.frame⟩
      · unfold dtrmm
        show (dtrmmFA side uplo transa diag m n alpha a lda b ldb >>= _) = _
        rw [e]; rfl
      · intro i hi j hj
        refine ⟨_, u.block i hi j hj, trmmAccurate_of fun P ha hd hS => ?_⟩
        have t1 : ((i : Int) + 1 - 1).toNat = i := by omega
        have t2 : ((j : Int) + 1 - 1).toNat = j := by omega
        refine trmmVal_val (A := fun i j => toR (entry a.data ra i j)) (B := fun i j => toR (entry b.data rb i j)) (isLeft side)
          (fun i j g1 g2 g3 g4 => by rw [entry_eq_ofList2 _ _ g1 g3]) (fun i j g1 g2 g3 g4 => by rw [entry_eq_ofList2 _ _ g1 g3])
          (by omega) (by omega) (by omega) (by omega) rfl ?_ ?_ ha ?_ ?_ hS
        · rw [t1, t2]; split_ifs <;> rfl
        · rw [t1, t2]; split_ifs <;> rfl
        · intro hP i j g1 g2 g3 g4 g5
          rw [entry_eq_ofList2 _ _ g1 g3]
          refine (hd hP).1 _ ?_ _ ?_ g5 <;> unfold triOrder <;> split_ifs at * <;> omega
        · intro hP k g1 g2
          split_ifs at g2 ⊢
          · rw [entry_eq_ofList2 _ _ g1 (by omega)]
            exact (hd hP).2 _ (by omega) _ (by omega)
          · rw [entry_eq_ofList2 _ _ (by omega) g1]
            exact (hd hP).2 _ (by omega) _ (by omega)

theorem trmm_finite {s : Nat} {alpha : Float} {T x : Nat → ℝ} {data : Prop} {w : Float} (h : TrmmAccurate s alpha T x data w)
    (hs : s < 2 ^ 31) (ha : alpha.isFinite = true) (hd : data) (ba : |toR alpha| ≤ 2 ^ 300) (bT : ∀ l < s, |T l| ≤ 2 ^ 300)
    (bx : ∀ l < s, |x l| ≤ 2 ^ 300) : w.isFinite = true := by
  refine h.finite ha hd ?_
  have hov : (2 : ℝ) ^ 36 * 2 ^ 900 < ovf := by
    rw [← pow_add, ovf]
    exact lt_of_lt_of_le (pow_lt_pow_right₀ (by norm_num) (by norm_num : 36 + 900 < 971)) (le_mul_of_one_le_left (by positivity) (by norm_num))
  have h900 : (2 : ℝ) ^ 900 = 2 ^ 300 * 2 ^ 300 * 2 ^ 300 := by rw [← pow_add, ← pow_add]
  rw [h900] at hov
  have hB1 : (1 : ℝ) ≤ 2 ^ 300 := one_le_pow₀ (by norm_num)
  generalize (2 : ℝ) ^ 300 = B at *
  clear h900
  have hk0 : (0 : ℝ) ≤ s := Nat.cast_nonneg _
  have hkr : (s : ℝ) ≤ 2 ^ 31 := by exact_mod_cast hs.le
  have s1 : ∑ l ∈ range s, max 1 |T l| * max 1 |x l| ≤ s * (B * B) := by
    refine (sum_le_card_nsmul _ _ (B * B) fun l hl => ?_).trans (by rw [card_range, nsmul_eq_mul])
    exact mul_le_mul (max_le hB1 (bT l (mem_range.1 hl))) (max_le hB1 (bx l (mem_range.1 hl))) (by positivity) (by linarith)
  have s0 : 0 ≤ ∑ l ∈ range s, max 1 |T l| * max 1 |x l| := sum_nonneg fun l _ => by positivity
  have s2 : ∑ l ∈ range s, (1 + |toR alpha| + |T l| + |x l|) ≤ s * (4 * B) := by
    refine (sum_le_card_nsmul _ _ (4 * B) fun l hl => ?_).trans (by rw [card_range, nsmul_eq_mul])
    linarith [bT l (mem_range.1 hl), bx l (mem_range.1 hl)]
  have s3 : 0 ≤ ∑ l ∈ range s, (1 + |toR alpha| + |T l| + |x l|) := sum_nonneg fun l _ => by
    have := abs_nonneg (toR alpha); have := abs_nonneg (T l); have := abs_nonneg (x l); linarith
  have t1 : max 1 |toR alpha| * ∑ l ∈ range s, max 1 |T l| * max 1 |x l| ≤ B * (s * (B * B)) :=
    mul_le_mul (max_le hB1 ba) s1 s0 (by linarith)
  have t4 : (1 : ℝ) / 2 ^ 1075 * ∑ l ∈ range s, (1 + |toR alpha| + |T l| + |x l|) ≤ 1 * (s * (4 * B)) := by
    refine mul_le_mul ?_ s2 s3 (by norm_num)
    rw [div_le_one (by positivity)]; exact one_le_pow₀ (by norm_num)
  have hBB : B ≤ B * B := le_mul_of_one_le_left (by linarith) hB1
  have hBBB : B * B ≤ B * B * B := le_mul_of_one_le_right (by nlinarith) hB1
  have q1 : s * B ≤ s * (B * B * B) := mul_le_mul_of_nonneg_left (by linarith) hk0
  have hp := pow_ur_le (s + 1) (by omega)
  unfold ur at hp
  have q3 : (s : ℝ) * (B * B * B) ≤ 2 ^ 31 * (B * B * B) := mul_le_mul_of_nonneg_right hkr (by linarith)
  refine lt_of_le_of_lt (mul_le_mul hp (c := _) (d := 5 * (s * (B * B * B))) ?_ ?_ (by norm_num)) (lt_of_le_of_lt ?_ hov)
  · linarith
  · have z1 : 0 ≤ max 1 |toR alpha| * ∑ l ∈ range s, max 1 |T l| * max 1 |x l| := mul_nonneg (by positivity) s0
    have z3 : (0 : ℝ) ≤ 1 / 2 ^ 1075 * ∑ l ∈ range s, (1 + |toR alpha| + |T l| + |x l|) := mul_nonneg (by positivity) s3
    linarith
  · have : 0 ≤ B * B * B := by linarith
    linarith

/-- **C64.** Data of moderate size never lead to overflow. -/
theorem C64_dtrmm_no_overflow {side uplo transa diag : Char} (h1 : SideFlag side) (h2 : UploFlag uplo)
    (h3 : TransFlag transa) (h4 : DiagFlag diag) {m n : Nat} {lda ldb : Int}
    (hla : max 1 (if isLeft side then (m : Int) else n) ≤ lda) (hlb : max 1 (m : Int) ≤ ldb)
    (alpha : Float) (a b : FA Float) (ra rb : Nat) (ha : a.rows = ra) (hb : b.rows = rb)
    (sa : Stored a.data ra (triOrder side m n) (triOrder side m n))
    (sb : Stored b.data rb m n) (hn : n < 2 ^ 31)
    (hal : alpha.isFinite = true) (bal : |toR alpha| ≤ 2 ^ 300)
    (ma : ∀ i < triOrder side m n, ∀ j < triOrder side m n, InTri uplo diag i j →
      (entry a.data ra i j).isFinite = true ∧ |toR (entry a.data ra i j)| ≤ 2 ^ 300)
    (mb : Moderate b.data rb m n) :
    ∃ b' : FA Float, dtrmm side uplo transa diag m n alpha a lda b ldb = pure (a, b') ∧
      ∀ i < m, ∀ j < n, ∃ w, b'.data[i + j * rb]? = some w ∧ w.isFinite = true := by
  obtain ⟨b', e, -, -, -, h, -⟩ := C64_dtrmm_f64 h1 h2 h3 h4 hla hlb alpha a b ra rb ha hb sa sb
  refine ⟨b', e, fun i hi j hj => ?_⟩
  obtain ⟨w, hw, hacc⟩ := h i hi j hj
  have hB0 : (0 : ℝ) ≤ 2 ^ 300 := by positivity
  have hB1 : (1 : ℝ) ≤ 2 ^ 300 := one_le_pow₀ (by norm_num)
  have htri : ∀ i < triOrder side m n, ∀ j < triOrder side m n, |tri uplo diag (fun i j => toR (entry a.data ra i j)) i j| ≤ 2 ^ 300 := by
    intro i hi j hj
    unfold tri
    split_ifs with g1 g2 g3 g4 g5
    · rwa [abs_one]
    · subst g1
      exact (ma i hi i hi ⟨by split_ifs <;> exact le_refl _, fun h => absurd h g2⟩).2
    · exact (ma i hi j hj ⟨by rw [if_pos g3]; omega, fun _ => g1⟩).2
    · rwa [abs_zero]
    · exact (ma i hi j hj ⟨by rw [if_neg g3]; omega, fun _ => g1⟩).2
    · rwa [abs_zero]
  have hm : m < 2 ^ 31 := lt_of_le_of_lt sb.rows sb.ldSmall
  refine ⟨w, hw, trmm_finite hacc (by split_ifs <;> omega) hal
    ⟨fun i hi j hj ht => (ma i hi j hj ht).1, fun i hi j hj => (mb i hi j hj).1⟩ bal ?_ ?_⟩
  · intro l hl
    unfold triOrder at htri
    unfold opR
    beta_reduce
    split_ifs at hl htri ⊢ <;> exact htri _ (by omega) _ (by omega)
  · intro l hl
    beta_reduce
    split_ifs at hl ⊢
    · exact (mb l hl j hj).2
    · exact (mb i hi l hl).2

theorem C64_example_of {c p q r t u v w nn : Float} (hc : c.isFinite = true ∧ |toR c| ≤ 2 ^ 300) (hp : p.isFinite = true ∧ |toR p| ≤ 2 ^ 300)
    (hq : q.isFinite = true ∧ |toR q| ≤ 2 ^ 300) (hr : r.isFinite = true ∧ |toR r| ≤ 2 ^ 300) (ht : t.isFinite = true ∧ |toR t| ≤ 2 ^ 300)
    (hu : u.isFinite = true ∧ |toR u| ≤ 2 ^ 300) (hv : v.isFinite = true ∧ |toR v| ≤ 2 ^ 300) (hw : w.isFinite = true ∧ |toR w| ≤ 2 ^ 300) :
    ∃ b' : FA Float, dtrmm 'R' 'U' 'T' 'N' 2 2 c (⟨[p, nn, q, r], 2, 2, 0⟩ : FA Float) 2 (⟨[t, u, v, w], 2, 2, 0⟩ : FA Float) 2 =
        pure (⟨[p, nn, q, r], 2, 2, 0⟩, b') ∧
    ∀ i < 2, ∀ j < 2, ∃ w, b'.data[i + j * 2]? = some w ∧ w.isFinite = true := by
  have st : ∀ v : List Float, v.length = 4 → Stored v 2 2 2 := by
    intro v hv
    exact ⟨by norm_num, le_refl _, by norm_num, by rw [hv]; norm_num, fun i hi j hj => by rw [hv]; omega⟩
  refine C64_dtrmm_no_overflow (side := 'R') (uplo := 'U') (transa := 'T') (diag := 'N') (m := 2) (n := 2) (lda := 2) (ldb := 2) (by simp [SideFlag]) (by simp [UploFlag])
    (by simp [TransFlag]) (by simp [DiagFlag]) (by decide) (by decide) _ _ _ 2 2 rfl rfl (st _ rfl) (st _ rfl) (by norm_num)
    hc.1 hc.2 ?_ ?_
  · intro i hi j hj htri
    have hi' : i < 2 := hi
    have hj' : j < 2 := hj
    interval_cases i <;> interval_cases j
    · exact hp
    · exact hq
    · exact absurd htri.1 (by decide)
    · exact hr
  · intro i hi j hj
    interval_cases i <;> interval_cases j
    · exact ht
    · exact hv
    · exact hu
    · exact hw

/-- Non-vacuity of C64: a 2-by-2 matrix whose entry below the diagonal is a `NaN` that is not read. -/
theorem C64_example : ∃ b' : FA Float, dtrmm 'R' 'U' 'T' 'N' 2 2 (Float.ofInt 3)
      (⟨[Float.ofInt 1, Scalar.nan, Float.ofInt 3, Float.ofInt 4], 2, 2, 0⟩ : FA Float) 2
      (⟨[Float.ofInt (-5), Float.ofInt 6, Float.ofInt 7, Float.ofInt 8], 2, 2, 0⟩ : FA Float) 2 =
        pure (⟨[Float.ofInt 1, Scalar.nan, Float.ofInt 3, Float.ofInt 4], 2, 2, 0⟩, b') ∧
    ∀ i < 2, ∀ j < 2, ∃ w, b'.data[i + j * 2]? = some w ∧ w.isFinite = true :=
  C64_example_of (moderate_int (by norm_num)) (moderate_int (by norm_num)) (moderate_int (by norm_num)) (moderate_int (by norm_num))
    (moderate_int (by norm_num)) (moderate_int (by norm_num)) (moderate_int (by norm_num)) (moderate_int (by norm_num))

end Verif

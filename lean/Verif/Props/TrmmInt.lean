import Verif.Props.TrmmNested
import Verif.Props.GemmBits

/-!
# C98: `dtrmm` is exact for integers on binary64
-/

namespace Verif
open F64 Scalar Spec Finset

/-- The finite number `x` is an integer. -/
def Spec.IsInteger (x : Float) : Prop := ∃ n : ℤ, HasInt x n

/-- `f` holds exactly the integer `X`. -/
structure Ex (f : Float) (X : ℝ) : Prop where
  fin : f.isFinite = true
  val : toR f = X
  int : ∃ n : ℤ, X = n

theorem Spec.IsInteger.ex {x : Float} (h : IsInteger x) : Ex x (toR x) := by
  obtain ⟨n, h1, h2⟩ := h
  exact ⟨h1, rfl, n, h2⟩

theorem Ex.hasInt {f : Float} {X : ℝ} (h : Ex f X) : ∃ n : ℤ, X = n ∧ HasInt f n := by
  obtain ⟨n, hn⟩ := h.int
  exact ⟨n, hn, h.fin, h.val.trans hn⟩

theorem Ex.of_hasInt {f : Float} {X : ℝ} {n : ℤ} (h : HasInt f n) (e : X = n) : Ex f X := ⟨h.1, h.2.trans e.symm, n, e⟩

theorem Ex.mul {f g : Float} {X Y : ℝ} (hf : Ex f X) (hg : Ex g Y) (h : |X * Y| < 2 ^ 53) : Ex (f * g) (X * Y) := by
  obtain ⟨a, rfl, ha⟩ := hf.hasInt
  obtain ⟨b, rfl, hb⟩ := hg.hasInt
  exact Ex.of_hasInt (ha.mul hb (by exact_mod_cast h)) (by push_cast; rfl)

theorem Ex.add {f g : Float} {X Y : ℝ} (hf : Ex f X) (hg : Ex g Y) (h : |X + Y| < 2 ^ 53) : Ex (f + g) (X + Y) := by
  obtain ⟨a, rfl, ha⟩ := hf.hasInt
  obtain ⟨b, rfl, hb⟩ := hg.hasInt
  exact Ex.of_hasInt (ha.add hb (by exact_mod_cast h)) (by push_cast; rfl)

theorem Ex.congr {f : Float} {X Y : ℝ} (h : Ex f X) (e : X = Y) : Ex f Y := e ▸ h

/-- Terms added one after the other, some of them (known to be zero) left out. -/
theorem Ex.foldList {step : Float → Int → Float} {Xs : Int → ℝ} {M X : ℝ} {f : Float} (l : List Int) (h : Ex f X) (hX : |X| ≤ M)
    (hp : ∀ k ∈ l, (∃ p, (∀ acc, step acc k = acc + p) ∧ Ex p (Xs k) ∧ |Xs k| ≤ M) ∨ ((∀ acc, step acc k = acc) ∧ Xs k = 0))
    (hB : (l.length + 1) * M < 2 ^ 53) : Ex (l.foldl step f) (X + (l.map Xs).sum) ∧ |X + (l.map Xs).sum| ≤ (l.length + 1) * M := by
  have hM : 0 ≤ M := (abs_nonneg X).trans hX
  induction l using List.reverseRecOn with
  | nil => simpa using ⟨h, hX⟩
  | append_singleton l k ih =>
    rw [List.length_append, List.length_singleton, Nat.cast_add, Nat.cast_one] at hB ⊢
    have hk : ((l.length : ℝ) + 1 + 1) * M = (l.length + 1) * M + M := by ring
    obtain ⟨ih1, ih2⟩ := ih (fun k' hk' => hp k' (by simp [hk'])) (by linarith)
    rw [List.foldl_append, List.foldl_cons, List.foldl_nil, List.map_append, List.sum_append, List.map_singleton, List.sum_singleton, ← add_assoc]
    rcases hp k (by simp) with ⟨p, hst, hv, hm⟩ | ⟨hst, e⟩
    · have := abs_add_le (X + (l.map Xs).sum) (Xs k)
      rw [hst]
      exact ⟨ih1.add hv (by linarith), by linarith⟩
    · rw [hst, e, add_zero]
      exact ⟨ih1, by linarith⟩

section
variable {s : Nat} {alpha : Float} {P Q : ℝ} {T x : Nat → ℝ}

/-- Everything computed stays below `2^53`. -/
structure Small (s : Nat) (alpha : Float) (P Q : ℝ) : Prop where
  al : IsInteger alpha
  one : 1 ≤ |toR alpha|
  P1 : 1 ≤ P
  Q1 : 1 ≤ Q
  pos : 1 ≤ s
  lt : s * (|toR alpha| * (P * Q)) < 2 ^ 53

theorem Small.le (h : Small s alpha P Q) : |toR alpha| * (P * Q) < 2 ^ 53 := by
  have h1 : (1 : ℝ) ≤ s := by exact_mod_cast h.pos
  have h2 := h.P1; have h3 := h.Q1; have h4 := h.one
  have : 0 ≤ |toR alpha| * (P * Q) := by positivity
  nlinarith [h.lt]

theorem Small.pq (h : Small s alpha P Q) : s * (P * Q) < 2 ^ 53 := by
  have h1 : (1 : ℝ) ≤ s := by exact_mod_cast h.pos
  have h2 := h.P1; have h3 := h.Q1; have h4 := h.one
  have : 0 ≤ s * (P * Q) := by positivity
  nlinarith [h.lt]

theorem Small.pq1 (h : Small s alpha P Q) : P * Q < 2 ^ 53 := by
  have h1 : (1 : ℝ) ≤ s := by exact_mod_cast h.pos
  have h2 := h.P1; have h3 := h.Q1
  have : 0 ≤ P * Q := by positivity
  nlinarith [h.pq]

variable {t y : ℝ} {tf xf : Float}

theorem abs_term (hS : Small s alpha P Q) (ht : |t| ≤ P) (hy : |y| ≤ Q) : |toR alpha * (t * y)| ≤ |toR alpha| * (P * Q) := by
  rw [abs_mul, abs_mul]
  exact mul_le_mul_of_nonneg_left (mul_le_mul ht hy (abs_nonneg _) (by linarith [hS.P1])) (abs_nonneg _)

theorem int_term_lt (hS : Small s alpha P Q) (ht : t = toR tf) (hx : y = toR xf) (h1 : IsInteger tf ∧ |toR tf| ≤ P) (h2 : IsInteger xf ∧ |toR xf| ≤ Q) :
    Ex (tf * xf) (t * y) ∧ |t * y| ≤ P * Q := by
  subst ht hx
  have h : |toR tf * toR xf| ≤ P * Q := by
    rw [abs_mul]; exact mul_le_mul h1.2 h2.2 (abs_nonneg _) (by linarith [hS.P1])
  exact ⟨h1.1.ex.mul h2.1.ex (by linarith [hS.pq1]), h⟩

theorem int_term_ln (hS : Small s alpha P Q) (ht : t = toR tf) (hx : y = toR xf) (h1 : IsInteger tf ∧ |toR tf| ≤ P) (h2 : IsInteger xf ∧ |toR xf| ≤ Q) :
    Ex (alpha * xf * tf) (toR alpha * (t * y)) ∧ |toR alpha * (t * y)| ≤ |toR alpha| * (P * Q) := by
  subst ht hx
  have h := abs_term hS h1.2 h2.2
  refine ⟨?_, h⟩
  have e : toR alpha * (toR tf * toR xf) = toR alpha * toR xf * toR tf := by ring
  rw [e] at h ⊢
  have ha := abs_nonneg (toR alpha)
  refine (hS.al.ex.mul h2.1.ex ?_).mul h1.1.ex (by linarith [hS.le])
  rw [abs_mul]
  have : |toR alpha| * |toR xf| ≤ |toR alpha| * (P * Q) := mul_le_mul_of_nonneg_left (by nlinarith [hS.P1, hS.Q1, h2.2]) ha
  linarith [hS.le]

theorem int_term_r (hS : Small s alpha P Q) (ht : t = toR tf) (hx : y = toR xf) (h1 : IsInteger tf ∧ |toR tf| ≤ P) (h2 : IsInteger xf ∧ |toR xf| ≤ Q) :
    Ex (alpha * tf * xf) (toR alpha * (t * y)) ∧ |toR alpha * (t * y)| ≤ |toR alpha| * (P * Q) := by
  subst ht hx
  have h := abs_term hS h1.2 h2.2
  refine ⟨?_, h⟩
  rw [← mul_assoc] at h ⊢
  have ha := abs_nonneg (toR alpha)
  refine (hS.al.ex.mul h1.1.ex ?_).mul h2.1.ex (by linarith [hS.le])
  rw [abs_mul]
  have : |toR alpha| * |toR tf| ≤ |toR alpha| * (P * Q) := mul_le_mul_of_nonneg_left (by nlinarith [hS.P1, hS.Q1, h1.2]) ha
  linarith [hS.le]

theorem int_term_unit (hS : Small s alpha P Q) (ht : t = 1) (hx : y = toR xf) (h2 : IsInteger xf ∧ |toR xf| ≤ Q) :
    Ex (alpha * xf) (toR alpha * (t * y)) ∧ |toR alpha * (t * y)| ≤ |toR alpha| * (P * Q) := by
  subst hx
  have h := abs_term hS (t := t) (by rw [ht, abs_one]; exact hS.P1) h2.2
  refine ⟨?_, h⟩
  rw [ht, one_mul] at h ⊢
  exact hS.al.ex.mul h2.1.ex (by linarith [hS.le])

theorem int_skip (hS : Small s alpha P Q) {a : Float} (h5 : a.isFinite = true) (h6 : toR a = 0) (h : t = 0 ∨ y = 0) :
    Ex a (toR alpha * (t * y)) ∧ |toR alpha * (t * y)| ≤ |toR alpha| * (P * Q) := by
  have h0 : toR alpha * (t * y) = 0 := by rcases h with h | h <;> rw [h] <;> ring
  have h2 := hS.P1; have h3 := hS.Q1; have h4 := hS.one
  rw [h0, abs_zero]
  exact ⟨⟨h5, h6, 0, by simp⟩, by positivity⟩

/-- Accumulation of the scaled terms. -/
theorem terms_total_int (hS : Small s alpha P Q) {i : Int} {ks : List Int} (ht : Terms s T i ks) {step : Float → Int → Float} {start : Float}
    (h0 : Ex start (toR alpha * (T (i - 1).toNat * x (i - 1).toNat)) ∧ |toR alpha * (T (i - 1).toNat * x (i - 1).toNat)| ≤ |toR alpha| * (P * Q))
    (hp : ∀ k ∈ ks, (∃ p, (∀ acc, step acc k = acc + p) ∧ Ex p (toR alpha * (T (k - 1).toNat * x (k - 1).toNat)) ∧
        |toR alpha * (T (k - 1).toNat * x (k - 1).toNat)| ≤ |toR alpha| * (P * Q)) ∨
      ((∀ acc, step acc k = acc) ∧ (T (k - 1).toNat = 0 ∨ x (k - 1).toNat = 0))) :
    Ex (ks.foldl step start) (toR alpha * ∑ l ∈ range s, T l * x l) := by
  have e1 : toR alpha * ∑ l ∈ range s, T l * x l = toR alpha * (T (i - 1).toNat * x (i - 1).toNat) +
      (ks.map (fun k => toR alpha * (T (k - 1).toNat * x (k - 1).toNat))).sum := by
    rw [mul_sum, ht.sum (fun l => toR alpha * (T l * x l)) (fun l hl => by simp [hl])]
  rw [e1]
  refine (Ex.foldList ks h0.1 h0.2 (Xs := fun k => toR alpha * (T (k - 1).toNat * x (k - 1).toNat)) (fun k hk => ?_) ?_).1
  · rcases hp k hk with h | ⟨h, hz⟩
    · exact Or.inl h
    · exact Or.inr ⟨h, (skip_ok hz).1⟩
  · refine lt_of_le_of_lt ?_ hS.lt
    have h2 := hS.P1; have h3 := hS.Q1; have h4 := hS.one
    have : (ks.length : ℝ) + 1 ≤ s := by exact_mod_cast ht.len
    exact mul_le_mul_of_nonneg_right this (by positivity)

/-- Accumulation of the unscaled terms, then scaling. -/
theorem terms_dot_int (hS : Small s alpha P Q) {i : Int} {ks : List Int} (ht : Terms s T i ks) {p : Int → Float} {start : Float}
    (h0 : Ex start (T (i - 1).toNat * x (i - 1).toNat) ∧ |T (i - 1).toNat * x (i - 1).toNat| ≤ P * Q)
    (hp : ∀ k ∈ ks, Ex (p k) (T (k - 1).toNat * x (k - 1).toNat) ∧ |T (k - 1).toNat * x (k - 1).toNat| ≤ P * Q) :
    Ex (alpha * ks.foldl (fun acc k => acc + p k) start) (toR alpha * ∑ l ∈ range s, T l * x l) := by
  have e1 : ∑ l ∈ range s, T l * x l = T (i - 1).toNat * x (i - 1).toNat + (ks.map (fun k => T (k - 1).toNat * x (k - 1).toNat)).sum :=
    ht.sum (fun l => T l * x l) (fun l hl => by simp [hl])
  have h2 := hS.P1; have h3 := hS.Q1; have h4 := hS.one
  have hl : (ks.length : ℝ) + 1 ≤ s := by exact_mod_cast ht.len
  have hl' : ((ks.length : ℝ) + 1) * (P * Q) ≤ s * (P * Q) := mul_le_mul_of_nonneg_right hl (by positivity)
  obtain ⟨f1, f2⟩ := Ex.foldList ks h0.1 h0.2 (step := fun acc k => acc + p k) (Xs := fun k => T (k - 1).toNat * x (k - 1).toNat)
    (fun k hk => Or.inl ⟨p k, fun _ => rfl, hp k hk⟩) (by linarith [hS.pq])
  rw [← e1] at f1 f2
  refine hS.al.ex.mul f1 ?_
  rw [abs_mul]
  have : |toR alpha| * |∑ l ∈ range s, T l * x l| ≤ |toR alpha| * (s * (P * Q)) := mul_le_mul_of_nonneg_left (f2.trans hl') (abs_nonneg _)
  have e : |toR alpha| * (s * (P * Q)) = s * (|toR alpha| * (P * Q)) := by ring
  linarith [hS.lt]

variable {nounit : Bool} {ga : Int → Int → Float} {i : Int}

theorem lnStart_int (hS : Small s alpha P Q) {b : Int → Float} (hx : y = toR (b i)) (hT : t = if nounit then toR (ga i i) else 1)
    (hd : nounit = true → IsInteger (ga i i) ∧ |toR (ga i i)| ≤ P) (hb : IsInteger (b i) ∧ |toR (b i)| ≤ Q) :
    Ex (lnStart nounit alpha ga b i) (toR alpha * (t * y)) ∧ |toR alpha * (t * y)| ≤ |toR alpha| * (P * Q) := by
  unfold lnStart diagMul
  split_ifs with h3 h4
  · rw [if_pos h4] at hT
    exact int_term_ln hS hT hx (hd h4) hb
  · rw [if_neg h4] at hT
    exact int_term_unit hS hT hx hb
  · obtain ⟨h5, h6⟩ := zero_of h3
    exact int_skip hS h5 h6 (Or.inr (hx.trans h6))

theorem rnStart_int (hS : Small s alpha P Q) {r : Int → Float} (hx : y = toR (r i)) (hT : t = if nounit then toR (ga i i) else 1)
    (hd : nounit = true → IsInteger (ga i i) ∧ |toR (ga i i)| ≤ P) (hb : IsInteger (r i) ∧ |toR (r i)| ≤ Q) :
    Ex (diagMul nounit alpha (ga i i) * r i) (toR alpha * (t * y)) ∧ |toR alpha * (t * y)| ≤ |toR alpha| * (P * Q) := by
  unfold diagMul
  split_ifs with h4
  · rw [if_pos h4] at hT
    exact int_term_r hS hT hx (hd h4) hb
  · rw [if_neg h4] at hT
    exact int_term_unit hS hT hx hb

theorem rtStart_int (hS : Small s alpha P Q) {r : Int → Float} (hx : y = toR (r i)) (hT : t = if nounit then toR (ga i i) else 1)
    (hd : nounit = true → IsInteger (ga i i) ∧ |toR (ga i i)| ≤ P) (hb : IsInteger (r i) ∧ |toR (r i)| ≤ Q) :
    Ex (rtStart nounit alpha ga r i) (toR alpha * (t * y)) ∧ |toR alpha * (t * y)| ≤ |toR alpha| * (P * Q) := by
  have h := rnStart_int hS hx hT hd hb
  unfold rtStart
  by_cases h3 : (diagMul nounit alpha (ga i i) ≠ᶠ (Scalar.one : Float)) = true
  · rwa [if_pos h3]
  · rw [if_neg h3]
    refine ⟨?_, h.2⟩
    obtain ⟨-, h1⟩ := eq_toR toR_one'.1 (ne_false h3)
    rw [toR_one'.2] at h1
    have hat : toR alpha * t = 1 := by
      unfold diagMul at h1
      cases nounit
      · simp only [Bool.false_eq_true, if_false] at h1 hT
        rw [h1, hT, one_mul]
      · simp only [if_true] at h1 hT
        have hm : Ex (alpha * ga i i) (toR alpha * toR (ga i i)) := hS.al.ex.mul (hd rfl).1.ex (by
          rw [abs_mul]
          have : |toR alpha| * |toR (ga i i)| ≤ |toR alpha| * (P * Q) :=
            mul_le_mul_of_nonneg_left (by nlinarith [hS.P1, hS.Q1, (hd rfl).2]) (abs_nonneg _)
          linarith [hS.le])
        rw [hT, ← hm.val, h1]
    refine hb.1.ex.congr ?_
    rw [← mul_assoc, hat, one_mul, hx]

theorem ltStart_int (hS : Small s alpha P Q) {b : Int → Float} (hx : y = toR (b i)) (hT : t = if nounit then toR (ga i i) else 1)
    (hd : nounit = true → IsInteger (ga i i) ∧ |toR (ga i i)| ≤ P) (hb : IsInteger (b i) ∧ |toR (b i)| ≤ Q) :
    Ex (diagMul nounit (b i) (ga i i)) (t * y) ∧ |t * y| ≤ P * Q := by
  unfold diagMul
  split_ifs with h4
  · rw [if_pos h4] at hT
    rw [mul_comm']
    exact int_term_lt hS hT hx (hd h4) hb
  · rw [if_neg h4] at hT
    rw [hT, one_mul, hx]
    exact ⟨hb.1.ex, by nlinarith [hS.P1, hS.Q1, hb.2]⟩

/-- One entry of the product of integers. -/
theorem trmmVal_int {A B : Nat → Nat → ℝ} {ga gb : Int → Int → Float} {m n : Nat} {uplo diag transa : Char} (lside : Bool)
    (hA : ∀ i j : Int, 1 ≤ i → i ≤ (if lside then m else n : Nat) → 1 ≤ j →
      j ≤ (if lside then m else n : Nat) → toR (ga i j) = A (i - 1).toNat (j - 1).toNat)
    (hB : ∀ i j : Int, 1 ≤ i → i ≤ m → 1 ≤ j → j ≤ n → toR (gb i j) = B (i - 1).toNat (j - 1).toNat)
    {i j : Int} (hi1 : 1 ≤ i) (hi2 : i ≤ m) (hj1 : 1 ≤ j) (hj2 : j ≤ n) {s : Nat} {T x : Nat → ℝ}
    (hs : s = if lside then m else n)
    (hT : T = if lside then fun l => opR transa (tri uplo diag A) (i - 1).toNat l else fun l => opR transa (tri uplo diag A) l (j - 1).toNat)
    (hx : x = if lside then fun l => B l (j - 1).toNat else fun l => B (i - 1).toNat l)
    (fA : ∀ i j : Int, 1 ≤ i → i ≤ s → 1 ≤ j → j ≤ s → InTri uplo diag (i - 1).toNat (j - 1).toNat → IsInteger (ga i j) ∧ |toR (ga i j)| ≤ P)
    (fB : ∀ k : Int, 1 ≤ k → k ≤ s → IsInteger (if lside then gb k j else gb i k) ∧ |toR (if lside then gb k j else gb i k)| ≤ Q)
    (hS : Small s alpha P Q) :
    Ex (trmmVal lside (isUpper uplo) (noTrans transa) (!isUnit diag) m n alpha ga gb i j) (toR alpha * ∑ l ∈ range s, T l * x l) := by
  unfold trmmVal
  unfold opR at hT
  cases lside
  · simp only [Bool.false_eq_true, if_false] at hA hs hT hx fB ⊢
    subst s
    have hTd : T (j - 1).toNat = if !isUnit diag then toR (ga j j) else 1 := by
      rw [hT]
      beta_reduce
      rw [ite_self, tri_diag, hA j j hj1 hj2 hj1 hj2]
    have hxx : ∀ k, 1 ≤ k → k ≤ (n : Int) → x (k - 1).toNat = toR (gb i k) := by
      intro k h1 h2
      rw [hx, hB i k hi1 hi2 h1 h2]
    have hd : (!isUnit diag) = true → IsInteger (ga j j) ∧ |toR (ga j j)| ≤ P := fun hu => fA j j hj1 hj2 hj1 hj2
      ⟨by split_ifs <;> exact le_refl _, fun h => by simp [h] at hu⟩
    have hb : ∀ k, 1 ≤ k → k ≤ (n : Int) → IsInteger (gb i k) ∧ |toR (gb i k)| ≤ Q := fun k h1 h2 => fB k h1 h2
    cases ht : noTrans transa
    · simp only [ht, Bool.false_eq_true, if_false] at hT ⊢
      -- the steps
      have step : ∀ {ks : List Int}, (∀ k ∈ ks, (1 ≤ k ∧ k ≤ n) ∧ k ≠ j ∧ if isUpper uplo then j < k else k < j) → ∀ k ∈ ks,
          (∃ p, (∀ acc, rAcc alpha (ga j k) (gb i) acc k = acc + p) ∧ Ex p (toR alpha * (T (k - 1).toNat * x (k - 1).toNat)) ∧ |toR alpha * (T (k - 1).toNat * x (k - 1).toNat)| ≤ |toR alpha| * (P * Q)) ∨
          ((∀ acc, rAcc alpha (ga j k) (gb i) acc k = acc) ∧ (T (k - 1).toNat = 0 ∨ x (k - 1).toNat = 0)) := by
        intro ks hks k hk
        obtain ⟨⟨k1, k2⟩, hne, htri⟩ := hks k hk
        have hTk : T (k - 1).toNat = toR (ga j k) := by
          rw [hT, hA j k hj1 hj2 k1 k2]
          beta_reduce
          rw [tri_in (by omega) (by cases hu : isUpper uplo <;> simp [hu] at htri ⊢ <;> omega)]
        by_cases hz : (ga j k ≠ᶠ (Scalar.zero : Float)) = true
        · left
          refine ⟨_, fun acc => if_pos hz, int_term_r hS hTk (hxx k k1 k2) (fA j k hj1 hj2 k1 k2 ?_) (hb k k1 k2)⟩
          exact ⟨by cases hu : isUpper uplo <;> simp [hu] at htri ⊢ <;> omega, fun _ => by omega⟩
        · right
          exact ⟨fun acc => if_neg hz, Or.inl (hTk.trans (zero_of hz).2)⟩
      have h0 := rtStart_int (nounit := !isUnit diag) (ga := ga) hS (hxx j hj1 hj2) hTd hd (hb j hj1 hj2)
      cases hu : isUpper uplo
      · simp only [hu, Bool.false_eq_true, if_false] at step ⊢
        refine terms_total_int hS (Terms.reverse (terms_lower hj1 hj2 ?_)) h0 (step ?_)
        · intro l h1 h2
          rw [hT]
          exact tri_out (by omega) (by rw [hu]; simp; omega)
        · intro k hk
          rw [List.mem_reverse, mem_irange] at hk
          omega
      · simp only [hu, if_true] at step ⊢
        refine terms_total_int hS (terms_upper hj1 hj2 ?_) h0 (step ?_)
        · intro l h1
          rw [hT]
          exact tri_out (by omega) (by rw [hu]; simp; omega)
        · intro k hk
          rw [mem_irange] at hk
          omega
    · simp only [ht, if_true] at hT ⊢
      have step : ∀ {ks : List Int}, (∀ k ∈ ks, (1 ≤ k ∧ k ≤ n) ∧ k ≠ j ∧ if isUpper uplo then k < j else j < k) → ∀ k ∈ ks,
          (∃ p, (∀ acc, rAcc alpha (ga k j) (gb i) acc k = acc + p) ∧ Ex p (toR alpha * (T (k - 1).toNat * x (k - 1).toNat)) ∧ |toR alpha * (T (k - 1).toNat * x (k - 1).toNat)| ≤ |toR alpha| * (P * Q)) ∨
          ((∀ acc, rAcc alpha (ga k j) (gb i) acc k = acc) ∧ (T (k - 1).toNat = 0 ∨ x (k - 1).toNat = 0)) := by
        intro ks hks k hk
        obtain ⟨⟨k1, k2⟩, hne, htri⟩ := hks k hk
        have hTk : T (k - 1).toNat = toR (ga k j) := by
          rw [hT, hA k j k1 k2 hj1 hj2]
          beta_reduce
          rw [tri_in (by omega) (by cases hu : isUpper uplo <;> simp [hu] at htri ⊢ <;> omega)]
        by_cases hz : (ga k j ≠ᶠ (Scalar.zero : Float)) = true
        · left
          refine ⟨_, fun acc => if_pos hz, int_term_r hS hTk (hxx k k1 k2) (fA k j k1 k2 hj1 hj2 ?_) (hb k k1 k2)⟩
          exact ⟨by cases hu : isUpper uplo <;> simp [hu] at htri ⊢ <;> omega, fun _ => by omega⟩
        · right
          exact ⟨fun acc => if_neg hz, Or.inl (hTk.trans (zero_of hz).2)⟩
      have h0 := rnStart_int (nounit := !isUnit diag) (ga := ga) hS (hxx j hj1 hj2) hTd hd (hb j hj1 hj2)
      unfold rnVal
      cases hu : isUpper uplo
      · simp only [hu, Bool.false_eq_true, if_false] at step ⊢
        refine terms_total_int hS (terms_upper hj1 hj2 ?_) h0 (step ?_)
        · intro l h1
          rw [hT]
          exact tri_out (by omega) (by rw [hu]; simp; omega)
        · intro k hk
          rw [mem_irange] at hk
          omega
      · simp only [hu, if_true] at step ⊢
        refine terms_total_int hS (terms_lower hj1 hj2 ?_) h0 (step ?_)
        · intro l h1 h2
          rw [hT]
          exact tri_out (by omega) (by rw [hu]; simp; omega)
        · intro k hk
          rw [mem_irange] at hk
          omega
  · simp only [if_true] at hA hs hT hx fB ⊢
    subst s
    have hTd : T (i - 1).toNat = if !isUnit diag then toR (ga i i) else 1 := by
      rw [hT]
      beta_reduce
      rw [ite_self, tri_diag, hA i i hi1 hi2 hi1 hi2]
    have hxx : ∀ k, 1 ≤ k → k ≤ (m : Int) → x (k - 1).toNat = toR (gb k j) := by
      intro k h1 h2
      rw [hx, hB k j h1 h2 hj1 hj2]
    have hd : (!isUnit diag) = true → IsInteger (ga i i) ∧ |toR (ga i i)| ≤ P := fun hu => fA i i hi1 hi2 hi1 hi2
      ⟨by split_ifs <;> exact le_refl _, fun h => by simp [h] at hu⟩
    have hb : ∀ k, 1 ≤ k → k ≤ (m : Int) → IsInteger (gb k j) ∧ |toR (gb k j)| ≤ Q := fun k h1 h2 => fB k h1 h2
    cases ht : noTrans transa
    · simp only [ht, Bool.false_eq_true, if_false] at hT ⊢
      have hp : ∀ {ks : List Int}, (∀ k ∈ ks, (1 ≤ k ∧ k ≤ m) ∧ k ≠ i ∧ if isUpper uplo then k < i else i < k) → ∀ k ∈ ks,
          Ex (ga k i * gb k j) (T (k - 1).toNat * x (k - 1).toNat) ∧ |T (k - 1).toNat * x (k - 1).toNat| ≤ P * Q := by
        intro ks hks k hk
        obtain ⟨⟨k1, k2⟩, hne, htri⟩ := hks k hk
        have hTk : T (k - 1).toNat = toR (ga k i) := by
          rw [hT, hA k i k1 k2 hi1 hi2]
          beta_reduce
          rw [tri_in (by omega) (by cases hu : isUpper uplo <;> simp [hu] at htri ⊢ <;> omega)]
        refine int_term_lt hS hTk (hxx k k1 k2) (fA k i k1 k2 hi1 hi2 ?_) (hb k k1 k2)
        exact ⟨by cases hu : isUpper uplo <;> simp [hu] at htri ⊢ <;> omega, fun _ => by omega⟩
      have h0 := ltStart_int (nounit := !isUnit diag) (ga := ga) (b := fun k => gb k j) hS (hxx i hi1 hi2) hTd hd (hb i hi1 hi2)
      unfold ltVal
      cases hu : isUpper uplo
      · simp only [hu, Bool.false_eq_true, if_false] at hp ⊢
        refine terms_dot_int hS (terms_upper hi1 hi2 ?_) h0 (hp ?_)
        · intro l h1
          rw [hT]
          exact tri_out (by omega) (by rw [hu]; simp; omega)
        · intro k hk
          rw [mem_irange] at hk
          omega
      · simp only [hu, if_true] at hp ⊢
        refine terms_dot_int hS (terms_lower hi1 hi2 ?_) h0 (hp ?_)
        · intro l h1 h2
          rw [hT]
          exact tri_out (by omega) (by rw [hu]; simp; omega)
        · intro k hk
          rw [mem_irange] at hk
          omega
    · simp only [ht, if_true] at hT ⊢
      have step : ∀ {ks : List Int}, (∀ k ∈ ks, (1 ≤ k ∧ k ≤ m) ∧ k ≠ i ∧ if isUpper uplo then i < k else k < i) → ∀ k ∈ ks,
          (∃ p, (∀ acc, lnStep alpha ga (gb · j) i acc k = acc + p) ∧ Ex p (toR alpha * (T (k - 1).toNat * x (k - 1).toNat)) ∧ |toR alpha * (T (k - 1).toNat * x (k - 1).toNat)| ≤ |toR alpha| * (P * Q)) ∨
          ((∀ acc, lnStep alpha ga (gb · j) i acc k = acc) ∧ (T (k - 1).toNat = 0 ∨ x (k - 1).toNat = 0)) := by
        intro ks hks k hk
        obtain ⟨⟨k1, k2⟩, hne, htri⟩ := hks k hk
        have hTk : T (k - 1).toNat = toR (ga i k) := by
          rw [hT, hA i k hi1 hi2 k1 k2]
          beta_reduce
          rw [tri_in (by omega) (by cases hu : isUpper uplo <;> simp [hu] at htri ⊢ <;> omega)]
        by_cases hz : (gb k j ≠ᶠ (Scalar.zero : Float)) = true
        · left
          refine ⟨_, fun acc => lnStep_pos (b := fun k => gb k j) hz, int_term_ln hS hTk (hxx k k1 k2)
            (fA i k hi1 hi2 k1 k2 ?_) (hb k k1 k2)⟩
          exact ⟨by cases hu : isUpper uplo <;> simp [hu] at htri ⊢ <;> omega, fun _ => by omega⟩
        · right
          exact ⟨fun acc => lnStep_neg (b := fun k => gb k j) hz, Or.inr ((hxx k k1 k2).trans (zero_of hz).2)⟩
      have h0 := lnStart_int (nounit := !isUnit diag) (ga := ga) (b := fun k => gb k j) hS (hxx i hi1 hi2) hTd hd (hb i hi1 hi2)
      cases hu : isUpper uplo
      · simp only [hu, Bool.false_eq_true, if_false] at step ⊢
        refine terms_total_int hS (Terms.reverse (terms_lower hi1 hi2 ?_)) h0 (step ?_)
        · intro l h1 h2
          rw [hT]
          exact tri_out (by omega) (by rw [hu]; simp; omega)
        · intro k hk
          rw [List.mem_reverse, mem_irange] at hk
          omega
      · simp only [hu, if_true] at step ⊢
        refine terms_total_int hS (terms_upper hi1 hi2 ?_) h0 (step ?_)
        · intro l h1
          rw [hT]
          exact tri_out (by omega) (by rw [hu]; simp; omega)
        · intro k hk
          rw [mem_irange] at hk
          omega

end

/-- **C98.** On binary64 `dtrmm` on arrays is exact for integers: if `alpha`, the entries of the named triangle and those of `B` are integers, bounded by `P`
in the triangle and by `Q` in `B`, and `s·|alpha|·P·Q < 2^53` for the order `s` of the triangular matrix, the result is exactly `alpha*op(T)*B` or `alpha*B*op(T)`.
Outside the named triangle `A` may hold anything. -/
theorem C98_dtrmm_integers {side uplo transa diag : Char} (h1 : SideFlag side) (h2 : UploFlag uplo)
    (h3 : TransFlag transa) (h4 : DiagFlag diag) {m n : Nat} {lda ldb : Int}
    (hla : max 1 (if isLeft side then (m : Int) else n) ≤ lda) (hlb : max 1 (m : Int) ≤ ldb)
    (alpha : Float) (a b : FA Float) (ra rb : Nat) (ha : a.rows = ra) (hb : b.rows = rb)
    (sa : Stored a.data ra (triOrder side m n) (triOrder side m n)) (sb : Stored b.data rb m n)
    (P Q : ℝ) (hP : 1 ≤ P) (hQ : 1 ≤ Q) (hα : IsInteger alpha)
    (hA : ∀ i < triOrder side m n, ∀ j < triOrder side m n, InTri uplo diag i j → IsInteger (entry a.data ra i j) ∧ |toR (entry a.data ra i j)| ≤ P)
    (hB : ∀ i < m, ∀ j < n, IsInteger (entry b.data rb i j) ∧ |toR (entry b.data rb i j)| ≤ Q)
    (hs : triOrder side m n * (|toR alpha| * (P * Q)) < 2 ^ 53) :
    ∃ b' : FA Float, dtrmm side uplo transa diag m n alpha a lda b ldb = pure (a, b') ∧
      b'.rows = b.rows ∧ b'.cols = b.cols ∧ b'.data.length = b.data.length ∧
      (∀ i < m, ∀ j < n, ∃ w, b'.data[i + j * rb]? = some w ∧ w.isFinite = true ∧
        toR w = toR alpha * if isLeft side then
            ∑ l ∈ range m, opR transa (tri uplo diag (fun i j => toR (entry a.data ra i j))) i l * toR (entry b.data rb l j)
          else ∑ l ∈ range n, opR transa (tri uplo diag (fun i j => toR (entry a.data ra i j))) l j * toR (entry b.data rb i l)) ∧
      ∀ p, ¬ InBlock rb m n p → b'.data[p]? = b.data[p]? := by
  by_cases hq : m = 0 ∨ n = 0
  · refine ⟨b, C27_empty h1 h2 h3 h4 hla hlb hq _ a b, rfl, rfl, rfl, ?_, fun _ _ => rfl⟩
    intro i hi j hj; omega
  · by_cases h0 : (alpha =ᶠ (Scalar.zero : Float)) = true
    · obtain ⟨b', e, r, c, u⟩ := C27_alpha_zero h1 h2 h3 h4 hla hlb alpha h0 b rb hb sb
      refine ⟨b', e a, r, c, u.length, ?_, u.frame⟩
      intro i hi j hj
      refine ⟨_, u.block i hi j hj, toR_zero.1, ?_⟩
      obtain ⟨-, z⟩ := eq_toR toR_zero.1 h0
      rw [toR_zero.2] at z
      rw [z, toR_zero.2, zero_mul]
    · obtain ⟨b', e, r, c, u⟩ := dtrmmFA_ok h1 h2 h3 h4 hla hlb (by omega) (by omega) alpha
        (by simpa using h0) a b ra rb ha hb sa sb
      refine ⟨b', ?_, r, c, u.length, ?_, u.frame⟩
      · unfold dtrmm
        show (dtrmmFA side uplo transa diag m n alpha a lda b ldb >>= _) = _
        rw [e]; rfl
      · intro i hi j hj
        have t1 : ((i : Int) + 1 - 1).toNat = i := by omega
        have t2 : ((j : Int) + 1 - 1).toNat = j := by omega
        have hα1 : 1 ≤ |toR alpha| := by
          obtain ⟨p, hp⟩ := hα
          rw [hp.2, ← Int.cast_abs]
          have : p ≠ 0 := fun h => h0 ((HasInt.beq hp hasInt_zero).2 h)
          exact_mod_cast Int.one_le_abs this
        have hS : Small (if isLeft side then m else n) alpha P Q := ⟨hα, hα1, hP, hQ, by split_ifs <;> omega, hs⟩
        have key := trmmVal_int (A := fun i j => toR (entry a.data ra i j)) (B := fun i j => toR (entry b.data rb i j))
          (ga := ofList2 ra a.data) (gb := ofList2 rb b.data) (m := m) (n := n) (uplo := uplo) (diag := diag) (transa := transa) (isLeft side)
          (fun i j g1 g2 g3 g4 => by rw [entry_eq_ofList2 _ _ g1 g3]) (fun i j g1 g2 g3 g4 => by rw [entry_eq_ofList2 _ _ g1 g3])
          (i := i + 1) (j := j + 1) (by omega) (by omega) (by omega) (by omega) rfl rfl rfl ?_ ?_ hS
        · refine ⟨_, u.block i hi j hj, key.fin, ?_⟩
          rw [key.val, t1, t2]
          split_ifs <;> rfl
        · intro i j g1 g2 g3 g4 g5
          rw [entry_eq_ofList2 _ _ g1 g3]
          refine hA _ ?_ _ ?_ g5 <;> unfold triOrder <;> split_ifs at * <;> omega
        · intro k g1 g2
          split_ifs at g2 ⊢
          · rw [entry_eq_ofList2 _ _ g1 (by omega)]
            exact hB _ (by omega) _ (by omega)
          · rw [entry_eq_ofList2 _ _ (by omega) g1]
            exact hB _ (by omega) _ (by omega)

/-- **C98.** The same for nested vectors. -/
theorem C98_dtrmm_integers_nested {side uplo transa diag : Char} (h1 : SideFlag side) (h2 : UploFlag uplo)
    (h3 : TransFlag transa) (h4 : DiagFlag diag) {m n : Nat} {lda ldb : Int}
    (hla : max 1 (if isLeft side then (m : Int) else n) ≤ lda) (hlb : max 1 (m : Int) ≤ ldb)
    (alpha : Float) (a b : List (List Float)) (ra rb : Nat) (ha : Rect a ra ra) (hb : Rect b rb rb)
    (sa : Stored a.flatten ra (triOrder side m n) (triOrder side m n)) (sb : Stored b.flatten rb m n)
    (P Q : ℝ) (hP : 1 ≤ P) (hQ : 1 ≤ Q) (hα : IsInteger alpha)
    (hA : ∀ i < triOrder side m n, ∀ j < triOrder side m n, InTri uplo diag i j → IsInteger (entry a.flatten ra i j) ∧ |toR (entry a.flatten ra i j)| ≤ P)
    (hB : ∀ i < m, ∀ j < n, IsInteger (entry b.flatten rb i j) ∧ |toR (entry b.flatten rb i j)| ≤ Q)
    (hs : triOrder side m n * (|toR alpha| * (P * Q)) < 2 ^ 53) :
    ∃ b', dtrmm side uplo transa diag m n alpha a lda b ldb = pure (a, b') ∧ Rect b' rb rb ∧
      (∀ i < m, ∀ j < n, ∃ w, b'.flatten[i + j * rb]? = some w ∧ w.isFinite = true ∧
        toR w = toR alpha * if isLeft side then
            ∑ l ∈ range m, opR transa (tri uplo diag (fun i j => toR (entry a.flatten ra i j))) i l * toR (entry b.flatten rb l j)
          else ∑ l ∈ range n, opR transa (tri uplo diag (fun i j => toR (entry a.flatten ra i j))) l j * toR (entry b.flatten rb i l)) ∧
      ∀ p, ¬ InBlock rb m n p → b'.flatten[p]? = b.flatten[p]? := by
  obtain ⟨a1, a2, a3⟩ := faOfVecVec_shape ha sa.pos sa.ldSmall sa.ldSmall
  obtain ⟨b1, b2, b3⟩ := faOfVecVec_shape hb sb.pos sb.ldSmall sb.ldSmall
  rw [← a3] at sa hA ⊢; rw [← b3] at sb hB ⊢
  obtain ⟨b', e, r, c, l, u, f⟩ := C98_dtrmm_integers h1 h2 h3 h4 hla hlb alpha (faOfVecVec a) (faOfVecVec b) ra rb a1 b1 sa sb P Q hP hQ hα hA hB hs
  obtain ⟨w, g1, g2, g3⟩ := dtrmm_nested ha sa.ldSmall hb sb.pos sb.ldSmall e r c l
  refine ⟨w, g1, g2, ?_, ?_⟩
  · rw [g3]; exact u
  · rw [g3]; exact f

/-- A case: `2·[1 3; 0 4]·[5 6; 7 8]`, with a `NaN` below the diagonal. -/
theorem C98_example (pr : Profile) :
    ((dtrmm (F := Float) 'L' 'U' 'N' 'N' 2 2 2 (⟨[1, Scalar.nan, 3, 4], 2, 2, 0⟩ : FA Float) 2 (⟨[5, 7, 6, 8], 2, 2, 0⟩ : FA Float) 2 pr).val?.map fun r =>
      r.2.data.zipWith (· == ·) [52, 56, 60, 64]) = some [true, true, true, true] := by
  cases pr <;> decide +kernel

/-- The bound is needed: `2^53·1 + 1·1` is not exact. -/
theorem C98_bound_needed (pr : Profile) :
    ((dtrmm (F := Float) 'L' 'U' 'N' 'U' 2 1 1 (⟨[0, 0, 1, 0], 2, 2, 0⟩ : FA Float) 2 (⟨[9007199254740992, 1], 2, 1, 0⟩ : FA Float) 2 pr).val?.map fun r =>
      r.2.data.zipWith (· == ·) [9007199254740992, 1]) = some [true, true] := by
  cases pr <;> decide +kernel

theorem isInteger_ofInt {z : Int} (h : z.natAbs < 2 ^ 53) : IsInteger (Float.ofInt z) := ⟨z, ofInt_exact z h⟩

theorem abs_ofInt {z : Int} {B : ℕ} (h : z.natAbs ≤ B) (hB : B < 2 ^ 53) : |toR (Float.ofInt z)| ≤ B := by
  rw [(ofInt_exact z (by omega)).2, ← Int.cast_abs, ← Nat.cast_natAbs]
  exact_mod_cast h

/-- Non-vacuity of C98: the hypotheses hold for a triangle of order two, `alpha = 3` and entries up to 9. -/
theorem C98_meets {p q r t u v w nn : Float} {zp zq zr zt zu zv zw : Int} (hp : p = Float.ofInt zp) (hq : q = Float.ofInt zq) (hr : r = Float.ofInt zr)
    (ht : t = Float.ofInt zt) (hu : u = Float.ofInt zu) (hv : v = Float.ofInt zv) (hw : w = Float.ofInt zw)
    (bp : zp.natAbs ≤ 9) (bq : zq.natAbs ≤ 9) (br : zr.natAbs ≤ 9) (bt : zt.natAbs ≤ 9) (bu : zu.natAbs ≤ 9) (bv : zv.natAbs ≤ 9) (bw : zw.natAbs ≤ 9) :
    ∃ b' : FA Float, dtrmm 'R' 'U' 'T' 'N' 2 2 (Float.ofInt 3) (⟨[p, nn, q, r], 2, 2, 0⟩ : FA Float) 2 (⟨[t, u, v, w], 2, 2, 0⟩ : FA Float) 2 =
        pure (⟨[p, nn, q, r], 2, 2, 0⟩, b') ∧
      ∀ i < 2, ∀ j < 2, ∃ w, b'.data[i + j * 2]? = some w ∧ w.isFinite = true := by
  have st : ∀ v : List Float, v.length = 4 → Stored v 2 2 2 := by
    intro v hv
    exact ⟨by norm_num, le_refl _, by norm_num, by rw [hv]; norm_num, fun i hi j hj => by rw [hv]; omega⟩
  have key : ∀ {x : Float} {z : Int}, x = Float.ofInt z → z.natAbs ≤ 9 → IsInteger x ∧ |toR x| ≤ (9 : ℝ) := fun h hz =>
    h ▸ ⟨isInteger_ofInt (by omega), by exact_mod_cast abs_ofInt hz (by norm_num)⟩
  have hs : (triOrder 'R' 2 2 : ℕ) * (|toR (Float.ofInt 3)| * ((9 : ℝ) * 9)) < 2 ^ 53 := by
    have : |toR (Float.ofInt 3)| ≤ (3 : ℕ) := abs_ofInt (by norm_num) (by norm_num)
    have h2 : triOrder 'R' 2 2 = 2 := by decide
    rw [h2]
    push_cast at this ⊢
    nlinarith
  have hA : ∀ i < triOrder 'R' 2 2, ∀ j < triOrder 'R' 2 2, InTri 'U' 'N' i j →
      IsInteger (entry [p, nn, q, r] 2 i j) ∧ |toR (entry [p, nn, q, r] 2 i j)| ≤ 9 := by
    intro i hi j hj htri
    have hi' : i < 2 := hi
    have hj' : j < 2 := hj
    interval_cases i <;> interval_cases j
    · exact key hp bp
    · exact key hq bq
    · exact absurd htri.1 (by decide)
    · exact key hr br
  have hB : ∀ i < 2, ∀ j < 2, IsInteger (entry [t, u, v, w] 2 i j) ∧ |toR (entry [t, u, v, w] 2 i j)| ≤ 9 := by
    intro i hi j hj
    interval_cases i <;> interval_cases j
    · exact key ht bt
    · exact key hv bv
    · exact key hu bu
    · exact key hw bw
  obtain ⟨b', e, -, -, -, g, -⟩ := C98_dtrmm_integers (side := 'R') (uplo := 'U') (transa := 'T') (diag := 'N') (m := 2) (n := 2) (lda := 2) (ldb := 2)
    (by simp [SideFlag]) (by simp [UploFlag]) (by simp [TransFlag]) (by simp [DiagFlag]) (by decide) (by decide) (Float.ofInt 3)
    (⟨[p, nn, q, r], 2, 2, 0⟩ : FA Float) (⟨[t, u, v, w], 2, 2, 0⟩ : FA Float) 2 2 rfl rfl (st _ rfl) (st _ rfl) 9 9 (by norm_num) (by norm_num)
    (isInteger_ofInt (by norm_num)) hA hB hs
  exact ⟨b', e, fun i hi j hj => by obtain ⟨w, h1, h2, -⟩ := g i hi j hj; exact ⟨w, h1, h2⟩⟩

end Verif

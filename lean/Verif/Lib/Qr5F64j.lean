import Verif.Lib.Qr5F64i
import Verif.Lib.Qr5BlkG
import Verif.Props.GemmF64

/-!
# The products of reflectors in the accumulating mode of `dlaqr5` on binary64
-/

namespace Verif
open F64 Scalar Spec

/-- A computed reflector acting on `q`, `q + 1`, `q + 2`, and the exact one near it. -/
structure RflF where
  q : ℤ
  v2 : Float
  v3 : Float
  t : Float
  V2 : ℝ
  V3 : ℝ
  θ : ℝ

/-- The exact reflector. -/
def RflF.ex (r : RflF) : Rfl5 := ⟨r.q, r.V2, r.V3, r.θ⟩

/-- The computed reflectors applied to a vector, the first one first. -/
def applyF (kb : ℤ) (rs : List RflF) (x : ℤ → Float) : ℤ → Float := rs.foldl (fun x r => reflG kb r.q r.v2 r.v3 r.t x) x

/-- The reflector is accurate and acts on `lo..hi` only. -/
structure RflF.Good (lo hi kb : ℤ) (r : RflF) : Prop where
  near : NearR kb r.q r.v2 r.v3 r.t r.V2 r.V3 r.θ
  refl : Refl r.V2 r.V3 r.θ
  q1 : lo ≤ r.q
  q2 : r.q + 1 ≤ hi
  hkb : hi ≤ kb
  third : r.q + 2 ≤ kb → r.q + 2 ≤ hi

theorem RflF.Good.inside {lo hi kb : ℤ} {r : RflF} (h : r.Good lo hi kb) : Inside lo hi r.q r.V3 := by
  refine ⟨h.q1, h.q2, ?_⟩
  by_cases h3 : r.q + 2 ≤ kb
  · exact Or.inl (h.third h3)
  · exact Or.inr (h.near.z3 h3)

theorem allIn_of_good {lo hi kb : ℤ} {rs : List RflF} (h : ∀ r ∈ rs, r.Good lo hi kb) : AllIn lo hi (rs.map RflF.ex) := by
  intro r hr
  obtain ⟨r', h1, rfl⟩ := List.mem_map.1 hr
  exact (h r' h1).inside

theorem applyF_snoc (kb : ℤ) (rs : List RflF) (r : RflF) (x : ℤ → Float) : applyF kb (rs ++ [r]) x = reflG kb r.q r.v2 r.v3 r.t (applyF kb rs x) := by
  unfold applyF
  rw [List.foldl_append]
  rfl

theorem applyF_out {lo hi kb : ℤ} {rs : List RflF} (h : ∀ r ∈ rs, r.Good lo hi kb) (x : ℤ → Float) {i : ℤ} (hi' : i < lo ∨ hi < i) : applyF kb rs x i = x i := by
  induction rs using List.reverseRecOn with
  | nil => rfl
  | append_singleton rs r ih =>
    have hr := h r (by simp)
    have h1 := hr.q1; have h2 := hr.q2; have h3 := hr.third
    rw [applyF_snoc, reflG_ne (by omega) (by omega) (by
      by_cases c : r.q + 2 ≤ kb
      · left; have := h3 c; omega
      · exact Or.inr c), ih fun r' h' => h r' (by simp [h'])]

/-! ### One reflector -/

theorem house_sub (q : ℤ) (v2 v3 t : ℝ) (x y : ℤ → ℝ) (i : ℤ) : house q v2 v3 t x i - house q v2 v3 t y i = house q v2 v3 t (fun j => x j - y j) i := by
  unfold house
  ring

theorem comb3_le {a b c x y w M : ℝ} (ha : |a| ≤ 1) (hb : |b| ≤ 1) (hc : |c| ≤ 1) (hx : |x| ≤ M) (hy : |y| ≤ M) (hw : |c * w| ≤ M) : |a * x - b * y - c * w| ≤ 3 * M := by
  have h1 : |a * x| ≤ M := by
    rw [abs_mul]
    exact (mul_le_of_le_one_left (abs_nonneg _) ha).trans hx
  have h2 : |b * y| ≤ M := by
    rw [abs_mul]
    exact (mul_le_of_le_one_left (abs_nonneg _) hb).trans hy
  have h3 := abs_sub (a * x - b * y) (c * w)
  have h4 := abs_sub (a * x) (b * y)
  linarith

/-- The entries of a reflector are at most one. -/
theorem refl_entries {v2 v3 t : ℝ} (h : Refl v2 v3 t) : |t| ≤ 2 ∧ |1 - t| ≤ 1 ∧ |1 - t * v2 * v2| ≤ 1 ∧ |1 - t * v3 * v3| ≤ 1 ∧ |t * v2| ≤ 1 ∧ |t * v3| ≤ 1 ∧
    |t * v2 * v3| ≤ 1 := by
  unfold Refl at h
  rcases mul_eq_zero.1 h with h0 | h0
  · rw [h0]
    norm_num
  · have hs : t * (1 + v2 ^ 2 + v3 ^ 2) = 2 := by linarith
    have hp : 0 < 1 + v2 ^ 2 + v3 ^ 2 := by positivity
    have t0 : 0 < t := by
      by_contra hc
      have := mul_nonpos_of_nonpos_of_nonneg (not_lt.1 hc) hp.le
      linarith
    have e : t * (1 + v2 ^ 2 + v3 ^ 2) = t + t * v2 ^ 2 + t * v3 ^ 2 := by ring
    rw [e] at hs
    have p2 : 0 ≤ t * v2 ^ 2 := by positivity
    have p3 : 0 ≤ t * v3 ^ 2 := by positivity
    have q1 : 0 ≤ t * (1 - v2) ^ 2 := by positivity
    have q2 : 0 ≤ t * (1 + v2) ^ 2 := by positivity
    have q3 : 0 ≤ t * (1 - v3) ^ 2 := by positivity
    have q4 : 0 ≤ t * (1 + v3) ^ 2 := by positivity
    have q5 : 0 ≤ t * (v2 - v3) ^ 2 := by positivity
    have q6 : 0 ≤ t * (v2 + v3) ^ 2 := by positivity
    have e2 : t * v2 * v2 = t * v2 ^ 2 := by ring
    have e3 : t * v3 * v3 = t * v3 ^ 2 := by ring
    rw [e2, e3]
    refine ⟨?_, ?_, ?_, ?_, ?_, ?_, ?_⟩ <;> rw [abs_le] <;> constructor <;> linarith

theorem house_le3 {lo hi q : ℤ} {v2 v3 t M : ℝ} {x : ℤ → ℝ} (hR : Refl v2 v3 t) (hin : Inside lo hi q v3) (hx : ∀ j, lo ≤ j → j ≤ hi → |x j| ≤ M) {i : ℤ} (i1 : lo ≤ i) (i2 : i ≤ hi) :
    |house q v2 v3 t x i| ≤ 3 * M := by
  obtain ⟨q1, q2, q3⟩ := hin
  obtain ⟨e0, e1, e2, e3, e4, e5, e6⟩ := refl_entries hR
  have b0 := hx q q1 (by omega)
  have b1 := hx (q + 1) (by omega) q2
  have M0 : 0 ≤ M := (abs_nonneg _).trans b0
  have b2 : |v3 * t * x (q + 2)| ≤ M := by
    rcases q3 with c | c
    · rw [abs_mul, mul_comm v3]
      exact (mul_le_of_le_one_left (abs_nonneg _) e5).trans (hx _ (by omega) c)
    · rw [c]; simpa using M0
  have b2' : |t * v2 * v3 * x (q + 2)| ≤ M := by
    rcases q3 with c | c
    · rw [abs_mul]
      exact (mul_le_of_le_one_left (abs_nonneg _) e6).trans (hx _ (by omega) c)
    · rw [c]; simpa using M0
  unfold house dirv
  by_cases h0 : i = q
  · rw [if_pos h0, h0]
    have e : x q - t * 1 * (x q + v2 * x (q + 1) + v3 * x (q + 2)) = (1 - t) * x q - t * v2 * x (q + 1) - v3 * t * x (q + 2) := by ring
    rw [e]
    exact comb3_le e1 e4 (by rw [mul_comm]; exact e5) b0 b1 b2
  rw [if_neg h0]
  by_cases h1 : i = q + 1
  · rw [if_pos h1, h1]
    have e : x (q + 1) - t * v2 * (x q + v2 * x (q + 1) + v3 * x (q + 2)) = (1 - t * v2 * v2) * x (q + 1) - t * v2 * x q - t * v2 * v3 * x (q + 2) := by ring
    rw [e]
    exact comb3_le e2 e4 e6 b1 b0 b2'
  rw [if_neg h1]
  by_cases h2 : i = q + 2
  · rw [if_pos h2, h2]
    have b3 := hx (q + 2) (by omega) (by omega)
    have e : x (q + 2) - t * v3 * (x q + v2 * x (q + 1) + v3 * x (q + 2)) = (1 - t * v3 * v3) * x (q + 2) - t * v3 * x q - t * v2 * v3 * x (q + 1) := by ring
    rw [e]
    refine comb3_le e3 e5 e6 b3 b0 ?_
    rw [abs_mul]
    exact (mul_le_of_le_one_left (abs_nonneg _) e6).trans b1
  · rw [if_neg h2]
    have := hx i i1 i2
    rw [mul_zero, zero_mul, sub_zero]
    linarith

/-- One more reflector applied to a vector known up to `e`. -/
theorem refl_step {lo hi kb : ℤ} {r : RflF} {y : ℤ → Float} {z : ℤ → ℝ} {M e : ℝ} (h : r.Good lo hi kb) (hM : M + e ≤ big)
    (hy : ∀ j, lo ≤ j → j ≤ hi → (y j).isFinite = true ∧ |toR (y j) - z j| ≤ e) (hz : ∀ j, lo ≤ j → j ≤ hi → |z j| ≤ M) {i : ℤ} (i1 : lo ≤ i) (i2 : i ≤ hi) :
    (reflG kb r.q r.v2 r.v3 r.t y i).isFinite = true ∧
      |toR (reflG kb r.q r.v2 r.v3 r.t y i) - house r.q r.V2 r.V3 r.θ z i| ≤ 3 * e + (1160 * (ur * (M + e)) + 12 * eta) ∧ |house r.q r.V2 r.V3 r.θ z i| ≤ 3 * M := by
  have hin := h.inside
  have h1 := h.q1; have h2 := h.q2; have h3 := h.third; have h4 := h.hkb
  have hb : ∀ j, lo ≤ j → j ≤ hi → |toR (y j)| ≤ M + e := fun j j1 j2 => by
    have q1 := (hy j j1 j2).2
    have q2 := hz j j1 j2
    have : toR (y j) = z j + (toR (y j) - z j) := by ring
    rw [this]
    exact (abs_add_le _ _).trans (add_le_add q2 q1)
  have M0 : 0 ≤ M + e := (abs_nonneg _).trans (hb r.q h1 (by omega))
  have d : |house r.q r.V2 r.V3 r.θ (fun j => toR (y j)) i - house r.q r.V2 r.V3 r.θ z i| ≤ 3 * e := by
    rw [house_sub]
    exact house_le3 h.refl hin (fun j j1 j2 => (hy j j1 j2).2) i1 i2
  refine ⟨?_, ?_, house_le3 h.refl hin hz i1 i2⟩
  · by_cases c : r.q ≤ i ∧ i ≤ r.q + 2 ∧ i ≤ kb
    · exact (reflG_near h.near M0 hM (fun j j1 j2 j3 => by
        have : j ≤ hi := by
          by_cases c3 : r.q + 2 ≤ kb
          · have := h3 c3; omega
          · omega
        exact ⟨(hy j (by omega) this).1, hb j (by omega) this⟩) (by omega) c.1 c.2.1 c.2.2).1
    · rw [reflG_ne (by omega) (by omega) (by omega)]
      exact (hy i i1 i2).1
  · have n0 : |toR (reflG kb r.q r.v2 r.v3 r.t y i) - house r.q r.V2 r.V3 r.θ (fun j => toR (y j)) i| ≤ 1160 * (ur * (M + e)) + 12 * eta := by
      by_cases c : r.q ≤ i ∧ i ≤ r.q + 2 ∧ i ≤ kb
      · exact (reflG_near h.near M0 hM (fun j j1 j2 j3 => by
          have : j ≤ hi := by
            by_cases c3 : r.q + 2 ≤ kb
            · have := h3 c3; omega
            · omega
          exact ⟨(hy j (by omega) this).1, hb j (by omega) this⟩) (by omega) c.1 c.2.1 c.2.2).2
      · rw [reflG_ne (by omega) (by omega) (by omega), house_ne _ (by omega) (by omega) (by
          by_cases c3 : r.q + 2 ≤ kb
          · left; have := h3 c3; omega
          · exact Or.inr (h.near.z3 c3)), sub_self, abs_zero]
        have := mul_nonneg ur_pos.le M0
        have := eta_pos
        linarith
    have := abs_sub_le (toR (reflG kb r.q r.v2 r.v3 r.t y i)) (house r.q r.V2 r.V3 r.θ (fun j => toR (y j)) i) (house r.q r.V2 r.V3 r.θ z i)
    linarith

theorem map_ex_snoc (rs : List RflF) (r : RflF) : (rs ++ [r]).map RflF.ex = rs.map RflF.ex ++ [r.ex] := by simp

/-- At most two reflectors applied to a vector. -/
theorem applyF_near {lo hi kb : ℤ} {rs : List RflF} {x : ℤ → Float} {M : ℝ} (h : ∀ r ∈ rs, r.Good lo hi kb) (hl : rs.length ≤ 2) (M0 : 0 ≤ M) (hM : 8 * M ≤ big)
    (hx : ∀ j, lo ≤ j → j ≤ hi → Bn (x j) M) {i : ℤ} (i1 : lo ≤ i) (i2 : i ≤ hi) :
    (applyF kb rs x i).isFinite = true ∧ |toR (applyF kb rs x i) - applyV (rs.map RflF.ex) (fun j => toR (x j)) i| ≤ 7000 * (ur * M) + 50 * eta ∧
      |applyV (rs.map RflF.ex) (fun j => toR (x j)) i| ≤ 9 * M := by
  have u0 := ur_pos
  have us := ur_small
  have e0 := eta_pos
  have eu := eta_le_ur
  have b1 := one_le_big
  have uM0 : 0 ≤ ur * M := mul_nonneg u0.le M0
  have uM : ur * M ≤ M / 1000000000000000 := by have := mul_le_mul_of_nonneg_right us M0; linarith
  have uuM : ur * (ur * M) ≤ ur * M / 1000000000000000 := by have := mul_le_mul_of_nonneg_right us uM0; linarith
  have ue : ur * eta ≤ eta / 1000000000000000 := by have := mul_le_mul_of_nonneg_right us e0.le; linarith
  -- one reflector
  have one : ∀ r : RflF, r.Good lo hi kb → ∀ i, lo ≤ i → i ≤ hi → (reflG kb r.q r.v2 r.v3 r.t x i).isFinite = true ∧
      |toR (reflG kb r.q r.v2 r.v3 r.t x i) - house r.q r.V2 r.V3 r.θ (fun j => toR (x j)) i| ≤ 1160 * (ur * M) + 12 * eta ∧
      |house r.q r.V2 r.V3 r.θ (fun j => toR (x j)) i| ≤ 3 * M := fun r hr i i1 i2 => by
    have := refl_step (y := x) (z := fun j => toR (x j)) (M := M) (e := 0) hr (by linarith) (fun j j1 j2 => ⟨(hx j j1 j2).1, by simp⟩) (fun j j1 j2 => (hx j j1 j2).2) i1 i2
    rw [mul_zero, zero_add, add_zero] at this
    exact this
  match rs, hl, h with
  | [], _, _ =>
    refine ⟨(hx i i1 i2).1, ?_, ?_⟩
    · show |toR (x i) - toR (x i)| ≤ _
      rw [sub_self, abs_zero]
      linarith
    · have := (hx i i1 i2).2
      show |toR (x i)| ≤ _
      linarith
  | [r], _, h =>
    obtain ⟨f, q1, q2⟩ := one r (h r (by simp)) i i1 i2
    refine ⟨f, ?_, ?_⟩
    · refine le_trans q1 ?_
      linarith
    · refine le_trans q2 ?_
      linarith
  | [r, r'], _, h =>
    have o := one r (h r (by simp))
    obtain ⟨f, q1, q2⟩ := refl_step (r := r') (M := 3 * M) (e := 1160 * (ur * M) + 12 * eta) (y := reflG kb r.q r.v2 r.v3 r.t x)
      (z := house r.q r.V2 r.V3 r.θ (fun j => toR (x j))) (h r' (by simp)) (by linarith) (fun j j1 j2 => ⟨(o j j1 j2).1, (o j j1 j2).2.1⟩)
      (fun j j1 j2 => (o j j1 j2).2.2) i1 i2
    refine ⟨f, ?_, ?_⟩
    · refine le_trans q1 ?_
      have e : ur * (3 * M + (1160 * (ur * M) + 12 * eta)) = 3 * (ur * M) + 1160 * (ur * (ur * M)) + 12 * (ur * eta) := by ring
      rw [e]
      linarith
    · refine le_trans q2 ?_
      linarith
  | _ :: _ :: _ :: _, hl, _ => simp at hl

/-! ### The products -/

/-- An entry of a product over at most four terms. -/
theorem gemm4 {nota : Bool} {nu : Nat} (hnu : nu ≤ 4) {x y : Nat → Float} {a b : ℝ} (a0 : 0 ≤ a) (b0 : 0 ≤ b) (hx : ∀ l < nu, Bn (x l) a) (hy : ∀ l < nu, Bn (y l) b)
    (hab : (1 + a) * b ≤ 1000 * big) (ha : a ≤ big) (c : Float) :
    (gemmEntry nota nu one zero x y c).isFinite = true ∧
      |toR (gemmEntry nota nu one zero x y c) - ∑ l ∈ Finset.range nu, toR (x l) * toR (y l)| ≤ 56 * (ur * (a * b)) + 3 * (eta * (10 + 4 * a)) := by
  have ec : gemmEntry nota nu one zero x y c = gemmEntry nota nu one zero x y zero := by
    have hz : ((zero : Float) =ᶠ zero) = true := by decide +kernel
    have ho : ((one : Float) =ᶠ zero) = false := by decide +kernel
    have hzo : ((zero : Float) =ᶠ one) = false := by decide +kernel
    unfold gemmEntry scaled
    simp [hz, ho, hzo]
  rw [ec]
  have hacc := gemmEntry_accurate nota nu one zero x y zero
  have u0 := ur_pos
  have e0 := eta_pos
  have l0 : toR (zero : Float) = 0 ∧ (zero : Float).isFinite = true := ⟨toR_zero.2, toR_zero.1⟩
  have l1 : toR (one : Float) = 1 ∧ (one : Float).isFinite = true := ⟨toR_one'.2, toR_one'.1⟩
  have nu4 : (nu : ℝ) ≤ 4 := by exact_mod_cast hnu
  have nu0 : (0 : ℝ) ≤ nu := Nat.cast_nonneg _
  have sumle : ∀ (f : Nat → ℝ) (m : ℝ), 0 ≤ m → (∀ l < nu, f l ≤ m) → ∑ l ∈ Finset.range nu, f l ≤ 4 * m := fun f m m0 hf => by
    refine (Finset.sum_le_card_nsmul _ _ m fun l hl => hf l (Finset.mem_range.1 hl)).trans ?_
    rw [Finset.card_range, nsmul_eq_mul]
    exact mul_le_mul_of_nonneg_right nu4 m0
  have s1 : ∑ l ∈ Finset.range nu, |toR (x l)| * |toR (y l)| ≤ 4 * (a * b) :=
    sumle _ _ (mul_nonneg a0 b0) fun l hl => mul_le_mul (hx l hl).2 (hy l hl).2 (abs_nonneg _) a0
  have s2 : ∑ l ∈ Finset.range nu, |toR (x l)| ≤ 4 * a := sumle _ _ a0 fun l hl => (hx l hl).2
  have s3 : ∑ l ∈ Finset.range nu, max 1 |toR (x l)| * |toR (y l)| ≤ 4 * ((1 + a) * b) :=
    sumle _ _ (mul_nonneg (by linarith) b0) fun l hl => mul_le_mul (max_le (by linarith) (by linarith [(hx l hl).2])) (hy l hl).2 (abs_nonneg _) (by linarith)
  have s10 : 0 ≤ ∑ l ∈ Finset.range nu, |toR (x l)| * |toR (y l)| := Finset.sum_nonneg fun l _ => mul_nonneg (abs_nonneg _) (abs_nonneg _)
  have s20 : 0 ≤ ∑ l ∈ Finset.range nu, |toR (x l)| := Finset.sum_nonneg fun l _ => abs_nonneg _
  have s30 : 0 ≤ ∑ l ∈ Finset.range nu, max 1 |toR (x l)| * |toR (y l)| := Finset.sum_nonneg fun l _ => mul_nonneg (le_max_of_le_left zero_le_one) (abs_nonneg _)
  have p1 := F64.gamma_le (nu + 3) (by norm_num; omega)
  have p2 := F64.pow_ur_le (nu + 3) (by norm_num; omega)
  have p3 : 1 ≤ (1 + ur) ^ (nu + 3) := one_le_pow₀ (by linarith)
  have ge : (1 : ℝ) / 2 ^ 1075 = eta := rfl
  have gu : (1 : ℝ) / 2 ^ 53 = ur := rfl
  obtain ⟨he, hf⟩ := hacc
  rw [l0.1, l1.1, ge, gu] at he hf
  have tt : eta * (2 + nu + nu * |(1 : ℝ)| + ∑ l ∈ Finset.range nu, |toR (x l)|) ≤ eta * (10 + 4 * a) :=
    mul_le_mul_of_nonneg_left (by rw [abs_one]; linarith) e0.le
  have tt0 : 0 ≤ eta * (2 + nu + nu * |(1 : ℝ)| + ∑ l ∈ Finset.range nu, |toR (x l)|) := mul_nonneg e0.le (by rw [abs_one]; linarith)
  have fin := hf l1.2 l0.2 (fun l hl => (hx l hl).1) (fun l hl => (hy l hl).1) l0.2 (by
    rw [abs_zero, abs_one, max_self]
    rw [abs_one] at tt tt0
    refine lt_of_le_of_lt (b := 3 * (4 * ((1 + a) * b) + eta * (10 + 4 * a))) (mul_le_mul p2 (by linarith) (by linarith) (by norm_num)) ?_
    have h1 : eta * (10 + 4 * a) ≤ 1 * (10 + 4 * a) := mul_le_mul_of_nonneg_right (by have := eta_le_ur; have := ur_small; linarith) (by linarith)
    have := ovf_big
    have := one_le_big
    linarith)
  refine ⟨fin, ?_⟩
  have h1 := he fin
  rw [one_mul, zero_mul, add_zero, abs_one, one_mul, abs_zero, zero_mul, add_zero] at h1
  rw [abs_one] at tt tt0
  refine h1.trans (add_le_add ?_ (mul_le_mul p2 tt tt0 (by norm_num)))
  have h2 : (1 + ur) ^ (nu + 3) - 1 ≤ 14 * ur := by
    refine p1.trans ?_
    push_cast
    have : ((nu : ℝ) + 3) * ur ≤ 7 * ur := mul_le_mul_of_nonneg_right (by linarith) u0.le
    linarith
  refine (mul_le_mul h2 s1 s10 (by linarith)).trans ?_
  have : 14 * ur * (4 * (a * b)) = 56 * (ur * (a * b)) := by ring
  rw [this]

end Verif

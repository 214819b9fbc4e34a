import Verif.Lib.Qr5F64b
import Verif.Lib.HqrF64i
import Verif.Lib.Lanv2F64e

/-!
# The row left over by the previous step of `dlaqr5`, and the convergence test, on binary64
-/

namespace Verif
open F64 Scalar Spec Matrix

/-! ### The late row -/

/-- The row `k + 3`, completed with the reflector of the previous step. -/
def late5 {F : Type} [Scalar F] (k : ℤ) (v2 v3 t : F) (g : ℤ → ℤ → F) (a b : ℤ) : F :=
  if a = k + 3 ∧ b = k then -(v3 * g (k + 3) (k + 2)) * t
  else if a = k + 3 ∧ b = k + 1 then -(v3 * g (k + 3) (k + 2)) * (t * v2)
  else if a = k + 3 ∧ b = k + 2 then g (k + 3) (k + 2) - v3 * g (k + 3) (k + 2) * (t * v3) else g a b

section late
variable {M : ℝ}

/-- The product with the third element. -/
theorem refsum_near {v3 x : Float} {V3 : ℝ} (M0 : 0 ≤ M) (hM : M ≤ big) (h3 : NearV v3 V3) (fx : x.isFinite = true) (bx : |toR x| ≤ M) :
    (v3 * x).isFinite = true ∧ |toR (v3 * x) - V3 * toR x| ≤ 151 * (ur * M) + 4 * eta ∧ |V3 * toR x| ≤ 301 / 100 * M := by
  have u0 := ur_pos
  have us := ur_small
  have e0 := eta_pos
  have uM0 : 0 ≤ ur * M := mul_nonneg u0.le M0
  have uM : ur * M ≤ M / 1000000000000000 := by have := mul_le_mul_of_nonneg_right us M0; linarith
  have uuM : ur * (ur * M) ≤ ur * M / 1000000000000000 := by have := mul_le_mul_of_nonneg_right us uM0; linarith
  obtain ⟨f, e⟩ := mul_near h3.fin fx h3.err (show |toR x - toR x| ≤ 0 by rw [sub_self, abs_zero]) h3.le bx (by
    have : (1001 / 1000 + 70 * ur) * (M + 0) = 1001 / 1000 * M + 70 * (ur * M) := by ring
    rw [this]; linarith)
  refine ⟨f, e.trans ?_, ?_⟩
  · have : 70 * ur * (M + 0) + 1001 / 1000 * 0 + ur * ((1001 / 1000 + 70 * ur) * (M + 0)) + eta =
        70 * (ur * M) + 1001 / 1000 * (ur * M) + 70 * (ur * (ur * M)) + eta := by ring
    rw [this]; linarith
  · rw [abs_mul]
    have := mul_le_mul h3.le bx (abs_nonneg _) (by norm_num)
    linarith

/-- Minus the product, times one of the factors. -/
theorem negmul_near {s t : Float} {S W : ℝ} (M0 : 0 ≤ M) (hM : M ≤ big) (fs : s.isFinite = true) (hs : |toR s - S| ≤ 151 * (ur * M) + 4 * eta)
    (hS : |S| ≤ 301 / 100 * M) (ht : NearT t W) : (-s * t).isFinite = true ∧ |toR (-s * t) - -S * W| ≤ 1160 * (ur * M) + 12 * eta := by
  have u0 := ur_pos
  have us := ur_small
  have e0 := eta_pos
  have eu := eta_le_ur
  have B1 := one_le_big
  have uM0 : 0 ≤ ur * M := mul_nonneg u0.le M0
  have uM : ur * M ≤ M / 1000000000000000 := by have := mul_le_mul_of_nonneg_right us M0; linarith
  have uuM : ur * (ur * M) ≤ ur * M / 1000000000000000 := by have := mul_le_mul_of_nonneg_right us uM0; linarith
  have uuuM : ur * (ur * (ur * M)) ≤ ur * M / 1000000000000000 := by
    have := mul_le_mul_of_nonneg_right us (mul_nonneg u0.le uM0); linarith
  have ue : ur * eta ≤ eta / 1000000000000000 := by have := mul_le_mul_of_nonneg_right us e0.le; linarith
  have uue : ur * (ur * eta) ≤ eta / 1000000000000000 := by
    have := mul_le_mul_of_nonneg_right us (mul_nonneg u0.le e0.le); linarith
  obtain ⟨f, e⟩ := mul_near (x := -s) (X := -S) (by rw [neg_finite]; exact fs) ht.fin
    (show |toR (-s) - -S| ≤ 151 * (ur * M) + 4 * eta by rw [neg_toR, show -toR s - -S = -(toR s - S) by ring, abs_neg]; exact hs)
    ht.err (show |(-S)| ≤ 301 / 100 * M by rw [abs_neg]; exact hS) ht.le (by
      have : (301 / 100 * M + (151 * (ur * M) + 4 * eta)) * (2 + 280 * ur) =
          602 / 100 * M + 302 * (ur * M) + 8 * eta + 280 * (301 / 100 * (ur * M) + 151 * (ur * (ur * M)) + 4 * (ur * eta)) := by ring
      rw [this]; linarith)
  refine ⟨f, e.trans ?_⟩
  have : (151 * (ur * M) + 4 * eta) * (2 + 280 * ur) + 301 / 100 * M * (280 * ur) +
      ur * ((301 / 100 * M + (151 * (ur * M) + 4 * eta)) * (2 + 280 * ur)) + eta =
      302 * (ur * M) + 8 * eta + 280 * (151 * (ur * (ur * M)) + 4 * (ur * eta)) + 84280 / 100 * (ur * M) +
      (602 / 100 * (ur * M) + 302 * (ur * (ur * M)) + 8 * (ur * eta) + 280 * (301 / 100 * (ur * (ur * M)) + 151 * (ur * (ur * (ur * M))) + 4 * (ur * (ur * eta)))) + eta := by
    ring
  rw [this]; linarith

variable {lo hi kt kb k : ℤ} {g : ℤ → ℤ → Float} {T : ℤ → ℤ → ℝ} {v2 v3 t : Float} {V2 V3 θ B : ℝ}

/-- The completed row stands for a matrix close to `T`, in which the exact reflector has been applied. -/
theorem late_near (fin : ∀ a b, lo ≤ a → a ≤ hi → lo ≤ b → b ≤ hi → (g a b).isFinite = true)
    (on : ∀ a b, lo ≤ a → a ≤ hi → lo ≤ b → b ≤ hi → ¬ (a = k + 3 ∧ k ≤ b ∧ b ≤ k + 2) → toR (g a b) = T a b)
    (hlo : lo ≤ kt) (hhi : kb ≤ hi) (k1 : kt ≤ k) (k3 : k + 3 ≤ kb) (hR : NearR kb k v2 v3 t V2 V3 θ)
    (t1 : T (k + 3) k = -(V3 * toR (g (k + 3) (k + 2))) * θ) (t2 : T (k + 3) (k + 1) = -(V3 * toR (g (k + 3) (k + 2))) * (θ * V2))
    (t3 : T (k + 3) (k + 2) = toR (g (k + 3) (k + 2)) - V3 * toR (g (k + 3) (k + 2)) * (θ * V3))
    (hx : |toR (g (k + 3) (k + 2))| ≤ B) (hB : B ≤ big) (hsh : Shape lo hi kt kb k T) :
    ∃ T1, OnF lo hi (late5 k v2 v3 t g) T1 ∧ Shape lo hi kt kb k T1 ∧ (∀ j, k + 3 ≤ j → T1 (j + 1) j = T (j + 1) j) ∧
      fro (block lo hi T1 - block lo hi T) ≤ 2 * (1160 * (ur * B) + 12 * eta) := by
  have u0 := ur_pos
  have e0 := eta_pos
  have B0 : 0 ≤ B := (abs_nonneg _).trans hx
  have uB0 : 0 ≤ ur * B := mul_nonneg u0.le B0
  have fx := fin (k + 3) (k + 2) (by omega) (by omega) (by omega) (by omega)
  obtain ⟨fs, es, bs⟩ := refsum_near B0 hB (hR.n3 (by omega)) fx hx
  obtain ⟨f1, e1⟩ := negmul_near B0 hB fs es bs hR.t1
  obtain ⟨f2, e2⟩ := negmul_near B0 hB fs es bs hR.t2
  obtain ⟨f3, e3⟩ := upd_near B0 hB fx hx fs es bs (hR.t3 (by omega))
  set κ := 1160 * (ur * B) + 12 * eta with hκ
  have κ0 : 0 ≤ κ := by rw [hκ]; linarith
  set T1 : ℤ → ℤ → ℝ := fun a b => if a = k + 3 ∧ k ≤ b ∧ b ≤ k + 2 then toR (late5 k v2 v3 t g a b) else T a b with hT1
  have l1 : late5 k v2 v3 t g (k + 3) k = -(v3 * g (k + 3) (k + 2)) * t := by unfold late5; rw [if_pos ⟨rfl, rfl⟩]
  have l2 : late5 k v2 v3 t g (k + 3) (k + 1) = -(v3 * g (k + 3) (k + 2)) * (t * v2) := by
    unfold late5; rw [if_neg (by omega), if_pos ⟨rfl, rfl⟩]
  have l3 : late5 k v2 v3 t g (k + 3) (k + 2) = g (k + 3) (k + 2) - v3 * g (k + 3) (k + 2) * (t * v3) := by
    unfold late5; rw [if_neg (by omega), if_neg (by omega), if_pos ⟨rfl, rfl⟩]
  have three : ∀ b, k ≤ b → b ≤ k + 2 → (late5 k v2 v3 t g (k + 3) b).isFinite = true ∧ |toR (late5 k v2 v3 t g (k + 3) b) - T (k + 3) b| ≤ κ := by
    intro b b1 b2
    rcases (by omega : b = k ∨ b = k + 1 ∨ b = k + 2) with rfl | rfl | rfl
    · rw [l1, t1]; exact ⟨f1, e1⟩
    · rw [l2, t2]; exact ⟨f2, e2⟩
    · rw [l3, t3]; exact ⟨f3, e3⟩
  refine ⟨T1, ?_, ⟨?_, ?_, ?_⟩, ?_, ?_⟩
  · intro a b a1 a2 b1 b2
    simp only [hT1]
    by_cases hc : a = k + 3 ∧ k ≤ b ∧ b ≤ k + 2
    · rw [if_pos hc]
      obtain ⟨rfl, c1, c2⟩ := hc
      exact ⟨(three b c1 c2).1, rfl⟩
    · rw [if_neg hc]
      have : late5 k v2 v3 t g a b = g a b := by
        unfold late5; rw [if_neg (by omega), if_neg (by omega), if_neg (by omega)]
      rw [this]
      exact ⟨fin a b a1 a2 b1 b2, on a b a1 a2 b1 b2 hc⟩
  · intro a b b1 hba ai hne
    simp only [hT1]
    rw [if_neg (by omega)]
    exact hsh.hess a b b1 hba ai hne
  · intro hl
    simp only [hT1]
    rw [if_neg (by omega)]
    exact hsh.top hl
  · intro hl
    simp only [hT1]
    rw [if_neg (by omega)]
    exact hsh.bot hl
  · intro j j1
    simp only [hT1]
    rw [if_neg (by omega)]
  · refine (fro_cols (T := block lo hi T) (c := 0) (y := fun a => if (a : ℤ) = k + 3 then κ else 0) (rows3 lo hi k)
      (card_rows3 _) (le_refl _) (fun a => ?_) ?_ ?_).trans ?_
    · show (0 : ℝ) ≤ if (a : ℤ) = k + 3 then κ else 0
      split <;> [exact κ0; exact le_refl _]
    · intro b hb a
      rw [mem_rows3] at hb
      rw [Matrix.sub_apply]
      simp only [block, hT1]
      rw [if_neg (by omega), sub_self]
    · intro b hb a
      rw [mem_rows3] at hb
      rw [Matrix.sub_apply]
      simp only [block, hT1]
      rw [zero_mul, zero_add]
      by_cases ha : (a : ℤ) = k + 3
      · rw [if_pos ⟨ha, hb⟩, if_pos ha, ha]
        exact (three b hb.1 hb.2).2
      · rw [if_neg (by omega), if_neg ha, sub_self, abs_zero]
    · have h1 := sum_spike (lo := lo) (hi := hi) (τ := 0) κ0 (k + 3)
      simp only [zero_add, mul_zero] at h1
      rw [zero_mul, mul_zero, zero_add]
      linarith

/-- The new element of the bulge does not vanish. -/
theorem late_lower {L m : ℝ} {x : Float} (ht : 1 ≤ toR t) (h3 : L ≤ |toR v3|) (hx : m ≤ |toR x|) (L0 : 0 ≤ L) (m0 : 0 ≤ m) (f3 : v3.isFinite = true)
    (ft : t.isFinite = true) (fx : x.isFinite = true) (fs : (v3 * x).isFinite = true) (f : (-(v3 * x) * t).isFinite = true) (h : 16 * eta ≤ L * m) :
    L * m / 4 ≤ |toR (-(v3 * x) * t)| := by
  have us := ur_small
  have e0 := eta_pos
  have g1 := ((mul_rounds v3 x f3 fx).fl fs).general
  have g2 := ((mul_rounds (-(v3 * x)) t (by rw [neg_finite]; exact fs) ft).fl f).general
  rw [neg_toR] at g2
  have low : ∀ X Y : ℝ, |Y - X| ≤ ur * |X| + eta → |X| - |X| / 1000 - eta ≤ |Y| := by
    intro X Y h
    have h1 := abs_sub_abs_le_abs_sub X Y
    rw [abs_sub_comm] at h1
    have h2 := mul_le_mul_of_nonneg_right us (abs_nonneg X)
    have := abs_nonneg X
    linarith
  have a1 := low _ _ g1
  have a2 := low _ _ g2
  rw [abs_mul] at a1
  rw [abs_mul, abs_neg] at a2
  have b1 : L * m ≤ |toR v3| * |toR x| := mul_le_mul h3 hx m0 (abs_nonneg _)
  have b2 : |toR (v3 * x)| * 1 ≤ |toR (v3 * x)| * |toR t| := mul_le_mul_of_nonneg_left (ht.trans (le_abs_self _)) (abs_nonneg _)
  linarith

end late

/-! ### The convergence test -/

/-- The constants of `dlaqr5`. -/
structure PF5 (p : Qr5P Float) (sm : ℝ) : Prop where
  uf : p.ulp.isFinite = true
  u : toR p.ulp = 2 * ur
  sf : p.smlnum.isFinite = true
  s : toR p.smlnum ≤ sm
  s0 : 0 ≤ sm

/-- One optional term of the sum. -/
theorem opt_F {α : Type} {cnd : Prop} [Decidable cnd] {h : FA Float} {a b : ℤ} {x y : Float} {M B : ℝ} {jp : Float → R α} {P : α → Prop}
    (hg : cnd → h.get2 a b = pure y ∧ Bn y B) (hB : M + B ≤ big) (hB0 : 0 ≤ B) (hx : Bn x M)
    (hjp : ∀ x', Bn x' (1001 / 1000 * (M + B)) → Tot (jp x') P) :
    Tot (if cnd then do
        let l ← h.get2 a b
        let t ← pure (x + Scalar.abs l)
        jp t
      else do
        let t ← pure x
        jp t) P := by
  have M0 : 0 ≤ M := (abs_nonneg _).trans hx.2
  have B1 := one_le_big
  refine Tot.ite (fun hc => ?_) fun _ => ?_
  · obtain ⟨e, hy⟩ := hg hc
    rw [e, pure_bind, pure_bind]
    exact hjp _ (Bn.add hx hy.abs (by linarith))
  · rw [pure_bind]
    exact hjp _ (hx.mono (by linarith))

theorem negl_F {p : Qr5P Float} {r c : Nat} {lo hi k : ℤ} {g : ℤ → ℤ → Float} {h : FA Float} {B sm : ℝ}
    (hd : Fits5 r c lo hi lo hi) (hh : Is2 h r c (r * c) g) (hp : PF5 p sm) (hB0 : 0 ≤ B) (hBb : 1024 * B ≤ big)
    (hlo : lo ≤ p.ktop) (hhi : p.kbot ≤ hi) (k1 : p.ktop ≤ k) (k2 : k + 2 ≤ p.kbot)
    (hB : ∀ a b, p.ktop ≤ a → a ≤ p.kbot → p.ktop ≤ b → b ≤ k + 1 → Bn (g a b) B) :
    Tot (qr5Negligible p k h) fun h' => ∃ cut : Bool, (cut = true → |toR (g (k + 1) k)| ≤ 16 * (ur * B) + eta + sm) ∧
      Is2 h' r c (r * c) (fun a b => if cut = true ∧ a = k + 1 ∧ b = k then Scalar.zero else g a b) := by
  have u0 := ur_pos
  have us := ur_small
  have e0 := eta_pos
  have uB0 : 0 ≤ ur * B := mul_nonneg u0.le hB0
  have uB : ur * B ≤ B / 1000000000000000 := by have := mul_le_mul_of_nonneg_right us hB0; linarith
  have uuB : ur * (ur * B) ≤ ur * B / 1000000000000000 := by have := mul_le_mul_of_nonneg_right us uB0; linarith
  have B1 := one_le_big
  have get : ∀ a b, k ≤ a → a ≤ p.kbot → p.ktop ≤ b → b ≤ k + 1 → h.get2 a b = pure (g a b) ∧ Bn (g a b) B := fun a b a1 a2 b1 b2 =>
    ⟨get2_is2 hh (hd.cell (by omega) (by omega) (by omega) (by omega)) hd.size, hB a b (by omega) a2 b1 b2⟩
  have keep : Tot (pure h : R (FA Float)) fun h' => ∃ cut : Bool, (cut = true → |toR (g (k + 1) k)| ≤ 16 * (ur * B) + eta + sm) ∧
      Is2 h' r c (r * c) (fun a b => if cut = true ∧ a = k + 1 ∧ b = k then Scalar.zero else g a b) :=
    Tot.pure ⟨false, fun h => by simp at h, by simpa using hh⟩
  have bk := (get (k + 1) k (by omega) (by omega) (by omega) (by omega)).2
  unfold qr5Negligible
  dsimp only
  rw [(get (k + 1) k (by omega) (by omega) (by omega) (by omega)).1, pure_bind]
  refine Tot.ite (fun _ => ?_) fun _ => keep
  rw [(get k k (by omega) (by omega) (by omega) (by omega)).1, pure_bind, (get (k + 1) (k + 1) (by omega) (by omega) (by omega) (by omega)).1, pure_bind]
  have last : ∀ (cond : Float → Bool) (t : Float), Bn t (7 * B) → Tot (if (Scalar.abs (g (k + 1) k) ≤ᶠ Scalar.fmax p.smlnum (p.ulp * t)) = true then do
        let hkk1 ← h.get2 k (k + 1)
        if cond hkk1 = true then
          h.set2 (k + 1) k Scalar.zero
        else pure h
      else pure h) fun h' => ∃ cut : Bool, (cut = true → |toR (g (k + 1) k)| ≤ 16 * (ur * B) + eta + sm) ∧
      Is2 h' r c (r * c) (fun a b => if cut = true ∧ a = k + 1 ∧ b = k then Scalar.zero else g a b) := by
    intro cond t ht
    have hm : |toR p.ulp * toR t| ≤ 14 * (ur * B) := by
      rw [hp.u, abs_mul, abs_of_nonneg (by linarith)]
      have := mul_le_mul_of_nonneg_left ht.2 (show 0 ≤ 2 * ur by linarith)
      linarith
    obtain ⟨f, r⟩ := mulF hp.uf ht.1 (by linarith)
    have h3 := r.general
    have h5 := mul_le_mul_of_nonneg_left hm u0.le
    have h4 : |toR (p.ulp * t)| ≤ |toR p.ulp * toR t| + |toR (p.ulp * t) - toR p.ulp * toR t| := by
      have := abs_add_le (toR p.ulp * toR t) (toR (p.ulp * t) - toR p.ulp * toR t)
      rwa [show toR p.ulp * toR t + (toR (p.ulp * t) - toR p.ulp * toR t) = toR (p.ulp * t) by ring] at this
    obtain ⟨f2, h6⟩ : (Scalar.fmax p.smlnum (p.ulp * t) : Float).isFinite = true ∧ toR (Scalar.fmax p.smlnum (p.ulp * t) : Float) = _ := fmaxF hp.sf f
    refine Tot.ite (fun hle => ?_) fun _ => keep
    rw [(get k (k + 1) (by omega) (by omega) (by omega) (by omega)).1, pure_bind]
    refine Tot.ite (fun _ => ?_) fun _ => keep
    obtain ⟨h', e, k'⟩ := set2_is2 hh (hd.cell (a := k + 1) (b := k) (by omega) (by omega) (by omega) (by omega)) hd.size Scalar.zero
    refine Tot.of_eq e ⟨true, fun _ => ?_, ?_⟩
    · rw [leF bk.abs.1 f2] at hle
      have va : toR (Scalar.abs (g (k + 1) k) : Float) = |toR (g (k + 1) k)| := abs_toR _
      rw [va] at hle
      simp only [decide_eq_true_eq] at hle
      have h7 := hp.s
      have h8 := hp.s0
      have h9 := le_abs_self (toR (p.ulp * t))
      refine hle.trans ?_
      rw [h6]
      refine max_le (by linarith) (by linarith)
    · simp only [true_and]
      exact k'
  have b1 := (Bn.add (get k k (by omega) (by omega) (by omega) (by omega)).2.abs (get (k + 1) (k + 1) (by omega) (by omega) (by omega) (by omega)).2.abs
    (by linarith)).mono (b := 3 * B) (by linarith)
  refine Tot.ite (fun h0 => ?_) fun h0 => ?_
  · rw [beqF b1.1 toR_zero.1, toR_zero.2] at h0
    simp only [decide_eq_true_eq] at h0
    have z0 : Bn (Scalar.abs (g k k) + Scalar.abs (g (k + 1) (k + 1)) : Float) 0 := ⟨b1.1, by rw [h0, abs_zero]⟩
    refine opt_F (fun hc => get _ _ (by omega) (by omega) (by omega) (by omega)) (by linarith) hB0 z0 fun x1 q1 => ?_
    refine opt_F (fun hc => get _ _ (by omega) (by omega) (by omega) (by omega)) (by linarith) hB0 q1 fun x2 q2 => ?_
    refine opt_F (fun hc => get _ _ (by omega) (by omega) (by omega) (by omega)) (by linarith) hB0 q2 fun x3 q3 => ?_
    refine opt_F (fun hc => get _ _ (by omega) (by omega) (by omega) (by omega)) (by linarith) hB0 q3 fun x4 q4 => ?_
    refine opt_F (fun hc => get _ _ (by omega) (by omega) (by omega) (by omega)) (by linarith) hB0 q4 fun x5 q5 => ?_
    refine opt_F (fun hc => get _ _ (by omega) (by omega) (by omega) (by omega)) (by linarith) hB0 q5 fun x6 q6 => ?_
    exact last _ x6 (q6.mono (by linarith))
  · rw [pure_bind]
    exact last _ _ (b1.mono (by linarith))

end Verif

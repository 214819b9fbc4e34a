import Verif.Lib.HqrF64i
import Verif.Lib.HqrTwo
import Verif.Props.Lanv2F64
import Verif.Spec.BackwardF64

/-!
# Recording a diagonal block in `dlahqr` on binary64
-/

namespace Verif
open F64 Scalar Spec Matrix XR

/-! ### `dlanv2` -/

theorem lanv2Out_form {F : Type} [Scalar F] (a b c d cs sn : F) : (lanv2Out a b c d cs sn).a = a ∧ (lanv2Out a b c d cs sn).b = b ∧
    (lanv2Out a b c d cs sn).c = c ∧ (lanv2Out a b c d cs sn).d = d ∧ (lanv2Out a b c d cs sn).cs = cs ∧ (lanv2Out a b c d cs sn).sn = sn := by
  unfold lanv2Out; split <;> exact ⟨rfl, rfl, rfl, rfl, rfl, rfl⟩

theorem lanv2Out_self {F : Type} [Scalar F] (a b c d cs sn : F) : ∃ a' b' c' d' cs' sn', lanv2Out a b c d cs sn = lanv2Out a' b' c' d' cs' sn' :=
  ⟨_, _, _, _, _, _, rfl⟩

theorem lanv2Finish_form {F : Type} [Scalar F] (t b c cs sn : F) : ∃ a' b' c' d' cs' sn', lanv2Finish t b c cs sn = lanv2Out a' b' c' d' cs' sn' := by
  unfold lanv2Finish
  repeat' split
  all_goals exact lanv2Out_self _ _ _ _ _ _

theorem dlanv2_form {F : Type} [Scalar F] (a b c d : F) : ∃ a' b' c' d' cs' sn', dlanv2 a b c d = lanv2Out a' b' c' d' cs' sn' := by
  unfold dlanv2
  repeat' split
  all_goals first | exact lanv2Out_self _ _ _ _ _ _ | skip
  all_goals (dsimp only; try split)
  all_goals first | exact lanv2Out_self _ _ _ _ _ _ | exact lanv2Finish_form _ _ _ _ _

/-- The eigenvalues `dlanv2` reports, from the block it returns. -/
theorem lanv2_roots {a b c d cs sn : Float} (fb : b.isFinite = true) (fc : c.isFinite = true) (mb : |toR b| ≤ 2 ^ 1000) (mc : |toR c| ≤ 2 ^ 1000) :
    (toR c = 0 → lanv2Out a b c d cs sn = ⟨a, b, c, d, a, Scalar.zero, d, Scalar.zero, cs, sn⟩) ∧
    (toR b * toR c < 0 → ∃ r : Float, lanv2Out a b c d cs sn = ⟨a, b, c, d, a, r, d, -r, cs, sn⟩ ∧ r.isFinite = true ∧ 0 < toR r ∧
      |toR r - Real.sqrt (-(toR b * toR c))| ≤ 5 / 2 ^ 53 * Real.sqrt (-(toR b * toR c)) + 1 / 2 ^ 1075) := by
  obtain ⟨fO, vO⟩ := toR_zero
  constructor
  · intro hc
    unfold lanv2Out
    rw [beqF fc fO, vO, if_pos (by simpa using hc)]
  · intro hbc
    have hb : toR b ≠ 0 := by rintro h; rw [h] at hbc; simp at hbc
    have hc : toR c ≠ 0 := by rintro h; rw [h] at hbc; simp at hbc
    refine ⟨Float.sqrt b.abs * Float.sqrt c.abs, ?_, ?_⟩
    · unfold lanv2Out
      rw [beqF fc fO, vO, if_neg (by simpa using hc)]
      rfl
    · have u0 := ur_pos
      have us := ur_small
      have gb := sqrt_ge_eta (abs_ge_min hb)
      have gc := sqrt_ge_eta (abs_ge_min hc)
      obtain ⟨f1, n1, r1⟩ := sqrtF (x := b.abs) (abs_fin fb) (by rw [abs_toR]; exact abs_nonneg _)
      obtain ⟨f2, n2, r2⟩ := sqrtF (x := c.abs) (abs_fin fc) (by rw [abs_toR]; exact abs_nonneg _)
      rw [abs_toR] at r1 r2
      have r3 := r1.mul r2 (by norm_num) (by norm_num) (by norm_num) (by norm_num)
      have es : Real.sqrt (-(toR b * toR c)) = Real.sqrt |toR b| * Real.sqrt |toR c| := by
        rw [← Real.sqrt_mul (abs_nonneg _), ← abs_mul, abs_of_neg hbc]
      rw [es]
      set s := Real.sqrt |toR b| * Real.sqrt |toR c| with hs
      have s0 : 0 ≤ s := by positivity
      have sM : s ≤ big := by
        rw [hs, ← Real.sqrt_mul (abs_nonneg _), show big = Real.sqrt (big * big) by rw [Real.sqrt_mul_self big_pos.le]]
        exact Real.sqrt_le_sqrt (mul_le_mul mb mc (abs_nonneg _) big_pos.le)
      have hη : eta ≤ s / 2 := by
        have : (2 : ℝ) ^ (-537 : ℤ) * 2 ^ (-537 : ℤ) ≤ s := mul_le_mul gb gc (zp _).le (Real.sqrt_nonneg _)
        rw [z2] at this
        rw [eta_z, show (-1075 : ℤ) = -537 + -537 + -1 by norm_num, ← z2 (-537 + -537)]
        rw [show (2 : ℝ) ^ (-1 : ℤ) = 1 / 2 by norm_num]
        generalize (2 : ℝ) ^ (-537 + -537 : ℤ) = w at *
        linarith only [this]
      have ra := r3.abs_le (by norm_num)
      rw [abs_of_nonneg s0] at ra
      obtain ⟨f3, fl3⟩ := mulF f1 f2 (by linarith [big_pos])
      have e3 := fl3.abs1 ra
      have e4 := r3.err
      rw [abs_of_nonneg s0] at e4
      have h1 := abs_sub_le (toR (b.abs.sqrt * c.abs.sqrt)) (toR b.abs.sqrt * toR c.abs.sqrt) s
      have h4 := h1.trans (add_le_add e3 e4)
      have h3 : ur * s ≤ 1 / 1000 * s := mul_le_mul_of_nonneg_right (by linarith) s0
      have hu0 := mul_nonneg u0.le s0
      have := eta_pos
      refine ⟨f3, ?_, ?_⟩
      · have h2 := (abs_le.1 h4).1
        linarith
      · have e5 : (5 : ℝ) / 2 ^ 53 = 5 * ur := by unfold ur; ring
        have e6 : (1 : ℝ) / 2 ^ 1075 = eta := rfl
        rw [e5, e6]
        refine h4.trans ?_
        linarith

/-- `dlanv2` on a block of the active part, whatever its diagonal. -/
theorem lanv2F {a b c d : Float} {M : ℝ} (fa : a.isFinite = true) (fb : b.isFinite = true) (fc : c.isFinite = true)
    (fd : d.isFinite = true) (ha : |toR a| ≤ M) (hb : |toR b| ≤ M) (hc : |toR c| ≤ M) (hd : |toR d| ≤ M) (hM : M ≤ big) (hc0 : tiny ≤ |toR c|) :
    ∃ o1 o2 o3 o4 cs sn : Float, dlanv2 a b c d = lanv2Out o1 o2 o3 o4 cs sn ∧ o1.isFinite = true ∧ o2.isFinite = true ∧ o3.isFinite = true ∧
      o4.isFinite = true ∧ cs.isFinite = true ∧ sn.isFinite = true ∧
      Bk ur 900 200 M (toR a) (toR b) (toR c) (toR d) (toR cs) (toR sn) (toR o1) (toR o2) (toR o3) (toR o4) ∧
      (toR o3 ≠ 0 → toR o2 * toR o3 < 0 ∧ |toR o1 - toR o4| < 1 / 2 ^ 51) := by
  have M0 : 0 ≤ M := (abs_nonneg _).trans ha
  have u0 := ur_pos
  have B1 := one_le_big
  obtain ⟨o1, o2, o3, o4, cs, sn, e⟩ := dlanv2_form a b c d
  obtain ⟨p1, p2, p3, p4, p5, p6⟩ := lanv2Out_form o1 o2 o3 o4 cs sn
  obtain ⟨fad, rad⟩ := subF fa fd (by have := abs_sub (toR a) (toR d); linarith)
  by_cases hn : toR b * toR c < 0 → toR a = toR d ∨ 1 / 2 ^ 52 ≤ |toR (a - d)|
  · have ok := dlanv2_f64_ok fa fb fc fd ha hb hc hd hM (Or.inr hc0) hn
    rw [e] at ok
    obtain ⟨⟨f1, f2, f3, f4, -, -, -, -, f5, f6⟩, hs, hB, -⟩ := ok
    rw [p1] at f1 hs hB; rw [p2] at f2 hs hB; rw [p3] at f3 hs hB; rw [p4] at f4 hs hB; rw [p5] at f5 hB; rw [p6] at f6 hB
    refine ⟨o1, o2, o3, o4, cs, sn, e, f1, f2, f3, f4, f5, f6, hB, fun h => ?_⟩
    rcases hs with hs | ⟨hs, hs'⟩
    · exact absurd hs h
    · exact ⟨hs', by rw [hs, sub_self, abs_zero]; norm_num⟩
  · push_neg at hn
    obtain ⟨hbc, hne, hlt⟩ := hn
    obtain ⟨r, er, -⟩ := C76_dlanv2_f64_exception a b c d fb fc fad (hb.trans hM) (hc.trans hM) hbc hlt
    have e' := e
    rw [er] at e'
    have q1 := congrArg Lanv2.a e'; have q2 := congrArg Lanv2.b e'; have q3 := congrArg Lanv2.c e'; have q4 := congrArg Lanv2.d e'
    have q5 := congrArg Lanv2.cs e'; have q6 := congrArg Lanv2.sn e'
    rw [p1] at q1; rw [p2] at q2; rw [p3] at q3; rw [p4] at q4; rw [p5] at q5; rw [p6] at q6
    simp only at q1 q2 q3 q4 q5 q6
    subst q1 q2 q3 q4 q5 q6
    have pos : 0 ≤ 900 * ur * M := by positivity
    refine ⟨_, _, _, _, _, _, e, fa, fb, fc, fd, toR_one'.1, toR_zero.1, ⟨1, 0, 0, 0, 0, 0, ?_, ?_, ?_, ?_, ?_, ?_, ?_⟩, fun _ => ⟨hbc, ?_⟩⟩
    · rw [toR_one'.2, sub_self, abs_zero]; linarith
    · rw [toR_zero.2, sub_self, abs_zero]; linarith
    · rwa [abs_zero]
    · rwa [abs_zero]
    · rwa [abs_zero]
    · rwa [abs_zero]
    · simp only [add_zero]; exact id_rotated _ _ _ _
    · have h1 := rad.abs_ge (by norm_num)
      have h2 : (2 : ℝ) / 2 ^ 52 = 1 / 2 ^ 51 := by norm_num
      linarith

/-! ### The rotation -/

/-- Changing an entry. -/
theorem Trk.set {lo hi : ℤ} {A Q : Matrix (Blk lo hi) (Blk lo hi) ℝ} {δ : ℝ} {T : ℤ → ℤ → ℝ} (h : Trk A Q δ T) (k j : ℤ) (x : ℝ) {d : ℝ} (hd : |x - T k j| ≤ d) :
    Trk A Q (δ + d) (fun a b => if a = k ∧ b = j then x else T a b) := by
  refine h.perturb ?_
  by_cases hin : (lo ≤ k ∧ k ≤ hi) ∧ (lo ≤ j ∧ j ≤ hi)
  · rw [fro_single _ ⟨k, Finset.mem_Icc.2 hin.1⟩ ⟨j, Finset.mem_Icc.2 hin.2⟩]
    · simpa [block] using hd
    · intro a b hab
      have : ¬ ((a : ℤ) = k ∧ (b : ℤ) = j) := fun ⟨e1, e2⟩ => hab ⟨Subtype.ext e1, Subtype.ext e2⟩
      simp only [Matrix.sub_apply, block, if_neg this, sub_self]
  · have : block lo hi (fun a b => if a = k ∧ b = j then x else T a b) - block lo hi T = 0 := by
      ext a b
      have : ¬ ((a : ℤ) = k ∧ (b : ℤ) = j) := by
        rintro ⟨e1, e2⟩
        exact hin ⟨e1 ▸ Finset.mem_Icc.1 a.2, e2 ▸ Finset.mem_Icc.1 b.2⟩
      simp only [Matrix.sub_apply, block, if_neg this, sub_self, Matrix.zero_apply]
    rw [this, fro_zero]
    exact (abs_nonneg _).trans hd

/-- `T` with the block in rows and columns `l`, `l + 1` perturbed. -/
def addBlk (l : ℤ) (e1 e2 e3 e4 : ℝ) (T : ℤ → ℤ → ℝ) (a b : ℤ) : ℝ :=
  if a = l + 1 ∧ b = l + 1 then T a b + e4 else if a = l + 1 ∧ b = l then T a b + e3 else if a = l ∧ b = l + 1 then T a b + e2 else
    if a = l ∧ b = l then T a b + e1 else T a b

theorem Trk.addBlk {lo hi : ℤ} {A Q : Matrix (Blk lo hi) (Blk lo hi) ℝ} {δ : ℝ} {T : ℤ → ℤ → ℝ} (h : Trk A Q δ T) (l : ℤ) {e1 e2 e3 e4 d : ℝ}
    (h1 : |e1| ≤ d) (h2 : |e2| ≤ d) (h3 : |e3| ≤ d) (h4 : |e4| ≤ d) : Trk A Q (δ + 4 * d) (addBlk l e1 e2 e3 e4 T) := by
  have g1 := h.set l l (T l l + e1) (d := d) (by rw [add_sub_cancel_left]; exact h1)
  have g2 := g1.set l (l + 1) (T l (l + 1) + e2) (d := d) (by rw [if_neg (by omega), add_sub_cancel_left]; exact h2)
  have g3 := g2.set (l + 1) l (T (l + 1) l + e3) (d := d) (by rw [if_neg (by omega), if_neg (by omega), add_sub_cancel_left]; exact h3)
  have g4 := g3.set (l + 1) (l + 1) (T (l + 1) (l + 1) + e4) (d := d) (by rw [if_neg (by omega), if_neg (by omega), if_neg (by omega), add_sub_cancel_left]; exact h4)
  have e : (fun a b => if a = l + 1 ∧ b = l + 1 then T (l + 1) (l + 1) + e4 else if a = l + 1 ∧ b = l then T (l + 1) l + e3 else
      if a = l ∧ b = l + 1 then T l (l + 1) + e2 else if a = l ∧ b = l then T l l + e1 else T a b) = Verif.addBlk l e1 e2 e3 e4 T := by
    funext a b
    unfold Verif.addBlk
    split
    · rename_i h; rw [h.1, h.2]
    · split
      · rename_i h; rw [h.1, h.2]
      · split
        · rename_i h; rw [h.1, h.2]
        · split
          · rename_i h; rw [h.1, h.2]
          · rfl
  rw [← e]
  exact g4.mono (by linarith)

theorem Trk.rot {lo hi : ℤ} {A Q : Matrix (Blk lo hi) (Blk lo hi) ℝ} {δ : ℝ} {T : ℤ → ℤ → ℝ} (h : Trk A Q δ T) {l : ℤ} {cs sn : ℝ} (h1 : lo ≤ l) (h2 : l + 1 ≤ hi)
    (hu : cs ^ 2 + sn ^ 2 = 1) : Trk A (Q * rotM lo hi l cs sn) δ (rotT l cs sn T) :=
  h.similar (rotM_orth h1 h2 hu) (rot_similar h1 h2 T).symm

/-- One rounded rotation of two numbers. -/
theorem rot_near {x y cs sn : Float} {X Y CS SN M : ℝ} (hx : x.isFinite = true) (hy : y.isFinite = true) (hc : cs.isFinite = true) (hs : sn.isFinite = true)
    (eX : toR x = X) (eY : toR y = Y) (hX : |X| ≤ M) (hY : |Y| ≤ M) (hM : M ≤ big) (hcs : |CS| ≤ 1) (hsn : |SN| ≤ 1) (dc : |toR cs - CS| ≤ 200 * ur)
    (ds : |toR sn - SN| ≤ 200 * ur) :
    ((cs * x + sn * y).isFinite = true ∧ |toR (cs * x + sn * y) - (CS * X + SN * Y)| ≤ 410 * ur * M + 4 * eta) ∧
    ((cs * x - sn * y).isFinite = true ∧ |toR (cs * x - sn * y) - (CS * X - SN * Y)| ≤ 410 * ur * M + 4 * eta) := by
  have M0 : 0 ≤ M := (abs_nonneg _).trans hX
  have u0 := ur_pos
  have us := ur_small
  have e0 := eta_pos
  have eu := eta_le_ur
  have B1 := one_le_big
  subst eX eY
  have uM := mul_nonneg u0.le M0
  have uM' : ur * M ≤ M / 1000000000000000 := by have := mul_le_mul_of_nonneg_right us M0; linarith
  have one : ∀ {t : Float} {TT w : ℝ}, |toR t - TT| ≤ 200 * ur → |TT| ≤ 1 → |w| ≤ M → |toR t * w - TT * w| ≤ 200 * ur * M ∧ |toR t * w| ≤ 1001 / 1000 * M := by
    intro t TT w h1 h2 h3
    have e1 : toR t * w - TT * w = (toR t - TT) * w := by ring
    have g1 : |toR t * w - TT * w| ≤ 200 * ur * M := by
      rw [e1, abs_mul]; exact mul_le_mul h1 h3 (abs_nonneg _) (by linarith)
    refine ⟨g1, ?_⟩
    have g2 : |TT * w| ≤ M := by
      rw [abs_mul]
      have := mul_le_mul h2 h3 (abs_nonneg _) zero_le_one
      linarith
    have g3 := abs_add_le (toR t * w - TT * w) (TT * w)
    rw [sub_add_cancel] at g3
    linarith
  obtain ⟨a1, a2⟩ := one dc hcs hX
  obtain ⟨b1, b2⟩ := one ds hsn hY
  obtain ⟨f1, r1⟩ := mulF hc hx (by linarith)
  obtain ⟨f2, r2⟩ := mulF hs hy (by linarith)
  have c1 := r1.abs1 a2
  have c2 := r2.abs1 b2
  have p1 : |toR (cs * x)| ≤ 1002 / 1000 * M + eta := by
    have := abs_add_le (toR (cs * x) - toR cs * toR x) (toR cs * toR x)
    rw [sub_add_cancel] at this
    linarith
  have p2 : |toR (sn * y)| ≤ 1002 / 1000 * M + eta := by
    have := abs_add_le (toR (sn * y) - toR sn * toR y) (toR sn * toR y)
    rw [sub_add_cancel] at this
    linarith
  have ue : ur * eta ≤ eta / 1000 := by have := mul_le_mul_of_nonneg_right us e0.le; linarith
  have d1 : |toR (cs * x) - CS * toR x| ≤ 202 * ur * M + eta := by
    have := abs_sub_le (toR (cs * x)) (toR cs * toR x) (CS * toR x)
    linarith
  have d2 : |toR (sn * y) - SN * toR y| ≤ 202 * ur * M + eta := by
    have := abs_sub_le (toR (sn * y)) (toR sn * toR y) (SN * toR y)
    linarith
  constructor
  · have s1 : |toR (cs * x) + toR (sn * y)| ≤ 2004 / 1000 * M + 2 * eta := (abs_add_le _ _).trans (by linarith)
    obtain ⟨f3, r3⟩ := addF f1 f2 (by linarith)
    refine ⟨f3, ?_⟩
    have e3 := r3.err
    have e4 : ur * |toR (cs * x) + toR (sn * y)| ≤ ur * (2004 / 1000 * M + 2 * eta) := mul_le_mul_of_nonneg_left s1 u0.le
    have e5 : toR (cs * x + sn * y) - (CS * toR x + SN * toR y) = (toR (cs * x + sn * y) - (toR (cs * x) + toR (sn * y))) +
      ((toR (cs * x) - CS * toR x) + (toR (sn * y) - SN * toR y)) := by ring
    rw [e5]
    have e6 := abs_add_le (toR (cs * x + sn * y) - (toR (cs * x) + toR (sn * y))) ((toR (cs * x) - CS * toR x) + (toR (sn * y) - SN * toR y))
    have e7 := abs_add_le (toR (cs * x) - CS * toR x) (toR (sn * y) - SN * toR y)
    linarith
  · have s1 : |toR (cs * x) - toR (sn * y)| ≤ 2004 / 1000 * M + 2 * eta := (abs_sub _ _).trans (by linarith)
    obtain ⟨f3, r3⟩ := subF f1 f2 (by linarith)
    refine ⟨f3, ?_⟩
    have e3 := r3.err
    have e4 : ur * |toR (cs * x) - toR (sn * y)| ≤ ur * (2004 / 1000 * M + 2 * eta) := mul_le_mul_of_nonneg_left s1 u0.le
    have e5 : toR (cs * x - sn * y) - (CS * toR x - SN * toR y) = (toR (cs * x - sn * y) - (toR (cs * x) - toR (sn * y))) +
      ((toR (cs * x) - CS * toR x) - (toR (sn * y) - SN * toR y)) := by ring
    rw [e5]
    have e6 := abs_add_le (toR (cs * x - sn * y) - (toR (cs * x) - toR (sn * y))) ((toR (cs * x) - CS * toR x) - (toR (sn * y) - SN * toR y))
    have e7 := abs_sub (toR (cs * x) - CS * toR x) (toR (sn * y) - SN * toR y)
    linarith

/-- The rounded rotation of a row of `z`. -/
def rotF (l : ℤ) (cs sn : Float) (x : ℤ → Float) (b : ℤ) : Float :=
  if b = l then cs * x l + sn * x (l + 1) else if b = l + 1 then cs * x (l + 1) - sn * x l else x b

theorem ZRow.rot {lo hi l : ℤ} {x : ℤ → Float} {X0 : ℤ → ℝ} {Q : Matrix (Blk lo hi) (Blk lo hi) ℝ} {δ C : ℝ} (h : ZRow lo hi x X0 Q δ)
    (hQ : Q.transpose * Q = 1) (hC : fro (colsM lo hi (fun (_ : Unit) => X0)) + δ ≤ C) (hCb : C ≤ big) (h1 : lo ≤ l) (h2 : l + 1 ≤ hi)
    {cs sn : Float} {CS SN : ℝ} (hc : cs.isFinite = true) (hs : sn.isFinite = true) (hu : CS ^ 2 + SN ^ 2 = 1) (dc : |toR cs - CS| ≤ 200 * ur)
    (ds : |toR sn - SN| ≤ 200 * ur) : ZRow lo hi (rotF l cs sn x) X0 (Q * rotM lo hi l CS SN) (δ + epsz C) := by
  have u0 := ur_pos
  have e0 := eta_pos
  set X := colsM lo hi (fun (_ : Unit) b => toR (x b)) with hX
  have nX : fro X ≤ C := (h.norm hQ).trans hC
  have C0 : 0 ≤ C := (fro_nonneg _).trans nX
  have pC : 0 ≤ 410 * ur * C + 4 * eta := by have := mul_nonneg u0.le C0; linarith
  have ent : ∀ j, lo ≤ j → j ≤ hi → |toR (x j)| ≤ C := fun j j1 j2 => (fro_entry X () ⟨j, Finset.mem_Icc.2 ⟨j1, j2⟩⟩).trans nX
  have hcs : |CS| ≤ 1 := abs_le_one_iff_mul_self_le_one.2 (by nlinarith [sq_nonneg SN])
  have hsn : |SN| ≤ 1 := abs_le_one_iff_mul_self_le_one.2 (by nlinarith [sq_nonneg CS])
  obtain ⟨⟨fa, ra⟩, -⟩ := rot_near (h.fin l (by omega) (by omega)) (h.fin (l + 1) (by omega) (by omega)) hc hs rfl rfl (ent l (by omega) (by omega))
    (ent (l + 1) (by omega) (by omega)) hCb hcs hsn dc ds
  obtain ⟨-, ⟨fb, rb⟩⟩ := rot_near (h.fin (l + 1) (by omega) (by omega)) (h.fin l (by omega) (by omega)) hc hs rfl rfl (ent (l + 1) (by omega) (by omega))
    (ent l (by omega) (by omega)) hCb hcs hsn dc ds
  constructor
  · intro b b1 b2
    unfold rotF
    split
    · exact fa
    · split
      · exact fb
      · exact h.fin b b1 b2
  · set Y := colsM lo hi (fun (_ : Unit) b => toR (rotF l cs sn x b)) with hY
    have eH : X * rotM lo hi l CS SN = colsM lo hi (fun (_ : Unit) => rotv l CS SN fun j => toR (x j)) := mul_rotM h1 h2 _
    have hD : fro (Y - X * rotM lo hi l CS SN) ≤ 2 * (0 * fro X) + 2 * ∑ _a : Unit, (410 * ur * C + 4 * eta) := by
      rw [eH]
      refine fro_cols (y := fun _ => 410 * ur * C + 4 * eta) (rows3 lo hi l) (card_rows3 l) (le_refl _) (fun _ => pC) ?_ ?_
      · intro b hb a
        rw [mem_rows3] at hb
        rw [Matrix.sub_apply, hY]
        simp only [colsM, rotF]
        rw [rotv_ne (by omega) (by omega), if_neg (by omega), if_neg (by omega), sub_self]
      · intro b hb a
        rw [mem_rows3] at hb
        rw [Matrix.sub_apply, hY, zero_mul, zero_add]
        simp only [colsM, rotF, rotv]
        split
        · exact ra
        · split
          · exact rb
          · rw [sub_self, abs_zero]; exact pC
    have e : Y - colsM lo hi (fun (_ : Unit) => X0) * (Q * rotM lo hi l CS SN) =
        (X - colsM lo hi (fun (_ : Unit) => X0) * Q) * rotM lo hi l CS SN + (Y - X * rotM lo hi l CS SN) := by
      rw [Matrix.sub_mul, Matrix.mul_assoc]; abel
    rw [e]
    refine (fro_add _ _).trans ?_
    rw [fro_mul_right _ (blk_orth (rotM_orth h1 h2 hu))]
    have h1 := h.close
    rw [← hX] at h1
    simp only [Finset.univ_unique, Finset.sum_const, Finset.card_singleton, one_smul] at hD
    have := mul_nonneg u0.le C0
    unfold epsz
    linarith

end Verif

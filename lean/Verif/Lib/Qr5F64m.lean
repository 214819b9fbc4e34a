import Verif.Lib.Qr5F64l
import Verif.Lib.Qr5BlkG

/-!
# The products after a sweep of `dlaqr5` on binary64
-/

namespace Verif
open F64 Scalar Spec

/-- What `z` holds when the product of the reflectors is `Zq`. -/
def ZInvF (p : Qr5P Float) (r cz : Nat) (Z0 : ℤ → ℤ → ℝ) (z0 : FA Float) (δ : ℝ) (Zq : ℤ → ℤ → ℝ) (z : FA Float) : Prop :=
  if p.wantz then ∃ zg, Is2 z r cz (r * cz) zg ∧
    (∀ a, p.iloz ≤ a → a ≤ p.ihiz → ZRow p.ktop p.kbot (zg a) (Z0 a) (block p.ktop p.kbot Zq) δ) ∧
    ∀ a b, ¬ ((p.iloz ≤ a ∧ a ≤ p.ihiz) ∧ p.ktop ≤ b ∧ b ≤ p.kbot) → zg a b = ofList2 r z0.data a b
  else z = z0

/-- The error of the products in one sweep. -/
noncomputable def dacc (lo hi : ℤ) (B : ℝ) : ℝ := 4 * (35800 * ur * B) + 4 * ((hi - lo + 1).toNat * (200 * eta))

/-- The error in a row of `z` in one sweep. -/
noncomputable def dz5 (C : ℝ) : ℝ := 57600 * (ur * C) + 300 * eta

section
variable {p : Qr5P Float} {r c ldv cv : Nat} {rest : List Float} {lo hi : ℤ} {H : ℤ → ℤ → ℝ} {sm ε D B P m ρ : ℝ} {X : ℤ → ℝ} {E1 : ℝ} {ru cu cz rv cwv rh cwh : Nat}
  {incol k : ℤ} {Zq0 : ℤ → ℤ → ℝ} {gS : ℤ → ℤ → Float} {s1 s s' : Qr5S Float} {T Zq T0 : ℤ → ℤ → ℝ} {gv g : ℤ → ℤ → Float} {t v2 v3 : Float}
  {rs : List RflF}

set_option maxHeartbeats 1000000 in
/-- The products after a sweep. -/
theorem accumulate_F {g0 : ℤ → ℤ → Float} {Z0 : ℤ → ℤ → ℝ} {z0 : FA Float} {δ C : ℝ} (hd : Dim5F p r c ldv lo hi sm)
    (ha : Acc5 p r cz ru cu rv cwv rh cwh lo hi) (B0 : 0 ≤ B) (hBb : 1024 * B ≤ big)
    (h : SwF p r c ldv cv rest lo hi H ε D ρ X E1 incol Zq0 gS s1 k T Zq gv g t v2 v3 rs s) (hUO : UOn ru cu incol (kone5 p incol) p.kbot rs s.u)
    (hus : ru * cu < 2 ^ 31) (hwv : IsMatrix s1.wv rv cwv) (hwh : IsMatrix s1.wh rh cwh)
    (k1 : p.ktop - 1 ≤ incol) (k2 : incol + 2 ≤ p.kbot) (k3 : incol < k) (k5 : k ≤ incol + 2)
    (hS : ∀ a b, lo ≤ a → a ≤ hi → lo ≤ b → b ≤ hi → ¬ (jtop5 p incol ≤ a ∧ b ≤ jbot5 p incol) → (gS a b).isFinite = true ∧ toR (gS a b) = T0 a b)
    (hT0 : fro (block lo hi T0) ≤ B) (hO : ∀ a b, ¬ (lo ≤ a ∧ a ≤ hi ∧ lo ≤ b ∧ b ≤ hi) → gS a b = g0 a b)
    (hz : ZInvF p r cz Z0 z0 δ Zq0 s1.z) (hQ : (block p.ktop p.kbot Zq0).transpose * block p.ktop p.kbot Zq0 = 1)
    (hC : p.wantz = true → 1024 * C ≤ big ∧ ∀ a, p.iloz ≤ a → a ≤ p.ihiz → fro (colsM p.ktop p.kbot (fun (_ : Unit) => Z0 a)) + δ ≤ C) :
    Tot (qr5Accumulate p incol s) fun s' => Work5 ru cu rv cwv rh cwh s' ∧ s'.sr = s1.sr ∧ s'.si = s1.si ∧ ZInvF p r cz Z0 z0 (δ + dz5 C) Zq s'.z ∧
      (block p.ktop p.kbot Zq).transpose * block p.ktop p.kbot Zq = 1 ∧
      ∃ T' g', ArrF r c ldv cv rest lo hi p.ktop p.kbot k H ρ g0 s'.h s'.v T' g' t v2 v3 ∧ RealF lo hi p.ktop p.kbot H ε (D + dacc lo hi B) X E1 k T' Zq := by
  classical
  have l1 := hd.lok; have l2 := hd.hik; have l3 := hd.fits.lo1; have l4 := hd.fits.hir; have l5 := hd.fits.hic
  have u0 := ur_pos
  have e0 := eta_pos
  have hkdu : p.kdu = 4 := by unfold Qr5P.kdu; rw [hd.nb]; norm_num
  have ewv : s.wv = s1.wv := by rw [h.st]
  have ewh : s.wh = s1.wh := by rw [h.st]
  have ez : s.z = s1.z := by rw [h.st]
  obtain ⟨ug, hug, hugv⟩ := hUO
  obtain ⟨nu, hnu⟩ : ∃ nu : Nat, p.kdu - max 0 (incol + p.kdu - p.kbot) - kone5 p incol + 1 = nu :=
    ⟨(p.kdu - max 0 (incol + p.kdu - p.kbot) - kone5 p incol + 1).toNat, by rw [hkdu]; dsimp only [kone5]; omega⟩
  have hnu' := hnu
  rw [hkdu] at hnu'
  have hw2 : incol + kone5 p incol + nu - 1 = jbot5 p incol := by dsimp only [jbot5, kone5] at *; omega
  have hk1 : incol + kone5 p incol = max (incol + 1) p.ktop := by dsimp only [kone5]; omega
  have hn4 : nu ≤ 4 := by dsimp only [kone5] at *; omega
  have hlen : rs.length ≤ 2 := by have := h.len; omega
  set w1 := incol + kone5 p incol with hw1
  have good : ∀ r ∈ rs, r.Good w1 (w1 + nu - 1) p.kbot := by rw [hw2]; exact h.good
  have hU : UPart ru cu (kone5 p incol) nu s.u ug := by
    have := ha.ru4; have := ha.cu4
    refine ⟨hug, hus, le_max_left _ _, ?_, ?_, ?_⟩ <;> dsimp only [kone5] at * <;> omega
  have hUg : ∀ i, w1 ≤ i → i ≤ w1 + nu - 1 → ∀ l < nu, ug (kone5 p incol + l) (kone5 p incol + (i - w1)) = applyF p.kbot rs (unitF (w1 + l)) i := by
    intro i i1 i2 l hl
    have k1p : 1 ≤ kone5 p incol := le_max_left _ _
    rw [hugv _ _ (by omega) (by omega) (by omega) (by omega)]
    congr 2 <;> omega
  obtain ⟨dh, edh, dh0, dh'⟩ := asUsize_pos ha.nh1 ha.nhc (lt_of_le_of_lt (Nat.le_mul_of_pos_left _ (by have := ha.rh4; omega)) hwh.small)
  obtain ⟨dv, edv, dv0, dv'⟩ := asUsize_pos ha.nv1 ha.nvr (lt_of_le_of_lt (Nat.le_mul_of_pos_right _ (by have := ha.cv4; omega)) hwv.small)
  have hc := ha.nhc; have hr := ha.nvr; have h4h := ha.rh4; have h4v := ha.cv4
  unfold qr5Accumulate
  dsimp only
  rw [hnu, ha.jt, ha.jb, edh, edv, hkdu, ha.lz, ha.lu, ha.lh, ha.lv, hd.ldh]
  -- columns to the right of the window
  refine Tot.bind (blockLoopG (hz := true) (w1 := w1) (gx := fun s => s.h) (gw := fun s => s.wh)
    (put := fun s x w => { s with h := x, wh := w }) (fun _ _ _ => rfl) (fun _ _ _ => rfl) (fun _ _ _ _ _ => rfl) hU dh0 (s0 := s) (i0 := min (incol + 4) p.kbot + 1) (i1 := hi) rfl h.hm
    hd.fits.size (by rw [ewh]; exact hwh) (by omega) (by omega) ?_ ?_) ?_
  · rw [if_pos rfl]
    dsimp only [kone5, jbot5] at *
    omega
  · intro st i es
    rw [es, dh']
    rfl
  rintro s2 ⟨es2, mw2, g2, ig2, v2a, v2b⟩
  have hU2 : s2.u = s.u := by rw [es2]
  -- rows above the window
  refine Tot.bind (blockLoopG (hz := false) (w1 := w1) (gx := fun s => s.h) (gw := fun s => s.wv)
    (put := fun s x w => { s with h := x, wv := w }) (fun _ _ _ => rfl) (fun _ _ _ => rfl) (fun _ _ _ _ _ => rfl) hU dv0 (s0 := s2) (i0 := lo) (i1 := max p.ktop incol - 1) rfl ig2
    hd.fits.size (by rw [es2]; dsimp only; rw [ewv]; exact hwv) (by omega) (by omega) ?_ ?_) ?_
  · rw [if_neg (by simp)]
    dsimp only [kone5, jbot5] at *
    omega
  · intro st i es
    rw [es, dv', show max p.ktop incol - 1 - i + 1 = max p.ktop incol - i by ring]
    dsimp only
    rw [hU2]
    rfl
  rintro s3 ⟨es3, mw3, g3, ig3, v3a, v3b⟩
  have hU3 : s3.u = s.u := by rw [es3]; exact hU2
  have ez3 : s3.z = s1.z := by rw [es3]; dsimp only; rw [es2]; exact ez
  set R1 : ℤ → ℤ → Prop := fun a b => (w1 ≤ a ∧ a ≤ w1 + nu - 1) ∧ min (incol + 4) p.kbot + 1 ≤ b ∧ b ≤ hi with hR1
  set R2 : ℤ → ℤ → Prop := fun a b => (lo ≤ a ∧ a ≤ max p.ktop incol - 1) ∧ w1 ≤ b ∧ b ≤ w1 + nu - 1 with hR2
  have off : ∀ a b, ¬ R1 a b → ¬ R2 a b → g3 a b = g a b := fun a b q1 q2 => by rw [v3b a b q2, v2b a b q1]
  -- the entries not touched by the products
  have same : ∀ a b, lo ≤ a → a ≤ hi → lo ≤ b → b ≤ hi → ¬ R1 a b → ¬ R2 a b → g3 a b = gv a b := by
    intro a b x1 x2 y1 y2 q1 q2
    rw [off a b q1 q2]
    by_cases hw : jtop5 p incol ≤ a ∧ b ≤ jbot5 p incol
    · exact h.win.on a b hw.1 hw.2
    · rw [h.win.off a b hw]
      simp only [hR1, hR2] at q1 q2
      by_cases hj : a < jtop5 p incol
      · rw [h.above a b x1 hj, applyF_out h.good _ (by dsimp only [jtop5, jbot5] at *; omega)]
      · rw [h.right a b (by omega) y2, applyF_out h.good _ (by dsimp only [jtop5, jbot5] at *; omega)]
  have hcb : ∀ b, cnorm (block lo hi T0) b ≤ B := fun b => (cnorm_le _ _).trans hT0
  have hca : ∀ a, cnorm (block lo hi T0).transpose a ≤ B := fun a => (cnorm_le _ _).trans (by rw [fro_transpose]; exact hT0)
  have onT : ∀ a b, lo ≤ a → a ≤ hi → lo ≤ b → b ≤ hi → ¬ (jtop5 p incol ≤ a ∧ b ≤ jbot5 p incol) → toR (gv a b) = T a b := by
    intro a b x1 x2 y1 y2 hw
    exact h.arr.on a b x1 x2 y1 y2 (by dsimp only [jtop5, jbot5] at *; omega)
  have in1 : ∀ a b : Blk lo hi, R1 a b → (g3 a b).isFinite = true ∧ |toR (g3 a b) - T a b| ≤ 35800 * ur * cnorm (block lo hi T0) b + 200 * eta := by
    rintro ⟨a, ha'⟩ ⟨b, hb'⟩ q1
    obtain ⟨x1, x2⟩ := Finset.mem_Icc.1 ha'
    obtain ⟨y1, y2⟩ := Finset.mem_Icc.1 hb'
    have q1' : (w1 ≤ a ∧ a ≤ w1 + nu - 1) ∧ min (incol + 4) p.kbot + 1 ≤ b ∧ b ≤ hi := q1
    have q2 : ¬ R2 a b := by
      simp only [hR2]
      dsimp only [jbot5] at hw2
      omega
    obtain ⟨cc, ec⟩ := v2a a b q1
    rw [v3b a b q2, ec, ← onT a b x1 x2 y1 y2 (by dsimp only [jbot5]; omega), h.right a b (by dsimp only [jbot5]; omega) y2]
    have eg : ∀ j, g j b = gS j b := fun j => h.win.off j b (by dsimp only [jbot5]; omega)
    have := gemm_virt (hz := true) (nota := !true) good hlen hn4 (cnorm_nonneg (block lo hi T0) ⟨b, hb'⟩) (by linarith [hcb ⟨b, hb'⟩])
      (x := fun j => gS j b) (fun j j1 j2 => by
        obtain ⟨f1, f2⟩ := hS j b (by omega) (by dsimp only [jbot5] at hw2; omega) y1 y2 (by dsimp only [jbot5]; omega)
        refine ⟨f1, ?_⟩
        rw [f2]
        exact cnorm_entry (block lo hi T0) ⟨j, Finset.mem_Icc.2 ⟨by omega, by dsimp only [jbot5] at hw2; omega⟩⟩ ⟨b, hb'⟩) q1'.1.1 q1'.1.2
      (hUg a q1'.1.1 q1'.1.2) cc
    simp only [eg]
    exact this
  have in2 : ∀ a b : Blk lo hi, R2 a b → (g3 a b).isFinite = true ∧ |toR (g3 a b) - T a b| ≤ 35800 * ur * cnorm (block lo hi T0).transpose a + 200 * eta := by
    rintro ⟨a, ha'⟩ ⟨b, hb'⟩ q1
    obtain ⟨x1, x2⟩ := Finset.mem_Icc.1 ha'
    obtain ⟨y1, y2⟩ := Finset.mem_Icc.1 hb'
    have q1' : (lo ≤ a ∧ a ≤ max p.ktop incol - 1) ∧ w1 ≤ b ∧ b ≤ w1 + nu - 1 := q1
    obtain ⟨cc, ec⟩ := v3a a b q1
    rw [ec, ← onT a b x1 x2 y1 y2 (by dsimp only [jtop5]; omega), h.above a b x1 (by dsimp only [jtop5]; omega)]
    have eg : ∀ j, g2 a j = gS a j := fun j => by
      rw [v2b a j fun q => ?_, h.win.off a j (by dsimp only [jtop5]; omega)]
      have q' : (w1 ≤ a ∧ a ≤ w1 + nu - 1) ∧ min (incol + 4) p.kbot + 1 ≤ j ∧ j ≤ hi := q
      omega
    have := gemm_virt (hz := false) (nota := !false) good hlen hn4 (cnorm_nonneg (block lo hi T0).transpose ⟨a, ha'⟩) (by linarith [hca ⟨a, ha'⟩])
      (x := fun j => gS a j) (fun j j1 j2 => by
        obtain ⟨f1, f2⟩ := hS a j x1 x2 (by omega) (by dsimp only [jbot5] at hw2; omega) (by dsimp only [jtop5]; omega)
        refine ⟨f1, ?_⟩
        rw [f2]
        exact cnorm_entry (block lo hi T0).transpose ⟨j, Finset.mem_Icc.2 ⟨by omega, by dsimp only [jbot5] at hw2; omega⟩⟩ ⟨a, ha'⟩) q1'.2.1 q1'.2.2
      (hUg b q1'.2.1 q1'.2.2) cc
    simp only [eg]
    exact this
  set T3 : ℤ → ℤ → ℝ := fun a b => if R1 a b ∨ R2 a b then toR (g3 a b) else T a b with hT3
  have low : ∀ a b, (b ≤ a ∨ (jtop5 p incol ≤ a ∧ b ≤ jbot5 p incol)) → ¬ R1 a b ∧ ¬ R2 a b := by
    intro a b hab
    simp only [hR1, hR2]
    dsimp only [jtop5, jbot5] at *
    omega
  have T3low : ∀ a b, (b ≤ a ∨ (jtop5 p incol ≤ a ∧ b ≤ jbot5 p incol)) → T3 a b = T a b := by
    intro a b hab
    obtain ⟨q1, q2⟩ := low a b hab
    simp only [hT3]
    rw [if_neg fun q => q.elim q1 q2]
  have hArr : ArrF r c ldv cv rest lo hi p.ktop p.kbot k H ρ g0 s3.h s3.v T3 g3 t v2 v3 := by
    have ev : s3.v = s.v := by rw [es3]; dsimp only; rw [es2]
    refine ⟨ig3, by rw [ev]; exact h.arr.vm, ?_, ?_, ?_, ?_⟩
    · intro a b hab
      rw [off a b, ← hO a b hab]
      · by_cases hw : jtop5 p incol ≤ a ∧ b ≤ jbot5 p incol
        · rw [h.win.on a b hw.1 hw.2, h.arr.out a b hab]
        · rw [h.win.off a b hw]
      · simp only [hR1]
        dsimp only [jbot5] at *
        omega
      · simp only [hR2]
        dsimp only [jbot5] at *
        omega
    · intro a b x1 x2 y1 y2
      by_cases q1 : R1 a b
      · exact (in1 ⟨a, Finset.mem_Icc.2 ⟨x1, x2⟩⟩ ⟨b, Finset.mem_Icc.2 ⟨y1, y2⟩⟩ q1).1
      · by_cases q2 : R2 a b
        · exact (in2 ⟨a, Finset.mem_Icc.2 ⟨x1, x2⟩⟩ ⟨b, Finset.mem_Icc.2 ⟨y1, y2⟩⟩ q2).1
        · rw [same a b x1 x2 y1 y2 q1 q2]
          exact h.arr.fin a b x1 x2 y1 y2
    · intro a b x1 x2 y1 y2 hn
      by_cases q : R1 a b ∨ R2 a b
      · simp only [hT3]
        rw [if_pos q]
      · simp only [hT3]
        rw [if_neg q, same a b x1 x2 y1 y2 (fun q' => q (Or.inl q')) fun q' => q (Or.inr q')]
        exact h.arr.on a b x1 x2 y1 y2 hn
    · intro q1 q2
      have := h.arr.late q1 q2
      obtain ⟨n1, n2⟩ := low (k + 3) (k + 2) (Or.inl (by omega))
      rw [same (k + 3) (k + 2) (by omega) (by omega) (by omega) (by omega) n1 n2, T3low _ _ (Or.inl (by omega)), T3low _ _ (Or.inl (by omega)), T3low _ _ (Or.inl (by omega))]
      exact this
  have hReal : RealF lo hi p.ktop p.kbot H ε (D + dacc lo hi B) X E1 k T3 Zq := by
    refine ⟨⟨?_, ?_, ?_⟩, ?_, ?_, h.real.out, h.real.first, fun e => by omega⟩
    · intro a b b1 hab a2 hn
      rw [T3low a b (Or.inl (by omega))]
      exact h.real.shape.hess a b b1 hab a2 hn
    · intro q
      rw [T3low _ _ (Or.inl (by omega))]
      exact h.real.shape.top q
    · intro q
      rw [T3low _ _ (Or.inl (by omega))]
      exact h.real.shape.bot q
    · intro j j1 j2
      rw [T3low _ _ (Or.inl (by omega))]
      exact h.real.sub j j1 j2
    · rw [← add_assoc]
      refine h.real.track.perturb (fro_pert (w1 := w1) hn4 (R1 := R1) (R2 := R2) (by linarith) (by linarith) hT0 (fun a b q => q.1) (fun a b q => q.2) ?_ ?_ ?_)
      · intro a b q
        have := (in1 a b q).2
        simp only [hT3]
        rw [if_pos (Or.inl q)]
        exact this
      · intro a b q
        have := (in2 a b q).2
        simp only [hT3]
        rw [if_pos (Or.inr q)]
        exact this
      · intro a b q1 q2
        simp only [hT3]
        rw [if_neg fun q => q.elim q1 q2]
  have w1k : p.ktop ≤ w1 := by omega
  have w2k : w1 + nu - 1 ≤ p.kbot := by rw [hw2]; dsimp only [jbot5]; omega
  obtain ⟨Pm, hP, hPm⟩ := applyR_mat rs fun r hr => (good r hr).wider w1k w2k (le_refl _)
  have eZ : block p.ktop p.kbot Zq = block p.ktop p.kbot Zq0 * Pm := by
    rw [h.zq]
    exact hPm (Blk p.ktop p.kbot) fun a b => Zq0 a b
  have hQ' : (block p.ktop p.kbot Zq).transpose * block p.ktop p.kbot Zq = 1 := by
    rw [eZ, Matrix.transpose_mul, Matrix.mul_assoc, ← Matrix.mul_assoc (block p.ktop p.kbot Zq0).transpose, hQ, Matrix.one_mul, hP]
  have hW3 : IsMatrix s3.wh rh cwh := by rw [es3]; exact mw2
  have hUM : IsMatrix s.u ru cu := ⟨hug.rows, hug.cols, by rw [hug.data, length_tab2], hus⟩
  have esr : s3.sr = s1.sr := by rw [es3]; dsimp only; rw [es2]; dsimp only; rw [h.st]
  have esi : s3.si = s1.si := by rw [es3]; dsimp only; rw [es2]; dsimp only; rw [h.st]
  by_cases hwz : p.wantz = true
  · rw [if_pos hwz]
    obtain ⟨z1, z2, z3, z4⟩ := ha.z hwz
    obtain ⟨c1, c2⟩ := hC hwz
    unfold ZInvF at hz
    rw [if_pos hwz] at hz
    obtain ⟨zg, iz, zon, zout⟩ := hz
    refine (blockLoopG (hz := false) (w1 := w1) (gx := fun s => s.z) (gw := fun s => s.wv)
      (put := fun s x w => { s with z := x, wv := w }) (g := zg) (fun _ _ _ => rfl) (fun _ _ _ => rfl) (fun _ _ _ _ _ => rfl) hU dv0 (s0 := s3) (i0 := p.iloz) (i1 := p.ihiz) rfl
      (by rw [ez3]; exact iz) z4 mw3 (by omega) z1 ?_ ?_).mono ?_
    · rw [if_neg (by simp)]
      dsimp only [kone5, jbot5] at *
      omega
    · intro st i es
      rw [es, dv']
      dsimp only
      rw [hU3]
      rfl
    rintro s4 ⟨es4, mw4, g4, ig4, v4a, v4b⟩
    refine ⟨⟨by rw [es4]; dsimp only; rw [hU3]; exact hUM, mw4, by rw [es4]; exact hW3⟩, by rw [es4]; exact esr, by rw [es4]; exact esi, ?_, hQ', T3, g3, by rw [es4]; exact hArr, hReal⟩
    unfold ZInvF
    rw [if_pos hwz]
    refine ⟨g4, ig4, ?_, ?_⟩
    · intro a x1 x2
      rw [eZ]
      refine (zon a x1 x2).gemm hQ (c2 a x1 x2) c1 good hn4 w1k w2k hP hPm ?_ ?_
      · intro b b1 b2 M M0 hM hx
        obtain ⟨cc, ec⟩ := v4a a b (show (p.iloz ≤ a ∧ a ≤ p.ihiz) ∧ w1 ≤ b ∧ b ≤ w1 + nu - 1 from ⟨⟨x1, x2⟩, b1, b2⟩)
        rw [ec]
        exact gemm_apply (hz := false) (nota := !false) good hlen hn4 M0 hM hx b1 b2 (hUg b b1 b2) cc
      · intro b hb
        refine v4b a b fun q => ?_
        have q' : (p.iloz ≤ a ∧ a ≤ p.ihiz) ∧ w1 ≤ b ∧ b ≤ w1 + nu - 1 := q
        omega
    · intro a b hab
      rw [v4b a b, zout a b hab]
      intro hn
      have hn' : (p.iloz ≤ a ∧ a ≤ p.ihiz) ∧ w1 ≤ b ∧ b ≤ w1 + nu - 1 := hn
      exact hab (by omega)
  · rw [if_neg hwz]
    refine Tot.pure ⟨⟨by rw [hU3]; exact hUM, mw3, hW3⟩, esr, esi, ?_, hQ', T3, g3, hArr, hReal⟩
    unfold ZInvF at hz ⊢
    rw [if_neg hwz] at hz ⊢
    rw [ez3, hz]

end

end Verif

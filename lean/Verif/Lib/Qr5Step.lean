import Verif.Lib.Qr5Vec

/-!
# One step of the single-bulge chase of `dlaqr5` on the arrays, in exact arithmetic
-/

namespace Verif
open Scalar Spec XR

/-- The entries with rows `jt..hi` and columns `lo..jb` are those of `S`. -/
def OnR (lo hi jt jb : ℤ) (g : ℤ → ℤ → XR) (S : ℤ → ℤ → ℝ) : Prop := ∀ a b, jt ≤ a → a ≤ hi → lo ≤ b → b ≤ jb → g a b = fin (S a b)

/-- The other entries are those of `g0`. -/
def OutR (lo hi jt jb : ℤ) (g g0 : ℤ → ℤ → XR) : Prop := ∀ a b, ¬ (jt ≤ a ∧ a ≤ hi ∧ lo ≤ b ∧ b ≤ jb) → g a b = g0 a b

/-- The rows and columns `lo..hi` lie in an `r`-by-`c` matrix; `jt` and `jb` lie among them. -/
structure Fits5 (r c : Nat) (lo hi jt jb : ℤ) : Prop where
  size : r * c < 2 ^ 31
  lo1 : 1 ≤ lo
  hir : hi ≤ r
  hic : hi ≤ c
  ljt : lo ≤ jt
  jbh : jb ≤ hi

section
variable {r c : Nat} {lo hi jt jb : ℤ} {g : ℤ → ℤ → XR} {S : ℤ → ℤ → ℝ} {h : FA XR}

theorem Fits5.cell (hd : Fits5 r c lo hi jt jb) {a b : ℤ} (a1 : lo ≤ a) (a2 : a ≤ hi) (b1 : lo ≤ b) (b2 : b ≤ hi) : Cell r (r * c) a b := by
  have := hd.lo1; have := hd.hir; have := hd.hic
  refine ⟨by omega, by omega, by omega, ?_⟩
  have : (b - 1) * (r : ℤ) ≤ (c - 1) * r := mul_le_mul_of_nonneg_right (by omega) (by omega)
  have e : ((c : ℤ) - 1) * r = r * c - r := by ring
  push_cast
  omega

theorem OnR.get (hS : OnR lo hi jt jb g S) (hd : Fits5 r c lo hi jt jb) (hh : Is2 h r c (r * c) g) {a b : ℤ} (a1 : jt ≤ a) (a2 : a ≤ hi) (b1 : lo ≤ b)
    (b2 : b ≤ jb) : h.get2 a b = pure (fin (S a b)) := by
  rw [get2_is2 hh (hd.cell (hd.ljt.trans a1) a2 b1 (b2.trans hd.jbh)) hd.size, hS a b a1 a2 b1 b2]

theorem set_ok (hS : OnR lo hi jt jb g S) (hd : Fits5 r c lo hi jt jb) (hh : Is2 h r c (r * c) g) {a b : ℤ} (a1 : jt ≤ a) (a2 : a ≤ hi) (b1 : lo ≤ b)
    (b2 : b ≤ jb) (x : ℝ) : ∃ h', h.set2 a b (fin x) = pure h' ∧ ∃ g', Is2 h' r c (r * c) g' ∧
      OnR lo hi jt jb g' (fun i j => if i = a ∧ j = b then x else S i j) ∧ OutR lo hi jt jb g' g := by
  obtain ⟨h', e, k⟩ := set2_is2 hh (hd.cell (hd.ljt.trans a1) a2 b1 (b2.trans hd.jbh)) hd.size (fin x)
  refine ⟨h', e, _, k, ?_, ?_⟩
  · intro i j i1 i2 j1 j2
    simp only [upd2]
    split
    · rfl
    · exact hS i j i1 i2 j1 j2
  · intro i j hij
    simp only [upd2]
    rw [if_neg (by rintro ⟨rfl, rfl⟩; exact hij ⟨a1, a2, b1, b2⟩)]

theorem OutR.trans {g1 g2 : ℤ → ℤ → XR} (h1 : OutR lo hi jt jb g2 g1) (h2 : OutR lo hi jt jb g1 g) : OutR lo hi jt jb g2 g :=
  fun a b hab => (h1 a b hab).trans (h2 a b hab)

variable {q m : ℤ} {v2 v3 t : ℝ}

theorem right3_ok (hS : OnR lo hi jt jb g S) (hd : Fits5 r c lo hi jt jb) (hh : Is2 h r c (r * c) g) (hm : m ≤ hi) (q1 : lo ≤ q) (q2 : q + 2 ≤ jb) :
    ∃ h', refl3Cols jt m q (q + 1) (q + 2) (fin v2) (fin v3) (fin t) (fin t * fin v2) (fin t * fin v3) h = pure h' ∧
      ∃ g', Is2 h' r c (r * c) g' ∧ OnR lo hi jt jb g' (fun a b => if a ≤ m then houseR q v2 v3 t S a b else S a b) ∧ OutR lo hi jt jb g' g := by
  have := hd.ljt; have := hd.jbh
  obtain ⟨h', e, k⟩ := refl3Cols_ok (lo := jt) (hi := m) (r1 := q) (r2 := q + 1) (r3 := q + 2) (fin v2) (fin v3) (fin t) (fin t * fin v2) (fin t * fin v3) hh
    hd.size (by omega) (by omega) (by omega)
    (fun i i1 i2 => ⟨hd.cell (by omega) (by omega) (by omega) (by omega), hd.cell (by omega) (by omega) (by omega) (by omega),
      hd.cell (by omega) (by omega) (by omega) (by omega)⟩)
  refine ⟨h', e, _, k, ?_, ?_⟩
  · intro a b a1 a2 b1 b2
    beta_reduce
    by_cases ham : a ≤ m
    · rw [if_pos ⟨a1, ham⟩, if_pos ham]
      exact refl3_fin (hS _ _ a1 a2 (by omega) (by omega)) (hS _ _ a1 a2 (by omega) (by omega)) (hS _ _ a1 a2 (by omega) (by omega))
        (hS _ _ a1 a2 b1 b2)
    · rw [if_neg (by omega), if_neg ham]
      exact hS _ _ a1 a2 b1 b2
  · intro a b hab
    beta_reduce
    split
    · rw [refl3_ne _ (by omega) (by omega) (by omega)]
    · rfl

theorem left3_ok {c1 : ℤ} (hS : OnR lo hi jt jb g S) (hd : Fits5 r c lo hi jt jb) (hh : Is2 h r c (r * c) g) (hc1 : lo ≤ c1) (hm : m ≤ jb) (q1 : jt ≤ q)
    (q2 : q + 2 ≤ hi) :
    ∃ h', refl3Rows c1 m q (q + 1) (q + 2) (fin v2) (fin v3) (fin t) (fin t * fin v2) (fin t * fin v3) h = pure h' ∧
      ∃ g', Is2 h' r c (r * c) g' ∧ OnR lo hi jt jb g' (fun a b => if c1 ≤ b ∧ b ≤ m then houseL q v2 v3 t S a b else S a b) ∧ OutR lo hi jt jb g' g := by
  have := hd.ljt; have := hd.jbh
  obtain ⟨h', e, k⟩ := refl3Rows_ok (lo := c1) (hi := m) (r1 := q) (r2 := q + 1) (r3 := q + 2) (fin v2) (fin v3) (fin t) (fin t * fin v2) (fin t * fin v3) hh
    hd.size (by omega) (by omega) (by omega)
    (fun j j1 j2 => ⟨hd.cell (by omega) (by omega) (by omega) (by omega), hd.cell (by omega) (by omega) (by omega) (by omega),
      hd.cell (by omega) (by omega) (by omega) (by omega)⟩)
  refine ⟨h', e, _, k, ?_, ?_⟩
  · intro a b a1 a2 b1 b2
    beta_reduce
    by_cases hbm : c1 ≤ b ∧ b ≤ m
    · rw [if_pos hbm, if_pos hbm]
      exact refl3_fin (x := fun i => g i b) (y := fun i => S i b) (hS _ _ (by omega) (by omega) b1 b2) (hS _ _ (by omega) (by omega) b1 b2)
        (hS _ _ (by omega) (by omega) b1 b2) (hS _ _ a1 a2 b1 b2)
    · rw [if_neg hbm, if_neg hbm]
      exact hS _ _ a1 a2 b1 b2
  · intro a b hab
    beta_reduce
    split
    · rw [refl3_ne _ (by omega) (by omega) (by omega)]
    · rfl

theorem right2_ok (hS : OnR lo hi jt jb g S) (hd : Fits5 r c lo hi jt jb) (hh : Is2 h r c (r * c) g) (hm : m ≤ hi) (q1 : lo ≤ q) (q2 : q + 1 ≤ jb) :
    ∃ h', refl2Cols jt m q (q + 1) (fin v2) (fin t) (fin t * fin v2) h = pure h' ∧
      ∃ g', Is2 h' r c (r * c) g' ∧ OnR lo hi jt jb g' (fun a b => if a ≤ m then houseR q v2 0 t S a b else S a b) ∧ OutR lo hi jt jb g' g := by
  have := hd.ljt; have := hd.jbh
  obtain ⟨h', e, k⟩ := refl2Cols_ok (lo := jt) (hi := m) (r1 := q) (r2 := q + 1) (fin v2) (fin t) (fin t * fin v2) hh
    hd.size (by omega)
    (fun i i1 i2 => ⟨hd.cell (by omega) (by omega) (by omega) (by omega), hd.cell (by omega) (by omega) (by omega) (by omega)⟩)
  refine ⟨h', e, _, k, ?_, ?_⟩
  · intro a b a1 a2 b1 b2
    beta_reduce
    by_cases ham : a ≤ m
    · rw [if_pos ⟨a1, ham⟩, if_pos ham]
      exact refl2_fin (hS _ _ a1 a2 (by omega) (by omega)) (hS _ _ a1 a2 (by omega) (by omega)) (hS _ _ a1 a2 b1 b2)
    · rw [if_neg (by omega), if_neg ham]
      exact hS _ _ a1 a2 b1 b2
  · intro a b hab
    beta_reduce
    split
    · rw [refl2_ne _ (by omega) (by omega)]
    · rfl

theorem left2_ok {c1 : ℤ} (hS : OnR lo hi jt jb g S) (hd : Fits5 r c lo hi jt jb) (hh : Is2 h r c (r * c) g) (hc1 : lo ≤ c1) (hm : m ≤ jb) (q1 : jt ≤ q)
    (q2 : q + 1 ≤ hi) :
    ∃ h', refl2Rows c1 m q (q + 1) (fin v2) (fin t) (fin t * fin v2) h = pure h' ∧
      ∃ g', Is2 h' r c (r * c) g' ∧ OnR lo hi jt jb g' (fun a b => if c1 ≤ b ∧ b ≤ m then houseL q v2 0 t S a b else S a b) ∧ OutR lo hi jt jb g' g := by
  have := hd.ljt; have := hd.jbh
  obtain ⟨h', e, k⟩ := refl2Rows_ok (lo := c1) (hi := m) (r1 := q) (r2 := q + 1) (fin v2) (fin t) (fin t * fin v2) hh
    hd.size (by omega)
    (fun j j1 j2 => ⟨hd.cell (by omega) (by omega) (by omega) (by omega), hd.cell (by omega) (by omega) (by omega) (by omega)⟩)
  refine ⟨h', e, _, k, ?_, ?_⟩
  · intro a b a1 a2 b1 b2
    beta_reduce
    by_cases hbm : c1 ≤ b ∧ b ≤ m
    · rw [if_pos hbm, if_pos hbm]
      exact refl2_fin (x := fun i => g i b) (y := fun i => S i b) (hS _ _ (by omega) (by omega) b1 b2) (hS _ _ (by omega) (by omega) b1 b2)
        (hS _ _ a1 a2 b1 b2)
    · rw [if_neg hbm, if_neg hbm]
      exact hS _ _ a1 a2 b1 b2
  · intro a b hab
    beta_reduce
    split
    · rw [refl2_ne _ (by omega) (by omega)]
    · rfl

end

/-! ### The convergence test -/

/-- One optional term of the sum. -/
theorem opt_ok {α : Type} {cnd : Prop} [Decidable cnd] {h : FA XR} {a b : ℤ} {x y B : ℝ} {jp : XR → R α} {P : α → Prop}
    (hg : cnd → h.get2 a b = pure (fin y) ∧ |y| ≤ B) (hB : 0 ≤ B) (hx : 0 ≤ x)
    (hjp : ∀ x', 0 ≤ x' → x' ≤ x + B → Tot (jp (fin x')) P) :
    Tot (if cnd then do
        let l ← h.get2 a b
        let t ← pure (fin x + Scalar.abs l)
        jp t
      else do
        let t ← pure (fin x)
        jp t) P := by
  refine Tot.ite (fun hc => ?_) fun _ => ?_
  · obtain ⟨e, hy⟩ := hg hc
    rw [e, pure_bind, pure_bind, fin_abs, fin_add]
    exact hjp _ (by positivity) (by linarith)
  · rw [pure_bind]
    exact hjp _ hx (by linarith)

theorem negl_ok {p : Qr5P XR} {r c : Nat} {lo hi jt jb k : ℤ} {g : ℤ → ℤ → XR} {S : ℤ → ℤ → ℝ} {h : FA XR} {B u sm : ℝ}
    (hS : OnR lo hi jt jb g S) (hd : Fits5 r c lo hi jt jb) (hh : Is2 h r c (r * c) g) (hu : p.ulp = fin u) (hu0 : 0 ≤ u) (hsm : p.smlnum = fin sm)
    (hsm0 : 0 ≤ sm) (hB0 : 0 ≤ B) (hlo : lo ≤ p.ktop) (hhi : p.kbot ≤ hi) (k1 : p.ktop ≤ k) (k2 : k + 2 ≤ p.kbot)
    (hjt : jt ≤ k) (hjb : k + 1 ≤ jb)
    (hB : ∀ a b, p.ktop ≤ a → a ≤ p.kbot → p.ktop ≤ b → b ≤ k + 1 → |S a b| ≤ B) :
    Tot (qr5Negligible p k h) fun h' => ∃ cut : Bool, (cut = true → |S (k + 1) k| ≤ 6 * u * B + sm) ∧
      ∃ g', Is2 h' r c (r * c) g' ∧ OnR lo hi jt jb g' (fun a b => if cut = true ∧ a = k + 1 ∧ b = k then 0 else S a b) ∧ OutR lo hi jt jb g' g := by
  have get : ∀ a b, k ≤ a → a ≤ p.kbot → p.ktop ≤ b → b ≤ k + 1 → h.get2 a b = pure (fin (S a b)) := fun a b a1 a2 b1 b2 =>
    hS.get hd hh (by omega) (by omega) (by omega) (by omega)
  have keep : Tot (pure h : R (FA XR)) fun h' => ∃ cut : Bool, (cut = true → |S (k + 1) k| ≤ 6 * u * B + sm) ∧
      ∃ g', Is2 h' r c (r * c) g' ∧ OnR lo hi jt jb g' (fun a b => if cut = true ∧ a = k + 1 ∧ b = k then 0 else S a b) ∧ OutR lo hi jt jb g' g := by
    refine Tot.pure ⟨false, fun h => by simp at h, g, hh, ?_, fun _ _ _ => rfl⟩
    intro a b a1 a2 b1 b2
    beta_reduce
    rw [if_neg (by simp)]
    exact hS a b a1 a2 b1 b2
  unfold qr5Negligible
  dsimp only
  rw [get (k + 1) k (by omega) (by omega) (by omega) (by omega), pure_bind]
  refine Tot.ite (fun _ => ?_) fun _ => keep
  rw [get k k (by omega) (by omega) (by omega) (by omega), pure_bind, get (k + 1) (k + 1) (by omega) (by omega) (by omega) (by omega), pure_bind]
  simp only [fin_abs, fin_add]
  have last : ∀ (cond : XR → Bool) (t : ℝ), 0 ≤ t → t ≤ 6 * B → Tot (if (fin |S (k + 1) k| ≤ᶠ Scalar.fmax p.smlnum (p.ulp * fin t)) = true then do
        let hkk1 ← h.get2 k (k + 1)
        if cond hkk1 = true then
          h.set2 (k + 1) k Scalar.zero
        else pure h
      else pure h) fun h' => ∃ cut : Bool, (cut = true → |S (k + 1) k| ≤ 6 * u * B + sm) ∧
      ∃ g', Is2 h' r c (r * c) g' ∧ OnR lo hi jt jb g' (fun a b => if cut = true ∧ a = k + 1 ∧ b = k then 0 else S a b) ∧ OutR lo hi jt jb g' g := by
    intro cond t t0 t1
    refine Tot.ite (fun hle => ?_) fun _ => keep
    have hgk : h.get2 k (k + 1) = pure (fin (S k (k + 1))) := get k (k + 1) (by omega) (by omega) (by omega) (by omega)
    rw [hgk, pure_bind]
    refine Tot.ite (fun _ => ?_) fun _ => keep
    rw [zero_eq]
    obtain ⟨h', e, g', k1', k2', k3'⟩ := set_ok hS hd hh (a := k + 1) (b := k) (by omega) (by omega) (by omega) (by omega) 0
    refine Tot.of_eq e ⟨true, fun _ => ?_, g', k1', ?_, k3'⟩
    · rw [hu, hsm] at hle
      simp only [fin_mul, fin_fmax, fin_le, decide_eq_true_eq] at hle
      have : u * t ≤ u * (6 * B) := mul_le_mul_of_nonneg_left t1 hu0
      have h1 : 0 ≤ u * t := mul_nonneg hu0 t0
      rcases le_max_iff.1 hle with hh | hh
      · have : 0 ≤ 6 * u * B := by positivity
        linarith
      · linarith
    · intro a b a1 a2 b1 b2
      rw [k2' a b a1 a2 b1 b2]
      simp
  have nn : 0 ≤ |S k k| + |S (k + 1) (k + 1)| := by positivity
  refine Tot.ite (fun h0 => ?_) fun h0 => ?_
  · have e0 : |S k k| + |S (k + 1) (k + 1)| = 0 := by simpa using h0
    rw [e0]
    refine opt_ok (fun hc => ⟨get _ _ (by omega) (by omega) (by omega) (by omega), hB _ _ (by omega) (by omega) (by omega) (by omega)⟩) hB0 (le_refl _)
      fun x1 p1 q1 => ?_
    refine opt_ok (fun hc => ⟨get _ _ (by omega) (by omega) (by omega) (by omega), hB _ _ (by omega) (by omega) (by omega) (by omega)⟩) hB0 p1
      fun x2 p2 q2 => ?_
    refine opt_ok (fun hc => ⟨get _ _ (by omega) (by omega) (by omega) (by omega), hB _ _ (by omega) (by omega) (by omega) (by omega)⟩) hB0 p2
      fun x3 p3 q3 => ?_
    refine opt_ok (fun hc => ⟨get _ _ (by omega) (by omega) (by omega) (by omega), hB _ _ (by omega) (by omega) (by omega) (by omega)⟩) hB0 p3
      fun x4 p4 q4 => ?_
    refine opt_ok (fun hc => ⟨get _ _ (by omega) (by omega) (by omega) (by omega), hB _ _ (by omega) (by omega) (by omega) (by omega)⟩) hB0 p4
      fun x5 p5 q5 => ?_
    refine opt_ok (fun hc => ⟨get _ _ (by omega) (by omega) (by omega) (by omega), hB _ _ (by omega) (by omega) (by omega) (by omega)⟩) hB0 p5
      fun x6 p6 q6 => ?_
    exact last _ x6 p6 (by linarith)
  · rw [pure_bind]
    have b1 := hB k k (by omega) (by omega) (by omega) (by omega)
    have b2 := hB (k + 1) (k + 1) (by omega) (by omega) (by omega) (by omega)
    exact last _ _ nn (by linarith)

end Verif

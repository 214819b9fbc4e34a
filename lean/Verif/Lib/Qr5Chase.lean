import Verif.Lib.Qr5Start

/-!
# The single-bulge chase of `dlaqr5` in exact arithmetic
-/

namespace Verif
open Scalar Spec XR

/-- The fixed arguments of a chase with one bulge. -/
structure Dim5 (p : Qr5P XR) (r c ldv : Nat) (lo hi jt jb : ℤ) (u sm B : ℝ) : Prop where
  fits : Fits5 r c lo hi jt jb
  nb : p.nbmps = 1
  lok : lo ≤ p.ktop
  hik : p.kbot ≤ hi
  lt : p.ktop < p.kbot
  ldh : p.ldh = r
  lv : p.ldv = ldv
  ulp : p.ulp = fin u
  u0 : 0 ≤ u
  sml : p.smlnum = fin sm
  sm0 : 0 ≤ sm
  B0 : 0 ≤ B
  B2 : B ≤ 2 ^ 490

theorem Maps.nz {a b c beta v2 v3 t : ℝ} (h : Maps a b c beta v2 v3 t) (hc : c ≠ 0) : v3 ≠ 0 ∧ t ≠ 0 := by
  have := h.c
  refine ⟨?_, ?_⟩ <;> rintro rfl <;> simp at this <;> exact hc this

/-- What is known of the arrays before step `k`, when `T` is the matrix reached: the entries of row `k + 3` in columns
`k..k + 2` have not been updated by the previous reflector `t`, `v2`, `v3` yet. -/
structure Arr (r c ldv cv : Nat) (rest : List ℝ) (lo hi jt jb kt kb k : ℤ) (g0 : ℤ → ℤ → XR) (h v : FA XR) (T : ℤ → ℤ → ℝ) (g : ℤ → ℤ → XR)
    (t v2 v3 : ℝ) : Prop where
  hm : Is2 h r c (r * c) g
  vm : V5 ldv cv rest v t v2 v3
  on : ∀ a b, jt ≤ a → a ≤ hi → lo ≤ b → b ≤ jb → ¬ (kt ≤ k ∧ k + 3 ≤ kb ∧ a = k + 3 ∧ k ≤ b ∧ b ≤ k + 2) → g a b = fin (T a b)
  out : OutR lo hi jt jb g g0
  late : kt ≤ k → k + 3 ≤ kb → ∃ x, x ≠ 0 ∧ v3 ≠ 0 ∧ t ≠ 0 ∧ g (k + 3) (k + 2) = fin x ∧ T (k + 3) k = -(v3 * x) * t ∧
    T (k + 3) (k + 1) = -(v3 * x) * (t * v2) ∧ T (k + 3) (k + 2) = x - v3 * x * (t * v3)

section
variable {p : Qr5P XR} {r c ldv cv : Nat} {rest : List ℝ} {lo hi jt jb k : ℤ} {g0 g : ℤ → ℤ → XR} {T : ℤ → ℤ → ℝ} {t v2 v3 u sm B : ℝ} {s : Qr5S XR}

theorem OnR.store3 {h : FA XR} (hS : OnR lo hi jt jb g T) (hd : Fits5 r c lo hi jt jb) (hh : Is2 h r c (r * c) g) {kt : ℤ} (k1 : lo ≤ kt) (k2 : kt ≤ k)
    (k3 : k + 3 ≤ hi) (j1 : jt ≤ k) (j2 : k + 2 ≤ jb) (beta : ℝ) : ∃ h1 h2 h3, h.set2 (k + 1) k (fin beta) = pure h1 ∧ h1.set2 (k + 2) k (fin 0) = pure h2 ∧
      h2.set2 (k + 3) k (fin 0) = pure h3 ∧ ∃ g', Is2 h3 r c (r * c) g' ∧ OnR lo hi jt jb g' (storeT kt k beta T) ∧ OutR lo hi jt jb g' g := by
  obtain ⟨h1, e1, g1, i1, o1, u1⟩ := set_ok hS hd hh (a := k + 1) (b := k) (by omega) (by omega) (by omega) (by omega) beta
  obtain ⟨h2, e2, g2, i2, o2, u2⟩ := set_ok o1 hd i1 (a := k + 2) (b := k) (by omega) (by omega) (by omega) (by omega) 0
  obtain ⟨h3, e3, g3, i3, o3, u3⟩ := set_ok o2 hd i2 (a := k + 3) (b := k) (by omega) (by omega) (by omega) (by omega) 0
  refine ⟨h1, h2, h3, e1, e2, e3, g3, i3, ?_, u3.trans (u2.trans u1)⟩
  intro a b a1 a2 b1 b2
  rw [o3 a b a1 a2 b1 b2]
  congr 1
  unfold storeT
  by_cases hb : b = k
  · subst hb
    simp only [k2, and_true, true_and, if_true]
    split_ifs <;> first | rfl | omega
  · simp only [hb, and_false, if_false]

theorem OnR.store2 {h : FA XR} (hS : OnR lo hi jt jb g T) (hd : Fits5 r c lo hi jt jb) (hh : Is2 h r c (r * c) g) {kt kb : ℤ} (k1 : lo ≤ kt) (k2 : kt ≤ k)
    (k3 : k + 2 = kb) (hkb : kb ≤ hi) (j1 : jt ≤ k) (j2 : k + 2 ≤ jb) (hs : Shape lo hi kt kb k T) (beta : ℝ) :
    ∃ h1 h2, h.set2 (k + 1) k (fin beta) = pure h1 ∧ h1.set2 (k + 2) k (fin 0) = pure h2 ∧
      ∃ g', Is2 h2 r c (r * c) g' ∧ OnR lo hi jt jb g' (storeT kt k beta T) ∧ OutR lo hi jt jb g' g := by
  obtain ⟨h1, e1, g1, i1, o1, u1⟩ := set_ok hS hd hh (a := k + 1) (b := k) (by omega) (by omega) (by omega) (by omega) beta
  obtain ⟨h2, e2, g2, i2, o2, u2⟩ := set_ok o1 hd i1 (a := k + 2) (b := k) (by omega) (by omega) (by omega) (by omega) 0
  refine ⟨h1, h2, e1, e2, g2, i2, ?_, u2.trans u1⟩
  intro a b a1 a2 b1 b2
  rw [o2 a b a1 a2 b1 b2]
  congr 1
  unfold storeT
  by_cases hb : b = k
  · subst hb
    simp only [k2, and_true, true_and, if_true]
    by_cases a3 : a = b + 3
    · subst a3
      rw [if_neg (by omega), if_neg (by omega), if_neg (by omega), if_pos (by omega)]
      exact hs.below (by omega) a2 b1 (by omega)
    · split_ifs <;> first | rfl | omega
  · simp only [hb, and_false, if_false]

/-- The row left over by the previous step is completed. -/
theorem Arr.row {kt kb : ℤ} {h v : FA XR} (ha : Arr r c ldv cv rest lo hi jt jb kt kb k g0 h v T g t v2 v3) (hd : Fits5 r c lo hi jt jb) (h1 : lo ≤ kt) (h2 : kb ≤ hi)
    (k1 : kt ≤ k) (k3 : k + 3 ≤ kb) (j1 : jt ≤ k) (j2 : k + 2 ≤ jb) : ∃ x h1 h2 h3, h.get2 (k + 3) (k + 2) = pure (fin x) ∧
      h.set2 (k + 3) k (-(fin v3 * fin x) * fin t) = pure h1 ∧ h1.set2 (k + 3) (k + 1) (-(fin v3 * fin x) * (fin t * fin v2)) = pure h2 ∧
      h2.modify2 (k + 3) (k + 2) (· - fin v3 * fin x * (fin t * fin v3)) = pure h3 ∧ T (k + 3) k ≠ 0 ∧
      ∃ g', Is2 h3 r c (r * c) g' ∧ OnR lo hi jt jb g' T ∧ OutR lo hi jt jb g' g := by
  have := hd.jbh
  obtain ⟨x, x0, n3, nt, gx, t1, t2, t3⟩ := ha.late k1 k3
  have cl : ∀ b, k ≤ b → b ≤ k + 2 → Cell r (r * c) (k + 3) b := fun b b1 b2 => hd.cell (by omega) (by omega) (by omega) (by omega)
  obtain ⟨h1, e1, i1⟩ := set2_is2 ha.hm (cl k (by omega) (by omega)) hd.size (-(fin v3 * fin x) * fin t)
  obtain ⟨h2, e2, i2⟩ := set2_is2 i1 (cl (k + 1) (by omega) (by omega)) hd.size (-(fin v3 * fin x) * (fin t * fin v2))
  obtain ⟨h3, e3, i3⟩ := modify2_is2 i2 (cl (k + 2) (by omega) (by omega)) hd.size (· - fin v3 * fin x * (fin t * fin v3))
  refine ⟨x, h1, h2, h3, ?_, e1, e2, e3, ?_, _, i3, ?_, ?_⟩
  · rw [get2_is2 ha.hm (cl (k + 2) (by omega) (by omega)) hd.size, gx]
  · rw [t1]
    exact mul_ne_zero (neg_ne_zero.2 (mul_ne_zero n3 x0)) nt
  · intro a b a1 a2 b1 b2
    simp only [upd2]
    by_cases c2 : a = k + 3 ∧ b = k + 2
    · obtain ⟨rfl, rfl⟩ := c2
      rw [if_pos ⟨rfl, rfl⟩, if_neg (by omega), if_neg (by omega), gx, t3]
      simp only [fin_mul, fin_sub]
    · rw [if_neg c2]
      by_cases c1 : a = k + 3 ∧ b = k + 1
      · obtain ⟨rfl, rfl⟩ := c1
        rw [if_pos ⟨rfl, rfl⟩, t2]
        simp only [fin_mul, fin_neg]
      · rw [if_neg c1]
        by_cases c0 : a = k + 3 ∧ b = k
        · obtain ⟨rfl, rfl⟩ := c0
          rw [if_pos ⟨rfl, rfl⟩, t1]
          simp only [fin_mul, fin_neg]
        · rw [if_neg c0]
          exact ha.on a b a1 a2 b1 b2 (by omega)
  · intro a b hab
    simp only [upd2]
    rw [if_neg (by omega), if_neg (by omega), if_neg (by omega)]

/-- The three-element reflector of a later step. -/
theorem refl3_chase (hd : Dim5 p r c ldv lo hi jt jb u sm B) (ha : Arr r c ldv cv rest lo hi jt jb p.ktop p.kbot k g0 s.h s.v T g t v2 v3)
    (hB : ∀ a b, lo ≤ a → a ≤ hi → lo ≤ b → b ≤ hi → |T a b| ≤ B) (k1 : p.ktop ≤ k) (k3 : k + 3 ≤ p.kbot)
    (j1 : jt ≤ k) (j2 : k + 2 ≤ jb) :
    ∃ beta v2' v3' t' h' v', qr5Refl3 p k 1 s = pure (h', v', s.vt) ∧ Maps (T (k + 1) k) (T (k + 2) k) (T (k + 3) k) beta v2' v3' t' ∧
      T (k + 3) k ≠ 0 ∧ V5 ldv cv rest v' t' v2' v3' ∧
      ∃ g', Is2 h' r c (r * c) g' ∧ OnR lo hi jt jb g' (storeT p.ktop k beta T) ∧ OutR lo hi jt jb g' g0 := by
  have l1 := hd.lok; have l2 := hd.hik
  obtain ⟨x, h1, h2, h3, q0, q1, q2, q3, tn, g1, i1, o1, u1⟩ := ha.row hd.fits l1 l2 k1 k3 j1 j2
  obtain ⟨va, ea, ka⟩ := ha.vm.set2 (T (k + 2) k)
  obtain ⟨vb, eb, kb⟩ := ka.set3 (T (k + 3) k)
  have hB' : ∀ a b, lo ≤ a → a ≤ hi → lo ≤ b → b ≤ hi → |T a b| ≤ 2 ^ 500 := fun a b a1 a2 b1 b2 => by
    have h1 := hB a b a1 a2 b1 b2
    have h2 := hd.B2
    have h3 := two_pow_491
    have h4 : (0 : ℝ) ≤ 2 ^ 490 := by positivity
    generalize (2 : ℝ) ^ 490 = P at *
    generalize (2 : ℝ) ^ 500 = P' at *
    linarith
  obtain ⟨beta, v2', v3', t', v', e3, hm, k5⟩ := larfg5_three kb (hB' (k + 1) k (by omega) (by omega) (by omega) (by omega))
    (hB' (k + 2) k (by omega) (by omega) (by omega) (by omega)) (hB' (k + 3) k (by omega) (by omega) (by omega) (by omega))
  obtain ⟨ha1, ha2, ha3, s1, s2, s3, g2, i2, o2, u2⟩ := o1.store3 hd.fits i1 l1 k1 (by omega) j1 j2 beta
  refine ⟨beta, v2', v3', t', ha3, v', ?_, hm, tn, k5, g2, i2, o2, (u2.trans u1).trans ha.out⟩
  have gt : ∀ a b, jt ≤ a → a ≤ hi → lo ≤ b → b ≤ jb → h3.get2 a b = pure (fin (T a b)) := fun a b a1 a2 b1 b2 => o1.get hd.fits i1 a1 a2 b1 b2
  unfold qr5Refl3
  rw [if_neg (by omega)]
  obtain ⟨w1, w2, w3⟩ := ha.vm.get
  simp only [w1, w2, w3, pure_bind, q0, q1, q2, q3]
  rw [gt (k + 1) k (by omega) (by omega) (by omega) (by omega), gt (k + 2) k (by omega) (by omega) (by omega) (by omega),
    gt (k + 3) k (by omega) (by omega) (by omega) (by omega), gt (k + 3) (k + 1) (by omega) (by omega) (by omega) (by omega),
    gt (k + 3) (k + 2) (by omega) (by omega) (by omega) (by omega)]
  simp only [pure_bind, ea, eb, hd.lv, e3]
  rw [if_pos (by simp [zero_eq, tn])]
  simp only [zero_eq, s1, s2, s3, pure_bind]

/-- The two-element reflector of the last step. -/
theorem refl2_chase (hd : Dim5 p r c ldv lo hi jt jb u sm B) (ha : Arr r c ldv cv rest lo hi jt jb p.ktop p.kbot k g0 s.h s.v T g t v2 v3)
    (hs : Shape lo hi p.ktop p.kbot k T) (hB : ∀ a b, lo ≤ a → a ≤ hi → lo ≤ b → b ≤ hi → |T a b| ≤ B) (k1 : p.ktop ≤ k) (k3 : k + 2 = p.kbot)
    (j1 : jt ≤ k) (j2 : k + 2 ≤ jb) :
    ∃ beta v2' t' h' v', qr5Bmp22Refl p k 1 s = pure (h', v') ∧ Maps (T (k + 1) k) (T (k + 2) k) 0 beta v2' 0 t' ∧
      V5 ldv cv rest v' t' v2' v3 ∧ ∃ g', Is2 h' r c (r * c) g' ∧ OnR lo hi jt jb g' (storeT p.ktop k beta T) ∧ OutR lo hi jt jb g' g0 := by
  have l1 := hd.lok; have l2 := hd.hik
  have o1 : OnR lo hi jt jb g T := fun a b a1 a2 b1 b2 => ha.on a b a1 a2 b1 b2 (by omega)
  obtain ⟨va, ea, ka⟩ := ha.vm.set2 (T (k + 2) k)
  have hB' : ∀ a b, lo ≤ a → a ≤ hi → lo ≤ b → b ≤ hi → |T a b| ≤ 2 ^ 500 := fun a b a1 a2 b1 b2 => by
    have h1 := hB a b a1 a2 b1 b2
    have h2 := hd.B2
    have h3 := two_pow_491
    have h4 : (0 : ℝ) ≤ 2 ^ 490 := by positivity
    generalize (2 : ℝ) ^ 490 = P at *
    generalize (2 : ℝ) ^ 500 = P' at *
    linarith
  obtain ⟨beta, v2', t', v', e3, hm, k5⟩ := larfg5_two ka (hB' (k + 1) k (by omega) (by omega) (by omega) (by omega))
    (hB' (k + 2) k (by omega) (by omega) (by omega) (by omega))
  obtain ⟨ha1, ha2, s1, s2, g2, i2, o2, u2⟩ := o1.store2 hd.fits ha.hm l1 k1 k3 l2 j1 j2 hs beta
  refine ⟨beta, v2', t', ha2, v', ?_, hm, k5, g2, i2, o2, u2.trans ha.out⟩
  unfold qr5Bmp22Refl
  rw [if_neg (by omega)]
  rw [o1.get hd.fits ha.hm (a := k + 1) (b := k) (by omega) (by omega) (by omega) (by omega),
    o1.get hd.fits ha.hm (a := k + 2) (b := k) (by omega) (by omega) (by omega) (by omega)]
  simp only [pure_bind, ea, hd.lv, e3, zero_eq, s1, s2]

end

/-! ### One step on the real matrices -/

/-- The matrix `T` and the orthogonal matrix `Zq` before step `k`; `X` is the column the first column of `Zq` is a multiple of. -/
structure Real5 (lo hi kt kb : ℤ) (H : ℤ → ℤ → ℝ) (B ε : ℝ) (X : ℤ → ℝ) (k : ℤ) (T Zq : ℤ → ℤ → ℝ) : Prop where
  shape : Shape lo hi kt kb k T
  track : Track lo hi (block lo hi H) idT B ((k - kt + 1 : ℤ) * ε) T Zq
  sub : ∀ j, k + 3 ≤ j → j < kb → T (j + 1) j ≠ 0
  out : ∀ a b, (a < kt ∨ kb < a) ∨ (b < kt ∨ kb < b) → Zq a b = idT a b
  first : kt ≤ k → ∃ γ, ∀ a, γ * Zq a kt = X a
  init : k = kt - 1 → T = H ∧ Zq = idT

/-- The matrix after step `k`, with the subdiagonal element set to zero if `cut`. -/
def nextT (k : ℤ) (v2 v3 t : ℝ) (cut : Bool) (T : ℤ → ℤ → ℝ) (a b : ℤ) : ℝ :=
  if cut = true ∧ a = k + 1 ∧ b = k then 0 else bulgeT k v2 v3 t T a b

section
variable {lo hi jt jb kt kb k : ℤ} {H T Zq : ℤ → ℤ → ℝ} {B ε : ℝ} {X : ℤ → ℝ} {v2 v3 t beta : ℝ} {cut : Bool}

theorem Real5.bulge (h : Real5 lo hi kt kb H B ε X k T Zq) (hw : InBlk lo hi kt kb k v3) (hr : Refl v2 v3 t) :
    Track lo hi (block lo hi H) idT B ((k - kt + 1 : ℤ) * ε) (bulgeT k v2 v3 t T) (houseR (k + 1) v2 v3 t Zq) :=
  h.track.house hw.inside hr

theorem Real5.step (h : Real5 lo hi kt kb H B ε X k T Zq) (hw : InBlk lo hi kt kb k v3) (hr : Refl v2 v3 t) (hε : 0 ≤ ε)
    (hcol : kt ≤ k → bulgeT k v2 v3 t T (k + 2) k = 0 ∧ (k + 3 ≤ kb → bulgeT k v2 v3 t T (k + 3) k = 0))
    (hcut : cut = true → kt ≤ k ∧ |bulgeT k v2 v3 t T (k + 1) k| ≤ ε)
    (hfirst : k = kt - 1 → ∃ γ, ∀ a, γ * houseR (k + 1) v2 v3 t Zq a kt = X a) :
    Real5 lo hi kt kb H B ε X (k + 1) (nextT k v2 v3 t cut T) (houseR (k + 1) v2 v3 t Zq) := by
  obtain ⟨w1, w2, w3, w4⟩ := id hw
  refine ⟨h.shape.step hw hcol ?_, ?_, ?_, outside_step hw h.out, ?_, fun e => by omega⟩
  · intro a b a1 a2 b1 b2
    unfold nextT
    split
    · next e => exact Or.inr ⟨rfl, e.2.1, e.2.2, (hcut e.1).1⟩
    · exact Or.inl rfl
  · have hb := h.bulge hw hr
    have hle : ((k - kt + 1 : ℤ) : ℝ) * ε ≤ ((k + 1 - kt + 1 : ℤ) : ℝ) * ε := mul_le_mul_of_nonneg_right (by push_cast; linarith) hε
    cases cut with
    | false =>
      refine (hb.congr (T' := nextT k v2 v3 t false T) fun a b _ _ _ _ => ?_).mono hle
      unfold nextT
      rw [if_neg (by simp)]
    | true =>
      obtain ⟨c1, c2⟩ := hcut rfl
      refine ((hb.cut (k + 1) k (by omega) hε c2).congr (T' := nextT k v2 v3 t true T) fun a b _ _ _ _ => ?_).mono (le_of_eq ?_)
      · unfold nextT
        simp
      · push_cast; ring
  · intro j j1 j2
    unfold nextT
    rw [if_neg (by omega), bulgeT_sub h.shape hw (by omega) j2]
    exact h.sub j (by omega) j2
  · intro hk
    by_cases hk' : k = kt - 1
    · exact hfirst hk'
    · obtain ⟨γ, hγ⟩ := h.first (by omega)
      refine ⟨γ, fun a => ?_⟩
      rw [← hγ a]
      unfold houseR
      rw [house_ne _ (by omega) (by omega) (Or.inl (by omega))]

/-- The arrays after step `k`. -/
theorem Real5.arr {r c ldv cv : Nat} {rest : List ℝ} {g0 g' : ℤ → ℤ → XR} {h' v' : FA XR} {v3s : ℝ}
    (h : Real5 lo hi kt kb H B ε X k T Zq) (hw : InBlk lo hi kt kb k v3) (hjt : lo ≤ jt) (hjb : jb ≤ hi) (j1 : jt ≤ k + 1)
    (j2 : k + 3 ≤ kb → k + 3 ≤ jb)
    (hcol : kt ≤ k → bulgeT k v2 v3 t T (k + 1) k = beta ∧ bulgeT k v2 v3 t T (k + 2) k = 0 ∧
      (k + 3 ≤ kb → bulgeT k v2 v3 t T (k + 3) k = 0))
    (hm : Is2 h' r c (r * c) g') (hv : V5 ldv cv rest v' t v2 v3s) (hv3 : k + 3 ≤ kb → v3s = v3 ∧ v3 ≠ 0 ∧ t ≠ 0)
    (hon : OnR lo hi jt jb g' (fun a b => if cut = true ∧ a = k + 1 ∧ b = k then 0 else
      leftT jb k v2 v3 t (rightT kb k v2 v3 t (storeT kt k beta T)) a b)) (ho : OutR lo hi jt jb g' g0) :
    Arr r c ldv cv rest lo hi jt jb kt kb (k + 1) g0 h' v' (nextT k v2 v3 t cut T) g' t v2 v3s := by
  obtain ⟨w1, w2, w3, w4⟩ := id hw
  have e : ∀ a b, jt ≤ a → a ≤ hi → lo ≤ b → b ≤ jb → g' a b = fin (if a = k + 4 ∧ a ≤ kb then T a b else nextT k v2 v3 t cut T a b) := by
    intro a b a1 a2 b1 b2
    rw [hon a b a1 a2 b1 b2]
    congr 1
    beta_reduce
    rw [code_eq h.shape hw hcol (hjt.trans a1) a2 b1 b2]
    unfold nextT
    by_cases hc : cut = true ∧ a = k + 1 ∧ b = k
    · rw [if_pos hc, if_neg (by omega), if_pos hc]
    · rw [if_neg hc, if_neg hc]
  refine ⟨hm, hv, ?_, ho, ?_⟩
  · intro a b a1 a2 b1 b2 hn
    rw [e a b a1 a2 b1 b2]
    by_cases ha : a = k + 4 ∧ a ≤ kb
    · rw [if_pos ha]
      obtain ⟨rfl, ha⟩ := ha
      congr 1
      unfold nextT
      rw [if_neg (by omega)]
      exact ((bulgeT_row4 h.shape hw ha).2.2.2 b (by omega)).symm
    · rw [if_neg ha]
  · intro k1 k3
    obtain ⟨r1, r2, r3, -⟩ := bulgeT_row4 h.shape hw (v2 := v2) (t := t) (show k + 4 ≤ kb by omega)
    obtain ⟨q1, q2, q3⟩ := hv3 (by omega)
    subst q1
    refine ⟨T (k + 4) (k + 3), ?_, q2, q3, ?_, ?_, ?_, ?_⟩
    · have := h.sub (k + 3) (by omega) (by omega)
      rwa [show k + 3 + 1 = k + 4 by ring] at this
    · rw [e _ _ (by omega) (by omega) (by omega) (by omega), if_pos (by omega), show k + 1 + 3 = k + 4 by ring, show k + 1 + 2 = k + 3 by ring]
    · unfold nextT
      rw [if_neg (by omega), show k + 1 + 3 = k + 4 by ring, r1]
    · unfold nextT
      rw [if_neg (by omega), show k + 1 + 3 = k + 4 by ring, show k + 1 + 1 = k + 2 by ring, r2]
    · unfold nextT
      rw [if_neg (by omega), show k + 1 + 3 = k + 4 by ring, show k + 1 + 2 = k + 3 by ring, r3]

end

/-! ### One step on the arrays -/

/-- Step `k` with the reflector `v2`, `v3`, `t` (`v3s` is what is left in the third place of `v`) leads from `s`, described by `T` and `Zq`,
to `s'`. -/
def Step5 (p : Qr5P XR) (r c ldv cv : Nat) (rest : List ℝ) (lo hi jt jb : ℤ) (H : ℤ → ℤ → ℝ) (B ε : ℝ) (X : ℤ → ℝ) (g0 : ℤ → ℤ → XR)
    (k : ℤ) (T Zq : ℤ → ℤ → ℝ) (v2 v3 t v3s : ℝ) (s s' : Qr5S XR) : Prop :=
  InBlk lo hi p.ktop p.kbot k v3 ∧ (k + 3 ≤ p.kbot → v3s = v3) ∧ s' = { s with h := s'.h, v := s'.v } ∧ ∃ cut g',
    (cut = true → p.ktop ≤ k) ∧ Arr r c ldv cv rest lo hi jt jb p.ktop p.kbot (k + 1) g0 s'.h s'.v (nextT k v2 v3 t cut T) g' t v2 v3s ∧
    Real5 lo hi p.ktop p.kbot H B ε X (k + 1) (nextT k v2 v3 t cut T) (houseR (k + 1) v2 v3 t Zq)

section
variable {p : Qr5P XR} {r c ldv cv : Nat} {rest : List ℝ} {lo hi jt jb k : ℤ} {g0 g : ℤ → ℤ → XR} {H T Zq : ℤ → ℤ → ℝ} {t v2 v3 u sm B ε beta : ℝ}
  {s : Qr5S XR} {X : ℤ → ℝ}

/-- The updates after a three-element reflector has been built. -/
theorem after3 (hd : Dim5 p r c ldv lo hi jt jb u sm B) (hε : 6 * u * B + sm ≤ ε) (hR : Real5 lo hi p.ktop p.kbot H B ε X k T Zq) {h1 v1 : FA XR} (hm : Is2 h1 r c (r * c) g) (ho : OutR lo hi jt jb g g0) (hon : OnR lo hi jt jb g (storeT p.ktop k beta T))
    (hv : V5 ldv cv rest v1 t v2 v3) (k1 : p.ktop - 1 ≤ k) (k3 : k + 3 ≤ p.kbot) (j1 : jt ≤ max p.ktop k) (j2 : k + 3 ≤ jb) (hr : Refl v2 v3 t) (hnz : v3 ≠ 0 ∧ t ≠ 0)
    (hcol : p.ktop ≤ k → bulgeT k v2 v3 t T (k + 1) k = beta ∧ bulgeT k v2 v3 t T (k + 2) k = 0 ∧
      (k + 3 ≤ p.kbot → bulgeT k v2 v3 t T (k + 3) k = 0))
    (hfirst : k = p.ktop - 1 → ∃ γ, ∀ a, γ * houseR (k + 1) v2 v3 t Zq a p.ktop = X a) :
    Tot (do
      let s1 ← (do
        let t1 ← v1.get2 1 1
        let v2 ← v1.get2 2 1
        let v3 ← v1.get2 3 1
        let t2 := t1 * v2
        let t3 := t1 * v3
        let h ← refl3Cols jt (min p.kbot (k + 3)) (k + 1) (k + 2) (k + 3) v2 v3 t1 t2 t3 h1
        let h ← refl3Rows (k + 1) (k + 1) (k + 1) (k + 2) (k + 3) v2 v3 t1 t2 t3 h
        let h ← if k < p.ktop then pure h else qr5Negligible p k h
        pure { s with h := h, v := v1, vt := s.vt })
      qr5Left p k jb s1 1) (Step5 p r c ldv cv rest lo hi jt jb H B ε X g0 k T Zq v2 v3 t v3 s) := by
  have l1 := hd.lok; have l2 := hd.hik; have l3 := hd.fits.ljt; have l4 := hd.fits.jbh
  have hw : InBlk lo hi p.ktop p.kbot k v3 := ⟨l1, l2, k1, Or.inl k3⟩
  have hε0 : 0 ≤ ε := by
    have := hd.u0; have := hd.sm0; have := hd.B0
    have : 0 ≤ 6 * u * B := by positivity
    linarith
  obtain ⟨w1, w2, w3⟩ := hv.get
  obtain ⟨h2, e2, g2, i2, o2, u2⟩ := right3_ok (v2 := v2) (v3 := v3) (t := t) (q := k + 1) (m := min p.kbot (k + 3)) hon hd.fits hm (by omega) (by omega) (by omega)
  have o2' : OnR lo hi jt jb g2 (rightT p.kbot k v2 v3 t (storeT p.ktop k beta T)) := o2
  obtain ⟨h3, e3, g3, i3, o3, u3⟩ := left3_ok (v2 := v2) (v3 := v3) (t := t) (q := k + 1) (c1 := k + 1) (m := k + 1) o2' hd.fits i2 (by omega) (by omega)
    (by omega) (by omega)
  have o3' : OnR lo hi jt jb g3 (leftT (k + 1) k v2 v3 t (rightT p.kbot k v2 v3 t (storeT p.ktop k beta T))) := o3
  rw [show k + 1 + 1 = k + 2 by ring, show k + 1 + 2 = k + 3 by ring] at e2 e3
  have hb := hR.bulge hw hr
  have neg : Tot (if k < p.ktop then pure h3 else qr5Negligible p k h3) fun h' => ∃ cut : Bool,
      (cut = true → p.ktop ≤ k ∧ |bulgeT k v2 v3 t T (k + 1) k| ≤ ε) ∧
      ∃ g', Is2 h' r c (r * c) g' ∧ OnR lo hi jt jb g' (fun a b => if cut = true ∧ a = k + 1 ∧ b = k then 0 else
        leftT (k + 1) k v2 v3 t (rightT p.kbot k v2 v3 t (storeT p.ktop k beta T)) a b) ∧ OutR lo hi jt jb g' g3 := by
    refine Tot.ite (fun hk => ?_) fun hk => ?_
    · refine Tot.pure ⟨false, by simp, g3, i3, ?_, fun _ _ _ => rfl⟩
      simpa using o3'
    · refine (negl_ok o3' hd.fits i3 hd.ulp hd.u0 hd.sml hd.sm0 hd.B0 l1 l2 (by omega) (by omega) (by omega) (by omega) ?_).mono ?_
      · intro a b a1 a2 b1 b2
        rw [code_eq hR.shape hw hcol (by omega) (by omega) (by omega) b2]
        split
        · exact hR.track.entry ⟨by omega, by omega⟩ ⟨by omega, by omega⟩
        · exact hb.entry ⟨by omega, by omega⟩ ⟨by omega, by omega⟩
      · rintro h' ⟨cut, q1, q2⟩
        refine ⟨cut, fun hc => ⟨by omega, ?_⟩, q2⟩
        have := q1 hc
        rw [code_eq hR.shape hw hcol (by omega) (by omega) (by omega) (by omega), if_neg (by omega)] at this
        exact this.trans hε
  simp only [w1, w2, w3, pure_bind, e2, e3]
  refine Tot.bind (P := fun s1 => ∃ cut : Bool, (cut = true → p.ktop ≤ k ∧ |bulgeT k v2 v3 t T (k + 1) k| ≤ ε) ∧
      s1 = { s with h := s1.h, v := v1 } ∧
      ∃ g', Is2 s1.h r c (r * c) g' ∧ OnR lo hi jt jb g' (fun a b => if cut = true ∧ a = k + 1 ∧ b = k then 0 else
        leftT (k + 1) k v2 v3 t (rightT p.kbot k v2 v3 t (storeT p.ktop k beta T)) a b) ∧ OutR lo hi jt jb g' g3) ?_ ?_
  · have := Tot.bind (f := fun h => (Pure.pure { s with h := h, v := v1 } : R (Qr5S XR))) (Q := fun s1 => ∃ cut : Bool,
      (cut = true → p.ktop ≤ k ∧ |bulgeT k v2 v3 t T (k + 1) k| ≤ ε) ∧ s1 = { s with h := s1.h, v := v1 } ∧
      ∃ g', Is2 s1.h r c (r * c) g' ∧ OnR lo hi jt jb g' (fun a b => if cut = true ∧ a = k + 1 ∧ b = k then 0 else
        leftT (k + 1) k v2 v3 t (rightT p.kbot k v2 v3 t (storeT p.ktop k beta T)) a b) ∧ OutR lo hi jt jb g' g3) neg (by
        rintro h' ⟨cut, q1, g', q2⟩
        exact Tot.pure ⟨cut, q1, rfl, g', q2⟩)
    by_cases hk : k < p.ktop
    · rw [if_pos hk, pure_bind] at this
      rw [if_pos hk]
      exact this
    · rw [if_neg hk] at this
      rw [if_neg hk]
      exact this
  · rintro s1 ⟨cut, q1, q2, g4, i4, o4, u4⟩
    obtain ⟨h5, e5, g5, i5, o5, u5⟩ := left3_ok (v2 := v2) (v3 := v3) (t := t) (q := k + 1) (c1 := k + 2) (m := jb) o4 hd.fits i4 (by omega) (by omega)
      (by omega) (by omega)
    rw [show k + 1 + 1 = k + 2 by ring, show k + 1 + 2 = k + 3 by ring] at e5
    have hv1 : s1.v = v1 := by rw [q2]
    unfold qr5Left
    simp only [hv1, w1, w2, w3, pure_bind]
    rw [show k + 2 * (1 - 1) = k by ring, show max p.ktop (k + 2 * 1) = k + 2 by omega, e5]
    refine Tot.of_eq (pure_bind _ _) ⟨hw, fun _ => rfl, by rw [q2], cut, g5, fun hc => (q1 hc).1, ?_, hR.step (cut := cut) hw hr hε0 (fun hk => (hcol hk).2) q1 hfirst⟩
    · refine hR.arr hw l3 l4 (by omega) (fun _ => j2) hcol i5 hv (fun _ => ⟨rfl, hnz⟩) ?_ (u5.trans (u4.trans (u3.trans (u2.trans ho))))
      intro a b a1 a2 b1 b2
      rw [o5 a b a1 a2 b1 b2]
      congr 1
      beta_reduce
      by_cases hbk : k + 2 ≤ b
      · rw [if_pos ⟨hbk, b2⟩, if_neg (by omega)]
        have e : ∀ i, (if cut = true ∧ i = k + 1 ∧ b = k then 0 else leftT (k + 1) k v2 v3 t (rightT p.kbot k v2 v3 t (storeT p.ktop k beta T)) i b) =
            rightT p.kbot k v2 v3 t (storeT p.ktop k beta T) i b := by
          intro i
          unfold leftT
          rw [if_neg (by omega), if_neg (by omega)]
        unfold houseL leftT
        rw [if_pos ⟨by omega, b2⟩]
        unfold houseL
        exact house_congr (e _) (e _) (e _) (Or.inr (e _))
      · rw [if_neg (by omega)]
        congr 1
        unfold leftT
        by_cases hb1 : k + 1 ≤ b
        · rw [if_pos ⟨hb1, by omega⟩, if_pos ⟨hb1, b2⟩]
        · rw [if_neg (by omega), if_neg (by omega)]

/-- The updates after a two-element reflector has been built. -/
theorem after2 (hd : Dim5 p r c ldv lo hi jt jb u sm B) (hε : 6 * u * B + sm ≤ ε) (hR : Real5 lo hi p.ktop p.kbot H B ε X k T Zq) {h1 v1 : FA XR} (hm : Is2 h1 r c (r * c) g) (ho : OutR lo hi jt jb g g0) (hon : OnR lo hi jt jb g (storeT p.ktop k beta T))
    {v3s : ℝ} (hv : V5 ldv cv rest v1 t v2 v3s) (k1 : p.ktop - 1 ≤ k) (k3 : k + 2 = p.kbot) (j1 : jt ≤ max p.ktop k) (j2 : k + 2 ≤ jb) (hr : Refl v2 0 t)
    (hcol : p.ktop ≤ k → bulgeT k v2 0 t T (k + 1) k = beta ∧ bulgeT k v2 0 t T (k + 2) k = 0)
    (hfirst : k = p.ktop - 1 → ∃ γ, ∀ a, γ * houseR (k + 1) v2 0 t Zq a p.ktop = X a) {α : Type} {K : XR → XR → Qr5S XR → R α} {P : α → Prop}
    (hK : ∀ s', Step5 p r c ldv cv rest lo hi jt jb H B ε X g0 k T Zq v2 0 t v3s s s' → Tot (K (fin t) (fin v2) s') P) :
    Tot (do
        let t1 ← v1.get2 1 1
        let v2 ← v1.get2 2 1
        let t2 := t1 * v2
        let h ← refl2Cols jt (min p.kbot (k + 3)) (k + 1) (k + 2) v2 t1 t2 h1
        let h ← refl2Rows (k + 1) jb (k + 1) (k + 2) v2 t1 t2 h
        let h ← if k ≥ p.ktop then qr5Negligible p k h else pure h
        K t1 v2 { s with h := h, v := v1 }) P := by
  have l1 := hd.lok; have l2 := hd.hik; have l3 := hd.fits.ljt; have l4 := hd.fits.jbh
  have hw : InBlk lo hi p.ktop p.kbot k 0 := ⟨l1, l2, k1, Or.inr ⟨k3, rfl⟩⟩
  have hε0 : 0 ≤ ε := by
    have := hd.u0; have := hd.sm0; have := hd.B0
    have : 0 ≤ 6 * u * B := by positivity
    linarith
  have hcol' : p.ktop ≤ k → bulgeT k v2 0 t T (k + 1) k = beta ∧ bulgeT k v2 0 t T (k + 2) k = 0 ∧
      (k + 3 ≤ p.kbot → bulgeT k v2 0 t T (k + 3) k = 0) := fun hk => ⟨(hcol hk).1, (hcol hk).2, fun _ => by omega⟩
  obtain ⟨w1, w2, w3⟩ := hv.get
  obtain ⟨h2, e2, g2, i2, o2, u2⟩ := right2_ok (v2 := v2) (t := t) (q := k + 1) (m := min p.kbot (k + 3)) hon hd.fits hm (by omega) (by omega) (by omega)
  have o2' : OnR lo hi jt jb g2 (rightT p.kbot k v2 0 t (storeT p.ktop k beta T)) := o2
  obtain ⟨h3, e3, g3, i3, o3, u3⟩ := left2_ok (v2 := v2) (t := t) (q := k + 1) (c1 := k + 1) (m := jb) o2' hd.fits i2 (by omega) (by omega)
    (by omega) (by omega)
  have o3' : OnR lo hi jt jb g3 (leftT jb k v2 0 t (rightT p.kbot k v2 0 t (storeT p.ktop k beta T))) := o3
  rw [show k + 1 + 1 = k + 2 by ring] at e2 e3
  have hb := hR.bulge hw hr
  simp only [w1, w2, pure_bind, e2, e3]
  have fin' : ∀ (h' : FA XR) (cut : Bool), (cut = true → p.ktop ≤ k ∧ |bulgeT k v2 0 t T (k + 1) k| ≤ ε) → (∃ g', Is2 h' r c (r * c) g' ∧
      OnR lo hi jt jb g' (fun a b => if cut = true ∧ a = k + 1 ∧ b = k then 0 else
        leftT jb k v2 0 t (rightT p.kbot k v2 0 t (storeT p.ktop k beta T)) a b) ∧ OutR lo hi jt jb g' g3) →
      Tot (K (fin t) (fin v2) { s with h := h', v := v1 }) P := by
    rintro h' cut q1 ⟨g', q2, q3, q4⟩
    refine hK _ ⟨hw, fun _ => by omega, rfl, cut, g', fun hc => (q1 hc).1, ?_, hR.step (cut := cut) hw hr hε0 (fun hk => (hcol' hk).2) q1 hfirst⟩
    exact hR.arr hw l3 l4 (by omega) (fun _ => by omega) hcol' q2 hv (fun _ => by omega) q3 (q4.trans (u3.trans (u2.trans ho)))
  refine Tot.ite (fun hk => ?_) fun hk => ?_
  · refine Tot.bind (negl_ok o3' hd.fits i3 hd.ulp hd.u0 hd.sml hd.sm0 hd.B0 l1 l2 (by omega) (by omega) (by omega) (by omega) ?_) ?_
    · intro a b a1 a2 b1 b2
      rw [code_eq hR.shape hw hcol' (by omega) (by omega) (by omega) (by omega)]
      split
      · exact hR.track.entry ⟨by omega, by omega⟩ ⟨by omega, by omega⟩
      · exact hb.entry ⟨by omega, by omega⟩ ⟨by omega, by omega⟩
    · rintro h' ⟨cut, q1, q2⟩
      refine fin' h' cut (fun hc => ⟨by omega, ?_⟩) q2
      have := q1 hc
      rw [code_eq hR.shape hw hcol' (by omega) (by omega) (by omega) (by omega), if_neg (by omega)] at this
      exact this.trans hε
  · refine fin' h3 false (by simp) ⟨g3, i3, ?_, fun _ _ _ => rfl⟩
    simpa using o3'

end

/-! ### The first reflector and the column it comes from -/

/-- The first column of `(M - a1)(M - a2) - b1 b2` for the active block `M` of a Hessenberg matrix. -/
def startX (kt kb : ℤ) (H : ℤ → ℤ → ℝ) (a1 b1 a2 b2 : ℝ) (a : ℤ) : ℝ :=
  if a = kt then (H kt kt - a1) * (H kt kt - a2) - b1 * b2 + H kt (kt + 1) * H (kt + 1) kt
  else if a = kt + 1 then H (kt + 1) kt * (H kt kt + H (kt + 1) (kt + 1) - a1 - a2)
  else if a = kt + 2 ∧ kt + 2 ≤ kb then H (kt + 1) kt * H (kt + 2) (kt + 1) else 0

theorem first_col {kt : ℤ} {x y w beta v2 v3 t : ℝ} (hm : Maps x y w beta v2 v3 t) (a : ℤ) :
    beta * houseR kt v2 v3 t idT a kt = if a = kt then x else if a = kt + 1 then y else if a = kt + 2 then w else 0 := by
  have h1 := hm.sum; have h2 := hm.e1; have h3 := hm.b; have h4 := hm.c
  unfold houseR house dirv idT
  rw [if_pos rfl]
  by_cases c1 : a = kt
  · subst c1
    rw [if_pos rfl, if_pos rfl, if_neg (by omega), if_neg (by omega)]
    linear_combination -h1 - h2
  · rw [if_neg c1, if_neg c1]
    by_cases c2 : a = kt + 1
    · subst c2
      rw [if_pos rfl, if_pos rfl, if_neg (by omega)]
      linear_combination -h3
    · rw [if_neg c2, if_neg c2]
      by_cases c3 : a = kt + 2
      · rw [if_pos c3, if_pos c3]
        linear_combination -h4
      · rw [if_neg c3, if_neg c3]
        ring

/-- The shifts and the input matrix. -/
structure Start5 (kt kb : ℤ) (H : ℤ → ℤ → ℝ) (s0 : Qr5S XR) (a1 b1 a2 b2 : ℝ) : Prop where
  sr1 : s0.sr.get1 1 = fin a1
  si1 : s0.si.get1 1 = fin b1
  sr2 : s0.sr.get1 2 = fin a2
  si2 : s0.si.get1 2 = fin b2
  a1b : |a1| ≤ 2 ^ 490
  b1b : |b1| ≤ 2 ^ 490
  a2b : |a2| ≤ 2 ^ 490
  unr : ∀ j, kt ≤ j → j < kb → H (j + 1) j ≠ 0

/-- The part of `qr5Bmp22` after the update of `h`. -/
noncomputable def tail22 (p : Qr5P XR) (incol k : ℤ) (t1 v2 : XR) (s : Qr5S XR) : R (Qr5S XR) :=
  if p.accum then do
    let u ← refl2Cols (max 1 (p.ktop - incol)) p.kdu (k - incol + 1) (k - incol + 2) v2 t1 (t1 * v2) s.u
    pure { s with u := u }
  else if p.wantz then do
    let z ← refl2Cols p.iloz p.ihiz (k + 1) (k + 2) v2 t1 (t1 * v2) s.z
    pure { s with z := z }
  else pure s

section
variable {p : Qr5P XR} {r c ldv cv : Nat} {rest : List ℝ} {lo hi jt jb k : ℤ} {g0 g : ℤ → ℤ → XR} {H T Zq : ℤ → ℤ → ℝ}
  {t v2 v3 u sm B ε a1 b1 a2 b2 : ℝ} {s : Qr5S XR}

theorem bulge_ok (hd : Dim5 p r c ldv lo hi jt jb u sm B) (hε : 6 * u * B + sm ≤ ε) (h0 : Start5 p.ktop p.kbot H s a1 b1 a2 b2)
    (hA : Arr r c ldv cv rest lo hi jt jb p.ktop p.kbot k g0 s.h s.v T g t v2 v3)
    (hR : Real5 lo hi p.ktop p.kbot H B ε (startX p.ktop p.kbot H a1 b1 a2 b2) k T Zq) (k1 : p.ktop - 1 ≤ k) (k3 : k + 3 ≤ p.kbot)
    (j1 : jt ≤ max p.ktop k) (j2 : k + 3 ≤ jb) :
    Tot (qr5Bulge p jt k s 1 >>= fun s => qr5Left p k jb s 1) fun s' => ∃ v2 v3 t, (v3 ≠ 0 ∧ t ≠ 0) ∧
      Step5 p r c ldv cv rest lo hi jt jb H B ε (startX p.ktop p.kbot H a1 b1 a2 b2) g0 k T Zq v2 v3 t v3 s s' := by
  have l1 := hd.lok; have l2 := hd.hik; have l3 := hd.fits.ljt; have l4 := hd.fits.jbh
  have hB : ∀ a b, lo ≤ a → a ≤ hi → lo ≤ b → b ≤ hi → |T a b| ≤ B := fun a b x1 x2 y1 y2 => hR.track.entry ⟨x1, x2⟩ ⟨y1, y2⟩
  unfold qr5Bulge
  rw [show k + 2 * (1 - 1) = k by ring]
  dsimp only
  by_cases hk : k = p.ktop - 1
  · obtain ⟨rfl, rfl⟩ := hR.init hk
    have hon : OnR lo hi jt jb g T := fun a b x1 x2 y1 y2 => hA.on a b x1 x2 y1 y2 (by omega)
    obtain ⟨x, y, w, sc, beta, v2', v3', t', v', src, q1, q2, v1, al, e1, e2, e3, e4, e5, e6, hv, hm, s0', w0, m1, m2, m3⟩ :=
      start3_ok (kt := p.ktop) (a1 := a1) (b1 := b1) (a2 := a2) (b2 := b2) hon hd.fits hA.hm hA.vm (by omega) (by omega) hB hd.B2 h0.a1b h0.b1b h0.a2b
        (hR.shape.hess _ _ (by omega) (by omega) (by omega) (by omega)) (h0.unr _ (by omega) (by omega))
        (by have := h0.unr (p.ktop + 1) (by omega) (by omega); rwa [show p.ktop + 1 + 1 = p.ktop + 2 by ring] at this)
    have er : qr5Refl3 p k 1 s = pure (s.h, v', s.vt) := by
      unfold qr5Refl3
      rw [if_pos hk, e1, e2]
      rw [show (2 : ℤ) * 1 - 1 = 1 by norm_num, show (2 : ℤ) * 1 = 2 by norm_num, h0.sr1, h0.si1, h0.sr2, h0.si2, hd.ldh, hd.lv]
      simp only [pure_bind, e3, e4, e5, e6]
    rw [er, pure_bind]
    dsimp only
    have hst : OnR lo hi jt jb g (storeT p.ktop k beta T) := by
      intro a b x1 x2 y1 y2
      unfold storeT
      rw [if_neg (by omega)]
      exact hon a b x1 x2 y1 y2
    refine (after3 hd hε hR hA.hm hA.out hst hv k1 k3 j1 j2 hm.refl (hm.nz w0) (fun h => by omega) fun _ => ⟨sc * beta, fun a => ?_⟩).mono
      fun s' h => ⟨v2', v3', t', hm.nz w0, h⟩
    rw [hk, show p.ktop - 1 + 1 = p.ktop by ring, mul_assoc, first_col hm]
    unfold startX
    split_ifs <;> first | (exact m1) | (exact m2) | (exact m3) | (exact mul_zero _) | omega
  · obtain ⟨beta, v2', v3', t', h', v', er, hm, tn, hv, g', i', o', u'⟩ := refl3_chase hd hA hB (by omega) k3 (by omega) (by omega)
    rw [er, pure_bind]
    dsimp only
    refine (after3 hd hε hR i' u' o' hv k1 k3 j1 j2 hm.refl (hm.nz tn) (fun h => ?_) fun h => by omega).mono fun s' h => ⟨v2', v3', t', hm.nz tn, h⟩
    obtain ⟨q1, q2, q3⟩ := bulgeT_maps hm
    exact ⟨q1, q2, fun _ => q3⟩

theorem bmp22_ok {incol : ℤ} (hd : Dim5 p r c ldv lo hi jt jb u sm B) (hε : 6 * u * B + sm ≤ ε) (h0 : Start5 p.ktop p.kbot H s a1 b1 a2 b2)
    (hA : Arr r c ldv cv rest lo hi jt jb p.ktop p.kbot k g0 s.h s.v T g t v2 v3)
    (hR : Real5 lo hi p.ktop p.kbot H B ε (startX p.ktop p.kbot H a1 b1 a2 b2) k T Zq) (k1 : p.ktop - 1 ≤ k) (k3 : k + 2 = p.kbot)
    (j1 : jt ≤ max p.ktop k) (j2 : k + 2 ≤ jb) {P : Qr5S XR → Prop}
    (hK : ∀ v2 t s', Refl v2 0 t → Step5 p r c ldv cv rest lo hi jt jb H B ε (startX p.ktop p.kbot H a1 b1 a2 b2) g0 k T Zq v2 0 t v3 s s' →
      Tot (tail22 p incol k (fin t) (fin v2) s') P) :
    Tot (qr5Bmp22 p incol jt jb k 1 s) P := by
  have l1 := hd.lok; have l2 := hd.hik; have l3 := hd.fits.ljt; have l4 := hd.fits.jbh
  have hB : ∀ a b, lo ≤ a → a ≤ hi → lo ≤ b → b ≤ hi → |T a b| ≤ B := fun a b x1 x2 y1 y2 => hR.track.entry ⟨x1, x2⟩ ⟨y1, y2⟩
  unfold qr5Bmp22
  rw [show k + 2 * (1 - 1) = k by ring]
  dsimp only
  by_cases hk : k = p.ktop - 1
  · obtain ⟨rfl, rfl⟩ := hR.init hk
    have hon : OnR lo hi jt jb g T := fun a b x1 x2 y1 y2 => hA.on a b x1 x2 y1 y2 (by omega)
    obtain ⟨x, y, sc, beta, v2', t', v', src, q1, q2, v1, al, e1, e2, e3, e4, e5, e6, hv, hm, s0', m1, m2⟩ :=
      start2_ok (kt := p.ktop) (a1 := a1) (b1 := b1) (a2 := a2) (b2 := b2) hon hd.fits hA.hm hA.vm (by omega) (by omega) hB hd.B2 h0.a1b h0.b1b h0.a2b
        (h0.unr _ (by omega) (by omega))
    have er : qr5Bmp22Refl p k 1 s = pure (s.h, v') := by
      unfold qr5Bmp22Refl
      rw [if_pos hk, show k + 1 = p.ktop by omega, e1, e2]
      rw [show (2 : ℤ) * 1 - 1 = 1 by norm_num, show (2 : ℤ) * 1 = 2 by norm_num, h0.sr1, h0.si1, h0.sr2, h0.si2, hd.ldh, hd.lv]
      simp only [pure_bind, e3, e4, e5, e6]
    rw [er, pure_bind]
    dsimp only
    have hst : OnR lo hi jt jb g (storeT p.ktop k beta T) := by
      intro a b x1 x2 y1 y2
      unfold storeT
      rw [if_neg (by omega)]
      exact hon a b x1 x2 y1 y2
    refine after2 (K := fun t1 v2 s => tail22 p incol k t1 v2 s) hd hε hR hA.hm hA.out hst hv k1 k3 j1 j2 hm.refl (fun h => by omega)
      (fun _ => ⟨sc * beta, fun a => ?_⟩) (fun s' h => hK _ _ _ hm.refl h)
    rw [hk, show p.ktop - 1 + 1 = p.ktop by ring, mul_assoc, first_col hm]
    unfold startX
    split_ifs <;> first | (exact m1) | (exact m2) | (exact mul_zero _) | omega
  · obtain ⟨beta, v2', t', h', v', er, hm, hv, g', i', o', u'⟩ := refl2_chase hd hA hR.shape hB (by omega) k3 (by omega) (by omega)
    rw [er, pure_bind]
    dsimp only
    exact after2 (K := fun t1 v2 s => tail22 p incol k t1 v2 s) hd hε hR i' u' o' hv k1 k3 j1 j2 hm.refl (fun h => bulgeT_maps2 hm) (fun h => by omega)
      (fun s' h => hK _ _ _ hm.refl h)

theorem tdiv_le_zero {x : ℤ} (h : x ≤ 1) : x.tdiv 2 ≤ 0 := by
  by_cases h1 : x = 1
  · subst h1; decide
  · obtain ⟨y, rfl⟩ : ∃ y, x = -y := ⟨-x, by ring⟩
    rw [Int.neg_tdiv]
    have := Int.tdiv_nonneg (a := y) (b := 2) (by omega) (by norm_num)
    omega

/-- A strided loop with an invariant depending on the index. -/
theorem Tot.forStep {σ : Type} {P : ℤ → σ → Prop} {f : σ → ℤ → R σ} {lo hi : ℤ} {d : Nat} (hd : 0 < d) {s : σ} (hs : P lo s)
    (hf : ∀ i s, lo ≤ i → i ≤ hi → P i s → Tot (f s i) (P (i + d))) : Tot (forStep lo hi d s f) fun s => ∃ i, hi < i ∧ lo ≤ i ∧ P i s := by
  unfold Verif.forStep irangeStep
  rw [if_neg (by omega), pure_bind]
  obtain ⟨N, hN⟩ : ∃ N, (hi - lo + 1).toNat = N := ⟨_, rfl⟩
  rw [hN]
  have key : ∀ q : Nat, (∀ j : Nat, j < q → lo + (j : ℤ) * d ≤ hi) → Tot (((List.range q).map (fun (k : Nat) => lo + (k : ℤ) * (d : ℤ))).foldlM f s) (P (lo + q * d)) := by
    intro q
    induction q with
    | zero => intro _; exact Tot.of_eq rfl (by simpa using hs)
    | succ q ih =>
      intro hq
      rw [List.range_succ, List.map_append, List.foldlM_append]
      refine Tot.bind (ih fun j hj => hq j (by omega)) fun a ha => ?_
      have hle : (0 : ℤ) ≤ (q : ℤ) * d := by positivity
      have := hf (lo + q * d) a (by omega) (hq q (by omega)) ha
      have e : lo + ((q + 1 : ℕ) : ℤ) * d = lo + q * d + d := by push_cast; ring
      rw [e]
      simpa using this
  have hdm := Nat.div_add_mod (N + d - 1) d
  have hml := Nat.mod_lt (N + d - 1) hd
  refine (key ((N + d - 1) / d) fun j hj => ?_).mono fun a ha => ⟨lo + (((N + d - 1) / d : ℕ) : ℤ) * d, ?_, ?_, ha⟩
  · have h1 : (j + 1) * d ≤ N + d - 1 := (Nat.mul_le_mul_right d hj).trans (Nat.div_mul_le_self _ _)
    have h2 : ((j + 1) * d : ℕ) = j * d + d := by ring
    have h3 : ((j * d : ℕ) : ℤ) = (j : ℤ) * d := by push_cast; ring
    omega
  · have h3 : (((N + d - 1) / d * d : ℕ) : ℤ) = (((N + d - 1) / d : ℕ) : ℤ) * d := by push_cast; ring
    have h4 : (N + d - 1) / d * d = d * ((N + d - 1) / d) := by ring
    omega
  · have h3 : (0 : ℤ) ≤ (((N + d - 1) / d : ℕ) : ℤ) * d := by positivity
    omega

end

/-! ### Without accumulation -/

/-- Neither accumulation nor update of `z`. -/
structure NoAcc5 (p : Qr5P XR) (lo hi : ℤ) : Prop where
  acc : p.accum = false
  wz : p.wantz = false
  jt : (if p.wantt then 1 else p.ktop) = lo
  jb : (if p.wantt then p.n else p.kbot) = hi

/-- Before step `k`. -/
def Inv5 (p : Qr5P XR) (r c ldv cv : Nat) (rest : List ℝ) (lo hi : ℤ) (H : ℤ → ℤ → ℝ) (B ε : ℝ) (X : ℤ → ℝ) (g0 : ℤ → ℤ → XR) (s0 : Qr5S XR)
    (k : ℤ) (s : Qr5S XR) : Prop :=
  (∃ T Zq g t v2 v3, Arr r c ldv cv rest lo hi lo hi p.ktop p.kbot k g0 s.h s.v T g t v2 v3 ∧ Real5 lo hi p.ktop p.kbot H B ε X k T Zq) ∧
    s = { s0 with h := s.h, v := s.v }

section
variable {p : Qr5P XR} {r c ldv cv : Nat} {rest : List ℝ} {lo hi k : ℤ} {g0 : ℤ → ℤ → XR} {H : ℤ → ℤ → ℝ} {u sm B ε a1 b1 a2 b2 : ℝ}
  {s s0 : Qr5S XR}

theorem Start5.of {kt kb : ℤ} (h : Start5 kt kb H s0 a1 b1 a2 b2) (hr : s.sr = s0.sr) (hi : s.si = s0.si) : Start5 kt kb H s a1 b1 a2 b2 :=
  ⟨hr ▸ h.sr1, hi ▸ h.si1, hr ▸ h.sr2, hi ▸ h.si2, h.a1b, h.b1b, h.a2b, h.unr⟩

/-- One step `krcol`. -/
theorem krcol_ok {incol : ℤ} (hd : Dim5 p r c ldv lo hi lo hi u sm B) (hn : NoAcc5 p lo hi) (hε : 6 * u * B + sm ≤ ε) (h0 : Start5 p.ktop p.kbot H s0 a1 b1 a2 b2)
    (hI : Inv5 p r c ldv cv rest lo hi H B ε (startX p.ktop p.kbot H a1 b1 a2 b2) g0 s0 k s) (k1 : p.ktop - 1 ≤ k) (k3 : k + 2 ≤ p.kbot) :
    Tot (qr5Krcol p incol lo s k)
      (Inv5 p r c ldv cv rest lo hi H B ε (startX p.ktop p.kbot H a1 b1 a2 b2) g0 s0 (k + 1)) := by
  obtain ⟨⟨T, Zq, g, t, v2, v3, hA, hR⟩, hs⟩ := hI
  have h1 : Start5 p.ktop p.kbot H s a1 b1 a2 b2 := h0.of (by rw [hs]) (by rw [hs])
  have l1 := hd.lok; have l2 := hd.hik
  unfold qr5Krcol
  have e1 : max 1 ((p.ktop - k).tdiv 2 + 1) = 1 := by
    have := tdiv_le_zero (show p.ktop - k ≤ 1 by omega)
    omega
  dsimp only
  rw [hn.acc, hn.wz, hd.nb, e1]
  simp only [Bool.false_eq_true, if_false, hn.jb]
  by_cases hk : k + 2 = p.kbot
  · have e2 : min 1 ((p.kbot - k - 1).tdiv 2) = 0 := by
      rw [Int.tdiv_eq_ediv_of_nonneg (by omega)]
      omega
    rw [e2, if_pos (by omega)]
    refine Tot.bind (bmp22_ok (P := Inv5 p r c ldv cv rest lo hi H B ε (startX p.ktop p.kbot H a1 b1 a2 b2) g0 s0 (k + 1)) hd hε h1 hA hR k1 hk
      (by omega) (by omega) ?_) fun s1 h1 => ?_
    · rintro v2 t s1 - ⟨-, -, q2, cut, g', -, q3, q4⟩
      unfold tail22
      rw [hn.acc, hn.wz]
      exact Tot.pure ⟨⟨_, _, _, _, _, _, q3, q4⟩, by rw [q2, hs]⟩
    rw [forDown_empty (by norm_num), pure_bind, forDown_empty (by norm_num), pure_bind]
    exact Tot.pure h1
  · have e2 : min 1 ((p.kbot - k - 1).tdiv 2) = 1 := by
      rw [Int.tdiv_eq_ediv_of_nonneg (by omega)]
      omega
    rw [e2, if_neg (by omega), pure_bind]
    have one : ∀ (f : Qr5S XR → ℤ → R (Qr5S XR)) s, forDown 1 1 s f = f s 1 := by
      intro f s
      rw [forDown_cons (le_refl _)]
      simp
    rw [one]
    have := (bulge_ok hd hε h1 hA hR k1 (by omega) (by omega) (by omega)).mono
      (Q := Inv5 p r c ldv cv rest lo hi H B ε (startX p.ktop p.kbot H a1 b1 a2 b2) g0 s0 (k + 1)) (by
        rintro s1 ⟨v2, v3, t, -, -, -, q2, cut, g', -, q3, q4⟩
        exact ⟨⟨_, _, _, _, _, _, q3, q4⟩, by rw [q2, hs]⟩)
    simpa [one] using this

/-- One sweep. -/
theorem incol_ok (hd : Dim5 p r c ldv lo hi lo hi u sm B) (hn : NoAcc5 p lo hi) (hε : 6 * u * B + sm ≤ ε) (h0 : Start5 p.ktop p.kbot H s0 a1 b1 a2 b2)
    (hI : Inv5 p r c ldv cv rest lo hi H B ε (startX p.ktop p.kbot H a1 b1 a2 b2) g0 s0 k s) (k1 : p.ktop - 1 ≤ k) (k3 : k + 2 ≤ p.kbot) :
    Tot (qr5Incol p s k)
      (Inv5 p r c ldv cv rest lo hi H B ε (startX p.ktop p.kbot H a1 b1 a2 b2) g0 s0 (min (k + 2) (p.kbot - 1))) := by
  unfold qr5Incol
  dsimp only
  simp only [hn.acc, Bool.false_eq_true, if_false, hn.jt, hd.nb, pure_bind]
  have e : min (k + 2 * 1 - 1) (p.kbot - 2) + 1 = min (k + 2) (p.kbot - 1) := by omega
  refine Tot.bind (P := Inv5 p r c ldv cv rest lo hi H B ε (startX p.ktop p.kbot H a1 b1 a2 b2) g0 s0 (min (k + 2) (p.kbot - 1))) ?_ fun s1 h1 => Tot.pure h1
  rw [← e]
  exact Tot.forUp (P := fun i s => Inv5 p r c ldv cv rest lo hi H B ε (startX p.ktop p.kbot H a1 b1 a2 b2) g0 s0 i s) (by omega) hI
    fun i s i1 i2 hi' => krcol_ok hd hn hε h0 hi' (by omega) (by omega)

/-- All the sweeps. -/
theorem sweeps_ok (hd : Dim5 p r c ldv lo hi lo hi u sm B) (hn : NoAcc5 p lo hi) (hε : 6 * u * B + sm ≤ ε) (h0 : Start5 p.ktop p.kbot H s0 a1 b1 a2 b2)
    (hI : Inv5 p r c ldv cv rest lo hi H B ε (startX p.ktop p.kbot H a1 b1 a2 b2) g0 s0 (p.ktop - 1) s) :
    Tot (forStep (p.ktop - 2 * p.nbmps + 1) (p.kbot - 2) (2 * asUsize p.nbmps) s (qr5Incol p))
      (Inv5 p r c ldv cv rest lo hi H B ε (startX p.ktop p.kbot H a1 b1 a2 b2) g0 s0 (p.kbot - 1)) := by
  have hlt := hd.lt
  rw [hd.nb, show p.ktop - 2 * 1 + 1 = p.ktop - 1 by ring, show 2 * asUsize 1 = 2 from rfl]
  refine (Tot.forStep (P := fun i s => Inv5 p r c ldv cv rest lo hi H B ε (startX p.ktop p.kbot H a1 b1 a2 b2) g0 s0 (min i (p.kbot - 1)) s) (by norm_num)
    (by rw [show min (p.ktop - 1) (p.kbot - 1) = p.ktop - 1 by omega]; exact hI) fun i s i1 i2 hi' => ?_).mono ?_
  · rw [show min i (p.kbot - 1) = i by omega] at hi'
    exact incol_ok hd hn hε h0 hi' i1 (by omega)
  · rintro s1 ⟨i, i1, i2, h⟩
    rwa [show min i (p.kbot - 1) = p.kbot - 1 by omega] at h

end

end Verif

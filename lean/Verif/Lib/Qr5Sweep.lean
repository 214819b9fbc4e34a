import Verif.Lib.Qr5Acc

/-!
# The accumulating mode of `dlaqr5` with one bulge: one sweep
-/

namespace Verif
open Scalar Spec XR

/-- The arguments used by the accumulating mode. -/
structure Acc5 {F : Type} [Scalar F] (p : Qr5P F) (r cz ru cu rv cwv rh cwh : Nat) (lo hi : ℤ) : Prop where
  acc : p.accum = true
  jt : (if p.wantt then 1 else p.ktop) = lo
  jb : (if p.wantt then p.n else p.kbot) = hi
  lz : p.ldz = r
  lu : p.ldu = ru
  ru4 : 4 ≤ ru
  cu4 : 4 ≤ cu
  lh : p.ldwh = rh
  rh4 : 4 ≤ rh
  nh1 : 1 ≤ p.nh
  nhc : p.nh ≤ cwh
  lv : p.ldwv = rv
  cv4 : 4 ≤ cwv
  nv1 : 1 ≤ p.nv
  nvr : p.nv ≤ rv
  z : p.wantz = true → 1 ≤ p.iloz ∧ p.ihiz ≤ r ∧ p.kbot ≤ cz ∧ r * cz < 2 ^ 31

/-- The first row updated directly. -/
abbrev jtop5 {F : Type} [Scalar F] (p : Qr5P F) (incol : ℤ) : ℤ := max p.ktop incol
/-- The last column updated directly. -/
abbrev jbot5 {F : Type} [Scalar F] (p : Qr5P F) (incol : ℤ) : ℤ := min (incol + 4) p.kbot
/-- The first row of `u` in use. -/
abbrev kone5 {F : Type} [Scalar F] (p : Qr5P F) (incol : ℤ) : ℤ := max 1 (p.ktop - incol)

/-- During the sweep that begins at `incol`, before step `k`: `T0` and `Zq0` are the matrices at the beginning of the sweep, `gS` is the array
then, `s1` the state. -/
structure Sw5 (p : Qr5P XR) (r c ldv cv : Nat) (rest : List ℝ) (lo hi : ℤ) (H : ℤ → ℤ → ℝ) (B ε : ℝ) (X : ℤ → ℝ) (ru cu : Nat) (incol : ℤ)
    (T0 Zq0 : ℤ → ℤ → ℝ) (gS : ℤ → ℤ → XR) (s1 : Qr5S XR) (k : ℤ) (T Zq : ℤ → ℤ → ℝ) (g : ℤ → ℤ → XR) (t v2 v3 : ℝ) (rs : List Rfl5) (ug : ℤ → ℤ → XR)
    (s : Qr5S XR) : Prop where
  arr : Arr r c ldv cv rest lo hi (jtop5 p incol) (jbot5 p incol) p.ktop p.kbot k gS s.h s.v T g t v2 v3
  real : Real5 lo hi p.ktop p.kbot H B ε X k T Zq
  all : AllIn (incol + kone5 p incol) (jbot5 p incol) rs
  above : ∀ a b, a < jtop5 p incol → T a b = applyR rs T0 a b
  right : ∀ a b, jbot5 p incol < b → T a b = applyL rs T0 a b
  zq : Zq = applyR rs Zq0
  um : Is2 s.u ru cu (ru * cu) ug
  uon : OnR 1 4 (kone5 p incol) 4 ug fun i j => applyR rs idT (incol + i) (incol + j)
  st : s = { s1 with h := s.h, v := s.v, u := s.u }

section
variable {p : Qr5P XR} {r c ldv cv : Nat} {rest : List ℝ} {lo hi : ℤ} {H : ℤ → ℤ → ℝ} {u sm B ε : ℝ} {X : ℤ → ℝ} {ru cu cz rv cwv rh cwh : Nat}
  {incol k : ℤ} {T0 Zq0 : ℤ → ℤ → ℝ} {gS : ℤ → ℤ → XR} {s1 s s' : Qr5S XR} {T Zq : ℤ → ℤ → ℝ} {g : ℤ → ℤ → XR} {t v2 v3 t' v2' v3' v3s : ℝ}
  {rs : List Rfl5} {ug : ℤ → ℤ → XR} {a1 b1 a2 b2 : ℝ}

theorem Sw5.next (h : Sw5 p r c ldv cv rest lo hi H B ε X ru cu incol T0 Zq0 gS s1 k T Zq g t v2 v3 rs ug s)
    (hs : Step5 p r c ldv cv rest lo hi (jtop5 p incol) (jbot5 p incol) H B ε X gS k T Zq v2' v3' t' v3s s s') (k1 : incol ≤ k) (k2 : k ≤ incol + 1)
    {u' : FA XR} {ug' : ℤ → ℤ → XR} (hu : Is2 u' ru cu (ru * cu) ug')
    (uon' : OnR 1 4 (kone5 p incol) 4 ug' fun a b =>
      if a ≤ 4 then houseR (k - incol + 1) v2' v3' t' (fun i j => applyR rs idT (incol + i) (incol + j)) a b else applyR rs idT (incol + a) (incol + b)) :
    ∃ T Zq g t v2 v3 rs ug, Sw5 p r c ldv cv rest lo hi H B ε X ru cu incol T0 Zq0 gS s1 (k + 1) T Zq g t v2 v3 rs ug { s' with u := u' } := by
  obtain ⟨hw, -, es, cut, g', hcut, hA, hR⟩ := hs
  have hk1 : p.ktop - 1 ≤ k := hw.kt
  refine ⟨_, _, g', t', v2', v3s, rs ++ [⟨k + 1, v2', v3', t'⟩], ug', hA, hR, h.all.snoc ?_, ?_, ?_, ?_, hu, ?_, ?_⟩
  · refine ⟨?_, ?_, ?_⟩ <;> dsimp only [jbot5, kone5]
    · omega
    · rcases hw.kb with q | ⟨q, -⟩ <;> omega
    · rcases hw.kb with q | ⟨q, q'⟩
      · left; omega
      · exact Or.inr q'
  · intro a b hab
    rw [applyR_snoc]
    dsimp only [jtop5] at hab
    unfold nextT
    rw [if_neg (by rintro ⟨hc, e, -⟩; have := hcut hc; omega)]
    unfold bulgeT houseR
    have e : houseL (k + 1) v2' v3' t' T a = applyR rs T0 a := by
      funext j
      have : houseL (k + 1) v2' v3' t' T a j = T a j := house_out (lo := a + 1) (hi := k + 3) ⟨by omega, by omega, Or.inl (by omega)⟩ _ (Or.inl (by omega))
      rw [this]
      exact h.above a j hab
    rw [e]
  · intro a b hab
    rw [applyL_snoc]
    dsimp only [jbot5] at hab
    unfold nextT
    rw [if_neg (by rintro ⟨hc, -, e⟩; rcases hw.kb with q | ⟨q, -⟩ <;> omega)]
    unfold bulgeT
    rw [← house_comm]
    unfold houseL
    have e : (fun i => houseR (k + 1) v2' v3' t' T i b) = fun i => applyL rs T0 i b := by
      funext i
      have : houseR (k + 1) v2' v3' t' T i b = T i b := house_out (lo := k) (hi := b - 1) (by
        refine ⟨by omega, by rcases hw.kb with q | ⟨q, -⟩ <;> omega, ?_⟩
        rcases hw.kb with q | ⟨q, q'⟩
        · left; omega
        · exact Or.inr q') _ (Or.inr (by omega))
      rw [this]
      exact h.right i b hab
    rw [e]
  · rw [applyR_snoc, h.zq]
  · intro a b a1 a2 b1 b2
    rw [uon' a b a1 a2 b1 b2]
    beta_reduce
    rw [if_pos a2, applyR_snoc]
    congr 1
    unfold houseR house dirv
    have e1 : ∀ x y : ℤ, (incol + x = k + 1 + y) = (x = k - incol + 1 + y) := by
      intro x y; apply propext; constructor <;> intro h <;> omega
    have e0 : ∀ x : ℤ, (incol + x = k + 1) = (x = k - incol + 1) := by
      intro x; apply propext; constructor <;> intro h <;> omega
    have e2 : incol + (k - incol + 1) = k + 1 := by ring
    have e3 : incol + (k - incol + 1 + 1) = k + 1 + 1 := by ring
    have e4 : incol + (k - incol + 1 + 2) = k + 1 + 2 := by ring
    simp only [e0, e1, e2, e3, e4]
  · rw [es]
    conv_lhs => rw [h.st]

/-- One step. -/
theorem krcol_acc (hd : Dim5 p r c ldv lo hi lo hi u sm B) (ha : Acc5 p r cz ru cu rv cwv rh cwh lo hi) (hε : 6 * u * B + sm ≤ ε)
    (h0 : Start5 p.ktop p.kbot H s1 a1 b1 a2 b2) (hus : ru * cu < 2 ^ 31)
    (h : Sw5 p r c ldv cv rest lo hi H B ε (startX p.ktop p.kbot H a1 b1 a2 b2) ru cu incol T0 Zq0 gS s1 k T Zq g t v2 v3 rs ug s)
    (k1 : p.ktop - 1 ≤ incol) (k2 : incol ≤ k) (k3 : k ≤ incol + 1) (k4 : k + 2 ≤ p.kbot) :
    Tot (qr5Krcol p incol (jtop5 p incol) s k) fun s' => ∃ T Zq g t v2 v3 rs ug,
      Sw5 p r c ldv cv rest lo hi H B ε (startX p.ktop p.kbot H a1 b1 a2 b2) ru cu incol T0 Zq0 gS s1 (k + 1) T Zq g t v2 v3 rs ug s' := by
  have l1 := hd.lok; have l2 := hd.hik
  have hd' : Dim5 p r c ldv lo hi (jtop5 p incol) (jbot5 p incol) u sm B :=
    { hd with fits := ⟨hd.fits.size, hd.fits.lo1, hd.fits.hir, hd.fits.hic, by dsimp only [jtop5]; omega, by dsimp only [jbot5]; omega⟩ }
  have hst : Start5 p.ktop p.kbot H s a1 b1 a2 b2 := h0.of (by rw [h.st]) (by rw [h.st])
  have hkdu : p.kdu = 4 := by unfold Qr5P.kdu; rw [hd.nb]; norm_num
  have hfu : Fits5 ru cu 1 4 (kone5 p incol) 4 := ⟨hus, le_refl _, by exact_mod_cast ha.ru4, by exact_mod_cast ha.cu4, le_max_left _ _, le_refl _⟩
  set Pn : Qr5S XR → Prop := fun s' => ∃ T Zq g t v2 v3 rs ug,
    Sw5 p r c ldv cv rest lo hi H B ε (startX p.ktop p.kbot H a1 b1 a2 b2) ru cu incol T0 Zq0 gS s1 (k + 1) T Zq g t v2 v3 rs ug s'
  unfold qr5Krcol
  have e1 : max 1 ((p.ktop - k).tdiv 2 + 1) = 1 := by
    have := tdiv_le_zero (show p.ktop - k ≤ 1 by omega)
    omega
  dsimp only
  rw [ha.acc, hd.nb, e1, hkdu]
  simp only [if_true]
  by_cases hk : k + 2 = p.kbot
  · have e2 : min 1 ((p.kbot - k - 1).tdiv 2) = 0 := by
      rw [Int.tdiv_eq_ediv_of_nonneg (by omega)]
      omega
    rw [e2, if_pos (by omega)]
    refine Tot.bind (P := Pn) (bmp22_ok hd' hε hst h.arr h.real (by omega) hk (by unfold jtop5; omega) (by first | omega | (unfold jbot5; omega)) ?_) fun s2 h2 => ?_
    · intro v2' t' s2 _ hs2
      have es2 : s2.u = s.u := by rw [hs2.2.2.1]
      unfold tail22
      rw [ha.acc, if_pos rfl, hkdu, es2]
      obtain ⟨u', eu, ug', iu, ou, -⟩ := right2_ok (v2 := v2') (t := t') (m := 4) (q := k - incol + 1) h.uon hfu h.um (by omega) (by omega) (by omega)
      rw [show k - incol + 2 = k - incol + 1 + 1 by ring, eu, pure_bind]
      exact Tot.pure (h.next hs2 k2 k3 iu ou)
    · rw [forDown_empty (by norm_num), pure_bind, forDown_empty (by norm_num), pure_bind, forDown_empty (by norm_num)]
      exact Tot.pure h2
  · have e2 : min 1 ((p.kbot - k - 1).tdiv 2) = 1 := by
      rw [Int.tdiv_eq_ediv_of_nonneg (by omega)]
      omega
    rw [e2, if_neg (by omega), pure_bind]
    have one : ∀ (f : Qr5S XR → ℤ → R (Qr5S XR)) s, forDown 1 1 s f = f s 1 := by
      intro f s
      rw [forDown_cons (le_refl _)]
      simp
    simp only [one]
    rw [← bind_assoc]
    refine Tot.bind (bulge_ok hd' hε hst h.arr h.real (by omega) (by omega) (by unfold jtop5; omega) (by first | omega | (unfold jbot5; omega))) ?_
    rintro s2 ⟨v2', v3', t', -, hs2⟩
    have es2 : s2.u = s.u := by rw [hs2.2.2.1]
    have hv := hs2.2.2.2
    obtain ⟨cut, g', -, hA, -⟩ := hv
    obtain ⟨g1, g2, g3⟩ := hA.vm.get
    unfold qr5AccU
    dsimp only
    rw [g1, g2, g3, pure_bind, pure_bind, pure_bind, es2, hkdu]
    obtain ⟨u', eu, ug', iu, ou, -⟩ := right3_ok (v2 := v2') (v3 := v3') (t := t') (m := 4) (q := k - incol + 1) h.uon hfu h.um (by omega) (by omega) (by omega)
    rw [show max 1 (max (p.ktop - incol) (k + 2 * (1 - 1) - incol - (k - incol) + 1)) = kone5 p incol by dsimp only [kone5]; omega,
      show min 4 (k + 2 * (1 - 1) - incol + 5) = 4 by omega, show k + 2 * (1 - 1) - incol + 1 = k - incol + 1 by ring,
      show k + 2 * (1 - 1) - incol + 2 = k - incol + 1 + 1 by ring, show k + 2 * (1 - 1) - incol + 3 = k - incol + 1 + 2 by ring, eu, pure_bind]
    exact Tot.pure (h.next hs2 k2 k3 iu ou)

/-- What `z` holds after the reflectors `rs`. -/
def ZInv (p : Qr5P XR) (r cz : Nat) (Z0 : ℤ → ℤ → ℝ) (z0 : FA XR) (rs : List Rfl5) (z : FA XR) : Prop :=
  if p.wantz then ∃ zg, Is2 z r cz (r * cz) zg ∧
    (∀ a b, p.iloz ≤ a → a ≤ p.ihiz → p.ktop ≤ b → b ≤ p.kbot → zg a b = fin (applyR rs Z0 a b)) ∧
    ∀ a b, ¬ ((p.iloz ≤ a ∧ a ≤ p.ihiz) ∧ p.ktop ≤ b ∧ b ≤ p.kbot) → zg a b = ofList2 r z0.data a b
  else z = z0

/-- The work arrays have their dimensions. -/
structure Work5 {F : Type} [Scalar F] (ru cu rv cwv rh cwh : Nat) (s : Qr5S F) : Prop where
  u : IsMatrix s.u ru cu
  wv : IsMatrix s.wv rv cwv
  wh : IsMatrix s.wh rh cwh

theorem asUsize_pos {x : ℤ} {m : Nat} (h1 : 1 ≤ x) (h2 : x ≤ m) (h3 : m < 2 ^ 31) : ∃ d : Nat, asUsize x = d ∧ 0 < d ∧ x = d := by
  obtain ⟨d, rfl⟩ : ∃ d : Nat, x = d := ⟨x.toNat, by omega⟩
  exact ⟨d, asUsize_natCast (by omega), by omega, rfl⟩

/-- The products after a sweep. -/
theorem accumulate_ok {g0 : ℤ → ℤ → XR} {Z0 : ℤ → ℤ → ℝ} {z0 : FA XR} {rs0 : List Rfl5} (hd : Dim5 p r c ldv lo hi lo hi u sm B)
    (ha : Acc5 p r cz ru cu rv cwv rh cwh lo hi)
    (h : Sw5 p r c ldv cv rest lo hi H B ε X ru cu incol T0 Zq0 gS s1 k T Zq g t v2 v3 rs ug s)
    (hus : ru * cu < 2 ^ 31) (hwv : IsMatrix s1.wv rv cwv) (hwh : IsMatrix s1.wh rh cwh)
    (k1 : p.ktop - 1 ≤ incol) (k2 : incol + 2 ≤ p.kbot) (k3 : incol < k) (k5 : k ≤ incol + 2)
    (hS : ∀ a b, lo ≤ a → a ≤ hi → lo ≤ b → b ≤ hi → ¬ (jtop5 p incol ≤ a ∧ b ≤ jbot5 p incol) → gS a b = fin (T0 a b))
    (hO : OutR lo hi lo hi gS g0) (hz : ZInv p r cz Z0 z0 rs0 s1.z) :
    Tot (qr5Accumulate p incol s) fun s' => Work5 ru cu rv cwv rh cwh s' ∧ s'.sr = s1.sr ∧ s'.si = s1.si ∧ ZInv p r cz Z0 z0 (rs0 ++ rs) s'.z ∧
      ∃ g', Arr r c ldv cv rest lo hi lo hi p.ktop p.kbot k g0 s'.h s'.v T g' t v2 v3 := by
  have l1 := hd.lok; have l2 := hd.hik; have l3 := hd.fits.lo1; have l4 := hd.fits.hir; have l5 := hd.fits.hic
  have hkdu : p.kdu = 4 := by unfold Qr5P.kdu; rw [hd.nb]; norm_num
  have eu : s.u = s.u := rfl
  have ewv : s.wv = s1.wv := by rw [h.st]
  have ewh : s.wh = s1.wh := by rw [h.st]
  have ez : s.z = s1.z := by rw [h.st]
  obtain ⟨nu, hnu⟩ : ∃ nu : Nat, p.kdu - max 0 (incol + p.kdu - p.kbot) - kone5 p incol + 1 = nu :=
    ⟨(p.kdu - max 0 (incol + p.kdu - p.kbot) - kone5 p incol + 1).toNat, by rw [hkdu]; dsimp only [kone5]; omega⟩
  have hnu' := hnu
  rw [hkdu] at hnu'
  have hw2 : incol + kone5 p incol + nu - 1 = jbot5 p incol := by dsimp only [jbot5, kone5] at *; omega
  have hk1 : incol + kone5 p incol = max (incol + 1) p.ktop := by dsimp only [kone5]; omega
  have hU : UProd ru cu incol (kone5 p incol) nu rs s.u ug := by
    have := ha.ru4; have := ha.cu4
    refine ⟨h.um, hus, le_max_left _ _, ?_, ?_, ?_, by rw [hw2]; exact h.all, ?_⟩
    · dsimp only [kone5] at *; omega
    · dsimp only [kone5] at *; omega
    · dsimp only [kone5] at *; omega
    · intro i j i1 i2 j1 j2
      exact h.uon i j i1 (by omega) (by dsimp only [kone5] at *; omega) (by omega)
  obtain ⟨dh, edh, dh0, dh'⟩ := asUsize_pos ha.nh1 ha.nhc (lt_of_le_of_lt (Nat.le_mul_of_pos_left _ (by have := ha.rh4; omega)) hwh.small)
  obtain ⟨dv, edv, dv0, dv'⟩ := asUsize_pos ha.nv1 ha.nvr (lt_of_le_of_lt (Nat.le_mul_of_pos_right _ (by have := ha.cv4; omega)) hwv.small)
  have hc := ha.nhc; have hr := ha.nvr; have h4h := ha.rh4; have h4v := ha.cv4
  unfold qr5Accumulate
  dsimp only
  rw [hnu, ha.jt, ha.jb, edh, edv, hkdu, ha.lz, ha.lu, ha.lh, ha.lv, hd.ldh]
  -- columns to the right of the window
  refine Tot.bind (blockLoop (hz := true) (M := T0) (w1 := incol + kone5 p incol) (gx := fun s => s.h) (gw := fun s => s.wh)
    (put := fun s x w => { s with h := x, wh := w }) (fun _ _ _ => rfl) (fun _ _ _ => rfl) (fun _ _ _ _ _ => rfl) hU rfl dh0 (s0 := s) rfl h.arr.hm
    hd.fits.size (by rw [ewh]; exact hwh) (by omega) (by omega) ?_ ?_ ?_) ?_
  · rw [if_pos rfl]
    dsimp only [kone5, jbot5] at *
    omega
  · intro a b hR
    have hR' : (incol + kone5 p incol ≤ a ∧ a ≤ incol + kone5 p incol + nu - 1) ∧ min (incol + 4) p.kbot + 1 ≤ b ∧ b ≤ hi := hR
    rw [h.arr.out a b (by dsimp only [jbot5]; omega)]
    exact hS a b (by omega) (by dsimp only [jbot5] at *; omega) (by omega) (by omega) (by dsimp only [jbot5]; omega)
  · intro st i es
    rw [es, dh']
    rfl
  rintro s2 ⟨es2, mw2, g2, ig2, v2a, v2b⟩
  have hU2 : s2.u = s.u := by rw [es2]
  -- rows above the window
  refine Tot.bind (blockLoop (hz := false) (M := T0) (w1 := incol + kone5 p incol) (gx := fun s => s.h) (gw := fun s => s.wv)
    (put := fun s x w => { s with h := x, wv := w }) (fun _ _ _ => rfl) (fun _ _ _ => rfl) (fun _ _ _ _ _ => rfl) hU rfl dv0 (s0 := s2) (i1 := max p.ktop incol - 1) rfl ig2
    hd.fits.size (by rw [es2]; dsimp only; rw [ewv]; exact hwv) (by omega) (by omega) ?_ ?_ ?_) ?_
  · rw [if_neg (by simp)]
    dsimp only [kone5, jbot5] at *
    omega
  · intro a b hR
    have hR' : (lo ≤ a ∧ a ≤ max p.ktop incol - 1) ∧ incol + kone5 p incol ≤ b ∧ b ≤ incol + kone5 p incol + nu - 1 := hR
    rw [v2b a b, h.arr.out a b (by dsimp only [jtop5]; omega)]
    · exact hS a b (by omega) (by omega) (by omega) (by dsimp only [jbot5] at *; omega) (by dsimp only [jtop5]; omega)
    · intro hn
      have hn' : (incol + kone5 p incol ≤ a ∧ a ≤ incol + kone5 p incol + nu - 1) ∧ min (incol + 4) p.kbot + 1 ≤ b ∧ b ≤ hi := hn
      omega
  · intro st i es
    rw [es, dv', show max p.ktop incol - 1 - i + 1 = max p.ktop incol - i by ring]
    dsimp only
    rw [hU2]
    rfl
  rintro s3 ⟨es3, mw3, g3, ig3, v3a, v3b⟩
  have hU3 : s3.u = s.u := by rw [es3]; exact hU2
  have ez3 : s3.z = s1.z := by rw [es3]; dsimp only; rw [es2]; exact ez
  have key : ∀ a b, lo ≤ a → a ≤ hi → lo ≤ b → b ≤ hi → ¬ (jtop5 p incol ≤ a ∧ b ≤ jbot5 p incol) → g3 a b = fin (T a b) := by
    intro a b x1 x2 y1 y2 hn
    by_cases hc : (lo ≤ a ∧ a ≤ max p.ktop incol - 1) ∧ incol + kone5 p incol ≤ b ∧ b ≤ incol + kone5 p incol + nu - 1
    · rw [v3a a b hc, h.above a b (by dsimp only [jtop5]; omega)]
      rfl
    · rw [v3b a b hc]
      by_cases hc2 : (incol + kone5 p incol ≤ a ∧ a ≤ incol + kone5 p incol + nu - 1) ∧ min (incol + 4) p.kbot + 1 ≤ b ∧ b ≤ hi
      · rw [v2a a b hc2, h.right a b (by dsimp only [jbot5]; omega)]
        rfl
      · rw [v2b a b hc2, h.arr.out a b (by omega), hS a b x1 x2 y1 y2 hn]
        congr 1
        by_cases hj : a < jtop5 p incol
        · rw [h.above a b hj]
          exact (applyV_out h.all _ (by dsimp only [jtop5, jbot5] at *; omega)).symm
        · rw [h.right a b (by omega)]
          exact (applyV_out h.all (fun i => T0 i b) (by dsimp only [jtop5, jbot5] at *; omega)).symm
  have same : ∀ a b, (jtop5 p incol ≤ a ∧ b ≤ jbot5 p incol) ∨ ¬ (lo ≤ a ∧ a ≤ hi ∧ lo ≤ b ∧ b ≤ hi) → g3 a b = g a b := by
    intro a b hab
    rw [v3b a b, v2b a b]
    · intro hn
      have hn' : (incol + kone5 p incol ≤ a ∧ a ≤ incol + kone5 p incol + nu - 1) ∧ min (incol + 4) p.kbot + 1 ≤ b ∧ b ≤ hi := hn
      dsimp only [jtop5, jbot5] at *
      omega
    · intro hn
      have hn' : (lo ≤ a ∧ a ≤ max p.ktop incol - 1) ∧ incol + kone5 p incol ≤ b ∧ b ≤ incol + kone5 p incol + nu - 1 := hn
      dsimp only [jtop5, jbot5] at *
      omega
  have hArr : Arr r c ldv cv rest lo hi lo hi p.ktop p.kbot k g0 s3.h s3.v T g3 t v2 v3 := by
    have ev : s3.v = s.v := by rw [es3]; dsimp only; rw [es2]
    refine ⟨ig3, by rw [ev]; exact h.arr.vm, ?_, ?_, ?_⟩
    · intro a b x1 x2 y1 y2 hn
      by_cases hc : jtop5 p incol ≤ a ∧ b ≤ jbot5 p incol
      · rw [same a b (Or.inl hc)]
        exact h.arr.on a b hc.1 x2 y1 hc.2 hn
      · exact key a b x1 x2 y1 y2 hc
    · intro a b hab
      rw [same a b (Or.inr hab), h.arr.out a b (by dsimp only [jtop5, jbot5]; omega), hO a b hab]
    · intro q1 q2
      rw [same (k + 3) (k + 2) (Or.inl (by dsimp only [jtop5, jbot5]; omega))]
      exact h.arr.late q1 q2
  have hW3 : IsMatrix s3.wh rh cwh := by rw [es3]; exact mw2
  have hUM : IsMatrix s.u ru cu := ⟨h.um.rows, h.um.cols, by rw [h.um.data, length_tab2], hus⟩
  have esr : s3.sr = s1.sr := by rw [es3]; dsimp only; rw [es2]; dsimp only; rw [h.st]
  have esi : s3.si = s1.si := by rw [es3]; dsimp only; rw [es2]; dsimp only; rw [h.st]
  by_cases hwz : p.wantz = true
  · rw [if_pos hwz]
    obtain ⟨z1, z2, z3, z4⟩ := ha.z hwz
    unfold ZInv at hz
    rw [if_pos hwz] at hz
    obtain ⟨zg, iz, zon, zout⟩ := hz
    refine (blockLoop (hz := false) (M := applyR rs0 Z0) (w1 := incol + kone5 p incol) (gx := fun s => s.z) (gw := fun s => s.wv)
      (put := fun s x w => { s with z := x, wv := w }) (g := zg) (fun _ _ _ => rfl) (fun _ _ _ => rfl) (fun _ _ _ _ _ => rfl) hU rfl dv0 (s0 := s3) rfl (by rw [ez3]; exact iz)
      z4 mw3 (by omega) z1 ?_ ?_ ?_).mono ?_
    · rw [if_neg (by simp)]
      dsimp only [kone5, jbot5] at *
      omega
    · intro a b hR
      have hR' : (p.iloz ≤ a ∧ a ≤ p.ihiz) ∧ incol + kone5 p incol ≤ b ∧ b ≤ incol + kone5 p incol + nu - 1 := hR
      exact zon a b (by omega) (by omega) (by omega) (by dsimp only [jbot5] at *; omega)
    · intro st i es
      rw [es, dv']
      dsimp only
      rw [hU3]
      rfl
    rintro s4 ⟨es4, mw4, g4, ig4, v4a, v4b⟩
    refine ⟨⟨by rw [es4]; dsimp only; rw [hU3]; exact hUM, mw4, by rw [es4]; exact hW3⟩, by rw [es4]; exact esr, by rw [es4]; exact esi, ?_, g3, by rw [es4]; exact hArr⟩
    unfold ZInv
    rw [if_pos hwz]
    refine ⟨g4, ig4, ?_, ?_⟩
    · intro a b x1 x2 y1 y2
      rw [applyR_append]
      by_cases hc : (p.iloz ≤ a ∧ a ≤ p.ihiz) ∧ incol + kone5 p incol ≤ b ∧ b ≤ incol + kone5 p incol + nu - 1
      · rw [v4a a b hc]
        rfl
      · rw [v4b a b hc, zon a b x1 x2 y1 y2]
        congr 1
        exact (applyV_out h.all _ (by dsimp only [jbot5] at *; omega)).symm
    · intro a b hab
      rw [v4b a b, zout a b hab]
      intro hn
      have hn' : (p.iloz ≤ a ∧ a ≤ p.ihiz) ∧ incol + kone5 p incol ≤ b ∧ b ≤ incol + kone5 p incol + nu - 1 := hn
      exact hab (by dsimp only [jbot5] at *; omega)
  · rw [if_neg hwz]
    refine Tot.pure ⟨⟨by rw [hU3]; exact hUM, mw3, hW3⟩, esr, esi, ?_, g3, hArr⟩
    unfold ZInv at hz ⊢
    rw [if_neg hwz] at hz ⊢
    rw [ez3, hz]

/-- Between two sweeps. -/
structure Between5 (p : Qr5P XR) (r c ldv cv : Nat) (rest : List ℝ) (lo hi : ℤ) (H : ℤ → ℤ → ℝ) (B ε : ℝ) (X : ℤ → ℝ) (ru cu rv cwv rh cwh cz : Nat)
    (g0 : ℤ → ℤ → XR) (Z0 : ℤ → ℤ → ℝ) (s0 : Qr5S XR) (k : ℤ) (T Zq : ℤ → ℤ → ℝ) (g : ℤ → ℤ → XR) (t v2 v3 : ℝ) (rs : List Rfl5) (s : Qr5S XR) : Prop where
  arr : Arr r c ldv cv rest lo hi lo hi p.ktop p.kbot k g0 s.h s.v T g t v2 v3
  real : Real5 lo hi p.ktop p.kbot H B ε X k T Zq
  all : AllIn p.ktop p.kbot rs
  zq : Zq = applyR rs idT
  z : ZInv p r cz Z0 s0.z rs s.z
  work : Work5 ru cu rv cwv rh cwh s
  sr : s.sr = s0.sr
  si : s.si = s0.si

/-- One sweep with the products. -/
theorem incol_acc {g0 : ℤ → ℤ → XR} {Z0 : ℤ → ℤ → ℝ} {s0 : Qr5S XR} (hd : Dim5 p r c ldv lo hi lo hi u sm B) (ha : Acc5 p r cz ru cu rv cwv rh cwh lo hi)
    (hε : 6 * u * B + sm ≤ ε) (h0 : Start5 p.ktop p.kbot H s0 a1 b1 a2 b2)
    (h : Between5 p r c ldv cv rest lo hi H B ε (startX p.ktop p.kbot H a1 b1 a2 b2) ru cu rv cwv rh cwh cz g0 Z0 s0 incol T Zq g t v2 v3 rs s)
    (k1 : p.ktop - 1 ≤ incol) (k2 : incol + 2 ≤ p.kbot) :
    Tot (qr5Incol p s incol) fun s' => ∃ T Zq g t v2 v3 rs,
      Between5 p r c ldv cv rest lo hi H B ε (startX p.ktop p.kbot H a1 b1 a2 b2) ru cu rv cwv rh cwh cz g0 Z0 s0 (min (incol + 2) (p.kbot - 1)) T Zq g t v2 v3 rs s' := by
  have l1 := hd.lok; have l2 := hd.hik; have l3 := hd.fits.lo1
  have hkdu : p.kdu = 4 := by unfold Qr5P.kdu; rw [hd.nb]; norm_num
  have hus := h.work.u.small
  have hr4 : (4 : ℤ) ≤ ru := by exact_mod_cast ha.ru4
  obtain ⟨u1, eu1, iu1⟩ := dlasetFA_ok (uplo := 'A') (m := 4) (n := 4) (zero : XR) one h.work.u.rows (by have := ha.ru4; omega)
    (by have := ha.ru4; simp [touchedRows]; omega) (by rw [h.work.u.length]; exact hus)
    (lt_of_le_of_lt (Nat.mul_le_mul_left _ ha.cu4) hus)
  rw [h.work.u.cols, h.work.u.length] at iu1
  have eu2 : dlaset (F := XR) 'A' 4 4 zero one s.u = pure u1 := by
    show (dlasetFA 'A' 4 4 zero one s.u >>= _) = _
    rw [show (dlasetFA 'A' 4 4 (zero : XR) one s.u) = pure u1 from eu1, pure_bind]
    rfl
  unfold qr5Incol
  dsimp only
  rw [ha.acc, hkdu, hd.nb]
  simp only [if_true]
  rw [eu2, pure_bind]
  set s1 : Qr5S XR := { s with u := u1 } with hs1
  have h01 : Start5 p.ktop p.kbot H s1 a1 b1 a2 b2 := h0.of h.sr h.si
  have hstart : ∃ T' Zq' g' t v2 v3 rs ug, Sw5 p r c ldv cv rest lo hi H B ε (startX p.ktop p.kbot H a1 b1 a2 b2) ru cu incol T Zq g s1 incol T' Zq' g' t v2 v3 rs ug s1 := by
    refine ⟨T, Zq, g, t, v2, v3, [], _, ?_, h.real, fun r hr => by simp at hr, fun _ _ _ => rfl, fun _ _ _ => rfl, rfl, iu1, ?_, by rw [hs1]⟩
    · refine ⟨h.arr.hm, h.arr.vm, ?_, fun _ _ _ => rfl, h.arr.late⟩
      intro a b x1 x2 y1 y2 hn
      dsimp only [jtop5, jbot5] at *
      exact h.arr.on a b (by omega) x2 y1 (by omega) hn
    · intro i j x1 x2 y1 y2
      unfold kone5 at x1
      beta_reduce
      unfold applyR applyV idT
      simp only [List.foldl_nil]
      by_cases hij : i = j
      · rw [if_pos (by simp; omega), if_pos (by omega)]; simp
      · rw [if_neg (by omega), if_pos (by simp [uploLo, uploHi]; omega), if_neg (by omega)]; simp
  refine Tot.bind (P := fun s' => ∃ T' Zq' g' t v2 v3 rs ug, Sw5 p r c ldv cv rest lo hi H B ε (startX p.ktop p.kbot H a1 b1 a2 b2) ru cu incol T Zq g s1
    (min (incol + 2) (p.kbot - 1)) T' Zq' g' t v2 v3 rs ug s') ?_ ?_
  · have := Tot.forUp (P := fun k s' => ∃ T' Zq' g' t v2 v3 rs ug, Sw5 p r c ldv cv rest lo hi H B ε (startX p.ktop p.kbot H a1 b1 a2 b2) ru cu incol T Zq g s1
      k T' Zq' g' t v2 v3 rs ug s') (f := qr5Krcol p incol (max p.ktop incol)) (lo := incol) (hi := min (incol + 2 * 1 - 1) (p.kbot - 2)) (by omega) hstart
      (fun k s' q1 q2 h' => by
        obtain ⟨T', Zq', g', t, v2, v3, rs', ug, h'⟩ := h'
        exact krcol_acc hd ha hε h01 hus h' k1 q1 (by omega) (by omega))
    rwa [show min (incol + 2 * 1 - 1) (p.kbot - 2) + 1 = min (incol + 2) (p.kbot - 1) by omega] at this
  · rintro s2 ⟨T', Zq', g', t', v2', v3', rs', ug, h2⟩
    refine (accumulate_ok hd ha h2 hus h.work.wv h.work.wh k1 k2 (by omega) (by omega) ?_ h.arr.out h.z).mono ?_
    · intro a b x1 x2 y1 y2 hn
      refine h.arr.on a b x1 x2 y1 y2 fun hl => hn ?_
      dsimp only [jtop5, jbot5]
      omega
    · rintro s3 ⟨hw, e1, e2, hz, g3, hA⟩
      refine ⟨T', Zq', g3, t', v2', v3', rs ++ rs', hA, h2.real, h.all.append (h2.all.wider ?_ ?_), ?_, hz, hw, e1.trans h.sr, e2.trans h.si⟩
      · dsimp only [kone5]; omega
      · dsimp only [jbot5]; omega
      · rw [h2.zq, h.zq, applyR_append]

/-- All the sweeps. -/
theorem sweeps_acc {g0 : ℤ → ℤ → XR} {Z0 : ℤ → ℤ → ℝ} {s0 : Qr5S XR} (hd : Dim5 p r c ldv lo hi lo hi u sm B) (ha : Acc5 p r cz ru cu rv cwv rh cwh lo hi)
    (hε : 6 * u * B + sm ≤ ε) (h0 : Start5 p.ktop p.kbot H s0 a1 b1 a2 b2)
    (h : ∃ T Zq g t v2 v3 rs, Between5 p r c ldv cv rest lo hi H B ε (startX p.ktop p.kbot H a1 b1 a2 b2) ru cu rv cwv rh cwh cz g0 Z0 s0 (p.ktop - 1) T Zq g t v2 v3 rs s) :
    Tot (forStep (p.ktop - 2 * p.nbmps + 1) (p.kbot - 2) (2 * asUsize p.nbmps) s (qr5Incol p)) fun s' => ∃ T Zq g t v2 v3 rs,
      Between5 p r c ldv cv rest lo hi H B ε (startX p.ktop p.kbot H a1 b1 a2 b2) ru cu rv cwv rh cwh cz g0 Z0 s0 (p.kbot - 1) T Zq g t v2 v3 rs s' := by
  have hlt := hd.lt
  rw [hd.nb, show p.ktop - 2 * 1 + 1 = p.ktop - 1 by ring, show 2 * asUsize 1 = 2 from rfl]
  refine (Tot.forStep (P := fun i s => ∃ T Zq g t v2 v3 rs, Between5 p r c ldv cv rest lo hi H B ε (startX p.ktop p.kbot H a1 b1 a2 b2) ru cu rv cwv rh cwh cz g0 Z0 s0
      (min i (p.kbot - 1)) T Zq g t v2 v3 rs s) (by norm_num)
    (by rw [show min (p.ktop - 1) (p.kbot - 1) = p.ktop - 1 by omega]; exact h) fun i s i1 i2 hi' => ?_).mono ?_
  · rw [show min i (p.kbot - 1) = i by omega] at hi'
    obtain ⟨T, Zq, g, t, v2, v3, rs, hi'⟩ := hi'
    exact incol_acc hd ha hε h0 hi' i1 (by omega)
  · rintro s1 ⟨i, i1, i2, h⟩
    rwa [show min i (p.kbot - 1) = p.kbot - 1 by omega] at h

end

end Verif

import Verif.Lib.HqrF64j
import Verif.Lib.HqrOuter

/-!
# The outer loop of `dlahqr` on binary64
-/

namespace Verif
open F64 Scalar Spec Matrix XR

section
variable {lo hi i : ℤ} {T T' : ℤ → ℤ → ℝ} {wr wi : ℤ → ℝ}

theorem Spec.SchurF.congr (h : SchurF lo hi T wr wi) {wr' wi' : ℤ → ℝ} (eT : ∀ a b, lo ≤ a → lo ≤ b → T' a b = T a b)
    (er : ∀ j, lo ≤ j → wr' j = wr j) (ei : ∀ j, lo ≤ j → wi' j = wi j) : SchurF lo hi T' wr' wi' := by
  refine ⟨?_, ?_, ?_, ?_⟩
  · intro j j1 j2
    rw [eT _ _ (by omega) (by omega), eT _ _ (by omega) (by omega)]
    exact h.quasi j j1 j2
  · intro j j1 j2
    rw [eT _ _ (by omega) (by omega), er _ j1]
    exact h.re j j1 j2
  · intro j j1 j2 k1 k2
    rw [ei _ j1]
    refine h.real j j1 j2 (fun hl => ?_) (fun hl => ?_)
    · rw [← eT _ _ (by omega) (by omega)]; exact k1 hl
    · rw [← eT _ _ (by omega) (by omega)]; exact k2 hl
  · intro j j1 j2 hne
    rw [eT _ _ (by omega) (by omega)] at hne
    rw [eT _ _ (by omega) (by omega), eT _ _ (by omega) (by omega), eT _ _ (by omega) (by omega), eT _ _ (by omega) (by omega), ei _ j1, ei _ (by omega)]
    exact h.pair j j1 j2 hne

/-- A 1-by-1 block in front. -/
theorem Spec.SchurF.one (h : SchurF (i + 1) hi T wr wi) (hb : i < hi → T (i + 1) i = 0) :
    SchurF i hi T (fun j => if j = i then T i i else wr j) fun j => if j = i then 0 else wi j := by
  refine ⟨?_, ?_, ?_, ?_⟩
  · intro j j1 j2
    by_cases hj : j = i
    · rw [hj]; exact Or.inl (hb (by omega))
    · exact h.quasi j (by omega) j2
  · intro j j1 j2
    beta_reduce
    by_cases hj : j = i
    · rw [if_pos hj, hj]
    · rw [if_neg hj]; exact h.re j (by omega) j2
  · intro j j1 j2 k1 k2
    beta_reduce
    by_cases hj : j = i
    · rw [if_pos hj]
    · rw [if_neg hj]
      exact h.real j (by omega) j2 (fun hl => k1 (by omega)) k2
  · intro j j1 j2 hne
    beta_reduce
    have hj : j ≠ i := by rintro rfl; exact hne (hb j2)
    rw [if_neg hj, if_neg (by omega)]
    exact h.pair j (by omega) j2 hne

/-- A 2-by-2 block in front. -/
theorem Spec.SchurF.two (h : SchurF (i + 1) hi T wr wi) (hi2 : i ≤ hi) (hb : i < hi → T (i + 1) i = 0) {w1 w2 : ℝ}
    (h0 : T i (i - 1) = 0 → w1 = 0 ∧ w2 = 0)
    (hp : T i (i - 1) ≠ 0 → PairF (T (i - 1) (i - 1)) (T (i - 1) i) (T i (i - 1)) (T i i) w1 w2) :
    SchurF (i - 1) hi T (fun j => if j = i then T i i else if j = i - 1 then T (i - 1) (i - 1) else wr j)
      fun j => if j = i then w2 else if j = i - 1 then w1 else wi j := by
  have e1 : i - 1 + 1 = i := by ring
  refine ⟨?_, ?_, ?_, ?_⟩
  · intro j j1 j2
    by_cases hj : j = i
    · rw [hj]; exact Or.inl (hb (by omega))
    · by_cases hj' : j = i - 1
      · rw [hj', e1, show i - 1 + 2 = i + 1 by ring]; exact Or.inr (hb (by omega))
      · exact h.quasi j (by omega) j2
  · intro j j1 j2
    beta_reduce
    by_cases hj : j = i
    · rw [if_pos hj, hj]
    · rw [if_neg hj]
      by_cases hj' : j = i - 1
      · rw [if_pos hj', hj']
      · rw [if_neg hj']; exact h.re j (by omega) j2
  · intro j j1 j2 k1 k2
    beta_reduce
    by_cases hj : j = i
    · rw [if_pos hj]
      refine (h0 ?_).2
      rw [← hj]; exact k1 (by omega)
    · rw [if_neg hj]
      by_cases hj' : j = i - 1
      · rw [if_pos hj']
        refine (h0 ?_).1
        have := k2 (by omega)
        rwa [hj', e1] at this
      · rw [if_neg hj']
        exact h.real j (by omega) j2 (fun hl => k1 (by omega)) k2
  · intro j j1 j2 hne
    beta_reduce
    have hj : j ≠ i := by rintro rfl; exact hne (hb j2)
    rw [if_neg hj]
    by_cases hj' : j = i - 1
    · subst hj'
      rw [e1] at hne ⊢
      rw [if_pos rfl, if_pos rfl]
      exact hp hne
    · rw [if_neg hj', if_neg (by omega), if_neg (by omega)]
      exact h.pair j (by omega) j2 hne

end

/-- What is known of a recorded array of eigenvalue parts. -/
def WF (w : FA Float) (nw : Nat) (w0 : ℤ → Float) (i hi : ℤ) (wr : ℤ → ℝ) : Prop :=
  ∃ gr, Is1 w nw gr ∧ (∀ j, i < j → j ≤ hi → toXR (gr j) = fin (wr j)) ∧ ∀ j, ¬ (i < j ∧ j ≤ hi) → gr j = w0 j

theorem WF.set {w : FA Float} {nw : Nat} {w0 : ℤ → Float} {i hi : ℤ} {wr wr' : ℤ → ℝ} (h : WF w nw w0 i hi wr) (i1 : 1 ≤ i) (i2 : i ≤ hi) (hf : FitsI32 i) {x : Float} {X : ℝ}
    (hx : toXR x = fin X) (e1 : wr' i = X) (e2 : ∀ j, i < j → wr' j = wr j) : WF (w.set1 i x) nw w0 (i - 1) hi wr' := by
  obtain ⟨gr, h1, h2, h3⟩ := h
  refine ⟨_, set1_is1 h1 i1 hf x, ?_, ?_⟩
  · intro j j1 j2
    unfold upd
    by_cases hj : j = i
    · rw [if_pos hj, hx, hj, e1]
    · rw [if_neg hj, h2 j (by omega) j2, e2 j (by omega)]
  · intro j hj
    unfold upd
    rw [if_neg (by omega)]
    exact h3 j (by omega)

/-- Two values recorded in the order of the code: first `i - 1`, then `i`. -/
theorem WF.set_two {w : FA Float} {nw : Nat} {w0 : ℤ → Float} {i hi : ℤ} {wr : ℤ → ℝ} (h : WF w nw w0 i hi wr) (i1 : 2 ≤ i) (i2 : i ≤ hi) (hf : FitsI32 i) {x y : Float}
    {X Y : ℝ} (hx : toXR x = fin X) (hy : toXR y = fin Y) :
    WF ((w.set1 (i - 1) x).set1 i y) nw w0 (i - 2) hi (fun j => if j = i then Y else if j = i - 1 then X else wr j) := by
  obtain ⟨gr, h1, h2, h3⟩ := h
  refine ⟨_, set1_is1 (set1_is1 h1 (by omega) (by unfold FitsI32 at *; omega) x) (by omega) hf y, ?_, ?_⟩
  · intro j j1 j2
    unfold upd
    beta_reduce
    by_cases hj : j = i
    · rw [if_pos hj, if_pos hj, hy]
    · rw [if_neg hj, if_neg hj]
      by_cases hk : j = i - 1
      · rw [if_pos hk, if_pos hk, hx]
      · rw [if_neg hk, if_neg hk]; exact h2 j (by omega) j2
  · intro j hj
    unfold upd
    rw [if_neg (by omega), if_neg (by omega)]
    exact h3 j (by omega)

/-- What is known at the start of a round of the outer loop with active end `i`. -/
structure OutF (p : HqrP Float) (r c rz cz nr ni : Nat) (A : Matrix (Blk p.ilo p.ihi) (Blk p.ilo p.ihi) ℝ) (Z0 : ℤ → ℤ → ℝ) (zg0 : ℤ → ℤ → Float)
    (gr0 gi0 : ℤ → Float) (B C : ℝ) (n : ℕ) (i : ℤ) (T : ℤ → ℤ → ℝ) (wr wi : ℤ → ℝ) (a : HqrA Float) : Prop where
  ex : ∃ g, Is2 a.h r c (r * c) g ∧ Rel p.ilo p.ihi (xg g) T
  good : ∃ Q, Trk A Q (n * p.eps B) T ∧ ZF p rz cz zg0 Z0 (n * epsz C) Q a.z
  bot : p.ilo ≤ i → i < p.ihi → T (i + 1) i = 0
  schur : SchurF (i + 1) p.ihi T wr wi
  wr1 : WF a.wr nr gr0 i p.ihi wr
  wi1 : WF a.wi ni gi0 i p.ihi wi

section
variable {p : HqrP Float} {r c rz cz nr ni : Nat} {A : Matrix (Blk p.ilo p.ihi) (Blk p.ilo p.ihi) ℝ} {Z0 : ℤ → ℤ → ℝ} {zg0 : ℤ → ℤ → Float}
    {gr0 gi0 : ℤ → Float} {B C : ℝ} {N n n' : ℕ} {i : ℤ} {T : ℤ → ℤ → ℝ} {wr wi : ℤ → ℝ} {a : HqrA Float}

theorem OutF.mono (hb : Bd p A Z0 B C N) (hs : OutF p r c rz cz nr ni A Z0 zg0 gr0 gi0 B C n i T wr wi a) (hn : n ≤ n') :
    OutF p r c rz cz nr ni A Z0 zg0 gr0 gi0 B C n' i T wr wi a := by
  obtain ⟨Q, hG, hZ⟩ := hs.good
  have hn' : (n : ℝ) ≤ n' := by exact_mod_cast hn
  exact ⟨hs.ex, ⟨Q, hG.mono (mul_le_mul_of_nonneg_right hn' hb.eps0), hZ.mono (mul_le_mul_of_nonneg_right hn' (epsz_nonneg hb.c0))⟩,
    hs.bot, hs.schur, hs.wr1, hs.wi1⟩

theorem dim_fits (hd : Dim p r c rz cz) (h2 : i ≤ p.ihi) (h0 : 0 ≤ i) : FitsI32 i := by
  have := hd.lo1; have := hd.hir; have hsz := hd.size; have := hd.hic
  by_cases hc : c = 0
  · unfold FitsI32; omega
  · have : r ≤ r * c := Nat.le_mul_of_pos_right r (by omega)
    unfold FitsI32; omega

/-- Recording a 1-by-1 block. -/
theorem record_oneF (hd : Dim p r c rz cz) (hs : OutF p r c rz cz nr ni A Z0 zg0 gr0 gi0 B C n i T wr wi a) (h1 : p.ilo ≤ i) (h2 : i ≤ p.ihi)
    (htop : p.ilo < i → T i (i - 1) = 0) :
    Tot (hqrRecord p i i a) fun a' => ∃ T' wr' wi', OutF p r c rz cz nr ni A Z0 zg0 gr0 gi0 B C n (i - 1) T' wr' wi' a' := by
  obtain ⟨⟨g, hh, hR⟩, hgood, hbot, hS, hr, hi⟩ := hs
  have hlo1 := hd.lo1
  unfold hqrRecord
  rw [if_pos rfl, get2_is2 hh (hd.cell h1 h2 h1 h2) hd.size]
  have hf : FitsI32 i := dim_fits hd h2 (by omega)
  have hS' := hS.one (hbot h1)
  refine Tot.pure ⟨T, _, _, ⟨⟨g, hh, hR⟩, hgood, ?_, by rw [show i - 1 + 1 = i by ring]; exact hS', ?_, ?_⟩⟩
  · intro g1 g2
    rw [show i - 1 + 1 = i by ring]; exact htop (by omega)
  · exact hr.set (by omega) h2 hf (hR.low i i h1 (le_refl _) h2) (if_pos rfl) fun j hj => if_neg (by omega)
  · exact hi.set (by omega) h2 hf (by rw [toXR_fin toR_zero.1, toR_zero.2]) (if_pos rfl) fun j hj => if_neg (by omega)

theorem addBlk_out {l : ℤ} {e1 e2 e3 e4 : ℝ} {T : ℤ → ℤ → ℝ} {x y : ℤ} (h : ¬ (l ≤ x ∧ x ≤ l + 1) ∨ ¬ (l ≤ y ∧ y ≤ l + 1)) : addBlk l e1 e2 e3 e4 T x y = T x y := by
  unfold addBlk
  rw [if_neg (by omega), if_neg (by omega), if_neg (by omega), if_neg (by omega)]

theorem addBlk_in (l : ℤ) (e1 e2 e3 e4 : ℝ) (T : ℤ → ℤ → ℝ) : addBlk l e1 e2 e3 e4 T l l = T l l + e1 ∧ addBlk l e1 e2 e3 e4 T l (l + 1) = T l (l + 1) + e2 ∧
    addBlk l e1 e2 e3 e4 T (l + 1) l = T (l + 1) l + e3 ∧ addBlk l e1 e2 e3 e4 T (l + 1) (l + 1) = T (l + 1) (l + 1) + e4 := by
  unfold addBlk
  refine ⟨?_, ?_, ?_, ?_⟩
  · rw [if_neg (by omega), if_neg (by omega), if_neg (by omega), if_pos (by omega)]
  · rw [if_neg (by omega), if_neg (by omega), if_pos (by omega)]
  · rw [if_neg (by omega), if_pos (by omega)]
  · rw [if_pos (by omega)]

/-- Recording a 2-by-2 block. -/
theorem record_twoF (hd : Dim p r c rz cz) (hb : Bd p A Z0 B C N) (hld : p.ldh = r) (hnc : p.n ≤ c) (hz : p.wantz = true → p.iloz ≤ p.ihiz)
    (hs : OutF p r c rz cz nr ni A Z0 zg0 gr0 gi0 B C n i T wr wi a) (h1 : p.ilo < i) (h2 : i ≤ p.ihi) (hn : n + 1 ≤ N)
    (htop : p.ilo < i - 1 → T (i - 1) (i - 2) = 0) (hne : tiny ≤ |T i (i - 1)|) :
    Tot (hqrRecord p i (i - 1) a) fun a' => ∃ T' wr' wi', OutF p r c rz cz nr ni A Z0 zg0 gr0 gi0 B C (n + 1) (i - 2) T' wr' wi' a' := by
  obtain ⟨⟨g, hh, hR⟩, ⟨Q, hG, hZ⟩, hbot, hS, hr, hi⟩ := hs
  have hlo1 := hd.lo1
  have e1 : i - 1 + 1 = i := by ring
  have hf : FitsI32 i := dim_fits hd h2 (by omega)
  have t0 := tiny_pos'
  have hTn : T i (i - 1) ≠ 0 := by intro h0; rw [h0, abs_zero] at hne; linarith
  have hA : Active (i - 1) i (xg g) T := hR.active (by omega) h2 (fun j j1 j2 => by rw [show j = i by omega]; exact hTn)
  have bnd : ∀ x y, i - 1 ≤ x → x ≤ i → i - 1 ≤ y → y ≤ i → (g x y).isFinite = true ∧ toR (g x y) = T x y ∧ |T x y| ≤ B := by
    intro x y x1 x2 y1 y2
    obtain ⟨q1, q2⟩ := fin_toXR (hA x y x1 x2 y1 y2)
    exact ⟨q1, q2, hb.entry (by omega) hG (by omega) (by omega) (by omega) (by omega)⟩
  obtain ⟨fa, va, ma⟩ := bnd (i - 1) (i - 1) (by omega) (by omega) (by omega) (by omega)
  obtain ⟨fb, vb, mb⟩ := bnd (i - 1) i (by omega) (by omega) (by omega) (by omega)
  obtain ⟨fc, vc, mc⟩ := bnd i (i - 1) (by omega) (by omega) (by omega) (by omega)
  obtain ⟨fd, vd, md⟩ := bnd i i (by omega) (by omega) (by omega) (by omega)
  have hBb : B ≤ big := by have := hb.lim; have := hb.b0; linarith
  obtain ⟨a', b', c', d', cs, sn, eo, oa, ob, oc, od, ocs, osn, ⟨CS, SN, d1, d2, d3, d4, hcs, hsn, b1, b2, b3, b4, hrot⟩, hstd⟩ :=
    lanv2F fa fb fc fd (by rw [va]; exact ma) (by rw [vb]; exact mb) (by rw [vc]; exact mc) (by rw [vd]; exact md) hBb (by rw [vc]; exact hne)
  rw [va, vb, vc, vd] at hrot
  set T1 := addBlk (i - 1) d1 d2 d3 d4 T with hT1
  have hG1 : Trk A Q (n * p.eps B + 4 * (900 * ur * B)) T1 := hG.addBlk (i - 1) b1 b2 b3 b4
  obtain ⟨i1, i2, i3, i4⟩ := addBlk_in (i - 1) d1 d2 d3 d4 T
  simp only [← hT1, e1] at i1 i2 i3 i4
  have outT1 : ∀ x y, ¬ (i - 1 ≤ x ∧ x ≤ i) ∨ ¬ (i - 1 ≤ y ∧ y ≤ i) → T1 x y = T x y := fun x y h => by
    rw [hT1]; exact addBlk_out (by rw [e1]; exact h)
  have hblk := rotT_block (l := i - 1) (T := T1) (by rw [e1, i1, i2, i3, i4]; exact hrot)
  rw [e1] at hblk
  obtain ⟨t11, t12, t21, t22⟩ := hblk
  have cell : ∀ x y, i - 1 ≤ x → x ≤ i → i - 1 ≤ y → y ≤ i → Cell r (r * c) x y := fun x y x1 x2 y1 y2 =>
    hd.cell (by omega) (by omega) (by omega) (by omega)
  have get : ∀ x y, i - 1 ≤ x → x ≤ i → i - 1 ≤ y → y ≤ i → a.h.get2 x y = pure (g x y) := fun x y x1 x2 y1 y2 =>
    getF hd (by omega) h2 hh x1 x2 y1 y2
  set T' := rotT (i - 1) CS SN T1 with hT'
  have hTr : Trk A (Q * rotM p.ilo p.ihi (i - 1) CS SN) ((n + 1 : ℕ) * p.eps B) T' := by
    refine (hG1.rot (l := i - 1) (by omega) (by omega) hrot.unit).mono ?_
    have : 4 * (900 * ur * B) ≤ p.eps B := by
      unfold HqrP.eps
      have h1 := mul_nonneg ur_pos.le hb.b0
      have h2 := mul_nonneg (zero_le_one.trans hb.one_le) tiny_pos'.le
      linarith
    push_cast
    linarith
  have m12 : |toR b'| ≤ 2 ^ 1000 := by
    rw [← t12]; exact (hb.entry hn hTr (by omega) (by omega) (by omega) (by omega)).trans hBb
  have m21 : |toR c'| ≤ 2 ^ 1000 := by
    rw [← t21]; exact (hb.entry hn hTr (by omega) (by omega) (by omega) (by omega)).trans hBb
  obtain ⟨root0, root1⟩ := lanv2_roots (a := a') (d := d') (cs := cs) (sn := sn) ob oc m12 m21
  obtain ⟨w1, w2, eout, fw1, fw2, hw0, hwp⟩ : ∃ w1 w2 : Float, dlanv2 (g (i - 1) (i - 1)) (g (i - 1) i) (g i (i - 1)) (g i i) = ⟨a', b', c', d', a', w1, d', w2, cs, sn⟩ ∧
      w1.isFinite = true ∧ w2.isFinite = true ∧ (T' i (i - 1) = 0 → toR w1 = 0 ∧ toR w2 = 0) ∧
      (T' i (i - 1) ≠ 0 → PairF (T' (i - 1) (i - 1)) (T' (i - 1) i) (T' i (i - 1)) (T' i i) (toR w1) (toR w2)) := by
    rw [t11, t12, t21, t22]
    by_cases h0 : toR c' = 0
    · exact ⟨Scalar.zero, Scalar.zero, eo.trans (root0 h0), toR_zero.1, toR_zero.1, fun _ => ⟨toR_zero.2, toR_zero.2⟩, fun h => absurd h0 h⟩
    · obtain ⟨q1, q2⟩ := hstd h0
      obtain ⟨x, ex, fx, px, bx⟩ := root1 q1
      exact ⟨x, -x, eo.trans ex, fx, by rw [neg_finite]; exact fx, fun h => absurd h h0, fun _ => ⟨q1, q2, px, bx, neg_toR x⟩⟩
  unfold hqrRecord
  rw [if_neg (by omega), if_pos rfl]
  unfold hqrTwo
  rw [get _ _ (by omega) (by omega) (by omega) (by omega), get _ _ (by omega) (by omega) (by omega) (by omega),
    get _ _ (by omega) (by omega) (by omega) (by omega), get _ _ (by omega) (by omega) (by omega) (by omega)]
  simp only [pure_bind]
  rw [eout]
  simp only
  obtain ⟨k1, s1, q1⟩ := set2_is2 hh (cell (i - 1) (i - 1) (by omega) (by omega) (by omega) (by omega)) hd.size a'
  rw [s1]; simp only [pure_bind]
  obtain ⟨k2, s2, q2⟩ := set2_is2 q1 (cell (i - 1) i (by omega) (by omega) (by omega) (by omega)) hd.size b'
  rw [s2]; simp only [pure_bind]
  obtain ⟨k3, s3, q3⟩ := set2_is2 q2 (cell i (i - 1) (by omega) (by omega) (by omega) (by omega)) hd.size c'
  rw [s3]; simp only [pure_bind]
  obtain ⟨k4, s4, q4⟩ := set2_is2 q3 (cell i i (by omega) (by omega) (by omega) (by omega)) hd.size d'
  rw [s4]; simp only [pure_bind]
  obtain ⟨k5, g5, s5, q5, f5⟩ := hqrRotH_ok q4 hd.size p hld (i := i) (by omega) (by have := hd.hir; omega) (by have := hd.hic; omega) hnc cs sn
  simp only [if_pos hd.wantt]
  rw [s5]; simp only [pure_bind]
  -- `T'` away from the window
  have outT : ∀ x y, ¬ (i - 1 ≤ x ∧ x ≤ i) → ¬ (i - 1 ≤ y ∧ y ≤ i) → T' x y = T x y := by
    intro x y nx ny
    rw [← outT1 x y (Or.inl nx), hT']; unfold rotT
    rw [rotv_ne (by omega) (by omega), rotv_ne (by omega) (by omega)]
  have dz : ∀ x y, ¬ (i - 1 ≤ y ∧ y ≤ i) → T (i - 1) y = 0 → T i y = 0 → T' x y = T x y := by
    intro x y ny z1 z2
    rw [← outT1 x y (Or.inr ny), hT']; unfold rotT
    rw [rotv_ne (by omega) (by omega), rotv_zero (x := fun a => T1 a y) (by rw [outT1 _ _ (Or.inr ny)]; exact z1) (by rw [e1, outT1 _ _ (Or.inr ny)]; exact z2)]
  have dz' : ∀ x y, ¬ (i - 1 ≤ x ∧ x ≤ i) → T x (i - 1) = 0 → T x i = 0 → T' x y = T x y := by
    intro x y nx z1 z2
    rw [← outT1 x y (Or.inl nx), hT']; unfold rotT
    rw [rotv_zero (by rw [rotv_ne (by omega) (by omega), outT1 _ _ (Or.inl nx)]; exact z1) (by rw [rotv_ne (by omega) (by omega), e1, outT1 _ _ (Or.inl nx)]; exact z2),
      rotv_ne (by omega) (by omega)]
  have D1 : ∀ x y, i - 1 ≤ x → x ≤ p.ihi → p.ilo ≤ y → y < i - 1 → T x y = 0 := fun x y x1 x2 y1 y2 =>
    hR.cross (d := i - 1) (fun h => by rw [show i - 1 - 1 = i - 2 by ring]; exact htop h) x1 x2 y1 y2
  have D2 : ∀ x y, i < x → x ≤ p.ihi → p.ilo ≤ y → y ≤ i → T x y = 0 := fun x y x1 x2 y1 y2 =>
    hR.cross (d := i + 1) (fun h => by rw [show i + 1 - 1 = i by ring]; exact hbot (by omega) (by omega)) (by omega) x2 y1 (by omega)
  have dec1 : ∀ x y, i - 1 ≤ x → x ≤ p.ihi → p.ilo ≤ y → y < i - 1 → T' x y = 0 := fun x y x1 x2 y1 y2 => by
    rw [dz x y (by omega) (D1 _ _ (by omega) (by omega) y1 y2) (D1 _ _ (by omega) (by omega) y1 y2)]
    exact D1 x y x1 x2 y1 y2
  have dec2 : ∀ x y, i < x → x ≤ p.ihi → p.ilo ≤ y → y ≤ i → T' x y = 0 := fun x y x1 x2 y1 y2 => by
    rw [dz' x y (by omega) (D2 _ _ (by omega) (by omega) (by omega) (by omega)) (D2 _ _ (by omega) (by omega) (by omega) (by omega))]
    exact D2 x y x1 x2 y1 y2
  have win : ∀ x y, i - 1 ≤ x → x ≤ i → i - 1 ≤ y → y ≤ i → xg g5 x y = fin (T' x y) := by
    intro x y x1 x2 y1 y2
    unfold xg
    rw [f5 x y (by omega)]
    unfold upd2
    rcases (by omega : x = i - 1 ∨ x = i) with hx | hx <;> rcases (by omega : y = i - 1 ∨ y = i) with hy | hy
    · rw [if_neg (by omega), if_neg (by omega), if_neg (by omega), if_pos ⟨hx, hy⟩, hx, hy, t11, toXR_fin oa]
    · rw [if_neg (by omega), if_neg (by omega), if_pos ⟨hx, hy⟩, hx, hy, t12, toXR_fin ob]
    · rw [if_neg (by omega), if_pos ⟨hx, hy⟩, hx, hy, t21, toXR_fin oc]
    · rw [if_pos ⟨hx, hy⟩, hx, hy, t22, toXR_fin od]
  have outg : ∀ x y, ¬ (i - 1 ≤ x ∧ x ≤ i ∧ i - 1 ≤ y ∧ y ≤ i) → (y ≤ i ∨ i < x) → xg g5 x y = xg g x y := by
    intro x y hw hor
    unfold xg
    rw [f5 x y (by omega)]
    unfold upd2
    rw [if_neg (by omega), if_neg (by omega), if_neg (by omega), if_neg (by omega)]
  have hR' : Rel p.ilo p.ihi (xg g5) T' := rel_of_win hR (by omega) (by omega) h2 win outg outT dec1 dec2 (fun x y y1 y2 x2 => by omega) D1 D2
  have hS2 : SchurF (i + 1) p.ihi T' wr wi := hS.congr (fun x y x1 y1 => outT x y (by omega) (by omega)) (fun _ _ => rfl) (fun _ _ => rfl)
  have hS3 := hS2.two h2 (fun h => dec2 (i + 1) i (by omega) (by omega) (by omega) (le_refl _)) hw0 hwp
  have fin_ok : ∀ z' : FA Float, ZF p rz cz zg0 Z0 ((n + 1 : ℕ) * epsz C) (Q * rotM p.ilo p.ihi (i - 1) CS SN) z' →
      ∃ T'' wr' wi', OutF p r c rz cz nr ni A Z0 zg0 gr0 gi0 B C (n + 1) (i - 2) T'' wr' wi' ⟨k5, (a.wr.set1 (i - 1) a').set1 i d',
        (a.wi.set1 (i - 1) w1).set1 i w2, z'⟩ := by
    intro z' hz'
    refine ⟨T', _, _, ⟨⟨g5, q5, hR'⟩, ⟨_, hTr, hz'⟩, ?_, by rw [show i - 2 + 1 = i - 1 by ring]; exact hS3, ?_, ?_⟩⟩
    · intro g1 g2
      rw [show i - 2 + 1 = i - 1 by ring]
      exact dec1 (i - 1) (i - 2) (le_refl _) (by omega) g1 (by omega)
    · exact hr.set_two (by omega) h2 hf (by rw [t11, toXR_fin oa]) (by rw [t22, toXR_fin od])
    · exact hi.set_two (by omega) h2 hf (toXR_fin fw1) (toXR_fin fw2)
  by_cases hw : p.wantz = true
  · simp only [if_pos hw]
    obtain ⟨zg, z1, z2, z3⟩ := hZ hw
    obtain ⟨z', ez, z1'⟩ := hqrRotZ_ok z1 hd.zsize p (i := i) (hd.z1 hw) (hz hw) (hd.zr hw) (by omega) (by have := hd.zc hw; omega) cs sn
    rw [ez]; simp only [pure_bind]
    refine Tot.pure (fin_ok z' fun _ => ⟨_, z1', ?_, ?_⟩)
    · intro x x1 x2
      have hrow := (z2 x x1 x2).rot (l := i - 1) hG.orth (hb.z (by omega) hw x1 x2) hb.zlim (by omega) (by omega) ocs osn hrot.unit hcs hsn
      have ef : (fun y => if p.iloz ≤ x ∧ x ≤ p.ihiz then (if y = i - 1 then cs * zg x (i - 1) + sn * zg x i else if y = i then cs * zg x i - sn * zg x (i - 1) else zg x y) else zg x y) =
          rotF (i - 1) cs sn (zg x) := by
        funext y
        unfold rotF
        rw [if_pos ⟨x1, x2⟩, e1]
      have hrow' := hrow.mono (δ' := (n + 1 : ℕ) * epsz C) (by push_cast; linarith)
      rw [← ef] at hrow'
      exact hrow'
    · intro x y hxy
      beta_reduce
      by_cases hx : p.iloz ≤ x ∧ x ≤ p.ihiz
      · rw [if_pos hx, if_neg (by omega), if_neg (by omega)]; exact z3 x y hxy
      · rw [if_neg hx]; exact z3 x y hxy
  · simp only [if_neg hw, pure_bind]
    exact Tot.pure (fin_ok a.z fun h => absurd h hw)

/-- The ticks one round of the outer loop takes. -/
def HqrP.tick (p : HqrP Float) : ℕ := (p.itmax + 1) * (p.ihi - p.ilo + 1).toNat + 1

/-- The result of the outer loop.  On failure `h` and `z` may hold anything, NaN included; the eigenvalues found before are those of the
state before the last round. -/
def ResF (p : HqrP Float) (r c rz cz nr ni : Nat) (A : Matrix (Blk p.ilo p.ihi) (Blk p.ilo p.ihi) ℝ) (Z0 : ℤ → ℤ → ℝ) (zg0 : ℤ → ℤ → Float)
    (gr0 gi0 : ℤ → Float) (B C : ℝ) (N : ℕ) (q : HqrOut Float) : Prop :=
  (p.ilo < q.2 ∧ q.2 ≤ p.ihi ∧ ∃ T wr wi a, OutF p r c rz cz nr ni A Z0 zg0 gr0 gi0 B C N q.2 T wr wi a ∧ a.wr = q.1.wr ∧ a.wi = q.1.wi) ∨
    q.2 = 0 ∧ ∃ T wr wi, OutF p r c rz cz nr ni A Z0 zg0 gr0 gi0 B C N (p.ilo - 1) T wr wi q.1

theorem outerF (hd : Dim p r c rz cz) (hb : Bd p A Z0 B C N) (hp : PF p) (hld : p.ldh = r) (hnc : p.n ≤ c) (hz : p.wantz = true → p.iloz ≤ p.ihiz)
    (fuel : Nat) (n : ℕ) (i k m : ℤ) (hi : i ≤ p.ihi) (hi2 : p.ilo - 1 ≤ i) (hn : n + (i - p.ilo + 1).toNat * p.tick ≤ N)
    (hk : i = p.ilo → k = p.ilo + 1) (T : ℤ → ℤ → ℝ) (wr wi : ℤ → ℝ) (a : HqrA Float) (v : FA Float) (hv : ∃ x y w, WorkG v x y w)
    (hO : OutF p r c rz cz nr ni A Z0 zg0 gr0 gi0 B C n i T wr wi a) :
    Run (hqrOuter p fuel a v m k i) (ResF p r c rz cz nr ni A Z0 zg0 gr0 gi0 B C N) := by
  have hlo1 := hd.lo1
  have hnh2 := hb.nh2
  induction fuel generalizing n i k m T wr wi a v with
  | zero => exact Run.timeout
  | succ fuel ih =>
    rcases (by omega : i = p.ilo - 1 ∨ i = p.ilo ∨ p.ilo < i) with h0 | h0 | h0
    · unfold hqrOuter
      rw [if_pos (by omega)]
      refine Run.of_tot (Tot.pure (Or.inr ⟨rfl, T, wr, wi, ?_⟩))
      rw [← h0]
      exact hO.mono hb (by omega)
    · obtain ⟨g, hh, _⟩ := hO.ex
      rw [h0, hk h0, hqrOuter_stuck (N := p.ihi) p (fuel + 1) a v m g hh hd.size (fun x y x1 x2 y1 y2 =>
        cell_rc x1 (by have := hd.hir; omega) y1 (by have := hd.hic; omega)) hd.lo1 (by omega)]
      exact Run.timeout
    · have hO0 := hO
      obtain ⟨hex, hgood, hbot, hS, hr1, hi1⟩ := hO
      have hn1 : n + p.tick ≤ N := by
        have : 1 * p.tick ≤ (i - p.ilo + 1).toNat * p.tick := Nat.mul_le_mul_right _ (by omega)
        omega
      unfold hqrOuter
      rw [if_neg (by omega)]
      refine Run.bind (innerF hd hb hp (T0 := T) hi p.itmax 0 n ⟨a.h, a.z, v, m, k, p.ilo, 0⟩ h0 T
        ⟨hex, hgood, hv, le_refl _, fun h => absurd h (lt_irrefl _), fun h => hbot (by omega) h, fun _ _ _ _ => rfl⟩ (by unfold HqrP.tick at hn1; omega)) fun q hq => ?_
      by_cases hits : q.2 ≥ p.itmax
      · simp only [if_pos hits]
        exact Run.of_tot (Tot.pure (Or.inl ⟨h0, hi, T, wr, wi, a, hO0.mono hb (by omega), rfl, rfl⟩))
      · simp only [if_neg hits]
        rcases hq with hq | ⟨kl, l1, l2, T', I, hnz⟩
        · omega
        have hS' : SchurF (i + 1) p.ihi T' wr wi := hS.congr (fun x y x1 y1 => I.same x y (by omega) (by omega)) (fun _ _ => rfl) (fun _ _ => rfl)
        have hO' : OutF p r c rz cz nr ni A Z0 zg0 gr0 gi0 B C (n + (p.itmax + 1) * (p.ihi - p.ilo + 1).toNat) i T' wr wi { a with h := q.1.h, z := q.1.z } :=
          ⟨I.ex, I.good, fun _ h => I.bot h, hS', hr1, hi1⟩
        have hlo := I.lo
        have step : Tot (hqrRecord p i q.1.l { a with h := q.1.h, z := q.1.z }) fun a' => ∃ T' wr' wi',
            OutF p r c rz cz nr ni A Z0 zg0 gr0 gi0 B C (n + p.tick) (q.1.l - 1) T' wr' wi' a' := by
          rcases (by omega : q.1.l = i ∨ q.1.l = i - 1) with hc | hc
          · rw [hc]
            exact (record_oneF hd hO' (by omega) hi (fun h => by have := I.top; rw [hc] at this; exact this h)).mono
              fun _ ⟨T1, w1, w2, h⟩ => ⟨T1, w1, w2, h.mono hb (by unfold HqrP.tick; omega)⟩
          · rw [hc, show i - 1 - 1 = i - 2 by ring]
            exact (record_twoF hd hb hld hnc hz hO' h0 hi (by unfold HqrP.tick at hn1; omega)
              (fun h => by have := I.top; rw [hc, show i - 1 - 1 = i - 2 by ring] at this; exact this h)
              (hnz i (by omega) (le_refl _))).mono fun _ ⟨T1, w1, w2, h⟩ => ⟨T1, w1, w2, h.mono hb (by unfold HqrP.tick; omega)⟩
        refine Run.bind step fun a' ha' => ?_
        obtain ⟨T2, wr2, wi2, O2⟩ := ha'
        refine ih (n + p.tick) (q.1.l - 1) q.1.k q.1.m (by omega) (by omega) ?_ (by omega) T2 wr2 wi2 a' q.1.v I.work O2
        have : ((q.1.l - 1 - p.ilo + 1).toNat + 1) * p.tick ≤ (i - p.ilo + 1).toNat * p.tick := Nat.mul_le_mul_right _ (by omega)
        rw [Nat.add_mul, Nat.one_mul] at this
        omega

end

end Verif

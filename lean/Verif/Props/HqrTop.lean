import Verif.Props.HqrExact
import Verif.Props.HqrStuckF64
import Verif.Lib.HqrTop
import Verif.Props.GemmF64

/-!
# `dlahqr` cannot succeed when its first subdiagonal element is negligible (C67), and returns on a block of order two
exactly when the subdiagonal element is not negligible (C52)
-/

namespace Verif
open Scalar XR Spec

section generic
variable {F : Type} [Scalar F]

theorem cellOf_entry {h : FA F} {r : Nat} {a b : Int} {x : F} (e : Entry h r a b x) : cellOf r h a b = x := by
  unfold cellOf
  rw [List.getD_eq_getElem?_getD, e]; rfl

theorem clear_cell {h h' : FA F} {r c : Nat} {ilo ihi : Int} {g' : Int → Int → F} (hM : IsMatrix h r c) (hr : 0 < r) (hh' : Is2 h' r c (r * c) g')
    (hg : ∀ a b : Int, a ≤ b + 1 → g' a b = ofList2 r h.data a b) {a b : Int} (hab : a ≤ b + 1) (a1 : 1 ≤ a) (a2 : a ≤ r) (b1 : 1 ≤ b) (b2 : b ≤ c) {x : F}
    (e : Entry h r a b x) : Entry h' r a b x := by
  rw [entry_is2 hh' a1 a2 b1 b2, hg a b hab]
  exact (entry_is2 (is2_of_matrix hM hr) a1 a2 b1 b2 x).1 e

theorem shape_is2 {h : FA F} {r c : Nat} {g : Int → Int → F} (hh : Is2 h r c (r * c) g) (hs : r * c < 2 ^ 31) : HqrShape h r c :=
  ⟨hh.rows, hh.cols, by rw [hh.data]; unfold tab2; simp, hs⟩

/-- After clearing, the first subdiagonal element of the active block is still negligible. -/
theorem clear_top {ilo ihi : Int} {h : FA F} {r c : Nat} (hM : IsMatrix h r c) (h1 : 1 ≤ ilo) (h2 : ilo < ihi) (h3 : ihi ≤ r) (h4 : ihi ≤ c)
    (p : HqrP F) (hp : p.ilo = ilo) {x11 x12 x21 x22 : F} (e11 : Entry h r ilo ilo x11) (e12 : Entry h r ilo (ilo + 1) x12) (e21 : Entry h r (ilo + 1) ilo x21)
    (e22 : Entry h r (ilo + 1) (ilo + 1) x22) (hst : Stop p x11 x12 x21 x22) :
    ∃ h' g', hqrClear ilo ihi h = pure h' ∧ Is2 h' r c (r * c) g' ∧ HqrShape h' r c ∧ TopNegl p r h' := by
  have hr : 0 < r := by omega
  have hcell : ∀ a b : Int, 1 ≤ a → a ≤ ihi → 1 ≤ b → b ≤ ihi → Cell r (r * c) a b := fun a b ha1 ha2 hb1 hb2 =>
    cell_of_matrix ha1 (by omega) hb1 (by omega)
  obtain ⟨h', g', e, hh', hg'⟩ := hqrClear_ok (N := ihi) ilo ihi h _ (is2_of_matrix hM hr) hM.small hcell h1 (le_refl _)
  refine ⟨h', g', e, hh', shape_is2 hh' hM.small, ?_⟩
  unfold TopNegl
  rw [hp, cellOf_entry (clear_cell (ilo := ilo) (ihi := ihi) hM hr hh' hg' (by omega) (by omega) (by omega) (by omega) (by omega) e11),
    cellOf_entry (clear_cell (ilo := ilo) (ihi := ihi) hM hr hh' hg' (by omega) (by omega) (by omega) (by omega) (by omega) e12),
    cellOf_entry (clear_cell (ilo := ilo) (ihi := ihi) hM hr hh' hg' (by omega) (by omega) (by omega) (by omega) (by omega) e21),
    cellOf_entry (clear_cell (ilo := ilo) (ihi := ihi) hM hr hh' hg' (by omega) (by omega) (by omega) (by omega) (by omega) e22)]
  exact hst

variable {WR WI Z : Type} [ToFA F WR] [FromFA F WR] [ToFA F WI] [FromFA F WI] [ToFA F Z] [FromFA F Z]

theorem dlahqr_top (fuel : Nat) (wantt wantz : Bool) (n : Int) (hn : n ≠ 0) (ilo ihi : Int) (h : FA F) (r c : Nat) (hM : IsMatrix h r c) (h1 : 1 ≤ ilo) (h2 : ilo < ihi)
    (h3 : ihi ≤ r) (h4 : ihi ≤ c) (h5 : n ≤ c) (ldh : Int) (wr : WR) (wi : WI) (iloz ihiz : Int) (z : Z) (ldz : Int)
    {x11 x12 x21 x22 : F} (e11 : Entry h r ilo ilo x11) (e12 : Entry h r ilo (ilo + 1) x12) (e21 : Entry h r (ilo + 1) ilo x21)
    (e22 : Entry h r (ilo + 1) (ilo + 1) x22) (h0 : (abs (zero : F) ≤ᶠ hqrSmall ilo ihi) = true)
    (hst : Stop (hqrParams wantt wantz n ilo ihi ldh iloz ihiz) x11 x12 x21 x22) :
    Post (dlahqr (F := F) fuel wantt wantz n ilo ihi h ldh wr wi iloz ihiz z ldz) fun ret => ilo ≤ ret.info := by
  obtain ⟨h', g', e, hh', hs, ht⟩ := clear_top hM h1 h2 h3 h4 _ rfl e11 e12 e21 e22 hst
  unfold dlahqr
  rw [if_neg hn]
  simp only
  rw [if_neg (by omega)]
  unfold hqrMain
  simp only [show ToFA.toFa h = h from rfl, e, pure_bind]
  refine Post.bind (outer_top h0 h1 h3 h4 h5 (by show ilo + 1 ≤ ihi; omega) fuel _ _ _ _ _ hs ht (le_refl _) (by show ilo ≤ ihi; omega)
    (fun hc => absurd hc (by show ihi ≠ ilo; omega))) fun q hq => ?_
  obtain ⟨a, info⟩ := q
  refine Post.bind' fun _ => Post.bind' fun _ => Post.bind' fun _ => Post.bind' fun _ => Post.pure hq

/-- **C67** (any arithmetic).  If the first subdiagonal element of the active block (of order at least two) is at most the threshold in
absolute value, `dlahqr` never returns with `info = 0`: it runs forever, panics, or reports a failure to converge. -/
theorem C67_dlahqr_never_succeeds (fuel : Nat) (wantt wantz : Bool) (n : Int) (hn : n ≠ 0) (ilo ihi : Int) (h : FA F) (r c : Nat) (hM : IsMatrix h r c) (h1 : 1 ≤ ilo)
    (h2 : ilo < ihi) (h3 : ihi ≤ r) (h4 : ihi ≤ c) (h5 : n ≤ c) (ldh : Int) (wr : WR) (wi : WI) (iloz ihiz : Int) (z : Z) (ldz : Int)
    (h0 : (abs (zero : F) ≤ᶠ hqrSmall ilo ihi) = true) {x : F} (e : Entry h r (ilo + 1) ilo x) (hx : (abs x ≤ᶠ hqrSmall ilo ihi) = true) (pr : Profile)
    (ret : HqrRet (FA F) WR WI Z) (hret : dlahqr (F := F) fuel wantt wantz n ilo ihi h ldh wr wi iloz ihiz z ldz pr = .ok ret) : ilo ≤ ret.info := by
  have hr : 0 < r := by omega
  have at_ : ∀ a b : Int, 1 ≤ a → a ≤ r → 1 ≤ b → b ≤ c → Entry h r a b (ofList2 r h.data a b) := fun a b a1 a2 b1 b2 =>
    (entry_is2 (is2_of_matrix hM hr) a1 a2 b1 b2 _).2 rfl
  exact dlahqr_top fuel wantt wantz n hn ilo ihi h r c hM h1 h2 h3 h4 h5 ldh wr wi iloz ihiz z ldz (at_ ilo ilo (by omega) (by omega) (by omega) (by omega))
    (at_ ilo (ilo + 1) (by omega) (by omega) (by omega) (by omega)) e (at_ (ilo + 1) (ilo + 1) (by omega) (by omega) (by omega) (by omega)) h0 (Or.inl hx) pr ret hret

/-- A negligible subdiagonal element of a block of order two: the outer loop never ends. -/
theorem dlahqr_two_stuck (fuel : Nat) (wantt wantz : Bool) (n : Int) (hn : n ≠ 0) (ilo : Int) (h : FA F) (r c : Nat) (hM : IsMatrix h r c) (h1 : 1 ≤ ilo)
    (h3 : ilo + 1 ≤ r) (h4 : ilo + 1 ≤ c) (ldh : Int) (wr : WR) (wi : WI) (iloz ihiz : Int) (z : Z) (ldz : Int)
    {x11 x12 x21 x22 : F} (e11 : Entry h r ilo ilo x11) (e12 : Entry h r ilo (ilo + 1) x12) (e21 : Entry h r (ilo + 1) ilo x21)
    (e22 : Entry h r (ilo + 1) (ilo + 1) x22)
    (hst : Stop (hqrParams wantt wantz n ilo (ilo + 1) ldh iloz ihiz) x11 x12 x21 x22) :
    dlahqr (F := F) fuel wantt wantz n ilo (ilo + 1) h ldh wr wi iloz ihiz z ldz = R.timeout := by
  obtain ⟨h', g', e, hh', hs, ht⟩ := clear_top hM h1 (show ilo < ilo + 1 by omega) h3 h4 _ rfl e11 e12 e21 e22 hst
  set p : HqrP F := hqrParams wantt wantz n ilo (ilo + 1) ldh iloz ihiz with hp
  have pilo : p.ilo = ilo := rfl
  have pihi : p.ihi = ilo + 1 := rfl
  have hcell : ∀ a b : Int, 1 ≤ a → a ≤ ilo + 1 → 1 ≤ b → b ≤ ilo + 1 → Cell r (r * c) a b := fun a b ha1 ha2 hb1 hb2 =>
    cell_of_matrix ha1 (by omega) hb1 (by omega)
  have hsearch : ∀ k, hqrSearch p h' [ilo + 1] k = pure (ilo + 1) := by
    intro k
    unfold hqrSearch
    rw [get2_cellOf hs (by omega) (by omega) (by omega) (by omega), pure_bind]
    unfold TopNegl at ht
    rw [pilo] at ht
    simp only [show ilo + 1 - 1 = ilo by ring]
    by_cases hn : (abs (cellOf r h' (ilo + 1) ilo) ≤ᶠ p.smlnum) = true
    · rw [if_pos hn]
    · rw [if_neg hn]
      rw [get2_cellOf hs (by omega) (by omega) (by omega) (by omega), pure_bind, get2_cellOf hs (by omega) (by omega) (by omega) (by omega), pure_bind]
      rcases ht with ht | ⟨t0, t1, t2⟩
      · exact absurd ht hn
      · rw [if_neg (by rw [t0]; simp), pure_bind]
        rw [if_pos t1, get2_cellOf hs (by omega) (by omega) (by omega) (by omega), pure_bind, if_pos t2]
  have key : ∀ fuel a v m k, a.h = h' → hqrOuter p fuel a v m k (ilo + 1) = R.timeout := by
    intro fuel a v m k ha
    cases fuel with
    | zero => rfl
    | succ fuel =>
      obtain ⟨h2, e2, hh2⟩ := set2_is2 hh' (hcell (ilo + 1) (ilo + 1 - 1) (by omega) (by omega) (by omega) (by omega)) hM.small zero
      have hdef : hqrDeflate p (ilo + 1) ⟨a.h, a.z, v, m, k, p.ilo, 0⟩ = pure ⟨h2, a.z, v, m, ilo + 1, ilo + 1, 0⟩ := by
        unfold hqrDeflate
        simp only [pilo]
        rw [irange_snoc (le_refl _), irange_empty (by omega)]
        simp only [List.nil_append, List.reverse_cons, List.reverse_nil]
        rw [ha, hsearch, pure_bind]
        rw [if_pos (by omega), e2, pure_bind]
      rw [hqrOuter, if_neg (by omega), hqrInner_now p _ _ _ _ _ hdef (by simp only; omega)]
      simp only [pure_bind]
      have hit : 300 ≤ p.itmax := by unfold HqrP.itmax; omega
      rw [if_neg (by omega)]
      unfold hqrRecord
      rw [if_pos rfl, get2_is2 hh2 (hcell (ilo + 1) (ilo + 1) (by omega) (by omega) (by omega) (by omega)) hM.small]
      simp only [pure_bind]
      rw [show ilo + 1 - 1 = ilo by ring]
      exact hqrOuter_stuck (N := ilo + 1) p fuel _ v m _ hh2 hM.small hcell h1 (le_refl _)
  unfold dlahqr
  rw [if_neg hn]
  simp only
  rw [if_neg (by omega)]
  unfold hqrMain
  simp only [show ToFA.toFa h = h from rfl, e, pure_bind]
  rw [key fuel _ _ _ _ rfl]
  rfl

end generic

namespace Spec

/-- The subdiagonal element `c` of the 2-by-2 matrix with rows `(a, b)` and `(c, d)` is negligible: it is tiny, or small next to the
diagonal while the product `b c` is small next to `d (a - d)` (the criterion of Ahues and Tisseur). -/
def Negligible (small u a b c d : ℝ) : Prop :=
  |c| ≤ small ∨ (|c| ≤ u * (|a| + |d|) ∧ |b * c| ≤ max (small * (max |b| |c| + max |d| |a - d|)) (u * |d * (a - d)|))

end Spec

theorem crit_iff {p : HqrP XR} {sm u : ℝ} (hu : p.ulp = fin u) (hsm : p.smlnum = fin sm) (a b c d : ℝ) (hc : c ≠ 0) :
    hqrCrit p (fin c) (fin b) (fin d) (fin a) = true ↔ |b * c| ≤ max (sm * (max |b| |c| + max |d| |a - d|)) (u * |d * (a - d)|) := by
  have hpos : 0 < max |d| |a - d| + max |c| |b| := by
    have h1 : 0 < |c| := abs_pos.2 hc
    have h2 := le_max_left |c| |b|
    have h3 : 0 ≤ max |d| |a - d| := (abs_nonneg d).trans (le_max_left _ _)
    linarith
  unfold hqrCrit
  rw [hu, hsm]
  simp only [fin_abs, fin_sub, fin_fmax, fin_fmin, fin_add]
  rw [fin_div _ _ hpos.ne', fin_div _ _ hpos.ne']
  simp only [fin_mul, fin_fmax, fin_le, decide_eq_true_eq]
  have e1 : min |c| |b| * max |c| |b| = |b * c| := by rw [min_mul_max, abs_mul, mul_comm]
  have e2 : min |d| |a - d| * max |d| |a - d| = |d * (a - d)| := by rw [min_mul_max, abs_mul]
  rw [← mul_div_assoc, ← mul_div_assoc, e1, e2, max_comm |b| |c|, add_comm (max |c| |b|)]
  generalize max |d| |a - d| + max |c| |b| = s at *
  rw [div_le_iff₀ hpos, max_mul_of_nonneg _ _ hpos.le]
  rw [show u * (|d * (a - d)| / s) * s = u * |d * (a - d)| by field_simp]

theorem stop_iff {p : HqrP XR} {sm u : ℝ} (hu : p.ulp = fin u) (hsm : p.smlnum = fin sm) (hsm0 : 0 ≤ sm) (a b c d : ℝ) :
    Stop p (fin a) (fin b) (fin c) (fin d) ↔ Negligible sm u a b c d := by
  unfold Stop Negligible
  rw [hsm]
  simp only [fin_abs, fin_le, decide_eq_true_eq]
  by_cases h1 : |c| ≤ sm
  · simp [h1]
  · have hc : c ≠ 0 := by
      intro h; rw [h, abs_zero] at h1; exact h1 hsm0
    rw [crit_iff hu hsm a b c d hc, hu, zero_eq]
    simp only [fin_add, fin_mul, fin_le, fin_beq, decide_eq_true_eq, decide_eq_false_iff_not]
    constructor
    · rintro (h | ⟨-, h2, h3⟩)
      · exact Or.inl h
      · exact Or.inr ⟨h2, h3⟩
    · rintro (h | ⟨h2, h3⟩)
      · exact Or.inl h
      · refine Or.inr ⟨fun h0 => ?_, h2, h3⟩
        rw [h0, mul_zero] at h2
        exact hc (abs_eq_zero.1 (le_antisymm h2 (abs_nonneg _)))

section two
variable {p : HqrP XR} {r c rz cz nr ni : Nat} {A : Matrix (Blk p.ilo p.ihi) (Blk p.ilo p.ihi) ℝ} {Z0 : ℤ → ℤ → ℝ} {zg0 : ℤ → ℤ → XR}
  {gr0 gi0 : ℤ → XR} {B u sm : ℝ}

theorem outer_two_iff (hd : Dim p r c rz cz) (hlh : p.ihi = p.ilo + 1) (hld : p.ldh = r) (hn : p.n ≤ c) (hz : p.wantz = true → p.iloz ≤ p.ihiz) (hB : B ≤ 2 ^ 500)
    (hu : p.ulp = fin u) (hsm : p.smlnum = fin sm) (hsm0 : 0 ≤ sm) (fuel : Nat) (δ : ℝ) (k m : ℤ)
    (T : ℤ → ℤ → ℝ) (wr wi : ℤ → ℝ) (a : HqrA XR) (v : FA XR)
    (hO : Out p r c rz cz nr ni A Z0 zg0 gr0 gi0 B δ p.ihi T wr wi a)
    (hbig : ¬ Negligible sm u (T p.ilo p.ilo) (T p.ilo p.ihi) (T p.ihi p.ilo) (T p.ihi p.ihi)) :
    Tot (hqrOuter p (fuel + 2) a v m k p.ihi) fun q => q.2 = 0 := by
  have hlo1 := hd.lo1
  obtain ⟨⟨g, hh, hR⟩, ⟨Zq, hG, hZ⟩, hbot, hS, hr1, hi1⟩ := id hO
  have hbig1 : ¬ |T p.ihi p.ilo| ≤ sm := fun h => hbig (Or.inl h)
  have hne' : T p.ihi p.ilo ≠ 0 := by
    intro h; rw [h, abs_zero] at hbig1; exact hbig1 hsm0
  have hne : T p.ihi (p.ihi - 1) ≠ 0 := by
    rw [show p.ihi - 1 = p.ilo by omega]
    exact hne'
  have low : ∀ a' b', p.ilo ≤ b' → b' ≤ a' → a' ≤ p.ihi → a.h.get2 a' b' = pure (fin (T a' b')) := by
    intro a' b' b1 hba a2
    rw [get2_is2 hh (hd.cell (by omega) (by omega) (by omega) (by omega)) hd.size, hR.low a' b' b1 hba a2]
  have up : a.h.get2 p.ilo p.ihi = pure (fin (T p.ilo p.ihi)) := by
    rw [get2_is2 hh (hd.cell (by omega) (by omega) (by omega) (by omega)) hd.size, hR.up p.ilo p.ihi (le_refl _) (by omega) (le_refl _)
      fun d d1 d2 => by rw [show d = p.ihi by omega]; exact hne]
  have hstop : ¬ Stop p (fin (T p.ilo p.ilo)) (fin (T p.ilo p.ihi)) (fin (T p.ihi p.ilo)) (fin (T p.ihi p.ihi)) := by
    rw [stop_iff hu hsm hsm0]; exact hbig
  have hsearch : hqrSearch p a.h [p.ihi] k = pure p.ilo := by
    have e1 : p.ihi - 1 = p.ilo := by omega
    unfold hqrSearch
    rw [e1, low _ _ (le_refl _) (by omega) (le_refl _), pure_bind]
    unfold Stop at hstop
    push Not at hstop
    obtain ⟨s1, s2⟩ := hstop
    rw [if_neg s1, low _ _ (le_refl _) (le_refl _) (by omega), pure_bind, low _ _ (by omega) (le_refl _) (le_refl _), pure_bind]
    simp only
    by_cases h0 : (Scalar.abs (fin (T p.ilo p.ilo)) + Scalar.abs (fin (T p.ihi p.ihi)) =ᶠ (zero : XR)) = true
    · rw [if_pos h0, if_neg (by omega), pure_bind, if_neg (by omega), pure_bind]
      rw [if_neg, hqrSearch]
      intro h1
      rw [hu, zero_eq] at *
      simp only [fin_abs, fin_add, fin_beq, fin_mul, fin_le, decide_eq_true_eq] at h0 h1
      rw [h0, mul_zero] at h1
      exact hne' (abs_eq_zero.1 (le_antisymm h1 (abs_nonneg _)))
    · rw [if_neg h0, pure_bind]
      by_cases h1 : (Scalar.abs (fin (T p.ihi p.ilo)) ≤ᶠ p.ulp * (Scalar.abs (fin (T p.ilo p.ilo)) + Scalar.abs (fin (T p.ihi p.ihi)))) = true
      · rw [if_pos h1, up, pure_bind, if_neg (s2 (by simpa using h0) h1), hqrSearch]
      · rw [if_neg h1, hqrSearch]
  have hdef : hqrDeflate p p.ihi ⟨a.h, a.z, v, m, k, p.ilo, 0⟩ = pure ⟨a.h, a.z, v, m, p.ilo, p.ilo, 0⟩ := by
    unfold hqrDeflate
    simp only
    rw [show p.ilo + 1 = p.ihi by omega, irange_snoc (le_refl _), irange_empty (by omega)]
    simp only [List.nil_append, List.reverse_cons, List.reverse_nil]
    rw [hsearch, pure_bind, if_neg (by omega), pure_bind]
  rw [hqrOuter.eq_def]
  simp only
  rw [if_neg (by omega), hqrInner_now p _ _ _ _ _ hdef (by simp only; omega)]
  simp only [pure_bind]
  have hit : ¬ 0 ≥ p.itmax := by
    unfold HqrP.itmax
    have := le_max_right ((p.ihi - p.ilo + 1).toNat) 10
    omega
  rw [if_neg hit]
  have hrec := record_two hd hld hn hz hB hO (by omega) (le_refl _) (fun h => by omega) hne
  rw [show p.ihi - 1 = p.ilo by omega] at hrec
  refine Tot.bind hrec fun a' _ => ?_
  rw [hqrOuter.eq_def]
  simp only
  rw [if_pos (by omega)]
  exact Tot.pure rfl

end two

section
variable (fuel : Nat) (wantz : Bool) (n ilo : ℤ) (h : FA XR) (r c : Nat) (wr wi : List XR) (iloz ihiz : ℤ) (z : FA XR) (rz cz : Nat) (ldz : ℤ)

theorem two_small (ilo : ℤ) : (1 : ℝ) / 2 ^ 1022 * (((ilo + 1 - ilo + 1 : ℤ) : ℝ) / (1 / 2 ^ 52)) = 1 / 2 ^ 969 := by
  rw [show ilo + 1 - ilo + 1 = 2 by ring]
  rw [show (1022 : ℕ) = 969 + 53 from rfl, pow_add]
  generalize (2 : ℝ) ^ 969 = w at *
  rw [Int.cast_ofNat, one_div, one_div, one_div, mul_inv, mul_assoc, show ((2 : ℝ) ^ 53)⁻¹ * (2 / (2 ^ 52)⁻¹) = 1 by norm_num, mul_one]

/-- **C52** (order two).  On an active block of order two `dlahqr` returns, with `info = 0`, if the subdiagonal element is not negligible;
if it is, `dlahqr` never returns. -/
theorem C52_dlahqr_two_iff (hM : IsMatrix h r c) (h1 : 1 ≤ ilo) (h3 : ilo + 1 ≤ n) (h4 : n ≤ r) (h5 : n ≤ c) {A : ℤ → ℤ → ℝ}
    (hA : HessInput h r ilo (ilo + 1) A) (hN : fro (block ilo (ilo + 1) A) ≤ 2 ^ 500)
    (hz : wantz = true → IsMatrix z rz cz ∧ 1 ≤ iloz ∧ iloz ≤ ihiz ∧ ihiz ≤ rz ∧ ilo + 1 ≤ cz) {Z0 : ℤ → ℤ → ℝ}
    (hZ : wantz = true → ∀ a b, iloz ≤ a → a ≤ ihiz → ilo ≤ b → b ≤ ilo + 1 → Entry z rz a b (fin (Z0 a b))) (pr : Profile) :
    (¬ Negligible (1 / 2 ^ 969) (1 / 2 ^ 52) (A ilo ilo) (A ilo (ilo + 1)) (A (ilo + 1) ilo) (A (ilo + 1) (ilo + 1)) →
      ∃ ret : HqrRet (FA XR) (List XR) (List XR) (FA XR),
        dlahqr (F := XR) (fuel + 2) true wantz n ilo (ilo + 1) h (r : ℤ) wr wi iloz ihiz z ldz pr = .ok ret ∧ ret.info = 0) ∧
    (Negligible (1 / 2 ^ 969) (1 / 2 ^ 52) (A ilo ilo) (A ilo (ilo + 1)) (A (ilo + 1) ilo) (A (ilo + 1) (ilo + 1)) →
      dlahqr (F := XR) fuel true wantz n ilo (ilo + 1) h (r : ℤ) wr wi iloz ihiz z ldz = R.timeout) := by
  obtain ⟨h', e, hd, hulp, hsm, hO⟩ := dlahqr_setup wantz n ilo (ilo + 1) h r c wr wi iloz ihiz z rz cz hM h1 (by omega) h3 h4 h5 hA hz hZ
  rw [two_small] at hsm
  refine ⟨fun hbig => ?_, fun hneg => ?_⟩
  · have main := outer_two_iff hd rfl rfl (show n ≤ (c : ℤ) from h5) (fun hw => (hz hw).2.2.1) hN hulp hsm
      (by positivity) fuel 0 (ilo + 1) 0 A _ _ _ (faOfVec [zero, zero, zero]) hO hbig
    have : Tot (dlahqr (F := XR) (fuel + 2) true wantz n ilo (ilo + 1) h (r : ℤ) wr wi iloz ihiz z ldz) fun ret => ret.info = 0 := by
      unfold dlahqr
      rw [if_neg (by omega)]
      simp only
      rw [if_neg (by omega)]
      unfold hqrMain
      simp only [show ToFA.toFa h = h from rfl, e, pure_bind]
      exact Tot.bind main fun q hq => Tot.pure hq
    exact this pr
  · have en : ∀ a b, ilo ≤ a → a ≤ ilo + 1 → ilo ≤ b → b ≤ ilo + 1 → Entry h r a b (fin (A a b)) := fun a b a1 a2 b1 b2 =>
      hA.entry a b a1 a2 b1 b2 (by omega) (by omega)
    exact dlahqr_two_stuck fuel true wantz n (by omega) ilo h r c hM h1 (by omega) (by omega) r wr wi iloz ihiz z ldz
      (en _ _ (by omega) (by omega) (by omega) (by omega)) (en _ _ (by omega) (by omega) (by omega) (by omega))
      (en _ _ (by omega) (by omega) (by omega) (by omega)) (en _ _ (by omega) (by omega) (by omega) (by omega)) ((stop_iff hulp hsm (by positivity) _ _ _ _).2 hneg)

end

/-- **C67** (exact arithmetic).  If the first subdiagonal element of the active block is negligible, `dlahqr` never returns with `info = 0`. -/
theorem C67_dlahqr_never_succeeds_exact (fuel : Nat) (wantz : Bool) (n ilo ihi : ℤ) (h : FA XR) (r c : Nat) (wr wi : List XR) (iloz ihiz : ℤ) (z : FA XR) (ldz : ℤ)
    (hM : IsMatrix h r c) (h1 : 1 ≤ ilo) (h2 : ilo < ihi) (h3 : ihi ≤ r) (h4 : ihi ≤ c) (hn : n ≠ 0) (h5 : n ≤ c) {x11 x12 x21 x22 : ℝ}
    (e11 : Entry h r ilo ilo (fin x11)) (e12 : Entry h r ilo (ilo + 1) (fin x12)) (e21 : Entry h r (ilo + 1) ilo (fin x21))
    (e22 : Entry h r (ilo + 1) (ilo + 1) (fin x22)) (wantt : Bool)
    (hneg : Negligible (((ihi - ilo + 1 : ℤ) : ℝ) / 2 ^ 970) (1 / 2 ^ 52) x11 x12 x21 x22) (pr : Profile) (ldh : ℤ)
    (ret : HqrRet (FA XR) (List XR) (List XR) (FA XR))
    (hret : dlahqr (F := XR) fuel wantt wantz n ilo ihi h ldh wr wi iloz ihiz z ldz pr = .ok ret) : ilo ≤ ret.info := by
  obtain ⟨hulp, hsm⟩ : (hqrParams (F := XR) wantt wantz n ilo ihi ldh iloz ihiz).ulp = fin (1 / 2 ^ 52) ∧
      (hqrParams (F := XR) wantt wantz n ilo ihi ldh iloz ihiz).smlnum = fin (((ihi - ilo + 1 : ℤ) : ℝ) / 2 ^ 970) := by
    refine ⟨dlamch_P, ?_⟩
    show (dlamch 'S' : XR) * (ofInt (ihi - ilo + 1) / dlamch 'P') = _
    rw [dlamch_S, dlamch_P, ofInt_eq, fin_div _ _ (by positivity), fin_mul, show (1022 : ℕ) = 970 + 52 from rfl, pow_add]
    generalize (2 : ℝ) ^ 970 = w
    rw [one_div, mul_inv]
    congr 1
    ring
  have hs0 : (0 : ℝ) ≤ ((ihi - ilo + 1 : ℤ) : ℝ) / 2 ^ 970 := by
    have : (0 : ℝ) ≤ ((ihi - ilo + 1 : ℤ) : ℝ) := by exact_mod_cast (by omega : (0 : ℤ) ≤ ihi - ilo + 1)
    positivity
  refine dlahqr_top fuel wantt wantz n hn ilo ihi h r c hM h1 h2 h3 h4 h5 ldh wr wi iloz ihiz z ldz e11 e12 e21 e22 ?_
    ((stop_iff hulp hsm hs0 _ _ _ _).2 hneg) pr ret hret
  rw [show (hqrSmall ilo ihi : XR) = fin (((ihi - ilo + 1 : ℤ) : ℝ) / 2 ^ 970) from hsm, zero_eq]
  simp only [fin_abs, fin_le, abs_zero, decide_eq_true_eq]
  exact hs0

namespace F64

/-- **C67** (binary64).  If the first subdiagonal element of the active block is finite and at most `nh * 2^-970` in absolute value (in
particular if it is zero), where `nh` is the order of the block, `dlahqr` never returns with `info = 0`. -/
theorem C67_dlahqr_never_succeeds_f64 {WR WI Z : Type} [ToFA Float WR] [FromFA Float WR] [ToFA Float WI] [FromFA Float WI] [ToFA Float Z]
    [FromFA Float Z] (fuel : Nat) (wantt wantz : Bool) (n : Int) (hn : n ≠ 0) (ilo ihi : Int) (h : FA Float) (r c : Nat) (hM : IsMatrix h r c) (h1 : 1 ≤ ilo)
    (h2 : ilo < ihi) (h3 : ihi ≤ r) (h4 : ihi ≤ c) (h5 : n ≤ c) (ldh : Int) (wr : WR) (wi : WI) (iloz ihiz : Int) (z : Z) (ldz : Int)
    {x : Float} (e : Entry h r (ilo + 1) ilo x) (hf : x.isFinite = true) (hx : |toR x| ≤ ((ihi - ilo + 1 : ℤ) : ℝ) * (2 : ℝ) ^ (-970 : ℤ)) (pr : Profile)
    (ret : HqrRet (FA Float) WR WI Z) (hret : dlahqr (F := Float) fuel wantt wantz n ilo ihi h ldh wr wi iloz ihiz z ldz pr = .ok ret) : ilo ≤ ret.info := by
  have hb : r * c < 2 ^ 31 := hM.small
  have hr : ihi.toNat < 2 ^ 31 := by
    have : ihi.toNat * 1 ≤ r * c := Nat.mul_le_mul (by omega) (by omega)
    omega
  obtain ⟨v1, v2⟩ := hqrSmall_val ilo ihi (by omega) (by omega)
  have hle : ∀ y : Float, y.isFinite = true → |toR y| ≤ ((ihi - ilo + 1 : ℤ) : ℝ) * (2 : ℝ) ^ (-970 : ℤ) → (Scalar.abs y ≤ᶠ (hqrSmall ilo ihi : Float)) = true :=
    fun y hy hy' => (le_iff (x := y.abs) (y := hqrSmall ilo ihi) (by rw [abs_finite]; exact hy) v1).2 (by rw [abs_toR, v2]; exact hy')
  refine C67_dlahqr_never_succeeds fuel wantt wantz n hn ilo ihi h r c hM h1 h2 h3 h4 h5 ldh wr wi iloz ihiz z ldz ?_ e (hle x hf hx) pr ret hret
  refine hle _ (show (0 : Float).isFinite = true from toR_zero.1) ?_
  rw [show toR (zero : Float) = 0 from toR_zero.2, abs_zero]
  have : (0 : ℝ) ≤ ((ihi - ilo + 1 : ℤ) : ℝ) := by exact_mod_cast (by omega : (0 : ℤ) ≤ ihi - ilo + 1)
  exact mul_nonneg this (zp _).le

/-- A 3-by-3 Hessenberg matrix whose first subdiagonal element is zero and whose second is not: rows `(1, 2, 3)`, `(0, 4, 5)`, `(0, 6, 7)`. -/
def splitTop : FA Float := { data := [1, 0, 0, 2, 4, 6, 3, 5, 7], rows := 3, cols := 3, defaultValue := 0 }

/-- The hypotheses of C67 are met by a matrix that is easy to reduce: `dlahqr` never succeeds on it. -/
theorem C67_example (fuel : Nat) (pr : Profile) (ret : HqrRet (FA Float) (List Float) (List Float) (FA Float))
    (hret : dlahqr (F := Float) fuel true false 3 1 3 splitTop 3 [0, 0, 0] [0, 0, 0] 1 3 splitTop 3 pr = .ok ret) : ret.info ≠ 0 := by
  have := C67_dlahqr_never_succeeds_f64 fuel true false 3 (by norm_num) 1 3 splitTop 3 3 ⟨rfl, rfl, rfl, by norm_num⟩ (by norm_num) (by norm_num) (by norm_num)
    (by norm_num) (by norm_num) 3 [0, 0, 0] [0, 0, 0] 1 3 splitTop 3 (x := 0) rfl toR_zero.1 (by
      rw [show toR (0 : Float) = 0 from toR_zero.2, abs_zero]; exact mul_nonneg (by norm_num) (zp _).le) pr ret hret
  omega

end F64

/-! ### Both sides of C52 occur with a subdiagonal element of `2^-53` -/

/-- The 2-by-2 matrix with rows `(1, b)` and `(2^-53, 2)`. -/
noncomputable def graded (b : ℝ) : FA XR := { data := [fin 1, fin (1 / 2 ^ 53), fin b, fin 2], rows := 2, cols := 2, defaultValue := fin 0 }

noncomputable def gradedA (b : ℝ) (i j : ℤ) : ℝ := if i = 1 ∧ j = 1 then 1 else if i = 2 ∧ j = 1 then 1 / 2 ^ 53 else if i = 1 ∧ j = 2 then b else if i = 2 ∧ j = 2 then 2 else 0

theorem graded_input (b : ℝ) : HessInput (graded b) 2 1 (1 + 1) (gradedA b) := by
  refine ⟨?_, ?_⟩
  · intro i j i1 i2 j1 j2 _ _
    obtain rfl | rfl : i = 1 ∨ i = 2 := by omega
    all_goals obtain rfl | rfl : j = 1 ∨ j = 2 := by omega
    all_goals simp [Entry, graded, gradedA]
  · intro i j hij
    unfold gradedA
    repeat' rw [if_neg (by omega)]

theorem graded_fro {b : ℝ} (hb : |b| ≤ 100) : fro (block 1 (1 + 1) (gradedA b)) ≤ 2 ^ 500 := by
  refine le_trans (b := (2 : ℝ) ^ 20) ?_ (pow_le_pow_right₀ (by norm_num) (by norm_num))
  unfold fro
  rw [Real.sqrt_le_left (by norm_num)]
  have e : ∀ f : ℤ → ℝ, ∑ a : Blk 1 (1 + 1), f a = f 1 + f 2 := fun f => by
    rw [Finset.sum_coe_sort (Finset.Icc (1 : ℤ) (1 + 1)) f, sum_Icc_cons (by norm_num), show (1 : ℤ) + 1 = 2 by norm_num, Finset.Icc_self, Finset.sum_singleton]
  have e2 : ∑ i : Blk 1 (1 + 1), ∑ j : Blk 1 (1 + 1), block 1 (1 + 1) (gradedA b) i j ^ 2 = 1 + b ^ 2 + ((1 / 2 ^ 53) ^ 2 + 4) := by
    have := e fun i => ∑ j : Blk 1 (1 + 1), gradedA b i j ^ 2
    refine this.trans ?_
    rw [e fun j => gradedA b 1 j ^ 2, e fun j => gradedA b 2 j ^ 2]
    norm_num [gradedA]
  have hb2 : b ^ 2 ≤ 100 ^ 2 := by rw [← sq_abs b]; gcongr
  rw [e2]
  norm_num at *
  linarith

/-- With `b = 1` the element `2^-53` is negligible and `dlahqr` does not return; with `b = 100` it is not, and `dlahqr` returns. -/
theorem C52_both (pr : Profile) :
    (∀ fuel, dlahqr (F := XR) fuel true false 2 1 2 (graded 1) 2 [fin 0, fin 0] [fin 0, fin 0] 1 1 (graded 1) 2 = (R.timeout : R (HqrRet (FA XR) (List XR) (List XR) (FA XR)))) ∧
    ∃ ret : HqrRet (FA XR) (List XR) (List XR) (FA XR),
      dlahqr (F := XR) 2 true false 2 1 2 (graded 100) 2 [fin 0, fin 0] [fin 0, fin 0] 1 1 (graded 100) 2 pr = .ok ret ∧ ret.info = 0 := by
  have hsmall : (1 : ℝ) / 2 ^ 969 ≤ 1 / 2 ^ 100 := by
    apply one_div_le_one_div_of_le (by positivity)
    exact pow_le_pow_right₀ (by norm_num) (by norm_num)
  have use := fun fuel b (hb : |b| ≤ 100) => C52_dlahqr_two_iff fuel false 2 1 (graded b) 2 2 [fin 0, fin 0] [fin 0, fin 0] 1 1 (graded b) 2 2 2 ⟨rfl, rfl, rfl, by norm_num⟩ (by norm_num)
    (by norm_num) (by norm_num) (by norm_num) (graded_input b) (graded_fro hb) (fun h => by cases h) (Z0 := fun _ _ => 0) (fun h => by cases h) pr
  have hpos : (0 : ℝ) ≤ 1 / 2 ^ 969 := by positivity
  refine ⟨fun fuel => (use fuel 1 (by norm_num)).2 ?_, (use 0 100 (by norm_num)).1 ?_⟩
  · refine Or.inr ⟨?_, le_max_of_le_right ?_⟩
    · norm_num [gradedA]
    · norm_num [gradedA]
  · rw [Negligible, not_or]
    have a1 : |gradedA 100 (1 + 1) 1| = 1 / 2 ^ 53 := by norm_num [gradedA]
    have a2 : |gradedA 100 1 (1 + 1) * gradedA 100 (1 + 1) 1| = 100 / 2 ^ 53 := by norm_num [gradedA]
    have a3 : max |gradedA 100 1 (1 + 1)| |gradedA 100 (1 + 1) 1| + max |gradedA 100 (1 + 1) (1 + 1)| |gradedA 100 1 1 - gradedA 100 (1 + 1) (1 + 1)| = 102 := by
      norm_num [gradedA]
    have a4 : |gradedA 100 (1 + 1) (1 + 1) * (gradedA 100 1 1 - gradedA 100 (1 + 1) (1 + 1))| = 2 := by norm_num [gradedA]
    rw [a2, a3, a4, a1]
    generalize (1 : ℝ) / 2 ^ 969 = w at *
    refine ⟨fun h => ?_, fun h => ?_⟩
    · have := h.trans hsmall
      norm_num at this
    · rcases le_max_iff.1 h.2 with h | h
      · have : (100 : ℝ) / 2 ^ 53 ≤ 1 / 2 ^ 100 * 102 := h.trans (by gcongr)
        norm_num at this
      · norm_num at h

end Verif

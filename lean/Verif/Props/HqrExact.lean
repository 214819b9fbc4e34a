import Verif.Lib.HqrOuter
import Verif.Lib.SchurDet

/-!
# `dlahqr` in exact arithmetic: what it computes when it returns (C49–C52)
-/

namespace Verif
open Scalar XR

namespace Spec

/-- The element in row `a` and column `b` (both from 1) of an array with `r` rows is `x`. -/
def Entry {F : Type} (h : FA F) (r : Nat) (a b : ℤ) (x : F) : Prop := h.data[((b - 1) * r + (a - 1)).toNat]? = some x

/-- `A` is the upper Hessenberg matrix in rows and columns `ilo..ihi` of the array: its elements are real numbers, and the two
diagonals that `dlahqr` clears before it starts may hold anything. -/
structure HessInput (h : FA XR) (r : Nat) (ilo ihi : ℤ) (A : ℤ → ℤ → ℝ) : Prop where
  entry : ∀ a b, ilo ≤ a → a ≤ ihi → ilo ≤ b → b ≤ ihi → a ≠ b + 2 → a ≠ b + 3 → Entry h r a b (fin (A a b))
  hess : ∀ a b, b + 1 < a → A a b = 0

/-- The bound on the backward error for an active block of order `nh` and Frobenius norm `N`. -/
noncomputable def hqrBound (nh : ℤ) (N : ℝ) : ℝ :=
  nh * ((30 * max nh 10 + 1 : ℤ) * (5 * (1 / 2 ^ 52) * N + 1 / 2 ^ 1022 * (nh / (1 / 2 ^ 52))))

/-- What `dlahqr` delivers.  `T` is orthogonally similar to `A + E`, with `E` of trace zero and norm at most the bound; the returned `h`
holds `T` on and below the diagonal and in the 2-by-2 diagonal blocks; rows and columns after `info` (all of them if `info` is 0) are
quasi-triangular and `wr`, `wi` hold the eigenvalues of the diagonal blocks. -/
structure HqrDone (r : Nat) (ilo ihi : ℤ) (A : ℤ → ℤ → ℝ) (Q : Matrix (Blk ilo ihi) (Blk ilo ihi) ℝ) (E : Matrix (Blk ilo ihi) (Blk ilo ihi) ℝ)
    (T : ℤ → ℤ → ℝ) (er ei : ℤ → ℝ) (h : FA XR) (wr wi : List XR) (info : ℤ) : Prop where
  info_range : info = 0 ∨ ilo < info ∧ info ≤ ihi
  backward : Backward (block ilo ihi A) Q E (block ilo ihi T) (hqrBound (ihi - ilo + 1) (fro (block ilo ihi A)))
  hess : ∀ a b, ilo ≤ b → b + 1 < a → a ≤ ihi → T a b = 0
  low : ∀ a b, ilo ≤ b → b ≤ a → a ≤ ihi → Entry h r a b (fin (T a b))
  pair : ∀ a, ilo ≤ a → a < ihi → T (a + 1) a ≠ 0 → Entry h r a (a + 1) (fin (T a (a + 1)))
  split : 0 < info → info < ihi → T (info + 1) info = 0
  schur : Schur (if info = 0 then ilo else info + 1) ihi T er ei
  re : ∀ j : ℤ, (if info = 0 then ilo else info + 1) ≤ j → j ≤ ihi → j ≤ wr.length → wr[(j - 1).toNat]? = some (fin (er j))
  im : ∀ j : ℤ, (if info = 0 then ilo else info + 1) ≤ j → j ≤ ihi → j ≤ wi.length → wi[(j - 1).toNat]? = some (fin (ei j))

/-- `z` was multiplied by `Q` from the right in rows `iloz..ihiz` and columns `ilo..ihi`, and is unchanged elsewhere. -/
structure ZDone (rz cz : Nat) (iloz ihiz ilo ihi : ℤ) (Z0 : ℤ → ℤ → ℝ) (Q : Matrix (Blk ilo ihi) (Blk ilo ihi) ℝ) (z z' : FA XR) : Prop where
  prod : ∀ a, iloz ≤ a → a ≤ ihiz → ∀ b : Blk ilo ihi, Entry z' rz a b (fin (∑ d : Blk ilo ihi, Z0 a d * Q d b))
  rest : ∀ a b : ℤ, 1 ≤ a → a ≤ rz → 1 ≤ b → b ≤ cz → ¬ (iloz ≤ a ∧ a ≤ ihiz ∧ ilo ≤ b ∧ b ≤ ihi) → ∀ x, Entry z' rz a b x ↔ Entry z rz a b x

end Spec
open Spec

theorem entry_is2 {F : Type} [Scalar F] {h : FA F} {r c : Nat} {g : ℤ → ℤ → F} (hh : Is2 h r c (r * c) g) {a b : ℤ} (a1 : 1 ≤ a) (a2 : a ≤ r) (b1 : 1 ≤ b) (b2 : b ≤ c) (x : F) :
    Entry h r a b x ↔ g a b = x := by
  unfold Entry
  have := data_at hh (cell_rc (r := r) (c := c) a1 a2 b1 b2)
  unfold cpos at this
  rw [this]
  exact ⟨fun h => Option.some.inj h, fun h => by rw [h]⟩

theorem is2_of_matrix {F : Type} [Scalar F] {h : FA F} {r c : Nat} (hM : IsMatrix h r c) (hr : 0 < r) : Is2 h r c (r * c) (ofList2 r h.data) := by
  have := is2_ofList hM.rows hr
  rwa [hM.length, hM.cols] at this

section
variable (fuel : Nat) (wantz : Bool) (n ilo ihi : ℤ) (h : FA XR) (r c : Nat) (wr wi : List XR) (iloz ihiz : ℤ)
  (z : FA XR) (rz cz : Nat) (ldz : ℤ)

/-- The state before the first round of the outer loop. -/
theorem dlahqr_setup (hM : IsMatrix h r c) (h1 : 1 ≤ ilo) (h2 : ilo < ihi) (h3 : ihi ≤ n) (h4 : n ≤ r) (h5 : n ≤ c) {A : ℤ → ℤ → ℝ}
    (hA : HessInput h r ilo ihi A)
    (hz : wantz = true → IsMatrix z rz cz ∧ 1 ≤ iloz ∧ iloz ≤ ihiz ∧ ihiz ≤ rz ∧ ihi ≤ cz) {Z0 : ℤ → ℤ → ℝ}
    (hZ : wantz = true → ∀ a b, iloz ≤ a → a ≤ ihiz → ilo ≤ b → b ≤ ihi → Entry z rz a b (fin (Z0 a b))) :
    ∃ h', hqrClear ilo ihi h = pure h' ∧
      Dim (hqrParams (F := XR) true wantz n ilo ihi (r : ℤ) iloz ihiz) r c (if wantz then rz else 1) (if wantz then cz else 1) ∧
      (hqrParams (F := XR) true wantz n ilo ihi (r : ℤ) iloz ihiz).ulp = fin (1 / 2 ^ 52) ∧
      (hqrParams (F := XR) true wantz n ilo ihi (r : ℤ) iloz ihiz).smlnum = fin (1 / 2 ^ 1022 * (((ihi - ilo + 1 : ℤ) : ℝ) / (1 / 2 ^ 52))) ∧
      Out (hqrParams (F := XR) true wantz n ilo ihi (r : ℤ) iloz ihiz) r c (if wantz then rz else 1) (if wantz then cz else 1) wr.length wi.length (block ilo ihi A) Z0
      (ofList2 rz z.data) (ofList wr) (ofList wi) (fro (block ilo ihi A)) 0 ihi A (fun _ => 0) (fun _ => 0)
      ⟨h', ToFA.toFa wr, ToFA.toFa wi, z⟩ := by
  have hr0 : 0 < r := by omega
  have hs := is2_of_matrix hM hr0
  obtain ⟨h', e, hh'⟩ := hqrClear_exact ilo ihi h _ hs hM.small h1 (by omega) (by omega)
  set p : HqrP XR := hqrParams true wantz n ilo ihi (r : ℤ) iloz ihiz with hp
  have pilo : p.ilo = ilo := rfl
  have pihi : p.ihi = ihi := rfl
  set B := fro (block ilo ihi A) with hB
  have hd : Dim p r c (if wantz then rz else 1) (if wantz then cz else 1) := by
    refine ⟨rfl, hM.small, h1, by rw [pihi]; omega, by rw [pihi]; omega, ?_, fun hw => (hz hw).2.1, ?_, ?_⟩
    · by_cases hw : wantz = true
      · simp only [hw, if_true]; exact (hz hw).1.small
      · simp [hw]
    · intro hw
      have hw' : wantz = true := hw
      simp only [hw', if_true]; exact (hz hw').2.2.2.1
    · intro hw
      have hw' : wantz = true := hw
      simp only [hw', if_true]; exact (hz hw').2.2.2.2
  have hulp : p.ulp = fin (1 / 2 ^ 52) := dlamch_P
  have hsm : p.smlnum = fin (1 / 2 ^ 1022 * (((ihi - ilo + 1 : ℤ) : ℝ) / (1 / 2 ^ 52))) := by
    show (dlamch 'S' : XR) * (ofInt (ihi - ilo + 1) / dlamch 'P') = _
    rw [dlamch_S, dlamch_P, ofInt_eq, fin_div _ _ (by positivity), fin_mul]
  have hnh : (0 : ℝ) ≤ ((ihi - ilo + 1 : ℤ) : ℝ) := by exact_mod_cast (by omega : (0 : ℤ) ≤ ihi - ilo + 1)
  have hO : Out p r c (if wantz then rz else 1) (if wantz then cz else 1) wr.length wi.length (block ilo ihi A) Z0
      (ofList2 rz z.data) (ofList wr) (ofList wi) B 0 p.ihi A (fun _ => 0) (fun _ => 0)
      ⟨h', ToFA.toFa wr, ToFA.toFa wi, z⟩ := by
    refine ⟨⟨_, hh', ⟨?_, ?_, ?_⟩⟩, ⟨Z0, ⟨⟨1, 0, backward_start A, ?_⟩, le_refl _⟩, ?_⟩, fun _ h => absurd h (lt_irrefl _), ?_, ?_, ?_⟩
    · intro a b b1 hba a2
      rw [pilo] at b1; rw [pihi] at a2
      beta_reduce
      by_cases c1 : a = b + 2 ∨ a = b + 3
      · rw [if_pos ⟨b1, a2, c1⟩, hA.hess a b (by omega), zero_eq]
      · rw [if_neg (by tauto)]
        exact (entry_is2 hs (by omega) (by omega) (by omega) (by omega) _).1 (hA.entry a b (by omega) a2 b1 (by omega) (by omega) (by omega))
    · intro a b a1 hab b2 _
      rw [pilo] at a1; rw [pihi] at b2
      beta_reduce
      rw [if_neg (by omega)]
      exact (entry_is2 hs (by omega) (by omega) (by omega) (by omega) _).1 (hA.entry a b a1 (by omega) (by omega) b2 (by omega) (by omega))
    · intro a b b1 hba a2
      exact hA.hess a b hba
    · rw [Matrix.mul_one]
    · intro hw
      have hw' : wantz = true := hw
      simp only [hw', if_true]
      obtain ⟨z1, z2, z3, z4, z5⟩ := hz hw'
      have hzs := is2_of_matrix z1 (by omega)
      refine ⟨_, hzs, fun a b a1 a2 b1 b2 => ?_, fun _ _ _ => rfl⟩
      rw [pilo] at b1; rw [pihi] at b2
      change iloz ≤ a at a1
      change a ≤ ihiz at a2
      exact (entry_is2 hzs (by omega) (by omega) (by omega) (by omega) _).1 (hZ hw' a b a1 a2 b1 b2)
    · refine ⟨fun j j1 j2 => by omega, fun j j1 j2 => by omega, fun j j1 j2 => by omega, fun j j1 j2 => by omega⟩
    · refine (is1_vec wr).congr' fun k => ?_
      rw [if_neg (by omega)]
    · refine (is1_vec wi).congr' fun k => ?_
      rw [if_neg (by omega)]
  exact ⟨h', e, hd, hulp, hsm, hO⟩

/-- `dlahqr` on properly sized arguments never panics, and what it returns. -/
theorem dlahqr_run (hM : IsMatrix h r c) (h1 : 1 ≤ ilo) (h2 : ilo < ihi) (h3 : ihi ≤ n) (h4 : n ≤ r) (h5 : n ≤ c) {A : ℤ → ℤ → ℝ}
    (hA : HessInput h r ilo ihi A) (hN : fro (block ilo ihi A) ≤ 2 ^ 500)
    (hz : wantz = true → IsMatrix z rz cz ∧ 1 ≤ iloz ∧ iloz ≤ ihiz ∧ ihiz ≤ rz ∧ ihi ≤ cz) {Z0 : ℤ → ℤ → ℝ}
    (hZ : wantz = true → ∀ a b, iloz ≤ a → a ≤ ihiz → ilo ≤ b → b ≤ ihi → Entry z rz a b (fin (Z0 a b))) :
    Run (dlahqr (F := XR) fuel true wantz n ilo ihi h (r : ℤ) wr wi iloz ihiz z ldz) fun ret =>
      ∃ Q E T er ei, HqrDone r ilo ihi A Q E T er ei ret.h ret.wr ret.wi ret.info ∧ IsMatrix ret.h r c ∧ ret.wr.length = wr.length ∧
        ret.wi.length = wi.length ∧ (wantz = true → IsMatrix ret.z rz cz ∧ ZDone rz cz iloz ihiz ilo ihi Z0 Q z ret.z) := by
  have hr0 : 0 < r := by omega
  obtain ⟨h', e, hd, hulp, hsm, hO⟩ := dlahqr_setup wantz n ilo ihi h r c wr wi iloz ihiz z rz cz hM h1 h2 h3 h4 h5 hA hz hZ
  set p : HqrP XR := hqrParams true wantz n ilo ihi (r : ℤ) iloz ihiz with hp
  have pilo : p.ilo = ilo := rfl
  have pihi : p.ihi = ihi := rfl
  set B := fro (block ilo ihi A) with hB
  have hnh : (0 : ℝ) ≤ ((ihi - ilo + 1 : ℤ) : ℝ) := by exact_mod_cast (by omega : (0 : ℤ) ≤ ihi - ilo + 1)
  have hB0 : 0 ≤ B := fro_nonneg _
  have main := outer_ok hd (by rw [pilo, pihi]; exact h2) rfl (show n ≤ (c : ℤ) from h5) (fun hw => (hz hw).2.2.1) hB0 hN hulp (by positivity) hsm
    (by positivity) fuel 0 p.ihi p.ihi 0 (le_refl _) (by rw [pilo, pihi]; omega) (by rw [pilo, pihi]; omega) A _ _ _
    (faOfVec [zero, zero, zero]) ⟨0, 0, 0, ⟨by rw [show (zero : XR) = fin 0 from zero_eq]; rfl, Or.inr (show wrap32 (3 : Nat) = 3 by decide), rfl⟩⟩ hO
  unfold dlahqr
  rw [if_neg (by omega)]
  simp only
  rw [if_neg (by omega)]
  unfold hqrMain
  simp only [show ToFA.toFa h = h from rfl, e, pure_bind]
  refine Run.bindTot main fun q hq => ?_
  obtain ⟨hinfo, T, er, ei, ⟨g, hg, hR⟩, ⟨Zq, hG, hZq⟩, hbot, hS, hr1, hi1⟩ := hq
  obtain ⟨Q, E, hb, hzq⟩ := hG.ex
  rw [pilo] at hinfo
  have hlr : q.1.wr.data.length = wr.length := by rw [hr1, length_tab]
  have hli : q.1.wi.data.length = wi.length := by rw [hi1, length_tab]
  have cell : ∀ a b, ilo ≤ a → a ≤ ihi → ilo ≤ b → b ≤ ihi → ∀ x, Entry q.1.h r a b x ↔ g a b = x := fun a b a1 a2 b1 b2 x =>
    entry_is2 hg (by omega) (by omega) (by omega) (by omega) x
  have vec : ∀ (w : FA XR) (L : Nat) (er : ℤ → ℝ) (g0 : ℤ → XR) (i0 j : ℤ), Is1 w L (fun j => if i0 < j ∧ j ≤ p.ihi then fin (er j) else g0 j) →
      1 ≤ j → i0 < j → j ≤ ihi → j ≤ L → w.data[(j - 1).toNat]? = some (fin (er j)) := by
    intro w L er g0 i0 j hw j1 j2 j3 j4
    rw [hw, tab_getElem?, if_pos (by omega), show (((j - 1).toNat : ℕ) : ℤ) + 1 = j by omega, if_pos ⟨j2, j3⟩]
  refine Tot.pure ⟨Q, E, T, er, ei, ⟨hinfo, ?_, hR.hess, ?_, ?_, ?_, ?_, ?_, ?_⟩, ?_, hlr, hli, ?_⟩
  · refine ⟨hb.orth, hb.eq, hb.trace, hb.bound.trans (le_of_eq ?_)⟩
    unfold hqrBound
    have hit : (p.itmax : ℝ) = ((30 * max (ihi - ilo + 1) 10 : ℤ) : ℝ) := by
      have : (p.itmax : ℤ) = 30 * max (ihi - ilo + 1) 10 := by
        unfold HqrP.itmax
        rw [pilo, pihi]
        push_cast
        rw [Int.toNat_of_nonneg (by omega)]
      exact_mod_cast this
    rw [hit, pilo, pihi, ← hB]
    push_cast
    ring
  · intro a b b1 hba a2
    exact (cell a b (by omega) a2 b1 (by omega) _).2 (hR.low a b b1 hba a2)
  · intro a a1 a2 hne
    refine (cell a (a + 1) a1 (by omega) (by omega) (by omega) _).2 (hR.up a (a + 1) a1 (by omega) (by rw [pihi]; omega) fun d d1 d2 => ?_)
    rw [show d = a + 1 by omega, show a + 1 - 1 = a by ring]
    exact hne
  · intro g1 g2
    change 0 < q.2 at g1
    change q.2 < ihi at g2
    have := hbot
    rw [if_neg (by omega)] at this
    exact this (by rw [pilo]; omega) g2
  · have := hS
    by_cases h0 : q.2 = 0
    · rw [if_pos h0] at this ⊢
      rwa [pilo, show ilo - 1 + 1 = ilo by ring] at this
    · rw [if_neg h0] at this ⊢
      exact this
  · intro j j1 j2 j3
    change (if q.2 = 0 then ilo else q.2 + 1) ≤ j at j1
    refine vec _ _ _ _ _ j hr1 ?_ ?_ j2 (by rw [← hlr]; exact j3)
    · split at j1 <;> omega
    · rw [pilo]; split at j1 <;> [rw [if_pos ‹_›]; rw [if_neg ‹_›]] <;> omega
  · intro j j1 j2 j3
    change (if q.2 = 0 then ilo else q.2 + 1) ≤ j at j1
    refine vec _ _ _ _ _ j hi1 ?_ ?_ j2 (by rw [← hli]; exact j3)
    · split at j1 <;> omega
    · rw [pilo]; split at j1 <;> [rw [if_pos ‹_›]; rw [if_neg ‹_›]] <;> omega
  · exact ⟨hg.rows, hg.cols, by show q.1.h.data.length = _; rw [hg.data, length_tab2], hM.small⟩
  · intro hw
    obtain ⟨zg, y1, y2, y3⟩ := hZq hw
    simp only [hw, if_true] at y1
    obtain ⟨z1, z2, z3, z4, z5⟩ := hz hw
    refine ⟨⟨y1.rows, y1.cols, by show q.1.z.data.length = _; rw [y1.data, length_tab2], z1.small⟩, ?_, ?_⟩
    · intro a a1 a2 b
      obtain ⟨b1, b2⟩ := Finset.mem_Icc.1 b.2
      refine (entry_is2 y1 (by omega) (by omega) (by omega) (by omega) _).2 ((y2 a b a1 a2 b1 b2).trans ?_)
      exact congrArg fin (congrFun (congrFun hzq a) b)
    · intro a b a1 a2 b1 b2 hout x
      have hzs := is2_of_matrix z1 (by omega)
      have e1 := entry_is2 y1 a1 a2 b1 b2 x
      have e2 := entry_is2 hzs a1 a2 b1 b2 x
      rw [y3 a b hout] at e1
      exact e1.trans e2.symm

/-- **C49** (backward stability).  Whenever `dlahqr` returns, with any number of rounds and in either build profile, the returned
diagonal blocks are those of a matrix exactly orthogonally similar to the input plus a small perturbation; the eigenvalues belong to
those blocks and `z` is multiplied by the same orthogonal matrix. -/
theorem C49_dlahqr_backward (hM : IsMatrix h r c) (h1 : 1 ≤ ilo) (h2 : ilo < ihi) (h3 : ihi ≤ n) (h4 : n ≤ r) (h5 : n ≤ c) {A : ℤ → ℤ → ℝ}
    (hA : HessInput h r ilo ihi A) (hN : fro (block ilo ihi A) ≤ 2 ^ 500)
    (hz : wantz = true → IsMatrix z rz cz ∧ 1 ≤ iloz ∧ iloz ≤ ihiz ∧ ihiz ≤ rz ∧ ihi ≤ cz) {Z0 : ℤ → ℤ → ℝ}
    (hZ : wantz = true → ∀ a b, iloz ≤ a → a ≤ ihiz → ilo ≤ b → b ≤ ihi → Entry z rz a b (fin (Z0 a b))) (pr : Profile)
    (ret : HqrRet (FA XR) (List XR) (List XR) (FA XR))
    (hret : dlahqr (F := XR) fuel true wantz n ilo ihi h (r : ℤ) wr wi iloz ihiz z ldz pr = .ok ret) :
    ∃ Q E T er ei, HqrDone r ilo ihi A Q E T er ei ret.h ret.wr ret.wi ret.info ∧ IsMatrix ret.h r c ∧ ret.wr.length = wr.length ∧
      ret.wi.length = wi.length ∧ (wantz = true → IsMatrix ret.z rz cz ∧ ZDone rz cz iloz ihiz ilo ihi Z0 Q z ret.z) := by
  rcases dlahqr_run fuel wantz n ilo ihi h r c wr wi iloz ihiz z rz cz ldz hM h1 h2 h3 h4 h5 hA hN hz hZ pr with e | ⟨a, e, ha⟩
  · rw [hret] at e; cases e
  · rw [hret] at e; cases e; exact ha

/-- **C50**.  On properly sized arguments `dlahqr` never panics: with any number of rounds it returns or is still running. -/
theorem C50_dlahqr_no_panic (hM : IsMatrix h r c) (h1 : 1 ≤ ilo) (h2 : ilo < ihi) (h3 : ihi ≤ n) (h4 : n ≤ r) (h5 : n ≤ c) {A : ℤ → ℤ → ℝ}
    (hA : HessInput h r ilo ihi A) (hN : fro (block ilo ihi A) ≤ 2 ^ 500)
    (hz : wantz = true → IsMatrix z rz cz ∧ 1 ≤ iloz ∧ iloz ≤ ihiz ∧ ihiz ≤ rz ∧ ihi ≤ cz)
    (hZ : wantz = true → ∀ a b, iloz ≤ a → a ≤ ihiz → ilo ≤ b → b ≤ ihi → ∃ x : ℝ, Entry z rz a b (fin x)) (pr : Profile) :
    dlahqr (F := XR) fuel true wantz n ilo ihi h (r : ℤ) wr wi iloz ihiz z ldz pr = .timeout ∨
      ∃ ret : HqrRet (FA XR) (List XR) (List XR) (FA XR), dlahqr (F := XR) fuel true wantz n ilo ihi h (r : ℤ) wr wi iloz ihiz z ldz pr = .ok ret := by
  classical
  have hZ' : wantz = true → ∀ a b, iloz ≤ a → a ≤ ihiz → ilo ≤ b → b ≤ ihi →
      Entry z rz a b (fin ((fun a b => if h : ∃ x : ℝ, Entry z rz a b (fin x) then h.choose else 0) a b)) := by
    intro hw a b a1 a2 b1 b2
    have hx := hZ hw a b a1 a2 b1 b2
    beta_reduce
    rw [dif_pos hx]
    exact hx.choose_spec
  rcases dlahqr_run fuel wantz n ilo ihi h r c wr wi iloz ihiz z rz cz ldz hM h1 h2 h3 h4 h5 hA hN hz hZ' pr with e | ⟨a, e, -⟩
  · exact Or.inl e
  · exact Or.inr ⟨a, e⟩

/-- **C51** (eigenvalues).  When `dlahqr` returns with `info = 0`, the real parts in `wr` sum to the trace of the input exactly, the
imaginary parts in `wi` sum to zero, and, when the two eigenvalues of each pair have the same real part, `wr + i wi` are all the roots,
with multiplicity, of the characteristic polynomial of the input plus a perturbation within the bound. -/
theorem C51_dlahqr_eigenvalues (hM : IsMatrix h r c) (h1 : 1 ≤ ilo) (h2 : ilo < ihi) (h3 : ihi ≤ n) (h4 : n ≤ r) (h5 : n ≤ c) {A : ℤ → ℤ → ℝ}
    (hA : HessInput h r ilo ihi A) (hN : fro (block ilo ihi A) ≤ 2 ^ 500)
    (hz : wantz = true → IsMatrix z rz cz ∧ 1 ≤ iloz ∧ iloz ≤ ihiz ∧ ihiz ≤ rz ∧ ihi ≤ cz) {Z0 : ℤ → ℤ → ℝ}
    (hZ : wantz = true → ∀ a b, iloz ≤ a → a ≤ ihiz → ilo ≤ b → b ≤ ihi → Entry z rz a b (fin (Z0 a b))) (pr : Profile)
    (hwr : ihi ≤ wr.length) (hwi : ihi ≤ wi.length) (ret : HqrRet (FA XR) (List XR) (List XR) (FA XR))
    (hret : dlahqr (F := XR) fuel true wantz n ilo ihi h (r : ℤ) wr wi iloz ihiz z ldz pr = .ok ret) (hinfo : ret.info = 0) :
    ∃ (er ei : ℤ → ℝ) (E : Matrix (Blk ilo ihi) (Blk ilo ihi) ℝ),
      (∀ j, ilo ≤ j → j ≤ ihi → ret.wr[(j - 1).toNat]? = some (fin (er j)) ∧ ret.wi[(j - 1).toNat]? = some (fin (ei j))) ∧
      ∑ j ∈ Finset.Icc ilo ihi, er j = ∑ j ∈ Finset.Icc ilo ihi, A j j ∧ ∑ j ∈ Finset.Icc ilo ihi, ei j = 0 ∧
      E.trace = 0 ∧ fro E ≤ hqrBound (ihi - ilo + 1) (fro (block ilo ihi A)) ∧
      ((∀ j, ilo ≤ j → j < ihi → 0 < ei j → er j = er (j + 1)) →
        (block ilo ihi A + E).charpoly.map (algebraMap ℝ ℂ) =
          ∏ j ∈ Finset.Icc ilo ihi, (Polynomial.X - Polynomial.C ((er j : ℂ) + ei j * Complex.I))) := by
  obtain ⟨Q, E, T, er, ei, hD, -, hlr, hli, -⟩ := C49_dlahqr_backward fuel wantz n ilo ihi h r c wr wi iloz ihiz z rz cz ldz hM h1 h2 h3 h4 h5 hA hN hz hZ pr ret hret
  have hS := hD.schur
  rw [if_pos hinfo] at hS
  have hre := hD.re
  have him := hD.im
  rw [if_pos hinfo] at hre him
  have hQ : Q * Q.transpose = 1 := mul_eq_one_comm.1 hD.backward.orth
  refine ⟨er, ei, E, fun j j1 j2 => ⟨hre j j1 j2 (by omega), him j j1 j2 (by omega)⟩, ?_, hS.sum_im, hD.backward.trace, hD.backward.bound, fun heq => ?_⟩
  · have t1 : (block ilo ihi T).trace = (block ilo ihi A).trace := by
      rw [hD.backward.eq, Matrix.mul_assoc, Matrix.trace_mul_comm, Matrix.mul_assoc, hQ, Matrix.mul_one, Matrix.trace_add, hD.backward.trace, add_zero]
    have tr : ∀ M : ℤ → ℤ → ℝ, (block ilo ihi M).trace = ∑ j ∈ Finset.Icc ilo ihi, M j j := fun M =>
      Finset.sum_coe_sort (Finset.Icc ilo ihi) fun j => M j j
    rw [← tr A, ← t1, tr T]
    refine Finset.sum_congr rfl fun j hj => ?_
    have := Finset.mem_Icc.1 hj
    exact hS.re j this.1 this.2
  · have hs : (block ilo ihi A + E).charpoly = (block ilo ihi T).charpoly := by
      rw [hD.backward.eq, Matrix.mul_assoc, Matrix.charpoly_mul_comm, Matrix.mul_assoc, hQ, Matrix.mul_one]
    rw [hs, ← Matrix.charpoly_map, ← schur_det hS hD.hess]
    · unfold Matrix.charpoly
      congr 1
      ext1 a b
      rw [Matrix.charmatrix_apply, Matrix.diagonal_apply]
      show _ = (if (a : ℤ) = b then (Polynomial.X : Polynomial ℂ) else 0) - _
      by_cases hab : a = b
      · rw [if_pos hab, if_pos (congrArg Subtype.val hab)]; rfl
      · rw [if_neg hab, if_neg (fun h => hab (Subtype.ext h))]; rfl
    · intro j j1 j2 hne
      have := heq j j1 j2 (hS.pair j j1 j2 hne).2.2.1
      rwa [hS.re j j1 (by omega), hS.re (j + 1) (by omega) (by omega)] at this

/-- **C52** (order two).  On an active block of order two whose subdiagonal element is not negligible `dlahqr` returns, with `info = 0`. -/
theorem C52_dlahqr_two_by_two (hM : IsMatrix h r c) (h1 : 1 ≤ ilo) (h3 : ilo + 1 ≤ n) (h4 : n ≤ r) (h5 : n ≤ c) {A : ℤ → ℤ → ℝ}
    (hA : HessInput h r ilo (ilo + 1) A) (hN : fro (block ilo (ilo + 1) A) ≤ 2 ^ 500)
    (hz : wantz = true → IsMatrix z rz cz ∧ 1 ≤ iloz ∧ iloz ≤ ihiz ∧ ihiz ≤ rz ∧ ilo + 1 ≤ cz) {Z0 : ℤ → ℤ → ℝ}
    (hZ : wantz = true → ∀ a b, iloz ≤ a → a ≤ ihiz → ilo ≤ b → b ≤ ilo + 1 → Entry z rz a b (fin (Z0 a b)))
    (hbig : 2 * (1 / 2 ^ 52) * fro (block ilo (ilo + 1) A) + 1 / 2 ^ 969 < |A (ilo + 1) ilo|) (pr : Profile) :
    ∃ ret : HqrRet (FA XR) (List XR) (List XR) (FA XR),
      dlahqr (F := XR) (fuel + 2) true wantz n ilo (ilo + 1) h (r : ℤ) wr wi iloz ihiz z ldz pr = .ok ret ∧ ret.info = 0 := by
  obtain ⟨h', e, hd, hulp, hsm, hO⟩ := dlahqr_setup wantz n ilo (ilo + 1) h r c wr wi iloz ihiz z rz cz hM h1 (by omega) h3 h4 h5 hA hz hZ
  have hs : (1 : ℝ) / 2 ^ 1022 * (((ilo + 1 - ilo + 1 : ℤ) : ℝ) / (1 / 2 ^ 52)) = 1 / 2 ^ 969 := by
    rw [show ilo + 1 - ilo + 1 = 2 by ring]
    rw [show (1022 : ℕ) = 969 + 53 from rfl, pow_add]
    generalize (2 : ℝ) ^ 969 = w at *
    rw [Int.cast_ofNat, one_div, one_div, one_div, mul_inv, mul_assoc, show ((2 : ℝ) ^ 53)⁻¹ * (2 / (2 ^ 52)⁻¹) = 1 by norm_num, mul_one]
  rw [hs] at hsm
  have main := outer_two hd rfl rfl (show n ≤ (c : ℤ) from h5) (fun hw => (hz hw).2.2.1) (fro_nonneg _) hN hulp (by positivity) hsm
    (by positivity) fuel 0 (ilo + 1) 0 A _ _ _ (faOfVec [zero, zero, zero]) hO hbig
  have : Tot (dlahqr (F := XR) (fuel + 2) true wantz n ilo (ilo + 1) h (r : ℤ) wr wi iloz ihiz z ldz) fun ret => ret.info = 0 := by
    unfold dlahqr
    rw [if_neg (by omega)]
    simp only
    rw [if_neg (by omega)]
    unfold hqrMain
    simp only [show ToFA.toFa h = h from rfl, e, pure_bind]
    exact Tot.bind main fun q hq => Tot.pure hq
  exact this pr

end

/-! ### The hypotheses are met: the rotation by a right angle, whose eigenvalues are `i` and `-i` -/

/-- The 2-by-2 matrix with rows `(0, 1)` and `(-1, 0)`. -/
def quarter : FA XR := { data := [fin 0, fin (-1), fin 1, fin 0], rows := 2, cols := 2, defaultValue := fin 0 }

/-- Its entries. -/
def quarterA (a b : ℤ) : ℝ := if a = 1 ∧ b = 2 then 1 else if a = 2 ∧ b = 1 then -1 else 0

theorem quarter_matrix : IsMatrix quarter 2 2 := ⟨rfl, rfl, rfl, by decide⟩

theorem quarter_input : HessInput quarter 2 1 2 quarterA := by
  constructor
  · intro a b a1 a2 b1 b2 _ _
    rcases (by omega : a = 1 ∨ a = 2) with rfl | rfl <;> rcases (by omega : b = 1 ∨ b = 2) with rfl | rfl <;> simp [Entry, quarter, quarterA]
  · intro a b hab
    unfold quarterA
    rw [if_neg (by omega), if_neg (by omega)]

theorem quarter_fro : fro (block 1 2 quarterA) ≤ 2 := by
  unfold fro
  rw [Real.sqrt_le_left (by norm_num)]
  have e : ∀ f : ℤ → ℝ, ∑ a : Blk 1 2, f a = f 1 + f 2 := fun f => by
    rw [Finset.sum_coe_sort (Finset.Icc (1 : ℤ) 2) f, sum_Icc_cons (by norm_num), show (1 : ℤ) + 1 = 2 by norm_num, Finset.Icc_self, Finset.sum_singleton]
  have e2 : ∑ a : Blk 1 2, ∑ b : Blk 1 2, block 1 2 quarterA a b ^ 2 = 2 := by
    have := e fun a => ∑ b : Blk 1 2, quarterA a b ^ 2
    refine this.trans ?_
    rw [e fun b => quarterA 1 b ^ 2, e fun b => quarterA 2 b ^ 2]
    norm_num [quarterA]
  rw [e2]; norm_num

/-- On the rotation by a right angle `dlahqr` returns `info = 0`, and all of C49–C51 apply to what it returns. -/
theorem C52_dlahqr_quarter (pr : Profile) : ∃ ret : HqrRet (FA XR) (List XR) (List XR) (FA XR),
    dlahqr (F := XR) 2 true false 2 1 2 quarter 2 [XR.nan, XR.nan] [XR.nan, XR.nan] 1 1 quarter 2 pr = .ok ret ∧ ret.info = 0 ∧
    ∃ Q E T er ei, HqrDone 2 1 2 quarterA Q E T er ei ret.h ret.wr ret.wi ret.info := by
  have hN : fro (block 1 2 quarterA) ≤ 2 ^ 500 := quarter_fro.trans (by
    exact le_self_pow₀ (by norm_num) (by norm_num))
  obtain ⟨ret, e, hi⟩ := C52_dlahqr_two_by_two 0 false 2 1 quarter 2 2 [XR.nan, XR.nan] [XR.nan, XR.nan] 1 1 quarter 2 2 2 quarter_matrix (by norm_num) (by norm_num)
    (by norm_num) (by norm_num) (A := quarterA) quarter_input hN (fun h => by cases h) (Z0 := fun _ _ => 0) (fun h => by cases h) (by
      have := quarter_fro
      have h1 : |quarterA (1 + 1) 1| = 1 := by norm_num [quarterA]
      rw [h1]
      have h2 : (1 : ℝ) / 2 ^ 969 ≤ 1 / 2 := by
        apply one_div_le_one_div_of_le (by norm_num)
        exact le_self_pow₀ (by norm_num) (by norm_num)
      have h3 : 2 * (1 / 2 ^ 52 : ℝ) * fro (block 1 (1 + 1) quarterA) ≤ 2 * (1 / 2 ^ 52) * 2 := by gcongr; exact this
      refine lt_of_le_of_lt (add_le_add h3 h2) ?_
      norm_num) pr
  obtain ⟨Q, E, T, er, ei, hD, -⟩ := C49_dlahqr_backward 2 false 2 1 2 quarter 2 2 [XR.nan, XR.nan] [XR.nan, XR.nan] 1 1 quarter 2 2 2 quarter_matrix (by norm_num) (by norm_num)
    (by norm_num) (by norm_num) (by norm_num) (A := quarterA) quarter_input hN (fun h => by cases h) (Z0 := fun _ _ => 0) (fun h => by cases h) pr ret e
  exact ⟨ret, e, hi, Q, E, T, er, ei, hD⟩

end Verif

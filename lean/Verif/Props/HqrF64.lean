import Verif.Lib.HqrF64k
import Verif.Props.HqrExact
import Verif.Props.HqrStuckF64
import Verif.Props.HqrIndep

/-!
# `dlahqr` on binary64: backward stability (C77)
-/

namespace Verif
open F64 Scalar XR

namespace Spec

/-- The element in row `a` and column `b` (both from 1) of an array of `f64` with `r` rows is finite and has the value `x`. -/
def EntryF (h : FA Float) (r : Nat) (a b : ℤ) (x : ℝ) : Prop := ∃ f, Entry h r a b f ∧ f.isFinite = true ∧ toR f = x

/-- `A` is the upper Hessenberg matrix in rows and columns `ilo..ihi` of the array: its elements are finite, and the two diagonals that
`dlahqr` clears before it starts may hold anything. -/
structure HessInputF (h : FA Float) (r : Nat) (ilo ihi : ℤ) (A : ℤ → ℤ → ℝ) : Prop where
  entry : ∀ a b, ilo ≤ a → a ≤ ihi → ilo ≤ b → b ≤ ihi → a ≠ b + 2 → a ≠ b + 3 → EntryF h r a b (A a b)
  hess : ∀ a b, b + 1 < a → A a b = 0

/-- What `dlahqr` delivers on `f64`.  `T` is orthogonally similar to `A + E`, with the norm of `E` at most the bound; rows and columns
after `info` (all of them if `info` is 0) are quasi-triangular and `wr`, `wi` hold the eigenvalues of the diagonal blocks; on success
the returned `h` holds `T` exactly on and below the diagonal and in the 2-by-2 diagonal blocks. -/
structure HqrDoneF (r : Nat) (ilo ihi : ℤ) (A : ℤ → ℤ → ℝ) (Q E : Matrix (Blk ilo ihi) (Blk ilo ihi) ℝ) (T : ℤ → ℤ → ℝ) (er ei : ℤ → ℝ)
    (h : FA Float) (wr wi : List Float) (info : ℤ) : Prop where
  info_range : info = 0 ∨ ilo < info ∧ info ≤ ihi
  backward : BackwardF (block ilo ihi A) Q E (block ilo ihi T) (hqrBoundF (ihi - ilo + 1) (fro (block ilo ihi A)))
  hess : ∀ a b, ilo ≤ b → b + 1 < a → a ≤ ihi → T a b = 0
  split : 0 < info → info < ihi → T (info + 1) info = 0
  schur : SchurF (if info = 0 then ilo else info + 1) ihi T er ei
  re : ∀ j : ℤ, (if info = 0 then ilo else info + 1) ≤ j → j ≤ ihi → j ≤ wr.length → ∃ x, wr[(j - 1).toNat]? = some x ∧ x.isFinite = true ∧ toR x = er j
  im : ∀ j : ℤ, (if info = 0 then ilo else info + 1) ≤ j → j ≤ ihi → j ≤ wi.length → ∃ x, wi[(j - 1).toNat]? = some x ∧ x.isFinite = true ∧ toR x = ei j
  low : info = 0 → ∀ a b, ilo ≤ b → b ≤ a → a ≤ ihi → EntryF h r a b (T a b)
  pair : info = 0 → ∀ a, ilo ≤ a → a < ihi → T (a + 1) a ≠ 0 → EntryF h r a (a + 1) (T a (a + 1))

/-- Each row `iloz..ihiz` of `z` was multiplied by `Q` from the right in columns `ilo..ihi` up to an error of norm at most the bound,
and `z` is unchanged elsewhere. -/
structure ZDoneF (rz cz : Nat) (iloz ihiz ilo ihi : ℤ) (Z0 : ℤ → ℤ → ℝ) (bound : ℝ) (Q : Matrix (Blk ilo ihi) (Blk ilo ihi) ℝ) (z z' : FA Float) : Prop where
  prod : ∀ a, iloz ≤ a → a ≤ ihiz → ∃ y : Blk ilo ihi → ℝ, (∀ b : Blk ilo ihi, EntryF z' rz a b (y b)) ∧
    Real.sqrt (∑ b : Blk ilo ihi, (y b - ∑ d : Blk ilo ihi, Z0 a d * Q d b) ^ 2) ≤ bound
  rest : ∀ a b : ℤ, 1 ≤ a → a ≤ rz → 1 ≤ b → b ≤ cz → ¬ (iloz ≤ a ∧ a ≤ ihiz ∧ ilo ≤ b ∧ b ≤ ihi) → ∀ x, Entry z' rz a b x ↔ Entry z rz a b x

end Spec
open Spec

/-! ### The constants -/

theorem hqrSteps_le {nh : ℤ} (h2 : 2 ≤ nh) (h : nh ≤ 2000) : 0 ≤ hqrSteps nh ∧ hqrSteps nh ≤ 240006000000 := by
  unfold hqrSteps
  have h1 : 30 * max nh 10 + 1 ≤ 60001 := by omega
  have h0 : 0 ≤ 30 * max nh 10 + 1 := by omega
  have h3 : (30 * max nh 10 + 1) * nh ≤ 60001 * 2000 := mul_le_mul h1 h (by omega) (by norm_num)
  have h4 : 0 ≤ (30 * max nh 10 + 1) * nh := mul_nonneg h0 (by omega)
  refine ⟨mul_nonneg (by omega) (by omega), ?_⟩
  calc nh * ((30 * max nh 10 + 1) * nh + 1) ≤ 2000 * (60001 * 2000 + 1) := mul_le_mul h (by omega) (by omega) (by norm_num)
    _ ≤ _ := by norm_num

theorem steps_ur {S : ℝ} (h : S ≤ 240006000000) : 6000 * ur * S ≤ 1 / 4 := by
  unfold ur
  linarith

/-- The norms stay bounded. -/
theorem bound_arith {S u F nh t B : ℝ} (hS : 0 ≤ S) (hu : 6000 * u * S ≤ 1 / 4) (hF : 0 ≤ F) (hn : 0 ≤ nh * t) (hB : B = 2 * F + 8 * (S * (nh * t))) :
    F + S * (6000 * u * B + 2 * (nh * t)) ≤ B ∧ S * (6000 * u * B + 2 * (nh * t)) ≤ S * (12000 * u * F + 4 * (nh * t)) := by
  have hSn : 0 ≤ S * (nh * t) := mul_nonneg hS hn
  have hB0 : 0 ≤ B := by rw [hB]; linarith
  have h1 : S * (6000 * u * B) ≤ 1 / 4 * B := by
    have := mul_le_mul_of_nonneg_right hu hB0
    linarith
  constructor
  · rw [hB] at h1 ⊢; linarith
  · have h2 : 6000 * u * S * (8 * (nh * t)) ≤ 1 / 4 * (8 * (nh * t)) := mul_le_mul_of_nonneg_right hu (by linarith)
    refine mul_le_mul_of_nonneg_left ?_ hS
    rw [hB]
    have : 6000 * u * (2 * F + 8 * (S * (nh * t))) = 12000 * u * F + 6000 * u * S * (8 * (nh * t)) := by ring
    linarith

theorem boundz_arith {S u K e C : ℝ} (hS : 0 ≤ S) (hu0 : 0 ≤ u) (hu : 6000 * u * S ≤ 1 / 4) (hK : 0 ≤ K) (he : 0 ≤ e) (hC : C = 2 * K + 192 * (S * e)) :
    K + S * (2320 * u * C + 24 * e) ≤ C ∧ S * (2320 * u * C + 24 * e) ≤ S * (4640 * u * K + 48 * e) := by
  have hSe : 0 ≤ S * e := mul_nonneg hS he
  have hC0 : 0 ≤ C := by rw [hC]; linarith
  have hu' : 2320 * u * S ≤ 1 / 8 := by have := mul_nonneg hu0 hS; linarith
  have h1 : S * (2320 * u * C) ≤ 1 / 8 * C := by
    have := mul_le_mul_of_nonneg_right hu' hC0
    linarith
  constructor
  · rw [hC] at h1 ⊢; linarith
  · have h2 : 2320 * u * S * (192 * e) ≤ 1 / 8 * (192 * e) := mul_le_mul_of_nonneg_right hu' (by linarith)
    refine mul_le_mul_of_nonneg_left ?_ hS
    rw [hC]
    have : 2320 * u * (2 * K + 192 * (S * e)) = 4640 * u * K + 2320 * u * S * (192 * e) := by ring
    linarith

theorem params_pf (wantz : Bool) (n ilo ihi ldh iloz ihiz : ℤ) (h1 : ilo < ihi) (h2 : ihi - ilo < 2 ^ 31) :
    PF (hqrParams (F := Float) true wantz n ilo ihi ldh iloz ihiz) := by
  obtain ⟨u1, u2⟩ := dlamch_val 'P'
  obtain ⟨s1, s2⟩ := hqrSmall_val ilo ihi (by omega) h2
  have t0 := tiny_pos'
  have ht : (2 : ℝ) ^ (-970 : ℤ) = tiny / 2 := by
    unfold tiny
    rw [zpow_neg, show (970 : ℤ) = ((970 : ℕ) : ℤ) from rfl, zpow_natCast, show (970 : ℕ) = 969 + 1 from rfl, pow_succ]
    generalize (2 : ℝ) ^ 969 = w
    rw [mul_inv, one_div, div_eq_mul_inv]
  have hn : (2 : ℝ) ≤ ((ihi - ilo + 1 : ℤ) : ℝ) := by exact_mod_cast (by omega : (2 : ℤ) ≤ ihi - ilo + 1)
  refine ⟨u1, ?_, s1, ?_, ?_⟩
  · show toR (dlamch 'P' : Float) = _
    rw [u2, machine_P]; unfold ur; norm_num
  · show tiny ≤ toR (Spec.hqrSmall ilo ihi : Float)
    rw [s2, ht]
    have := mul_le_mul_of_nonneg_right hn (by linarith : 0 ≤ tiny / 2)
    linarith
  · show toR (Spec.hqrSmall ilo ihi : Float) ≤ _
    rw [s2, ht]
    have e : (hqrParams (F := Float) true wantz n ilo ihi ldh iloz ihiz).nh = ((ihi - ilo + 1 : ℤ) : ℝ) := by
      show (((ihi - ilo + 1).toNat : ℕ) : ℝ) = _
      have : (((ihi - ilo + 1).toNat : ℕ) : ℤ) = ihi - ilo + 1 := by omega
      exact_mod_cast this
    rw [e]
    have := mul_nonneg (by linarith : (0:ℝ) ≤ ((ihi - ilo + 1 : ℤ) : ℝ)) t0.le
    linarith

theorem fro_row {ilo ihi : ℤ} (f : Blk ilo ihi → ℝ) : fro (fun (_ : Unit) b => f b) = Real.sqrt (∑ b, f b ^ 2) := by
  unfold fro
  rw [Finset.univ_unique, Finset.sum_singleton]

section
variable (fuel : Nat) (wantz : Bool) (n ilo ihi : ℤ) (h : FA Float) (r c : Nat) (wr wi : List Float) (iloz ihiz : ℤ)
  (z : FA Float) (rz cz : Nat) (ldz : ℤ)

/-- `dlahqr` on `f64` on properly sized arguments never panics, and what it returns. -/
theorem dlahqr_runF (hM : IsMatrix h r c) (h1 : 1 ≤ ilo) (h2 : ilo < ihi) (h3 : ihi ≤ n) (h4 : n ≤ r) (h5 : n ≤ c) (hnh : ihi - ilo + 1 ≤ 2000) {A : ℤ → ℤ → ℝ}
    (hA : HessInputF h r ilo ihi A) (hN : fro (block ilo ihi A) ≤ 2 ^ 970)
    (hz : wantz = true → IsMatrix z rz cz ∧ 1 ≤ iloz ∧ iloz ≤ ihiz ∧ ihiz ≤ rz ∧ ihi ≤ cz) {Z0 : ℤ → ℤ → ℝ} {K : ℝ} (hK0 : 0 ≤ K) (hK : K ≤ 2 ^ 970)
    (hZ : wantz = true → ∀ a b, iloz ≤ a → a ≤ ihiz → ilo ≤ b → b ≤ ihi → EntryF z rz a b (Z0 a b))
    (hZK : wantz = true → ∀ a, iloz ≤ a → a ≤ ihiz → Real.sqrt (∑ b : Blk ilo ihi, Z0 a b ^ 2) ≤ K) :
    Run (dlahqr (F := Float) fuel true wantz n ilo ihi h (r : ℤ) wr wi iloz ihiz z ldz) fun ret => 
      ∃ Q E T er ei, HqrDoneF r ilo ihi A Q E T er ei ret.h ret.wr ret.wi ret.info ∧ ret.wr.length = wr.length ∧ ret.wi.length = wi.length ∧
        (ret.info = 0 → IsMatrix ret.h r c ∧ (wantz = true → IsMatrix ret.z rz cz ∧ ZDoneF rz cz iloz ihiz ilo ihi Z0 (hqrBoundZ (ihi - ilo + 1) K) Q z ret.z)) := by
  have hr0 : 0 < r := by omega
  have hs := is2_of_matrix hM hr0
  obtain ⟨h', e, hh'⟩ := hqrClear_exact ilo ihi h _ hs hM.small h1 (by omega) (by omega)
  set p : HqrP Float := hqrParams true wantz n ilo ihi (r : ℤ) iloz ihiz with hp
  have pilo : p.ilo = ilo := rfl
  have pihi : p.ihi = ihi := rfl
  have hd : Dim p r c (if wantz then rz else 1) (if wantz then cz else 1) := by
    refine ⟨rfl, hM.small, h1, by rw [pihi]; omega, by rw [pihi]; omega, ?_, fun hw => (hz hw).2.1, ?_, ?_⟩
    · by_cases hw : wantz = true
      · simp only [hw, if_true]; exact (hz hw).1.small
      · simp [hw]
    · intro hw
      have hw' : wantz = true := hw
      simp only [hw', if_true]; exact (hz hw').2.2.2.1
    · intro hw
      have hw' : wantz = true := hw
      simp only [hw', if_true]; exact (hz hw').2.2.2.2
  have hpf : PF p := params_pf wantz n ilo ihi r iloz ihiz h2 (by omega)
  -- the constants
  set S : ℕ := (ihi - ilo + 1).toNat * p.tick with hS
  have hSe : (S : ℤ) = hqrSteps (ihi - ilo + 1) := by
    rw [hS]
    unfold HqrP.tick HqrP.itmax hqrSteps
    rw [pilo, pihi]
    push_cast
    rw [Int.toNat_of_nonneg (by omega), Int.toNat_of_nonneg (by omega)]
  have hSR : (S : ℝ) = ((hqrSteps (ihi - ilo + 1) : ℤ) : ℝ) := by rw [← hSe]; simp
  obtain ⟨-, st2⟩ := hqrSteps_le (nh := ihi - ilo + 1) (by omega) hnh
  have hSle : (S : ℝ) ≤ 240006000000 := by rw [hSR]; exact_mod_cast st2
  have hS0 : (0 : ℝ) ≤ S := Nat.cast_nonneg _
  have hSu := steps_ur hSle
  have pnh : p.nh = ((ihi - ilo + 1 : ℤ) : ℝ) := by
    show (((ihi - ilo + 1).toNat : ℕ) : ℝ) = _
    have : (((ihi - ilo + 1).toNat : ℕ) : ℤ) = ihi - ilo + 1 := by omega
    exact_mod_cast this
  have nh0 : 0 ≤ p.nh := Nat.cast_nonneg _
  have nhle : p.nh ≤ 2000 := by rw [pnh]; exact_mod_cast hnh
  have t0 := tiny_pos'
  have e0 := eta_pos
  have nt0 := mul_nonneg nh0 t0.le
  set F := fro (block ilo ihi A) with hF
  have F0 : 0 ≤ F := fro_nonneg _
  obtain ⟨B, hB⟩ : ∃ B, B = 2 * F + 8 * (S * (p.nh * tiny)) := ⟨_, rfl⟩
  obtain ⟨C, hC⟩ : ∃ C, C = 2 * K + 192 * (S * eta) := ⟨_, rfl⟩
  obtain ⟨bA, bE⟩ := bound_arith hS0 hSu F0 nt0 hB
  obtain ⟨cA, cE⟩ := boundz_arith hS0 ur_pos.le hSu hK0 e0.le hC
  have epsB : p.eps B = 6000 * ur * B + 2 * (p.nh * tiny) := by unfold HqrP.eps; ring
  have tu := tiny_le_ur
  have us := ur_small
  have eu := eta_le_ur
  have snt : S * (p.nh * tiny) ≤ 1 := by
    have q1 : p.nh * tiny ≤ 2000 * ur := mul_le_mul nhle tu t0.le (by norm_num)
    have q2 : S * (p.nh * tiny) ≤ S * (2000 * ur) := mul_le_mul_of_nonneg_left q1 hS0
    linarith
  have sne : S * eta ≤ 1 := by
    have q2 : S * eta ≤ S * ur := mul_le_mul_of_nonneg_left eu hS0
    have := mul_nonneg hS0 ur_pos.le
    linarith
  have p970 : (2 : ℝ) ^ 20 * (4 * 2 ^ 970) ≤ big := by
    unfold big
    rw [show (1000 : ℕ) = 970 + 30 from rfl, pow_add]
    have : (0 : ℝ) < 2 ^ 970 := pow_pos (by norm_num) _
    generalize (2 : ℝ) ^ 970 = w at *
    linarith
  have p192 : (192 : ℝ) ≤ 2 ^ 970 := le_trans (by norm_num) (pow_le_pow_right₀ (by norm_num) (show 8 ≤ 970 by norm_num))
  have w0 : (0 : ℝ) < 2 ^ 970 := pow_pos (by norm_num) _
  generalize (2 : ℝ) ^ 970 = w at hN hK p970 p192 w0
  have rowK : wantz = true → ∀ a, iloz ≤ a → a ≤ ihiz → fro (colsM ilo ihi (fun (_ : Unit) => Z0 a)) ≤ K := fun hw a a1 a2 =>
    le_of_eq_of_le (fro_row fun b => Z0 a b) (hZK hw a a1 a2)
  have hb : Bd p (block ilo ihi A) Z0 B C S := by
    refine ⟨?_, ?_, ?_, ?_, ?_, ?_, by rw [pilo, pihi]; omega, by rw [pilo, pihi]; omega⟩
    · rw [epsB]; exact bA
    · linarith
    · intro hw a a1 a2
      have := rowK hw a a1 a2
      unfold epsz
      rw [pilo, pihi]
      linarith
    · linarith
    · rw [hB]; linarith [mul_nonneg hS0 nt0]
    · rw [hC]; linarith [mul_nonneg hS0 e0.le]
  have hO : OutF p r c (if wantz then rz else 1) (if wantz then cz else 1) wr.length wi.length (block ilo ihi A) Z0
      (ofList2 rz z.data) (ofList wr) (ofList wi) B C 0 p.ihi A (fun _ => 0) (fun _ => 0) ⟨h', ToFA.toFa wr, ToFA.toFa wi, z⟩ := by
    have ent : ∀ a b, ilo ≤ a → a ≤ ihi → ilo ≤ b → b ≤ ihi → a ≠ b + 2 → a ≠ b + 3 → toXR (ofList2 r h.data a b) = fin (A a b) := by
      intro a b a1 a2 b1 b2 n1 n2
      obtain ⟨f, f1, f2, f3⟩ := hA.entry a b a1 a2 b1 b2 n1 n2
      rw [(entry_is2 hs (by omega) (by omega) (by omega) (by omega) _).1 f1, toXR_fin f2, f3]
    refine ⟨⟨_, hh', ⟨?_, ?_, ?_⟩⟩, ⟨1, ?_, ?_⟩, fun _ h => absurd h (lt_irrefl _), ?_, ?_, ?_⟩
    · intro a b b1 hba a2
      rw [pilo] at b1; rw [pihi] at a2
      unfold xg
      beta_reduce
      by_cases c1 : a = b + 2 ∨ a = b + 3
      · rw [if_pos ⟨b1, a2, c1⟩, hA.hess a b (by omega), toXR_fin toR_zero.1, toR_zero.2]
      · rw [if_neg (by tauto)]
        exact ent a b (by omega) a2 b1 (by omega) (by omega) (by omega)
    · intro a b a1 hab b2 _
      rw [pilo] at a1; rw [pihi] at b2
      unfold xg
      beta_reduce
      rw [if_neg (by omega)]
      exact ent a b a1 (by omega) (by omega) b2 (by omega) (by omega)
    · intro a b b1 hba a2
      exact hA.hess a b hba
    · have := Trk.start (lo := p.ilo) (hi := p.ihi) A
      rwa [Nat.cast_zero, zero_mul]
    · intro hw
      have hw' : wantz = true := hw
      simp only [hw', if_true]
      obtain ⟨z1, z2, z3, z4, z5⟩ := hz hw'
      have hzs := is2_of_matrix z1 (by omega)
      refine ⟨_, hzs, fun a a1 a2 => ?_, fun _ _ _ => rfl⟩
      change iloz ≤ a at a1
      change a ≤ ihiz at a2
      have ez : ∀ b, ilo ≤ b → b ≤ ihi → (ofList2 rz z.data a b).isFinite = true ∧ toR (ofList2 rz z.data a b) = Z0 a b := by
        intro b b1 b2
        obtain ⟨f, f1, f2, f3⟩ := hZ hw' a b a1 a2 b1 b2
        rw [(entry_is2 hzs (by omega) (by omega) (by omega) (by omega) _).1 f1]
        exact ⟨f2, f3⟩
      refine ⟨fun b b1 b2 => (ez b b1 b2).1, ?_⟩
      rw [Matrix.mul_one, Nat.cast_zero, zero_mul]
      refine le_of_eq ?_
      have e2 : colsM p.ilo p.ihi (fun (_ : Unit) b => toR (ofList2 rz z.data a b)) - colsM p.ilo p.ihi (fun _ => Z0 a) = 0 := by
        ext u b
        obtain ⟨b1, b2⟩ := Finset.mem_Icc.1 b.2
        rw [Matrix.sub_apply]
        simp only [colsM]
        rw [(ez b b1 b2).2, sub_self]; rfl
      rw [e2, fro_zero]
    · exact ⟨fun j j1 j2 => by omega, fun j j1 j2 => by omega, fun j j1 j2 => by omega, fun j j1 j2 => by omega⟩
    · exact ⟨_, is1_vec wr, fun j j1 j2 => by omega, fun _ _ => rfl⟩
    · exact ⟨_, is1_vec wi, fun j j1 j2 => by omega, fun _ _ => rfl⟩
  have main := outerF hd hb hpf rfl (show n ≤ (c : ℤ) from h5) (fun hw => (hz hw).2.2.1) fuel 0 p.ihi p.ihi 0 (le_refl _) (by rw [pilo, pihi]; omega)
    (by rw [Nat.zero_add, pilo, pihi]) (by rw [pilo, pihi]; omega) A _ _ _ (faOfVec [Scalar.zero, Scalar.zero, Scalar.zero])
    ⟨_, _, _, ⟨rfl, Or.inr (show wrap32 (3 : Nat) = 3 by decide), rfl⟩⟩ hO
  unfold dlahqr
  rw [if_neg (by omega)]
  simp only
  rw [if_neg (by omega)]
  unfold hqrMain
  simp only [show ToFA.toFa h = h from rfl, e, pure_bind]
  refine Run.bindTot main fun q hq => ?_
  have vec : ∀ (w : FA Float) (L : Nat) (er : ℤ → ℝ) (g0 : ℤ → Float) (i0 j : ℤ), Is1 w L g0 → (∀ j, i0 < j → j ≤ p.ihi → toXR (g0 j) = fin (er j)) →
      1 ≤ j → i0 < j → j ≤ ihi → j ≤ L → ∃ x, w.data[(j - 1).toNat]? = some x ∧ x.isFinite = true ∧ toR x = er j := by
    intro w L er g0 i0 j hw hg0 j0 j1 j2 j3
    refine ⟨g0 j, ?_, fin_toXR (hg0 j j1 j2)⟩
    rw [hw, tab_getElem?, if_pos (by omega), show (((j - 1).toNat : ℕ) : ℤ) + 1 = j by omega]
  have back : ∀ (Q : Matrix (Blk ilo ihi) (Blk ilo ihi) ℝ) (T : ℤ → ℤ → ℝ), Trk (block ilo ihi A) Q (S * p.eps B) T →
      BackwardF (block ilo ihi A) Q (Q * (block ilo ihi T - Q.transpose * block ilo ihi A * Q) * Q.transpose) (block ilo ihi T)
        (hqrBoundF (ihi - ilo + 1) (fro (block ilo ihi A))) := by
    intro Q T hG
    refine ⟨hG.orth, ?_, ?_⟩
    · have e3 : Q.transpose * (block ilo ihi A + Q * (block ilo ihi T - Q.transpose * block ilo ihi A * Q) * Q.transpose) * Q =
          Q.transpose * block ilo ihi A * Q + (Q.transpose * Q) * (block ilo ihi T - Q.transpose * block ilo ihi A * Q) * (Q.transpose * Q) := by
        simp only [Matrix.mul_add, Matrix.add_mul, Matrix.mul_assoc]
      rw [e3, show Q.transpose * Q = 1 from hG.orth, Matrix.one_mul, Matrix.mul_one]
      abel
    · rw [fro_mul_right _ (by rw [Matrix.transpose_transpose]; exact hG.orth), fro_mul_left _ hG.orth]
      refine hG.close.trans ?_
      rw [epsB]
      refine bE.trans (le_of_eq ?_)
      unfold hqrBoundF
      rw [← hSR, pnh, show fro (block ilo ihi A) = F from rfl]
      unfold ur tiny
      generalize (2 : ℝ) ^ 969 = w
      ring
  rcases hq with ⟨q1, q2, T, er, ei, a, ⟨⟨g, hg, hR⟩, hGZ, hbot, hSch, ⟨gr, r1, r2, -⟩, ⟨gi, i1, i2, -⟩⟩, ewr, ewi⟩ |
    ⟨hq0, T, er, ei, ⟨g, hg, hR⟩, hGZ, -, hSch, ⟨gr, r1, r2, -⟩, ⟨gi, i1, i2, -⟩⟩
  · obtain ⟨Q, hG, -⟩ : ∃ Q : Matrix (Blk ilo ihi) (Blk ilo ihi) ℝ, Trk (block ilo ihi A) Q (S * p.eps B) T ∧
      ZF p (if wantz then rz else 1) (if wantz then cz else 1) (ofList2 rz z.data) Z0 (S * epsz C) Q a.z := hGZ
    rw [ewr] at r1; rw [ewi] at i1
    rw [pilo] at q1; rw [pihi] at q2
    have hlr : q.1.wr.data.length = wr.length := by rw [r1, length_tab]
    have hli : q.1.wi.data.length = wi.length := by rw [i1, length_tab]
    have n0 : q.2 ≠ 0 := by omega
    refine Tot.pure ⟨Q, _, T, er, ei, ⟨Or.inr ⟨q1, q2⟩, back Q T hG, hR.hess, fun _ g2 => hbot (by rw [pilo]; omega) g2, ?_, ?_, ?_,
      fun h0 => absurd h0 n0, fun h0 => absurd h0 n0⟩, hlr, hli, fun h0 => absurd h0 n0⟩
    · rw [if_neg n0]; exact hSch
    · intro j j1 j2 j3
      rw [if_neg n0] at j1
      change q.2 + 1 ≤ j at j1
      exact vec _ _ _ _ q.2 j r1 r2 (by omega) (by omega) j2 (by rw [← hlr]; exact j3)
    · intro j j1 j2 j3
      rw [if_neg n0] at j1
      change q.2 + 1 ≤ j at j1
      exact vec _ _ _ _ q.2 j i1 i2 (by omega) (by omega) j2 (by rw [← hli]; exact j3)
  obtain ⟨Q, hG, hZq⟩ : ∃ Q : Matrix (Blk ilo ihi) (Blk ilo ihi) ℝ, Trk (block ilo ihi A) Q (S * p.eps B) T ∧
    ZF p (if wantz then rz else 1) (if wantz then cz else 1) (ofList2 rz z.data) Z0 (S * epsz C) Q q.1.z := hGZ
  have hlr : q.1.wr.data.length = wr.length := by rw [r1, length_tab]
  have hli : q.1.wi.data.length = wi.length := by rw [i1, length_tab]
  have cell : ∀ a b x, ilo ≤ a → a ≤ ihi → ilo ≤ b → b ≤ ihi → xg g a b = fin x → EntryF q.1.h r a b x := fun a b x a1 a2 b1 b2 hx =>
    ⟨g a b, (entry_is2 hg (by omega) (by omega) (by omega) (by omega) _).2 rfl, fin_toXR hx⟩
  refine Tot.pure ⟨Q, _, T, er, ei, ⟨Or.inl hq0, back Q T hG, hR.hess, fun g1 => absurd g1 (by rw [show _ = (0 : ℤ) from hq0]; exact lt_irrefl _), ?_, ?_, ?_, ?_, ?_⟩,
    hlr, hli, ?_⟩
  · rw [if_pos hq0]
    have := hSch
    rwa [pilo, show ilo - 1 + 1 = ilo by ring] at this
  · intro j j1 j2 j3
    rw [if_pos hq0] at j1
    exact vec _ _ _ _ _ j r1 r2 (by omega) (by rw [pilo]; omega) j2 (by rw [← hlr]; exact j3)
  · intro j j1 j2 j3
    rw [if_pos hq0] at j1
    exact vec _ _ _ _ _ j i1 i2 (by omega) (by rw [pilo]; omega) j2 (by rw [← hli]; exact j3)
  · intro _ a b b1 hba a2
    exact cell a b _ (by omega) a2 b1 (by omega) (hR.low a b b1 hba a2)
  · intro _ a a1 a2 hne
    refine cell a (a + 1) _ a1 (by omega) (by omega) (by omega) (hR.up a (a + 1) a1 (by omega) (by rw [pihi]; omega) fun d d1 d2 => ?_)
    rw [show d = a + 1 by omega, show a + 1 - 1 = a by ring]
    exact hne
  · intro _
    refine ⟨⟨hg.rows, hg.cols, by show q.1.h.data.length = _; rw [hg.data, length_tab2], hM.small⟩, fun hw => ?_⟩
    obtain ⟨zg, y1, y2, y3⟩ := hZq hw
    simp only [hw, if_true] at y1
    obtain ⟨z1, z2, z3, z4, z5⟩ := hz hw
    refine ⟨⟨y1.rows, y1.cols, by show q.1.z.data.length = _; rw [y1.data, length_tab2], z1.small⟩, ?_, ?_⟩
    · intro a a1 a2
      obtain ⟨k1, k2⟩ := y2 a a1 a2
      refine ⟨fun b => toR (zg a b), fun b => ?_, ?_⟩
      · obtain ⟨b1, b2⟩ := Finset.mem_Icc.1 b.2
        exact ⟨zg a b, (entry_is2 y1 (by omega) (by omega) (by omega) (by omega) _).2 rfl, k1 b b1 b2, rfl⟩
      · have k3 := fro_row (ilo := ilo) (ihi := ihi) fun b => toR (zg a b) - ∑ d : Blk ilo ihi, Z0 a d * Q d b
        rw [← k3]
        refine le_trans (le_of_eq_of_le ?_ k2) ?_
        · rfl
        · show (S : ℝ) * epsz C ≤ _
          unfold epsz
          refine cE.trans (le_of_eq ?_)
          unfold hqrBoundZ
          rw [← hSR]
          unfold ur eta
          generalize (2 : ℝ) ^ 1075 = w
          ring
    · intro a b a1 a2 b1 b2 hout x
      have hzs := is2_of_matrix z1 (by omega)
      have e1 := entry_is2 y1 a1 a2 b1 b2 x
      have e2 := entry_is2 hzs a1 a2 b1 b2 x
      rw [y3 a b hout] at e1
      exact e1.trans e2.symm

/-- **C77** (backward stability on `f64`).  Whenever `dlahqr` returns on `f64`, with any number of rounds and in either build profile, there
is a matrix exactly orthogonally similar to the input plus a small perturbation such that every eigenvalue reported as found (all of
them if `info` is 0, those after `info` otherwise) is finite and belongs to a diagonal block of that matrix; on success the returned
diagonal blocks are exactly those of that matrix and `z` is multiplied by the same orthogonal matrix up to a small error. -/
theorem C77_dlahqr_backward_f64 (hM : IsMatrix h r c) (h1 : 1 ≤ ilo) (h2 : ilo < ihi) (h3 : ihi ≤ n) (h4 : n ≤ r) (h5 : n ≤ c)
    (hnh : ihi - ilo + 1 ≤ 2000) {A : ℤ → ℤ → ℝ} (hA : HessInputF h r ilo ihi A) (hN : fro (block ilo ihi A) ≤ 2 ^ 970)
    (hz : wantz = true → IsMatrix z rz cz ∧ 1 ≤ iloz ∧ iloz ≤ ihiz ∧ ihiz ≤ rz ∧ ihi ≤ cz) {Z0 : ℤ → ℤ → ℝ} {K : ℝ} (hK0 : 0 ≤ K) (hK : K ≤ 2 ^ 970)
    (hZ : wantz = true → ∀ a b, iloz ≤ a → a ≤ ihiz → ilo ≤ b → b ≤ ihi → EntryF z rz a b (Z0 a b))
    (hZK : wantz = true → ∀ a, iloz ≤ a → a ≤ ihiz → Real.sqrt (∑ b : Blk ilo ihi, Z0 a b ^ 2) ≤ K) (pr : Profile)
    (ret : HqrRet (FA Float) (List Float) (List Float) (FA Float))
    (hret : dlahqr (F := Float) fuel true wantz n ilo ihi h (r : ℤ) wr wi iloz ihiz z ldz pr = .ok ret) :
    ∃ Q E T er ei, HqrDoneF r ilo ihi A Q E T er ei ret.h ret.wr ret.wi ret.info ∧ ret.wr.length = wr.length ∧ ret.wi.length = wi.length ∧
      (ret.info = 0 → IsMatrix ret.h r c ∧ (wantz = true → IsMatrix ret.z rz cz ∧ ZDoneF rz cz iloz ihiz ilo ihi Z0 (hqrBoundZ (ihi - ilo + 1) K) Q z ret.z)) := by
  rcases dlahqr_runF fuel wantz n ilo ihi h r c wr wi iloz ihiz z rz cz ldz hM h1 h2 h3 h4 h5 hnh hA hN hz hK0 hK hZ hZK pr with e | ⟨a, e, ha⟩
  · rw [hret] at e; cases e
  · rw [hret] at e; cases e; exact ha

end

/-! ### The hypotheses are met: the cyclic permutation of order three, whose eigenvalues are the cube roots of one -/

/-- The 3-by-3 matrix with rows `(0, 0, 1)`, `(1, 0, 0)` and `(0, 1, 0)`. -/
def cyclicF : FA Float := ⟨[0, 1, 0, 0, 0, 1, 1, 0, 0], 3, 3, 0⟩

/-- The identity. -/
def idF : FA Float := ⟨[1, 0, 0, 0, 1, 0, 0, 0, 1], 3, 3, 0⟩

/-- The entries of `cyclicF`. -/
def cyclicA (a b : ℤ) : ℝ := if a = 1 ∧ b = 3 then 1 else if a = 2 ∧ b = 1 then 1 else if a = 3 ∧ b = 2 then 1 else 0

/-- The entries of the identity. -/
def idA (a b : ℤ) : ℝ := if a = b then 1 else 0

theorem cyclic_matrix : IsMatrix cyclicF 3 3 := ⟨rfl, rfl, rfl, by decide⟩

theorem idF_matrix : IsMatrix idF 3 3 := ⟨rfl, rfl, rfl, by decide⟩

theorem lit0 : (0 : Float).isFinite = true ∧ toR (0 : Float) = 0 := toR_zero
theorem lit1 : (1 : Float).isFinite = true ∧ toR (1 : Float) = 1 := toR_one'

theorem cyclic_input : HessInputF cyclicF 3 1 3 cyclicA := by
  constructor
  · intro a b a1 a2 b1 b2 n1 n2
    rcases (by omega : a = 1 ∨ a = 2 ∨ a = 3) with rfl | rfl | rfl <;> rcases (by omega : b = 1 ∨ b = 2 ∨ b = 3) with rfl | rfl | rfl <;>
      first
      | (exact absurd rfl n1)
      | (refine ⟨0, by rfl, lit0.1, ?_⟩; rw [lit0.2]; norm_num [cyclicA])
      | (refine ⟨1, by rfl, lit1.1, ?_⟩; rw [lit1.2]; norm_num [cyclicA])
  · intro a b hab
    unfold cyclicA
    rw [if_neg (by omega), if_neg (by omega), if_neg (by omega)]

theorem idF_input {a b : ℤ} (a1 : 1 ≤ a) (a2 : a ≤ 3) (b1 : 1 ≤ b) (b2 : b ≤ 3) : EntryF idF 3 a b (idA a b) := by
  rcases (by omega : a = 1 ∨ a = 2 ∨ a = 3) with rfl | rfl | rfl <;> rcases (by omega : b = 1 ∨ b = 2 ∨ b = 3) with rfl | rfl | rfl <;>
      first
      | (refine ⟨0, by rfl, lit0.1, ?_⟩; rw [lit0.2]; norm_num [idA])
      | (refine ⟨1, by rfl, lit1.1, ?_⟩; rw [lit1.2]; norm_num [idA])

theorem sum_three (f : ℤ → ℝ) : ∑ a : Blk 1 3, f a = f 1 + f 2 + f 3 := by
  rw [Finset.sum_coe_sort (Finset.Icc (1 : ℤ) 3) f, sum_Icc_cons (by norm_num), show (1 : ℤ) + 1 = 2 by norm_num, sum_Icc_cons (by norm_num),
    show (2 : ℤ) + 1 = 3 by norm_num, Finset.Icc_self, Finset.sum_singleton, add_assoc]

theorem cyclic_fro : fro (block 1 3 cyclicA) ≤ 2 := by
  unfold fro
  rw [Real.sqrt_le_left (by norm_num)]
  have e2 : ∑ a : Blk 1 3, ∑ b : Blk 1 3, block 1 3 cyclicA a b ^ 2 = 3 := by
    have := sum_three fun a => ∑ b : Blk 1 3, cyclicA a b ^ 2
    refine this.trans ?_
    rw [sum_three fun b => cyclicA 1 b ^ 2, sum_three fun b => cyclicA 2 b ^ 2, sum_three fun b => cyclicA 3 b ^ 2]
    norm_num [cyclicA]
  rw [e2]; norm_num

/-- On the cyclic permutation `dlahqr` returns `info = 0`, and C77 applies to what it returns. -/
theorem C77_example : ∃ ret : HqrRet (FA Float) (List Float) (List Float) (FA Float),
    dlahqr (F := Float) 6 true true 3 1 3 cyclicF 3 [0, 0, 0] [0, 0, 0] 1 3 idF 3 .release = .ok ret ∧ ret.info = 0 ∧
    ∃ Q E T er ei, HqrDoneF 3 1 3 cyclicA Q E T er ei ret.h ret.wr ret.wi ret.info ∧ ZDoneF 3 3 1 3 1 3 idA (hqrBoundZ 3 1) Q idF ret.z := by
  obtain ⟨ret, hr, hi⟩ : ∃ ret : HqrRet (FA Float) (List Float) (List Float) (FA Float),
      dlahqr (F := Float) 6 true true 3 1 3 cyclicF 3 [0, 0, 0] [0, 0, 0] 1 3 idF 3 .release = .ok ret ∧ ret.info = 0 := by
    have h : ((dlahqr (F := Float) 6 true true 3 1 3 cyclicF 3 ([0, 0, 0] : List Float) ([0, 0, 0] : List Float) 1 3 idF 3 .release).val?.map (·.info)) = some 0 := by
      decide +kernel
    generalize dlahqr (F := Float) 6 true true 3 1 3 cyclicF 3 ([0, 0, 0] : List Float) ([0, 0, 0] : List Float) 1 3 idF 3 .release = x at *
    cases x with
    | ok a => exact ⟨a, rfl, by simpa [Res.val?] using h⟩
    | panic _ => cases h
    | exit _ _ => cases h
    | timeout => cases h
  have big1 : (2 : ℝ) ≤ 2 ^ 970 := le_self_pow₀ (by norm_num) (by norm_num)
  obtain ⟨Q, E, T, er, ei, hD, -, -, hZ⟩ := C77_dlahqr_backward_f64 6 true 3 1 3 cyclicF 3 3 [0, 0, 0] [0, 0, 0] 1 3 idF 3 3 3 cyclic_matrix (by norm_num)
    (by norm_num) (by norm_num) (by norm_num) (by norm_num) (by norm_num) cyclic_input (cyclic_fro.trans big1)
    (fun _ => ⟨idF_matrix, by norm_num, by norm_num, by norm_num, by norm_num⟩) (K := 1) (by norm_num) (one_le_two.trans big1) (Z0 := idA)
    (fun _ a b a1 a2 b1 b2 => idF_input a1 a2 b1 b2) (fun _ a a1 a2 => by
      rw [Real.sqrt_le_left (by norm_num), sum_three fun b => idA a b ^ 2]
      rcases (by omega : a = 1 ∨ a = 2 ∨ a = 3) with rfl | rfl | rfl <;> norm_num [idA]) .release ret hr
  exact ⟨ret, hr, hi, Q, E, T, er, ei, hD, ((hZ hi).2 rfl).2⟩

end Verif

import Verif.Lib.Qr5DeflAll
import Verif.Props.Qr5Safe
import Verif.Props.HqrTop
import Verif.Props.Qr5Z

/-!
# The convergence test at the end of a sweep of `dlaqr5` (C73)
-/

namespace Verif
open Scalar Spec

variable {F : Type} [Scalar F]

/-- **C73.** In every scalar arithmetic, after `dlaqr5` (two or three shifts, no accumulation, a block of at least three rows) the last but one subdiagonal element of the block, in
row `kbot - 1` and column `kbot - 2`, is zero or does not satisfy the criterion of Ahues and Tisseur: no negligible element is left there. -/
theorem C73_dlaqr5_deflates {SR SI : Type} [ToFA F SR] [ToFA F SI] (wantt wantz : Bool) (kacc22 n ktop kbot nshfts : Int) (sr : SR) (si : SI) (h z v u wv wh : FA F)
    (iloz ihiz ldz ldu nv ldwv nh ldwh : Int) (r c ldv cv rz : Nat) (hk1 : kacc22 ≠ 1) (hk2 : kacc22 ≠ 2) (hns : nshfts = 2 ∨ nshfts = 3)
    (hM : IsMatrix h r c) (h1 : 1 ≤ ktop) (h2 : ktop + 2 ≤ kbot) (h3 : kbot ≤ n) (h4 : n ≤ r) (h5 : n ≤ c) (hv : IsMatrix v ldv cv) (hv3 : 3 ≤ ldv) (hcv : 1 ≤ cv)
    (hz : wantz = true → z.rows = rz ∧ 1 ≤ iloz ∧ ihiz ≤ rz ∧ rz * (kbot + 1) < 2 ^ 31) :
    ∃ ret : Qr5Ret (FA F) (FA F) (FA F) (FA F) (FA F) (FA F),
      dlaqr5 (F := F) wantt wantz kacc22 n ktop kbot nshfts sr si h (r : Int) iloz ihiz z ldz v (ldv : Int) u ldu nv wv ldwv nh wh ldwh = pure ret ∧
      ∀ H : Int → Int → F, (∀ i j, ktop ≤ i → i ≤ kbot → ktop ≤ j → j ≤ kbot → Entry ret.h r i j (H i j)) →
        H (kbot - 1) (kbot - 2) = zero ∨ (H (kbot - 1) (kbot - 2) =ᶠ zero) = true ∨
        ahuesTisseur (dlamch 'P') (dlamch 'S' * (ofInt n / dlamch 'P')) ktop (kbot - 2) H = false := by
  have ha : (qr5Params (F := F) wantt wantz kacc22 n ktop kbot nshfts r iloz ihiz ldz ldv ldu nv ldwv nh ldwh).accum = false := by
    show (decide (kacc22 = 1) || decide (kacc22 = 2)) = false
    simp [hk1, hk2]
  have na : ∀ {P : Prop}, (qr5Params (F := F) wantt wantz kacc22 n ktop kbot nshfts r iloz ihiz ldz ldv ldu nv ldwv nh ldwh).accum = true → P := by
    intro P h; rw [ha] at h; cases h
  have hf : Fit5 (qr5Params (F := F) wantt wantz kacc22 n ktop kbot nshfts r iloz ihiz ldz ldv ldu nv ldwv nh ldwh) r c ldv cv rz 0 0 0 0 0 0 0 :=
    ⟨h1, by show ktop < kbot; omega, h3, h4, h5, rfl, rfl, hv3, hcv, qr5_nbmps hns, na, na, na, na, na, na, na, na, na, na, na, na, fun hw => (hz hw).2.1,
      fun hw => (hz hw).2.2.1, na, na, fun _ hw => (hz hw).2.2.2⟩
  unfold dlaqr5
  show ∃ ret, (do
    let h_f ← pure h
    let z_f ← pure z
    let v_f ← pure v
    let u_f ← pure u
    let wv_f ← pure wv
    let wh_f ← pure wh
    _ : R (Qr5Ret (FA F) (FA F) (FA F) (FA F) (FA F) (FA F))) = _ ∧ _
  simp only [pure_bind]
  rw [if_neg (by omega), if_neg (by omega)]
  obtain ⟨s, e, hs', hd⟩ := qr5Main_defl hf ha h2 nshfts (s := ⟨ToFA.toFa sr, ToFA.toFa si, h, z, v, u, wv, wh, faOfVec [zero, zero, zero]⟩)
    ⟨⟨hM.rows, hM.cols, hM.length, hM.small⟩, ⟨hv.rows, hv.cols, hv.length, hv.small⟩, fun hw => (hz hw).1, na, na, na, na⟩
  rw [e, pure_bind]
  refine ⟨⟨s.h, s.z, s.v, s.u, s.wv, s.wh⟩, rfl, fun H hH => ?_⟩
  have c : ∀ {i j : Int}, ktop ≤ i → i ≤ kbot → ktop ≤ j → j ≤ kbot → cellOf r s.h i j = H i j := fun i1 i2 j1 j2 => cellOf_entry (hH _ _ i1 i2 j1 j2)
  have hd' : Deflated (qr5Params (F := F) wantt wantz kacc22 n ktop kbot nshfts r iloz ihiz ldz ldv ldu nv ldwv nh ldwh) r (kbot - 2) s.h := hd
  unfold Deflated at hd'
  rw [show kbot - 2 + 1 = kbot - 1 by ring, c (by omega) (by omega) (by omega) (by omega)] at hd'
  refine hd'.imp id (Or.imp id fun hq => ?_)
  rw [← hq]
  show ahuesTisseur _ _ _ _ _ = ahuesTisseur (dlamch 'P') (dlamch 'S' * (ofInt n / dlamch 'P')) ktop (kbot - 2) (cellOf r s.h)
  exact (ahuesTisseur_congr (by omega) fun i j i1 i2 j1 j2 => c i1 (by omega) j1 (by omega)).symm

/-- Non-vacuity: an ordinary 3-by-3 matrix on `f64`, any shifts. -/
example (s1 s2 : Float) : ∃ ret : Qr5Ret (FA Float) (FA Float) (FA Float) (FA Float) (FA Float) (FA Float),
    dlaqr5 (F := Float) true true 0 3 1 3 2 [s1, s2] ([0, 0] : List Float) hess3 (3 : Nat) 1 3 eye3 3 eye3 (3 : Nat) eye3 3 3 eye3 3 3 eye3 3 = pure ret ∧
      ∀ H : Int → Int → Float, (∀ i j, 1 ≤ i → i ≤ 3 → 1 ≤ j → j ≤ 3 → Entry ret.h 3 i j (H i j)) →
        H 2 1 = zero ∨ (H 2 1 =ᶠ zero) = true ∨ ahuesTisseur (dlamch 'P') (dlamch 'S' * (ofInt 3 / dlamch 'P')) 1 1 H = false :=
  C73_dlaqr5_deflates true true 0 3 1 3 2 [s1, s2] _ hess3 eye3 eye3 eye3 eye3 eye3 1 3 3 3 3 3 3 3 3 3 3 3 3 (by norm_num) (by norm_num) (Or.inl rfl)
    ⟨rfl, rfl, rfl, by norm_num⟩ (by norm_num) (by norm_num) (by norm_num) (by norm_num) (by norm_num) ⟨rfl, rfl, rfl, by norm_num⟩ (by norm_num)
    (by norm_num) fun _ => ⟨rfl, by norm_num, by norm_num, by norm_num⟩

/-- **C73 for the whole block.** In every scalar arithmetic, after `dlaqr5` (two or three shifts, no accumulation, a block of at least three rows) every subdiagonal element of the
block but the last is zero, or stands between two zero diagonal elements, or does not satisfy the criterion of Ahues and Tisseur: the rest of the sweep undoes no test. -/
theorem C73_dlaqr5_deflates_all {SR SI : Type} [ToFA F SR] [ToFA F SI] (wantt wantz : Bool) (kacc22 n ktop kbot nshfts : Int) (sr : SR) (si : SI) (h z v u wv wh : FA F)
    (iloz ihiz ldz ldu nv ldwv nh ldwh : Int) (r c ldv cv rz : Nat) (hk1 : kacc22 ≠ 1) (hk2 : kacc22 ≠ 2) (hns : nshfts = 2 ∨ nshfts = 3)
    (hM : IsMatrix h r c) (h1 : 1 ≤ ktop) (h2 : ktop + 2 ≤ kbot) (h3 : kbot ≤ n) (h4 : n ≤ r) (h5 : n ≤ c) (hv : IsMatrix v ldv cv) (hv3 : 3 ≤ ldv) (hcv : 1 ≤ cv)
    (hz : wantz = true → z.rows = rz ∧ 1 ≤ iloz ∧ ihiz ≤ rz ∧ rz * (kbot + 1) < 2 ^ 31) :
    ∃ ret : Qr5Ret (FA F) (FA F) (FA F) (FA F) (FA F) (FA F),
      dlaqr5 (F := F) wantt wantz kacc22 n ktop kbot nshfts sr si h (r : Int) iloz ihiz z ldz v (ldv : Int) u ldu nv wv ldwv nh wh ldwh = pure ret ∧
      ∀ H : Int → Int → F, (∀ i j, ktop ≤ i → i ≤ kbot → ktop ≤ j → j ≤ kbot → Entry ret.h r i j (H i j)) → ∀ k, ktop ≤ k → k + 2 ≤ kbot →
        H (k + 1) k = zero ∨ (H (k + 1) k =ᶠ zero) = true ∨ (abs (H k k) + abs (H (k + 1) (k + 1)) =ᶠ zero) = true ∨
        ahuesTisseurDiag (dlamch 'P') (dlamch 'S' * (ofInt n / dlamch 'P')) k H = false := by
  have ha : (qr5Params (F := F) wantt wantz kacc22 n ktop kbot nshfts r iloz ihiz ldz ldv ldu nv ldwv nh ldwh).accum = false := by
    show (decide (kacc22 = 1) || decide (kacc22 = 2)) = false
    simp [hk1, hk2]
  have na : ∀ {P : Prop}, (qr5Params (F := F) wantt wantz kacc22 n ktop kbot nshfts r iloz ihiz ldz ldv ldu nv ldwv nh ldwh).accum = true → P := by
    intro P h; rw [ha] at h; cases h
  have hf : Fit5 (qr5Params (F := F) wantt wantz kacc22 n ktop kbot nshfts r iloz ihiz ldz ldv ldu nv ldwv nh ldwh) r c ldv cv rz 0 0 0 0 0 0 0 :=
    ⟨h1, by show ktop < kbot; omega, h3, h4, h5, rfl, rfl, hv3, hcv, qr5_nbmps hns, na, na, na, na, na, na, na, na, na, na, na, na, fun hw => (hz hw).2.1,
      fun hw => (hz hw).2.2.1, na, na, fun _ hw => (hz hw).2.2.2⟩
  unfold dlaqr5
  show ∃ ret, (do
    let h_f ← pure h
    let z_f ← pure z
    let v_f ← pure v
    let u_f ← pure u
    let wv_f ← pure wv
    let wh_f ← pure wh
    _ : R (Qr5Ret (FA F) (FA F) (FA F) (FA F) (FA F) (FA F))) = _ ∧ _
  simp only [pure_bind]
  rw [if_neg (by omega), if_neg (by omega)]
  obtain ⟨s, e, hs', hd⟩ := qr5Main_all hf ha h2 nshfts (s := ⟨ToFA.toFa sr, ToFA.toFa si, h, z, v, u, wv, wh, faOfVec [zero, zero, zero]⟩)
    ⟨⟨hM.rows, hM.cols, hM.length, hM.small⟩, ⟨hv.rows, hv.cols, hv.length, hv.small⟩, fun hw => (hz hw).1, na, na, na, na⟩
  rw [e, pure_bind]
  refine ⟨⟨s.h, s.z, s.v, s.u, s.wv, s.wh⟩, rfl, fun H hH k k1 k2 => ?_⟩
  have c : ∀ {i j : Int}, ktop ≤ i → i ≤ kbot → ktop ≤ j → j ≤ kbot → cellOf r s.h i j = H i j := fun i1 i2 j1 j2 => cellOf_entry (hH _ _ i1 i2 j1 j2)
  have hd' := hd k k1 (show k < kbot - 1 by omega)
  unfold DeflatedD ahuesTisseurDiag at hd'
  rw [c (i := k) (j := k) (by omega) (by omega) (by omega) (by omega), c (i := k + 1) (j := k) (by omega) (by omega) (by omega) (by omega),
    c (i := k) (j := k + 1) (by omega) (by omega) (by omega) (by omega), c (i := k + 1) (j := k + 1) (by omega) (by omega) (by omega) (by omega)] at hd'
  exact hd'

/-- Five rows, ordinary `f64` numbers. -/
def hess5T : FA Float := ⟨[4, 1, 0, 0, 0, 2, 3, 2, 0, 0, 1, 1, 5, 3, 0, 3, 2, 1, 2, 1, 1, 4, 2, 1, 6], 5, 5, Scalar.nan⟩

/-- Non-vacuity: a 5-by-5 matrix on `f64`, any shifts; the claim is about three subdiagonal elements. -/
example (s1 s2 : Float) : ∃ ret : Qr5Ret (FA Float) (FA Float) (FA Float) (FA Float) (FA Float) (FA Float),
    dlaqr5 (F := Float) true true 0 5 1 5 2 [s1, s2] ([0, 0] : List Float) hess5T (5 : Nat) 1 3 eye3 3 eye3 (3 : Nat) eye3 3 3 eye3 3 3 eye3 3 = pure ret ∧
      ∀ H : Int → Int → Float, (∀ i j, 1 ≤ i → i ≤ 5 → 1 ≤ j → j ≤ 5 → Entry ret.h 5 i j (H i j)) → ∀ k, 1 ≤ k → k + 2 ≤ 5 →
        H (k + 1) k = zero ∨ (H (k + 1) k =ᶠ zero) = true ∨ (abs (H k k) + abs (H (k + 1) (k + 1)) =ᶠ zero) = true ∨
        ahuesTisseurDiag (dlamch 'P') (dlamch 'S' * (ofInt 5 / dlamch 'P')) k H = false :=
  C73_dlaqr5_deflates_all true true 0 5 1 5 2 [s1, s2] _ hess5T eye3 eye3 eye3 eye3 eye3 1 3 3 3 3 3 3 3 5 5 3 3 3 (by norm_num) (by norm_num) (Or.inl rfl)
    ⟨rfl, rfl, rfl, by norm_num⟩ (by norm_num) (by norm_num) (by norm_num) (by norm_num) (by norm_num) ⟨rfl, rfl, rfl, by norm_num⟩ (by norm_num)
    (by norm_num) fun _ => ⟨rfl, by norm_num, by norm_num, by norm_num⟩

end Verif

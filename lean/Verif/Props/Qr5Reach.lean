import Verif.Lib.Qr5Reach
import Verif.Props.Qr5Local

/-!
# What the flag `wantt` of `dlaqr5` decides (C94)

Any scalar arithmetic, two or three shifts, no accumulation.
-/

namespace Verif
open Scalar Spec

variable {F : Type} [Scalar F]

theorem dlaqr5_reach {SR SI : Type} [ToFA F SR] [ToFA F SI] (wantz : Bool) (kacc22 n ktop kbot nshfts : Int) (sr : SR) (si : SI) (h z v u wv wh : FA F)
    (iloz ihiz ldz ldv ldu nv ldwv nh ldwh : Int) (r c : Nat) (hk1 : kacc22 ≠ 1) (hk2 : kacc22 ≠ 2) (hns : nshfts = 2 ∨ nshfts = 3) (hM : IsMatrix h r c)
    (h1 : 1 ≤ ktop) (h2 : ktop < kbot) (h3 : kbot ≤ n) (h4 : n ≤ r) (h5 : n ≤ c) :
    Sim (fun ret ret' : Qr5Ret (FA F) (FA F) (FA F) (FA F) (FA F) (FA F) =>
        (ret'.z = ret.z ∧ ret'.v = ret.v ∧ ret'.u = ret.u) ∧
        ∀ a b, ktop ≤ a → a ≤ kbot → ktop ≤ b → b ≤ kbot → a ≤ b + 3 → sameAt r ret.h.data ret'.h.data a b)
      (dlaqr5 (F := F) false wantz kacc22 n ktop kbot nshfts sr si h (r : Int) iloz ihiz z ldz v ldv u ldu nv wv ldwv nh wh ldwh)
      (dlaqr5 (F := F) true wantz kacc22 n ktop kbot nshfts sr si h (r : Int) iloz ihiz z ldz v ldv u ldu nv wv ldwv nh wh ldwh) := by
  have hL := hM.small
  have s : Is2 h r c (r * c) _ := is2_of_matrix hM (by omega)
  unfold dlaqr5
  show Sim _ (do
    let h_f ← pure h
    let z_f ← pure z
    let v_f ← pure v
    let u_f ← pure u
    let wv_f ← pure wv
    let wh_f ← pure wh
    _ : R (Qr5Ret (FA F) (FA F) (FA F) (FA F) (FA F) (FA F))) (do
    let h_f ← pure h
    let z_f ← pure z
    let v_f ← pure v
    let u_f ← pure u
    let wv_f ← pure wv
    let wh_f ← pure wh
    _ : R (Qr5Ret (FA F) (FA F) (FA F) (FA F) (FA F) (FA F)))
  simp only [pure_bind]
  rw [if_neg (by omega), if_neg (by omega), if_neg (by omega), if_neg (by omega)]
  have hf : FitL (qr5Params (F := F) true wantz kacc22 n ktop kbot nshfts r iloz ihiz ldz ldv ldu nv ldwv nh ldwh) r c :=
    ⟨h1, h2, h3, h4, h5, rfl, qr5_nbmps hns⟩
  refine Sim.bind (qr5Main_reach hf (by show (decide (kacc22 = 1) || decide (kacc22 = 2)) = false; simp [hk1, hk2]) rfl hL nshfts (s := ⟨ToFA.toFa sr, ToFA.toFa si, h, z, v, u, wv, wh, faOfVec [zero, zero, zero]⟩) s) fun q q' hq => ?_
  obtain ⟨eq, f, f', t, t', ag, -, -⟩ := hq
  obtain ⟨qsr, qsi, qh, qz, qv, qu, qwv, qwh, qvt⟩ := q
  obtain ⟨qsr', qsi', qh', qz', qv', qu', qwv', qwh', qvt'⟩ := q'
  simp only [Qr5S.mk.injEq, true_and] at eq t t'
  obtain ⟨rfl, rfl, rfl, rfl, rfl, rfl⟩ := eq
  refine Sim.pure ⟨⟨rfl, rfl, rfl⟩, fun a b a1 a2 b1 b2 ab => ?_⟩
  unfold sameAt
  simp only
  rw [data_is2 t hL (by omega) (by omega) (by omega) (by omega), data_is2 t' hL (by omega) (by omega) (by omega) (by omega), ag a b ?_]
  show ktop ≤ a ∧ a ≤ kbot ∧ ktop ≤ b ∧ b ≤ kbot ∧ (a ≤ b + 1 ∨ a = b + 3 ∨ a = b + 2 ∧ (b ≤ kbot - 1 ∨ b = ktop))
  omega

/-- **C94.** For every scalar arithmetic, two or three shifts, no accumulation, and sizes that fit: of two calls of `dlaqr5` that differ only in the flag `wantt` both return, with
the same `z` and `v` and the same entries of `h` in rows and columns `ktop .. kbot` down to the third diagonal below the main one. -/
theorem C94_dlaqr5_wantt {SR SI : Type} [ToFA F SR] [ToFA F SI] (wantz : Bool) (kacc22 n ktop kbot nshfts : Int) (sr : SR) (si : SI) (h z v u wv wh : FA F)
    (iloz ihiz ldz ldu nv ldwv nh ldwh : Int) (r c ldv cv rz : Nat) (hk1 : kacc22 ≠ 1) (hk2 : kacc22 ≠ 2) (hns : nshfts = 2 ∨ nshfts = 3)
    (hM : IsMatrix h r c) (h1 : 1 ≤ ktop) (h2 : ktop < kbot) (h3 : kbot ≤ n) (h4 : n ≤ r) (h5 : n ≤ c) (hv : IsMatrix v ldv cv) (hv3 : 3 ≤ ldv)
    (hcv : 1 ≤ cv) (hz : wantz = true → z.rows = rz ∧ 1 ≤ iloz ∧ ihiz ≤ rz ∧ rz * (kbot + 1) < 2 ^ 31) :
    ∃ ret ret' : Qr5Ret (FA F) (FA F) (FA F) (FA F) (FA F) (FA F),
      dlaqr5 (F := F) false wantz kacc22 n ktop kbot nshfts sr si h (r : Int) iloz ihiz z ldz v (ldv : Int) u ldu nv wv ldwv nh wh ldwh = pure ret ∧
      dlaqr5 (F := F) true wantz kacc22 n ktop kbot nshfts sr si h (r : Int) iloz ihiz z ldz v (ldv : Int) u ldu nv wv ldwv nh wh ldwh = pure ret' ∧
      (ret'.z = ret.z ∧ ret'.v = ret.v) ∧ ∀ a b, ktop ≤ a → a ≤ kbot → ktop ≤ b → b ≤ kbot → a ≤ b + 3 → sameAt r ret.h.data ret'.h.data a b := by
  obtain ⟨ret, e, -⟩ := C70_dlaqr5_safe false wantz kacc22 n ktop kbot nshfts sr si h z v u wv wh iloz ihiz ldz ldu nv ldwv nh ldwh r c ldv cv rz hk1 hk2 hns hM h1 h2 h3 h4 h5 hv
    hv3 hcv hz
  obtain ⟨ret', e', -⟩ := C70_dlaqr5_safe true wantz kacc22 n ktop kbot nshfts sr si h z v u wv wh iloz ihiz ldz ldu nv ldwv nh ldwh r c ldv cv rz hk1 hk2 hns hM h1 h2 h3 h4 h5 hv
    hv3 hcv hz
  have := dlaqr5_reach wantz kacc22 n ktop kbot nshfts sr si h z v u wv wh iloz ihiz ldz ldv ldu nv ldwv nh ldwh r c hk1 hk2 hns hM h1 h2 h3 h4 h5 .debug
  rw [e, e'] at this
  cases this with
  | ok q => exact ⟨ret, ret', e, e', ⟨q.1.1, q.1.2.1⟩, q.2⟩

/-! ### Example -/

/-- One sweep over rows and columns 2 to 4 of `shift5 0`, with both shifts zero. -/
def shiftSweep24 (wantt : Bool) : R (Qr5Ret (FA Float) (FA Float) (FA Float) (FA Float) (FA Float) (FA Float)) :=
  dlaqr5 (F := Float) wantt false 0 5 2 4 2 ([0, 0] : List Float) ([0, 0] : List Float)
    (⟨[1, 1, 0, 0, 0, 2, 3, 1, 0, 0, 3, 1, 2, 1, 0, 4, 1, 1, 1, 1, 5, 1, 1, 1, 2], 5, 5, 0⟩ : FA Float) (5 : Nat) 1 5 (shift5 0) 5 (⟨[0, 0, 0], 3, 1, 0⟩ : FA Float) (3 : Nat)
    (shift5 0) 5 0 (shift5 0) 5 0 (shift5 0) 5

/-- **C94: outside the active block the flag does matter.**  A matrix with active block in rows and columns 2 to 4, and both values of `wantt`: the entries in row 2 and
column 2 (inside the block) have changed and are equal, those in row 1 of column 2 (above it) and in row 2 of column 5 (to the right of it) differ. -/
theorem C94_example : ∃ ret ret', shiftSweep24 false = pure ret ∧ shiftSweep24 true = pure ret' ∧
    sameAt 5 ret.h.data ret'.h.data 2 2 ∧ ret.h.data.getD 6 0 ≠ (3 : Float) ∧ ret.h.data.getD 5 0 ≠ ret'.h.data.getD 5 0 ∧ ret.h.data.getD 21 0 ≠ ret'.h.data.getD 21 0 := by
  obtain ⟨ret, ret', e, e', -, hs⟩ := C94_dlaqr5_wantt (F := Float) false 0 5 2 4 2 ([0, 0] : List Float) ([0, 0] : List Float)
    (⟨[1, 1, 0, 0, 0, 2, 3, 1, 0, 0, 3, 1, 2, 1, 0, 4, 1, 1, 1, 1, 5, 1, 1, 1, 2], 5, 5, 0⟩ : FA Float) (shift5 0) (⟨[0, 0, 0], 3, 1, 0⟩ : FA Float) (shift5 0)
    (shift5 0) (shift5 0) 1 5 5 5 0 5 0 5 5 5 3 1 5 (by norm_num) (by norm_num) (Or.inl rfl) ⟨rfl, rfl, rfl, by norm_num⟩ (by norm_num) (by norm_num) (by norm_num) (by norm_num)
    (by norm_num) ⟨rfl, rfl, rfl, by norm_num⟩ (by norm_num) (by norm_num) fun h => by cases h
  have k0 : (shiftSweep24 false .release).holds (fun ret => decide ((3 : Float) < ret.h.data.getD 6 0 ∧ ret.h.data.getD 5 0 = (2 : Float) ∧ ret.h.data.getD 21 0 = (1 : Float))) = true := by
    decide +kernel
  have k1 : (shiftSweep24 true .release).holds (fun ret => decide (¬ ret.h.data.getD 5 0 = (2 : Float) ∧ ¬ ret.h.data.getD 21 0 = (1 : Float))) = true := by decide +kernel
  obtain ⟨a, ea, ha⟩ := Res.holds_spec k0
  obtain ⟨b, eb, hb⟩ := Res.holds_spec k1
  rw [show shiftSweep24 false = pure ret from e] at ea
  rw [show shiftSweep24 true = pure ret' from e'] at eb
  cases ea
  cases eb
  obtain ⟨a1, a2, a3⟩ := of_decide_eq_true ha
  obtain ⟨b1, b2⟩ := of_decide_eq_true hb
  refine ⟨ret, ret', e, e', hs 2 2 (by norm_num) (by norm_num) (by norm_num) (by norm_num) (by norm_num), fun h => ?_, fun h => b1 (h ▸ a2), fun h => b2 (h ▸ a3)⟩
  rw [h] at a1
  exact absurd a1 (by decide +kernel)

end Verif

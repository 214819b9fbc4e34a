import Verif.Lib.Qr5Safe
import Verif.Props.Qr5Accum
import Verif.Props.HqrSafe

/-!
# `dlaqr5` with two or three shifts never panics (C70)

Any scalar arithmetic: `f64` data with NaNs and infinities included.
-/

namespace Verif
open Scalar Spec

variable {F : Type} [Scalar F]

theorem dlaqr5_safe {SR SI : Type} [ToFA F SR] [ToFA F SI] (wantt wantz : Bool) (kacc22 n ktop kbot nshfts : Int) (sr : SR) (si : SI) (h z v u wv wh : FA F)
    (iloz ihiz ldz ldu nv ldwv nh ldwh : Int) (r c ldv cv rz cz ru cu rv cwv rh cwh : Nat) (hns : nshfts = 2 ∨ nshfts = 3)
    (hf : Fit5 (qr5Params (F := F) wantt wantz kacc22 n ktop kbot nshfts r iloz ihiz ldz ldv ldu nv ldwv nh ldwh) r c ldv cv rz cz ru cu rv cwv rh cwh)
    (hs : ∀ sr si vt, Shape5 (qr5Params (F := F) wantt wantz kacc22 n ktop kbot nshfts r iloz ihiz ldz ldv ldu nv ldwv nh ldwh) r c ldv cv rz cz ru cu rv cwv rh cwh
      ⟨sr, si, h, z, v, u, wv, wh, vt⟩) :
    ∃ ret : Qr5Ret (FA F) (FA F) (FA F) (FA F) (FA F) (FA F),
      dlaqr5 (F := F) wantt wantz kacc22 n ktop kbot nshfts sr si h (r : Int) iloz ihiz z ldz v (ldv : Int) u ldu nv wv ldwv nh wh ldwh = pure ret ∧
      IsMatrix ret.h r c ∧ IsMatrix ret.v ldv cv := by
  have h1 : ktop < kbot := hf.lt
  unfold dlaqr5
  show ∃ ret, (do
    let h_f ← pure h
    let z_f ← pure z
    let v_f ← pure v
    let u_f ← pure u
    let wv_f ← pure wv
    let wh_f ← pure wh
    _ : R (Qr5Ret (FA F) (FA F) (FA F) (FA F) (FA F) (FA F))) = _ ∧ _
  simp only [pure_bind]
  rw [if_neg (by omega), if_neg (by omega)]
  obtain ⟨s, e, hs'⟩ := qr5Main_ret hf nshfts (hs (ToFA.toFa sr) (ToFA.toFa si) (faOfVec [zero, zero, zero]))
  rw [e, pure_bind]
  exact ⟨⟨s.h, s.z, s.v, s.u, s.wv, s.wh⟩, rfl, hs'.h.mat, hs'.v.mat⟩

theorem qr5_nbmps {nshfts : Int} (hns : nshfts = 2 ∨ nshfts = 3) : (nshfts - nshfts.tmod 2).tdiv 2 = 1 := by
  rcases hns with rfl | rfl <;> decide

/-- **C70.** For every scalar arithmetic (so for `f64` with any data, NaNs and infinities included), every `wantt` and `wantz`, two or three shifts of any value, and arrays
of suitable sizes, `dlaqr5` without accumulation returns, the same in a debug and in a release build. -/
theorem C70_dlaqr5_safe {SR SI : Type} [ToFA F SR] [ToFA F SI] (wantt wantz : Bool) (kacc22 n ktop kbot nshfts : Int) (sr : SR) (si : SI) (h z v u wv wh : FA F)
    (iloz ihiz ldz ldu nv ldwv nh ldwh : Int) (r c ldv cv rz : Nat) (hk1 : kacc22 ≠ 1) (hk2 : kacc22 ≠ 2) (hns : nshfts = 2 ∨ nshfts = 3)
    (hM : IsMatrix h r c) (h1 : 1 ≤ ktop) (h2 : ktop < kbot) (h3 : kbot ≤ n) (h4 : n ≤ r) (h5 : n ≤ c) (hv : IsMatrix v ldv cv) (hv3 : 3 ≤ ldv) (hcv : 1 ≤ cv)
    (hz : wantz = true → z.rows = rz ∧ 1 ≤ iloz ∧ ihiz ≤ rz ∧ rz * (kbot + 1) < 2 ^ 31) :
    ∃ ret : Qr5Ret (FA F) (FA F) (FA F) (FA F) (FA F) (FA F),
      dlaqr5 (F := F) wantt wantz kacc22 n ktop kbot nshfts sr si h (r : Int) iloz ihiz z ldz v (ldv : Int) u ldu nv wv ldwv nh wh ldwh = pure ret ∧
      IsMatrix ret.h r c ∧ IsMatrix ret.v ldv cv := by
  have ha : (qr5Params (F := F) wantt wantz kacc22 n ktop kbot nshfts r iloz ihiz ldz ldv ldu nv ldwv nh ldwh).accum = false := by
    show (decide (kacc22 = 1) || decide (kacc22 = 2)) = false
    simp [hk1, hk2]
  have na : ∀ {P : Prop}, (qr5Params (F := F) wantt wantz kacc22 n ktop kbot nshfts r iloz ihiz ldz ldv ldu nv ldwv nh ldwh).accum = true → P := by
    intro P h; rw [ha] at h; cases h
  exact dlaqr5_safe wantt wantz kacc22 n ktop kbot nshfts sr si h z v u wv wh iloz ihiz ldz ldu nv ldwv nh ldwh r c ldv cv rz 0 0 0 0 0 0 0 hns
    ⟨h1, h2, h3, h4, h5, rfl, rfl, hv3, hcv, qr5_nbmps hns, na, na, na, na, na, na, na, na, na, na, na, na, fun hw => (hz hw).2.1, fun hw => (hz hw).2.2.1, na, na,
      fun _ hw => (hz hw).2.2.2⟩
    fun _ _ _ => ⟨⟨hM.rows, hM.cols, hM.length, hM.small⟩, ⟨hv.rows, hv.cols, hv.length, hv.small⟩, fun hw => (hz hw).1, na, na, na, na⟩

/-- **C70, with accumulation.** The same for `kacc22` 1 or 2 with work arrays of suitable sizes, `ldz` equal to `ldh` and, if wanted, `z` with as many rows as `h`. -/
theorem C70_dlaqr5_safe_accumulated {SR SI : Type} [ToFA F SR] [ToFA F SI] (wantt wantz : Bool) (kacc22 n ktop kbot nshfts : Int) (sr : SR) (si : SI)
    (h z v u wv wh : FA F) (iloz ihiz nv nh : Int) (r c ldv cv cz ru rv rh : Nat) (hk : kacc22 = 1 ∨ kacc22 = 2) (hns : nshfts = 2 ∨ nshfts = 3)
    (hM : IsMatrix h r c) (h1 : 1 ≤ ktop) (h2 : ktop < kbot) (h3 : kbot ≤ n) (h4 : n ≤ r) (h5 : n ≤ c) (hv : IsMatrix v ldv cv) (hv3 : 3 ≤ ldv) (hcv : 1 ≤ cv)
    (hW : Qr5Work u wv wh ru rv rh nv nh) (hz : wantz = true → IsMatrix z r cz ∧ 1 ≤ iloz ∧ ihiz ≤ r ∧ kbot ≤ cz) :
    ∃ ret : Qr5Ret (FA F) (FA F) (FA F) (FA F) (FA F) (FA F),
      dlaqr5 (F := F) wantt wantz kacc22 n ktop kbot nshfts sr si h (r : Int) iloz ihiz z (r : Int) v (ldv : Int) u (ru : Int) nv wv (rv : Int) nh wh (rh : Int) = pure ret ∧
      IsMatrix ret.h r c ∧ IsMatrix ret.v ldv cv := by
  obtain ⟨cu, hcu, hu⟩ := hW.u
  obtain ⟨cwv, hcwv, hwv⟩ := hW.wv
  obtain ⟨cwh, hcwh, hwh⟩ := hW.wh
  have ha : (qr5Params (F := F) wantt wantz kacc22 n ktop kbot nshfts r iloz ihiz r ldv ru nv rv nh rh).accum = true := by
    show (decide (kacc22 = 1) || decide (kacc22 = 2)) = true
    rcases hk with hk | hk <;> simp [hk]
  have na : ∀ {P : Prop}, (qr5Params (F := F) wantt wantz kacc22 n ktop kbot nshfts r iloz ihiz r ldv ru nv rv nh rh).accum = false → P := by
    intro P h; rw [ha] at h; cases h
  have sh : ∀ {x : FA F} {m k : Nat}, IsMatrix x m k → HqrShape x m k := fun hx => ⟨hx.rows, hx.cols, hx.length, hx.small⟩
  exact dlaqr5_safe wantt wantz kacc22 n ktop kbot nshfts sr si h z v u wv wh iloz ihiz r ru nv rv nh rh r c ldv cv r cz ru cu rv cwv rh cwh hns
    ⟨h1, h2, h3, h4, h5, rfl, rfl, hv3, hcv, qr5_nbmps hns, fun _ => rfl, fun _ => rfl, fun _ => hW.u4, fun _ => hcu, fun _ => rfl, fun _ => hW.rh4, fun _ => hW.nh1,
      fun _ => hcwh, fun _ => rfl, fun _ => hcwv, fun _ => hW.nv1, fun _ => hW.nvr, fun hw => (hz hw).2.1, fun hw => (hz hw).2.2.1, fun _ => rfl,
      fun _ hw => (hz hw).2.2.2, na⟩
    fun _ _ _ => ⟨sh hM, sh hv, fun hw => (hz hw).1.rows, fun _ hw => sh (hz hw).1, fun _ => sh hu, fun _ => sh hwv, fun _ => sh hwh⟩

/-- Non-vacuity: `h` full of NaNs, `z` holding an infinity, shifts of any value. -/
example (sr si : List Float) (x : Float) : ∃ ret : Qr5Ret (FA Float) (FA Float) (FA Float) (FA Float) (FA Float) (FA Float),
    dlaqr5 (F := Float) true true 0 4 1 4 3 sr si nanMatrix (4 : Nat) 1 4 infMatrix 4 (⟨[x, x, x], 3, 1, 0⟩ : FA Float) (3 : Nat) nanMatrix 1 0 nanMatrix 0 0 nanMatrix 0 = pure ret ∧
      IsMatrix ret.h 4 4 ∧ IsMatrix ret.v 3 1 :=
  C70_dlaqr5_safe true true 0 4 1 4 3 sr si nanMatrix infMatrix _ nanMatrix nanMatrix nanMatrix 1 4 4 1 0 0 0 0 4 4 3 1 4 (by norm_num) (by norm_num) (Or.inr rfl)
    ⟨rfl, rfl, by unfold nanMatrix; simp, by norm_num⟩ (by norm_num) (by norm_num) (by norm_num) (by norm_num) (by norm_num) ⟨rfl, rfl, rfl, by norm_num⟩ (by norm_num)
    (by norm_num) fun _ => ⟨rfl, by norm_num, by norm_num, by norm_num⟩

/-- Non-vacuity: the same with accumulation. -/
example (sr si : List Float) (x : Float) : ∃ ret : Qr5Ret (FA Float) (FA Float) (FA Float) (FA Float) (FA Float) (FA Float),
    dlaqr5 (F := Float) true true 2 4 1 4 2 sr si nanMatrix (4 : Nat) 1 4 infMatrix (4 : Nat) (⟨[x, x, x], 3, 1, 0⟩ : FA Float) (3 : Nat) nanMatrix (4 : Nat) 2 nanMatrix (4 : Nat) 3
      nanMatrix (4 : Nat) = pure ret ∧ IsMatrix ret.h 4 4 ∧ IsMatrix ret.v 3 1 := by
  have hm : IsMatrix nanMatrix 4 4 := ⟨rfl, rfl, by unfold nanMatrix; simp, by norm_num⟩
  exact C70_dlaqr5_safe_accumulated true true 2 4 1 4 2 sr si nanMatrix infMatrix _ nanMatrix nanMatrix nanMatrix 1 4 2 3 4 4 3 1 4 4 4 4 (Or.inr rfl) (Or.inl rfl)
    hm (by norm_num) (by norm_num) (by norm_num) (by norm_num) (by norm_num) ⟨rfl, rfl, rfl, by norm_num⟩ (by norm_num) (by norm_num)
    ⟨le_refl _, ⟨4, le_refl _, hm⟩, by norm_num, by norm_num, ⟨4, le_refl _, hm⟩, le_refl _, by norm_num, ⟨4, by norm_num, hm⟩⟩
    fun _ => ⟨⟨rfl, rfl, by unfold infMatrix; simp, by norm_num⟩, by norm_num, by norm_num, by norm_num⟩

end Verif

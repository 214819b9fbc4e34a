import Verif.Lib.Qr5Scratch3
import Verif.Props.Qr5Safe
import Verif.Props.Qr5Z

/-!
# The contents of the work arrays of `dlaqr5` (C93)

Any scalar arithmetic, two or three shifts.
-/

namespace Verif
open Scalar Spec

variable {F : Type} [Scalar F]

theorem dlaqr5_scratch {SR SI : Type} [ToFA F SR] [ToFA F SI] (wantt wantz : Bool) (kacc22 n ktop kbot nshfts : Int) (sr : SR) (si : SI) (h z v u wv wh v' u' wv' wh' : FA F)
    (iloz ihiz ldz ldu nv ldwv nh ldwh : Int) (r c ldv cv rz cz ru cu rv cwv rh cwh : Nat) (hns : nshfts = 2 ∨ nshfts = 3)
    (hf : Fit5 (qr5Params (F := F) wantt wantz kacc22 n ktop kbot nshfts r iloz ihiz ldz ldv ldu nv ldwv nh ldwh) r c ldv cv rz cz ru cu rv cwv rh cwh)
    (hs : ∀ sr si vt, Shape5 (qr5Params (F := F) wantt wantz kacc22 n ktop kbot nshfts r iloz ihiz ldz ldv ldu nv ldwv nh ldwh) r c ldv cv rz cz ru cu rv cwv rh cwh
      ⟨sr, si, h, z, v, u, wv, wh, vt⟩)
    (hs' : ∀ sr si vt, Shape5 (qr5Params (F := F) wantt wantz kacc22 n ktop kbot nshfts r iloz ihiz ldz ldv ldu nv ldwv nh ldwh) r c ldv cv rz cz ru cu rv cwv rh cwh
      ⟨sr, si, h, z, v', u', wv', wh', vt⟩)
    (l1 : (kacc22 = 1 ∨ kacc22 = 2) → ((zero : F) =ᶠ zero) = true) (l2 : (kacc22 = 1 ∨ kacc22 = 2) → ((zero : F) =ᶠ one) = false)
    (hz : kacc22 ≠ 1 → kacc22 ≠ 2 → wantz = true → ktop + 2 ≤ kbot) :
    ∃ ret ret' : Qr5Ret (FA F) (FA F) (FA F) (FA F) (FA F) (FA F),
      dlaqr5 (F := F) wantt wantz kacc22 n ktop kbot nshfts sr si h (r : Int) iloz ihiz z ldz v (ldv : Int) u ldu nv wv ldwv nh wh ldwh = pure ret ∧
      dlaqr5 (F := F) wantt wantz kacc22 n ktop kbot nshfts sr si h (r : Int) iloz ihiz z ldz v' (ldv : Int) u' ldu nv wv' ldwv nh wh' ldwh = pure ret' ∧
      ret'.h = ret.h ∧ ret'.z = ret.z := by
  have h1 : ktop < kbot := hf.lt
  have e : ∀ v u wv wh : FA F, dlaqr5 (F := F) wantt wantz kacc22 n ktop kbot nshfts sr si h (r : Int) iloz ihiz z ldz v (ldv : Int) u ldu nv wv ldwv nh wh ldwh =
      (do
        let s ← qr5Main (qr5Params (F := F) wantt wantz kacc22 n ktop kbot nshfts r iloz ihiz ldz ldv ldu nv ldwv nh ldwh) nshfts
          ⟨ToFA.toFa sr, ToFA.toFa si, h, z, v, u, wv, wh, faOfVec [zero, zero, zero]⟩
        pure ⟨s.h, s.z, s.v, s.u, s.wv, s.wh⟩) := fun v u wv wh => by
    unfold dlaqr5
    show (do
      let h_f ← pure h
      let z_f ← pure z
      let v_f ← pure v
      let u_f ← pure u
      let wv_f ← pure wv
      let wh_f ← pure wh
      _ : R (Qr5Ret (FA F) (FA F) (FA F) (FA F) (FA F) (FA F))) = _
    simp only [pure_bind]
    rw [if_neg (by omega), if_neg (by omega)]
    rfl
  have acc : ∀ {b : Bool}, (qr5Params (F := F) wantt wantz kacc22 n ktop kbot nshfts r iloz ihiz ldz ldv ldu nv ldwv nh ldwh).accum = b → (decide (kacc22 = 1) || decide (kacc22 = 2)) = b :=
    fun h => h
  have q := qr5Main_pre (fun ha => l1 (by simpa using acc ha)) (fun ha => l2 (by simpa using acc ha)) hf
    (fun ha hw => hz (by have := acc ha; simp at this; tauto) (by have := acc ha; simp at this; tauto) hw) nshfts
    (s := ⟨ToFA.toFa sr, ToFA.toFa si, h, z, v, u, wv, wh, faOfVec [zero, zero, zero]⟩) (s' := ⟨ToFA.toFa sr, ToFA.toFa si, h, z, v', u', wv', wh', faOfVec [zero, zero, zero]⟩)
    ⟨rfl, rfl, rfl, rfl, rfl, ⟨by
      have a := (hs (ToFA.toFa sr) (ToFA.toFa si) h).v.length
      have b := (hs' (ToFA.toFa sr) (ToFA.toFa si) h).v.length
      exact b.trans a.symm, fun i hi => absurd hi (Nat.not_lt_zero i)⟩, hs _ _ _, hs' _ _ _⟩
  obtain ⟨s, e1, -⟩ := qr5Main_ret hf nshfts (hs (ToFA.toFa sr) (ToFA.toFa si) (faOfVec [zero, zero, zero]))
  obtain ⟨s', e2, -⟩ := qr5Main_ret hf nshfts (hs' (ToFA.toFa sr) (ToFA.toFa si) (faOfVec [zero, zero, zero]))
  rw [e, e]
  rw [e1, e2] at q ⊢
  have hq := q .debug
  cases hq with
  | ok hab => exact ⟨_, _, rfl, rfl, hab.1, hab.2⟩

/-- **C93, without accumulation.** For every scalar arithmetic, two or three shifts and sizes that fit: two calls of `dlaqr5` that differ only in what the work arrays `v`, `u`,
`wv` and `wh` hold both return, in debug and release builds, and give the same `h` and the same `z`, element by element - if `z` is not wanted or the active block has at least three
rows.  Of `u`, `wv` and `wh` nothing is assumed, not even their sizes. -/
theorem C93_dlaqr5_scratch {SR SI : Type} [ToFA F SR] [ToFA F SI] (wantt wantz : Bool) (kacc22 n ktop kbot nshfts : Int) (sr : SR) (si : SI) (h z v u wv wh v' u' wv' wh' : FA F)
    (iloz ihiz ldz ldu nv ldwv nh ldwh : Int) (r c ldv cv rz : Nat) (hk1 : kacc22 ≠ 1) (hk2 : kacc22 ≠ 2) (hns : nshfts = 2 ∨ nshfts = 3)
    (hM : IsMatrix h r c) (h1 : 1 ≤ ktop) (h2 : ktop < kbot) (h3 : kbot ≤ n) (h4 : n ≤ r) (h5 : n ≤ c) (hv : IsMatrix v ldv cv) (hv' : IsMatrix v' ldv cv) (hv3 : 3 ≤ ldv) (hcv : 1 ≤ cv)
    (hz : wantz = true → (z.rows = rz ∧ 1 ≤ iloz ∧ ihiz ≤ rz ∧ rz * (kbot + 1) < 2 ^ 31) ∧ ktop + 2 ≤ kbot) :
    ∃ ret ret' : Qr5Ret (FA F) (FA F) (FA F) (FA F) (FA F) (FA F),
      dlaqr5 (F := F) wantt wantz kacc22 n ktop kbot nshfts sr si h (r : Int) iloz ihiz z ldz v (ldv : Int) u ldu nv wv ldwv nh wh ldwh = pure ret ∧
      dlaqr5 (F := F) wantt wantz kacc22 n ktop kbot nshfts sr si h (r : Int) iloz ihiz z ldz v' (ldv : Int) u' ldu nv wv' ldwv nh wh' ldwh = pure ret' ∧
      ret'.h = ret.h ∧ ret'.z = ret.z := by
  have ha : (qr5Params (F := F) wantt wantz kacc22 n ktop kbot nshfts r iloz ihiz ldz ldv ldu nv ldwv nh ldwh).accum = false := by
    show (decide (kacc22 = 1) || decide (kacc22 = 2)) = false
    simp [hk1, hk2]
  have na : ∀ {P : Prop}, (qr5Params (F := F) wantt wantz kacc22 n ktop kbot nshfts r iloz ihiz ldz ldv ldu nv ldwv nh ldwh).accum = true → P := by
    intro P h; rw [ha] at h; cases h
  have sh : ∀ {x : FA F} {m k : Nat}, IsMatrix x m k → HqrShape x m k := fun hx => ⟨hx.rows, hx.cols, hx.length, hx.small⟩
  exact dlaqr5_scratch wantt wantz kacc22 n ktop kbot nshfts sr si h z v u wv wh v' u' wv' wh' iloz ihiz ldz ldu nv ldwv nh ldwh r c ldv cv rz 0 0 0 0 0 0 0 hns
    ⟨h1, h2, h3, h4, h5, rfl, rfl, hv3, hcv, qr5_nbmps hns, na, na, na, na, na, na, na, na, na, na, na, na, fun hw => (hz hw).1.2.1, fun hw => (hz hw).1.2.2.1, na, na,
      fun _ hw => (hz hw).1.2.2.2⟩
    (fun _ _ _ => ⟨sh hM, sh hv, fun hw => (hz hw).1.1, na, na, na, na⟩) (fun _ _ _ => ⟨sh hM, sh hv', fun hw => (hz hw).1.1, na, na, na, na⟩)
    (fun h => by omega) (fun h => by omega) fun _ _ hw => (hz hw).2

/-- **C93, with accumulation** (`kacc22` 1 or 2), for every scalar arithmetic in which zero is equal to zero and not to one: two calls that differ only in what `v`, `u`, `wv` and
`wh` hold, the sizes being the same, both return and give the same `h` and the same `z`. -/
theorem C93_dlaqr5_scratch_accumulated {SR SI : Type} [ToFA F SR] [ToFA F SI] (l1 : ((zero : F) =ᶠ zero) = true) (l2 : ((zero : F) =ᶠ one) = false)
    (wantt wantz : Bool) (kacc22 n ktop kbot nshfts : Int) (sr : SR) (si : SI)
    (h z v u wv wh v' u' wv' wh' : FA F) (iloz ihiz nv nh : Int) (r c ldv cv cz ru cu rv cwv rh cwh : Nat) (hk : kacc22 = 1 ∨ kacc22 = 2) (hns : nshfts = 2 ∨ nshfts = 3)
    (hM : IsMatrix h r c) (h1 : 1 ≤ ktop) (h2 : ktop < kbot) (h3 : kbot ≤ n) (h4 : n ≤ r) (h5 : n ≤ c)
    (hv : IsMatrix v ldv cv ∧ IsMatrix v' ldv cv ∧ 3 ≤ ldv ∧ 1 ≤ cv) (hu : IsMatrix u ru cu ∧ IsMatrix u' ru cu ∧ 4 ≤ ru ∧ 4 ≤ cu)
    (hwv : IsMatrix wv rv cwv ∧ IsMatrix wv' rv cwv ∧ 1 ≤ nv ∧ nv ≤ rv ∧ 4 ≤ cwv) (hwh : IsMatrix wh rh cwh ∧ IsMatrix wh' rh cwh ∧ 4 ≤ rh ∧ 1 ≤ nh ∧ nh ≤ cwh)
    (hz : wantz = true → IsMatrix z r cz ∧ 1 ≤ iloz ∧ ihiz ≤ r ∧ kbot ≤ cz) :
    ∃ ret ret' : Qr5Ret (FA F) (FA F) (FA F) (FA F) (FA F) (FA F),
      dlaqr5 (F := F) wantt wantz kacc22 n ktop kbot nshfts sr si h (r : Int) iloz ihiz z (r : Int) v (ldv : Int) u (ru : Int) nv wv (rv : Int) nh wh (rh : Int) = pure ret ∧
      dlaqr5 (F := F) wantt wantz kacc22 n ktop kbot nshfts sr si h (r : Int) iloz ihiz z (r : Int) v' (ldv : Int) u' (ru : Int) nv wv' (rv : Int) nh wh' (rh : Int) = pure ret' ∧
      ret'.h = ret.h ∧ ret'.z = ret.z := by
  have ha : (qr5Params (F := F) wantt wantz kacc22 n ktop kbot nshfts r iloz ihiz r ldv ru nv rv nh rh).accum = true := by
    show (decide (kacc22 = 1) || decide (kacc22 = 2)) = true
    rcases hk with hk | hk <;> simp [hk]
  have na : ∀ {P : Prop}, (qr5Params (F := F) wantt wantz kacc22 n ktop kbot nshfts r iloz ihiz r ldv ru nv rv nh rh).accum = false → P := by
    intro P h; rw [ha] at h; cases h
  have sh : ∀ {x : FA F} {m k : Nat}, IsMatrix x m k → HqrShape x m k := fun hx => ⟨hx.rows, hx.cols, hx.length, hx.small⟩
  obtain ⟨v1, v2, v3, v4⟩ := hv
  obtain ⟨u1, u2, u3, u4⟩ := hu
  obtain ⟨a1, a2, a3, a4, a5⟩ := hwv
  obtain ⟨b1, b2, b3, b4, b5⟩ := hwh
  exact dlaqr5_scratch wantt wantz kacc22 n ktop kbot nshfts sr si h z v u wv wh v' u' wv' wh' iloz ihiz r ru nv rv nh rh r c ldv cv r cz ru cu rv cwv rh cwh hns
    ⟨h1, h2, h3, h4, h5, rfl, rfl, v3, v4, qr5_nbmps hns, fun _ => rfl, fun _ => rfl, fun _ => u3, fun _ => u4, fun _ => rfl, fun _ => b3, fun _ => b4,
      fun _ => b5, fun _ => rfl, fun _ => a5, fun _ => a3, fun _ => a4, fun hw => (hz hw).2.1, fun hw => (hz hw).2.2.1, fun _ => rfl,
      fun _ hw => (hz hw).2.2.2, na⟩
    (fun _ _ _ => ⟨sh hM, sh v1, fun hw => (hz hw).1.rows, fun _ hw => sh (hz hw).1, fun _ => sh u1, fun _ => sh a1, fun _ => sh b1⟩)
    (fun _ _ _ => ⟨sh hM, sh v2, fun hw => (hz hw).1.rows, fun _ hw => sh (hz hw).1, fun _ => sh u2, fun _ => sh a2, fun _ => sh b2⟩)
    (fun _ => l1) (fun _ => l2) fun k1 k2 => by omega

/-- C93 with accumulation, on `f64`: the two conditions on zero and one hold. -/
theorem C93_dlaqr5_scratch_f64 {SR SI : Type} [ToFA Float SR] [ToFA Float SI]
    (wantt wantz : Bool) (kacc22 n ktop kbot nshfts : Int) (sr : SR) (si : SI)
    (h z v u wv wh v' u' wv' wh' : FA Float) (iloz ihiz nv nh : Int) (r c ldv cv cz ru cu rv cwv rh cwh : Nat) (hk : kacc22 = 1 ∨ kacc22 = 2) (hns : nshfts = 2 ∨ nshfts = 3)
    (hM : IsMatrix h r c) (h1 : 1 ≤ ktop) (h2 : ktop < kbot) (h3 : kbot ≤ n) (h4 : n ≤ r) (h5 : n ≤ c)
    (hv : IsMatrix v ldv cv ∧ IsMatrix v' ldv cv ∧ 3 ≤ ldv ∧ 1 ≤ cv) (hu : IsMatrix u ru cu ∧ IsMatrix u' ru cu ∧ 4 ≤ ru ∧ 4 ≤ cu)
    (hwv : IsMatrix wv rv cwv ∧ IsMatrix wv' rv cwv ∧ 1 ≤ nv ∧ nv ≤ rv ∧ 4 ≤ cwv) (hwh : IsMatrix wh rh cwh ∧ IsMatrix wh' rh cwh ∧ 4 ≤ rh ∧ 1 ≤ nh ∧ nh ≤ cwh)
    (hz : wantz = true → IsMatrix z r cz ∧ 1 ≤ iloz ∧ ihiz ≤ r ∧ kbot ≤ cz) :
    ∃ ret ret' : Qr5Ret (FA Float) (FA Float) (FA Float) (FA Float) (FA Float) (FA Float),
      dlaqr5 (F := Float) wantt wantz kacc22 n ktop kbot nshfts sr si h (r : Int) iloz ihiz z (r : Int) v (ldv : Int) u (ru : Int) nv wv (rv : Int) nh wh (rh : Int) = pure ret ∧
      dlaqr5 (F := Float) wantt wantz kacc22 n ktop kbot nshfts sr si h (r : Int) iloz ihiz z (r : Int) v' (ldv : Int) u' (ru : Int) nv wv' (rv : Int) nh wh' (rh : Int) = pure ret' ∧
      ret'.h = ret.h ∧ ret'.z = ret.z :=
  C93_dlaqr5_scratch_accumulated (by decide +kernel) (by decide +kernel) wantt wantz kacc22 n ktop kbot nshfts sr si h z v u wv wh v' u' wv' wh' iloz ihiz nv nh r c ldv cv cz ru cu rv cwv
    rh cwh hk hns hM h1 h2 h3 h4 h5 hv hu hwv hwh hz

/-- `dlaqr5` on the leading block of order 2 of a matrix of order 3, without accumulation, `z` the identity and the third element of the work array `v` equal to `x`. -/
def staleSweep (x : Float) : R (Qr5Ret (FA Float) (FA Float) (FA Float) (FA Float) (FA Float) (FA Float)) :=
  dlaqr5 (F := Float) true true 0 3 1 2 2 ([1, 2] : List Float) ([0, 0] : List Float) (⟨[4, 1, 0, 2, 3, 0, 1, 1, 6], 3, 3, 0⟩ : FA Float) 3 1 3
    (⟨[1, 0, 0, 0, 1, 0, 0, 0, 1], 3, 3, 0⟩ : FA Float) 3 (⟨[0, 0, x], 3, 1, 0⟩ : FA Float) 3 (⟨[0], 1, 1, 0⟩ : FA Float) 1 0 (⟨[0], 1, 1, 0⟩ : FA Float) 1 0
    (⟨[0], 1, 1, 0⟩ : FA Float) 1

/-- **C93: without accumulation, `z` wanted and an active block of two rows, what `v` holds does matter.** With 0 as third element of `v` the entry of `z` in row 3 of column 1
stays 0; with 1 there it becomes less than -1. -/
theorem C93_dlaqr5_stale_v (pr : Profile) :
    (∃ ret, staleSweep 0 pr = .ok ret ∧ ret.z.data[2]? = some (0 : Float)) ∧ ∃ ret x, staleSweep 1 pr = .ok ret ∧ ret.z.data[2]? = some x ∧ x < (-1 : Float) := by
  have h0 : (staleSweep 0 pr).holds (fun ret => decide (ret.z.data[2]? = some (0 : Float))) = true := by cases pr <;> decide +kernel
  have h1 : (staleSweep 1 pr).holds (fun ret => match ret.z.data[2]? with
    | some x => decide (x < (-1 : Float))
    | none => false) = true := by cases pr <;> decide +kernel
  obtain ⟨r0, e0, q0⟩ := Res.holds_spec h0
  obtain ⟨r1, e1, q1⟩ := Res.holds_spec h1
  refine ⟨⟨r0, e0, by simpa using q0⟩, r1, ?_⟩
  cases hx : r1.z.data[2]? with
  | none => rw [hx] at q1; cases q1
  | some x => rw [hx] at q1; exact ⟨x, e1, rfl, by simpa using q1⟩

/-- The hypotheses of C93 are met: work arrays full of NaNs give what work arrays full of zeros give, on the order-4 matrix `h`, whatever it holds. -/
theorem C93_example (sr si : List Float) (h : FA Float) (hM : IsMatrix h 4 4) (wantt : Bool) : ∃ ret ret' : Qr5Ret (FA Float) (FA Float) (FA Float) (FA Float) (FA Float) (FA Float),
    dlaqr5 (F := Float) wantt true 1 4 1 4 2 sr si h (4 : Nat) 1 4 infMatrix (4 : Nat) (⟨[0, 0, 0], 3, 1, 0⟩ : FA Float) (3 : Nat) (⟨List.replicate 16 0, 4, 4, 0⟩ : FA Float) (4 : Nat) 2
      (⟨List.replicate 16 0, 4, 4, 0⟩ : FA Float) (4 : Nat) 3 (⟨List.replicate 16 0, 4, 4, 0⟩ : FA Float) (4 : Nat) = pure ret ∧
    dlaqr5 (F := Float) wantt true 1 4 1 4 2 sr si h (4 : Nat) 1 4 infMatrix (4 : Nat) (⟨[0 / 0, 0 / 0, 0 / 0], 3, 1, 0⟩ : FA Float) (3 : Nat) nanMatrix (4 : Nat) 2
      nanMatrix (4 : Nat) 3 nanMatrix (4 : Nat) = pure ret' ∧ ret'.h = ret.h ∧ ret'.z = ret.z := by
  have hm : IsMatrix nanMatrix 4 4 := ⟨rfl, rfl, by unfold nanMatrix; simp, by norm_num⟩
  have h0 : IsMatrix (⟨List.replicate 16 0, 4, 4, 0⟩ : FA Float) 4 4 := ⟨rfl, rfl, by simp, by norm_num⟩
  exact C93_dlaqr5_scratch_f64 wantt true 1 4 1 4 2 sr si h infMatrix _ _ _ _ _ nanMatrix nanMatrix nanMatrix 1 4 2 3 4 4 3 1 4 4 4 4 4 4 4 (Or.inl rfl) (Or.inl rfl)
    hM (by norm_num) (by norm_num) (by norm_num) (by norm_num) (by norm_num) ⟨⟨rfl, rfl, rfl, by norm_num⟩, ⟨rfl, rfl, rfl, by norm_num⟩, by norm_num, by norm_num⟩
    ⟨h0, hm, by norm_num, by norm_num⟩ ⟨h0, hm, by norm_num, by norm_num, by norm_num⟩ ⟨h0, hm, by norm_num, by norm_num, by norm_num⟩
    fun _ => ⟨⟨rfl, rfl, by unfold infMatrix; simp, by norm_num⟩, by norm_num, by norm_num, by norm_num⟩

end Verif

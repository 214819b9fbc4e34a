import Verif.Lib.Qr5Local
import Verif.Props.Qr5Safe
import Verif.Props.HqrLocal

/-!
# Which entries of `h` the result of `dlaqr5` depends on, and which it changes (C91)

Any scalar arithmetic, two or three shifts, no accumulation.
-/

namespace Verif
open Scalar Spec

variable {F : Type} [Scalar F]

/-- Row `a`, column `b` lies in a part of `h` that `dlaqr5` may change: in rows and columns `ktop .. kbot`, at most three places below the diagonal, or, if the Schur form is
wanted, above that block or to the right of it up to column `n`. -/
def Spec.Qr5Touches (wantt : Bool) (n ktop kbot a b : Int) : Prop :=
  ktop ≤ a ∧ a ≤ kbot ∧ ktop ≤ b ∧ b ≤ kbot ∧ a ≤ b + 3 ∨
    wantt = true ∧ (a < ktop ∧ ktop ≤ b ∧ b ≤ kbot ∨ ktop ≤ a ∧ a ≤ kbot ∧ kbot < b ∧ b ≤ n)

theorem dlaqr5_local {SR SI : Type} [ToFA F SR] [ToFA F SI] (wantt wantz : Bool) (kacc22 n ktop kbot nshfts : Int) (sr : SR) (si : SI) (h h' z v u wv wh : FA F)
    (iloz ihiz ldz ldv ldu nv ldwv nh ldwh : Int) (r c : Nat) (hk1 : kacc22 ≠ 1) (hk2 : kacc22 ≠ 2) (hns : nshfts = 2 ∨ nshfts = 3) (hM : IsMatrix h r c) (hM' : IsMatrix h' r c)
    (h1 : 1 ≤ ktop) (h2 : ktop < kbot) (h3 : kbot ≤ n) (h4 : n ≤ r) (h5 : n ≤ c)
    (hag : ∀ a b, ktop ≤ a → a ≤ kbot → ktop ≤ b → b ≤ kbot → (a ≤ b + 1 ∨ a = b + 3) → sameAt r h.data h'.data a b) :
    Sim (fun ret ret' : Qr5Ret (FA F) (FA F) (FA F) (FA F) (FA F) (FA F) =>
        (ret'.z = ret.z ∧ ret'.v = ret.v ∧ ret'.u = ret.u) ∧
        (∀ a b, ktop ≤ a → a ≤ kbot → ktop ≤ b → b ≤ kbot → a ≤ b + 3 → sameAt r ret.h.data ret'.h.data a b) ∧
        ∀ a b : Int, 1 ≤ a → a ≤ r → 1 ≤ b → b ≤ c → ¬ Qr5Touches wantt n ktop kbot a b → sameAt r ret.h.data h.data a b)
      (dlaqr5 (F := F) wantt wantz kacc22 n ktop kbot nshfts sr si h (r : Int) iloz ihiz z ldz v ldv u ldu nv wv ldwv nh wh ldwh)
      (dlaqr5 (F := F) wantt wantz kacc22 n ktop kbot nshfts sr si h' (r : Int) iloz ihiz z ldz v ldv u ldu nv wv ldwv nh wh ldwh) := by
  have hL := hM.small
  have s : Is2 h r c (r * c) _ := is2_of_matrix hM (by omega)
  have s' : Is2 h' r c (r * c) _ := is2_of_matrix hM' (by omega)
  have hg : ∀ x y, ktop ≤ x → x ≤ kbot → ktop ≤ y → y ≤ kbot → (x ≤ y + 1 ∨ x = y + 3) → ofList2 r h.data x y = ofList2 r h'.data x y := by
    intro x y x1 x2 y1 y2 xy
    have := hag x y x1 x2 y1 y2 xy
    unfold sameAt at this
    rw [data_is2 s hL (by omega) (by omega) (by omega) (by omega), data_is2 s' hL (by omega) (by omega) (by omega) (by omega)] at this
    exact Option.some.inj this
  unfold dlaqr5
  show Sim _ (do
    let h_f ← pure h
    let z_f ← pure z
    let v_f ← pure v
    let u_f ← pure u
    let wv_f ← pure wv
    let wh_f ← pure wh
    _ : R (Qr5Ret (FA F) (FA F) (FA F) (FA F) (FA F) (FA F))) (do
    let h_f ← pure h'
    let z_f ← pure z
    let v_f ← pure v
    let u_f ← pure u
    let wv_f ← pure wv
    let wh_f ← pure wh
    _ : R (Qr5Ret (FA F) (FA F) (FA F) (FA F) (FA F) (FA F)))
  simp only [pure_bind]
  rw [if_neg (by omega), if_neg (by omega), if_neg (by omega), if_neg (by omega)]
  have hf : FitL (qr5Params (F := F) wantt wantz kacc22 n ktop kbot nshfts r iloz ihiz ldz ldv ldu nv ldwv nh ldwh) r c :=
    ⟨h1, h2, h3, h4, h5, rfl, qr5_nbmps hns⟩
  refine Sim.bind (qr5Main_loc hf (by show (decide (kacc22 = 1) || decide (kacc22 = 2)) = false; simp [hk1, hk2]) hL nshfts (s := ⟨ToFA.toFa sr, ToFA.toFa si, h, z, v, u, wv, wh, faOfVec [zero, zero, zero]⟩)
    (s' := ⟨ToFA.toFa sr, ToFA.toFa si, h', z, v, u, wv, wh, faOfVec [zero, zero, zero]⟩) s s' rfl hg) fun q q' hq => ?_
  obtain ⟨eq, f, f', t, t', ag, f1, -⟩ := hq
  obtain ⟨qsr, qsi, qh, qz, qv, qu, qwv, qwh, qvt⟩ := q
  obtain ⟨qsr', qsi', qh', qz', qv', qu', qwv', qwh', qvt'⟩ := q'
  simp only [Qr5S.mk.injEq, true_and] at eq t t'
  obtain ⟨rfl, rfl, rfl, rfl, rfl, rfl⟩ := eq
  refine Sim.pure ⟨⟨rfl, rfl, rfl⟩, fun a b a1 a2 b1 b2 ab => ?_, fun a b a1 a2 b1 b2 hn => ?_⟩
  · unfold sameAt
    simp only
    rw [data_is2 t hL (by omega) (by omega) (by omega) (by omega), data_is2 t' hL (by omega) (by omega) (by omega) (by omega), ag a b ?_]
    show ktop ≤ a ∧ a ≤ kbot ∧ ktop ≤ b ∧ b ≤ kbot ∧ (a ≤ b + 1 ∨ a = b + 3 ∨ a = b + 2 ∧ (b ≤ kbot - 1 ∨ b = ktop))
    omega
  · unfold sameAt
    simp only
    rw [data_is2 t hL a1 a2 b1 b2, data_is2 s hL a1 a2 b1 b2, f1 a b hn]

/-- **C91.** For every scalar arithmetic, two or three shifts, no accumulation, and sizes that fit: two calls of `dlaqr5` whose matrices `h` and `h'` agree in rows and columns
`ktop .. kbot` on and above the subdiagonal and on the third diagonal below the main one, and whose other arguments are the same, both return; `z` and `v` are then the same,
and so are the entries of `h` in rows and columns `ktop .. kbot` down to the third diagonal below the main one.  Whatever `h` holds elsewhere, NaNs included, has no influence on
them. -/
theorem C91_dlaqr5_reads_block {SR SI : Type} [ToFA F SR] [ToFA F SI] (wantt wantz : Bool) (kacc22 n ktop kbot nshfts : Int) (sr : SR) (si : SI) (h h' z v u wv wh : FA F)
    (iloz ihiz ldz ldu nv ldwv nh ldwh : Int) (r c ldv cv rz : Nat) (hk1 : kacc22 ≠ 1) (hk2 : kacc22 ≠ 2) (hns : nshfts = 2 ∨ nshfts = 3)
    (hM : IsMatrix h r c) (hM' : IsMatrix h' r c) (h1 : 1 ≤ ktop) (h2 : ktop < kbot) (h3 : kbot ≤ n) (h4 : n ≤ r) (h5 : n ≤ c) (hv : IsMatrix v ldv cv) (hv3 : 3 ≤ ldv)
    (hcv : 1 ≤ cv) (hz : wantz = true → z.rows = rz ∧ 1 ≤ iloz ∧ ihiz ≤ rz ∧ rz * (kbot + 1) < 2 ^ 31)
    (hag : ∀ a b, ktop ≤ a → a ≤ kbot → ktop ≤ b → b ≤ kbot → (a ≤ b + 1 ∨ a = b + 3) → sameAt r h.data h'.data a b) :
    ∃ ret ret' : Qr5Ret (FA F) (FA F) (FA F) (FA F) (FA F) (FA F),
      dlaqr5 (F := F) wantt wantz kacc22 n ktop kbot nshfts sr si h (r : Int) iloz ihiz z ldz v (ldv : Int) u ldu nv wv ldwv nh wh ldwh = pure ret ∧
      dlaqr5 (F := F) wantt wantz kacc22 n ktop kbot nshfts sr si h' (r : Int) iloz ihiz z ldz v (ldv : Int) u ldu nv wv ldwv nh wh ldwh = pure ret' ∧
      (ret'.z = ret.z ∧ ret'.v = ret.v) ∧ ∀ a b, ktop ≤ a → a ≤ kbot → ktop ≤ b → b ≤ kbot → a ≤ b + 3 → sameAt r ret.h.data ret'.h.data a b := by
  obtain ⟨ret, e, -⟩ := C70_dlaqr5_safe wantt wantz kacc22 n ktop kbot nshfts sr si h z v u wv wh iloz ihiz ldz ldu nv ldwv nh ldwh r c ldv cv rz hk1 hk2 hns hM h1 h2 h3 h4 h5 hv
    hv3 hcv hz
  obtain ⟨ret', e', -⟩ := C70_dlaqr5_safe wantt wantz kacc22 n ktop kbot nshfts sr si h' z v u wv wh iloz ihiz ldz ldu nv ldwv nh ldwh r c ldv cv rz hk1 hk2 hns hM' h1 h2 h3 h4 h5
    hv hv3 hcv hz
  have := dlaqr5_local wantt wantz kacc22 n ktop kbot nshfts sr si h h' z v u wv wh iloz ihiz ldz ldv ldu nv ldwv nh ldwh r c hk1 hk2 hns hM hM' h1 h2 h3 h4 h5 hag .debug
  rw [e, e'] at this
  cases this with
  | ok q => exact ⟨ret, ret', e, e', ⟨q.1.1, q.1.2.1⟩, q.2.1⟩

/-- **C91, what is changed.** A call of `dlaqr5` with two or three shifts and without accumulation leaves every entry of `h` as it was that is neither in rows and columns
`ktop .. kbot` at most three places below the diagonal, nor, if the Schur form is wanted, above that block or to the right of it up to column `n`. -/
theorem C91_dlaqr5_writes_block {SR SI : Type} [ToFA F SR] [ToFA F SI] (wantt wantz : Bool) (kacc22 n ktop kbot nshfts : Int) (sr : SR) (si : SI) (h z v u wv wh : FA F)
    (iloz ihiz ldz ldv ldu nv ldwv nh ldwh : Int) (r c : Nat) (hk1 : kacc22 ≠ 1) (hk2 : kacc22 ≠ 2) (hns : nshfts = 2 ∨ nshfts = 3)
    (hM : IsMatrix h r c) (h1 : 1 ≤ ktop) (h2 : ktop < kbot) (h3 : kbot ≤ n) (h4 : n ≤ r) (h5 : n ≤ c) (pr : Profile)
    (ret : Qr5Ret (FA F) (FA F) (FA F) (FA F) (FA F) (FA F))
    (e : dlaqr5 (F := F) wantt wantz kacc22 n ktop kbot nshfts sr si h (r : Int) iloz ihiz z ldz v ldv u ldu nv wv ldwv nh wh ldwh pr = .ok ret)
    (a b : Int) (a1 : 1 ≤ a) (a2 : a ≤ r) (b1 : 1 ≤ b) (b2 : b ≤ c) (hn : ¬ Qr5Touches wantt n ktop kbot a b) : sameAt r ret.h.data h.data a b := by
  have := dlaqr5_local wantt wantz kacc22 n ktop kbot nshfts sr si h h z v u wv wh iloz ihiz ldz ldv ldu nv ldwv nh ldwh r c hk1 hk2 hns hM hM h1 h2 h3 h4 h5
    (fun _ _ _ _ _ _ _ => rfl) pr
  rw [e] at this
  cases this with
  | ok q => exact q.2.2 a b a1 a2 b1 b2 hn

/-! ### Examples -/

/-- A 5-by-5 upper Hessenberg matrix with ones below the diagonal and zeros elsewhere, with `x` in row 5 of column 2. -/
def shift5 (x : Float) : FA Float := ⟨[0, 1, 0, 0, 0, 0, 0, 1, 0, x, 0, 0, 0, 1, 0, 0, 0, 0, 0, 1, 0, 0, 0, 0, 0], 5, 5, 0⟩

/-- One sweep with both shifts zero. -/
def shiftSweep5 (x : Float) : R (Qr5Ret (FA Float) (FA Float) (FA Float) (FA Float) (FA Float) (FA Float)) :=
  dlaqr5 (F := Float) true false 0 5 1 5 2 ([0, 0] : List Float) ([0, 0] : List Float) (shift5 x) (5 : Nat) 1 5 (shift5 0) 5 (⟨[0, 0, 0], 3, 1, 0⟩ : FA Float) (3 : Nat)
    (shift5 0) 5 0 (shift5 0) 5 0 (shift5 0) 5

theorem shift5_matrix (x : Float) : IsMatrix (shift5 x) 5 5 := ⟨rfl, rfl, rfl, by norm_num⟩

/-- **C91: the third diagonal below the main one does matter**, though no Hessenberg matrix has entries there.  `shift5 0` and `shift5 (2 ^ 60)` differ in row 5 of
column 2 only.  After a sweep the entry in row 2 of column 1 is negative for the one; for the other it has been taken for negligible and set to zero. -/
theorem C91_dlaqr5_third_diagonal :
    (∃ ret, shiftSweep5 0 = pure ret ∧ ret.h.data.getD 1 0 < (0 : Float)) ∧ ∃ ret, shiftSweep5 1152921504606846976 = pure ret ∧ ret.h.data.getD 1 1 = (0 : Float) := by
  have safe : ∀ x, ∃ ret, shiftSweep5 x = pure ret := fun x => by
    obtain ⟨ret, e, -⟩ := C70_dlaqr5_safe (F := Float) true false 0 5 1 5 2 ([0, 0] : List Float) ([0, 0] : List Float) (shift5 x) (shift5 0) (⟨[0, 0, 0], 3, 1, 0⟩ : FA Float) (shift5 0)
      (shift5 0) (shift5 0) 1 5 5 5 0 5 0 5 5 5 3 1 5 (by norm_num) (by norm_num) (Or.inl rfl) (shift5_matrix x) (by norm_num) (by norm_num) (by norm_num) (by norm_num)
      (by norm_num) ⟨rfl, rfl, rfl, by norm_num⟩ (by norm_num) (by norm_num) fun h => by cases h
    exact ⟨ret, e⟩
  have e0 : (shiftSweep5 0 .release).holds (fun ret => decide (ret.h.data.getD 1 0 < (0 : Float))) = true := by decide +kernel
  have e1 : (shiftSweep5 1152921504606846976 .release).holds (fun ret => decide (ret.h.data.getD 1 1 = (0 : Float))) = true := by decide +kernel
  obtain ⟨a, ea⟩ := safe 0
  obtain ⟨b, eb⟩ := safe 1152921504606846976
  obtain ⟨a', ea', ha⟩ := Res.holds_spec e0
  obtain ⟨b', eb', hb⟩ := Res.holds_spec e1
  rw [ea] at ea'
  rw [eb] at eb'
  cases ea'
  cases eb'
  exact ⟨⟨a, ea, of_decide_eq_true ha⟩, ⟨b, eb, of_decide_eq_true hb⟩⟩

/-- The hypotheses of C91 are met by `nanFrame` and `zeroFrame`, of which the first holds NaNs outside rows and columns 1 to 5 and on the second diagonal below the main one,
for any shifts and any `z`. -/
theorem C91_example (wantt : Bool) (sr si : List Float) (z : FA Float) (x : Float) :
    ∃ ret ret' : Qr5Ret (FA Float) (FA Float) (FA Float) (FA Float) (FA Float) (FA Float),
      dlaqr5 (F := Float) wantt false 0 6 1 5 2 sr si nanFrame (6 : Nat) 1 6 z 6 (⟨[x, x, x], 3, 1, 0⟩ : FA Float) (3 : Nat) z 1 0 z 1 0 z 1 = pure ret ∧
      dlaqr5 (F := Float) wantt false 0 6 1 5 2 sr si zeroFrame (6 : Nat) 1 6 z 6 (⟨[x, x, x], 3, 1, 0⟩ : FA Float) (3 : Nat) z 1 0 z 1 0 z 1 = pure ret' ∧
      (ret'.z = ret.z ∧ ret'.v = ret.v) ∧ ∀ a b, 1 ≤ a → a ≤ 5 → 1 ≤ b → b ≤ 5 → a ≤ b + 3 → sameAt 6 ret.h.data ret'.h.data a b := by
  refine C91_dlaqr5_reads_block wantt false 0 6 1 5 2 sr si nanFrame zeroFrame z _ z z z 1 6 6 1 0 1 0 1 6 6 3 1 6 (by norm_num) (by norm_num) (Or.inl rfl) ⟨rfl, rfl, rfl, by norm_num⟩
    ⟨rfl, rfl, rfl, by norm_num⟩ (by norm_num) (by norm_num) (by norm_num) (by norm_num) (by norm_num) ⟨rfl, rfl, rfl, by norm_num⟩ (by norm_num) (by norm_num)
    (fun h => by cases h) fun a b a1 a2 b1 b2 ab => ?_
  obtain rfl | rfl | rfl | rfl | rfl : b = 1 ∨ b = 2 ∨ b = 3 ∨ b = 4 ∨ b = 5 := by omega
  all_goals
    obtain rfl | rfl | rfl | rfl | rfl : a = 1 ∨ a = 2 ∨ a = 3 ∨ a = 4 ∨ a = 5 := by omega
    all_goals first
      | rfl
      | exact absurd ab (by norm_num)

end Verif

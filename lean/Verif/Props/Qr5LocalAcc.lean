import Verif.Lib.Qr5LocalAcc
import Verif.Props.Qr5Local
import Verif.Props.Qr5Reach

/-!
# The active block of `dlaqr5` when the transformations are accumulated (C91, C94)

Any scalar arithmetic in which zero is equal to zero and not to one; two or three shifts; `kacc22` 1 or 2.
-/

namespace Verif
open Scalar Spec

variable {F : Type} [Scalar F]

theorem dlaqr5_local_acc {SR SI : Type} [ToFA F SR] [ToFA F SI] (l1 : ((zero : F) =ᶠ zero) = true) (l2 : ((zero : F) =ᶠ one) = false)
    (b0 wantt wantz : Bool) (hb0 : b0 = true → wantt = true) (kacc22 n ktop kbot nshfts : Int) (sr : SR) (si : SI)
    (h h' z v u wv wh : FA F) (iloz ihiz nv nh : Int) (r c ldv cv cz ru cu rv cwv rh cwh : Nat) (hk : kacc22 = 1 ∨ kacc22 = 2) (hns : nshfts = 2 ∨ nshfts = 3)
    (hM : IsMatrix h r c) (hM' : IsMatrix h' r c) (h1 : 1 ≤ ktop) (h2 : ktop < kbot) (h3 : kbot ≤ n) (h4 : n ≤ r) (h5 : n ≤ c)
    (hv : IsMatrix v ldv cv ∧ 3 ≤ ldv ∧ 1 ≤ cv) (hu : IsMatrix u ru cu ∧ 4 ≤ ru ∧ 4 ≤ cu)
    (hwv : IsMatrix wv rv cwv ∧ 1 ≤ nv ∧ nv ≤ rv ∧ 4 ≤ cwv) (hwh : IsMatrix wh rh cwh ∧ 4 ≤ rh ∧ 1 ≤ nh ∧ nh ≤ cwh)
    (hz : wantz = true → IsMatrix z r cz ∧ 1 ≤ iloz ∧ ihiz ≤ r ∧ kbot ≤ cz)
    (hag : ∀ a b, ktop ≤ a → a ≤ kbot → ktop ≤ b → b ≤ kbot → (a ≤ b + 1 ∨ a = b + 3) → sameAt r h.data h'.data a b) :
    ∃ ret ret' : Qr5Ret (FA F) (FA F) (FA F) (FA F) (FA F) (FA F),
      dlaqr5 (F := F) b0 wantz kacc22 n ktop kbot nshfts sr si h (r : Int) iloz ihiz z (r : Int) v (ldv : Int) u (ru : Int) nv wv (rv : Int) nh wh (rh : Int) = pure ret ∧
      dlaqr5 (F := F) wantt wantz kacc22 n ktop kbot nshfts sr si h' (r : Int) iloz ihiz z (r : Int) v (ldv : Int) u (ru : Int) nv wv (rv : Int) nh wh (rh : Int) = pure ret' ∧
      (ret'.z = ret.z ∧ ret'.v = ret.v ∧ ret'.u = ret.u) ∧
      (∀ a b, ktop ≤ a → a ≤ kbot → ktop ≤ b → b ≤ kbot → a ≤ b + 3 → sameAt r ret.h.data ret'.h.data a b) ∧
      ∀ a b : Int, 1 ≤ a → a ≤ r → 1 ≤ b → b ≤ c → ¬ Qr5Touches wantt n ktop kbot a b → sameAt r ret'.h.data h'.data a b := by
  have hL := hM.small
  have s : Is2 h r c (r * c) _ := is2_of_matrix hM (by omega)
  have s' : Is2 h' r c (r * c) _ := is2_of_matrix hM' (by omega)
  have hg : ∀ x y, ktop ≤ x → x ≤ kbot → ktop ≤ y → y ≤ kbot → (x ≤ y + 1 ∨ x = y + 3) → ofList2 r h.data x y = ofList2 r h'.data x y := by
    intro x y x1 x2 y1 y2 xy
    have := hag x y x1 x2 y1 y2 xy
    unfold sameAt at this
    rw [data_is2 s hL (by omega) (by omega) (by omega) (by omega), data_is2 s' hL (by omega) (by omega) (by omega) (by omega)] at this
    exact Option.some.inj this
  have ha : (qr5Params (F := F) wantt wantz kacc22 n ktop kbot nshfts r iloz ihiz r ldv ru nv rv nh rh).accum = true := by
    show (decide (kacc22 = 1) || decide (kacc22 = 2)) = true
    rcases hk with hk | hk <;> simp [hk]
  have na : ∀ {P : Prop}, (qr5Params (F := F) wantt wantz kacc22 n ktop kbot nshfts r iloz ihiz r ldv ru nv rv nh rh).accum = false → P := by
    intro P h; rw [ha] at h; cases h
  have sh : ∀ {x : FA F} {m k : Nat}, IsMatrix x m k → HqrShape x m k := fun hx => ⟨hx.rows, hx.cols, hx.length, hx.small⟩
  obtain ⟨v1, v3, v4⟩ := hv
  obtain ⟨u1, u3, u4⟩ := hu
  obtain ⟨a1, a3, a4, a5⟩ := hwv
  obtain ⟨b1, b3, b4, b5⟩ := hwh
  have hf : Fit5 (qr5Params (F := F) wantt wantz kacc22 n ktop kbot nshfts r iloz ihiz r ldv ru nv rv nh rh) r c ldv cv r cz ru cu rv cwv rh cwh :=
    ⟨h1, h2, h3, h4, h5, rfl, rfl, v3, v4, qr5_nbmps hns, fun _ => rfl, fun _ => rfl, fun _ => u3, fun _ => u4, fun _ => rfl, fun _ => b3, fun _ => b4,
      fun _ => b5, fun _ => rfl, fun _ => a5, fun _ => a3, fun _ => a4, fun hw => (hz hw).2.1, fun hw => (hz hw).2.2.1, fun _ => rfl,
      fun _ hw => (hz hw).2.2.2, na⟩
  have S : ∀ x : FA F, IsMatrix x r c → Shape5 (qr5Params (F := F) wantt wantz kacc22 n ktop kbot nshfts r iloz ihiz r ldv ru nv rv nh rh) r c ldv cv r cz ru cu rv cwv rh cwh
      ⟨ToFA.toFa sr, ToFA.toFa si, x, z, v, u, wv, wh, faOfVec [zero, zero, zero]⟩ := fun x hx =>
    ⟨sh hx, sh v1, fun hw => (hz hw).1.rows, fun _ hw => sh (hz hw).1, fun _ => sh u1, fun _ => sh a1, fun _ => sh b1⟩
  have e : ∀ (w : Bool) (x : FA F), dlaqr5 (F := F) w wantz kacc22 n ktop kbot nshfts sr si x (r : Int) iloz ihiz z (r : Int) v (ldv : Int) u (ru : Int) nv wv (rv : Int) nh wh (rh : Int) =
      (qr5Main (qr5Params (F := F) w wantz kacc22 n ktop kbot nshfts r iloz ihiz r ldv ru nv rv nh rh) nshfts
        ⟨ToFA.toFa sr, ToFA.toFa si, x, z, v, u, wv, wh, faOfVec [zero, zero, zero]⟩ >>= fun s => pure ⟨s.h, s.z, s.v, s.u, s.wv, s.wh⟩) := by
    intro w x
    unfold dlaqr5
    show (do
      let h_f ← pure x
      let z_f ← pure z
      let v_f ← pure v
      let u_f ← pure u
      let wv_f ← pure wv
      let wh_f ← pure wh
      _ : R (Qr5Ret (FA F) (FA F) (FA F) (FA F) (FA F) (FA F))) = _
    simp only [pure_bind]
    rw [if_neg (by omega), if_neg (by omega)]
    rfl
  have hq := qr5Main_locA l1 l2 hf ha hL (b := b0) hb0 nshfts (s := ⟨ToFA.toFa sr, ToFA.toFa si, h, z, v, u, wv, wh, faOfVec [zero, zero, zero]⟩)
    (s' := ⟨ToFA.toFa sr, ToFA.toFa si, h', z, v, u, wv, wh, faOfVec [zero, zero, zero]⟩) s s' rfl (S h hM) hg .debug
  obtain ⟨q, e1, -⟩ := qr5Main_ret (hf.flag b0) nshfts ((S h hM).flag b0)
  obtain ⟨q', e2, -⟩ := qr5Main_ret hf nshfts (S h' hM')
  rw [e, e, show qr5Main (qr5Params (F := F) b0 wantz kacc22 n ktop kbot nshfts r iloz ihiz r ldv ru nv rv nh rh) nshfts
        ⟨ToFA.toFa sr, ToFA.toFa si, h, z, v, u, wv, wh, faOfVec [zero, zero, zero]⟩ = pure q from e1, e2]
  rw [e1, e2] at hq
  cases hq with
  | ok hq =>
    obtain ⟨⟨eq, f, f', t, t', ag, -, f1⟩, -, -⟩ := hq
    refine ⟨_, _, rfl, rfl, ⟨by rw [eq], by rw [eq], by rw [eq]⟩, fun a b a1 a2 b1 b2 ab => ?_, fun a b a1 a2 b1 b2 hn => ?_⟩
    · unfold sameAt
      simp only
      rw [data_is2 t hL (by omega) (by omega) (by omega) (by omega), data_is2 t' hL (by omega) (by omega) (by omega) (by omega), ag a b ?_]
      show ktop ≤ a ∧ a ≤ kbot ∧ ktop ≤ b ∧ b ≤ kbot ∧ (a ≤ b + 1 ∨ a = b + 3 ∨ a = b + 2 ∧ (b ≤ kbot - 1 ∨ b = ktop))
      omega
    · unfold sameAt
      simp only
      rw [data_is2 t' hL a1 a2 b1 b2, data_is2 s' hL a1 a2 b1 b2, f1 a b hn]

/-- **C91 with accumulation** (`kacc22` 1 or 2), for every scalar arithmetic in which zero is equal to zero and not to one: two calls of `dlaqr5` whose matrices `h` and `h'` agree
in rows and columns `ktop .. kbot` on and above the subdiagonal and on the third diagonal below the main one, and whose other arguments are the same, both return; `z` and `v` are
then the same, and so are the entries of `h` in rows and columns `ktop .. kbot` down to the third diagonal below the main one. -/
theorem C91_dlaqr5_reads_block_accumulated {SR SI : Type} [ToFA F SR] [ToFA F SI] (l1 : ((zero : F) =ᶠ zero) = true) (l2 : ((zero : F) =ᶠ one) = false)
    (wantt wantz : Bool) (kacc22 n ktop kbot nshfts : Int) (sr : SR) (si : SI)
    (h h' z v u wv wh : FA F) (iloz ihiz nv nh : Int) (r c ldv cv cz ru cu rv cwv rh cwh : Nat) (hk : kacc22 = 1 ∨ kacc22 = 2) (hns : nshfts = 2 ∨ nshfts = 3)
    (hM : IsMatrix h r c) (hM' : IsMatrix h' r c) (h1 : 1 ≤ ktop) (h2 : ktop < kbot) (h3 : kbot ≤ n) (h4 : n ≤ r) (h5 : n ≤ c)
    (hv : IsMatrix v ldv cv ∧ 3 ≤ ldv ∧ 1 ≤ cv) (hu : IsMatrix u ru cu ∧ 4 ≤ ru ∧ 4 ≤ cu)
    (hwv : IsMatrix wv rv cwv ∧ 1 ≤ nv ∧ nv ≤ rv ∧ 4 ≤ cwv) (hwh : IsMatrix wh rh cwh ∧ 4 ≤ rh ∧ 1 ≤ nh ∧ nh ≤ cwh)
    (hz : wantz = true → IsMatrix z r cz ∧ 1 ≤ iloz ∧ ihiz ≤ r ∧ kbot ≤ cz)
    (hag : ∀ a b, ktop ≤ a → a ≤ kbot → ktop ≤ b → b ≤ kbot → (a ≤ b + 1 ∨ a = b + 3) → sameAt r h.data h'.data a b) :
    ∃ ret ret' : Qr5Ret (FA F) (FA F) (FA F) (FA F) (FA F) (FA F),
      dlaqr5 (F := F) wantt wantz kacc22 n ktop kbot nshfts sr si h (r : Int) iloz ihiz z (r : Int) v (ldv : Int) u (ru : Int) nv wv (rv : Int) nh wh (rh : Int) = pure ret ∧
      dlaqr5 (F := F) wantt wantz kacc22 n ktop kbot nshfts sr si h' (r : Int) iloz ihiz z (r : Int) v (ldv : Int) u (ru : Int) nv wv (rv : Int) nh wh (rh : Int) = pure ret' ∧
      (ret'.z = ret.z ∧ ret'.v = ret.v) ∧ ∀ a b, ktop ≤ a → a ≤ kbot → ktop ≤ b → b ≤ kbot → a ≤ b + 3 → sameAt r ret.h.data ret'.h.data a b := by
  obtain ⟨ret, ret', e, e', q1, q2, -⟩ := dlaqr5_local_acc l1 l2 wantt wantt wantz id kacc22 n ktop kbot nshfts sr si h h' z v u wv wh iloz ihiz nv nh r c ldv cv cz ru cu rv cwv rh cwh hk
    hns hM hM' h1 h2 h3 h4 h5 hv hu hwv hwh hz hag
  exact ⟨ret, ret', e, e', ⟨q1.1, q1.2.1⟩, q2⟩

/-- **C91 with accumulation, what is changed.** A call of `dlaqr5` with two or three shifts and with accumulation returns and leaves every entry of `h` as it was that is neither in
rows and columns `ktop .. kbot` at most three places below the diagonal, nor, if the Schur form is wanted, above that block or to the right of it up to column `n`.  (The program
copies the whole of `h` at each of the matrix products.) -/
theorem C91_dlaqr5_writes_block_accumulated {SR SI : Type} [ToFA F SR] [ToFA F SI] (l1 : ((zero : F) =ᶠ zero) = true) (l2 : ((zero : F) =ᶠ one) = false)
    (wantt wantz : Bool) (kacc22 n ktop kbot nshfts : Int) (sr : SR) (si : SI)
    (h z v u wv wh : FA F) (iloz ihiz nv nh : Int) (r c ldv cv cz ru cu rv cwv rh cwh : Nat) (hk : kacc22 = 1 ∨ kacc22 = 2) (hns : nshfts = 2 ∨ nshfts = 3)
    (hM : IsMatrix h r c) (h1 : 1 ≤ ktop) (h2 : ktop < kbot) (h3 : kbot ≤ n) (h4 : n ≤ r) (h5 : n ≤ c)
    (hv : IsMatrix v ldv cv ∧ 3 ≤ ldv ∧ 1 ≤ cv) (hu : IsMatrix u ru cu ∧ 4 ≤ ru ∧ 4 ≤ cu)
    (hwv : IsMatrix wv rv cwv ∧ 1 ≤ nv ∧ nv ≤ rv ∧ 4 ≤ cwv) (hwh : IsMatrix wh rh cwh ∧ 4 ≤ rh ∧ 1 ≤ nh ∧ nh ≤ cwh)
    (hz : wantz = true → IsMatrix z r cz ∧ 1 ≤ iloz ∧ ihiz ≤ r ∧ kbot ≤ cz) :
    ∃ ret : Qr5Ret (FA F) (FA F) (FA F) (FA F) (FA F) (FA F),
      dlaqr5 (F := F) wantt wantz kacc22 n ktop kbot nshfts sr si h (r : Int) iloz ihiz z (r : Int) v (ldv : Int) u (ru : Int) nv wv (rv : Int) nh wh (rh : Int) = pure ret ∧
      ∀ a b : Int, 1 ≤ a → a ≤ r → 1 ≤ b → b ≤ c → ¬ Qr5Touches wantt n ktop kbot a b → sameAt r ret.h.data h.data a b := by
  obtain ⟨ret, ret', e, e', q1, q2, q3⟩ := dlaqr5_local_acc l1 l2 wantt wantt wantz id kacc22 n ktop kbot nshfts sr si h h z v u wv wh iloz ihiz nv nh r c ldv cv cz ru cu rv cwv rh cwh hk
    hns hM hM h1 h2 h3 h4 h5 hv hu hwv hwh hz fun _ _ _ _ _ _ _ => rfl
  exact ⟨ret', e', q3⟩

/-- **C94 with accumulation** (`kacc22` 1 or 2), for every scalar arithmetic in which zero is equal to zero and not to one: of two calls of `dlaqr5` that differ only in the flag
`wantt` both return, with the same `z` and `v` and the same entries of `h` in rows and columns `ktop .. kbot` down to the third diagonal below the main one. -/
theorem C94_dlaqr5_wantt_accumulated {SR SI : Type} [ToFA F SR] [ToFA F SI] (l1 : ((zero : F) =ᶠ zero) = true) (l2 : ((zero : F) =ᶠ one) = false)
    (wantz : Bool) (kacc22 n ktop kbot nshfts : Int) (sr : SR) (si : SI)
    (h z v u wv wh : FA F) (iloz ihiz nv nh : Int) (r c ldv cv cz ru cu rv cwv rh cwh : Nat) (hk : kacc22 = 1 ∨ kacc22 = 2) (hns : nshfts = 2 ∨ nshfts = 3)
    (hM : IsMatrix h r c) (h1 : 1 ≤ ktop) (h2 : ktop < kbot) (h3 : kbot ≤ n) (h4 : n ≤ r) (h5 : n ≤ c)
    (hv : IsMatrix v ldv cv ∧ 3 ≤ ldv ∧ 1 ≤ cv) (hu : IsMatrix u ru cu ∧ 4 ≤ ru ∧ 4 ≤ cu)
    (hwv : IsMatrix wv rv cwv ∧ 1 ≤ nv ∧ nv ≤ rv ∧ 4 ≤ cwv) (hwh : IsMatrix wh rh cwh ∧ 4 ≤ rh ∧ 1 ≤ nh ∧ nh ≤ cwh)
    (hz : wantz = true → IsMatrix z r cz ∧ 1 ≤ iloz ∧ ihiz ≤ r ∧ kbot ≤ cz) :
    ∃ ret ret' : Qr5Ret (FA F) (FA F) (FA F) (FA F) (FA F) (FA F),
      dlaqr5 (F := F) false wantz kacc22 n ktop kbot nshfts sr si h (r : Int) iloz ihiz z (r : Int) v (ldv : Int) u (ru : Int) nv wv (rv : Int) nh wh (rh : Int) = pure ret ∧
      dlaqr5 (F := F) true wantz kacc22 n ktop kbot nshfts sr si h (r : Int) iloz ihiz z (r : Int) v (ldv : Int) u (ru : Int) nv wv (rv : Int) nh wh (rh : Int) = pure ret' ∧
      (ret'.z = ret.z ∧ ret'.v = ret.v) ∧ ∀ a b, ktop ≤ a → a ≤ kbot → ktop ≤ b → b ≤ kbot → a ≤ b + 3 → sameAt r ret.h.data ret'.h.data a b := by
  obtain ⟨ret, ret', e, e', q1, q2, -⟩ := dlaqr5_local_acc l1 l2 false true wantz (fun _ => rfl) kacc22 n ktop kbot nshfts sr si h h z v u wv wh iloz ihiz nv nh r c ldv cv cz ru cu rv cwv rh
    cwh hk hns hM hM h1 h2 h3 h4 h5 hv hu hwv hwh hz fun _ _ _ _ _ _ _ => rfl
  exact ⟨ret, ret', e, e', ⟨q1.1, q1.2.1⟩, q2⟩

/-! ### Examples -/

/-- The hypotheses of C91 with accumulation are met by `nanFrame` and `zeroFrame`, for any shifts. -/
theorem C91_accumulated_example (wantt : Bool) (sr si : List Float) (z : FA Float) (hz : IsMatrix z 6 6) (w : FA Float) (hw : IsMatrix w 4 4) (x : Float) :
    ∃ ret ret' : Qr5Ret (FA Float) (FA Float) (FA Float) (FA Float) (FA Float) (FA Float),
      dlaqr5 (F := Float) wantt true 1 6 1 5 2 sr si nanFrame (6 : Nat) 1 6 z (6 : Nat) (⟨[x, x, x], 3, 1, 0⟩ : FA Float) (3 : Nat) w (4 : Nat) 2 w (4 : Nat) 3 w (4 : Nat) = pure ret ∧
      dlaqr5 (F := Float) wantt true 1 6 1 5 2 sr si zeroFrame (6 : Nat) 1 6 z (6 : Nat) (⟨[x, x, x], 3, 1, 0⟩ : FA Float) (3 : Nat) w (4 : Nat) 2 w (4 : Nat) 3 w (4 : Nat) = pure ret' ∧
      (ret'.z = ret.z ∧ ret'.v = ret.v) ∧ ∀ a b, 1 ≤ a → a ≤ 5 → 1 ≤ b → b ≤ 5 → a ≤ b + 3 → sameAt 6 ret.h.data ret'.h.data a b := by
  refine C91_dlaqr5_reads_block_accumulated (by decide +kernel) (by decide +kernel) wantt true 1 6 1 5 2 sr si nanFrame zeroFrame z _ w w w 1 6 2 3 6 6 3 1 6 4 4 4 4 4 4 (Or.inl rfl)
    (Or.inl rfl) ⟨rfl, rfl, rfl, by norm_num⟩ ⟨rfl, rfl, rfl, by norm_num⟩ (by norm_num) (by norm_num) (by norm_num) (by norm_num) (by norm_num)
    ⟨⟨rfl, rfl, rfl, by norm_num⟩, by norm_num, by norm_num⟩ ⟨hw, by norm_num, by norm_num⟩ ⟨hw, by norm_num, by norm_num, by norm_num⟩ ⟨hw, by norm_num, by norm_num, by norm_num⟩
    (fun _ => ⟨hz, by norm_num, by norm_num, by norm_num⟩) fun a b a1 a2 b1 b2 ab => ?_
  obtain rfl | rfl | rfl | rfl | rfl : b = 1 ∨ b = 2 ∨ b = 3 ∨ b = 4 ∨ b = 5 := by omega
  all_goals
    obtain rfl | rfl | rfl | rfl | rfl : a = 1 ∨ a = 2 ∨ a = 3 ∨ a = 4 ∨ a = 5 := by omega
    all_goals first
      | rfl
      | exact absurd ab (by norm_num)

/-- The sweep of `C94_example` with accumulation. -/
def accSweep24 (wantt : Bool) : R (Qr5Ret (FA Float) (FA Float) (FA Float) (FA Float) (FA Float) (FA Float)) :=
  dlaqr5 (F := Float) wantt false 1 5 2 4 2 ([0, 0] : List Float) ([0, 0] : List Float)
    (⟨[1, 1, 0, 0, 0, 2, 3, 1, 0, 0, 3, 1, 2, 1, 0, 4, 1, 1, 1, 1, 5, 1, 1, 1, 2], 5, 5, 0⟩ : FA Float) (5 : Nat) 1 5 (shift5 0) (5 : Nat) (⟨[0, 0, 0], 3, 1, 0⟩ : FA Float) (3 : Nat)
    (shift5 0) (5 : Nat) 5 (shift5 0) (5 : Nat) 5 (shift5 0) (5 : Nat)

/-- After a sweep over rows and columns 2 to 4, with accumulation, with and without the flag: the entries in row 2 of column 2 (inside the block) have changed and are equal, those
in row 1 of column 2 (above it) and in row 2 of column 5 (to the right of it) differ. -/
theorem C94_accumulated_example : ∃ ret ret', accSweep24 false = pure ret ∧ accSweep24 true = pure ret' ∧
    sameAt 5 ret.h.data ret'.h.data 2 2 ∧ ret.h.data.getD 6 0 ≠ (3 : Float) ∧ ret.h.data.getD 5 0 ≠ ret'.h.data.getD 5 0 ∧ ret.h.data.getD 21 0 ≠ ret'.h.data.getD 21 0 := by
  obtain ⟨ret, ret', e, e', -, hs⟩ := C94_dlaqr5_wantt_accumulated (F := Float) (by decide +kernel) (by decide +kernel) false 1 5 2 4 2 ([0, 0] : List Float) ([0, 0] : List Float)
    (⟨[1, 1, 0, 0, 0, 2, 3, 1, 0, 0, 3, 1, 2, 1, 0, 4, 1, 1, 1, 1, 5, 1, 1, 1, 2], 5, 5, 0⟩ : FA Float) (shift5 0) (⟨[0, 0, 0], 3, 1, 0⟩ : FA Float) (shift5 0)
    (shift5 0) (shift5 0) 1 5 5 5 5 5 3 1 5 5 5 5 5 5 5 (Or.inl rfl) (Or.inl rfl) ⟨rfl, rfl, rfl, by norm_num⟩ (by norm_num) (by norm_num) (by norm_num) (by norm_num)
    (by norm_num) ⟨⟨rfl, rfl, rfl, by norm_num⟩, by norm_num, by norm_num⟩ ⟨shift5_matrix 0, by norm_num, by norm_num⟩ ⟨shift5_matrix 0, by norm_num, by norm_num, by norm_num⟩
    ⟨shift5_matrix 0, by norm_num, by norm_num, by norm_num⟩ fun h => by cases h
  have k0 : (accSweep24 false .release).holds (fun ret => decide ((3 : Float) < ret.h.data.getD 6 0 ∧ ret.h.data.getD 5 0 = (2 : Float) ∧ ret.h.data.getD 21 0 = (1 : Float))) = true := by
    decide +kernel
  have k1 : (accSweep24 true .release).holds (fun ret => decide (¬ ret.h.data.getD 5 0 = (2 : Float) ∧ ¬ ret.h.data.getD 21 0 = (1 : Float))) = true := by decide +kernel
  obtain ⟨a, ea, ha⟩ := Res.holds_spec k0
  obtain ⟨b, eb, hb⟩ := Res.holds_spec k1
  rw [show accSweep24 false = pure ret from e] at ea
  rw [show accSweep24 true = pure ret' from e'] at eb
  cases ea
  cases eb
  have ha := of_decide_eq_true ha
  have hb := of_decide_eq_true hb
  refine ⟨ret, ret', e, e', hs 2 2 (by norm_num) (by norm_num) (by norm_num) (by norm_num) (by norm_num), ?_, ?_, ?_⟩
  · intro h
    have := ha.1
    rw [h] at this
    exact absurd this (by decide +kernel)
  · rw [ha.2.1]; exact fun h => hb.1 h.symm
  · rw [ha.2.2]; exact fun h => hb.2 h.symm

end Verif

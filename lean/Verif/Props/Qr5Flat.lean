import Verif.Props.HqrNested
import Verif.Props.Qr5Safe
import Verif.Props.Qr5

/-!
# `dlaqr5` on flat and nested vectors (C79)
-/

namespace Verif
open Scalar

variable {F : Type} [Scalar F]

/-- The array with the elements `x`, in columns of length `ld`. -/
def Spec.arrayOf (x : List F) (ld : Nat) : FA F := ⟨x, ld, (x.length / ld : Nat), nan⟩

theorem toFa2d_flat {x : List F} {ld : Nat} (h0 : 0 < ld) (hx : x.length < 2 ^ 31) :
    ToFA.toFa2d (F := F) x (ld : Int) = pure (Spec.arrayOf x ld) := by
  show (faOfVec x).as2d ld = _
  unfold FA.as2d faOfVec
  rw [if_neg (by omega)]
  simp only
  have hl : (x.length : Int) < 2147483648 := by exact_mod_cast hx
  rw [wrap32_of_fits (by unfold FitsI32; omega)]
  have e : (x.length : Int).tdiv ld = (x.length / ld : Nat) := by
    rw [Int.tdiv_eq_ediv_of_nonneg (by omega)]; rfl
  have hb := Nat.div_le_self x.length ld
  rw [e]
  unfold Spec.arrayOf
  generalize x.length / ld = q at *
  rw [chk_ok (by unfold FitsI32; omega)]
  rfl

/-- **C79.** With flat vectors for all arguments `dlaqr5` does exactly what it does with the `FortranArray`s holding the same elements in columns
of the leading dimension passed with each: it returns, panics and depends on the profile alike, and each vector it returns holds the elements of the array
returned there. -/
theorem C79_dlaqr5_flat (wantt wantz : Bool) (kacc22 n ktop kbot nshfts : Int) (sr si h : List F) (ldh : Nat) (iloz ihiz : Int) (z : List F) (ldz : Nat)
    (v : List F) (ldv : Nat) (u : List F) (ldu : Nat) (nv : Int) (wv : List F) (ldwv : Nat) (nh : Int) (wh : List F) (ldwh : Nat)
    (h0 : 0 < ldh) (z0 : 0 < ldz) (v0 : 0 < ldv) (u0 : 0 < ldu) (wv0 : 0 < ldwv) (wh0 : 0 < ldwh)
    (hl : h.length < 2 ^ 31) (zl : z.length < 2 ^ 31) (vl : v.length < 2 ^ 31) (ul : u.length < 2 ^ 31) (wvl : wv.length < 2 ^ 31) (whl : wh.length < 2 ^ 31) :
    dlaqr5 (F := F) wantt wantz kacc22 n ktop kbot nshfts sr si h ldh iloz ihiz z ldz v ldv u ldu nv wv ldwv nh wh ldwh = (do
      let r ← dlaqr5 (F := F) wantt wantz kacc22 n ktop kbot nshfts sr si (Spec.arrayOf h ldh) ldh iloz ihiz (Spec.arrayOf z ldz) ldz
        (Spec.arrayOf v ldv) ldv (Spec.arrayOf u ldu) ldu nv (Spec.arrayOf wv ldwv) ldwv nh (Spec.arrayOf wh ldwh) ldwh
      pure ⟨r.h.data, r.z.data, r.v.data, r.u.data, r.wv.data, r.wh.data⟩) := by
  unfold dlaqr5
  rw [toFa2d_flat h0 hl, toFa2d_flat z0 zl, toFa2d_flat v0 vl, toFa2d_flat u0 ul, toFa2d_flat wv0 wvl, toFa2d_flat wh0 whl]
  have e : ∀ (a : FA F) (l : Int), ToFA.toFa2d (F := F) a l = pure a := fun _ _ => rfl
  have f1 : ∀ a : FA F, (FromFA.fromFa a : R (FA F)) = pure a := fun _ => rfl
  have f2 : ∀ a : FA F, (FromFA.fromFa a : R (List F)) = pure a.data := fun _ => rfl
  simp only [e, pure_bind, f1, f2]
  by_cases h1 : nshfts < 2
  · simp only [if_pos h1, pure_bind]; rfl
  by_cases h2 : ktop ≥ kbot
  · simp only [if_neg h1, if_pos h2, pure_bind]; rfl
  · simp only [if_neg h1, if_neg h2, bind_assoc, pure_bind]

/-- Non-vacuity: 16 elements with leading dimension 4, and the array they stand for. -/
example (sr si x v : List F) (hx : x.length = 16) (hv : v.length = 3) :
    dlaqr5 (F := F) true true 1 4 1 4 2 sr si x (4 : Nat) 1 4 x (4 : Nat) v (3 : Nat) x (4 : Nat) 2 x (4 : Nat) 3 x (4 : Nat) = (do
      let r ← dlaqr5 (F := F) true true 1 4 1 4 2 sr si (⟨x, 4, 4, nan⟩ : FA F) (4 : Nat) 1 4 (⟨x, 4, 4, nan⟩ : FA F) (4 : Nat)
        (⟨v, 3, 1, nan⟩ : FA F) (3 : Nat) (⟨x, 4, 4, nan⟩ : FA F) (4 : Nat) 2 (⟨x, 4, 4, nan⟩ : FA F) (4 : Nat) 3 (⟨x, 4, 4, nan⟩ : FA F) (4 : Nat)
      pure ⟨r.h.data, r.z.data, r.v.data, r.u.data, r.wv.data, r.wh.data⟩) := by
  have e1 : (⟨x, 4, 4, nan⟩ : FA F) = Spec.arrayOf x 4 := by unfold Spec.arrayOf; rw [hx]; rfl
  have e2 : (⟨v, 3, 1, nan⟩ : FA F) = Spec.arrayOf v 3 := by unfold Spec.arrayOf; rw [hv]; rfl
  rw [e1, e2]
  exact C79_dlaqr5_flat true true 1 4 1 4 2 sr si x 4 1 4 x 4 v 3 x 4 2 x 4 3 x 4 (by norm_num) (by norm_num) (by norm_num) (by norm_num) (by norm_num) (by norm_num)
    (by omega) (by omega) (by omega) (by omega) (by omega) (by omega)

/-- A square nested vector, `d` being its order, and the array it converts to. -/
theorem toFa_square {x : List (List F)} {d : Nat} (h0 : 0 < d) (hx : Rect x d d) (hd : d * d < 2 ^ 31) :
    HqrShape (ToFA.toFa (F := F) x) d d ∧ (ToFA.toFa (F := F) x).data = x.flatten := by
  have hd' : d < 2 ^ 31 := lt_of_le_of_lt (Nat.le_mul_self d) hd
  obtain ⟨e1, e2, e3⟩ := faOfVecVec_shape hx h0 hd' hd'
  refine ⟨⟨e1, e2, ?_, hd⟩, e3⟩
  show (faOfVecVec x).data.length = _
  rw [e3, flatten_length hx]

theorem fromFa_square {a : FA F} {d : Nat} (h0 : 0 < d) (ha : HqrShape a d d) :
    ∃ w : List (List F), (FromFA.fromFa a : R (List (List F))) = pure w ∧ Rect w d d ∧ w.flatten = a.data := by
  have hd' : d < 2 ^ 31 := lt_of_le_of_lt (Nat.le_mul_self d) ha.small
  obtain ⟨w, q1, q2, q3⟩ := vecVecOfFa_ok a d d h0 hd' hd' ha.rows ha.cols (by rw [ha.length])
  refine ⟨w, q1, q2, ?_⟩
  rw [q3, ha.length, Nat.sub_self]
  simp

/-- **C79, nested vectors.** With accumulation (`kacc22` 1 or 2), two or three shifts of any value and square nested vectors of suitable orders for all matrices, `dlaqr5`
returns, the same in either profile; so it does on the `FortranArray`s these convert to; and each nested vector it returns is square again and holds the elements of
the array returned there, in storage order. -/
theorem C79_dlaqr5_nested {SR SI : Type} [ToFA F SR] [ToFA F SI] (wantt wantz : Bool) (kacc22 n ktop kbot nshfts : Int) (sr : SR) (si : SI)
    (h z v u wv wh : List (List F)) (iloz ihiz nv nh : Int) (r dv du dw dh : Nat) (hk : kacc22 = 1 ∨ kacc22 = 2) (hns : nshfts = 2 ∨ nshfts = 3)
    (h1 : 1 ≤ ktop) (h2 : ktop < kbot) (h3 : kbot ≤ n) (h4 : n ≤ r) (hh : Rect h r r) (hz : Rect z r r) (hv : Rect v dv dv) (hu : Rect u du du)
    (hwv : Rect wv dw dw) (hwh : Rect wh dh dh) (v3 : 3 ≤ dv) (u4 : 4 ≤ du) (w4 : 4 ≤ dw) (nv1 : 1 ≤ nv) (nvw : nv ≤ dw) (wh4 : 4 ≤ dh) (nh1 : 1 ≤ nh) (nhw : nh ≤ dh)
    (sh : r * r < 2 ^ 31) (sv : dv * dv < 2 ^ 31) (su : du * du < 2 ^ 31) (sw : dw * dw < 2 ^ 31) (swh : dh * dh < 2 ^ 31)
    (hzz : wantz = true → 1 ≤ iloz ∧ ihiz ≤ r) :
    ∃ (a : Qr5Ret (FA F) (FA F) (FA F) (FA F) (FA F) (FA F))
      (b : Qr5Ret (List (List F)) (List (List F)) (List (List F)) (List (List F)) (List (List F)) (List (List F))),
      dlaqr5 (F := F) wantt wantz kacc22 n ktop kbot nshfts sr si (ToFA.toFa (F := F) h) (r : Int) iloz ihiz (ToFA.toFa (F := F) z) (r : Int)
        (ToFA.toFa (F := F) v) (dv : Int) (ToFA.toFa (F := F) u) (du : Int) nv (ToFA.toFa (F := F) wv) (dw : Int) nh (ToFA.toFa (F := F) wh) (dh : Int) = pure a ∧
      dlaqr5 (F := F) wantt wantz kacc22 n ktop kbot nshfts sr si h (r : Int) iloz ihiz z (r : Int) v (dv : Int) u (du : Int) nv wv (dw : Int) nh wh (dh : Int) = pure b ∧
      (Rect b.h r r ∧ b.h.flatten = a.h.data) ∧ (Rect b.z r r ∧ b.z.flatten = a.z.data) ∧ (Rect b.v dv dv ∧ b.v.flatten = a.v.data) ∧
      (Rect b.u du du ∧ b.u.flatten = a.u.data) ∧ (Rect b.wv dw dw ∧ b.wv.flatten = a.wv.data) ∧ (Rect b.wh dh dh ∧ b.wh.flatten = a.wh.data) := by
  have Sh := toFa_square (by omega) hh sh
  have Sz := toFa_square (by omega) hz sh
  have Sv := toFa_square (by omega) hv sv
  have Su := toFa_square (by omega) hu su
  have Sw := toFa_square (by omega) hwv sw
  have Swh := toFa_square (by omega) hwh swh
  set p : Qr5P F := qr5Params wantt wantz kacc22 n ktop kbot nshfts r iloz ihiz r dv du nv dw nh dh with hp
  have ha : p.accum = true := by
    show (decide (kacc22 = 1) || decide (kacc22 = 2)) = true
    rcases hk with hk | hk <;> simp [hk]
  have na : ∀ {P : Prop}, p.accum = false → P := by intro P h; rw [ha] at h; cases h
  have hf : Fit5 p r r dv dv r r du du dw dw dh dh :=
    ⟨h1, h2, h3, h4, h4, rfl, rfl, v3, by omega, qr5_nbmps hns, fun _ => rfl, fun _ => rfl, fun _ => u4, fun _ => u4, fun _ => rfl, fun _ => wh4, fun _ => nh1,
      fun _ => nhw, fun _ => rfl, fun _ => w4, fun _ => nv1, fun _ => nvw, fun hw => (hzz hw).1, fun hw => (hzz hw).2, fun _ => rfl,
      fun _ _ => le_trans h3 h4, na⟩
  have hs : Shape5 p r r dv dv r r du du dw dw dh dh ⟨ToFA.toFa sr, ToFA.toFa si, ToFA.toFa (F := F) h, ToFA.toFa (F := F) z, ToFA.toFa (F := F) v,
      ToFA.toFa (F := F) u, ToFA.toFa (F := F) wv, ToFA.toFa (F := F) wh, faOfVec [zero, zero, zero]⟩ :=
    ⟨Sh.1, Sv.1, fun _ => Sz.1.rows, fun _ _ => Sz.1, fun _ => Su.1, fun _ => Sw.1, fun _ => Swh.1⟩
  obtain ⟨s, e, q⟩ := qr5Main_ret hf nshfts hs
  have hz' : HqrShape s.z r r := by
    by_cases hw : wantz = true
    · exact q.z ha hw
    · have := (qr5Main_frame p nshfts _ .release s (by rw [e]; rfl)).z (by show wantz = false; simpa using hw)
      rw [this]
      exact Sz.1
  obtain ⟨b1, f1, g1⟩ := fromFa_square (by omega) q.h
  obtain ⟨b2, f2, g2⟩ := fromFa_square (by omega) hz'
  obtain ⟨b3, f3, g3⟩ := fromFa_square (by omega) q.v
  obtain ⟨b4, f4, g4⟩ := fromFa_square (by omega) (q.u ha)
  obtain ⟨b5, f5, g5⟩ := fromFa_square (by omega) (q.wv ha)
  obtain ⟨b6, f6, g6⟩ := fromFa_square (by omega) (q.wh ha)
  have t1 : ∀ (a : FA F) (l : Int), ToFA.toFa2d (F := F) a l = pure a := fun _ _ => rfl
  have t2 : ∀ (x : List (List F)) (l : Int), ToFA.toFa2d (F := F) x l = pure (ToFA.toFa x) := fun _ _ => rfl
  have t3 : ∀ a : FA F, (FromFA.fromFa a : R (FA F)) = pure a := fun _ => rfl
  refine ⟨⟨s.h, s.z, s.v, s.u, s.wv, s.wh⟩, ⟨b1, b2, b3, b4, b5, b6⟩, ?_, ?_, g1, g2, g3, g4, g5, g6⟩
  · unfold dlaqr5
    simp only [t1, t3, pure_bind]
    rw [if_neg (by omega), if_neg (by omega), ← hp, e, pure_bind]
  · unfold dlaqr5
    simp only [t2, pure_bind]
    rw [if_neg (by omega), if_neg (by omega), ← hp, e, pure_bind, f1, pure_bind, f2, pure_bind, f3, pure_bind, f4, pure_bind, f5, pure_bind, f6, pure_bind]

/-- Non-vacuity: four-by-four nested vectors of anything, three shifts. -/
example (sr si : List F) (x y : F) : ∃ b : Qr5Ret (List (List F)) (List (List F)) (List (List F)) (List (List F)) (List (List F)) (List (List F)),
    dlaqr5 (F := F) true true 1 4 1 4 3 sr si (List.replicate 4 [x, x, y, x]) (4 : Nat) 1 4 (List.replicate 4 [x, x, y, x]) (4 : Nat)
      (List.replicate 4 [x, x, y, x]) (4 : Nat) (List.replicate 4 [x, x, y, x]) (4 : Nat) 2 (List.replicate 4 [x, x, y, x]) (4 : Nat) 3
      (List.replicate 4 [x, x, y, x]) (4 : Nat) = pure b ∧ Rect b.h 4 4 := by
  have hR : Rect (List.replicate 4 [x, x, y, x]) 4 4 := ⟨by simp, by simp⟩
  obtain ⟨a, b, -, e, h, -⟩ := C79_dlaqr5_nested true true 1 4 1 4 3 sr si _ _ _ _ _ _ 1 4 2 3 4 4 4 4 4 (Or.inl rfl) (Or.inr rfl) (by norm_num) (by norm_num)
    (by norm_num) (by norm_num) hR hR hR hR hR hR (by norm_num) (by norm_num) (by norm_num) (by norm_num) (by norm_num) (by norm_num) (by norm_num) (by norm_num)
    (by norm_num) (by norm_num) (by norm_num) (by norm_num) (by norm_num) (fun _ => ⟨by norm_num, by norm_num⟩)
  exact ⟨b, e, h.1⟩

end Verif

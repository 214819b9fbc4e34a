import Verif.Lib.Qr5Shift
import Verif.Inst.Float
import Verif.Props.Qr5Z

/-!
# The shifts `dlaqr5` uses when given three (C72)

The loop that shuffles the shifts runs over `(0..nshfts - 2).step_by(2)` (src/dlaqr5.rs:71), while the arrays are indexed from 1: it reads and writes outside them.
-/

namespace Verif
open Scalar

variable {F : Type} [Scalar F]

namespace Spec

/-- The real or imaginary parts of the pair of shifts used out of three with parts `x1, x2, ..`: the second, and the smallest positive normal number. -/
def usedPair (swap : Bool) (x1 x2 : F) : List F := if swap then [x2, minPositive] else [x1, x2]

end Spec
open Spec

theorem qr5Shuffle_zero (a1 a2 b1 b2 : F) (as bs : List F) : ∃ x : FA F × FA F,
    qr5Shuffle (faOfVec (a1 :: a2 :: as), faOfVec (b1 :: b2 :: bs)) 0 = pure x ∧
    SameShifts x (faOfVec (usedPair (minPositive ≠ᶠ b1) a1 a2), faOfVec (usedPair (minPositive ≠ᶠ b1) b1 b2)) := by
  have u1 : asUsize 1 = 1 := rfl
  have u2 : asUsize 2 = 2 := rfl
  unfold qr5Shuffle usedPair
  by_cases hc : (minPositive ≠ᶠ b1) = true
  · refine ⟨_, by
      simp only []
      rw [if_pos (by simpa [FA.get1, faOfVec, u1] using hc)], ?_⟩
    rw [if_pos hc, if_pos hc]
    constructor <;> simp [FA.get1, FA.set1, FA.modify1, faOfVec, u1, u2]
  · refine ⟨_, by
      simp only []
      rw [if_neg (by simpa [FA.get1, faOfVec, u1] using hc)], ?_⟩
    rw [if_neg hc, if_neg hc]
    constructor <;> simp [FA.get1, faOfVec, u1, u2]

/-- The part of `dlaqr5` after the shuffle. -/
def qr5Rest (p : Qr5P F) (s : Qr5S F) : R (Qr5S F) := do
  let h ← if p.ktop + 2 ≤ p.kbot then s.h.set2 (p.ktop + 2) p.ktop zero else pure s.h
  forStep (p.ktop - 2 * p.nbmps + 1) (p.kbot - 2) (2 * asUsize p.nbmps) { s with h := h } (qr5Incol p)

theorem Blind.rest (p : Qr5P F) (hn : p.nbmps = 1) : Blind (qr5Rest p) := by
  have tail : Blind (fun s : Qr5S F => forStep (p.ktop - 2 * p.nbmps + 1) (p.kbot - 2) (2 * asUsize p.nbmps) s (qr5Incol p)) :=
    Blind.const_bind (irangeStep _ _ _) fun l => Blind.foldlM l fun i _ => Blind.incol p i hn
  by_cases hc : p.ktop + 2 ≤ p.kbot
  · have head : Blind (fun s : Qr5S F => s.h.set2 (p.ktop + 2) p.ktop zero >>= fun h => Pure.pure { s with h := h }) := by
      intro x y s e
      simp only [map_bind, map_pure]
      rfl
    have : qr5Rest p = fun s => (s.h.set2 (p.ktop + 2) p.ktop zero >>= fun h => Pure.pure { s with h := h }) >>= fun s =>
        forStep (p.ktop - 2 * p.nbmps + 1) (p.kbot - 2) (2 * asUsize p.nbmps) s (qr5Incol p) := by
      funext s
      simp [qr5Rest, hc]
    rw [this]
    exact Blind.bind head tail
  · have : qr5Rest p = fun s => forStep (p.ktop - 2 * p.nbmps + 1) (p.kbot - 2) (2 * asUsize p.nbmps) s (qr5Incol p) := by
      funext s
      simp [qr5Rest, hc]
    rw [this]
    exact tail

theorem qr5Main_two (p : Qr5P F) (s : Qr5S F) : qr5Main p 2 s = qr5Rest p s := by
  unfold qr5Main qr5Rest
  simp [forStep, irangeStep]

theorem qr5Main_three (p : Qr5P F) (s : Qr5S F) {x : FA F × FA F} (h : qr5Shuffle (s.sr, s.si) 0 = pure x) : qr5Main p 3 s = qr5Rest p (s.sh x) := by
  unfold qr5Main qr5Rest
  simp [forStep, irangeStep, h]
  rfl

section
variable {H Z V U WV WH : Type} [ToFA F H] [FromFA F H] [ToFA F Z] [FromFA F Z] [ToFA F V] [FromFA F V] [ToFA F U] [FromFA F U] [ToFA F WV] [FromFA F WV]
  [ToFA F WH] [FromFA F WH]

/-- **C72, two shifts.** With `nshfts = 2` only the first two shifts matter, in every scalar arithmetic and for every container. -/
theorem C72_dlaqr5_two_shifts (wantt wantz : Bool) (kacc22 n ktop kbot : Int) (a1 a2 b1 b2 : F) (as bs : List F) (h : H) (ldh iloz ihiz : Int) (z : Z) (ldz : Int)
    (v : V) (ldv : Int) (u : U) (ldu nv : Int) (wv : WV) (ldwv nh : Int) (wh : WH) (ldwh : Int) :
    dlaqr5 (F := F) wantt wantz kacc22 n ktop kbot 2 (a1 :: a2 :: as) (b1 :: b2 :: bs) h ldh iloz ihiz z ldz v ldv u ldu nv wv ldwv nh wh ldwh =
      dlaqr5 (F := F) wantt wantz kacc22 n ktop kbot 2 [a1, a2] [b1, b2] h ldh iloz ihiz z ldz v ldv u ldu nv wv ldwv nh wh ldwh := by
  have e : SameShifts (faOfVec (a1 :: a2 :: as), faOfVec (b1 :: b2 :: bs)) (faOfVec [a1, a2], faOfVec [b1, b2]) := by
    have u1 : asUsize 1 = 1 := rfl
    have u2 : asUsize 2 = 2 := rfl
    constructor <;> simp [FA.get1, faOfVec, u1, u2]
  unfold dlaqr5
  simp only [qr5Main_two]
  congr 1; funext h_f
  congr 1; funext z_f
  congr 1; funext v_f
  congr 1; funext u_f
  congr 1; funext wv_f
  congr 1; funext wh_f
  by_cases hk : ktop ≥ kbot
  · rw [if_pos hk, if_pos hk]
  rw [if_neg hk, if_neg hk]
  have := Blind.rest (qr5Params (F := F) wantt wantz kacc22 n ktop kbot 2 ldh iloz ihiz ldz ldv ldu nv ldwv nh ldwh) rfl _ _
    ⟨faOfVec [a1, a2], faOfVec [b1, b2], h_f, z_f, v_f, u_f, wv_f, wh_f, faOfVec [zero, zero, zero]⟩ e
  simp only [Qr5S.sh] at this
  show (if (2 : Int) < 2 then _ else (qr5Rest _ ⟨faOfVec (a1 :: a2 :: as), faOfVec (b1 :: b2 :: bs), h_f, z_f, v_f, u_f, wv_f, wh_f, faOfVec [zero, zero, zero]⟩ >>= _)) =
    (if (2 : Int) < 2 then _ else (qr5Rest _ ⟨faOfVec [a1, a2], faOfVec [b1, b2], h_f, z_f, v_f, u_f, wv_f, wh_f, faOfVec [zero, zero, zero]⟩ >>= _))
  rw [this]
  simp only [bind_map_left]

/-- **C72.** With `nshfts = 3`, in every scalar arithmetic, `dlaqr5` does what it does with two shifts of which the first is the second of the three given and the other has the smallest
positive normal number as real and as imaginary part; only if the imaginary part of the first shift is equal to that number, the two shifts are the first two. -/
theorem C72_dlaqr5_three_shifts (wantt wantz : Bool) (kacc22 n ktop kbot : Int) (a1 a2 b1 b2 : F) (as bs : List F) (h : H) (ldh iloz ihiz : Int) (z : Z) (ldz : Int)
    (v : V) (ldv : Int) (u : U) (ldu nv : Int) (wv : WV) (ldwv nh : Int) (wh : WH) (ldwh : Int) :
    dlaqr5 (F := F) wantt wantz kacc22 n ktop kbot 3 (a1 :: a2 :: as) (b1 :: b2 :: bs) h ldh iloz ihiz z ldz v ldv u ldu nv wv ldwv nh wh ldwh =
      dlaqr5 (F := F) wantt wantz kacc22 n ktop kbot 2 (usedPair (minPositive ≠ᶠ b1) a1 a2) (usedPair (minPositive ≠ᶠ b1) b1 b2) h ldh iloz ihiz z ldz v ldv u ldu nv wv
        ldwv nh wh ldwh := by
  obtain ⟨x, hx, e⟩ := qr5Shuffle_zero a1 a2 b1 b2 as bs
  unfold dlaqr5
  simp only [qr5Main_two]
  congr 1; funext h_f
  congr 1; funext z_f
  congr 1; funext v_f
  congr 1; funext u_f
  congr 1; funext wv_f
  congr 1; funext wh_f
  by_cases hk : ktop ≥ kbot
  · rw [if_pos hk, if_pos hk]; rfl
  rw [if_neg hk, if_neg hk]
  have := Blind.rest (qr5Params (F := F) wantt wantz kacc22 n ktop kbot 2 ldh iloz ihiz ldz ldv ldu nv ldwv nh ldwh) rfl _ _
    ⟨x.1, x.2, h_f, z_f, v_f, u_f, wv_f, wh_f, faOfVec [zero, zero, zero]⟩ e
  rw [if_neg (by decide), if_neg (by decide), qr5Main_three (x := x) _ ⟨ToFA.toFa (a1 :: a2 :: as), ToFA.toFa (b1 :: b2 :: bs), h_f, z_f, v_f, u_f, wv_f, wh_f, faOfVec [zero, zero, zero]⟩ hx]
  simp only [Qr5S.sh] at this ⊢
  show qr5Rest (qr5Params (F := F) wantt wantz kacc22 n ktop kbot 2 ldh iloz ihiz ldz ldv ldu nv ldwv nh ldwh) _ >>= _ = _
  rw [this]
  simp only [bind_map_left]
  rfl

end

/-- On `f64` with three real shifts the second is used, and the first and the third are not: instead of them, `2^-1022 (1 + i)`. -/
theorem C72_dlaqr5_three_real_shifts (s1 s2 s3 : Float) (kacc22 : Int) (wantz : Bool) :
    dlaqr5 (F := Float) true wantz kacc22 3 1 3 3 [s1, s2, s3] ([0, 0, 0] : List Float) hess3 3 1 3 eye3 3 eye3 3 eye3 3 3 eye3 3 3 eye3 3 =
      dlaqr5 (F := Float) true wantz kacc22 3 1 3 2 [s2, minPositive] ([0, minPositive] : List Float) hess3 3 1 3 eye3 3 eye3 3 eye3 3 3 eye3 3 3 eye3 3 := by
  have h : ((minPositive : Float) ≠ᶠ (0 : Float)) = true := by decide +kernel
  rw [C72_dlaqr5_three_shifts, h]
  rfl

end Verif

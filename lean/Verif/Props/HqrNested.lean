import Verif.Props.Convert
import Verif.Props.Hqr

/-!
# `dlahqr` on nested vectors (C62)
-/

namespace Verif
open Scalar

variable {F : Type} [Scalar F]

theorem bind_ok_iff {α β : Type} {x : R α} {f : α → R β} {p : Profile} {b : β} : (x >>= f) p = .ok b ↔ ∃ a, x p = .ok a ∧ f a p = .ok b := by
  show R.bind x f p = .ok b ↔ _
  unfold R.bind
  cases e : x p with
  | ok a => exact ⟨fun h => ⟨a, rfl, h⟩, fun ⟨a', e', h⟩ => by cases e'; exact h⟩
  | panic _ => exact ⟨fun h => (nomatch h), fun ⟨_, e', _⟩ => (nomatch e')⟩
  | exit _ _ => exact ⟨fun h => (nomatch h), fun ⟨_, e', _⟩ => (nomatch e')⟩
  | timeout => exact ⟨fun h => (nomatch h), fun ⟨_, e', _⟩ => (nomatch e')⟩

theorem vecVec_of_shape {v : List (List F)} {r : Nat} (hr : 0 < r) (hrs : r < 2 ^ 31) (hv : Rect v r r) {a : FA F}
    (h1 : a.rows = (ToFA.toFa (F := F) v).rows) (h2 : a.cols = (ToFA.toFa (F := F) v).cols) (h3 : a.data.length = (ToFA.toFa (F := F) v).data.length) :
    ∃ w : List (List F), FromFA.fromFa a = pure w ∧ Rect w r r ∧ w.flatten = a.data := by
  obtain ⟨e1, e2, e3⟩ := faOfVecVec_shape hv hr hrs hrs
  have hl := flatten_length hv
  have h3' : a.data.length = r * r := by
    rw [h3]
    show (faOfVecVec v).data.length = _
    rw [e3, hl]
  obtain ⟨w, q1, q2, q3⟩ := vecVecOfFa_ok a r r hr hrs hrs (h1.trans e1) (h2.trans e2) (by rw [h3'])
  refine ⟨w, q1, q2, ?_⟩
  rw [q3, h3', Nat.sub_self]
  simp

/-- **C62.** `dlahqr` does not care whether square matrices come as `FortranArray`s or as nested vectors: with nested `h` and `z` it returns, in either
profile, exactly when it returns on the arrays they convert to; the eigenvalues and `info` are the same, and the nested vectors returned are square and
hold the elements of the returned arrays in storage order. -/
theorem C62_dlahqr_nested (fuel : Nat) (wantt wantz : Bool) (n ilo ihi : Int) (h : List (List F)) (ldh : Int) (wr wi : List F) (iloz ihiz : Int)
    (z : List (List F)) (ldz : Int) (rh rz : Nat) (hh : Rect h rh rh) (hz : Rect z rz rz) (rh0 : 0 < rh) (rz0 : 0 < rz) (rhs : rh < 2 ^ 31) (rzs : rz < 2 ^ 31)
    (hlo : FitsI32 ilo) (hhi : FitsI32 ihi) (hwr : wr.length < 2 ^ 63) (hwi : wi.length < 2 ^ 63) (p : Profile) :
    (∀ r : HqrRet (FA F) (List F) (List F) (FA F),
      dlahqr (F := F) fuel wantt wantz n ilo ihi (ToFA.toFa (F := F) h) ldh wr wi iloz ihiz (ToFA.toFa (F := F) z) ldz p = .ok r →
      ∃ r' : HqrRet (List (List F)) (List F) (List F) (List (List F)), dlahqr (F := F) fuel wantt wantz n ilo ihi h ldh wr wi iloz ihiz z ldz p = .ok r' ∧
        Rect r'.h rh rh ∧ r'.h.flatten = r.h.data ∧ Rect r'.z rz rz ∧ r'.z.flatten = r.z.data ∧ r'.wr = r.wr ∧ r'.wi = r.wi ∧ r'.info = r.info) ∧
    (∀ r' : HqrRet (List (List F)) (List F) (List F) (List (List F)), dlahqr (F := F) fuel wantt wantz n ilo ihi h ldh wr wi iloz ihiz z ldz p = .ok r' →
      ∃ r, dlahqr (F := F) fuel wantt wantz n ilo ihi (ToFA.toFa (F := F) h) ldh wr wi iloz ihiz (ToFA.toFa (F := F) z) ldz p = .ok r) := by
  have sh : (ToFA.toFa (F := F) h).data = h.flatten := (faOfVecVec_shape hh rh0 rhs rhs).2.2
  have sz : (ToFA.toFa (F := F) z).data = z.flatten := (faOfVecVec_shape hz rz0 rzs rzs).2.2
  unfold dlahqr
  by_cases h0 : n = 0
  · simp only [if_pos h0]
    refine ⟨fun r hr => ?_, fun r' _ => ⟨_, rfl⟩⟩
    cases hr
    exact ⟨_, rfl, hh, sh.symm, hz, sz.symm, rfl, rfl, rfl⟩
  simp only [if_neg h0]
  by_cases h1 : ilo = ihi
  · simp only [if_pos h1, bind_ok_iff]
    refine ⟨?_, ?_⟩
    · rintro r ⟨x, e1, y, e2, w, e3, e4⟩
      cases e4
      exact ⟨_, ⟨x, e1, y, e2, w, e3, rfl⟩, hh, sh.symm, hz, sz.symm, rfl, rfl, rfl⟩
    · rintro r' ⟨x, e1, y, e2, w, e3, -⟩
      exact ⟨_, x, e1, y, e2, w, e3, rfl⟩
  simp only [if_neg h1, bind_ok_iff]
  refine ⟨?_, ?_⟩
  · rintro r ⟨⟨a, info⟩, e1, h', e2, wr', e3, wi', e4, z', e5, e6⟩
    cases e6
    cases e2
    cases e5
    have hf := hqrMain_frame fuel wantt wantz n ilo ihi ldh iloz ihiz ⟨ToFA.toFa h, ToFA.toFa wr, ToFA.toFa wi, ToFA.toFa z⟩ hlo hhi hwr hwi p _ e1
    obtain ⟨h1, h2, h3⟩ := hf.1.hz.1
    obtain ⟨z1, z2, z3⟩ := hf.1.hz.2.1
    obtain ⟨w1, q1, q2, q3⟩ := vecVec_of_shape rh0 rhs hh h1.symm h2.symm h3.symm
    obtain ⟨w2, k1, k2, k3⟩ := vecVec_of_shape rz0 rzs hz z1.symm z2.symm z3.symm
    exact ⟨_, ⟨_, e1, w1, by rw [q1]; rfl, wr', e3, wi', e4, w2, by rw [k1]; rfl, rfl⟩, q2, q3, k2, k3, rfl, rfl, rfl⟩
  · rintro r' ⟨⟨a, info⟩, e1, h', e2, wr', e3, wi', e4, z', e5, e6⟩
    exact ⟨_, _, e1, _, rfl, wr', e3, wi', e4, _, rfl, rfl⟩

/-- The hypotheses on the containers are met by 2-by-2 matrices. -/
example (a b c d : F) (pr : Profile) : ∀ r : HqrRet (FA F) (List F) (List F) (FA F),
    dlahqr (F := F) 9 true true 2 1 2 (ToFA.toFa (F := F) [[a, c], [b, d]]) 2 [a, b] [c, d] 1 2 (ToFA.toFa (F := F) [[a, zero], [zero, d]]) 2 pr = .ok r →
    ∃ r' : HqrRet (List (List F)) (List F) (List F) (List (List F)),
      dlahqr (F := F) 9 true true 2 1 2 [[a, c], [b, d]] 2 [a, b] [c, d] 1 2 [[a, zero], [zero, d]] 2 pr = .ok r' ∧ r'.wr = r.wr ∧ r'.h.flatten = r.h.data := by
  intro r hr
  obtain ⟨r', e, -, q, -, -, w, -⟩ := (C62_dlahqr_nested 9 true true 2 1 2 [[a, c], [b, d]] 2 [a, b] [c, d] 1 2 [[a, zero], [zero, d]] 2 2 2
    ⟨rfl, by simp⟩ ⟨rfl, by simp⟩ (by norm_num) (by norm_num) (by norm_num) (by norm_num) (by unfold FitsI32; omega) (by unfold FitsI32; omega) (by simp) (by simp) pr).1 r hr
  exact ⟨r', e, w, q⟩

end Verif

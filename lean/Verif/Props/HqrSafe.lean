import Verif.Lib.HqrSafe
import Verif.Props.HqrNested
import Verif.Inst.Float

/-!
# `dlahqr` never panics (C69)

Any scalar arithmetic: `f64` data with NaNs and infinities included.
-/

namespace Verif
open Scalar

variable {F : Type} [Scalar F]

/-- What is proved for one call, as a function of the number of rounds the outer loop is allowed: either it never ends, or it returns the same value in both
build profiles as soon as more than `rounds` rounds are allowed. -/
def Spec.LoopsOrReturns {α : Type} (run : Nat → R α) (rounds : Int) : Prop :=
  (∀ fuel, run fuel = R.timeout) ∨ ∃ ret : α, ∀ fuel : Nat, rounds < fuel → run fuel = pure ret

open Spec

theorem dlahqr_safe {H Z : Type} [ToFA F H] [FromFA F H] [ToFA F Z] [FromFA F Z] (wantt wantz : Bool) (n ilo ihi : Int) (h : H) (r c : Nat)
    (wr wi : List F) (iloz ihiz : Int) (z : Z) (rz cz : Nat) (ldh ldz : Int) (hM : IsMatrix (ToFA.toFa h : FA F) r c) (h1 : 1 ≤ ilo) (h2 : ilo ≤ ihi)
    (h3 : ihi ≤ r) (h4 : ihi ≤ c) (hn : wantt = true → n ≤ c ∧ ldh = r)
    (hz : wantz = true → IsMatrix (ToFA.toFa z : FA F) rz cz ∧ 1 ≤ iloz ∧ iloz ≤ ihiz ∧ ihiz ≤ rz ∧ ihi ≤ cz)
    (hH : ∀ a : FA F, IsMatrix a r c → ∃ h' : H, FromFA.fromFa a = pure h')
    (hZ : ∀ fuel q, hqrMain (F := F) fuel wantt wantz n ilo ihi ldh iloz ihiz ⟨ToFA.toFa h, ToFA.toFa wr, ToFA.toFa wi, ToFA.toFa z⟩ = pure q →
      ∃ z' : Z, FromFA.fromFa q.1.z = pure z') :
    LoopsOrReturns (fun fuel => dlahqr (F := F) fuel wantt wantz n ilo ihi h ldh wr wi iloz ihiz z ldz) (ihi - ilo + 1) := by
  by_cases hn0 : n = 0
  · subst hn0
    refine Or.inr ⟨⟨h, wr, wi, z, 0⟩, fun fuel _ => C42_dlahqr_empty _ _ _ _ _ _ _ _ _ _ _ _ _⟩
  have hs : HqrShape (ToFA.toFa h : FA F) r c := ⟨hM.rows, hM.cols, hM.length, hM.small⟩
  unfold dlahqr
  simp only [if_neg hn0]
  by_cases he : ilo = ihi
  · simp only [if_pos he]
    obtain ⟨x, e, _⟩ := get2_ret hs (a := ilo) (b := ilo) (by omega) (by omega) (by omega) (by omega) (by omega)
    rw [e]
    simp only [pure_bind]
    exact Or.inr ⟨_, fun fuel _ => rfl⟩
  simp only [if_neg he]
  obtain ⟨h', e, hh'⟩ := hqrClear_ret hs h1 h2 h3 h4
  have hf : HqrFits (hqrParams wantt wantz n ilo ihi ldh iloz ihiz : HqrP F) r c rz cz :=
    ⟨h1, h3, h4, fun hw => (hz hw).2.1, fun hw => (hz hw).2.2.1, fun hw => (hz hw).2.2.2.1, fun hw => (hz hw).2.2.2.2, fun hw => (hn hw).1, fun hw => (hn hw).2⟩
  have main : ∀ fuel, hqrMain (F := F) fuel wantt wantz n ilo ihi ldh iloz ihiz ⟨ToFA.toFa h, ToFA.toFa wr, ToFA.toFa wi, ToFA.toFa z⟩ =
      hqrOuter (hqrParams wantt wantz n ilo ihi ldh iloz ihiz) fuel ⟨h', ToFA.toFa wr, ToFA.toFa wi, ToFA.toFa z⟩ (faOfVec [zero, zero, zero]) 0 ihi ihi := by
    intro fuel
    unfold hqrMain
    simp only [e, pure_bind]
  have hd : ihi = ilo - 1 + ((ihi - ilo + 1).toNat : Int) := by omega
  rcases hqrOuter_ret hf (by show ilo < ihi; omega) (ihi - ilo + 1).toNat ihi hd (le_refl _) ⟨h', ToFA.toFa wr, ToFA.toFa wi, ToFA.toFa z⟩
      ⟨hh', fun hw => ⟨(hz hw).1.rows, (hz hw).1.cols, (hz hw).1.length, (hz hw).1.small⟩⟩ (faOfVec [zero, zero, zero])
      ⟨rfl, Or.inr (by simp [faOfVec, wrap32]), rfl⟩ 0 ihi (by intro hi; exact absurd hi.symm he) with ht | ⟨q, hq, hq'⟩
  · refine Or.inl fun fuel => ?_
    beta_reduce
    rw [main, ht]
    rfl
  · obtain ⟨z', ez⟩ := hZ _ q ((main ((ihi - ilo + 1).toNat + 1)).trans (hq _ (by omega)))
    obtain ⟨h'', eh⟩ := hH q.1.h ⟨hq'.h.rows, hq'.h.cols, hq'.h.length, hq'.h.small⟩
    refine Or.inr ⟨⟨h'', q.1.wr.data, q.1.wi.data, z', q.2⟩, fun fuel hfu => ?_⟩
    beta_reduce
    rw [main, hq fuel (by omega), pure_bind]
    simp only [eh, ez, pure_bind]
    rfl

/-- **C69.** For every scalar arithmetic (so for `f64` with any data, NaNs and infinities included), every `wantt` and `wantz`, and arguments of suitable sizes (`h` an
`r`-by-`c` array, `1 ≤ ilo ≤ ihi ≤ n ≤ min r c`, leading dimension `r`, `z` large enough if it is wanted): `dlahqr` never panics and never ends the process.  Either its
outer loop repeats for ever, or it returns, the same value in a debug and in a release build, after at most `ihi - ilo + 1` rounds of that loop. -/
theorem C69_dlahqr_safe (wantt wantz : Bool) (n ilo ihi : Int) (h : FA F) (r c : Nat) (wr wi : List F) (iloz ihiz : Int) (z : FA F) (rz cz : Nat) (ldz : Int)
    (hM : IsMatrix h r c) (h1 : 1 ≤ ilo) (h2 : ilo ≤ ihi) (h3 : ihi ≤ n) (h4 : n ≤ r) (h5 : n ≤ c)
    (hz : wantz = true → IsMatrix z rz cz ∧ 1 ≤ iloz ∧ iloz ≤ ihiz ∧ ihiz ≤ rz ∧ ihi ≤ cz) :
    LoopsOrReturns (fun fuel => dlahqr (F := F) fuel wantt wantz n ilo ihi h (r : Int) wr wi iloz ihiz z ldz) (ihi - ilo + 1) :=
  dlahqr_safe wantt wantz n ilo ihi h r c wr wi iloz ihiz z rz cz r ldz hM h1 h2 (by omega) (by omega) (fun _ => ⟨h5, rfl⟩) hz (fun a _ => ⟨a, rfl⟩) fun _ q _ => ⟨q.1.z, rfl⟩

/-- **C69, eigenvalues only.** Without the Schur form neither `n` nor the leading dimension matters. -/
theorem C69_dlahqr_safe_values (wantz : Bool) (n ilo ihi ldh : Int) (h : FA F) (r c : Nat) (wr wi : List F) (iloz ihiz : Int) (z : FA F) (rz cz : Nat) (ldz : Int)
    (hM : IsMatrix h r c) (h1 : 1 ≤ ilo) (h2 : ilo ≤ ihi) (h3 : ihi ≤ r) (h4 : ihi ≤ c)
    (hz : wantz = true → IsMatrix z rz cz ∧ 1 ≤ iloz ∧ iloz ≤ ihiz ∧ ihiz ≤ rz ∧ ihi ≤ cz) :
    LoopsOrReturns (fun fuel => dlahqr (F := F) fuel false wantz n ilo ihi h ldh wr wi iloz ihiz z ldz) (ihi - ilo + 1) :=
  dlahqr_safe false wantz n ilo ihi h r c wr wi iloz ihiz z rz cz ldh ldz hM h1 h2 h3 h4 (fun h => by cases h) hz (fun a _ => ⟨a, rfl⟩) fun _ q _ => ⟨q.1.z, rfl⟩

/-- **C69, nested vectors.** The same for square nested vectors. -/
theorem C69_dlahqr_safe_nested (wantt wantz : Bool) (n ilo ihi : Int) (h : List (List F)) (r : Nat) (wr wi : List F) (iloz ihiz : Int) (z : List (List F)) (rz : Nat)
    (ldz : Int) (hh : Rect h r r) (hz : Rect z rz rz) (hr0 : 0 < r) (hz0 : 0 < rz) (hrs : r * r < 2 ^ 31) (hzs : rz * rz < 2 ^ 31) (hwr : wr.length < 2 ^ 63)
    (hwi : wi.length < 2 ^ 63) (h1 : 1 ≤ ilo) (h2 : ilo ≤ ihi) (h3 : ihi ≤ n) (h4 : n ≤ r)
    (hw : wantz = true → 1 ≤ iloz ∧ iloz ≤ ihiz ∧ ihiz ≤ rz ∧ ihi ≤ rz) :
    LoopsOrReturns (fun fuel => dlahqr (F := F) fuel wantt wantz n ilo ihi h (r : Int) wr wi iloz ihiz z ldz) (ihi - ilo + 1) := by
  have q1 : r < 2 ^ 31 := by nlinarith
  have q2 : rz < 2 ^ 31 := by nlinarith
  obtain ⟨a1, a2, a3⟩ := faOfVecVec_shape hh hr0 q1 q1
  obtain ⟨b1, b2, b3⟩ := faOfVecVec_shape hz hz0 q2 q2
  have la : (ToFA.toFa (F := F) h).data.length = r * r := by show (faOfVecVec h).data.length = _; rw [a3, flatten_length hh]
  have lb : (ToFA.toFa (F := F) z).data.length = rz * rz := by show (faOfVecVec z).data.length = _; rw [b3, flatten_length hz]
  refine dlahqr_safe wantt wantz n ilo ihi h r r wr wi iloz ihiz z rz rz r ldz ⟨a1, a2, la, hrs⟩ h1 h2 (by omega) (by omega) (fun _ => ⟨h4, rfl⟩)
    (fun w => ⟨⟨b1, b2, lb, hzs⟩, hw w⟩) (fun a ha => ?_) fun fuel q e => ?_
  · obtain ⟨w, e, _⟩ := vecVec_of_shape hr0 q1 hh (a := a) (ha.rows.trans a1.symm) (ha.cols.trans a2.symm) (ha.length.trans la.symm)
    exact ⟨w, e⟩
  · have hfr := hqrMain_frame (F := F) fuel wantt wantz n ilo ihi r iloz ihiz ⟨ToFA.toFa h, ToFA.toFa wr, ToFA.toFa wi, ToFA.toFa z⟩
      (by rw [fits_iff]; omega) (by rw [fits_iff]; omega) hwr hwi .debug q (by rw [e]; rfl)
    obtain ⟨f1, f2, f3⟩ := hfr.1.hz.2.1
    obtain ⟨w, e', _⟩ := vecVec_of_shape hz0 q2 hz (a := q.1.z) f1.symm f2.symm f3.symm
    exact ⟨w, e'⟩

/-- A 4-by-4 `f64` array of NaNs. -/
def nanMatrix : FA Float := ⟨List.replicate 16 (0 / 0), 4, 4, 0⟩

/-- A 4-by-4 `f64` array holding an infinity. -/
def infMatrix : FA Float := ⟨(1 / 0) :: List.replicate 15 0, 4, 4, 0⟩

/-- Non-vacuity: `h` full of NaNs, `z` holding an infinity. -/
example (m : Bool) (wr wi : List Float) : LoopsOrReturns (fun fuel => dlahqr (F := Float) fuel m true 4 1 4 nanMatrix (4 : Nat) wr wi 1 4 infMatrix 4) (4 - 1 + 1) :=
  C69_dlahqr_safe m true 4 1 4 nanMatrix 4 4 wr wi 1 4 infMatrix 4 4 4 ⟨rfl, rfl, by unfold nanMatrix; simp, by norm_num⟩ (by norm_num) (by norm_num) (by norm_num)
    (by norm_num) (by norm_num) fun _ => ⟨⟨rfl, rfl, by unfold infMatrix; simp, by norm_num⟩, by norm_num, by norm_num, by norm_num, by norm_num⟩

end Verif

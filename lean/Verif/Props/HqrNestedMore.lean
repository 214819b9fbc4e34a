import Verif.Props.HqrNested
import Verif.Props.HqrTop
import Verif.Props.HqrF64
import Verif.Props.Qr5Z

/-!
# Backward stability and failure of `dlahqr` on nested vectors (C67, C77)
-/

namespace Verif
open F64 Scalar XR Spec

variable {F : Type} [Scalar F]

/-- A run on square nested vectors comes from a run on the arrays they convert to. -/
theorem dlahqr_nested_run {fuel : Nat} {wantt wantz : Bool} {n ilo ihi : Int} {h : List (List F)} {ldh : Int} {wr wi : List F} {iloz ihiz : Int}
    {z : List (List F)} {ldz : Int} {rh rz : Nat} (hh : Rect h rh rh) (hz : Rect z rz rz) (rh0 : 0 < rh) (rz0 : 0 < rz) (rhs : rh < 2 ^ 31) (rzs : rz < 2 ^ 31)
    (hlo : FitsI32 ilo) (hhi : FitsI32 ihi) (hwr : wr.length < 2 ^ 63) (hwi : wi.length < 2 ^ 63) {p : Profile}
    {r' : HqrRet (List (List F)) (List F) (List F) (List (List F))} (e : dlahqr (F := F) fuel wantt wantz n ilo ihi h ldh wr wi iloz ihiz z ldz p = .ok r') :
    ∃ r : HqrRet (FA F) (List F) (List F) (FA F),
      dlahqr (F := F) fuel wantt wantz n ilo ihi (ToFA.toFa (F := F) h) ldh wr wi iloz ihiz (ToFA.toFa (F := F) z) ldz p = .ok r ∧
      Rect r'.h rh rh ∧ r'.h.flatten = r.h.data ∧ Rect r'.z rz rz ∧ r'.z.flatten = r.z.data ∧ r'.wr = r.wr ∧ r'.wi = r.wi ∧ r'.info = r.info := by
  obtain ⟨k1, k2⟩ := C62_dlahqr_nested fuel wantt wantz n ilo ihi h ldh wr wi iloz ihiz z ldz rh rz hh hz rh0 rz0 rhs rzs hlo hhi hwr hwi p
  obtain ⟨r, hr⟩ := k2 r' e
  obtain ⟨r'', e', k⟩ := k1 r hr
  rw [e] at e'
  cases e'
  exact ⟨r, hr, k⟩

theorem toFa_matrix {h : List (List F)} {r : Nat} (hh : Rect h r r) (hr : 0 < r) (hs : r * r < 2 ^ 31) : IsMatrix (ToFA.toFa (F := F) h) r r := by
  have q : r < 2 ^ 31 := by nlinarith
  obtain ⟨a1, a2, a3⟩ := faOfVecVec_shape hh hr q q
  exact ⟨a1, a2, by show (faOfVecVec h).data.length = _; rw [a3, flatten_length hh], hs⟩

/-- The element in row `a` and column `b` (both from 1) of a nested vector, whose inner vectors are the columns. -/
def Spec.nestedAt (h : List (List F)) (a b : Int) : Option F := (h[(b - 1).toNat]?).bind fun col => col[(a - 1).toNat]?

/-- The elements of the array a square nested vector converts to. -/
theorem nested_entry {h : List (List F)} {r : Nat} (hh : Rect h r r) (hs : r * r < 2 ^ 31) {a b : Int} (a1 : 1 ≤ a) (a2 : a ≤ r) (b1 : 1 ≤ b) (x : F) :
    Entry (ToFA.toFa (F := F) h) r a b x ↔ nestedAt h a b = some x := by
  have r0 : 0 < r := by omega
  have q : r < 2 ^ 31 := by nlinarith
  obtain ⟨-, -, a3⟩ := faOfVecVec_shape hh r0 q q
  have e : (((b - 1) * r + (a - 1)).toNat) = (b - 1).toNat * r + (a - 1).toNat := by
    rw [Int.toNat_add (mul_nonneg (by omega) (by omega)) (by omega), Int.toNat_mul (by omega) (by omega), Int.toNat_natCast]
  unfold Entry nestedAt
  show (faOfVecVec h).data[_]? = _ ↔ _
  rw [a3, flatten_getElem? r0 hh, e, Nat.add_comm, Nat.add_mul_div_right _ _ r0, Nat.add_mul_mod_self_right, Nat.div_eq_of_lt (by omega), Nat.mod_eq_of_lt (by omega), Nat.zero_add]

theorem Entry.congr_data {a b : FA F} {r : Nat} {i j : Int} {x : F} (e : a.data = b.data) : Entry a r i j x ↔ Entry b r i j x := by
  unfold Entry
  rw [e]

/-- **C67, nested vectors.**  On `f64`, if the first subdiagonal element of the active block of a square nested vector is finite and at most `nh * 2^-970` in absolute value (in particular
if it is zero), where `nh` is the order of the block, `dlahqr` never returns with `info = 0`.  The inner vectors are the columns. -/
theorem C67_dlahqr_never_succeeds_nested (fuel : Nat) (wantt wantz : Bool) (n : Int) (hn : n ≠ 0) (ilo ihi : Int) (h : List (List Float)) (r : Nat) (hh : Rect h r r)
    (hs : r * r < 2 ^ 31) (h1 : 1 ≤ ilo) (h2 : ilo < ihi) (h3 : ihi ≤ r) (h5 : n ≤ r) (ldh : Int) (wr wi : List Float) (hwr : wr.length < 2 ^ 63) (hwi : wi.length < 2 ^ 63)
    (iloz ihiz : Int) (z : List (List Float)) (rz : Nat) (hz : Rect z rz rz) (rz0 : 0 < rz) (rzs : rz < 2 ^ 31) (ldz : Int)
    {x : Float} (e : nestedAt h (ilo + 1) ilo = some x) (hf : x.isFinite = true) (hx : |toR x| ≤ ((ihi - ilo + 1 : ℤ) : ℝ) * (2 : ℝ) ^ (-970 : ℤ)) (pr : Profile)
    (ret : HqrRet (List (List Float)) (List Float) (List Float) (List (List Float)))
    (hret : dlahqr (F := Float) fuel wantt wantz n ilo ihi h ldh wr wi iloz ihiz z ldz pr = .ok ret) : ilo ≤ ret.info := by
  have r0 : 0 < r := by omega
  have q : r < 2 ^ 31 := by nlinarith
  obtain ⟨-, -, a3⟩ := faOfVecVec_shape hh r0 q q
  obtain ⟨ra, era, -, -, -, -, -, -, ei⟩ := dlahqr_nested_run hh hz r0 rz0 q rzs (by rw [fits_iff]; omega) (by rw [fits_iff]; omega) hwr hwi hret
  rw [ei]
  refine C67_dlahqr_never_succeeds_f64 fuel wantt wantz n hn ilo ihi _ r r (toFa_matrix hh r0 hs) h1 h2 h3 h3 h5 ldh wr wi iloz ihiz _ ldz (x := x) ?_ hf hx pr ra era
  exact (nested_entry hh hs (by omega) (by omega) h1 x).2 e

/-- **C77, nested vectors.**  The same for square nested vectors: `h` and `z` stand for the arrays they convert to, whose elements are those of the nested vectors by columns
(`nested_entry`). -/
theorem C77_dlahqr_backward_nested (fuel : Nat) (wantz : Bool) (n ilo ihi : ℤ) (h : List (List Float)) (r : Nat) (wr wi : List Float) (iloz ihiz : ℤ)
    (z : List (List Float)) (rz : Nat) (ldz : ℤ) (hh : Rect h r r) (hzr : Rect z rz rz) (hs : r * r < 2 ^ 31) (hzs : rz * rz < 2 ^ 31) (rz0 : 0 < rz)
    (hwr : wr.length < 2 ^ 63) (hwi : wi.length < 2 ^ 63) (h1 : 1 ≤ ilo) (h2 : ilo < ihi) (h3 : ihi ≤ n) (h4 : n ≤ r)
    (hnh : ihi - ilo + 1 ≤ 2000) {A : ℤ → ℤ → ℝ} (hA : HessInputF (ToFA.toFa (F := Float) h) r ilo ihi A) (hN : fro (block ilo ihi A) ≤ 2 ^ 970)
    (hz : wantz = true → 1 ≤ iloz ∧ iloz ≤ ihiz ∧ ihiz ≤ rz ∧ ihi ≤ rz) {Z0 : ℤ → ℤ → ℝ} {K : ℝ} (hK0 : 0 ≤ K) (hK : K ≤ 2 ^ 970)
    (hZ : wantz = true → ∀ a b, iloz ≤ a → a ≤ ihiz → ilo ≤ b → b ≤ ihi → EntryF (ToFA.toFa (F := Float) z) rz a b (Z0 a b))
    (hZK : wantz = true → ∀ a, iloz ≤ a → a ≤ ihiz → Real.sqrt (∑ b : Blk ilo ihi, Z0 a b ^ 2) ≤ K) (pr : Profile)
    (ret : HqrRet (List (List Float)) (List Float) (List Float) (List (List Float)))
    (hret : dlahqr (F := Float) fuel true wantz n ilo ihi h (r : ℤ) wr wi iloz ihiz z ldz pr = .ok ret) :
    Rect ret.h r r ∧ Rect ret.z rz rz ∧ ∃ Q E T er ei, HqrDoneF r ilo ihi A Q E T er ei (ToFA.toFa (F := Float) ret.h) ret.wr ret.wi ret.info ∧
      ret.wr.length = wr.length ∧ ret.wi.length = wi.length ∧
      (ret.info = 0 → wantz = true →
        ZDoneF rz rz iloz ihiz ilo ihi Z0 (hqrBoundZ (ihi - ilo + 1) K) Q (ToFA.toFa (F := Float) z) (ToFA.toFa (F := Float) ret.z)) := by
  have r0 : 0 < r := by omega
  have q : r < 2 ^ 31 := by nlinarith
  have qz : rz < 2 ^ 31 := by nlinarith
  obtain ⟨ra, era, g1, g2, g3, g4, g5, g6, g7⟩ := dlahqr_nested_run hh hzr r0 rz0 q qz (by rw [fits_iff]; omega) (by rw [fits_iff]; omega) hwr hwi hret
  obtain ⟨Q, E, T, er, ei, D, l1, l2, D0⟩ := C77_dlahqr_backward_f64 fuel wantz n ilo ihi _ r r wr wi iloz ihiz _ rz rz ldz (toFa_matrix hh r0 hs) h1 h2 h3 h4 h4 hnh hA hN
    (fun w => ⟨toFa_matrix hzr rz0 hzs, hz w⟩) hK0 hK hZ hZK pr ra era
  have dh : (ToFA.toFa (F := Float) ret.h).data = ra.h.data := ((faOfVecVec_shape g1 r0 q q).2.2).trans g2
  have dz : (ToFA.toFa (F := Float) ret.z).data = ra.z.data := ((faOfVecVec_shape g3 rz0 qz qz).2.2).trans g4
  have eh : ∀ {i j : ℤ} {x : ℝ}, EntryF ra.h r i j x → EntryF (ToFA.toFa (F := Float) ret.h) r i j x := fun ⟨f, e, k⟩ => ⟨f, (Entry.congr_data dh).2 e, k⟩
  refine ⟨g1, g3, Q, E, T, er, ei, ?_, by rw [g5]; exact l1, by rw [g6]; exact l2, fun i0 w => ?_⟩
  · rw [g5, g6, g7]
    exact ⟨D.info_range, D.backward, D.hess, D.split, D.schur, D.re, D.im, fun i a b x1 x2 x3 => eh (D.low i a b x1 x2 x3), fun i a x1 x2 x3 => eh (D.pair i a x1 x2 x3)⟩
  · obtain ⟨-, D1⟩ := D0 (g7 ▸ i0)
    obtain ⟨-, D2⟩ := D1 w
    refine ⟨fun a a1 a2 => ?_, fun a b a1 a2 b1 b2 hn x => (Entry.congr_data dz).trans (D2.rest a b a1 a2 b1 b2 hn x)⟩
    obtain ⟨y, y1, y2⟩ := D2.prod a a1 a2
    exact ⟨y, fun b => by obtain ⟨f, e, k⟩ := y1 b; exact ⟨f, (Entry.congr_data dz).2 e, k⟩, y2⟩

/-- The cyclic permutation of C77 and the identity as nested vectors: `dlahqr` returns `info = 0` and C77 applies to what it returns. -/
theorem C77_nested_example : ∃ ret : HqrRet (List (List Float)) (List Float) (List Float) (List (List Float)),
    dlahqr (F := Float) 6 true true 3 1 3 ([[0, 1, 0], [0, 0, 1], [1, 0, 0]] : List (List Float)) (3 : ℕ) [0, 0, 0] [0, 0, 0] 1 3
      ([[1, 0, 0], [0, 1, 0], [0, 0, 1]] : List (List Float)) 3 .release = .ok ret ∧ ret.info = 0 ∧
    ∃ Q E T er ei, HqrDoneF 3 1 3 cyclicA Q E T er ei (ToFA.toFa (F := Float) ret.h) ret.wr ret.wi ret.info ∧
      ZDoneF 3 3 1 3 1 3 idA (hqrBoundZ 3 1) Q (ToFA.toFa (F := Float) ([[1, 0, 0], [0, 1, 0], [0, 0, 1]] : List (List Float))) (ToFA.toFa (F := Float) ret.z) := by
  have hh : Rect ([[0, 1, 0], [0, 0, 1], [1, 0, 0]] : List (List Float)) 3 3 := ⟨rfl, by simp⟩
  have hz : Rect ([[1, 0, 0], [0, 1, 0], [0, 0, 1]] : List (List Float)) 3 3 := ⟨rfl, by simp⟩
  have e0 : (dlahqr (F := Float) 6 true true 3 1 3 ([[0, 1, 0], [0, 0, 1], [1, 0, 0]] : List (List Float)) (3 : ℕ) ([0, 0, 0] : List Float) ([0, 0, 0] : List Float) 1 3
      ([[1, 0, 0], [0, 1, 0], [0, 0, 1]] : List (List Float)) 3 .release).holds (fun ret => decide (ret.info = 0)) = true := by decide +kernel
  obtain ⟨ret, e, hi'⟩ := Res.holds_spec e0
  have hA : HessInputF (ToFA.toFa (F := Float) ([[0, 1, 0], [0, 0, 1], [1, 0, 0]] : List (List Float))) 3 1 3 cyclicA :=
    ⟨fun a b a1 a2 b1 b2 n1 n2 => by
      obtain ⟨f, k, l⟩ := cyclic_input.entry a b a1 a2 b1 b2 n1 n2
      exact ⟨f, (Entry.congr_data rfl).2 k, l⟩, cyclic_input.hess⟩
  have hZ : ∀ {a b : ℤ}, 1 ≤ a → a ≤ 3 → 1 ≤ b → b ≤ 3 →
      EntryF (ToFA.toFa (F := Float) ([[1, 0, 0], [0, 1, 0], [0, 0, 1]] : List (List Float))) 3 a b (idA a b) := fun a1 a2 b1 b2 => by
    obtain ⟨f, k, l⟩ := idF_input a1 a2 b1 b2
    exact ⟨f, (Entry.congr_data rfl).2 k, l⟩
  have i0 := of_decide_eq_true hi'
  have big1 : (2 : ℝ) ≤ 2 ^ 970 := le_self_pow₀ (by norm_num) (by norm_num)
  obtain ⟨-, -, Q, E, T, er, ei, D, -, -, DZ⟩ := C77_dlahqr_backward_nested 6 true 3 1 3 _ 3 [0, 0, 0] [0, 0, 0] 1 3 _ 3 3 hh hz (by norm_num) (by norm_num) (by norm_num)
    (by simp) (by simp) (by norm_num) (by norm_num) (by norm_num) (by norm_num) (by norm_num) (A := cyclicA) hA (cyclic_fro.trans big1)
    (fun _ => ⟨by norm_num, by norm_num, by norm_num, by norm_num⟩) (K := 1) (by norm_num) (one_le_two.trans big1) (Z0 := idA) (fun _ a b a1 a2 b1 b2 => hZ a1 a2 b1 b2)
    (fun _ a a1 a2 => by
      rw [Real.sqrt_le_left (by norm_num), sum_three fun b => idA a b ^ 2]
      rcases (by omega : a = 1 ∨ a = 2 ∨ a = 3) with rfl | rfl | rfl <;> norm_num [idA]) .release ret e
  exact ⟨ret, e, i0, Q, E, T, er, ei, D, DZ i0 rfl⟩

end Verif

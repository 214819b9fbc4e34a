import Verif.Lib.HqrTwoG
import Verif.Lib.HqrTwo

/-!
# `dlahqr` on an active block of order two: every entry of the result, in any arithmetic (C81)
-/

namespace Verif
open Scalar Spec

section generic
variable {F : Type} [Scalar F]

theorem set1_list (a : FA F) {i : Int} (h1 : 1 ≤ i) (hf : FitsI32 i) (v : F) : (a.set1 i v).data = a.data.set (i - 1).toNat v := by
  unfold FA.set1 FA.modify1
  rw [if_neg (by omega), asUsize_nonneg (by omega) hf, show i.toNat - 1 = (i - 1).toNat by omega]
  cases e : a.data[(i - 1).toNat]? with
  | some x => rfl
  | none =>
    rw [List.getElem?_eq_none_iff] at e
    simp only
    rw [List.set_eq_of_length_le e]

theorem pure_val {α : Type} {x y : α} (h : (pure x : R α) = pure y) : x = y := Res.ok.inj (congrFun h .release)

/-- Recording a 2-by-2 block. -/
theorem hqrTwo_exact {r c rz cz : Nat} {A Z : Int → Int → F} (p : HqrP F) {ilo : Int} (a : HqrA F) (hh : Is2 a.h r c (r * c) A) (hL : r * c < 2 ^ 31)
    (h1 : 1 ≤ ilo) (h2 : ilo + 1 ≤ r) (h3 : ilo + 1 ≤ c) (hld : p.ldh = r) (hn : p.n ≤ c)
    (hz : p.wantz = true → Is2 a.z rz cz (rz * cz) Z ∧ rz * cz < 2 ^ 31 ∧ 1 ≤ p.iloz ∧ p.iloz ≤ p.ihiz ∧ p.ihiz ≤ rz ∧ ilo + 1 ≤ cz) :
    ∃ a' : HqrA F, hqrTwo p (ilo + 1) a = pure a' ∧
      Is2 a'.h r c (r * c) (twoH p.wantt p.n ilo (dlanv2 (A ilo ilo) (A ilo (ilo + 1)) (A (ilo + 1) ilo) (A (ilo + 1) (ilo + 1))) A) ∧
      (p.wantz = false → a'.z = a.z) ∧
      (p.wantz = true → Is2 a'.z rz cz (rz * cz)
        (twoZ true ilo p.iloz p.ihiz (dlanv2 (A ilo ilo) (A ilo (ilo + 1)) (A (ilo + 1) ilo) (A (ilo + 1) (ilo + 1))) Z)) ∧
      a'.wr.data = (a.wr.data.set (ilo - 1).toNat (dlanv2 (A ilo ilo) (A ilo (ilo + 1)) (A (ilo + 1) ilo) (A (ilo + 1) (ilo + 1))).rt1r).set ilo.toNat
        (dlanv2 (A ilo ilo) (A ilo (ilo + 1)) (A (ilo + 1) ilo) (A (ilo + 1) (ilo + 1))).rt2r ∧
      a'.wi.data = (a.wi.data.set (ilo - 1).toNat (dlanv2 (A ilo ilo) (A ilo (ilo + 1)) (A (ilo + 1) ilo) (A (ilo + 1) (ilo + 1))).rt1i).set ilo.toNat
        (dlanv2 (A ilo ilo) (A ilo (ilo + 1)) (A (ilo + 1) ilo) (A (ilo + 1) (ilo + 1))).rt2i := by
  have hr : 0 < r := by omega
  have hc : 0 < c := by omega
  have hrc : r ≤ r * c := Nat.le_mul_of_pos_right r hc
  have cell : ∀ x y, ilo ≤ x → x ≤ ilo + 1 → ilo ≤ y → y ≤ ilo + 1 → Cell r (r * c) x y := fun x y x1 x2 y1 y2 =>
    cell_rc (by omega) (by omega) (by omega) (by omega)
  have get : ∀ x y, ilo ≤ x → x ≤ ilo + 1 → ilo ≤ y → y ≤ ilo + 1 → a.h.get2 x y = pure (A x y) := fun x y x1 x2 y1 y2 =>
    get2_is2 hh (cell x y x1 x2 y1 y2) hL
  unfold hqrTwo
  simp only [show ilo + 1 - 1 = ilo by ring]
  rw [get ilo ilo (by omega) (by omega) (by omega) (by omega), get ilo (ilo + 1) (by omega) (by omega) (by omega) (by omega),
    get (ilo + 1) ilo (by omega) (by omega) (by omega) (by omega), get (ilo + 1) (ilo + 1) (by omega) (by omega) (by omega) (by omega)]
  simp only [pure_bind]
  generalize dlanv2 (A ilo ilo) (A ilo (ilo + 1)) (A (ilo + 1) ilo) (A (ilo + 1) (ilo + 1)) = o
  obtain ⟨k1, s1, q1⟩ := set2_is2 hh (cell ilo ilo (by omega) (by omega) (by omega) (by omega)) hL o.a
  rw [s1]; simp only [pure_bind]
  obtain ⟨k2, s2, q2⟩ := set2_is2 q1 (cell ilo (ilo + 1) (by omega) (by omega) (by omega) (by omega)) hL o.b
  rw [s2]; simp only [pure_bind]
  obtain ⟨k3, s3, q3⟩ := set2_is2 q2 (cell (ilo + 1) ilo (by omega) (by omega) (by omega) (by omega)) hL o.c
  rw [s3]; simp only [pure_bind]
  obtain ⟨k4, s4, q4⟩ := set2_is2 q3 (cell (ilo + 1) (ilo + 1) (by omega) (by omega) (by omega) (by omega)) hL o.d
  rw [s4]; simp only [pure_bind]
  have hH : ∃ h', (if p.wantt = true then hqrRotH p (ilo + 1) o.cs o.sn k4 else pure k4) = pure h' ∧ Is2 h' r c (r * c) (twoH p.wantt p.n ilo o A) := by
    by_cases ht : p.wantt = true
    · rw [if_pos ht]
      obtain ⟨h', e, hh'⟩ := hqrRotH_exact q4 hL p (i := ilo + 1) hld (by omega) (by omega) (by omega) hn o.cs o.sn
      refine ⟨h', e, hh'.congrCell hr fun x y hxy => ?_⟩
      unfold twoH upd2
      simp only [show ilo + 1 - 1 = ilo by ring, show ilo + 1 + 1 = ilo + 2 by ring, ht, true_and]
      by_cases c1 : x = ilo ∧ y = ilo + 2 ∧ y ≤ p.n
      · obtain ⟨rfl, rfl, c3⟩ := c1
        simp [c3]
      · by_cases c2 : x = ilo + 1 ∧ ilo + 2 ≤ y ∧ y ≤ p.n
        · obtain ⟨rfl, c3, c4⟩ := c2
          have : y ≠ ilo := by omega
          have : y ≠ ilo + 1 := by omega
          simp [c3, c4, *]
        · rw [if_neg c1, if_neg c2, if_neg c1, if_neg c2]
          split_ifs <;> first | rfl | omega
    · rw [if_neg ht]
      refine ⟨k4, rfl, q4.congrCell hr fun x y hxy => ?_⟩
      unfold twoH upd2
      simp only [ht, false_and, if_false, Bool.false_eq_true]
      split_ifs <;> first | rfl | omega
  obtain ⟨h', eh, hh'⟩ := hH
  have hZ : ∃ z', (if p.wantz = true then hqrRotZ p (ilo + 1) o.cs o.sn a.z else pure a.z) = pure z' ∧ (p.wantz = false → z' = a.z) ∧
      (p.wantz = true → Is2 z' rz cz (rz * cz) (twoZ true ilo p.iloz p.ihiz o Z)) := by
    by_cases ht : p.wantz = true
    · rw [if_pos ht]
      obtain ⟨w1, w2, w3, w4, w5, w6⟩ := hz ht
      obtain ⟨z', e, hz'⟩ := hqrRotZ_ok w1 w2 p (i := ilo + 1) w3 w4 w5 (by omega) (by omega) o.cs o.sn
      refine ⟨z', e, fun h => absurd (ht.symm.trans h) (by decide), fun _ => hz'.congrCell (by omega) fun x y hxy => ?_⟩
      unfold twoZ
      simp only [show ilo + 1 - 1 = ilo by ring, true_and]
    · rw [if_neg ht]
      exact ⟨a.z, rfl, fun _ => rfl, fun h => absurd h ht⟩
  obtain ⟨z', ez, z1, z2⟩ := hZ
  have f1 : FitsI32 ilo := by rw [fits_iff]; omega
  have f2 : FitsI32 (ilo + 1) := by rw [fits_iff]; omega
  refine ⟨⟨h', (a.wr.set1 ilo o.rt1r).set1 (ilo + 1) o.rt2r, (a.wi.set1 ilo o.rt1i).set1 (ilo + 1) o.rt2i, z'⟩, ?_, hh', z1, z2, ?_, ?_⟩
  · by_cases ht : p.wantt = true
    · rw [if_pos ht] at eh ⊢
      rw [eh, pure_bind]
      by_cases hw : p.wantz = true
      · rw [if_pos hw] at ez ⊢
        rw [ez, pure_bind]
      · rw [if_neg hw] at ez ⊢
        rw [pure_val ez]
    · rw [if_neg ht] at eh ⊢
      rw [pure_val eh]
      by_cases hw : p.wantz = true
      · rw [if_pos hw] at ez ⊢
        rw [ez, pure_bind]
      · rw [if_neg hw] at ez ⊢
        rw [pure_val ez]
  · simp only
    rw [set1_list _ (by omega) f2, set1_list _ h1 f1, show ilo + 1 - 1 = ilo by ring]
  · simp only
    rw [set1_list _ (by omega) f2, set1_list _ h1 f1, show ilo + 1 - 1 = ilo by ring]

/-- **C81.** `dlahqr` on an active block of order two (rows and columns `ilo` and `ilo + 1`), in any arithmetic: if the block
counts as already split, it never returns, whatever the number of rounds it is given; otherwise it returns from two rounds on, with `info = 0`, and every entry of `h`, `z`, `wr` and `wi`
is as follows: the block becomes the one `dlanv2` returns; right of the block, row `ilo + 1` is rotated but row `ilo` is only in the column next
to the block; the columns above the block are not rotated; the columns of `z` are; `wr` and `wi` hold the eigenvalues from `dlanv2`. -/
theorem C81_dlahqr_order_two (wantt wantz : Bool) (n ilo : Int) (hn0 : n ≠ 0) (h : FA F) (r c : Nat) (hM : IsMatrix h r c) (h1 : 1 ≤ ilo)
    (h2 : ilo + 1 ≤ r) (h3 : ilo + 1 ≤ c) (h4 : n ≤ c) (wr wi : List F) (iloz ihiz : Int) (z : FA F) (rz cz : Nat) (ldz : Int)
    (hz : wantz = true → IsMatrix z rz cz ∧ 1 ≤ iloz ∧ iloz ≤ ihiz ∧ ihiz ≤ rz ∧ ilo + 1 ≤ cz)
    {A Z : Int → Int → F} (hA : ∀ a b : Int, 1 ≤ a → a ≤ r → 1 ≤ b → b ≤ c → Entry h r a b (A a b))
    (hZ : wantz = true → ∀ a b : Int, 1 ≤ a → a ≤ rz → 1 ≤ b → b ≤ cz → Entry z rz a b (Z a b)) {o : Lanv2 F}
    (ho : o = dlanv2 (A ilo ilo) (A ilo (ilo + 1)) (A (ilo + 1) ilo) (A (ilo + 1) (ilo + 1))) :
    (splitTwo (A ilo ilo) (A ilo (ilo + 1)) (A (ilo + 1) ilo) (A (ilo + 1) (ilo + 1)) = true ∧
      ∀ fuel, dlahqr (F := F) fuel wantt wantz n ilo (ilo + 1) h r wr wi iloz ihiz z ldz = R.timeout) ∨
    splitTwo (A ilo ilo) (A ilo (ilo + 1)) (A (ilo + 1) ilo) (A (ilo + 1) (ilo + 1)) = false ∧
    ∃ ret : HqrRet (FA F) (List F) (List F) (FA F), (∀ fuel, dlahqr (F := F) (fuel + 2) wantt wantz n ilo (ilo + 1) h r wr wi iloz ihiz z ldz = pure ret) ∧
      ret.info = 0 ∧
      IsMatrix ret.h r c ∧ (∀ a b : Int, 1 ≤ a → a ≤ r → 1 ≤ b → b ≤ c → Entry ret.h r a b (twoH wantt n ilo o A a b)) ∧
      (wantz = false → ret.z = z) ∧
      (wantz = true → IsMatrix ret.z rz cz ∧ ∀ a b : Int, 1 ≤ a → a ≤ rz → 1 ≤ b → b ≤ cz → Entry ret.z rz a b (twoZ wantz ilo iloz ihiz o Z a b)) ∧
      ret.wr = (wr.set (ilo - 1).toNat o.rt1r).set ilo.toNat o.rt2r ∧
      ret.wi = (wi.set (ilo - 1).toNat o.rt1i).set ilo.toNat o.rt2i := by
  have hr : 0 < r := by omega
  set p : HqrP F := hqrParams wantt wantz n ilo (ilo + 1) r iloz ihiz with hp
  have pilo : p.ilo = ilo := rfl
  have pihi : p.ihi = ilo + 1 := rfl
  have hh : Is2 h r c (r * c) A := (is2_of_matrix hM hr).congrCell hr fun a b hab => by
    obtain ⟨b1, b2, b3, b4⟩ := hab
    have hb : b ≤ c := by
      by_contra hc
      have : (c : ℤ) * r ≤ (b - 1) * r := mul_le_mul_of_nonneg_right (by omega) (by omega)
      push_cast at b4
      rw [mul_comm (r : ℤ) c] at b4
      omega
    exact (entry_is2 (is2_of_matrix hM hr) b1 b2 b3 hb _).1 (hA a b b1 b2 b3 hb)
  have cell : ∀ a b : Int, 1 ≤ a → a ≤ ilo + 1 → 1 ≤ b → b ≤ ilo + 1 → Cell r (r * c) a b := fun a b ha1 ha2 hb1 hb2 =>
    cell_rc ha1 (by omega) hb1 (by omega)
  have get : ∀ x y, ilo ≤ x → x ≤ ilo + 1 → ilo ≤ y → y ≤ ilo + 1 → h.get2 x y = pure (A x y) := fun x y x1 x2 y1 y2 =>
    get2_is2 hh (cell x y (by omega) (by omega) (by omega) (by omega)) hM.small
  have hclear : hqrClear ilo (ilo + 1) h = pure h := by
    unfold hqrClear
    rw [show forUp ilo (ilo + 1 - 3) h (fun h j => do let h ← h.set2 (j + 2) j zero; h.set2 (j + 3) j zero) = pure h from by
      unfold forUp; rw [irange_empty (by omega)]; rfl]
    rw [pure_bind, if_neg (by omega)]
  have psml : p.smlnum = dlamch 'S' * (ofInt 2 / dlamch 'P') := by
    rw [hp]; unfold hqrParams; simp only [show ilo + 1 - ilo + 1 = 2 by ring]
  have pulp : p.ulp = dlamch 'P' := rfl
  have hsearch : (splitTwo (A ilo ilo) (A ilo (ilo + 1)) (A (ilo + 1) ilo) (A (ilo + 1) (ilo + 1)) = true ∧ ∀ k, hqrSearch p h [ilo + 1] k = pure (ilo + 1)) ∨
      (splitTwo (A ilo ilo) (A ilo (ilo + 1)) (A (ilo + 1) ilo) (A (ilo + 1) (ilo + 1)) = false ∧ ∀ k, hqrSearch p h [ilo + 1] k = pure ilo) := by
    unfold splitTwo
    simp only [hqrSearch, show ilo + 1 - 1 = ilo by ring]
    rw [get (ilo + 1) ilo (by omega) (by omega) (by omega) (by omega), pure_bind]
    by_cases t0 : (abs (A (ilo + 1) ilo) ≤ᶠ p.smlnum) = true
    · left; refine ⟨by rw [← psml, t0]; rfl, fun _ => ?_⟩; rw [if_pos t0]
    · rw [← psml, ← pulp, Bool.eq_false_of_not_eq_true t0, Bool.false_or, if_neg (by decide), get ilo ilo (by omega) (by omega) (by omega) (by omega), pure_bind, get (ilo + 1) (ilo + 1) (by omega) (by omega) (by omega) (by omega), pure_bind,
        get ilo (ilo + 1) (by omega) (by omega) (by omega) (by omega)]
      simp only [pilo, pihi]
      simp only [if_neg (show ¬ ilo + 1 - 2 ≥ ilo by omega), if_neg (show ¬ ilo + 1 + 1 ≤ ilo + 1 by omega), pure_bind, ite_self]
      split_ifs with t1 t2
      · left; exact ⟨by rw [t1, Bool.true_and]; exact t2, fun _ => rfl⟩
      · right; exact ⟨by rw [t1, Bool.true_and]; exact Bool.eq_false_of_not_eq_true t2, fun _ => rfl⟩
      · right; exact ⟨by rw [Bool.eq_false_of_not_eq_true t1]; rfl, fun _ => rfl⟩
  have hit : ¬ 0 ≥ p.itmax := by
    unfold HqrP.itmax
    have := le_max_right ((p.ihi - p.ilo + 1).toNat) 10
    omega
  rcases hsearch with ⟨hsp, hs⟩ | ⟨hsp, hs⟩
  · left
    refine ⟨hsp, ?_⟩
    intro fuel
    have key : ∀ a v m k, a.h = h → hqrOuter p fuel a v m k (ilo + 1) = R.timeout := by
      intro a v m k ha
      cases fuel with
      | zero => rfl
      | succ fuel =>
        obtain ⟨h2, e2, hh2⟩ := set2_is2 hh (cell (ilo + 1) (ilo + 1 - 1) (by omega) (by omega) (by omega) (by omega)) hM.small zero
        have hdef : hqrDeflate p (ilo + 1) ⟨a.h, a.z, v, m, k, p.ilo, 0⟩ = pure ⟨h2, a.z, v, m, ilo + 1, ilo + 1, 0⟩ := by
          unfold hqrDeflate
          simp only [pilo]
          rw [irange_snoc (le_refl _), irange_empty (by omega)]
          simp only [List.nil_append, List.reverse_cons, List.reverse_nil]
          rw [ha, hs, pure_bind]
          rw [if_pos (by omega), e2, pure_bind]
        rw [hqrOuter, if_neg (by omega), hqrInner_now p _ _ _ _ _ hdef (by simp only; omega)]
        simp only [pure_bind]
        rw [if_neg hit]
        unfold hqrRecord
        rw [if_pos rfl, get2_is2 hh2 (cell (ilo + 1) (ilo + 1) (by omega) (by omega) (by omega) (by omega)) hM.small]
        simp only [pure_bind]
        rw [show ilo + 1 - 1 = ilo by ring]
        exact hqrOuter_stuck (N := ilo + 1) p fuel _ v m _ hh2 hM.small cell h1 (le_refl _)
    unfold dlahqr
    rw [if_neg hn0]
    simp only
    rw [if_neg (by omega)]
    unfold hqrMain
    simp only [show ToFA.toFa h = h from rfl, hclear, pure_bind]
    rw [← hp, key _ _ _ _ rfl]
    rfl
  · right
    refine ⟨hsp, ?_⟩
    have hzI : wantz = true → Is2 z rz cz (rz * cz) Z := fun hw => by
      obtain ⟨hMz, w1, w2, w3, w4⟩ := hz hw
      have hrz : 0 < rz := by omega
      refine (is2_of_matrix hMz hrz).congrCell hrz fun a b hab => ?_
      obtain ⟨b1, b2, b3, b4⟩ := hab
      have hb : b ≤ cz := by
        by_contra hc
        have : (cz : ℤ) * rz ≤ (b - 1) * rz := mul_le_mul_of_nonneg_right (by omega) (by omega)
        push_cast at b4
        rw [mul_comm (rz : ℤ) cz] at b4
        omega
      exact (entry_is2 (is2_of_matrix hMz hrz) b1 b2 b3 hb _).1 (hZ hw a b b1 b2 b3 hb)
    obtain ⟨a', ea, ah, az0, az1, awr, awi⟩ := hqrTwo_exact (Z := Z) (rz := rz) (cz := cz) p ⟨h, ToFA.toFa wr, ToFA.toFa wi, z⟩ hh hM.small h1 h2 h3 rfl h4
      (fun hw => by obtain ⟨hMz, w1, w2, w3, w4⟩ := hz hw; exact ⟨hzI hw, hMz.small, w1, w2, w3, w4⟩)
    rw [← ho] at ah az1 awr awi
    have key : ∀ fuel v m k, hqrOuter p (fuel + 2) ⟨h, ToFA.toFa wr, ToFA.toFa wi, z⟩ v m k (ilo + 1) = pure (a', 0) := by
      intro fuel v m k
      have hdef : hqrDeflate p (ilo + 1) ⟨h, z, v, m, k, p.ilo, 0⟩ = pure ⟨h, z, v, m, ilo, ilo, 0⟩ := by
        unfold hqrDeflate
        simp only [pilo]
        rw [irange_snoc (le_refl _), irange_empty (by omega)]
        simp only [List.nil_append, List.reverse_cons, List.reverse_nil]
        rw [hs, pure_bind]
        rw [if_neg (by omega), pure_bind]
      rw [hqrOuter.eq_def]
      simp only
      rw [if_neg (by omega), hqrInner_now p _ _ _ _ _ hdef (by simp only; omega)]
      simp only [pure_bind]
      rw [if_neg hit]
      unfold hqrRecord
      rw [if_neg (by omega), if_pos (by omega), ea, pure_bind, hqrOuter.eq_def]
      simp only
      rw [if_pos (by omega)]
    have hret : ∀ fuel, dlahqr (F := F) (fuel + 2) wantt wantz n ilo (ilo + 1) h r wr wi iloz ihiz z ldz =
        (pure ⟨a'.h, a'.wr.data, a'.wi.data, a'.z, 0⟩ : R (HqrRet (FA F) (List F) (List F) (FA F))) := by
      intro fuel
      unfold dlahqr
      rw [if_neg hn0]
      simp only
      rw [if_neg (by omega)]
      unfold hqrMain
      simp only [show ToFA.toFa h = h from rfl, show ToFA.toFa z = z from rfl, hclear, pure_bind]
      rw [← hp, key]
      rfl
    refine ⟨_, hret, rfl, ⟨ah.rows, ah.cols, by rw [ah.data, length_tab2], hM.small⟩, fun a b a1 a2 b1 b2 => ?_, fun hw => az0 hw, fun hw => ?_, awr, awi⟩
    · exact (entry_is2 ah a1 a2 b1 b2 _).2 rfl
    · obtain ⟨hMz, w1, w2, w3, w4⟩ := hz hw
      have hI := az1 hw
      refine ⟨⟨hI.rows, hI.cols, by rw [hI.data, length_tab2], hMz.small⟩, fun a b a1 a2 b1 b2 => ?_⟩
      rw [hw]
      exact (entry_is2 hI a1 a2 b1 b2 _).2 rfl

end generic

section exact
open XR Matrix

/-- The values `dlahqr` leaves in `h`, as real numbers. -/
def twoT (n ilo : ℤ) (o : Lanv2 ℝ) (A : ℤ → ℤ → ℝ) (a b : ℤ) : ℝ :=
  if a = ilo ∧ b = ilo then o.a
  else if a = ilo ∧ b = ilo + 1 then o.b
  else if a = ilo + 1 ∧ b = ilo then o.c
  else if a = ilo + 1 ∧ b = ilo + 1 then o.d
  else if a = ilo ∧ b = ilo + 2 ∧ b ≤ n then o.cs * A ilo b + o.sn * A (ilo + 1) b
  else if a = ilo + 1 ∧ ilo + 2 ≤ b ∧ b ≤ n then o.cs * A (ilo + 1) b - o.sn * A ilo b
  else A a b

theorem twoH_fin (n ilo : ℤ) (o : Lanv2 ℝ) (A : ℤ → ℤ → ℝ) (a b : ℤ) :
    twoH true n ilo (o.map fin) (fun a b => fin (A a b)) a b = fin (twoT n ilo o A a b) := by
  unfold twoH twoT
  simp only [true_and]
  split_ifs <;> first | rfl | simp [Lanv2.map]

theorem twoZ_fin (ilo iloz ihiz : ℤ) (o : Lanv2 ℝ) (Z : ℤ → ℤ → ℝ) {a : ℤ} (b : ℤ) (h1 : iloz ≤ a) (h2 : a ≤ ihiz) :
    twoZ true ilo iloz ihiz (o.map fin) (fun a b => fin (Z a b)) a b = fin (rotv ilo o.cs o.sn (Z a) b) := by
  unfold twoZ rotv
  rw [if_pos ⟨rfl, h1, h2⟩]
  split_ifs <;> first | rfl | simp [Lanv2.map]

theorem rotT_twoT_iff {n ilo : ℤ} (h1 : 1 ≤ ilo) (h2 : ilo + 1 ≤ n) {o : Lanv2 ℝ} {A : ℤ → ℤ → ℝ}
    (hrot : Rotated (A ilo ilo) (A ilo (ilo + 1)) (A (ilo + 1) ilo) (A (ilo + 1) (ilo + 1)) o.cs o.sn o.a o.b o.c o.d)
    (hlow : ∀ a b, ilo + 1 < a → ilo ≤ b → b ≤ ilo + 1 → A a b = 0) (hleft : ∀ a b, b < ilo → ilo ≤ a → a ≤ ilo + 1 → A a b = 0) :
    block 1 n (rotT ilo o.cs o.sn A) = block 1 n (twoT n ilo o A) ↔
      (∀ a, 1 ≤ a → a < ilo → o.cs * A a ilo + o.sn * A a (ilo + 1) = A a ilo ∧ o.cs * A a (ilo + 1) - o.sn * A a ilo = A a (ilo + 1)) ∧
      ∀ b, ilo + 2 < b → b ≤ n → o.cs * A ilo b + o.sn * A (ilo + 1) b = A ilo b := by
  obtain ⟨t11, t12, t21, t22⟩ := rotT_block hrot
  have n1 : ilo + 1 ≠ ilo := by omega
  constructor
  · intro h
    have at_ : ∀ a b : ℤ, 1 ≤ a → a ≤ n → 1 ≤ b → b ≤ n → rotT ilo o.cs o.sn A a b = twoT n ilo o A a b := fun a b a1 a2 b1 b2 =>
      congrFun (congrFun h ⟨a, Finset.mem_Icc.2 ⟨a1, a2⟩⟩) ⟨b, Finset.mem_Icc.2 ⟨b1, b2⟩⟩
    refine ⟨fun a a1 a2 => ⟨?_, ?_⟩, fun b b1 b2 => ?_⟩
    · have := at_ a ilo a1 (by omega) (by omega) (by omega)
      unfold twoT rotT rotv at this
      have m1 : a ≠ ilo := by omega
      have m2 : a ≠ ilo + 1 := by omega
      simpa [m1, m2] using this
    · have := at_ a (ilo + 1) a1 (by omega) (by omega) (by omega)
      unfold twoT rotT rotv at this
      have m1 : a ≠ ilo := by omega
      have m2 : a ≠ ilo + 1 := by omega
      simpa [m1, m2] using this
    · have := at_ ilo b (by omega) (by omega) (by omega) b2
      unfold twoT rotT rotv at this
      have m1 : b ≠ ilo := by omega
      have m2 : b ≠ ilo + 1 := by omega
      have m3 : b ≠ ilo + 2 := by omega
      simpa [m1, m2, m3] using this
  · rintro ⟨ha, hb⟩
    ext ⟨a, am⟩ ⟨b, bm⟩
    obtain ⟨a1, a2⟩ := Finset.mem_Icc.1 am
    obtain ⟨b1, b2⟩ := Finset.mem_Icc.1 bm
    show rotT ilo o.cs o.sn A a b = twoT n ilo o A a b
    by_cases ka : a = ilo
    · subst ka
      by_cases kb : b = a
      · subst kb; rw [t11]; simp [twoT]
      by_cases kb' : b = a + 1
      · subst kb'; rw [t12]; simp [twoT]
      unfold rotT
      rw [rotv_ne kb kb']
      unfold rotv
      rw [if_pos rfl]
      beta_reduce
      unfold twoT
      rw [if_neg (by omega), if_neg (by omega), if_neg (by omega), if_neg (by omega)]
      by_cases kc : b = a + 2
      · rw [if_pos ⟨rfl, kc, b2⟩]
      · rw [if_neg (by omega), if_neg (by omega)]
        by_cases kd : b < a
        · rw [hleft a b kd (le_refl _) (by omega), hleft (a + 1) b kd (by omega) (le_refl _)]; ring
        · exact hb b (by omega) b2
    · by_cases ka' : a = ilo + 1
      · subst ka'
        by_cases kb : b = ilo
        · subst kb; rw [t21]; simp [twoT]
        by_cases kb' : b = ilo + 1
        · subst kb'; rw [t22]; simp [twoT]
        unfold rotT
        rw [rotv_ne kb kb']
        unfold rotv
        rw [if_neg n1, if_pos rfl]
        beta_reduce
        unfold twoT
        rw [if_neg (by omega), if_neg (by omega), if_neg (by omega), if_neg (by omega), if_neg (by omega)]
        by_cases kd : b < ilo
        · rw [if_neg (by omega), hleft ilo b kd (le_refl _) (by omega), hleft (ilo + 1) b kd (by omega) (le_refl _)]; ring
        · rw [if_pos ⟨rfl, by omega, b2⟩]
      · have e : rotT ilo o.cs o.sn A a b = rotv ilo o.cs o.sn (A a) b := by
          unfold rotT
          congr 1
          funext b
          exact rotv_ne ka ka'
        rw [e]
        have e2 : twoT n ilo o A a b = A a b := by
          unfold twoT
          rw [if_neg (by omega), if_neg (by omega), if_neg (by omega), if_neg (by omega), if_neg (by omega), if_neg (by omega)]
        rw [e2]
        by_cases kl : a < ilo
        · unfold rotv
          split_ifs with c1 c2
          · rw [c1]; exact (ha a a1 kl).1
          · rw [c2]; exact (ha a a1 kl).2
          · rfl
        · exact rotv_zero (hlow a ilo (by omega) (le_refl _) (by omega)) (hlow a (ilo + 1) (by omega) (by omega) (le_refl _))

/-- **C81** (exact arithmetic).  Let `dlahqr` return on an `N`-by-`N` matrix `A` with an isolated active block of order two, asked for the
Schur form and with `z` the identity.  Then the `z` it returns is orthogonal, but the `h` it returns equals `zᵀ A z` exactly if the rotation
leaves alone the two columns above the block and row `ilo` from the second column right of the block on. -/
theorem C81_schur_form_iff (N : ℕ) (ilo : ℤ) (h z : FA XR) (hM : IsMatrix h N N) (hMz : IsMatrix z N N) (h1 : 1 ≤ ilo) (h2 : ilo + 1 ≤ N)
    (wr wi : List XR) (ldz : ℤ) {A : ℤ → ℤ → ℝ} (hA : ∀ a b : ℤ, 1 ≤ a → a ≤ N → 1 ≤ b → b ≤ N → Entry h N a b (fin (A a b)))
    (hZ : ∀ a b : ℤ, 1 ≤ a → a ≤ N → 1 ≤ b → b ≤ N → Entry z N a b (fin (if a = b then 1 else 0)))
    (hlow : ∀ a b, ilo + 1 < a → ilo ≤ b → b ≤ ilo + 1 → A a b = 0) (hleft : ∀ a b, b < ilo → ilo ≤ a → a ≤ ilo + 1 → A a b = 0)
    (hbd : ∀ a b, ilo ≤ a → a ≤ ilo + 1 → ilo ≤ b → b ≤ ilo + 1 → 4 * |A a b| ≤ fMax)
    (fuel : ℕ) (pr : Profile) (ret : HqrRet (FA XR) (List XR) (List XR) (FA XR))
    (hret : dlahqr (F := XR) (fuel + 2) true true N ilo (ilo + 1) h N wr wi 1 N z ldz pr = .ok ret) :
    ∃ (T Q : ℤ → ℤ → ℝ) (o : Lanv2 ℝ), dlanv2 (fin (A ilo ilo)) (fin (A ilo (ilo + 1))) (fin (A (ilo + 1) ilo)) (fin (A (ilo + 1) (ilo + 1))) = o.map fin ∧
      (∀ a b : ℤ, 1 ≤ a → a ≤ N → 1 ≤ b → b ≤ N → Entry ret.h N a b (fin (T a b))) ∧
      (∀ a b : ℤ, 1 ≤ a → a ≤ N → 1 ≤ b → b ≤ N → Entry ret.z N a b (fin (Q a b))) ∧
      (block 1 N Q)ᵀ * block 1 N Q = 1 ∧
      ((block 1 N Q)ᵀ * block 1 N A * block 1 N Q = block 1 N T ↔
        (∀ a, 1 ≤ a → a < ilo → o.cs * A a ilo + o.sn * A a (ilo + 1) = A a ilo ∧ o.cs * A a (ilo + 1) - o.sn * A a ilo = A a (ilo + 1)) ∧
        ∀ b, ilo + 2 < b → b ≤ N → o.cs * A ilo b + o.sn * A (ilo + 1) b = A ilo b) := by
  obtain ⟨o, eo, hrot⟩ := C37_dlanv2_factors (A ilo ilo) (A ilo (ilo + 1)) (A (ilo + 1) ilo) (A (ilo + 1) (ilo + 1))
    (hbd _ _ (by omega) (by omega) (by omega) (by omega)) (hbd _ _ (by omega) (by omega) (by omega) (by omega))
    (hbd _ _ (by omega) (by omega) (by omega) (by omega)) (hbd _ _ (by omega) (by omega) (by omega) (by omega))
  have main := C81_dlahqr_order_two true true N ilo (by omega) h N N hM h1 h2 h2 (le_refl _) wr wi 1 N z N N ldz (fun _ => ⟨hMz, by omega, by omega, le_refl _, h2⟩)
    (A := fun a b => fin (A a b)) (Z := fun a b => fin (if a = b then 1 else 0)) hA (fun _ => hZ) eo.symm
  rcases main with ⟨-, hto⟩ | ⟨-, ret', hf, -, -, eh, -, ez, -, -⟩
  · rw [hto] at hret; cases hret
  · rw [hf] at hret
    have er : ret' = ret := Res.ok.inj hret
    subst er
    refine ⟨twoT N ilo o A, fun a b => rotv ilo o.cs o.sn (fun j => if a = j then 1 else 0) b, o, eo, fun a b a1 a2 b1 b2 => ?_, fun a b a1 a2 b1 b2 => ?_, ?_, ?_⟩
    · rw [← twoH_fin]; exact eh a b a1 a2 b1 b2
    · have := (ez rfl).2 a b a1 a2 b1 b2
      rw [twoZ_fin ilo 1 N o (fun a b => if a = b then 1 else 0) b a1 a2] at this
      exact this
    · exact rotM_orth (lo := 1) (hi := N) h1 h2 hrot.unit
    · rw [← rotT_twoT_iff h1 h2 hrot hlow hleft, ← rot_similar (lo := 1) (hi := N) h1 h2 A]
      exact Iff.rfl

/-! ### An instance -/

/-- The matrix with rows `(5, 3, 4)`, `(0, 1, 0)`, `(0, 1, 2)`. -/
def coupleA (i j : ℤ) : ℝ :=
  if i = 1 ∧ j = 1 then 5 else if i = 1 ∧ j = 2 then 3 else if i = 1 ∧ j = 3 then 4 else if i = 2 ∧ j = 2 then 1
  else if i = 3 ∧ j = 2 then 1 else if i = 3 ∧ j = 3 then 2 else 0

noncomputable def couple : FA XR :=
  { data := [fin 5, fin 0, fin 0, fin 3, fin 1, fin 1, fin 4, fin 0, fin 2], rows := 3, cols := 3, defaultValue := fin 0 }

noncomputable def couple1 : FA XR :=
  { data := [fin 1, fin 0, fin 0, fin 0, fin 1, fin 0, fin 0, fin 0, fin 1], rows := 3, cols := 3, defaultValue := fin 0 }

theorem couple_entry : ∀ a b : ℤ, 1 ≤ a → a ≤ (3 : ℕ) → 1 ≤ b → b ≤ (3 : ℕ) → Entry couple 3 a b (fin (coupleA a b)) := by
  intro i j i1 i2 j1 j2
  obtain rfl | rfl | rfl : i = 1 ∨ i = 2 ∨ i = 3 := by omega
  all_goals obtain rfl | rfl | rfl : j = 1 ∨ j = 2 ∨ j = 3 := by omega
  all_goals simp [Entry, couple, coupleA]

theorem couple1_entry : ∀ a b : ℤ, 1 ≤ a → a ≤ (3 : ℕ) → 1 ≤ b → b ≤ (3 : ℕ) → Entry couple1 3 a b (fin (if a = b then 1 else 0)) := by
  intro i j i1 i2 j1 j2
  obtain rfl | rfl | rfl : i = 1 ∨ i = 2 ∨ i = 3 := by omega
  all_goals obtain rfl | rfl | rfl : j = 1 ∨ j = 2 ∨ j = 3 := by omega
  all_goals simp [Entry, couple1]

theorem couple_fro : fro (block 2 (2 + 1) coupleA) ≤ 2 ^ 500 := by
  refine le_trans (b := (2 : ℝ) ^ 20) ?_ (pow_le_pow_right₀ (by norm_num) (by norm_num))
  unfold fro
  rw [Real.sqrt_le_left (by norm_num)]
  have e : ∀ f : ℤ → ℝ, ∑ a : Blk 2 (2 + 1), f a = f 2 + f 3 := fun f => by
    rw [Finset.sum_coe_sort (Finset.Icc (2 : ℤ) (2 + 1)) f, sum_Icc_cons (by norm_num), show (2 : ℤ) + 1 = 3 by norm_num, Finset.Icc_self, Finset.sum_singleton]
  have e2 : ∑ i : Blk 2 (2 + 1), ∑ j : Blk 2 (2 + 1), block 2 (2 + 1) coupleA i j ^ 2 = 6 := by
    have := e fun i => ∑ j : Blk 2 (2 + 1), coupleA i j ^ 2
    refine this.trans ?_
    rw [e fun j => coupleA 2 j ^ 2, e fun j => coupleA 3 j ^ 2]
    norm_num [coupleA]
  rw [e2]
  norm_num

/-- The hypotheses of C81 are met and the answer is wrong: `dlahqr` returns, with an orthogonal `z`, but `h ≠ zᵀ A z`. -/
theorem C81_example (wr wi : List XR) (pr : Profile) : ∃ ret : HqrRet (FA XR) (List XR) (List XR) (FA XR),
    dlahqr (F := XR) 2 true true 3 2 3 couple 3 wr wi 1 3 couple1 3 pr = .ok ret ∧ ret.info = 0 ∧
    ∃ T Q : ℤ → ℤ → ℝ, (∀ a b : ℤ, 1 ≤ a → a ≤ 3 → 1 ≤ b → b ≤ 3 → Entry ret.h 3 a b (fin (T a b))) ∧
      (∀ a b : ℤ, 1 ≤ a → a ≤ 3 → 1 ≤ b → b ≤ 3 → Entry ret.z 3 a b (fin (Q a b))) ∧
      (block 1 3 Q)ᵀ * block 1 3 Q = 1 ∧ (block 1 3 Q)ᵀ * block 1 3 coupleA * block 1 3 Q ≠ block 1 3 T := by
  have hsmall : (1 : ℝ) / 2 ^ 969 ≤ 1 / 2 ^ 100 := by
    apply one_div_le_one_div_of_le (by positivity)
    exact pow_le_pow_right₀ (by norm_num) (by norm_num)
  have hin : HessInput couple 3 2 (2 + 1) coupleA := by
    refine ⟨fun a b a1 a2 b1 b2 _ _ => couple_entry a b (by omega) (by push_cast; omega) (by omega) (by push_cast; omega), fun i j hij => ?_⟩
    unfold coupleA
    repeat' rw [if_neg (by omega)]
  obtain ⟨ret, e, hi⟩ := (C52_dlahqr_two_iff 0 true 3 2 couple 3 3 wr wi 1 3 couple1 3 3 3 ⟨rfl, rfl, rfl, by norm_num⟩ (by norm_num) (by norm_num) (by norm_num)
    (by norm_num) hin couple_fro (fun _ => ⟨⟨rfl, rfl, rfl, by norm_num⟩, by norm_num, by norm_num, by norm_num, by norm_num⟩)
    (Z0 := fun a b => if a = b then 1 else 0)
    (fun _ a b a1 a2 b1 b2 => couple1_entry a b (by omega) (by push_cast; omega) (by omega) (by push_cast; omega)) pr).1 (by
      rw [Negligible, not_or]
      have a1 : |coupleA (2 + 1) 2| = 1 := by norm_num [coupleA]
      rw [a1]
      refine ⟨fun h => ?_, fun h => ?_⟩
      · have : (1 : ℝ) ≤ 1 / 2 ^ 100 := h.trans hsmall
        norm_num at this
      · have := h.1
        norm_num [coupleA] at this)
  refine ⟨ret, e, hi, ?_⟩
  have hf : (2 : ℝ) ^ 10 ≤ fMax := by
    unfold fMax
    have : (2 : ℝ) ^ 10 ≤ 2 ^ 1023 := pow_le_pow_right₀ (by norm_num) (by norm_num)
    generalize (2 : ℝ) ^ 1023 = w at *
    norm_num at *
    linarith
  obtain ⟨T, Q, o, eo, eT, eQ, horth, hiff⟩ := C81_schur_form_iff 3 2 couple couple1 ⟨rfl, rfl, rfl, by norm_num⟩ ⟨rfl, rfl, rfl, by norm_num⟩ (by norm_num)
    (by norm_num) wr wi 3 (A := coupleA) couple_entry couple1_entry (fun a b a1 b1 b2 => by unfold coupleA; repeat' rw [if_neg (by omega)])
    (fun a b b1 a1 a2 => by unfold coupleA; repeat' rw [if_neg (by omega)])
    (fun a b a1 a2 b1 b2 => by
      refine le_trans ?_ hf
      obtain rfl | rfl : a = 2 ∨ a = 3 := by omega
      all_goals obtain rfl | rfl : b = 2 ∨ b = 3 := by omega
      all_goals norm_num [coupleA]) 0 pr ret e
  refine ⟨T, Q, eT, eQ, horth, fun h => ?_⟩
  have hc := (hiff.1 h).1 1 (by norm_num) (by norm_num)
  have e1 : dlanv2 (fin (coupleA 2 2)) (fin (coupleA 2 (2 + 1))) (fin (coupleA (2 + 1) 2)) (fin (coupleA (2 + 1) (2 + 1))) =
      lanv2Out (fin 2) (-fin 1) zero (fin 1) zero one := by
    have c1 : coupleA 2 2 = 1 := by norm_num [coupleA]
    have c2 : coupleA 2 (2 + 1) = 0 := by norm_num [coupleA]
    have c3 : coupleA (2 + 1) 2 = 1 := by norm_num [coupleA]
    have c4 : coupleA (2 + 1) (2 + 1) = 2 := by norm_num [coupleA]
    rw [c1, c2, c3, c4]
    unfold dlanv2
    rw [if_neg (by rw [zero_eq]; simp), if_pos (by rw [zero_eq]; simp)]
  rw [e1] at eo
  have ecs : o.cs = 0 := by
    have := congrArg Lanv2.cs eo
    rw [show (lanv2Out (fin 2) (-fin 1) zero (fin 1) zero one : Lanv2 XR).cs = (Scalar.zero : XR) by unfold lanv2Out; split <;> rfl, zero_eq] at this
    exact (XR.fin.inj this).symm
  have esn : o.sn = 1 := by
    have := congrArg Lanv2.sn eo
    rw [show (lanv2Out (fin 2) (-fin 1) zero (fin 1) zero one : Lanv2 XR).sn = (Scalar.one : XR) by unfold lanv2Out; split <;> rfl, one_eq] at this
    exact (XR.fin.inj this).symm
  rw [ecs, esn] at hc
  norm_num [coupleA] at hc

end exact

end Verif

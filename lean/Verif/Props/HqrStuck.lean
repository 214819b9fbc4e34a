import Verif.Props.Hqr

/-!
# `dlahqr` does not return on matrices whose subdiagonal is negligible (C44)
-/

namespace Verif
open Scalar

variable {F : Type} [Scalar F]

/-- The inner loop stops at once when the search finds `k` with `i - 1 ≤ k`. -/
theorem hqrInner_now (p : HqrP F) (i : Int) (rounds its : Nat) (s s' : HqrS F)
    (h : hqrDeflate p i s = pure s') (hl : s'.l ≥ i - 1) : hqrInner p i rounds its s = pure (s', its) := by
  rw [hqrInner.eq_def]
  simp only [h, pure_bind]
  rw [if_pos hl]

section
variable {r L : Nat} {cols : Int} {N : Int}

/-- Deflation at `i` when the element `(i, i-1)` is negligible. -/
theorem hqrDeflate_negl (p : HqrP F) (i : Int) (s : HqrS F) (g : Int → Int → F) (hs : Is2 s.h r cols L g)
    (hL : L < 2 ^ 31) (hcell : ∀ a b : Int, 1 ≤ a → a ≤ N → 1 ≤ b → b ≤ N → Cell r L a b)
    (hl : s.l = p.ilo) (h1 : 1 ≤ p.ilo) (h2 : p.ilo < i) (h3 : i ≤ N)
    (hn : (abs (g i (i - 1)) ≤ᶠ p.smlnum) = true) :
    ∃ h', hqrDeflate p i s = pure { s with h := h', k := i, l := i } ∧ Is2 h' r cols L (upd2 g i (i - 1) zero) := by
  obtain ⟨h', e, hh'⟩ := set2_is2 hs (hcell i (i - 1) (by omega) h3 (by omega) (by omega)) hL zero
  refine ⟨h', ?_, hh'⟩
  have hr : (irange (s.l + 1) i).reverse = i :: (irange (s.l + 1) (i - 1)).reverse := by
    rw [hl, irange_snoc (by omega), List.reverse_append]; rfl
  unfold hqrDeflate
  rw [hr, hqrSearch, get2_is2 hs (hcell i (i - 1) (by omega) h3 (by omega) (by omega)) hL]
  simp only [pure_bind]
  rw [if_pos hn]
  simp only [pure_bind]
  rw [if_pos h2, e, pure_bind]

/-- Deflation when the active block is the single row `ilo` and `k` is stale. -/
theorem hqrDeflate_stale (p : HqrP F) (s : HqrS F) (g : Int → Int → F) (hs : Is2 s.h r cols L g)
    (hL : L < 2 ^ 31) (hcell : ∀ a b : Int, 1 ≤ a → a ≤ N → 1 ≤ b → b ≤ N → Cell r L a b)
    (hl : s.l = p.ilo) (hk : s.k = p.ilo + 1) (h1 : 1 ≤ p.ilo) (h2 : p.ilo + 1 ≤ N) :
    ∃ h' g', hqrDeflate p p.ilo s = pure { s with h := h', k := p.ilo + 1, l := p.ilo + 1 } ∧ Is2 h' r cols L g' := by
  obtain ⟨h', e, hh'⟩ := set2_is2 hs (hcell (p.ilo + 1) (p.ilo + 1 - 1) (by omega) h2 (by omega) (by omega)) hL zero
  refine ⟨h', _, ?_, hh'⟩
  unfold hqrDeflate
  rw [hl, irange_empty (by omega), List.reverse_nil, hqrSearch, hk]
  simp only [pure_bind]
  rw [if_pos (by omega), e, pure_bind]

/-- From the moment the active block is the single row `ilo`, the outer loop repeats for ever. -/
theorem hqrOuter_stuck (p : HqrP F) (fuel : Nat) (a : HqrA F) (v : FA F) (m : Int) (g : Int → Int → F)
    (hs : Is2 a.h r cols L g) (hL : L < 2 ^ 31)
    (hcell : ∀ a b : Int, 1 ≤ a → a ≤ N → 1 ≤ b → b ≤ N → Cell r L a b)
    (h1 : 1 ≤ p.ilo) (h2 : p.ilo + 1 ≤ N) :
    hqrOuter p fuel a v m (p.ilo + 1) p.ilo = R.timeout := by
  induction fuel generalizing a g with
  | zero => rfl
  | succ n ih =>
    obtain ⟨h', g', e, hh'⟩ := hqrDeflate_stale (N := N) p ⟨a.h, a.z, v, m, p.ilo + 1, p.ilo, 0⟩ g hs hL hcell rfl rfl h1 h2
    rw [hqrOuter, if_neg (by omega), hqrInner_now p _ _ _ _ _ e (by simp only; omega)]
    simp only [pure_bind]
    have hit : 300 ≤ p.itmax := by unfold HqrP.itmax; omega
    rw [if_neg (by omega)]
    unfold hqrRecord
    rw [if_neg (by omega), if_neg (by omega)]
    simp only [pure_bind]
    have e2 : p.ilo + 1 - 1 = p.ilo := by omega
    rw [e2]
    exact ih _ g' hh'

/-- With all subdiagonal elements of the active block negligible the outer loop gets there. -/
theorem hqrOuter_negl (p : HqrP F) (fuel : Nat) (a : HqrA F) (v : FA F) (m k i : Int) (g : Int → Int → F)
    (hs : Is2 a.h r cols L g) (hL : L < 2 ^ 31)
    (hcell : ∀ a b : Int, 1 ≤ a → a ≤ N → 1 ≤ b → b ≤ N → Cell r L a b)
    (h1 : 1 ≤ p.ilo) (h2 : p.ilo < i) (h3 : i ≤ N)
    (hn : ∀ k, p.ilo < k → k ≤ i → (abs (g k (k - 1)) ≤ᶠ p.smlnum) = true) :
    hqrOuter p fuel a v m k i = R.timeout := by
  induction fuel generalizing a g k i with
  | zero => rfl
  | succ n ih =>
    obtain ⟨h', e, hh'⟩ := hqrDeflate_negl (N := N) p i ⟨a.h, a.z, v, m, k, p.ilo, 0⟩ g hs hL hcell rfl h1 h2 h3
      (hn i h2 (le_refl _))
    rw [hqrOuter, if_neg (by omega), hqrInner_now p _ _ _ _ _ e (by simp only; omega)]
    simp only [pure_bind]
    have hit : 300 ≤ p.itmax := by unfold HqrP.itmax; omega
    rw [if_neg (by omega)]
    unfold hqrRecord
    rw [if_pos rfl, get2_is2 hh' (hcell i i (by omega) h3 (by omega) h3) hL]
    simp only [pure_bind]
    by_cases hlast : i = p.ilo + 1
    · subst hlast
      have e2 : p.ilo + 1 - 1 = p.ilo := by omega
      rw [e2]
      exact hqrOuter_stuck (N := N) p n _ v m _ hh' hL hcell h1 h3
    · refine ih _ i (i - 1) _ hh' (by omega) (by omega) fun k' hk1 hk2 => ?_
      have : upd2 g i (i - 1) zero k' (k' - 1) = g k' (k' - 1) := by
        unfold upd2; rw [if_neg (by omega)]
      rw [this]
      exact hn k' hk1 (by omega)

/-- Clearing below the subdiagonal leaves the subdiagonal alone. -/
theorem hqrClear_ok (ilo ihi : Int) (h : FA F) (g : Int → Int → F) (hs : Is2 h r cols L g) (hL : L < 2 ^ 31)
    (hcell : ∀ a b : Int, 1 ≤ a → a ≤ N → 1 ≤ b → b ≤ N → Cell r L a b) (h1 : 1 ≤ ilo) (h2 : ihi ≤ N) :
    ∃ h' g', hqrClear ilo ihi h = pure h' ∧ Is2 h' r cols L g' ∧ ∀ a b : Int, a ≤ b + 1 → g' a b = g a b := by
  have step : ∃ h' , (forUp ilo (ihi - 3) h fun h j => do
      let h ← h.set2 (j + 2) j zero
      h.set2 (j + 3) j zero) = pure h' ∧ ∃ g', Is2 h' r cols L g' ∧ ∀ a b : Int, a ≤ b + 1 → g' a b = g a b := by
    by_cases hlh : ilo ≤ ihi - 3 + 1
    · refine forUp_inv (P := fun _ h' => ∃ g', Is2 h' r cols L g' ∧ ∀ a b : Int, a ≤ b + 1 → g' a b = g a b) hlh ?_
        ⟨g, hs, fun _ _ _ => rfl⟩
      rintro j h' hj1 hj2 ⟨g', hh', hg'⟩
      obtain ⟨ha, ea, hha⟩ := set2_is2 hh' (hcell (j + 2) j (by omega) (by omega) (by omega) (by omega)) hL zero
      obtain ⟨hb, eb, hhb⟩ := set2_is2 hha (hcell (j + 3) j (by omega) (by omega) (by omega) (by omega)) hL zero
      refine ⟨hb, by rw [ea, pure_bind, eb], _, hhb, fun a b hab => ?_⟩
      unfold upd2
      rw [if_neg (by omega), if_neg (by omega), hg' a b hab]
    · exact ⟨h, forUp_empty (by omega) _ _, g, hs, fun _ _ _ => rfl⟩
  obtain ⟨h', e, g', hh', hg'⟩ := step
  unfold hqrClear
  rw [e, pure_bind]
  by_cases hc : ilo ≤ ihi - 2
  · obtain ⟨hb, eb, hhb⟩ := set2_is2 hh' (hcell ihi (ihi - 2) (by omega) (by omega) (by omega) (by omega)) hL zero
    refine ⟨hb, _, by rw [if_pos hc, eb], hhb, fun a b hab => ?_⟩
    unfold upd2
    rw [if_neg (by omega), hg' a b hab]
  · exact ⟨h', g', by rw [if_neg hc], hh', hg'⟩

end

section containers
variable {WR WI Z : Type} [ToFA F WR] [FromFA F WR] [ToFA F WI] [FromFA F WI] [ToFA F Z] [FromFA F Z]

/-- The threshold below which `dlahqr` treats a subdiagonal element as zero:
`safe minimum * (nh / precision)`, `nh = ihi - ilo + 1`. -/
def Spec.hqrSmall (ilo ihi : Int) : F := dlamch 'S' * (ofInt (ihi - ilo + 1) / dlamch 'P')

/-- **C44.** If every subdiagonal element of the active block `ilo..ihi` (of order at least two) is at most the
threshold in absolute value, `dlahqr` never returns: the model runs out of every amount of fuel.  Any arithmetic,
any kind of container for `wr`, `wi` and `z`, both job flags. -/
theorem C44_dlahqr_diverges (fuel : Nat) (wantt wantz : Bool) (n : Int) (hn : n ≠ 0) (ilo ihi : Nat) (h : FA F)
    (r c : Nat) (hh : IsMatrix h r c) (h1 : 1 ≤ ilo) (h2 : ilo < ihi) (h3 : ihi ≤ r) (h4 : ihi ≤ c)
    (hneg : ∀ k : Nat, ilo < k → k ≤ ihi →
      ∃ x, h.data[(k - 2) * r + (k - 1)]? = some x ∧ (abs x ≤ᶠ Spec.hqrSmall ilo ihi) = true)
    (ldh : Int) (wr : WR) (wi : WI) (iloz ihiz : Int) (z : Z) (ldz : Int) :
    dlahqr (F := F) fuel wantt wantz n ilo ihi h ldh wr wi iloz ihiz z ldz = R.timeout := by
  have hr0 : 0 < r := by omega
  have hs := is2_ofList hh.rows hr0
  rw [hh.length] at hs
  have hcell : ∀ a b : Int, 1 ≤ a → a ≤ (ihi : Int) → 1 ≤ b → b ≤ (ihi : Int) → Cell r (r * c) a b :=
    fun a b ha1 ha2 hb1 hb2 => cell_of_matrix ha1 (by omega) hb1 (by omega)
  obtain ⟨h', g', e, hh', hg'⟩ := hqrClear_ok (N := (ihi : Int)) (ilo : Int) ihi h _ hs hh.small hcell (by omega) (le_refl _)
  unfold dlahqr
  rw [if_neg hn]
  simp only
  rw [if_neg (by omega)]
  have key : hqrMain (F := F) fuel wantt wantz n ilo ihi ldh iloz ihiz
      ⟨h, ToFA.toFa wr, ToFA.toFa wi, ToFA.toFa z⟩ = R.timeout := by
    unfold hqrMain
    simp only [e, pure_bind]
    refine hqrOuter_negl (N := (ihi : Int)) (hqrParams wantt wantz n ilo ihi ldh iloz ihiz) fuel _ _ _ _ _ g' hh'
      hh.small hcell ?_ ?_ (le_refl _) ?_
    · show (1 : Int) ≤ ilo; omega
    · show (ilo : Int) < ihi; omega
    · intro k hk1 hk2
      change (ilo : Int) < k at hk1
      obtain ⟨k', rfl⟩ : ∃ k' : Nat, k = k' := ⟨k.toNat, by omega⟩
      obtain ⟨x, hx, hx'⟩ := hneg k' (by omega) (by omega)
      rw [hg' _ _ (by omega)]
      have : ofList2 r h.data (k' : Int) (k' - 1) = x := by
        unfold ofList2
        have e1 : ((k' : Int) - 1).toNat + ((k' : Int) - 1 - 1).toNat * r = (k' - 2) * r + (k' - 1) := by
          have a1 : ((k' : Int) - 1).toNat = k' - 1 := by omega
          have a2 : ((k' : Int) - 1 - 1).toNat = k' - 2 := by omega
          rw [a1, a2]; ring
        rw [List.getD_eq_getElem?_getD, e1, hx]; rfl
      rw [this]
      exact hx'
  show (hqrMain (F := F) fuel wantt wantz n ilo ihi ldh iloz ihiz
      ⟨h, ToFA.toFa wr, ToFA.toFa wi, ToFA.toFa z⟩ >>= _) = _
  rw [key]
  rfl

end containers

end Verif

import Verif.Lib.HqrTwo
import Verif.Props.HqrStuck

/-!
# The outer loop of `dlahqr` in exact arithmetic
-/

namespace Verif
open Scalar Spec XR

/-- `x` runs out of fuel, or returns normally with a value satisfying `P`; it never panics. -/
def Run {α : Type} (x : R α) (P : α → Prop) : Prop := ∀ p, x p = .timeout ∨ ∃ a, x p = .ok a ∧ P a

theorem Run.timeout {α : Type} {P : α → Prop} : Run (R.timeout : R α) P := fun _ => Or.inl rfl

theorem Run.of_tot {α : Type} {x : R α} {P : α → Prop} (h : Tot x P) : Run x P := fun p => Or.inr (h p)

theorem Run.mono {α : Type} {x : R α} {P Q : α → Prop} (h : Run x P) (hpq : ∀ a, P a → Q a) : Run x Q := by
  intro p
  rcases h p with e | ⟨a, e, ha⟩
  · exact Or.inl e
  · exact Or.inr ⟨a, e, hpq a ha⟩

theorem Run.bind {α β : Type} {x : R α} {f : α → R β} {P : α → Prop} {Q : β → Prop} (hx : Tot x P)
    (hf : ∀ a, P a → Run (f a) Q) : Run (x >>= f) Q := by
  intro p
  obtain ⟨a, e, ha⟩ := hx p
  rcases hf a ha p with e' | ⟨b, e', hb⟩
  · exact Or.inl (by rw [R.bind_apply, e]; exact e')
  · exact Or.inr ⟨b, by rw [R.bind_apply, e]; exact e', hb⟩

theorem Run.bindTot {α β : Type} {x : R α} {f : α → R β} {P : α → Prop} {Q : β → Prop} (hx : Run x P)
    (hf : ∀ a, P a → Tot (f a) Q) : Run (x >>= f) Q := by
  intro p
  rcases hx p with e | ⟨a, e, ha⟩
  · exact Or.inl (by rw [R.bind_apply, e])
  · obtain ⟨b, e', hb⟩ := hf a ha p
    exact Or.inr ⟨b, by rw [R.bind_apply, e]; exact e', hb⟩

section
variable {p : HqrP XR} {r c rz cz nr ni : Nat} {A : Matrix (Blk p.ilo p.ihi) (Blk p.ilo p.ihi) ℝ} {Z0 : ℤ → ℤ → ℝ} {zg0 : ℤ → ℤ → XR}
    {gr0 gi0 : ℤ → XR} {B u sm : ℝ}

theorem Out.mono {δ δ' : ℝ} {i : ℤ} {T : ℤ → ℤ → ℝ} {wr wi : ℤ → ℝ} {a : HqrA XR} (h : Out p r c rz cz nr ni A Z0 zg0 gr0 gi0 B δ i T wr wi a)
    (hd : δ ≤ δ') : Out p r c rz cz nr ni A Z0 zg0 gr0 gi0 B δ' i T wr wi a := by
  obtain ⟨Zq, hG, hZ⟩ := h.good
  exact ⟨h.ex, ⟨Zq, hG.mono hd, hZ⟩, h.bot, h.schur, h.wr1, h.wi1⟩

/-- The result of the outer loop. -/
def Res0 (p : HqrP XR) (r c rz cz nr ni : Nat) (A : Matrix (Blk p.ilo p.ihi) (Blk p.ilo p.ihi) ℝ) (Z0 : ℤ → ℤ → ℝ) (zg0 : ℤ → ℤ → XR)
    (gr0 gi0 : ℤ → XR) (B δ : ℝ) (q : HqrOut XR) : Prop :=
  (q.2 = 0 ∨ p.ilo < q.2 ∧ q.2 ≤ p.ihi) ∧ ∃ T wr wi, Out p r c rz cz nr ni A Z0 zg0 gr0 gi0 B δ (if q.2 = 0 then p.ilo - 1 else q.2) T wr wi q.1

theorem outer_ok (hd : Dim p r c rz cz) (hlh : p.ilo < p.ihi) (hld : p.ldh = r) (hn : p.n ≤ c) (hz : p.wantz = true → p.iloz ≤ p.ihiz) (hB0 : 0 ≤ B) (hB : B ≤ 2 ^ 500)
    (hu : p.ulp = fin u) (hu0 : 0 ≤ u) (hsm : p.smlnum = fin sm) (hsm0 : 0 ≤ sm) (fuel : Nat) (δ : ℝ) (i k m : ℤ) (hi : i ≤ p.ihi) (hi2 : p.ilo - 1 ≤ i)
    (hk : i = p.ilo → k = p.ilo + 1) (T : ℤ → ℤ → ℝ) (wr wi : ℤ → ℝ) (a : HqrA XR) (v : FA XR) (hv : ∃ x y w, Work v x y w)
    (hO : Out p r c rz cz nr ni A Z0 zg0 gr0 gi0 B δ i T wr wi a) :
    Run (hqrOuter p fuel a v m k i)
      (Res0 p r c rz cz nr ni A Z0 zg0 gr0 gi0 B (δ + (i - p.ilo + 1) * ((p.itmax + 1) * (5 * u * B + sm)))) := by
  have hε : 0 ≤ ((p.itmax : ℝ) + 1) * (5 * u * B + sm) := by positivity
  have hlo1 := hd.lo1
  induction fuel generalizing δ i k m T wr wi a v with
  | zero => exact Run.timeout
  | succ fuel ih =>
    rcases (by omega : i = p.ilo - 1 ∨ i = p.ilo ∨ p.ilo < i) with h0 | h0 | h0
    · unfold hqrOuter
      rw [if_pos (by omega)]
      refine Run.of_tot (Tot.pure ⟨Or.inl rfl, T, wr, wi, ?_⟩)
      rw [if_pos rfl, ← h0]
      exact hO.mono (by rw [h0]; push_cast; linarith)
    · obtain ⟨g, hh, _⟩ := hO.ex
      rw [h0, hk h0, hqrOuter_stuck (N := p.ihi) p (fuel + 1) a v m g hh hd.size (fun x y x1 x2 y1 y2 =>
        cell_rc x1 (by have := hd.hir; omega) y1 (by have := hd.hic; omega)) hd.lo1 (by omega)]
      exact Run.timeout
    · obtain ⟨hex, hgood, hbot, hS, hr1, hi1⟩ := hO
      unfold hqrOuter
      rw [if_neg (by omega)]
      refine Run.bind (inner_ok hd hB0 hB hu hu0 hsm hsm0 (T0 := T) hi p.itmax 0 δ ⟨a.h, a.z, v, m, k, p.ilo, 0⟩ h0 T
        ⟨hex, hgood, hv, le_refl _, fun h => absurd h (lt_irrefl _), fun h => hbot (by omega) h, fun _ _ _ _ => rfl⟩) fun q hq => ?_
      obtain ⟨e1, l1, -, i2, T', I, hconv⟩ := hq
      have hS' : Schur (i + 1) p.ihi T' wr wi := hS.congr (fun x y x1 y1 => I.same x y (by omega) (by omega)) (fun _ _ => rfl) (fun _ _ => rfl)
      have hO' : Out p r c rz cz nr ni A Z0 zg0 gr0 gi0 B (δ + (p.itmax + 1) * (5 * u * B + sm)) i T' wr wi { a with h := q.1.h, z := q.1.z } :=
        ⟨I.ex, I.good, fun _ h => I.bot h, hS', hr1, hi1⟩
      have hiR : (p.ilo : ℝ) < i := by exact_mod_cast h0
      by_cases hits : q.2 ≥ p.itmax
      · simp only [if_pos hits]
        refine Run.of_tot (Tot.pure ⟨Or.inr ⟨h0, hi⟩, T', wr, wi, ?_⟩)
        rw [if_neg (show i ≠ 0 by omega)]
        refine hO'.mono ?_
        nlinarith
      · simp only [if_neg hits]
        obtain ⟨hl, hnz⟩ := hconv (by omega)
        have hlo := I.lo
        have step : Tot (hqrRecord p i q.1.l { a with h := q.1.h, z := q.1.z }) fun a' => ∃ T' wr' wi',
            Out p r c rz cz nr ni A Z0 zg0 gr0 gi0 B (δ + (p.itmax + 1) * (5 * u * B + sm)) (q.1.l - 1) T' wr' wi' a' := by
          rcases (by omega : q.1.l = i ∨ q.1.l = i - 1) with hc | hc
          · rw [hc]
            exact (record_one hd hO' (by omega) hi (fun h => by have := I.top; rw [hc] at this; exact this h)).mono
              fun _ ⟨T1, w1, w2, h, _⟩ => ⟨T1, w1, w2, h⟩
          · rw [hc, show i - 1 - 1 = i - 2 by ring]
            exact (record_two hd hld hn hz hB hO' h0 hi (fun h => by have := I.top; rw [hc, show i - 1 - 1 = i - 2 by ring] at this; exact this h)
              (hnz i (by omega) (le_refl _))).mono fun _ ⟨T1, w1, w2, h, _⟩ => ⟨T1, w1, w2, h⟩
        refine Run.bind step fun a' ha' => ?_
        obtain ⟨T2, wr2, wi2, O2⟩ := ha'
        refine (ih _ (q.1.l - 1) q.1.k q.1.m (by omega) (by omega) (by omega) T2 wr2 wi2 a' q.1.v I.work O2).mono fun s hs => ?_
        obtain ⟨s1, T3, wr3, wi3, O3⟩ := hs
        refine ⟨s1, T3, wr3, wi3, O3.mono ?_⟩
        have : ((q.1.l : ℤ) : ℝ) ≤ i := by exact_mod_cast l1
        push_cast
        nlinarith

/-- On an active block of order two whose subdiagonal element is not negligible the outer loop finishes in two rounds. -/
theorem outer_two_at (hd : Dim p r c rz cz) {i : ℤ} (hii : i = p.ilo + 1) (hih : i ≤ p.ihi) (hld : p.ldh = r) (hn : p.n ≤ c) (hz : p.wantz = true → p.iloz ≤ p.ihiz)
    (hB0 : 0 ≤ B) (hB : B ≤ 2 ^ 500)
    (hu : p.ulp = fin u) (hu0 : 0 ≤ u) (hsm : p.smlnum = fin sm) (hsm0 : 0 ≤ sm) (fuel : Nat) (δ : ℝ) (k m : ℤ)
    (T : ℤ → ℤ → ℝ) (wr wi : ℤ → ℝ) (a : HqrA XR) (v : FA XR)
    (hO : Out p r c rz cz nr ni A Z0 zg0 gr0 gi0 B δ i T wr wi a) (hbig : 2 * u * B + sm < |T i p.ilo|) :
    Tot (hqrOuter p (fuel + 2) a v m k i) fun q => q.2 = 0 ∧ ∃ T' wr' wi', Out p r c rz cz nr ni A Z0 zg0 gr0 gi0 B δ (p.ilo - 1) T' wr' wi' q.1 ∧
      (∀ x y, i < x → i < y → T' x y = T x y) ∧ (∀ x y, i < x → x ≤ p.ihi → p.ilo ≤ y → y ≤ i → T' x y = 0) := by
  have hlo1 := hd.lo1
  obtain ⟨⟨g, hh, hR⟩, ⟨Zq, hG, hZ⟩, hbot, hS, hr1, hi1⟩ := id hO
  have hne : T i (i - 1) ≠ 0 := by
    rw [show i - 1 = p.ilo by omega]
    intro h0
    rw [h0, abs_zero] at hbig
    have : 0 ≤ 2 * u * B := by positivity
    linarith
  have hdef : Tot (hqrDeflate p i ⟨a.h, a.z, v, m, k, p.ilo, 0⟩) fun s => s = ⟨a.h, a.z, v, m, p.ilo, p.ilo, 0⟩ := by
    unfold hqrDeflate
    refine Tot.bind (search_ok (i := i) (l := p.ilo) (e := i) hd hB0 hu hu0 hsm hsm0 (le_refl _) hih hh hR (fun a b a1 a2 b1 b2 => hG.entry ⟨a1, a2⟩ ⟨b1, b2⟩)
      (by omega) (le_refl _) (fun j h1 h2 => by omega) k) fun k' hk => ?_
    obtain ⟨k1, k2, knz, kb⟩ := hk
    have hk' : k' = p.ilo := by
      by_contra hc
      have h1 := kb (by omega)
      rw [show k' = i by omega, show i - 1 = p.ilo by omega] at h1
      linarith
    rw [if_neg (by omega), pure_bind, hk']
    exact Tot.pure rfl
  have hinn : Tot (hqrInner p i p.itmax 0 ⟨a.h, a.z, v, m, k, p.ilo, 0⟩) fun q => q = (⟨a.h, a.z, v, m, p.ilo, p.ilo, 0⟩, 0) := by
    rw [hqrInner.eq_def]
    refine Tot.bind hdef fun s hs => ?_
    rw [hs]
    simp only
    rw [if_pos (by omega)]
    exact Tot.pure rfl
  rw [hqrOuter.eq_def]
  simp only
  rw [if_neg (by omega)]
  refine Tot.bind hinn fun q hq => ?_
  rw [hq]
  simp only
  have hit : ¬ 0 ≥ p.itmax := by
    unfold HqrP.itmax
    have := le_max_right ((p.ihi - p.ilo + 1).toNat) 10
    omega
  rw [if_neg hit]
  have hrec := record_two hd hld hn hz hB hO (by omega) hih (fun h => by omega) hne
  rw [show i - 1 = p.ilo by omega] at hrec
  refine Tot.bind hrec fun a' ha' => ?_
  obtain ⟨T', wr', wi', h1, h2⟩ := ha'
  rw [hqrOuter.eq_def]
  simp only
  rw [if_pos (by omega)]
  exact Tot.pure ⟨rfl, T', wr', wi', by rw [show p.ilo - 1 = i - 2 by omega]; exact h1, h2⟩

theorem outer_two (hd : Dim p r c rz cz) (hlh : p.ihi = p.ilo + 1) (hld : p.ldh = r) (hn : p.n ≤ c) (hz : p.wantz = true → p.iloz ≤ p.ihiz) (hB0 : 0 ≤ B) (hB : B ≤ 2 ^ 500)
    (hu : p.ulp = fin u) (hu0 : 0 ≤ u) (hsm : p.smlnum = fin sm) (hsm0 : 0 ≤ sm) (fuel : Nat) (δ : ℝ) (k m : ℤ)
    (T : ℤ → ℤ → ℝ) (wr wi : ℤ → ℝ) (a : HqrA XR) (v : FA XR)
    (hO : Out p r c rz cz nr ni A Z0 zg0 gr0 gi0 B δ p.ihi T wr wi a) (hbig : 2 * u * B + sm < |T p.ihi p.ilo|) :
    Tot (hqrOuter p (fuel + 2) a v m k p.ihi) fun q => q.2 = 0 :=
  (outer_two_at hd hlh (le_refl _) hld hn hz hB0 hB hu hu0 hsm hsm0 fuel δ k m T wr wi a v hO hbig).mono fun _ h => h.1

end

/-- Clearing below the subdiagonal, exactly. -/
theorem hqrClear_exact {F : Type} [Scalar F] {r c : Nat} (ilo ihi : Int) (h : FA F) (g : Int → Int → F) (hs : Is2 h r c (r * c) g) (hL : r * c < 2 ^ 31)
    (h1 : 1 ≤ ilo) (h2 : ihi ≤ r) (h3 : ihi ≤ c) :
    ∃ h', hqrClear ilo ihi h = pure h' ∧ Is2 h' r c (r * c) fun a b =>
      if ilo ≤ b ∧ a ≤ ihi ∧ (a = b + 2 ∨ a = b + 3) then zero else g a b := by
  have hcell : ∀ a b : Int, 1 ≤ a → a ≤ ihi → 1 ≤ b → b ≤ ihi → Cell r (r * c) a b := fun a b a1 a2 b1 b2 =>
    cell_rc a1 (by omega) b1 (by omega)
  by_cases hlh : ilo ≤ ihi - 2
  · have step : ∃ h' , (forUp ilo (ihi - 3) h fun h j => do
        let h ← h.set2 (j + 2) j zero
        h.set2 (j + 3) j zero) = pure h' ∧ Is2 h' r c (r * c) fun a b =>
          if ilo ≤ b ∧ b ≤ ihi - 3 ∧ (a = b + 2 ∨ a = b + 3) then zero else g a b := by
      obtain ⟨h', e, hh⟩ := forUp_inv (P := fun j (h' : FA F) => Is2 h' r c (r * c) fun a b =>
          if ilo ≤ b ∧ b < j ∧ (a = b + 2 ∨ a = b + 3) then zero else g a b) (f := fun (h : FA F) j => do
        let h ← h.set2 (j + 2) j zero
        h.set2 (j + 3) j zero) (lo := ilo) (hi := ihi - 3) (s := h) (by omega) (by
          intro j h' hj1 hj2 hh'
          obtain ⟨ha, ea, hha⟩ := set2_is2 hh' (hcell (j + 2) j (by omega) (by omega) (by omega) (by omega)) hL zero
          obtain ⟨hb, eb, hhb⟩ := set2_is2 hha (hcell (j + 3) j (by omega) (by omega) (by omega) (by omega)) hL zero
          refine ⟨hb, by rw [ea, pure_bind, eb], hhb.congr (by omega) fun a b _ _ _ => ?_⟩
          unfold upd2
          by_cases c1 : a = j + 3 ∧ b = j
          · rw [if_pos c1, if_pos (by omega)]
          · rw [if_neg c1]
            by_cases c2 : a = j + 2 ∧ b = j
            · rw [if_pos c2, if_pos (by omega)]
            · rw [if_neg c2]
              beta_reduce
              by_cases c3 : ilo ≤ b ∧ b < j ∧ (a = b + 2 ∨ a = b + 3)
              · rw [if_pos c3, if_pos (by omega)]
              · rw [if_neg c3, if_neg (by omega)])
        (hs.congr (by omega) fun a b _ _ _ => by rw [if_neg (by omega)])
      refine ⟨h', e, hh.congr (by omega) fun a b _ _ _ => ?_⟩
      by_cases c3 : ilo ≤ b ∧ b < ihi - 3 + 1 ∧ (a = b + 2 ∨ a = b + 3)
      · rw [if_pos c3, if_pos (by omega)]
      · rw [if_neg c3, if_neg (by omega)]
    obtain ⟨h', e, hh'⟩ := step
    obtain ⟨hb, eb, hhb⟩ := set2_is2 hh' (hcell ihi (ihi - 2) (by omega) (by omega) (by omega) (by omega)) hL zero
    unfold hqrClear
    refine ⟨hb, by rw [e, pure_bind, if_pos hlh, eb], hhb.congr (by omega) fun a b _ _ _ => ?_⟩
    unfold upd2
    by_cases c1 : a = ihi ∧ b = ihi - 2
    · rw [if_pos c1, if_pos (by omega)]
    · rw [if_neg c1]
      beta_reduce
      by_cases c3 : ilo ≤ b ∧ b ≤ ihi - 3 ∧ (a = b + 2 ∨ a = b + 3)
      · rw [if_pos c3, if_pos (by omega)]
      · rw [if_neg c3, if_neg (by omega)]
  · unfold hqrClear
    refine ⟨h, by rw [forUp_empty (by omega), pure_bind, if_neg hlh], ?_⟩
    by_cases hr : 0 < r
    · exact hs.congr hr fun a b _ _ _ => by rw [if_neg (by omega)]
    · have : (fun a b => if ilo ≤ b ∧ a ≤ ihi ∧ (a = b + 2 ∨ a = b + 3) then zero else g a b) = g := by
        funext a b; rw [if_neg (by omega)]
      rw [this]; exact hs

end Verif

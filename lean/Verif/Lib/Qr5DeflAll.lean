import Verif.Lib.Qr5Defl

/-!
# Every convergence test of a sweep of `dlaqr5` survives the rest of the sweep

Any scalar arithmetic, no accumulation.
-/

namespace Verif
open Scalar

variable {F : Type} [Scalar F]

namespace Spec

/-- The criterion of Ahues and Tisseur for `(k + 1, k)` with the two diagonal elements as scale. -/
def ahuesTisseurDiag (ulp sml : F) (k : Int) (H : Int → Int → F) : Bool :=
  let sub := abs (H (k + 1) k)
  let sup := abs (H k (k + 1))
  let d := abs (H (k + 1) (k + 1))
  let e := abs (H k k - H (k + 1) (k + 1))
  let s := fmax d e + fmax sub sup
  let t := fmin d e * (fmax d e / s)
  (sub ≤ᶠ fmax sml (ulp * (abs (H k k) + abs (H (k + 1) (k + 1))))) && ((t =ᶠ zero) || (fmin sub sup * (fmax sub sup / s) ≤ᶠ fmax sml (ulp * t)))

end Spec
open Spec

/-- The element `(k + 1, k)` is zero, or its diagonal neighbours are both zero, or it does not satisfy the criterion. -/
def DeflatedD (p : Qr5P F) (r : Nat) (k : Int) (h : FA F) : Prop :=
  cellOf r h (k + 1) k = zero ∨ (cellOf r h (k + 1) k =ᶠ zero) = true ∨ (abs (cellOf r h k k) + abs (cellOf r h (k + 1) (k + 1)) =ᶠ zero) = true ∨
    ahuesTisseurDiag p.ulp p.smlnum k (cellOf r h) = false

section
variable {p : Qr5P F} {r c ldv cv rz cz ru cu rv cwv rh cwh : Nat}

theorem DeflatedD.keep {k bd : Int} {h h' : FA F} (hd : DeflatedD p r k h) (hk : 1 ≤ k) (hr : k + 1 ≤ r) (hb : Below bd h h') (hbd : k * (r : Int) + k < bd) :
    DeflatedD p r k h' := by
  have e0 : 0 ≤ (k - 1) * (r : Int) := Int.mul_nonneg (by omega) (by omega)
  have e1 : k * (r : Int) = (k - 1) * r + r := by ring
  have c11 : cellOf r h' k k = cellOf r h k k := hb.cell (by omega) (by omega)
  have c21 : cellOf r h' (k + 1) k = cellOf r h (k + 1) k := hb.cell (by omega) (by omega)
  have c12 : cellOf r h' k (k + 1) = cellOf r h k (k + 1) := hb.cell (by rw [show k + 1 - 1 = k by ring]; omega) (by rw [show k + 1 - 1 = k by ring]; omega)
  have c22 : cellOf r h' (k + 1) (k + 1) = cellOf r h (k + 1) (k + 1) := hb.cell (by rw [show k + 1 - 1 = k by ring]; omega) (by rw [show k + 1 - 1 = k by ring]; omega)
  unfold DeflatedD ahuesTisseurDiag at hd ⊢
  rw [c11, c12, c21, c22]
  exact hd

theorem qr5Negligible_all {k : Int} (k1 : 1 ≤ k) (k2 : k + 1 ≤ r) (k3 : k + 1 ≤ c) {h : FA F} (hs : HqrShape h r c) : Post (qr5Negligible p k h) (DeflatedD p r k) := by
  have hz : Post (h.set2 (k + 1) k zero) (DeflatedD p r k) := (cell_set hs (by omega) (by omega) (by omega) (by omega) zero).mono fun h' e => Or.inl e.2
  unfold qr5Negligible
  simp only
  rw [get2_cellOf hs (by omega) (by omega) (by omega) (by omega), pure_bind]
  refine Post.ite (fun _ => ?_) fun h0 => Post.pure (Or.inr (Or.inl (by simpa using h0)))
  rw [get2_cellOf hs (by omega) (by omega) (by omega) (by omega), pure_bind, get2_cellOf hs (by omega) (by omega) (by omega) (by omega), pure_bind]
  by_cases ht : (abs (cellOf r h k k) + abs (cellOf r h (k + 1) (k + 1)) =ᶠ zero) = true
  · have hh : Post (pure h : R (FA F)) (DeflatedD p r k) := Post.pure (Or.inr (Or.inr (Or.inl ht)))
    rw [if_pos ht]
    repeat' first
      | exact hz
      | exact hh
      | refine Post.ite (fun _ => ?_) fun _ => ?_
      | refine Post.bind' fun _ => ?_
  · rw [if_neg ht]
    refine Post.ite (fun _ => ?_) fun hn => Post.pure (Or.inr (Or.inr (Or.inr ?_)))
    · rw [get2_cellOf hs (by omega) (by omega) (by omega) (by omega), pure_bind]
      refine Post.ite (fun _ => hz) fun hn => Post.pure (Or.inr (Or.inr (Or.inr ?_)))
      unfold ahuesTisseurDiag
      simp only
      rw [Bool.not_eq_true] at hn
      rw [hn, Bool.and_false]
    · unfold ahuesTisseurDiag
      simp only
      rw [Bool.not_eq_true] at hn
      rw [hn, Bool.false_and]

/-! ### What a step leaves alone -/

/-- Position of the element below the diagonal in column `k`. -/
def bdOf (r : Nat) (k : Int) : Int := (k - 1) * r + k

theorem bdOf_nonneg {k : Int} (k1 : 1 ≤ k) : 0 ≤ bdOf r k := by
  have : 0 ≤ (k - 1) * (r : Int) := Int.mul_nonneg (by omega) (by omega)
  unfold bdOf; omega

theorem bdOf_le {k : Int} (k2 : k + 1 ≤ r) : bdOf r k ≤ (k + 1 - 1) * (r : Int) - 1 := by
  have : (k + 1 - 1) * (r : Int) = (k - 1) * r + r := by ring
  unfold bdOf; omega

theorem set2_bd {k a b : Int} {h : FA F} (hs : HqrShape h r c) (k1 : 1 ≤ k) (a1 : k + 1 ≤ a) (a2 : a ≤ r) (b1 : k ≤ b) (b2 : b ≤ c) (x : F) :
    Post (h.set2 a b x) (Below (bdOf r k) h) := by
  have : (k - 1) * (r : Int) ≤ (b - 1) * r := Int.mul_le_mul_of_nonneg_right (by omega) (by omega)
  exact set2_below hs (by omega) a2 (by omega) b2 (by omega) (bdOf_nonneg k1) (by unfold bdOf; omega) x

theorem modify2_bd {k a b : Int} {h : FA F} (hs : HqrShape h r c) (k1 : 1 ≤ k) (a1 : k + 1 ≤ a) (a2 : a ≤ r) (b1 : k ≤ b) (b2 : b ≤ c) (f : F → F) :
    Post (h.modify2 a b f) (Below (bdOf r k) h) := by
  have : (k - 1) * (r : Int) ≤ (b - 1) * r := Int.mul_le_mul_of_nonneg_right (by omega) (by omega)
  exact modify2_below hs (by omega) a2 (by omega) b2 (by omega) (bdOf_nonneg k1) (by unfold bdOf; omega) f

/-- `Below` for a computation on `h` followed by another. -/
theorem Post.below_bind {bd : Int} {h : FA F} {x : R (FA F)} {f : FA F → R (FA F)} (hs : HqrShape h r c) (hx : Post x (Below bd h)) (hf : ∀ h', HqrShape h' r c → Post (f h') (Below bd h')) :
    Post (x >>= f) (Below bd h) := Post.bind hx fun h' hb => (hf h' (hs.same hb.1)).mono fun _ hb' => hb.trans hb'

theorem qr5Negligible_bd {k : Int} (k1 : 1 ≤ k) (k2 : k + 1 ≤ r) (k3 : k + 1 ≤ c) {h : FA F} (hs : HqrShape h r c) : Post (qr5Negligible p k h) (Below (bdOf r k) h) := by
  have hz : Post (h.set2 (k + 1) k zero) (Below (bdOf r k) h) := set2_bd hs k1 (by omega) (by omega) (by omega) (by omega) zero
  have hh : Post (pure h : R (FA F)) (Below (bdOf r k) h) := Post.pure (Below.refl _ h)
  unfold qr5Negligible
  simp only
  repeat' first
    | exact hz
    | exact hh
    | refine Post.ite (fun _ => ?_) fun _ => ?_
    | refine Post.bind' fun _ => ?_

/-- The first component of a triple or pair. -/
theorem qr5Collapsed_bd {k m : Int} {beta : F} {s : Qr5S F} {h v : FA F} (hs : HqrShape h r c) (k1 : 1 ≤ k) (k2 : k + 3 ≤ r) (k3 : k ≤ c) :
    Post (qr5Collapsed p k m beta s h v) fun q => Below (bdOf r k) h q.1 := by
  unfold qr5Collapsed
  refine Post.bind' fun _ => Post.bind' fun _ => Post.bind' fun _ => ?_
  refine Post.bind' fun _ => Post.bind' fun _ => Post.bind' fun _ => Post.bind' fun _ => Post.bind' fun _ => Post.bind' fun _ => ?_
  refine Post.ite (fun _ => ?_) fun _ => ?_
  · refine Post.bind (set2_bd hs k1 (by omega) (by omega) (by omega) (by omega) _) fun ha b1 => ?_
    refine Post.bind (set2_bd (hs.same b1.1) k1 (by omega) (by omega) (by omega) (by omega) _) fun hb b2 => ?_
    refine Post.bind (set2_bd ((hs.same b1.1).same b2.1) k1 (by omega) (by omega) (by omega) (by omega) _) fun hc b3 => ?_
    exact Post.pure ((b1.trans b2).trans b3)
  · refine Post.bind (modify2_bd hs k1 (by omega) (by omega) (by omega) (by omega) _) fun ha b1 => ?_
    refine Post.bind (set2_bd (hs.same b1.1) k1 (by omega) (by omega) (by omega) (by omega) _) fun hb b2 => ?_
    refine Post.bind (set2_bd ((hs.same b1.1).same b2.1) k1 (by omega) (by omega) (by omega) (by omega) _) fun hc b3 => ?_
    exact Post.bind' fun _ => Post.bind' fun _ => Post.bind' fun _ => Post.pure ((b1.trans b2).trans b3)

theorem qr5Refl3_bd {k m : Int} {s : Qr5S F} (hs : HqrShape s.h r c) (k0 : k ≠ p.ktop - 1) (k1 : 1 ≤ k) (k2 : k + 3 ≤ r) (k3 : k + 2 ≤ c) :
    Post (qr5Refl3 p k m s) fun q => Below (bdOf r k) s.h q.1 := by
  unfold qr5Refl3
  rw [if_neg k0]
  refine Post.bind' fun _ => Post.bind' fun _ => Post.bind' fun _ => Post.bind' fun _ => ?_
  refine Post.bind (set2_bd hs k1 (by omega) (by omega) (by omega) (by omega) _) fun ha b1 => ?_
  refine Post.bind (set2_bd (hs.same b1.1) k1 (by omega) (by omega) (by omega) (by omega) _) fun hb b2 => ?_
  refine Post.bind (modify2_bd ((hs.same b1.1).same b2.1) k1 (by omega) (by omega) (by omega) (by omega) _) fun hc b3 => ?_
  have b := (b1.trans b2).trans b3
  have s3 := hs.same b.1
  refine Post.bind' fun _ => Post.bind' fun _ => Post.bind' fun _ => Post.bind' fun _ => Post.bind' fun _ => Post.bind' fun q => ?_
  obtain ⟨beta, v⟩ := q
  refine Post.bind' fun _ => Post.bind' fun _ => Post.bind' fun _ => Post.ite (fun _ => ?_) fun _ => ?_
  · refine Post.bind (set2_bd s3 k1 (by omega) (by omega) (by omega) (by omega) _) fun ha c1 => ?_
    refine Post.bind (set2_bd (s3.same c1.1) k1 (by omega) (by omega) (by omega) (by omega) _) fun hb c2 => ?_
    refine Post.bind (set2_bd ((s3.same c1.1).same c2.1) k1 (by omega) (by omega) (by omega) (by omega) _) fun hc c3 => ?_
    exact Post.pure (b.trans ((c1.trans c2).trans c3))
  · exact (qr5Collapsed_bd s3 k1 k2 (by omega)).mono fun q hq => b.trans hq

theorem qr5Bmp22Refl_bd {k m : Int} {s : Qr5S F} (hs : HqrShape s.h r c) (k0 : k ≠ p.ktop - 1) (k1 : 1 ≤ k) (k2 : k + 2 ≤ r) (k3 : k ≤ c) :
    Post (qr5Bmp22Refl p k m s) fun q => Below (bdOf r k) s.h q.1 := by
  unfold qr5Bmp22Refl
  rw [if_neg k0]
  refine Post.bind' fun _ => Post.bind' fun _ => Post.bind' fun _ => Post.bind' fun q => ?_
  obtain ⟨beta, v⟩ := q
  refine Post.bind (set2_bd hs k1 (by omega) (by omega) (by omega) (by omega) _) fun ha b1 => ?_
  refine Post.bind (set2_bd (hs.same b1.1) k1 (by omega) (by omega) (by omega) (by omega) _) fun hb b2 => ?_
  exact Post.pure (b1.trans b2)

/-- Step `k` of the chase on `h`: it leaves everything before the subdiagonal element of column `k` alone, and tests that element. -/
def Step (p : Qr5P F) (r : Nat) (k : Int) (h h' : FA F) : Prop := Below (bdOf r k) h h' ∧ DeflatedD p r k h'

theorem Step.then {k bd : Int} {h h' h'' : FA F} (x : Step p r k h h') (k1 : 1 ≤ k) (k2 : k + 1 ≤ r) (y : Below bd h' h'') (hbd : k * (r : Int) + k < bd) : Step p r k h h'' := by
  refine ⟨x.1.trans (y.mono ?_), x.2.keep k1 k2 y hbd⟩
  have : k * (r : Int) = (k - 1) * r + r := by ring
  unfold bdOf; omega

theorem qr5Bulge_step (hf : Fit5 p r c ldv cv rz cz ru cu rv cwv rh cwh) {jtop krcol : Int} (k1 : p.ktop ≤ krcol) (k2 : krcol + 3 ≤ p.kbot) (jt : 1 ≤ jtop)
    {s : Qr5S F} (hs : HqrShape s.h r c) : Post (qr5Bulge p jtop krcol s 1) fun s' => Step p r krcol s.h s'.h := by
  have h1 := hf.top; have h2 := hf.kn; have h3 := hf.nr; have h4 := hf.nc
  unfold qr5Bulge
  simp only [show krcol + 2 * ((1 : Int) - 1) = krcol by ring]
  refine Post.bind (qr5Refl3_bd hs (by omega) (by omega) (by omega) (by omega)) fun q hq => ?_
  obtain ⟨h, v, vt⟩ := q
  simp only at hq ⊢
  have s0 := hs.same hq.1
  refine Post.bind' fun _ => Post.bind' fun _ => Post.bind' fun _ => ?_
  refine Post.bind (refl3Cols_below (l := krcol + 1) s0 (by omega) (by omega) (by omega) (by omega) (by omega) (by omega) (by omega) (by omega) (by omega) (by omega)) fun ha b1 => ?_
  have s1 := s0.same b1.1
  refine Post.bind (refl3Rows_below (l := krcol + 1) s1 (by omega) (by omega) (by omega) (by omega) (by omega) (by omega) (by omega) (by omega) (by omega) (by omega)) fun hb b2 => ?_
  have s2 := s1.same b2.1
  rw [if_neg (by omega)]
  have b := hq.trans ((b1.trans b2).mono (bdOf_le (by omega)))
  refine Post.bind ((qr5Negligible_bd (by omega) (by omega) (by omega) s2).and (qr5Negligible_all (by omega) (by omega) (by omega) s2)) fun h' hh' => Post.pure ⟨b.trans hh'.1, hh'.2⟩

theorem qr5Left_below (hf : Fit5 p r c ldv cv rz cz ru cu rv cwv rh cwh) {krcol jbot : Int} (k1 : p.ktop - 1 ≤ krcol) (k2 : krcol + 3 ≤ p.kbot) (jb : jbot ≤ c)
    {s : Qr5S F} (hs : HqrShape s.h r c) : Post (qr5Left p krcol jbot s 1) fun s' => Below ((krcol + 2 - 1) * (r : Int) - 1) s.h s'.h := by
  have h1 := hf.top; have h2 := hf.kn; have h3 := hf.nr; have h4 := hf.nc
  unfold qr5Left
  simp only [show krcol + 2 * ((1 : Int) - 1) = krcol by ring]
  refine Post.bind' fun _ => Post.bind' fun _ => Post.bind' fun _ => ?_
  refine Post.bind (refl3Rows_below (l := krcol + 2) hs (by omega) (by omega) (by omega) (by omega) (by omega) (by omega) (by omega) (by omega) (by omega) (by omega)) fun hb b2 => ?_
  exact Post.pure b2

theorem qr5Bmp22_step (hf : Fit5 p r c ldv cv rz cz ru cu rv cwv rh cwh) (ha : p.accum = false) {incol jtop jbot krcol : Int} (k1 : p.ktop ≤ krcol) (k2 : krcol + 2 = p.kbot)
    (jt : 1 ≤ jtop) (jb : jbot ≤ c) {s : Qr5S F} (hs : HqrShape s.h r c) : Post (qr5Bmp22 p incol jtop jbot krcol 1 s) fun s' => Step p r krcol s.h s'.h := by
  have h1 := hf.top; have h2 := hf.kn; have h3 := hf.nr; have h4 := hf.nc
  unfold qr5Bmp22
  simp only [show krcol + 2 * ((1 : Int) - 1) = krcol by ring]
  refine Post.bind (qr5Bmp22Refl_bd hs (by omega) (by omega) (by omega) (by omega)) fun q hq => ?_
  obtain ⟨h, v⟩ := q
  simp only at hq ⊢
  have s0 := hs.same hq.1
  refine Post.bind' fun _ => Post.bind' fun _ => ?_
  refine Post.bind (refl2Cols_below (l := krcol + 1) s0 (by omega) (by omega) (by omega) (by omega) (by omega) (by omega) (by omega) (by omega)) fun ha' b1 => ?_
  have s1 := s0.same b1.1
  refine Post.bind (refl2Rows_below (l := krcol + 1) s1 (by omega) (by omega) (by omega) (by omega) (by omega) (by omega) (by omega) (by omega)) fun hb b2 => ?_
  have s2 := s1.same b2.1
  rw [if_pos (by omega)]
  have b := hq.trans ((b1.trans b2).mono (bdOf_le (by omega)))
  refine Post.bind ((qr5Negligible_bd (by omega) (by omega) (by omega) s2).and (qr5Negligible_all (by omega) (by omega) (by omega) s2)) fun h' hh' => ?_
  rw [ha]
  simp only [Bool.false_eq_true, if_false]
  exact Post.ite (fun _ => Post.bind' fun _ => Post.pure ⟨b.trans hh'.1, hh'.2⟩) fun _ => Post.pure ⟨b.trans hh'.1, hh'.2⟩

theorem forDown_11 {σ : Type} (s : σ) (f : σ → Int → R σ) : forDown 1 1 s f = f s 1 := by
  have : (irange 1 1).reverse = [1] := by decide
  unfold forDown
  rw [this, List.foldlM_cons]
  exact bind_pure (f s 1)

theorem qr5Krcol_step (hf : Fit5 p r c ldv cv rz cz ru cu rv cwv rh cwh) (ha : p.accum = false) {incol jtop krcol : Int} (k1 : p.ktop ≤ krcol) (k2 : krcol + 2 ≤ p.kbot)
    (jt : 1 ≤ jtop) {s : Qr5S F} (hs : HqrShape s.h r c) : Post (qr5Krcol p incol jtop s krcol) fun s' => Step p r krcol s.h s'.h := by
  have h1 := hf.top; have h2 := hf.kn; have h3 := hf.nr; have h4 := hf.nc; have h7 := hf.lt
  have hmt : max 1 ((p.ktop - krcol).tdiv 2 + 1) = 1 := by
    have := tdiv2_nonpos (x := p.ktop - krcol) (by omega)
    omega
  have hjb : (if p.wantt = true then p.n else p.kbot) ≤ (c : Int) := by split <;> omega
  have hz : ∀ mb (s' : Qr5S F), Post (if p.wantz = true then forDown mb 1 s' (qr5AccZ p krcol) else pure s') fun s'' => s''.h = s'.h := fun mb s' =>
    Post.ite (fun _ => Post.foldlM (P := fun s'' : Qr5S F => s''.h = s'.h) _ rfl fun s'' m _ e => (qr5AccZ_h krcol m s'').mono fun _ e' => e'.trans e) fun _ => Post.pure rfl
  unfold qr5Krcol
  simp only [hmt, hf.nb]
  rw [ha]
  simp only [Bool.false_eq_true, if_false]
  generalize (if p.wantt = true then p.n else p.kbot) = jbot at hjb
  rcases (by omega : krcol + 2 = p.kbot ∨ krcol + 3 ≤ p.kbot) with hk | hk
  · have hmb : min 1 ((p.kbot - krcol - 1).tdiv 2) = 0 := by rw [tdiv2_small (by omega) (by omega)]; rfl
    rw [hmb, if_pos ⟨by norm_num, by omega⟩]
    refine Post.bind (qr5Bmp22_step hf ha k1 hk jt hjb hs) fun s1 hs1 => ?_
    rw [forDown_empty (by norm_num), pure_bind, forDown_empty (by norm_num), pure_bind]
    exact (hz 0 s1).mono fun s2 e => e ▸ hs1
  · have hmb : min 1 ((p.kbot - krcol - 1).tdiv 2) = 1 := by
      have := tdiv2_pos (x := p.kbot - krcol - 1) (by omega)
      omega
    rw [hmb, if_neg (by simp), pure_bind, forDown_11]
    refine Post.bind (qr5Bulge_step hf k1 hk jt hs) fun s1 hs1 => ?_
    rw [forDown_11]
    refine Post.bind (qr5Left_below hf (by omega) hk hjb (hs.same hs1.1.1)) fun s2 hs2 => ?_
    have e : (krcol + 2 - 1) * (r : Int) = krcol * r + r := by ring
    have st := hs1.then (by omega) (by omega) hs2 (by omega)
    exact (hz 1 s2).mono fun s3 e => e ▸ st

/-! ### All steps -/

/-- All elements tested before step `k` are still as the test left them. -/
def AllBefore (p : Qr5P F) (r : Nat) (k : Int) (h : FA F) : Prop := ∀ i, p.ktop ≤ i → i < k → DeflatedD p r i h

theorem AllBefore.step (hf : Fit5 p r c ldv cv rz cz ru cu rv cwv rh cwh) {k : Int} {h h' : FA F} (x : AllBefore p r k h) (k1 : p.ktop ≤ k) (k2 : k + 2 ≤ p.kbot) (y : Step p r k h h') :
    AllBefore p r (k + 1) h' := by
  have h1 := hf.top; have h2 := hf.kn; have h3 := hf.nr
  intro i i1 i2
  by_cases e : i = k
  · rw [e]; exact y.2
  · refine (x i i1 (by omega)).keep (by omega) (by omega) y.1 ?_
    have : i * (r : Int) ≤ (k - 1) * r := Int.mul_le_mul_of_nonneg_right (by omega) (by omega)
    unfold bdOf; omega

theorem Ret.forUp_idx {σ : Type} {P : Int → σ → Prop} {f : σ → Int → R σ} {lo hi : Int} {s : σ} (hle : lo ≤ hi + 1) (hs : P lo s)
    (hf : ∀ s i, lo ≤ i → i ≤ hi → P i s → Ret (f s i) (P (i + 1))) : Ret (Verif.forUp lo hi s f) (P (hi + 1)) := by
  obtain ⟨N, hN⟩ : ∃ N : Nat, hi = lo + N - 1 := ⟨(hi - lo + 1).toNat, by omega⟩
  subst hN
  unfold Verif.forUp irange
  rw [show (lo + (N : Int) - 1 - lo + 1).toNat = N by omega]
  have key : ∀ n : Nat, n ≤ N → Ret (((List.range n).map fun i : Nat => lo + (i : Int)).foldlM f s) (P (lo + n)) := by
    intro n
    induction n with
    | zero => intro _; exact Ret.pure (by simpa using hs)
    | succ n ih =>
      intro hn
      rw [List.range_succ, List.map_append, List.foldlM_append]
      refine Ret.bind (ih (by omega)) fun a ha => ?_
      rw [List.map_cons, List.map_nil, List.foldlM_cons]
      simp only [List.foldlM_nil, bind_pure]
      have := hf a (lo + n) (by omega) (by omega) ha
      rwa [show lo + (n : Int) + 1 = lo + ((n + 1 : Nat) : Int) by push_cast; ring] at this
  have := key N le_rfl
  rwa [show lo + (N : Int) = lo + (N : Int) - 1 + 1 by ring] at this

theorem Ret.forStep2_idx {σ : Type} {P : Int → σ → Prop} {f : σ → Int → R σ} {lo hi : Int} {s : σ} (hle : lo ≤ hi) (hs : P lo s)
    (hf : ∀ s i, lo ≤ i → i ≤ hi → P i s → Ret (f s i) (P (min (i + 2) (hi + 1)))) : Ret (Verif.forStep lo hi 2 s f) (P (hi + 1)) := by
  unfold Verif.forStep irangeStep
  rw [if_neg (by omega), pure_bind]
  obtain ⟨N, hN⟩ : ∃ N, ((hi - lo + 1).toNat + 2 - 1) / 2 = N + 1 := ⟨((hi - lo + 1).toNat + 2 - 1) / 2 - 1, by omega⟩
  rw [hN]
  have key : ∀ n : Nat, n ≤ N + 1 → Ret (((List.range n).map fun i : Nat => lo + (i : Int) * (2 : Nat)).foldlM f s) (P (min (lo + 2 * n) (hi + 1))) := by
    intro n
    induction n with
    | zero => intro _; exact Ret.pure (by rw [show min (lo + 2 * ((0 : Nat) : Int)) (hi + 1) = lo by push_cast; omega]; exact hs)
    | succ n ih =>
      intro hn
      rw [List.range_succ, List.map_append, List.foldlM_append]
      refine Ret.bind (ih (by omega)) fun a ha => ?_
      rw [List.map_cons, List.map_nil, List.foldlM_cons]
      simp only [List.foldlM_nil, bind_pure]
      rw [show min (lo + 2 * (n : Int)) (hi + 1) = lo + (n : Int) * (2 : Nat) by push_cast; omega] at ha
      have := hf a (lo + (n : Int) * (2 : Nat)) (by omega) (by push_cast; omega) ha
      rwa [show min (lo + (n : Int) * (2 : Nat) + 2) (hi + 1) = min (lo + 2 * ((n + 1 : Nat) : Int)) (hi + 1) by push_cast; ring_nf] at this
  have := key (N + 1) le_rfl
  rwa [show min (lo + 2 * ((N + 1 : Nat) : Int)) (hi + 1) = hi + 1 by push_cast; omega] at this

local notation "Shp" => Shape5 p r c ldv cv rz cz ru cu rv cwv rh cwh

theorem qr5Krcol_all (hf : Fit5 p r c ldv cv rz cz ru cu rv cwv rh cwh) (ha : p.accum = false) {incol jtop krcol : Int} (k1 : p.ktop - 1 ≤ krcol) (k2 : krcol + 2 ≤ p.kbot)
    (ki : incol ≤ krcol) (ki2 : krcol ≤ incol + 1) (jt : 1 ≤ jtop) {s : Qr5S F} (hs : Shp s) (hb : AllBefore p r krcol s.h) :
    Ret (qr5Krcol p incol jtop s krcol) fun s' => Shp s' ∧ AllBefore p r (krcol + 1) s'.h := by
  obtain ⟨s', e, hs'⟩ := qr5Krcol_ret hf k1 k2 ki ki2 jt hs
  refine ⟨s', e, hs', ?_⟩
  by_cases hk : krcol = p.ktop - 1
  · intro i i1 i2; omega
  · exact hb.step hf (by omega) k2 (qr5Krcol_step hf ha (by omega) k2 jt hs.h .debug s' (by rw [e]; rfl))

theorem qr5Incol_all (hf : Fit5 p r c ldv cv rz cz ru cu rv cwv rh cwh) (ha : p.accum = false) {incol : Int} (k1 : p.ktop - 1 ≤ incol) (k2 : incol + 2 ≤ p.kbot)
    {s : Qr5S F} (hs : Shp s) (hb : AllBefore p r incol s.h) :
    Ret (qr5Incol p s incol) fun s' => Shp s' ∧ AllBefore p r (min (incol + 2) (p.kbot - 2 + 1)) s'.h := by
  have h1 := hf.top
  have hjt : 1 ≤ (if p.wantt = true then 1 else p.ktop) := by split <;> omega
  unfold qr5Incol
  simp only [hf.nb]
  rw [ha]
  simp only [Bool.false_eq_true, if_false]
  generalize (if p.wantt = true then 1 else p.ktop) = jtop at hjt
  rw [pure_bind]
  have := Ret.forUp_idx (P := fun i s' => Shp s' ∧ AllBefore p r i s'.h) (f := qr5Krcol p incol jtop) (lo := incol) (hi := min (incol + 2 * 1 - 1) (p.kbot - 2)) (by omega)
    (s := { s with u := s.u }) ⟨hs, hb⟩ fun s j j1 j2 hs' => qr5Krcol_all hf ha (by omega) (by omega) j1 (by omega) hjt hs'.1 hs'.2
  rw [show min (incol + 2 * 1 - 1) (p.kbot - 2) + 1 = min (incol + 2) (p.kbot - 2 + 1) by omega] at this
  exact Ret.bind this fun s' hs' => Ret.pure hs'

theorem qr5Main_all (hf : Fit5 p r c ldv cv rz cz ru cu rv cwv rh cwh) (ha : p.accum = false) (hb : p.ktop + 2 ≤ p.kbot) (nshfts : Int) {s : Qr5S F} (hs : Shp s) :
    Ret (qr5Main p nshfts s) fun s' => Shp s' ∧ AllBefore p r (p.kbot - 1) s'.h := by
  have h1 := hf.top; have h2 := hf.kn; have h3 := hf.nr; have h4 := hf.nc; have h7 := hf.lt
  unfold qr5Main
  refine Ret.bind (P := fun _ => True) (Ret.forStep (by norm_num) trivial fun q i _ _ _ => ?_) fun q _ => ?_
  · unfold qr5Shuffle
    exact Ret.ite (fun _ => Ret.pure trivial) fun _ => Ret.pure trivial
  obtain ⟨sr, si⟩ := q
  simp only
  rw [if_pos hb]
  refine Ret.bind (set2_ret hs.h (by omega) (by omega) (by omega) (by omega) (by omega) _) fun h hh => ?_
  rw [hf.nb]
  show Ret (Verif.forStep (p.ktop - 2 * 1 + 1) (p.kbot - 2) 2 _ (qr5Incol p)) _
  have := Ret.forStep2_idx (P := fun i s' => Shp s' ∧ AllBefore p r i s'.h) (f := qr5Incol p) (lo := p.ktop - 2 * 1 + 1) (hi := p.kbot - 2) (by omega)
    (s := { s with sr := sr, si := si, h := h }) ⟨⟨hh, hs.v, hs.zr, hs.z, hs.u, hs.wv, hs.wh⟩, fun i i1 i2 => by omega⟩
    fun s i i1 i2 hs' => qr5Incol_all hf ha (by omega) (by omega) hs'.1 hs'.2
  rwa [show p.kbot - 2 + 1 = p.kbot - 1 by ring] at this

end

end Verif

import Verif.Lib.HqrF64g
import Verif.Lib.Qr5Safe
import Verif.Props.Nrm2F64

/-!
# A start vector that is not a number poisons `dlahqr`: the active block never deflates again
-/

namespace Verif
open F64 Scalar Spec Matrix XR

/-! ### `dlarfg` on values that are not numbers -/

theorem larfg_any {F : Type} [Scalar F] {n : Int} (h1 : 2 ≤ n) (h2 : n ≤ 3) (a b c : F) : ∃ beta v2 v3 t, dlarfg n a [b, c] 1 = pure (beta, [v2, v3], t) := by
  obtain ⟨⟨beta, x, t⟩, e, hl⟩ := dlarfg_list h1 h2 a [b, c] (by norm_num)
  simp only at hl
  match x, hl with
  | [p, q], _ => exact ⟨beta, p, q, t, e⟩

theorem dnrm2_one {F : Type} [Scalar F] (b c : F) : dnrm2 (F := F) 1 [b, c] 1 = pure (nrm2Final (nrm2Acc ⟨true, Scalar.zero, Scalar.zero, Scalar.zero⟩ b)) := rfl
theorem dnrm2_two {F : Type} [Scalar F] (b c : F) :
    dnrm2 (F := F) 2 [b, c] 1 = pure (nrm2Final (nrm2Acc (nrm2Acc ⟨true, Scalar.zero, Scalar.zero, Scalar.zero⟩ b) c)) := rfl

theorem nrm2Acc_nan {s : Nrm2 Float} {x : Float} (h : x.isNaN = true) : nrm2Acc s x = { s with amed := s.amed + Scalar.abs x * Scalar.abs x } := by
  unfold nrm2Acc
  have ha := nan_abs h
  simp only
  rw [nan_lt_right _ ha, nan_lt_left ha]
  simp only [Bool.false_eq_true, if_false]
  rw [powf_two]

theorem nrm2Final_nan {s : Nrm2 Float} (h1 : s.abig = Scalar.zero) (h2 : s.asml = Scalar.zero) (h : s.amed.isNaN = true) : (nrm2Final s).isNaN = true := by
  unfold nrm2Final
  have hz : ((Scalar.zero : Float) <ᶠ Scalar.zero) = false := by rw [ltF toR_zero.1 toR_zero.1]; simp
  simp only
  rw [h1, h2, hz]
  simp only [Bool.false_eq_true, if_false]
  exact nan_mul_right _ (nan_sqrt h)

theorem larfg_nan {n : Int} (hn : n = 2 ∨ n = 3) {a b c : Float} (ha : a.isNaN = true) (hb : b.isNaN = true) (hc : n = 3 → c.isNaN = true) :
    ∃ beta v2 v3 t, dlarfg n a [b, c] 1 = pure (beta, [v2, v3], t) ∧ beta.isNaN = true ∧ t.isNaN = true := by
  obtain ⟨xn, e, hx⟩ : ∃ xn : Float, dnrm2 (F := Float) (n - 1) [b, c] 1 = pure xn ∧ xn.isNaN = true := by
    rcases hn with rfl | rfl
    · refine ⟨_, dnrm2_one b c, ?_⟩
      rw [nrm2Acc_nan hb]
      exact nrm2Final_nan rfl rfl (nan_add_right _ (nan_mul_left (nan_abs hb) _))
    · refine ⟨_, dnrm2_two b c, ?_⟩
      rw [nrm2Acc_nan hb, nrm2Acc_nan (hc rfl)]
      exact nrm2Final_nan rfl rfl (nan_add_right _ (nan_mul_left (nan_abs (hc rfl)) _))
  have e1 : isub n 1 = pure (n - 1) := isub_ok (by unfold FitsI32; omega)
  unfold dlarfg
  rw [if_neg (by omega), e1, pure_bind, e]
  simp only [pure_bind]
  rw [nan_beq_left hx]
  simp only [Bool.false_eq_true, if_false]
  have hbeta : (-Scalar.signum a * dlapy2 a xn : Float).isNaN = true := by
    apply nan_mul_left
    apply nan_neg
    show (F64.signum a).isNaN = true
    unfold F64.signum
    rw [if_pos ha]
    exact ha
  rw [nan_lt_left (nan_abs hbeta)]
  simp only [Bool.false_eq_true, if_false]
  unfold dlarfgFinish
  rw [e1, pure_bind]
  obtain ⟨y, ey, hy⟩ := dscal_list (n := n - 1) (by omega) (by omega) (Scalar.one / (a - -Scalar.signum a * dlapy2 a xn)) [b, c]
  rw [ey]
  simp only [pure_bind]
  match y, hy with
  | [p, q], _ => exact ⟨_, p, q, _, rfl, hbeta, nan_div_left (nan_sub_right _ ha) _⟩

/-! ### The updates -/

section refl
variable {i k : ℤ} {v2 v3 t : Float} {x : ℤ → Float}

theorem reflG_nan {j : ℤ} (h : (x j).isNaN = true) : (reflG i k v2 v3 t x j).isNaN = true := by
  unfold reflG refl3 refl2
  split
  · simp only
    split
    · rename_i e; rw [e] at h; exact nan_sub_left h _
    · split
      · rename_i e; rw [e] at h; exact nan_sub_left h _
      · split
        · rename_i e; rw [e] at h; exact nan_sub_left h _
        · exact h
  · simp only
    split
    · rename_i e; rw [e] at h; exact nan_sub_left h _
    · split
      · rename_i e; rw [e] at h; exact nan_sub_left h _
      · exact h

theorem reflG_nan_t (h : t.isNaN = true) : (reflG i k v2 v3 t x k).isNaN = true := by
  unfold reflG refl3 refl2
  split
  · simp only
    rw [if_neg (by omega), if_neg (by omega), if_pos trivial]
    exact nan_sub_right _ (nan_mul_right _ h)
  · simp only
    rw [if_neg (by omega), if_pos trivial]
    exact nan_sub_right _ (nan_mul_right _ h)

theorem reflG_nan_sum (hk : k + 2 ≤ i) (h : (x (k + 1)).isNaN = true) : (reflG i k v2 v3 t x (k + 2)).isNaN = true := by
  unfold reflG refl3
  rw [if_pos hk]
  simp only
  rw [if_pos trivial]
  exact nan_sub_right _ (nan_mul_left (nan_add_left (nan_add_right _ (nan_mul_right _ h)) _) _)

variable {lo up m l : ℤ} {g : ℤ → ℤ → Float} {a b : ℤ}

theorem rowsG_nan (h : (g a b).isNaN = true) : (rowsG i k v2 v3 t g a b).isNaN = true := by
  unfold rowsG
  split
  · exact reflG_nan (x := fun a => g a b) h
  · exact h

theorem colsG_nan (h : (g a b).isNaN = true) : (colsG lo up i k v2 v3 t g a b).isNaN = true := by
  unfold colsG
  split
  · exact reflG_nan h
  · exact h

theorem colG_other {beta : Float} (hb : b ≠ k - 1) : colG m l i k beta t g a b = g a b := by
  unfold colG; rw [if_neg hb]

end refl

/-! ### The chase -/

section chase
variable {p : HqrP Float} {r c rz cz : Nat} {l i m k : ℤ}

/-- The state of the arrays, apart from the values. -/
structure ChP (p : HqrP Float) (r c rz cz : Nat) (P : (ℤ → ℤ → Float) → Float → Float → Float → Prop) (s : FA Float × FA Float × FA Float) : Prop where
  ex : ∃ g x y w, Is2 s.1 r c (r * c) g ∧ (p.wantz = true → ∃ zg, Is2 s.2.1 rz cz (rz * cz) zg) ∧ WorkG s.2.2 x y w ∧ P g x y w

theorem chaseP_step (hd : Dim p r c rz cz) (hlo : p.ilo ≤ l) (hhi : i ≤ p.ihi) (hlm : l ≤ m) (hmk : m ≤ k) (hki : k + 1 ≤ i) (hm2 : m + 2 ≤ i)
    {P P' : (ℤ → ℤ → Float) → Float → Float → Float → Prop}
    (step : ∀ g x y w, P g x y w → ∃ beta v2 v3 t, dlarfg (min 3 (i - k + 1)) (headG m i k g x y w).1 [(headG m i k g x y w).2.1, (headG m i k g x y w).2.2] 1 =
      pure (beta, [v2, v3], t) ∧ P' (stepG m l i k beta v2 v3 t g) beta v2 v3)
    {s : FA Float × FA Float × FA Float} (hs : ChP p r c rz cz P s) : Tot (hqrChase p m l i l i s k) (ChP p r c rz cz P') := by
  obtain ⟨h, z, v⟩ := s
  obtain ⟨⟨g, x, y, w, hh, hZ, hv, hP⟩⟩ := hs
  simp only at hh hZ hv
  obtain ⟨beta, v2, v3, t, e, hP'⟩ := step g x y w hP
  obtain ⟨zg, hzg⟩ : ∃ zg, p.wantz = true → Is2 z rz cz (rz * cz) zg := by
    by_cases hw : p.wantz = true
    · obtain ⟨zg, hz⟩ := hZ hw; exact ⟨zg, fun _ => hz⟩
    · exact ⟨fun _ _ => 0, fun h => absurd h hw⟩
  refine (hqrChaseG hd hlo hhi hh hlm hmk hki hm2 hv hzg e).mono ?_
  rintro ⟨h', z', v'⟩ ⟨k1, k2, k3⟩
  exact ⟨⟨_, beta, v2, v3, k1, fun hw => ⟨_, k2 hw⟩, k3, hP'⟩⟩

/-- The chase that begins with a vector that is not a number. -/
def Inv1 (m i k : ℤ) (g : ℤ → ℤ → Float) (x y w : Float) : Prop :=
  (k = m → x.isNaN = true ∧ y.isNaN = true ∧ w.isNaN = true) ∧ (m < k → ∀ a, k ≤ a → a ≤ k + 2 → a ≤ i → (g a (k - 1)).isNaN = true) ∧
    (m + 2 ≤ k → (g (k - 1) (k - 2)).isNaN = true)

/-- The later ones. -/
def Inv2 (i k : ℤ) (g : ℤ → ℤ → Float) (_ _ _ : Float) : Prop :=
  (g (i - 1) (i - 2)).isNaN = true ∧ (g i (i - 1)).isNaN = true ∧ (k = i - 1 → (g i (i - 2)).isNaN = true)

theorem inv1_step (hlm : l ≤ m) (hmk : m ≤ k) (hki : k + 1 ≤ i) (g : ℤ → ℤ → Float) (x y w : Float) (h : Inv1 m i k g x y w) :
    ∃ beta v2 v3 t, dlarfg (min 3 (i - k + 1)) (headG m i k g x y w).1 [(headG m i k g x y w).2.1, (headG m i k g x y w).2.2] 1 =
      pure (beta, [v2, v3], t) ∧ Inv1 m i (k + 1) (stepG m l i k beta v2 v3 t g) beta v2 v3 := by
  obtain ⟨h1, h2, h3⟩ := h
  have head : (headG m i k g x y w).1.isNaN = true ∧ (headG m i k g x y w).2.1.isNaN = true ∧ (k + 2 ≤ i → (headG m i k g x y w).2.2.isNaN = true) := by
    unfold headG
    by_cases hk : m < k
    · simp only [if_pos hk]
      refine ⟨h2 hk k (by omega) (by omega) (by omega), h2 hk (k + 1) (by omega) (by omega) (by omega), fun hk2 => ?_⟩
      rw [if_pos hk2]
      exact h2 hk (k + 2) (by omega) (by omega) (by omega)
    · simp only [if_neg hk]
      have := h1 (by omega)
      exact ⟨this.1, this.2.1, fun _ => this.2.2⟩
  obtain ⟨beta, v2, v3, t, e, hbeta, ht⟩ := larfg_nan (n := min 3 (i - k + 1)) (by omega) head.1 head.2.1 (fun h => head.2.2 (by omega))
  refine ⟨beta, v2, v3, t, e, fun h => by omega, fun _ a a1 a2 a3 => ?_, fun hk => ?_⟩
  · rw [show k + 1 - 1 = k by ring]
    unfold stepG colsG
    rw [if_pos ⟨by omega, by omega⟩]
    exact reflG_nan_t ht
  · rw [show k + 1 - 1 = k by ring, show k + 1 - 2 = k - 1 by ring]
    unfold stepG
    apply colsG_nan
    apply rowsG_nan
    unfold colG
    rw [if_pos rfl, if_pos (by omega), if_pos rfl]
    exact hbeta

theorem inv2_step (hmk : m ≤ k) (hki : k + 1 ≤ i) (hm2 : m + 2 ≤ i) (g : ℤ → ℤ → Float) (x y w : Float) (h : Inv2 i k g x y w) :
    ∃ beta v2 v3 t, dlarfg (min 3 (i - k + 1)) (headG m i k g x y w).1 [(headG m i k g x y w).2.1, (headG m i k g x y w).2.2] 1 =
      pure (beta, [v2, v3], t) ∧ Inv2 i (k + 1) (stepG m l i k beta v2 v3 t g) beta v2 v3 := by
  obtain ⟨h1, h2, h3⟩ := h
  by_cases hk : k = i - 1
  · have head : (headG m i k g x y w).1.isNaN = true ∧ (headG m i k g x y w).2.1.isNaN = true := by
      unfold headG
      simp only [if_pos (show m < k by omega)]
      subst hk
      rw [show i - 1 - 1 = i - 2 by ring, show i - 1 + 1 = i by ring]
      exact ⟨h1, h3 rfl⟩
    obtain ⟨beta, v2, v3, t, e, hbeta, ht⟩ := larfg_nan (n := min 3 (i - k + 1)) (c := (headG m i k g x y w).2.2) (by omega) head.1 head.2 (fun h => by omega)
    refine ⟨beta, v2, v3, t, e, ?_, ?_, fun h => by omega⟩
    · apply colsG_nan
      apply rowsG_nan
      unfold colG
      rw [if_pos (by omega), if_pos (by omega), if_pos (by omega)]
      exact hbeta
    · apply colsG_nan
      apply rowsG_nan
      rw [colG_other (by omega)]
      exact h2
  · obtain ⟨beta, v2, v3, t, e⟩ := larfg_any (n := min 3 (i - k + 1)) (by omega) (by omega) (headG m i k g x y w).1 (headG m i k g x y w).2.1
      (headG m i k g x y w).2.2
    refine ⟨beta, v2, v3, t, e, ?_, ?_, fun h => ?_⟩
    · apply colsG_nan
      apply rowsG_nan
      rw [colG_other (by omega)]
      exact h1
    · apply colsG_nan
      apply rowsG_nan
      rw [colG_other (by omega)]
      exact h2
    · apply colsG_nan
      unfold rowsG
      rw [if_pos ⟨by omega, by omega⟩, show i = k + 2 by omega]
      apply reflG_nan_sum (le_refl _)
      beta_reduce
      rw [colG_other (by omega), show k + 1 = i - 1 by omega, show k + 2 - 2 = i - 2 by omega]
      exact h1

/-- The state inside `'loop_140` once the active block is poisoned. -/
structure Pois (p : HqrP Float) (r c rz cz : Nat) (i : ℤ) (s : HqrS Float) : Prop where
  ex : ∃ g, Is2 s.h r c (r * c) g ∧ (g (i - 1) (i - 2)).isNaN = true ∧ (g i (i - 1)).isNaN = true
  z : p.wantz = true → ∃ zg, Is2 s.z rz cz (rz * cz) zg
  work : ∃ x y w, WorkG s.v x y w
  lo : p.ilo ≤ s.l
  li : s.l + 2 ≤ i

/-- The chase poisons. -/
theorem chaseP_first (hd : Dim p r c rz cz) (hlo : p.ilo ≤ l) (hhi : i ≤ p.ihi) (hlm : l ≤ m) (hm2 : m + 2 ≤ i)
    {s : FA Float × FA Float × FA Float} (hs : ChP p r c rz cz (Inv1 m i m) s) :
    Tot (forUp m (i - 1) s (hqrChase p m l i l i)) (ChP p r c rz cz (Inv2 i i)) := by
  have := Tot.forUp (P := fun k s => ChP p r c rz cz (Inv1 m i k) s) (lo := m) (hi := i - 1) (by omega) hs
    (fun k s h1 h2 hk => chaseP_step hd hlo hhi hlm h1 (by omega) hm2 (inv1_step hlm h1 (by omega)) hk)
  rw [show i - 1 + 1 = i by ring] at this
  refine this.mono fun s hs => ?_
  obtain ⟨⟨g, x, y, w, hh, hZ, hv, -, hP, hP'⟩⟩ := hs
  exact ⟨⟨g, x, y, w, hh, hZ, hv, hP' (by omega), hP (by omega) i (le_refl _) (by omega) (le_refl _), fun h => by omega⟩⟩

/-- The chase keeps the poison. -/
theorem chaseP_later (hd : Dim p r c rz cz) (hlo : p.ilo ≤ l) (hhi : i ≤ p.ihi) (hlm : l ≤ m) (hm2 : m + 2 ≤ i)
    {s : FA Float × FA Float × FA Float} (hs : ChP p r c rz cz (Inv2 i m) s) :
    Tot (forUp m (i - 1) s (hqrChase p m l i l i)) (ChP p r c rz cz (Inv2 i i)) := by
  have := Tot.forUp (P := fun k s => ChP p r c rz cz (Inv2 i k) s) (lo := m) (hi := i - 1) (by omega) hs
    (fun k s h1 h2 hk => chaseP_step hd hlo hhi hlm h1 (by omega) hm2 (inv2_step h1 (by omega) hm2) hk)
  rwa [show i - 1 + 1 = i by ring] at this

theorem workG_vshape {F : Type} [Scalar F] {v : FA F} (h : VShape v) : ∃ x y w, WorkG v x y w := by
  have := h.length
  obtain ⟨x, y, w, e⟩ : ∃ x y w, v.data = [x, y, w] := by
    match v.data, this with
    | [x, y, w], _ => exact ⟨x, y, w, rfl⟩
  exact ⟨x, y, w, e, h.rows, h.cols⟩

theorem vshape_workG {F : Type} [Scalar F] {v : FA F} {x y w : F} (h : WorkG v x y w) : VShape v := ⟨by rw [h.data]; rfl, h.rows, h.cols⟩

theorem sweepP (hd : Dim p r c rz cz) (hhi : i ≤ p.ihi) {s : HqrS Float} (hs : Pois p r c rz cz i s) :
    Tot (hqrSweep p i s) (Pois p r c rz cz i) := by
  obtain ⟨⟨g, hh, h1, h2⟩, hZ, ⟨x, y, w, hv⟩, hlo, hli⟩ := hs
  have lo1 := hd.lo1; have hir := hd.hir; have hic := hd.hic
  have hS : HqrShape s.h r c := is2_hqrShape hh hd.size
  unfold hqrSweep
  simp only [hd.wantt, if_true]
  obtain ⟨q, eq, -⟩ := hqrShiftMat_ret hS (by omega) (s.kdefl + 1) (i := i) (l := s.l) (by omega) (by omega) (by omega) (by omega)
  rw [eq, pure_bind]
  obtain ⟨h11, h12, h21, h22⟩ := q
  simp only
  obtain ⟨⟨m, v'⟩, em, m1, m2, hv'⟩ := hqrStart_ret p hS (by omega) (hqrShifts h11 h12 h21 h22).1 (hqrShifts h11 h12 h21 h22).2.1
    (hqrShifts h11 h12 h21 h22).2.2.1 (hqrShifts h11 h12 h21 h22).2.2.2 (l := s.l) (i := i) (by omega) (by omega) (by omega)
    (irange s.l (i - 2)).reverse (fun x hx => by have := mem_irange.1 (List.mem_reverse.1 hx); omega) (vshape_workG hv) s.m (Or.inl (by
      intro h
      have : s.l ∈ (irange s.l (i - 2)).reverse := List.mem_reverse.2 (mem_irange.2 ⟨le_refl _, by omega⟩)
      rw [h] at this
      exact absurd this (by simp)))
  simp only at m1 m2 hv'
  rw [em, pure_bind]
  simp only
  obtain ⟨x', y', w', hw'⟩ := workG_vshape hv'
  refine Tot.bind (chaseP_later hd hlo hhi m1 m2 (s := (s.h, s.z, v')) ⟨⟨g, x', y', w', hh, hZ, hw', h1, h2, fun h => by omega⟩⟩) ?_
  rintro ⟨h', z', v''⟩ ⟨⟨g', x'', y'', w'', hh', hZ', hv'', k1, k2, -⟩⟩
  exact Tot.pure ⟨⟨g', hh', k1, k2⟩, hZ', ⟨_, _, _, hv''⟩, hlo, hli⟩

theorem searchAny (hd : Dim p r c rz cz) {g : ℤ → ℤ → Float} {h : FA Float} (hh : Is2 h r c (r * c) g) {lo : ℤ} (hlo : p.ilo ≤ lo) (hih : i ≤ p.ihi) (L : List Int)
    (hL : ∀ x ∈ L, lo + 1 ≤ x ∧ x ≤ i) (k : Int) : Tot (hqrSearch p h L k) fun _ => True := by
  have get : ∀ {a b : Int}, p.ilo ≤ a → a ≤ p.ihi → p.ilo ≤ b → b ≤ p.ihi → Tot (h.get2 a b) fun _ => True :=
    fun a1 a2 b1 b2 => Tot.of_eq (get2_is2 hh (hd.cell a1 a2 b1 b2) hd.size) trivial
  induction L generalizing k with
  | nil => exact Tot.pure trivial
  | cons x L ih =>
    have hx := hL x (by simp)
    have ih' := fun k => ih (fun y hy => hL y (by simp [hy])) k
    unfold hqrSearch
    refine Tot.bind (get (by omega) (by omega) (by omega) (by omega)) fun hkk1 _ => Tot.ite (fun _ => Tot.pure trivial) fun _ => ?_
    refine Tot.bind (get (by omega) (by omega) (by omega) (by omega)) fun hk1k1 _ => Tot.bind (get (by omega) (by omega) (by omega) (by omega)) fun hkk _ => ?_
    have tail : ∀ tst : Float, Tot (if (abs hkk1 ≤ᶠ p.ulp * tst) = true then do
        let hk1k ← h.get2 (x - 1) x
        if hqrCrit p hkk1 hk1k hkk hk1k1 = true then pure x else hqrSearch p h L (x - 1)
        else hqrSearch p h L (x - 1)) fun _ => True := fun tst =>
      Tot.ite (fun _ => Tot.bind (get (by omega) (by omega) (by omega) (by omega)) fun _ _ => Tot.ite (fun _ => Tot.pure trivial) fun _ => ih' _) fun _ => ih' _
    refine Tot.ite (fun _ => ?_) fun _ => tail _
    refine Tot.ite (fun _ => ?_) fun _ => ?_
    · refine Tot.bind (get (by omega) (by omega) (by omega) (by omega)) fun _ _ => ?_
      refine Tot.ite (fun _ => ?_) fun _ => tail _
      exact Tot.bind (get (by omega) (by omega) (by omega) (by omega)) fun _ _ => tail _
    · refine Tot.ite (fun _ => ?_) fun _ => tail _
      exact Tot.bind (get (by omega) (by omega) (by omega) (by omega)) fun _ _ => tail _

/-- The search passes over an entry that is not a number. -/
theorem search_skip (hd : Dim p r c rz cz) {g : ℤ → ℤ → Float} {h : FA Float} (hh : Is2 h r c (r * c) g) {x : ℤ} (hx : p.ilo + 1 ≤ x) (hx' : x ≤ p.ihi)
    (hn : (g x (x - 1)).isNaN = true) {L : List Int} {Q : ℤ → Prop} (hL : Tot (hqrSearch p h L (x - 1)) Q) (k : ℤ) : Tot (hqrSearch p h (x :: L) k) Q := by
  have get : ∀ {a b : Int}, p.ilo ≤ a → a ≤ p.ihi → p.ilo ≤ b → b ≤ p.ihi → Tot (h.get2 a b) fun _ => True :=
    fun a1 a2 b1 b2 => Tot.of_eq (get2_is2 hh (hd.cell a1 a2 b1 b2) hd.size) trivial
  have hle : ∀ y : Float, ¬ ((abs (g x (x - 1)) ≤ᶠ y) = true) := fun y h => by
    rw [nan_le_left (nan_abs hn)] at h; exact absurd h (by decide)
  unfold hqrSearch
  rw [get2_is2 hh (hd.cell (by omega) (by omega) (by omega) (by omega)) hd.size, pure_bind]
  refine Tot.ite (fun h => absurd h (hle _)) fun _ => ?_
  refine Tot.bind (get (by omega) (by omega) (by omega) (by omega)) fun hk1k1 _ => Tot.bind (get (by omega) (by omega) (by omega) (by omega)) fun hkk _ => ?_
  refine Tot.ite (fun _ => ?_) fun _ => Tot.ite (fun h => absurd h (hle _)) fun _ => hL
  refine Tot.ite (fun _ => ?_) fun _ => ?_
  · refine Tot.bind (get (by omega) (by omega) (by omega) (by omega)) fun _ _ => ?_
    refine Tot.ite (fun _ => ?_) fun _ => Tot.ite (fun h => absurd h (hle _)) fun _ => hL
    exact Tot.bind (get (by omega) (by omega) (by omega) (by omega)) fun _ _ => Tot.ite (fun h => absurd h (hle _)) fun _ => hL
  · refine Tot.ite (fun _ => ?_) fun _ => Tot.ite (fun h => absurd h (hle _)) fun _ => hL
    exact Tot.bind (get (by omega) (by omega) (by omega) (by omega)) fun _ _ => Tot.ite (fun h => absurd h (hle _)) fun _ => hL

theorem deflateP (hd : Dim p r c rz cz) (hhi : i ≤ p.ihi) {s : HqrS Float} (hs : Pois p r c rz cz i s) :
    Tot (hqrDeflate p i s) (Pois p r c rz cz i) := by
  obtain ⟨⟨g, hh, h1, h2⟩, hZ, hv, hlo, hli⟩ := hs
  have lo1 := hd.lo1; have hir := hd.hir; have hic := hd.hic
  unfold hqrDeflate
  refine Tot.bind (P := fun k => s.l ≤ k ∧ k ≤ i - 2) ?_ fun k hk => ?_
  · have e1 := irange_snoc (lo := s.l + 1) (hi := i) (by omega)
    have e2 := irange_snoc (lo := s.l + 1) (hi := i - 1) (by omega)
    rw [show i - 1 - 1 = i - 2 by ring] at e2
    rw [e1, e2]
    simp only [List.reverse_append, List.reverse_cons, List.reverse_nil, List.nil_append, List.singleton_append]
    refine search_skip hd hh (by omega) (by omega) h2 (search_skip hd hh (by omega) (by omega) (by rw [show i - 1 - 1 = i - 2 by ring]; exact h1) ?_ _) _
    have hL : ∀ x ∈ (irange (s.l + 1) (i - 2)).reverse, s.l + 1 ≤ x ∧ x ≤ i - 2 := fun x hx => mem_irange.1 (List.mem_reverse.1 hx)
    have t := searchAny (i := i - 2) hd hh hlo (by omega) _ hL (i - 1 - 1)
    have q := hqrSearch_post p s.h (lo := s.l) (hi := i - 2) _ (i - 1 - 1) hL (Or.inl ⟨by omega, by omega⟩)
    intro pr
    obtain ⟨a, ea, -⟩ := t pr
    exact ⟨a, ea, q pr a ea⟩
  · refine Tot.ite (fun hc => ?_) fun _ => Tot.pure ⟨⟨g, hh, h1, h2⟩, hZ, hv, by simp only; omega, by simp only; omega⟩
    obtain ⟨h', e, hh'⟩ := set2_is2 hh (hd.cell (a := k) (b := k - 1) (by omega) (by omega) (by omega) (by omega)) hd.size (Scalar.zero : Float)
    rw [e, pure_bind]
    refine Tot.pure ⟨⟨_, hh', ?_, ?_⟩, hZ, hv, by simp only; omega, by simp only; omega⟩
    · simp only [upd2, if_neg (show ¬ (i - 1 = k ∧ i - 2 = k - 1) by omega)]; exact h1
    · simp only [upd2, if_neg (show ¬ (i = k ∧ i - 1 = k - 1) by omega)]; exact h2

/-- Once poisoned, the block is never deflated: the inner loop uses up its rounds. -/
theorem innerP (hd : Dim p r c rz cz) (hhi : i ≤ p.ihi) (rounds its : Nat) {s : HqrS Float} (hs : Pois p r c rz cz i s) :
    Tot (hqrInner p i rounds its s) fun q => q.2 = its + rounds := by
  induction rounds generalizing its s with
  | zero =>
    unfold hqrInner
    refine Tot.bind (deflateP hd hhi hs) fun s' hs' => Tot.ite (fun h => ?_) fun _ => ?_
    · have := hs'.li; omega
    · exact Tot.bind (sweepP hd hhi hs') fun s'' hs'' => Tot.pure rfl
  | succ n ih =>
    unfold hqrInner
    refine Tot.bind (deflateP hd hhi hs) fun s' hs' => Tot.ite (fun h => ?_) fun _ => ?_
    · have := hs'.li; omega
    · refine Tot.bind (sweepP hd hhi hs') fun s'' hs'' => (ih (its + 1) hs'').mono fun q hq => ?_
      rw [hq]; omega

end chase

end Verif

import Verif.Lib.HqrStep

/-!
# One step of the bulge chase of `dlahqr` on the arrays, for any scalars
-/

namespace Verif
open Scalar Spec

section
variable {F : Type} [Scalar F]

/-- The work vector of `dlahqr`. -/
structure WorkG (v : FA F) (a b c : F) : Prop where
  data : v.data = [a, b, c]
  rows : v.rows = 2 ∨ v.rows = 3
  cols : v.cols = 0

theorem WorkG.get1 {v : FA F} {a b c : F} (h : WorkG v a b c) : v.get1 1 = a ∧ v.get1 2 = b ∧ v.get1 3 = c := by
  unfold FA.get1
  rw [h.data]
  refine ⟨?_, ?_, ?_⟩ <;> rfl

theorem WorkG.from1 {v : FA F} {a b c : F} (h : WorkG v a b c) : v.from1 2 = pure [b, c] := by
  have hl : v.len = pure v.rows := by
    unfold FA.len FA.is2d
    rw [h.cols]; simp
  unfold FA.from1
  rw [hl, pure_bind, if_pos (by rcases h.rows with e | e <;> rw [e] <;> norm_num), h.data]
  rfl

theorem WorkG.insert {w : FA F} {b c : F} (hd : w.data = [b, c]) (hr : w.rows = 2) (hc : w.cols = 0) (a : F) :
    Tot (w.insert 1 a) fun v => WorkG v a b c := by
  have hl : w.len = pure w.rows := by
    unfold FA.len FA.is2d
    rw [hc]; simp
  unfold FA.insert
  rw [hl, pure_bind, hr, if_pos (by norm_num), hd]
  exact Tot.pure ⟨rfl, Or.inl rfl, hc⟩

theorem WorkG.set {v : FA F} {a b c : F} (h : WorkG v a b c) (x : F) :
    WorkG (v.set1 1 x) x b c ∧ WorkG (v.set1 2 x) a x c ∧ WorkG (v.set1 3 x) a b x := by
  have sh (k : Int) := set1_shape v k x
  refine ⟨⟨?_, by rw [← (sh 1).1]; exact h.rows, by rw [← (sh 1).2.1]; exact h.cols⟩,
    ⟨?_, by rw [← (sh 2).1]; exact h.rows, by rw [← (sh 2).2.1]; exact h.cols⟩,
    ⟨?_, by rw [← (sh 3).1]; exact h.rows, by rw [← (sh 3).2.1]; exact h.cols⟩⟩ <;>
  (unfold FA.set1 FA.modify1; rw [h.data]; rfl)

/-- The call of `dlarfg` of one step. -/
theorem reflectorG {nr : Int} {a b c beta v2 v3 t : F} (e : dlarfg nr a [b, c] 1 = pure (beta, [v2, v3], t)) {v : FA F} (hv : WorkG v a b c) :
    Tot (do
        let v1 := v.get1 1
        let v2 := faOfVec (← v.from1 2)
        let (v1, v2, t1) ← dlarfg nr v1 v2 1
        let v ← v2.insert 1 v1
        pure (v, t1)) fun r => WorkG r.1 beta v2 v3 ∧ r.2 = t := by
  have hs := dlarfg_sim nr a (faOfVec [b, c]) (faOfVec [b, c]) [b, c] 1 ⟨rfl, rfl, rfl⟩
  rw [e] at hs
  rw [hv.get1.1, hv.from1]
  simp only [pure_bind]
  refine Tot.bind hs.tot ?_
  rintro ⟨b1, w, t1⟩ ⟨h1, ⟨h2, h3, h4⟩, h5⟩
  simp only at h1 h2 h3 h4 h5
  subst h1 h5
  have h3' : w.rows = 2 := h3.trans (show wrap32 (2 : Nat) = 2 by decide)
  have h4' : w.cols = 0 := h4
  exact Tot.bind (WorkG.insert h2 h3' h4' b1) fun v hv => Tot.pure ⟨hv, rfl⟩

/-- The copy of a column of `h` into the work vector. -/
theorem dcopy_workG {nr : Nat} (hnr : nr = 2 ∨ nr = 3) {src : List F} {v : FA F} {a b c x y z : F} (hv : WorkG v a b c)
    (h1 : (ToFA.toFa src : FA F).get1 1 = x) (h2 : (ToFA.toFa src : FA F).get1 2 = y)
    (h3 : nr = 3 → (ToFA.toFa src : FA F).get1 3 = z) (h3' : nr = 2 → z = c) :
    Tot (dcopy (F := F) (nr : Int) src 1 v 1) fun v' => WorkG v' x y z := by
  set S : FA F := ToFA.toFa src with hS
  have d1 := (hv.set (S.get1 1)).1
  have d2 := (d1.set (S.get1 2)).2.1
  have d3 := (d2.set (S.get1 3)).2.2
  rw [h1] at d1 d2 d3
  rw [h2] at d2 d3
  unfold dcopy dcopyFA
  rcases hnr with rfl | rfl
  · refine Tot.of_eq (a := (v.set1 1 (S.get1 1)).set1 2 (S.get1 2)) rfl ?_
    rw [h1, h2, h3' rfl]; exact d2
  · refine Tot.of_eq (a := ((v.set1 1 (S.get1 1)).set1 2 (S.get1 2)).set1 3 (S.get1 3)) rfl ?_
    rw [h3 rfl] at d3
    rw [h1, h2, h3 rfl]; exact d3

/-! ### The arrays after one step -/

/-- Column `k - 1` as stored by the code. -/
def colG (m l i k : ℤ) (beta t : F) (g : ℤ → ℤ → F) (a b : ℤ) : F :=
  if b = k - 1 then
    if m < k then
      if a = k then beta else if a = k + 1 ∨ (a = k + 2 ∧ k + 2 ≤ i) then zero else g a b
    else if l < m ∧ a = k then g a b * (one - t) else g a b
  else g a b

/-- One vector updated by the reflector of step `k`. -/
def reflG (i k : ℤ) (v2 v3 t : F) (x : ℤ → F) : ℤ → F :=
  if k + 2 ≤ i then refl3 k (k + 1) (k + 2) v2 v3 t (t * v2) (t * v3) x else refl2 k (k + 1) v2 t (t * v2) x

/-- Columns `k..i` updated from the left. -/
def rowsG (i k : ℤ) (v2 v3 t : F) (g : ℤ → ℤ → F) (a b : ℤ) : F :=
  if k ≤ b ∧ b ≤ i then reflG i k v2 v3 t (fun a => g a b) a else g a b

/-- Rows `lo..up` updated from the right. -/
def colsG (lo up i k : ℤ) (v2 v3 t : F) (g : ℤ → ℤ → F) (a b : ℤ) : F :=
  if lo ≤ a ∧ a ≤ up then reflG i k v2 v3 t (g a) b else g a b

/-- The array `h` after step `k`. -/
def stepG (m l i k : ℤ) (beta v2 v3 t : F) (g : ℤ → ℤ → F) : ℤ → ℤ → F :=
  colsG l (min i (k + 4)) i k v2 v3 t (rowsG i k v2 v3 t (colG m l i k beta t g))

variable {p : HqrP F} {r c rz cz : Nat} {l i m k : ℤ} {g : ℤ → ℤ → F}

theorem set2_win {h : FA F} (hd : Dim p r c rz cz) (hh : Is2 h r c (r * c) g) (hlo : p.ilo ≤ l) (hhi : i ≤ p.ihi)
    {a b : ℤ} (a1 : l ≤ a) (a2 : a ≤ i) (b1 : l ≤ b) (b2 : b ≤ i) (x : F) :
    ∃ h', h.set2 a b x = pure h' ∧ Is2 h' r c (r * c) (upd2 g a b x) :=
  set2_is2 hh (hd.cell (by omega) (by omega) (by omega) (by omega)) hd.size x

theorem storeColG (hd : Dim p r c rz cz) (hlo : p.ilo ≤ l) (hhi : i ≤ p.ihi) {h : FA F} (hh : Is2 h r c (r * c) g)
    (hlm : l ≤ m) (hmk : m ≤ k) (hki : k + 1 ≤ i) {v : FA F} {beta b' c' t : F} (hv : WorkG v beta b' c') :
    ∃ h', hqrStoreCol m l i k t v h = pure h' ∧ Is2 h' r c (r * c) (colG m l i k beta t g) := by
  unfold hqrStoreCol
  by_cases hk : k > m
  · rw [if_pos hk, hv.get1.1]
    obtain ⟨h1, e1, k1⟩ := set2_win hd hh hlo hhi (a := k) (b := k - 1) (by omega) (by omega) (by omega) (by omega) beta
    obtain ⟨h2, e2, k2⟩ := set2_win hd k1 hlo hhi (a := k + 1) (b := k - 1) (by omega) (by omega) (by omega) (by omega) zero
    rw [e1, pure_bind, e2, pure_bind]
    by_cases hk2 : k < i - 1
    · obtain ⟨h3, e3, k3⟩ := set2_win hd k2 hlo hhi (a := k + 2) (b := k - 1) (by omega) (by omega) (by omega) (by omega) zero
      rw [if_pos hk2, e3]
      refine ⟨h3, rfl, ?_⟩
      convert k3 using 1
      funext a b
      simp only [upd2, colG]
      by_cases hb : b = k - 1
      · rw [if_pos hb, if_pos (show m < k from hk)]
        by_cases c1 : a = k
        · rw [if_pos c1, if_neg (by omega), if_neg (by omega), if_pos ⟨c1, hb⟩]
        · rw [if_neg c1, if_neg (c := a = k ∧ b = k - 1) (by tauto)]
          by_cases c2 : a = k + 1
          · rw [if_pos (Or.inl c2), if_neg (by omega), if_pos ⟨c2, hb⟩]
          · by_cases c3 : a = k + 2
            · rw [if_pos (Or.inr ⟨c3, by omega⟩), if_pos ⟨c3, hb⟩]
            · rw [if_neg (by tauto), if_neg (by tauto), if_neg (by tauto)]
      · rw [if_neg hb, if_neg (by tauto), if_neg (by tauto), if_neg (by tauto)]
    · rw [if_neg hk2]
      refine ⟨h2, rfl, ?_⟩
      convert k2 using 1
      funext a b
      simp only [upd2, colG]
      by_cases hb : b = k - 1
      · rw [if_pos hb, if_pos (show m < k from hk)]
        by_cases c1 : a = k
        · rw [if_pos c1, if_neg (by omega), if_pos ⟨c1, hb⟩]
        · rw [if_neg c1, if_neg (c := a = k ∧ b = k - 1) (by tauto)]
          by_cases c2 : a = k + 1
          · rw [if_pos (Or.inl c2), if_pos ⟨c2, hb⟩]
          · rw [if_neg (by omega), if_neg (by tauto)]
      · rw [if_neg hb, if_neg (by tauto), if_neg (by tauto)]
  · rw [if_neg hk]
    by_cases hml : m > l
    · rw [if_pos hml]
      obtain ⟨h1, e1, k1⟩ := modify2_is2 hh (hd.cell (a := k) (b := k - 1) (by omega) (by omega) (by omega) (by omega)) hd.size
        (· * (Scalar.one - t))
      refine ⟨h1, e1, ?_⟩
      convert k1 using 1
      funext a b
      simp only [upd2, colG]
      by_cases hb : b = k - 1
      · rw [if_pos hb, if_neg (show ¬ m < k from hk)]
        by_cases c1 : a = k
        · rw [if_pos ⟨hml, c1⟩, if_pos ⟨c1, hb⟩, c1, hb]
        · rw [if_neg (by tauto), if_neg (by tauto)]
      · rw [if_neg hb, if_neg (by tauto)]
    · rw [if_neg hml]
      refine ⟨h, rfl, ?_⟩
      convert hh using 1
      funext a b
      simp only [colG]
      rw [if_neg (show ¬ m < k from hk), if_neg (show ¬ (l < m ∧ a = k) by omega), ite_self]

/-- The vector the reflector of step `k` is made from. -/
def headG (m i k : ℤ) (g : ℤ → ℤ → F) (x y w : F) : F × F × F :=
  if m < k then (g k (k - 1), g (k + 1) (k - 1), if k + 2 ≤ i then g (k + 2) (k - 1) else w) else (x, y, w)

theorem hqrReflectorG (hd : Dim p r c rz cz) (hlo : p.ilo ≤ l) (hhi : i ≤ p.ihi) {h : FA F} (hh : Is2 h r c (r * c) g)
    (hlm : l ≤ m) (hmk : m ≤ k) (hki : k + 1 ≤ i) (hm2 : m + 2 ≤ i) {v : FA F} {x y w : F} (hv : WorkG v x y w) {beta v2 v3 t : F}
    (e : dlarfg (min 3 (i - k + 1)) (headG m i k g x y w).1 [(headG m i k g x y w).2.1, (headG m i k g x y w).2.2] 1 = pure (beta, [v2, v3], t)) :
    Tot (hqrReflector h m k (min 3 (i - k + 1)) v) fun q => WorkG q.1 beta v2 v3 ∧ q.2 = t := by
  have hc : 0 < c := by have := hd.lo1; have := hd.hic; omega
  unfold headG at e
  by_cases hk : m < k
  · obtain ⟨src, es, hs⟩ := from2_get hh hd.size (len_is2 hh hd.size hc) (hd.cell (a := k) (b := k - 1) (by omega) (by omega) (by omega) (by omega))
    have s1 := hs 0 (by norm_num) (by simpa using hd.cell (a := k) (b := k - 1) (by omega) (by omega) (by omega) (by omega))
    have s2 := hs 1 (by norm_num) (hd.cell (by push_cast; omega) (by push_cast; omega) (by omega) (by omega))
    have s3 := fun hk2 : k + 2 ≤ i => hs 2 (by norm_num) (hd.cell (by push_cast; omega) (by push_cast; omega) (by omega) (by omega))
    norm_num at s1 s2 s3
    rw [if_pos hk] at e
    unfold hqrReflector
    rw [if_pos (show k > m from hk), es]
    simp only [pure_bind]
    by_cases hk2 : k + 2 ≤ i
    · simp only [if_pos hk2] at e
      rw [show min 3 (i - k + 1) = 3 by omega] at e ⊢
      exact Tot.bind (dcopy_workG (nr := 3) (Or.inr rfl) hv s1 s2 (fun _ => s3 hk2) (by omega)) fun v' hv' => reflectorG e hv'
    · simp only [if_neg hk2] at e
      rw [show min 3 (i - k + 1) = 2 by omega] at e ⊢
      exact Tot.bind (dcopy_workG (nr := 2) (z := w) (Or.inl rfl) hv s1 s2 (by omega) (fun _ => rfl)) fun v' hv' => reflectorG e hv'
  · rw [if_neg hk] at e
    unfold hqrReflector
    rw [if_neg (show ¬ k > m from hk)]
    simp only [pure_bind]
    exact reflectorG e hv

theorem hqrChaseG (hd : Dim p r c rz cz) (hlo : p.ilo ≤ l) (hhi : i ≤ p.ihi) {h z v : FA F} (hh : Is2 h r c (r * c) g)
    (hlm : l ≤ m) (hmk : m ≤ k) (hki : k + 1 ≤ i) (hm2 : m + 2 ≤ i) {x y w : F} (hv : WorkG v x y w) {zg : ℤ → ℤ → F}
    (hz : p.wantz = true → Is2 z rz cz (rz * cz) zg) {beta v2 v3 t : F}
    (e : dlarfg (min 3 (i - k + 1)) (headG m i k g x y w).1 [(headG m i k g x y w).2.1, (headG m i k g x y w).2.2] 1 = pure (beta, [v2, v3], t)) :
    Tot (hqrChase p m l i l i (h, z, v) k) fun s => Is2 s.1 r c (r * c) (stepG m l i k beta v2 v3 t g) ∧
      (p.wantz = true → Is2 s.2.1 rz cz (rz * cz) (colsG p.iloz p.ihiz i k v2 v3 t zg)) ∧ WorkG s.2.2 beta v2 v3 := by
  unfold hqrChase
  refine Tot.bind (hqrReflectorG hd hlo hhi hh hlm hmk hki hm2 hv e) ?_
  rintro ⟨v', t'⟩ ⟨hv', rfl⟩
  simp only at hv' ⊢
  obtain ⟨h1, e1, k1⟩ := storeColG (t := t') hd hlo hhi hh hlm hmk hki hv'
  rw [e1, pure_bind, hv'.get1.2.1, hv'.get1.2.2]
  by_cases hk2 : k + 2 ≤ i
  · rw [if_pos (show min 3 (i - k + 1) = 3 by omega)]
    have R (x : ℤ → F) : reflG i k v2 v3 t' x = refl3 k (k + 1) (k + 2) v2 v3 t' (t' * v2) (t' * v3) x := by
      unfold reflG; rw [if_pos hk2]
    obtain ⟨h2, e2, k2⟩ := refl3Rows_ok v2 v3 t' (t' * v2) (t' * v3) k1 hd.size (lo := k) (hi := i)
      (r1 := k) (r2 := k + 1) (r3 := k + 2) (by omega) (by omega) (by omega) (fun j j1 j2 =>
        ⟨hd.cell (by omega) (by omega) (by omega) (by omega), hd.cell (by omega) (by omega) (by omega) (by omega),
          hd.cell (by omega) (by omega) (by omega) (by omega)⟩)
    obtain ⟨h3, e3, k3⟩ := refl3Cols_ok v2 v3 t' (t' * v2) (t' * v3) k2 hd.size (lo := l) (hi := min i (k + 4))
      (r1 := k) (r2 := k + 1) (r3 := k + 2) (by omega) (by omega) (by omega) (fun j j1 j2 =>
        ⟨hd.cell (by omega) (by omega) (by omega) (by omega), hd.cell (by omega) (by omega) (by omega) (by omega),
          hd.cell (by omega) (by omega) (by omega) (by omega)⟩)
    rw [e2, pure_bind, e3, pure_bind]
    have k3' : Is2 h3 r c (r * c) (stepG m l i k beta v2 v3 t' g) := by
      convert k3 using 1
      unfold stepG colsG rowsG
      simp only [R]
    refine Tot.ite (fun hw => ?_) fun hw => Tot.pure ⟨k3', fun h => absurd h hw, hv'⟩
    obtain ⟨z', e, k4⟩ := refl3Cols_ok v2 v3 t' (t' * v2) (t' * v3) (hz hw) hd.zsize (lo := p.iloz) (hi := p.ihiz)
      (r1 := k) (r2 := k + 1) (r3 := k + 2) (by omega) (by omega) (by omega) (fun j j1 j2 =>
        ⟨hd.zcell hw j1 j2 (by omega) (by omega), hd.zcell hw j1 j2 (by omega) (by omega), hd.zcell hw j1 j2 (by omega) (by omega)⟩)
    rw [e, pure_bind]
    refine Tot.pure ⟨k3', fun _ => ?_, hv'⟩
    convert k4 using 1
    unfold colsG
    simp only [R]
  · rw [if_neg (show ¬ min 3 (i - k + 1) = 3 by omega), if_pos (show min 3 (i - k + 1) = 2 by omega)]
    have R (x : ℤ → F) : reflG i k v2 v3 t' x = refl2 k (k + 1) v2 t' (t' * v2) x := by
      unfold reflG; rw [if_neg hk2]
    obtain ⟨h2, e2, k2⟩ := refl2Rows_ok v2 t' (t' * v2) k1 hd.size (lo := k) (hi := i)
      (r1 := k) (r2 := k + 1) (by omega) (fun j j1 j2 =>
        ⟨hd.cell (by omega) (by omega) (by omega) (by omega), hd.cell (by omega) (by omega) (by omega) (by omega)⟩)
    obtain ⟨h3, e3, k3⟩ := refl2Cols_ok v2 t' (t' * v2) k2 hd.size (lo := l) (hi := i)
      (r1 := k) (r2 := k + 1) (by omega) (fun j j1 j2 =>
        ⟨hd.cell (by omega) (by omega) (by omega) (by omega), hd.cell (by omega) (by omega) (by omega) (by omega)⟩)
    rw [e2, pure_bind, e3, pure_bind]
    have k3' : Is2 h3 r c (r * c) (stepG m l i k beta v2 v3 t' g) := by
      convert k3 using 1
      unfold stepG colsG rowsG
      simp only [R, show min i (k + 4) = i by omega]
    refine Tot.ite (fun hw => ?_) fun hw => Tot.pure ⟨k3', fun h => absurd h hw, hv'⟩
    obtain ⟨z', e, k4⟩ := refl2Cols_ok v2 t' (t' * v2) (hz hw) hd.zsize (lo := p.iloz) (hi := p.ihiz)
      (r1 := k) (r2 := k + 1) (by omega) (fun j j1 j2 =>
        ⟨hd.zcell hw j1 j2 (by omega) (by omega), hd.zcell hw j1 j2 (by omega) (by omega)⟩)
    rw [e, pure_bind]
    refine Tot.pure ⟨k3', fun _ => ?_, hv'⟩
    convert k4 using 1
    unfold colsG
    simp only [R]

end

end Verif

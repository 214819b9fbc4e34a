import Verif.Lib.Qr5Safe

/-!
# The last convergence test of a sweep of `dlaqr5`

Any scalar arithmetic.
-/

namespace Verif
open Scalar

variable {F : Type} [Scalar F]

namespace Spec

/-- The scale the subdiagonal element `(k + 1, k)` is compared with: the two diagonal elements beside it or, if these are zero, the elements left of the first and below
the second inside rows and columns `ktop..k + 2`. -/
def deflScale (ktop k : Int) (H : Int → Int → F) : F :=
  let t := abs (H k k) + abs (H (k + 1) (k + 1))
  if t =ᶠ zero then
    let t := if ktop + 1 ≤ k then t + abs (H k (k - 1)) else t
    let t := if ktop + 2 ≤ k then t + abs (H k (k - 2)) else t
    let t := if ktop + 3 ≤ k then t + abs (H k (k - 3)) else t
    t + abs (H (k + 2) (k + 1))
  else t

/-- The criterion of Ahues and Tisseur (LAPACK working note 122) for `(k + 1, k)`: small beside the scale, and its product with the element across the diagonal small beside the
product of the larger diagonal element and the difference of both. -/
def ahuesTisseur (ulp sml : F) (ktop k : Int) (H : Int → Int → F) : Bool :=
  let sub := abs (H (k + 1) k)
  let sup := abs (H k (k + 1))
  let d := abs (H (k + 1) (k + 1))
  let e := abs (H k k - H (k + 1) (k + 1))
  let s := fmax d e + fmax sub sup
  let t := fmin d e * (fmax d e / s)
  (sub ≤ᶠ fmax sml (ulp * deflScale ktop k H)) && ((t =ᶠ zero) || (fmin sub sup * (fmax sub sup / s) ≤ᶠ fmax sml (ulp * t)))

end Spec
open Spec

theorem deflScale_congr {ktop k : Int} (hk : ktop ≤ k) {H G : Int → Int → F} (h : ∀ i j, ktop ≤ i → i ≤ k + 2 → ktop ≤ j → j ≤ k + 2 → G i j = H i j) :
    deflScale ktop k G = deflScale ktop k H := by
  unfold deflScale
  simp only
  rw [h k k (by omega) (by omega) (by omega) (by omega), h (k + 1) (k + 1) (by omega) (by omega) (by omega) (by omega),
    h (k + 2) (k + 1) (by omega) (by omega) (by omega) (by omega)]
  by_cases c1 : ktop + 1 ≤ k
  · rw [h k (k - 1) (by omega) (by omega) (by omega) (by omega)]
    by_cases c2 : ktop + 2 ≤ k
    · rw [h k (k - 2) (by omega) (by omega) (by omega) (by omega)]
      by_cases c3 : ktop + 3 ≤ k
      · rw [h k (k - 3) (by omega) (by omega) (by omega) (by omega)]
      · simp only [c3, if_false]
    · have c3 : ¬ ktop + 3 ≤ k := by omega
      simp only [c2, c3, if_false]
  · have c2 : ¬ ktop + 2 ≤ k := by omega
    have c3 : ¬ ktop + 3 ≤ k := by omega
    simp only [c1, c2, c3, if_false]

theorem ahuesTisseur_congr {ulp sml : F} {ktop k : Int} (hk : ktop ≤ k) {H G : Int → Int → F}
    (h : ∀ i j, ktop ≤ i → i ≤ k + 2 → ktop ≤ j → j ≤ k + 2 → G i j = H i j) : ahuesTisseur ulp sml ktop k G = ahuesTisseur ulp sml ktop k H := by
  unfold ahuesTisseur
  simp only
  rw [deflScale_congr hk h, h k k (by omega) (by omega) (by omega) (by omega), h (k + 1) (k + 1) (by omega) (by omega) (by omega) (by omega),
    h (k + 1) k (by omega) (by omega) (by omega) (by omega), h k (k + 1) (by omega) (by omega) (by omega) (by omega)]

section
variable {p : Qr5P F} {r c ldv cv rz cz ru cu rv cwv rh cwh : Nat}

/-- The element `(k + 1, k)` is zero, or it does not satisfy the criterion. -/
def Deflated (p : Qr5P F) (r : Nat) (k : Int) (h : FA F) : Prop :=
  cellOf r h (k + 1) k = zero ∨ (cellOf r h (k + 1) k =ᶠ zero) = true ∨ ahuesTisseur p.ulp p.smlnum p.ktop k (cellOf r h) = false

theorem qr5Negligible_defl (hf : Fit5 p r c ldv cv rz cz ru cu rv cwv rh cwh) {k : Int} (k1 : p.ktop ≤ k) (k2 : k + 2 = p.kbot) {h : FA F} (hs : HqrShape h r c) :
    Ret (qr5Negligible p k h) fun h' => HqrShape h' r c ∧ Deflated p r k h' := by
  have h1 := hf.top; have h2 := hf.kn; have h3 := hf.nr; have h4 := hf.nc
  have g : ∀ {a b : Int}, 1 ≤ a → a ≤ p.kbot → 1 ≤ b → b ≤ p.kbot → Ret (h.get2 a b) fun x => x = cellOf r h a b :=
    fun a1 a2 b1 b2 => ⟨_, get2_cellOf hs (by omega) (by omega) (by omega) (by omega), rfl⟩
  unfold qr5Negligible
  simp only
  refine Ret.bind (g (by omega) (by omega) (by omega) (by omega)) fun hk1k e1 => Ret.ite (fun _ => ?_) fun h0 => Ret.pure ⟨hs, ?_⟩
  swap
  · right; left
    rw [← e1]
    simpa using h0
  refine Ret.bind (g (by omega) (by omega) (by omega) (by omega)) fun hkk e2 => Ret.bind (g (by omega) (by omega) (by omega) (by omega)) fun hk1k1 e3 => ?_
  have tail : ∀ tst1 : F, tst1 = deflScale p.ktop k (cellOf r h) → Ret (if (abs hk1k ≤ᶠ fmax p.smlnum (p.ulp * tst1)) = true then do
      let hkk1 ← h.get2 k (k + 1)
      if ((fmin (abs hk1k1) (abs (hkk - hk1k1)) * (fmax (abs hk1k1) (abs (hkk - hk1k1)) / (fmax (abs hk1k1) (abs (hkk - hk1k1)) + fmax (abs hk1k) (abs hkk1))) =ᶠ zero) ||
        (fmin (abs hk1k) (abs hkk1) * (fmax (abs hk1k) (abs hkk1) / (fmax (abs hk1k1) (abs (hkk - hk1k1)) + fmax (abs hk1k) (abs hkk1))) ≤ᶠ
          fmax p.smlnum (p.ulp * (fmin (abs hk1k1) (abs (hkk - hk1k1)) * (fmax (abs hk1k1) (abs (hkk - hk1k1)) / (fmax (abs hk1k1) (abs (hkk - hk1k1)) + fmax (abs hk1k) (abs hkk1))))))) = true then
        h.set2 (k + 1) k zero
      else pure h
      else pure h) fun h' => HqrShape h' r c ∧ Deflated p r k h' := by
    intro tst1 et
    refine Ret.ite (fun _ => ?_) fun hn => Ret.pure ⟨hs, ?_⟩
    · refine Ret.bind (g (by omega) (by omega) (by omega) (by omega)) fun hkk1 e4 => ?_
      refine Ret.ite (fun _ => ?_) fun hn => Ret.pure ⟨hs, ?_⟩
      · refine (Ret.post (set2_ret hs (by omega) (by omega) (by omega) (by omega) (by omega) _) (cell_set hs (by omega) (by omega) (by omega) (by omega) zero)).mono
          fun h' e => ⟨hs.same e.1, Or.inl e.2⟩
      · right; right
        unfold ahuesTisseur
        simp only [← e1, ← e2, ← e3, ← e4]
        rw [Bool.not_eq_true] at hn
        rw [hn, Bool.and_false]
    · right; right
      unfold ahuesTisseur
      simp only [← e1, ← e2, ← e3, ← et]
      rw [Bool.not_eq_true] at hn
      rw [hn, Bool.false_and]
  have et : ∀ b, ((abs hkk + abs hk1k1 : F) =ᶠ zero) = b → (abs (cellOf r h k k) + abs (cellOf r h (k + 1) (k + 1)) =ᶠ zero) = b := by
    rw [e2, e3]; exact fun _ h => h
  refine Ret.ite (fun ht => ?_) fun ht => tail _ ?_
  swap
  · unfold deflScale
    simp only
    rw [if_neg (by rw [et _ (by simpa using ht)]; simp), e2, e3]
  simp only [pure_bind]
  have en : k ≤ p.kbot - 2 := by omega
  have en3 : ¬ k ≤ p.kbot - 3 := by omega
  have en4 : ¬ k ≤ p.kbot - 4 := by omega
  simp only [en, en3, en4, if_true, if_false]
  rcases (by omega : k = p.ktop ∨ k = p.ktop + 1 ∨ k = p.ktop + 2 ∨ p.ktop + 3 ≤ k) with hk | hk | hk | hk
  all_goals
    first
    | have c1 : k ≥ p.ktop + 1 := by omega
      simp only [c1, if_true]
    | have c1 : ¬ k ≥ p.ktop + 1 := by omega
      simp only [c1, if_false]
  all_goals
    first
    | have c2 : k ≥ p.ktop + 2 := by omega
      simp only [c2, if_true]
    | have c2 : ¬ k ≥ p.ktop + 2 := by omega
      simp only [c2, if_false]
  all_goals
    first
    | have c3 : k ≥ p.ktop + 3 := by omega
      simp only [c3, if_true]
    | have c3 : ¬ k ≥ p.ktop + 3 := by omega
      simp only [c3, if_false]
  all_goals
    simp only [ge_iff_le] at c1 c2 c3
    repeat refine Ret.bind (g (by omega) (by omega) (by omega) (by omega)) fun _ he => ?_; subst he
    refine tail _ ?_
    unfold deflScale
    simp only [c1, c2, c3, if_true, if_false]
    rw [if_pos (et _ ht), e2, e3]

theorem Ret.foldlM_last {σ ι : Type} {P Q : σ → Prop} {f : σ → ι → R σ} (l : List ι) (x : ι) {s : σ} (hs : P s) (hf : ∀ s i, i ∈ l → P s → Ret (f s i) P)
    (hx : ∀ s, P s → Ret (f s x) Q) : Ret ((l ++ [x]).foldlM f s) Q := by
  rw [List.foldlM_append]
  refine Ret.bind (Ret.foldlM l hs hf) fun a ha => ?_
  rw [List.foldlM_cons]
  exact Ret.bind (hx a ha) fun b hb => Ret.pure hb

theorem Ret.forUp_last {σ : Type} {P Q : σ → Prop} {f : σ → Int → R σ} {lo hi : Int} (hle : lo ≤ hi) {s : σ} (hs : P s)
    (hf : ∀ s i, lo ≤ i → i ≤ hi → P s → Ret (f s i) P) (hx : ∀ s, P s → Ret (f s hi) Q) : Ret (Verif.forUp lo hi s f) Q := by
  have : irange lo hi = irange lo (hi - 1) ++ [hi] := by
    unfold irange
    rw [show (hi - lo + 1).toNat = (hi - 1 - lo + 1).toNat + 1 by omega, List.range_succ, List.map_append]
    simp only [List.map_cons, List.map_nil]
    rw [show lo + (((hi - 1 - lo + 1).toNat : Nat) : Int) = hi by omega]
  unfold Verif.forUp
  rw [this]
  refine Ret.foldlM_last _ _ hs (fun s i hi' hs => ?_) hx
  rw [mem_irange] at hi'
  exact hf s i hi'.1 (by omega) hs

theorem Ret.forStep_last {σ : Type} {P Q : σ → Prop} {f : σ → Int → R σ} {lo hi : Int} (hle : lo ≤ hi) {s : σ} (hs : P s)
    (hf : ∀ s i, lo ≤ i → i ≤ hi → P s → Ret (f s i) P) (hx : ∀ s i, lo ≤ i → i ≤ hi → hi < i + 2 → P s → Ret (f s i) Q) : Ret (Verif.forStep lo hi 2 s f) Q := by
  unfold Verif.forStep irangeStep
  rw [if_neg (by omega), pure_bind]
  obtain ⟨N, hN⟩ : ∃ N, ((hi - lo + 1).toNat + 2 - 1) / 2 = N + 1 := ⟨((hi - lo + 1).toNat + 2 - 1) / 2 - 1, by omega⟩
  rw [hN, List.range_succ, List.map_append]
  refine Ret.foldlM_last _ _ hs (fun s i hi' hs => ?_) fun s hs => ?_
  · obtain ⟨k, hk, rfl⟩ := List.mem_map.1 hi'
    rw [List.mem_range] at hk
    exact hf s _ (by omega) (by omega) hs
  · exact hx s (lo + (N : Int) * ((2 : Nat) : Int)) (by omega) (by omega) (by omega) hs

local notation "Shp" => Shape5 p r c ldv cv rz cz ru cu rv cwv rh cwh

theorem qr5Bmp22_defl (hf : Fit5 p r c ldv cv rz cz ru cu rv cwv rh cwh) (ha : p.accum = false) {incol jtop jbot krcol : Int} (k1 : p.ktop ≤ krcol) (k2 : krcol + 2 = p.kbot)
    (jt : 1 ≤ jtop) (jb : jbot ≤ c) {s : Qr5S F} (hs : Shp s) :
    Ret (qr5Bmp22 p incol jtop jbot krcol 1 s) fun s' => Shp s' ∧ Deflated p r krcol s'.h := by
  have h1 := hf.top; have h2 := hf.kn; have h3 := hf.nr; have h4 := hf.nc; have h5 := hf.ldv3; have h6 := hf.cv1; have h7 := hf.lt
  unfold qr5Bmp22
  simp only [show krcol + 2 * ((1 : Int) - 1) = krcol by ring]
  refine Ret.bind (qr5Bmp22Refl_ret hf (by omega) (by omega) hs.h hs.v) fun q hq => ?_
  obtain ⟨h, v⟩ := q
  obtain ⟨hh, hv⟩ := hq
  simp only at hh hv ⊢
  refine Ret.bind (get2_ret hv (by omega) (by omega) (by omega) (by omega) (by omega)) fun t1 _ => ?_
  refine Ret.bind (get2_ret hv (by omega) (by omega) (by omega) (by omega) (by omega)) fun v2 _ => ?_
  refine Ret.bind (refl2Cols_ret hh (by omega) (by omega) (by omega) (by omega) (by omega) (by omega) (by omega)) fun ha' hha => ?_
  refine Ret.bind (refl2Rows_ret hha (by omega) (by omega) (by omega) (by omega) (by omega) (by omega) (by omega)) fun hb hhb => ?_
  rw [if_pos (by omega)]
  refine Ret.bind (qr5Negligible_defl hf k1 k2 hhb) fun h' hh' => ?_
  rw [ha]
  simp only [Bool.false_eq_true, if_false]
  refine Ret.ite (fun hw => ?_) fun hw => Ret.pure ⟨⟨hh'.1, hv, hs.zr, hs.z, hs.u, hs.wv, hs.wh⟩, hh'.2⟩
  have i1 := hf.iloz hw; have i2 := hf.ihiz hw; have i3 := hf.zfit ha hw
  refine Ret.bind (refl2Cols_fits (hs.zr hw) fun i q1 q2 => ⟨offFits_z i3 (by omega) (by omega) (by omega) (by omega) (by omega),
    offFits_z i3 (by omega) (by omega) (by omega) (by omega) (by omega)⟩) fun z hz => ?_
  exact Ret.pure ⟨⟨hh'.1, hv, fun _ => hz.1 ▸ hs.zr hw, fun h => absurd h (by rw [ha]; simp), hs.u, hs.wv, hs.wh⟩, hh'.2⟩

theorem qr5AccZ_h (krcol m : Int) (s : Qr5S F) : Post (qr5AccZ p krcol s m) fun s' => s'.h = s.h := by
  unfold qr5AccZ
  exact Post.bind' fun _ => Post.bind' fun _ => Post.bind' fun _ => Post.bind' fun _ => Post.pure rfl

theorem qr5Krcol_defl (hf : Fit5 p r c ldv cv rz cz ru cu rv cwv rh cwh) (ha : p.accum = false) {incol jtop krcol : Int} (k1 : p.ktop ≤ krcol) (k2 : krcol + 2 = p.kbot)
    (ki : incol ≤ krcol) (ki2 : krcol ≤ incol + 1) (jt : 1 ≤ jtop) {s : Qr5S F} (hs : Shp s) :
    Ret (qr5Krcol p incol jtop s krcol) fun s' => Shp s' ∧ Deflated p r krcol s'.h := by
  have h1 := hf.top; have h2 := hf.kn; have h3 := hf.nr; have h4 := hf.nc; have h7 := hf.lt
  have hmt : max 1 ((p.ktop - krcol).tdiv 2 + 1) = 1 := by
    have := tdiv2_nonpos (x := p.ktop - krcol) (by omega)
    omega
  unfold qr5Krcol
  simp only [hmt, hf.nb]
  rw [ha]
  simp only [Bool.false_eq_true, if_false]
  have hjb : (if p.wantt = true then p.n else p.kbot) ≤ (c : Int) := by split <;> omega
  generalize (if p.wantt = true then p.n else p.kbot) = jbot at hjb
  have hmb : min 1 ((p.kbot - krcol - 1).tdiv 2) = 0 := by rw [tdiv2_small (by omega) (by omega)]; rfl
  rw [hmb, if_pos ⟨by norm_num, by omega⟩]
  refine Ret.bind (qr5Bmp22_defl hf ha k1 k2 jt hjb hs) fun s1 hs1 => ?_
  refine Ret.bind (Ret.forDown (P := fun s' => Shp s' ∧ Deflated p r krcol s'.h) hs1 fun s m m1 m2 _ => by omega) fun s2 hs2 => Ret.bind (Ret.forDown (P := fun s' => Shp s' ∧ Deflated p r krcol s'.h) hs2 fun s m m1 m2 _ => by omega) fun s3 hs3 => ?_
  refine Ret.ite (fun hw => Ret.forDown (P := fun s' => Shp s' ∧ Deflated p r krcol s'.h) hs3 fun s m m1 m2 hs' => ?_) fun _ => Ret.pure hs3
  obtain ⟨a, e, hs''⟩ := qr5AccZ_ret hf ha hw (by omega) hs'.1 (krcol := krcol) (m := m)
  have := qr5AccZ_h (p := p) krcol m s .debug a (by rw [e]; rfl)
  exact ⟨a, e, hs'', this ▸ hs'.2⟩

theorem qr5Incol_defl (hf : Fit5 p r c ldv cv rz cz ru cu rv cwv rh cwh) (ha : p.accum = false) {incol : Int} (k1 : p.ktop - 1 ≤ incol) (k2 : incol + 2 ≤ p.kbot)
    (k3 : p.kbot ≤ incol + 3) (hb : p.ktop + 2 ≤ p.kbot) {s : Qr5S F} (hs : Shp s) : Ret (qr5Incol p s incol) fun s' => Shp s' ∧ Deflated p r (p.kbot - 2) s'.h := by
  have h1 := hf.top
  have hjt : 1 ≤ (if p.wantt = true then 1 else p.ktop) := by split <;> omega
  unfold qr5Incol
  simp only [hf.nb]
  rw [ha]
  simp only [Bool.false_eq_true, if_false]
  generalize (if p.wantt = true then 1 else p.ktop) = jtop at hjt
  rw [pure_bind]
  refine Ret.bind (Ret.forUp_last (P := Shp) (Q := fun s' => Shp s' ∧ Deflated p r (p.kbot - 2) s'.h) (by omega) hs (fun s j j1 j2 hs' => ?_) fun s hs' => ?_) fun s1 hs1 => Ret.pure hs1
  · exact qr5Krcol_ret hf (by omega) (by omega) j1 (by omega) hjt hs'
  · rw [show min (incol + 2 * 1 - 1) (p.kbot - 2) = p.kbot - 2 by omega]
    exact qr5Krcol_defl hf ha (by omega) (by omega) (by omega) (by omega) hjt hs'

theorem qr5Main_defl (hf : Fit5 p r c ldv cv rz cz ru cu rv cwv rh cwh) (ha : p.accum = false) (hb : p.ktop + 2 ≤ p.kbot) (nshfts : Int) {s : Qr5S F} (hs : Shp s) :
    Ret (qr5Main p nshfts s) fun s' => Shp s' ∧ Deflated p r (p.kbot - 2) s'.h := by
  have h1 := hf.top; have h2 := hf.kn; have h3 := hf.nr; have h4 := hf.nc; have h7 := hf.lt
  unfold qr5Main
  refine Ret.bind (P := fun _ => True) (Ret.forStep (by norm_num) trivial fun q i _ _ _ => ?_) fun q _ => ?_
  · unfold qr5Shuffle
    exact Ret.ite (fun _ => Ret.pure trivial) fun _ => Ret.pure trivial
  obtain ⟨sr, si⟩ := q
  simp only
  rw [if_pos hb]
  refine Ret.bind (set2_ret hs.h (by omega) (by omega) (by omega) (by omega) (by omega) _) fun h hh => ?_
  rw [hf.nb]
  show Ret (Verif.forStep (p.ktop - 2 * 1 + 1) (p.kbot - 2) 2 _ (qr5Incol p)) _
  refine Ret.forStep_last (P := Shp) (by omega) ⟨hh, hs.v, hs.zr, hs.z, hs.u, hs.wv, hs.wh⟩ (fun s' i i1 i2 hs' => ?_) fun s' i i1 i2 i3 hs' => ?_
  · exact qr5Incol_ret hf (by omega) (by omega) hs'
  · exact qr5Incol_defl hf ha (by omega) (by omega) (by omega) hb hs'

end

end Verif

import Verif.Lib.Qr5Scratch

/-!
# Two runs of `dlaqr5` that differ in the contents of the work arrays: the sweeps

Any scalar arithmetic, two or three shifts.
-/

namespace Verif
open Scalar Spec

variable {F : Type} [Scalar F]

section
variable {p : Qr5P F} {r c ldv cv rz cz ru cu rv cwv rh cwh : Nat}

/-- How many elements of the first column of `v` step `k` of the chain takes from the step before. -/
def need5 (p : Qr5P F) (k : Int) : Nat := if p.ktop ≤ k ∧ p.ktop + 2 ≤ p.kbot then 3 else 0

theorem set2_pre {m : Nat} {v v' : FA F} (hv : HqrShape v ldv cv) (hv' : HqrShape v' ldv cv) (h3 : 3 ≤ ldv) (hc : 1 ≤ cv) (h : Pre m v.data v'.data) {i : Int} (i1 : 1 ≤ i) (i2 : i ≤ 3) (x : F) :
    Sim (fun a b : FA F => Pre m a.data b.data ∧ HqrShape a ldv cv ∧ HqrShape b ldv cv) (v.set2 i 1 x) (v'.set2 i 1 x) :=
  Sim.and_ret (modify2_pre h i1 i2 _) (set2_ret hv (by omega) (by omega) (by omega) (by omega) (by omega) x) (set2_ret hv' (by omega) (by omega) (by omega) (by omega) (by omega) x)

theorem larfg_both {n : Int} (h1 : 2 ≤ n) (h2 : n ≤ 3) (h3 : 3 ≤ ldv) (hc : 1 ≤ cv) (beta : F) {v v' : FA F} (hv : HqrShape v ldv cv) (hv' : HqrShape v' ldv cv)
    {m : Nat} (hm : n ≤ (m + 1 : Nat)) (h : Pre (m + 1) v.data v'.data) :
    Sim (fun q q' => q'.1 = q.1 ∧ Pre (m + 1) q.2.data q'.2.data) (qr5Larfg ldv n 1 beta v) (qr5Larfg ldv n 1 beta v') := qr5Larfg_pre h1 h2 h3 hc beta hv hv' hm h

theorem qr5Bmp22Refl_pre (hf : Fit5 p r c ldv cv rz cz ru cu rv cwv rh cwh) {k : Int} (k1 : p.ktop - 1 ≤ k) (k2 : k + 2 = p.kbot) {s s' : Qr5S F}
    (hh : HqrShape s.h r c) (hv : HqrShape s.v ldv cv) (hv' : HqrShape s'.v ldv cv) (e1 : s'.sr = s.sr) (e2 : s'.si = s.si) (e3 : s'.h = s.h)
    (hp : Pre (need5 p k) s.v.data s'.v.data) :
    Sim (fun q q' => q'.1 = q.1 ∧ Pre 2 q.2.data q'.2.data ∧ Pre (need5 p (k + 1)) q.2.data q'.2.data) (qr5Bmp22Refl p k 1 s) (qr5Bmp22Refl p k 1 s') := by
  have h1 := hf.top; have h2 := hf.kn; have h3 := hf.nr; have h4 := hf.nc; have h5 := hf.ldv3; have h6 := hf.cv1; have h7 := hf.lt
  unfold qr5Bmp22Refl
  rw [hf.ldh, hf.lv, e1, e2, e3]
  refine Sim.ite (fun hk => ?_) fun hk => ?_
  · have hn' : need5 p (k + 1) = 0 := by unfold need5; rw [if_neg (by omega)]
    rw [hn']
    refine startVec_pre (n := 2) (Or.inl rfl) hh hv hv' h5 h6 (by omega) (by omega) (by omega) ⟨by omega, by omega⟩ _ _ _ _ fun w w' hw hw' hp => ?_
    rw [get2_pre hp (by norm_num) (by norm_num) (by norm_num)]
    refine Sim.bind' fun beta => ?_
    refine Sim.bind (larfg_both (n := 2) (m := 1) (by norm_num) (by norm_num) h5 h6 beta hw hw' (by norm_num) hp) fun q q' hq => ?_
    obtain ⟨b, w1⟩ := q
    obtain ⟨b', w1'⟩ := q'
    exact Sim.pure ⟨rfl, hq.2, hq.2.mono (by norm_num)⟩
  · have hn : need5 p k = 3 := by unfold need5; rw [if_pos ⟨by omega, by omega⟩]
    have hn' : need5 p (k + 1) = 3 := by unfold need5; rw [if_pos ⟨by omega, by omega⟩]
    rw [hn] at hp
    rw [hn']
    refine Sim.bind' fun beta => Sim.bind' fun x => ?_
    refine Sim.bind (set2_pre hv hv' h5 h6 hp (by norm_num) (by norm_num) x) fun w w' hw => ?_
    refine Sim.bind (larfg_both (n := 2) (m := 2) (by norm_num) (by norm_num) h5 h6 beta hw.2.1 hw.2.2 (by norm_num) hw.1) fun q q' hq => ?_
    obtain ⟨b, w1⟩ := q
    obtain ⟨b', w1'⟩ := q'
    obtain ⟨rfl, hq⟩ := hq
    simp only at hq ⊢
    exact Sim.bind' fun a => Sim.bind' fun b => Sim.pure ⟨rfl, hq.mono (by norm_num), hq⟩

/-- The part of `u` the sweep works on. -/
def blkU (a b : Int) : Prop := (1 ≤ a ∧ a ≤ 4) ∧ 1 ≤ b ∧ b ≤ 4

/-- The two arrays agree on the part of `u` the sweep works on. -/
def LikeU (ru cu : Nat) (u u' : FA F) : Prop := Loc2 blkU (fun _ _ => True) ru cu (fun _ _ => zero) (fun _ _ => zero) u u'

/-- The states differ in the work arrays only; the first `m` elements of `v` are the same. -/
structure Like5 (p : Qr5P F) (ru cu m : Nat) (s s' : Qr5S F) : Prop where
  sr : s'.sr = s.sr
  si : s'.si = s.si
  h : s'.h = s.h
  z : s'.z = s.z
  vt : s'.vt = s.vt
  v : Pre m s.v.data s'.v.data
  u : p.accum = true → LikeU ru cu s.u s'.u

local notation "S5" => Shape5 p r c ldv cv rz cz ru cu rv cwv rh cwh

/-- With the shapes of the arrays. -/
def Pair5 (p : Qr5P F) (r c ldv cv rz cz ru cu rv cwv rh cwh m : Nat) (s s' : Qr5S F) : Prop :=
  Like5 p ru cu m s s' ∧ Shape5 p r c ldv cv rz cz ru cu rv cwv rh cwh s ∧ Shape5 p r c ldv cv rz cz ru cu rv cwv rh cwh s'

local notation "Both5" => Pair5 p r c ldv cv rz cz ru cu rv cwv rh cwh

theorem qr5Bmp22_pre (hf : Fit5 p r c ldv cv rz cz ru cu rv cwv rh cwh) {incol jtop jbot krcol : Int} (k1 : p.ktop - 1 ≤ krcol) (k2 : krcol + 2 = p.kbot)
    (ki : incol ≤ krcol) (ki2 : krcol ≤ incol + 1) (jt : 1 ≤ jtop) (jb : jbot ≤ c) {s s' : Qr5S F} (hs : S5 s) (hs' : S5 s') (L : Like5 p ru cu (need5 p krcol) s s') :
    Sim (Both5 (need5 p (krcol + 1))) (qr5Bmp22 p incol jtop jbot krcol 1 s) (qr5Bmp22 p incol jtop jbot krcol 1 s') := by
  have h1 := hf.top; have h2 := hf.kn; have h3 := hf.nr; have h4 := hf.nc; have h5 := hf.ldv3; have h6 := hf.cv1; have h7 := hf.lt
  have hkdu : p.kdu = 4 := by unfold Qr5P.kdu; rw [hf.nb]; norm_num
  refine Sim.and_ret ?_ (qr5Bmp22_ret hf k1 (by omega) ki ki2 jt jb hs) (qr5Bmp22_ret hf k1 (by omega) ki ki2 jt jb hs')
  unfold qr5Bmp22
  simp only [show krcol + 2 * ((1 : Int) - 1) = krcol by ring]
  refine Sim.bind (qr5Bmp22Refl_pre hf k1 k2 hs.h hs.v hs'.v L.sr L.si L.h L.v) fun q q' hq => ?_
  obtain ⟨h, v⟩ := q
  obtain ⟨h', v'⟩ := q'
  obtain ⟨rfl, p2, p3⟩ := hq
  simp only at p2 p3 ⊢
  rw [get2_pre p2 (by norm_num) (by norm_num) (by norm_num), get2_pre p2 (by norm_num) (by norm_num) (by norm_num)]
  refine Sim.bind' fun t1 => Sim.bind' fun v2 => Sim.bind' fun ha => Sim.bind' fun hb => ?_
  have tail : ∀ x : FA F, Sim (Like5 p ru cu (need5 p (krcol + 1))) (if p.accum = true then do
        let u ← refl2Cols (max 1 (p.ktop - incol)) p.kdu (krcol - incol + 1) (krcol - incol + 2) v2 t1 (t1 * v2) s.u
        pure { s with h := x, v := v, u := u }
      else if p.wantz = true then do
        let z ← refl2Cols p.iloz p.ihiz (krcol + 1) (krcol + 2) v2 t1 (t1 * v2) s.z
        pure { s with h := x, v := v, z := z }
      else pure { s with h := x, v := v }) (if p.accum = true then do
        let u ← refl2Cols (max 1 (p.ktop - incol)) p.kdu (krcol - incol + 1) (krcol - incol + 2) v2 t1 (t1 * v2) s'.u
        pure { s' with h := x, v := v', u := u }
      else if p.wantz = true then do
        let z ← refl2Cols p.iloz p.ihiz (krcol + 1) (krcol + 2) v2 t1 (t1 * v2) s'.z
        pure { s' with h := x, v := v', z := z }
      else pure { s' with h := x, v := v' }) := by
    intro x
    refine Sim.ite (fun hacc => ?_) fun hacc => Sim.ite (fun _ => by rw [L.z]; exact Sim.bind' fun z => Sim.pure ⟨L.sr, L.si, rfl, rfl, L.vt, p3, L.u⟩) fun _ => Sim.pure ⟨L.sr, L.si, rfl, L.z, L.vt, p3, L.u⟩
    have := hf.ru4 hacc; have := hf.cu4 hacc
    refine Sim.bind (rel := LikeU ru cu) (refl2Cols_loc2 (L.u hacc) (hs.u hacc).small v2 t1 (t1 * v2) (by omega) fun j j1 j2 => ⟨⟨trivial, trivial⟩, Or.inl ?_⟩) fun u u' hu => ?_
    · unfold blkU; omega
    · exact Sim.pure ⟨L.sr, L.si, rfl, L.z, L.vt, p3, fun _ => hu⟩
  refine Sim.ite (fun hk => Sim.bind' fun x => tail x) fun _ => tail hb

theorem qr5Collapsed_pre {k : Int} (beta : F) {s s' : Qr5S F} (e1 : s'.sr = s.sr) (e2 : s'.si = s.si) (e3 : s'.vt = s.vt) (h : FA F) {v v' : FA F}
    (hp : Pre 3 v.data v'.data) :
    Sim (fun q q' => q'.1 = q.1 ∧ Pre 3 q.2.1.data q'.2.1.data ∧ q'.2.2 = q.2.2) (qr5Collapsed p k 1 beta s h v) (qr5Collapsed p k 1 beta s' h v') := by
  unfold qr5Collapsed
  rw [e1, e2, e3]
  refine Sim.bind' fun _ => Sim.bind' fun _ => Sim.bind' fun q => ?_
  obtain ⟨b, vt1, vt2⟩ := q
  simp only
  refine Sim.bind' fun vt => Sim.bind' fun _ => Sim.bind' fun _ => Sim.bind' fun _ => Sim.bind' fun _ => Sim.bind' fun _ => Sim.ite (fun _ => ?_) fun _ => ?_
  · exact Sim.bind' fun _ => Sim.bind' fun _ => Sim.bind' fun _ => Sim.pure ⟨rfl, hp, rfl⟩
  · refine Sim.bind' fun _ => Sim.bind' fun _ => Sim.bind' fun _ => ?_
    refine Sim.bind (modify2_pre hp (by norm_num) (by norm_num) _) fun a a' ha => Sim.bind (modify2_pre ha (by norm_num) (by norm_num) _) fun b b' hb => ?_
    exact Sim.bind (modify2_pre hb (by norm_num) (by norm_num) _) fun c c' hc => Sim.pure ⟨rfl, hc, rfl⟩

theorem qr5Refl3_pre (hf : Fit5 p r c ldv cv rz cz ru cu rv cwv rh cwh) {k : Int} (k1 : p.ktop - 1 ≤ k) (k2 : k + 3 ≤ p.kbot) {s s' : Qr5S F}
    (hh : HqrShape s.h r c) (hv : HqrShape s.v ldv cv) (hv' : HqrShape s'.v ldv cv) (L : Like5 p ru cu (need5 p k) s s') :
    Sim (fun q q' => q'.1 = q.1 ∧ Pre 3 q.2.1.data q'.2.1.data ∧ q'.2.2 = q.2.2) (qr5Refl3 p k 1 s) (qr5Refl3 p k 1 s') := by
  have h1 := hf.top; have h2 := hf.kn; have h3 := hf.nr; have h4 := hf.nc; have h5 := hf.ldv3; have h6 := hf.cv1; have h7 := hf.lt
  unfold qr5Refl3
  rw [hf.ldh, hf.lv, L.sr, L.si, L.h, L.vt]
  refine Sim.ite (fun hk => ?_) fun hk => ?_
  · refine startVec_pre (n := 3) (Or.inr rfl) hh hv hv' h5 h6 (by omega) (by omega) (by omega) ⟨by omega, by omega⟩ _ _ _ _ fun w w' hw hw' hp => ?_
    rw [get2_pre hp (by norm_num) (by norm_num) (by norm_num)]
    refine Sim.bind' fun beta => ?_
    refine Sim.bind (larfg_both (n := 3) (m := 2) (by norm_num) (by norm_num) h5 h6 beta hw hw' (by norm_num) hp) fun q q' hq => ?_
    obtain ⟨b, w1⟩ := q
    obtain ⟨b', w1'⟩ := q'
    exact Sim.pure ⟨rfl, hq.2, rfl⟩
  · have hp := L.v
    have hn : need5 p k = 3 := by unfold need5; rw [if_pos ⟨by omega, by omega⟩]
    rw [hn] at hp
    rw [get2_pre hp (by norm_num) (by norm_num) (by norm_num), get2_pre hp (by norm_num) (by norm_num) (by norm_num), get2_pre hp (by norm_num) (by norm_num) (by norm_num)]
    refine Sim.bind' fun t1 => Sim.bind' fun v2 => Sim.bind' fun v3 => Sim.bind' fun x => Sim.bind' fun ha => Sim.bind' fun hb => Sim.bind' fun hc => Sim.bind' fun beta => Sim.bind' fun y => ?_
    refine Sim.bind (set2_pre hv hv' h5 h6 hp (by norm_num) (by norm_num) y) fun w w' hw => Sim.bind' fun y' => ?_
    refine Sim.bind (set2_pre hw.2.1 hw.2.2 h5 h6 hw.1 (by norm_num) (by norm_num) y') fun w w' hw => ?_
    refine Sim.bind (larfg_both (n := 3) (m := 2) (by norm_num) (by norm_num) h5 h6 beta hw.2.1 hw.2.2 (by norm_num) hw.1) fun q q' hq => ?_
    obtain ⟨b, w1⟩ := q
    obtain ⟨b', w1'⟩ := q'
    obtain ⟨rfl, hq⟩ := hq
    simp only at hq ⊢
    refine Sim.bind' fun y1 => Sim.bind' fun y2 => Sim.bind' fun y3 => Sim.ite (fun _ => ?_) fun _ => qr5Collapsed_pre _ L.sr L.si L.vt hc hq
    exact Sim.bind' fun a => Sim.bind' fun b => Sim.bind' fun c => Sim.pure ⟨rfl, hq, rfl⟩

theorem qr5Bulge_pre (hf : Fit5 p r c ldv cv rz cz ru cu rv cwv rh cwh) {jtop krcol : Int} (k1 : p.ktop - 1 ≤ krcol) (k2 : krcol + 3 ≤ p.kbot) (jt : 1 ≤ jtop)
    {s s' : Qr5S F} (hs : S5 s) (hs' : S5 s') (L : Like5 p ru cu (need5 p krcol) s s') : Sim (Both5 3) (qr5Bulge p jtop krcol s 1) (qr5Bulge p jtop krcol s' 1) := by
  refine Sim.and_ret ?_ (qr5Bulge_ret hf k1 k2 jt hs) (qr5Bulge_ret hf k1 k2 jt hs')
  unfold qr5Bulge
  simp only [show krcol + 2 * ((1 : Int) - 1) = krcol by ring]
  refine Sim.bind (qr5Refl3_pre hf k1 k2 hs.h hs.v hs'.v L) fun q q' hq => ?_
  obtain ⟨h, v, vt⟩ := q
  obtain ⟨h', v', vt'⟩ := q'
  obtain ⟨rfl, hp, rfl⟩ := hq
  simp only at hp ⊢
  rw [get2_pre hp (by norm_num) (by norm_num) (by norm_num), get2_pre hp (by norm_num) (by norm_num) (by norm_num), get2_pre hp (by norm_num) (by norm_num) (by norm_num)]
  refine Sim.bind' fun t1 => Sim.bind' fun v2 => Sim.bind' fun v3 => Sim.bind' fun ha => Sim.bind' fun hb => ?_
  exact Sim.ite (fun _ => Sim.pure ⟨L.sr, L.si, rfl, L.z, rfl, hp, L.u⟩) fun _ => Sim.bind' fun x => Sim.pure ⟨L.sr, L.si, rfl, L.z, rfl, hp, L.u⟩

theorem qr5Left_pre (hf : Fit5 p r c ldv cv rz cz ru cu rv cwv rh cwh) {krcol jbot : Int} (k1 : p.ktop - 1 ≤ krcol) (k2 : krcol + 3 ≤ p.kbot) (jb : jbot ≤ c)
    {s s' : Qr5S F} (hs : S5 s) (hs' : S5 s') (L : Like5 p ru cu 3 s s') : Sim (Both5 3) (qr5Left p krcol jbot s 1) (qr5Left p krcol jbot s' 1) := by
  refine Sim.and_ret ?_ (qr5Left_ret hf k1 k2 jb hs) (qr5Left_ret hf k1 k2 jb hs')
  unfold qr5Left
  have hp := L.v
  rw [get2_pre hp (by norm_num) (by norm_num) (by norm_num), get2_pre hp (by norm_num) (by norm_num) (by norm_num), get2_pre hp (by norm_num) (by norm_num) (by norm_num), L.h]
  exact Sim.bind' fun t1 => Sim.bind' fun v2 => Sim.bind' fun v3 => Sim.bind' fun x => Sim.pure ⟨L.sr, L.si, rfl, L.z, L.vt, hp, L.u⟩

theorem qr5AccU_pre (hf : Fit5 p r c ldv cv rz cz ru cu rv cwv rh cwh) (ha : p.accum = true) {incol krcol : Int} (ki : incol ≤ krcol) (ki2 : krcol ≤ incol + 1)
    {s s' : Qr5S F} (hs : S5 s) (hs' : S5 s') (L : Like5 p ru cu 3 s s') : Sim (Both5 3) (qr5AccU p incol krcol 1 s 1) (qr5AccU p incol krcol 1 s' 1) := by
  have h7 := hf.ru4 ha; have h8 := hf.cu4 ha
  have hkdu : p.kdu = 4 := by unfold Qr5P.kdu; rw [hf.nb]; norm_num
  refine Sim.and_ret ?_ (qr5AccU_ret hf ha ki ki2 hs) (qr5AccU_ret hf ha ki ki2 hs')
  unfold qr5AccU
  simp only [show krcol + 2 * ((1 : Int) - 1) = krcol by ring]
  have hp := L.v
  rw [get2_pre hp (by norm_num) (by norm_num) (by norm_num), get2_pre hp (by norm_num) (by norm_num) (by norm_num), get2_pre hp (by norm_num) (by norm_num) (by norm_num)]
  refine Sim.bind' fun t1 => Sim.bind' fun v2 => Sim.bind' fun v3 => ?_
  refine Sim.bind (rel := LikeU ru cu) (refl3Cols_loc2 (L.u ha) (hs.u ha).small v2 v3 t1 (t1 * v2) (t1 * v3) (by omega) fun j j1 j2 => ⟨⟨trivial, trivial, trivial⟩, Or.inl ?_⟩) fun u u' hu => ?_
  · unfold blkU; omega
  · exact Sim.pure ⟨L.sr, L.si, L.h, L.z, L.vt, hp, fun _ => hu⟩

theorem get2_v0_eq {v v' : FA F} (hv : HqrShape v ldv cv) (hv' : HqrShape v' ldv cv) (h3 : 3 ≤ ldv) (hc : 1 ≤ cv) (hp : Pre 3 v.data v'.data) {i : Int} (i1 : 1 ≤ i) (i3 : i ≤ 3) {m : Int}
    (m0 : 0 ≤ m) (m1 : m ≤ 1) : v'.get2 i m = v.get2 i m := by
  rcases (by omega : m = 0 ∨ m = 1) with rfl | rfl
  · have hsm : ((ldv * cv : ℕ) : Int) < 2147483648 := by exact_mod_cast hv.small
    have hl : ldv ≤ ldv * cv := Nat.le_mul_of_pos_right _ (by omega)
    have l1 : v.data.length < 2 ^ 31 := by rw [hv.length]; exact hv.small
    have l2 : v'.data.length < 2 ^ 31 := by rw [hv'.length]; exact hv'.small
    have o : ∀ {a : FA F}, a.rows = ldv → a.off i 0 = pure (-(ldv : Int) + (i - 1)) := fun {a} ra => by
      unfold FA.off
      rw [ra, isub_ok (by unfold FitsI32; omega), isub_ok (by unfold FitsI32; omega)]
      simp only [pure_bind]
      rw [imul_ok (by unfold FitsI32; omega), pure_bind, iadd_ok (by unfold FitsI32; omega)]
      congr 1
      ring
    unfold FA.get2
    rw [o hv.rows, o hv'.rows, pure_bind, pure_bind]
    have big : 2 ^ 31 ≤ asUsize (-(ldv : Int) + (i - 1)) := by
      unfold asUsize
      omega
    rw [List.getElem?_eq_none_iff.2 (by omega), List.getElem?_eq_none_iff.2 (by omega)]
  · exact get2_pre hp i1 i3 i3

theorem qr5AccZ_pre (hf : Fit5 p r c ldv cv rz cz ru cu rv cwv rh cwh) (ha : p.accum = false) (hw : p.wantz = true) {krcol m : Int}
    (hm : m = 1 ∧ p.ktop - 1 ≤ krcol ∧ krcol + 2 ≤ p.kbot ∨ m = 0 ∧ krcol + 2 = p.kbot)
    {s s' : Qr5S F} (hs : S5 s) (hs' : S5 s') (L : Like5 p ru cu 3 s s') : Sim (Both5 3) (qr5AccZ p krcol s m) (qr5AccZ p krcol s' m) := by
  have h5 := hf.ldv3; have h6 := hf.cv1
  refine Sim.and_ret ?_ (qr5AccZ_ret hf ha hw hm hs) (qr5AccZ_ret hf ha hw hm hs')
  unfold qr5AccZ
  have hp := L.v
  rw [get2_v0_eq hs.v hs'.v h5 h6 hp (by norm_num) (by norm_num) (by omega) (by omega), get2_v0_eq hs.v hs'.v h5 h6 hp (by norm_num) (by norm_num) (by omega) (by omega),
    get2_v0_eq hs.v hs'.v h5 h6 hp (by norm_num) (by norm_num) (by omega) (by omega), L.z]
  exact Sim.bind' fun t1 => Sim.bind' fun v2 => Sim.bind' fun v3 => Sim.bind' fun x => Sim.pure ⟨L.sr, L.si, L.h, rfl, L.vt, hp, L.u⟩

theorem qr5Krcol_pre (hf : Fit5 p r c ldv cv rz cz ru cu rv cwv rh cwh) (hz : p.accum = false → p.wantz = true → p.ktop + 2 ≤ p.kbot)
    {incol jtop krcol : Int} (k1 : p.ktop - 1 ≤ krcol) (k2 : krcol + 2 ≤ p.kbot)
    (ki : incol ≤ krcol) (ki2 : krcol ≤ incol + 1) (jt : 1 ≤ jtop) {s s' : Qr5S F} (hs : Both5 (need5 p krcol) s s') :
    Sim (Both5 (need5 p (krcol + 1))) (qr5Krcol p incol jtop s krcol) (qr5Krcol p incol jtop s' krcol) := by
  have h1 := hf.top; have h2 := hf.kn; have h3 := hf.nr; have h4 := hf.nc; have h7 := hf.lt
  obtain ⟨L, hs, hs'⟩ := hs
  have hmt : max 1 ((p.ktop - krcol).tdiv 2 + 1) = 1 := by
    have := tdiv2_nonpos (x := p.ktop - krcol) (by omega)
    omega
  unfold qr5Krcol
  simp only [hmt, hf.nb]
  have hjb : (if p.accum = true then min (incol + p.kdu) p.kbot else if p.wantt = true then p.n else p.kbot) ≤ (c : Int) := by
    split
    · omega
    · split <;> omega
  generalize (if p.accum = true then min (incol + p.kdu) p.kbot else if p.wantt = true then p.n else p.kbot) = jbot at hjb
  rcases (by omega : krcol + 2 = p.kbot ∨ krcol + 3 ≤ p.kbot) with hk | hk
  · have hmb : min 1 ((p.kbot - krcol - 1).tdiv 2) = 0 := by rw [tdiv2_small (by omega) (by omega)]; rfl
    rw [hmb, if_pos ⟨by norm_num, by omega⟩, if_pos ⟨by norm_num, by omega⟩]
    refine Sim.bind (qr5Bmp22_pre hf k1 hk ki ki2 jt hjb hs hs' L) fun s1 s1' hs1 => ?_
    refine Sim.bind (Sim.forDown_mem (rel := Both5 (need5 p (krcol + 1))) hs1 fun s t m m1 m2 _ => by omega) fun s2 s2' hs2 => Sim.bind (Sim.forDown_mem (rel := Both5 (need5 p (krcol + 1))) hs2 fun s t m m1 m2 _ => by omega) fun s3 s3' hs3 => ?_
    refine Sim.ite (fun ha => Sim.forDown_mem (rel := Both5 (need5 p (krcol + 1))) hs3 fun s t m m1 m2 _ => by omega) fun ha => Sim.ite (fun hw => ?_) fun _ => Sim.pure hs3
    have hn : need5 p (krcol + 1) = 3 := by unfold need5; rw [if_pos ⟨by omega, hz (by simpa using ha) hw⟩]
    rw [hn] at hs3 ⊢
    exact Sim.forDown_mem hs3 fun s t m m1 m2 q => qr5AccZ_pre hf (by simpa using ha) hw (by omega) q.2.1 q.2.2 q.1
  · have hmb : min 1 ((p.kbot - krcol - 1).tdiv 2) = 1 := by
      have := tdiv2_pos (x := p.kbot - krcol - 1) (by omega)
      omega
    have hn : need5 p (krcol + 1) = 3 := by unfold need5; rw [if_pos ⟨by omega, by omega⟩]
    rw [hmb, if_neg (by omega), if_neg (by omega), pure_bind, pure_bind, hn]
    have one1 : ∀ (f : Qr5S F → Int → R (Qr5S F)) (s : Qr5S F), forDown 1 1 s f = f s 1 := fun f s => by
      show (irange 1 1).reverse.foldlM f s = _
      rw [show irange 1 1 = [1] from rfl]
      simp
    simp only [one1]
    refine Sim.bind (qr5Bulge_pre hf k1 hk jt hs hs' L) fun s2 s2' hs2 => Sim.bind (qr5Left_pre hf k1 hk hjb hs2.2.1 hs2.2.2 hs2.1) fun s3 s3' hs3 => ?_
    refine Sim.ite (fun ha => qr5AccU_pre hf ha ki ki2 hs3.2.1 hs3.2.2 hs3.1) fun ha => Sim.ite (fun hw => ?_) fun _ => Sim.pure hs3
    exact qr5AccZ_pre hf (by simpa using ha) hw (by omega) hs3.2.1 hs3.2.2 hs3.1

end

end Verif

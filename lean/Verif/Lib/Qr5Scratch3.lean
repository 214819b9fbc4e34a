import Verif.Lib.Qr5Scratch2
import Verif.Lib.Qr5Block

/-!
# Two runs of `dlaqr5` that differ in the contents of the work arrays: the accumulated update
-/

namespace Verif
open Scalar Spec

section
variable {σ τ : Type}

theorem Sim.forStep_mem {rel : σ → τ → Prop} {f : σ → Int → R σ} {g : τ → Int → R τ} {lo hi : Int} {d : Nat} (hd : 0 < d) {s : σ} {t : τ}
    (hs : rel s t) (hf : ∀ s t i, lo ≤ i → i ≤ hi → rel s t → Sim rel (f s i) (g t i)) :
    Sim rel (Verif.forStep lo hi d s f) (Verif.forStep lo hi d t g) := by
  unfold Verif.forStep irangeStep
  rw [if_neg (by omega), pure_bind, pure_bind]
  refine Sim.foldlM_mem _ hs fun s t i hi' h => ?_
  obtain ⟨m, hm, rfl⟩ := List.mem_map.1 hi'
  have hm' := List.mem_range.1 hm
  have : m * d < (hi - lo + 1).toNat := by
    have := (Nat.lt_div_iff_mul_lt hd).1 hm'
    omega
  exact hf s t _ (by have : (0 : Int) ≤ (m : Int) * d := by positivity
                     omega) (by push_cast; have : ((m * d : Nat) : Int) = (m : Int) * d := by push_cast; rfl
                                omega) h

end

variable {F : Type} [Scalar F]

theorem gemmEntry_zero (h1 : ((zero : F) =ᶠ zero) = true) (h2 : ((zero : F) =ᶠ one) = false) {nota : Bool} {k : Nat} {x x' y y' : Nat → F} (c c' : F)
    (hx : ∀ l < k, x l = x' l) (hy : ∀ l < k, y l = y' l) : gemmEntry nota k one zero x y c = gemmEntry nota k one zero x' y' c' := by
  rw [gemmEntry_congr hx hy]
  unfold gemmEntry scaled
  simp only [h1, h2, Bool.false_eq_true, and_false, if_false, if_true]

theorem qr5Block_nan {hz : Bool} {nu jlen ldu ldx ldw ldback a b k1 : Int} {u x w : FA F} :
    Post (qr5Block hz nu jlen ldu ldx ldw ldback a b k1 u x w) fun q => q.1.defaultValue = nan := by
  unfold qr5Block
  refine Post.bind' fun _ => Post.bind' fun _ => ?_
  have tail : ∀ (d : List F) (w : FA F), Post (do
      let x ← ToFA.toFa2d (F := F) d ldback
      pure (x, w)) fun q : FA F × FA F => q.1.defaultValue = nan := fun d w => by
    refine Post.bind (P := fun x : FA F => x.defaultValue = nan) ?_ fun x hx => Post.pure hx
    show Post ((faOfVec d).as2d ldback) _
    unfold FA.as2d
    exact Post.ite (fun _ => Post.panic _) fun _ => Post.bind' fun _ => Post.pure rfl
  cases hz
  · exact Post.bind' fun _ => Post.bind' fun _ => Post.bind' fun _ => Post.bind' fun _ => Post.bind' fun _ => tail _ _
  · exact Post.bind' fun _ => Post.bind' fun _ => Post.bind' fun _ => Post.bind' fun _ => Post.bind' fun _ => tail _ _

section
variable {p : Qr5P F} {r c ldv cv rz cz ru cu rv cwv rh cwh : Nat}

theorem qr5Block_pre (l1 : ((zero : F) =ᶠ zero) = true) (l2 : ((zero : F) =ᶠ one) = false) {hz : Bool} {nu jlen : Nat} {u u' x w w' : FA F} {r c rw' cw : Nat}
    (hU : LikeU ru cu u u') (hus : ru * cu < 2 ^ 31)
    (hx : HqrShape x r c) (hw : HqrShape w rw' cw) (hw' : HqrShape w' rw' cw)
    {a b k1 : Int} (n0 : 0 < nu) (j0 : 0 < jlen) (k11 : 1 ≤ k1) (k14 : k1 + nu ≤ 5) (k1r : k1 + nu ≤ ru + 1) (k1c : k1 + nu ≤ cu + 1) (a1 : 1 ≤ a) (b1 : 1 ≤ b)
    (am : a + (if hz then nu else jlen : Nat) ≤ r + 1) (bn : b + (if hz then jlen else nu : Nat) ≤ c + 1) (wm : (if hz then nu else jlen) ≤ rw')
    (wn : (if hz then jlen else nu) ≤ cw) :
    Sim (fun q q' => q'.1 = q.1) (qr5Block hz nu jlen ru r rw' r a b k1 u x w) (qr5Block hz nu jlen ru r rw' r a b k1 u' x w') := by
  have r1 : 1 ≤ r := by
    have : 0 < (if hz then nu else jlen) := by split <;> omega
    omega
  obtain ⟨g, g', hg, hg', ag, -, -⟩ := hU
  obtain ⟨x1, w1, e1, -, i1⟩ := qr5Block_ok (hz := hz) rfl rfl hg hus (hqrShape_is2 hx r1) hx.small hw.mat n0 j0 k11 k1r k1c a1 b1 am bn wm wn
  obtain ⟨x2, w2, e2, -, i2⟩ := qr5Block_ok (hz := hz) rfl rfl hg' hus (hqrShape_is2 hx r1) hx.small hw'.mat n0 j0 k11 k1r k1c a1 b1 am bn wm wn
  have d1 := qr5Block_nan (hz := hz) (nu := nu) (jlen := jlen) (ldu := ru) (ldx := r) (ldw := rw') (ldback := r) (a := a) (b := b) (k1 := k1) (u := u) (x := x) (w := w) .debug (x1, w1) (by rw [e1]; rfl)
  have d2 := qr5Block_nan (hz := hz) (nu := nu) (jlen := jlen) (ldu := ru) (ldx := r) (ldw := rw') (ldback := r) (a := a) (b := b) (k1 := k1) (u := u') (x := x) (w := w') .debug (x2, w2) (by rw [e2]; rfl)
  rw [e1, e2]
  refine Sim.pure ?_
  show x2 = x1
  have hd : x2.data = x1.data := by
    rw [i1.data, i2.data]
    congr 1
    funext i j
    by_cases hij : (a ≤ i ∧ i < a + ((if hz then nu else jlen : Nat) : Int)) ∧ (b ≤ j ∧ j < b + ((if hz then jlen else nu : Nat) : Int))
    · rw [if_pos hij, if_pos hij]
      refine gemmEntry_zero l1 l2 _ _ (fun l hl => ?_) fun l hl => ?_
      · cases hz
        · rfl
        · simp only [if_true] at hij ⊢
          exact (ag _ _ (by unfold blkU; omega)).symm
      · cases hz
        · simp only [Bool.false_eq_true, if_false] at hij ⊢
          exact (ag _ _ (by unfold blkU; omega)).symm
        · rfl
    · rw [if_neg hij, if_neg hij]
  cases x1
  cases x2
  simp only at d1 d2 hd
  have hr := i1.rows; have hr' := i2.rows; have hc := i1.cols; have hc' := i2.cols
  simp only at hr hr' hc hc'
  simp only [FA.mk.injEq]
  exact ⟨hd, by rw [hr, hr'], by rw [hc, hc'], by rw [d1, d2]⟩

local notation "S5" => Shape5 p r c ldv cv rz cz ru cu rv cwv rh cwh
local notation "Both5" => Pair5 p r c ldv cv rz cz ru cu rv cwv rh cwh

theorem qr5Accumulate_pre (l1 : ((zero : F) =ᶠ zero) = true) (l2 : ((zero : F) =ᶠ one) = false) (hf : Fit5 p r c ldv cv rz cz ru cu rv cwv rh cwh) (ha : p.accum = true) {incol : Int}
    (k1 : p.ktop - 1 ≤ incol) (k2 : incol + 2 ≤ p.kbot) {m : Nat}
    {s s' : Qr5S F} (hs : Both5 m s s') : Sim (Both5 m) (qr5Accumulate p incol s) (qr5Accumulate p incol s') := by
  have h1 := hf.top; have h2 := hf.kn; have h3 := hf.nr; have h4 := hf.nc; have h7 := hf.lt
  have q1 := hf.ru4 ha; have q2 := hf.cu4 ha; have q3 := hf.rh4 ha; have q4 := hf.nh1 ha; have q5 := hf.nhc ha; have q6 := hf.cv4 ha; have q7 := hf.nv1 ha; have q8 := hf.nvr ha
  have hkdu : p.kdu = 4 := by unfold Qr5P.kdu; rw [hf.nb]; norm_num
  have hnh : 0 < asUsize p.nh := asUsize_of_pos q4 q5 (lt_of_le_of_lt (Nat.le_mul_of_pos_left _ (by omega)) (hs.2.1.wh ha).small)
  have hnv : 0 < asUsize p.nv := asUsize_of_pos q7 q8 (lt_of_le_of_lt (Nat.le_mul_of_pos_right _ (by omega)) (hs.2.1.wv ha).small)
  obtain ⟨nu, hnu⟩ : ∃ nu : Nat, (p.kdu - max 0 (incol + p.kdu - p.kbot)) - max 1 (p.ktop - incol) + 1 = nu :=
    ⟨((p.kdu - max 0 (incol + p.kdu - p.kbot)) - max 1 (p.ktop - incol) + 1).toNat, by rw [hkdu]; omega⟩
  unfold qr5Accumulate
  simp only [hnu, hf.ldu ha, hf.ldh, hf.ldwh ha, hf.ldwv ha, hf.ldz ha]
  rw [hkdu] at hnu
  refine Sim.bind (rel := Both5 m) (Sim.forStep_mem hnh hs fun s t j j1 j2 hs' => ?_) fun s1 t1 hs1 => Sim.bind (rel := Both5 m) (Sim.forStep_mem hnv hs1 fun s t j j1 j2 hs' => ?_) fun s2 t2 hs2 => ?_
  · rw [hkdu] at j1
    obtain ⟨L, hs', ht'⟩ := hs'
    have hjn : j ≤ p.n := by split at j2 <;> omega
    obtain ⟨jl, hjl⟩ : ∃ jl : Nat, min p.nh ((if p.wantt = true then p.n else p.kbot) - j + 1) = jl :=
      ⟨(min p.nh ((if p.wantt = true then p.n else p.kbot) - j + 1)).toNat, by omega⟩
    rw [hjl]
    have hjl' : (jl : Int) ≤ p.n - j + 1 := by
      have : (if p.wantt = true then p.n else p.kbot) ≤ p.n := by split <;> omega
      omega
    have b1 : incol + max 1 (p.ktop - incol) + ((if true then nu else jl : Nat) : Int) ≤ r + 1 := by rw [if_pos rfl]; omega
    have b2 : j + ((if true then jl else nu : Nat) : Int) ≤ c + 1 := by rw [if_pos rfl]; omega
    have b3 : (if true then nu else jl : Nat) ≤ rh := by rw [if_pos rfl]; omega
    have b4 : (if true then jl else nu : Nat) ≤ cwh := by rw [if_pos rfl]; omega
    rw [L.h]
    refine Sim.bind (Sim.and_ret (qr5Block_pre l1 l2 (L.u ha) (hs'.u ha).small hs'.h (hs'.wh ha) (ht'.wh ha) (by omega) (by omega) (by omega) (by omega) (by omega) (by omega) (by omega) (by omega) b1 b2 b3 b4)
      (qr5Block_ret (hs'.u ha) hs'.h (hs'.wh ha) (by omega) (by omega) (by omega) (by omega) (by omega) (by omega) (by omega) b1 b2 b3 b4)
      (qr5Block_ret (ht'.u ha) hs'.h (ht'.wh ha) (by omega) (by omega) (by omega) (by omega) (by omega) (by omega) (by omega) b1 b2 b3 b4)) fun q q' hq => ?_
    obtain ⟨e, ⟨u1, u2⟩, u3, u4⟩ := hq
    exact Sim.pure ⟨⟨L.sr, L.si, e, L.z, L.vt, L.v, L.u⟩, ⟨u1, hs'.v, hs'.zr, hs'.z, hs'.u, hs'.wv, fun _ => u2⟩, ⟨u3, ht'.v, ht'.zr, ht'.z, ht'.u, ht'.wv, fun _ => u4⟩⟩
  · obtain ⟨L, hs', ht'⟩ := hs'
    have hj1 : 1 ≤ j := by split at j1 <;> omega
    obtain ⟨jl, hjl⟩ : ∃ jl : Nat, min p.nv (max p.ktop incol - j) = jl := ⟨(min p.nv (max p.ktop incol - j)).toNat, by omega⟩
    rw [hjl]
    have b1 : j + ((if false = true then nu else jl : Nat) : Int) ≤ r + 1 := by rw [if_neg (by simp)]; omega
    have b2 : incol + max 1 (p.ktop - incol) + ((if false = true then jl else nu : Nat) : Int) ≤ c + 1 := by rw [if_neg (by simp)]; omega
    have b3 : (if false = true then nu else jl : Nat) ≤ rv := by rw [if_neg (by simp)]; omega
    have b4 : (if false = true then jl else nu : Nat) ≤ cwv := by rw [if_neg (by simp)]; omega
    rw [L.h]
    refine Sim.bind (Sim.and_ret (qr5Block_pre l1 l2 (L.u ha) (hs'.u ha).small hs'.h (hs'.wv ha) (ht'.wv ha) (by omega) (by omega) (by omega) (by omega) (by omega) (by omega) (by omega) (by omega) b1 b2 b3 b4)
      (qr5Block_ret (hs'.u ha) hs'.h (hs'.wv ha) (by omega) (by omega) (by omega) (by omega) (by omega) (by omega) (by omega) b1 b2 b3 b4)
      (qr5Block_ret (ht'.u ha) hs'.h (ht'.wv ha) (by omega) (by omega) (by omega) (by omega) (by omega) (by omega) (by omega) b1 b2 b3 b4)) fun q q' hq => ?_
    obtain ⟨e, ⟨u1, u2⟩, u3, u4⟩ := hq
    exact Sim.pure ⟨⟨L.sr, L.si, e, L.z, L.vt, L.v, L.u⟩, ⟨u1, hs'.v, hs'.zr, hs'.z, hs'.u, fun _ => u2, hs'.wh⟩, ⟨u3, ht'.v, ht'.zr, ht'.z, ht'.u, fun _ => u4, ht'.wh⟩⟩
  · refine Sim.ite (fun hw => Sim.forStep_mem hnv hs2 fun s t j j1 j2 hs' => ?_) fun _ => Sim.pure hs2
    obtain ⟨L, hs', ht'⟩ := hs'
    have i1 := hf.iloz hw; have i2 := hf.ihiz hw; have i3 := hf.zr ha; have i4 := hf.zc ha hw
    subst i3
    obtain ⟨jl, hjl⟩ : ∃ jl : Nat, min p.nv (p.ihiz - j + 1) = jl := ⟨(min p.nv (p.ihiz - j + 1)).toNat, by omega⟩
    rw [hjl]
    have b1 : j + ((if false = true then nu else jl : Nat) : Int) ≤ rz + 1 := by rw [if_neg (by simp)]; omega
    have b2 : incol + max 1 (p.ktop - incol) + ((if false = true then jl else nu : Nat) : Int) ≤ cz + 1 := by rw [if_neg (by simp)]; omega
    have b3 : (if false = true then nu else jl : Nat) ≤ rv := by rw [if_neg (by simp)]; omega
    have b4 : (if false = true then jl else nu : Nat) ≤ cwv := by rw [if_neg (by simp)]; omega
    rw [L.z]
    refine Sim.bind (Sim.and_ret (qr5Block_pre l1 l2 (L.u ha) (hs'.u ha).small (hs'.z ha hw) (hs'.wv ha) (ht'.wv ha) (by omega) (by omega) (by omega) (by omega) (by omega) (by omega) (by omega) (by omega) b1 b2 b3 b4)
      (qr5Block_ret (hs'.u ha) (hs'.z ha hw) (hs'.wv ha) (by omega) (by omega) (by omega) (by omega) (by omega) (by omega) (by omega) b1 b2 b3 b4)
      (qr5Block_ret (ht'.u ha) (hs'.z ha hw) (ht'.wv ha) (by omega) (by omega) (by omega) (by omega) (by omega) (by omega) (by omega) b1 b2 b3 b4)) fun q q' hq => ?_
    obtain ⟨e, ⟨u1, u2⟩, u3, u4⟩ := hq
    exact Sim.pure ⟨⟨L.sr, L.si, L.h, e, L.vt, L.v, L.u⟩, ⟨hs'.h, hs'.v, fun _ => u1.rows, fun _ _ => u1, hs'.u, fun _ => u2, hs'.wh⟩,
      ⟨ht'.h, ht'.v, fun _ => u3.rows, fun _ _ => u3, ht'.u, fun _ => u4, ht'.wh⟩⟩

/-- The same without the accumulated part being known to agree. -/
structure Begin5 (p : Qr5P F) (r c ldv cv rz cz ru cu rv cwv rh cwh m : Nat) (s s' : Qr5S F) : Prop where
  sr : s'.sr = s.sr
  si : s'.si = s.si
  h : s'.h = s.h
  z : s'.z = s.z
  vt : s'.vt = s.vt
  v : Pre m s.v.data s'.v.data
  a : Shape5 p r c ldv cv rz cz ru cu rv cwv rh cwh s
  b : Shape5 p r c ldv cv rz cz ru cu rv cwv rh cwh s'

theorem qr5Incol_pre (l1 : p.accum = true → ((zero : F) =ᶠ zero) = true) (l2 : p.accum = true → ((zero : F) =ᶠ one) = false) (hf : Fit5 p r c ldv cv rz cz ru cu rv cwv rh cwh)
    (hz : p.accum = false → p.wantz = true → p.ktop + 2 ≤ p.kbot) {incol : Int} (k1 : p.ktop - 1 ≤ incol) (k2 : incol + 2 ≤ p.kbot)
    {s s' : Qr5S F} (hs : Begin5 p r c ldv cv rz cz ru cu rv cwv rh cwh (need5 p incol) s s') :
    Sim (Begin5 p r c ldv cv rz cz ru cu rv cwv rh cwh (need5 p (min (incol + 2) (p.kbot - 1)))) (qr5Incol p s incol) (qr5Incol p s' incol) := by
  have h1 := hf.top
  have hkdu : p.kdu = 4 := by unfold Qr5P.kdu; rw [hf.nb]; norm_num
  have hjt : 1 ≤ (if p.accum = true then max p.ktop incol else if p.wantt = true then 1 else p.ktop) := by
    split
    · omega
    · split <;> omega
  unfold qr5Incol
  simp only [hkdu, hf.nb]
  generalize (if p.accum = true then max p.ktop incol else if p.wantt = true then 1 else p.ktop) = jtop at hjt
  have tail : ∀ u u' : FA F, (p.accum = true → HqrShape u ru cu ∧ HqrShape u' ru cu ∧ LikeU ru cu u u') →
      Sim (Begin5 p r c ldv cv rz cz ru cu rv cwv rh cwh (need5 p (min (incol + 2) (p.kbot - 1)))) (do
      let s ← forUp incol (min (incol + 2 * 1 - 1) (p.kbot - 2)) { s with u := u } (qr5Krcol p incol jtop)
      if p.accum = true then qr5Accumulate p incol s else pure s) (do
      let s ← forUp incol (min (incol + 2 * 1 - 1) (p.kbot - 2)) { s' with u := u' } (qr5Krcol p incol jtop)
      if p.accum = true then qr5Accumulate p incol s else pure s) := by
    intro u u' hu
    rw [show min (incol + 2) (p.kbot - 1) = min (incol + 2 * 1 - 1) (p.kbot - 2) + 1 by omega]
    refine Sim.bind (Sim.forUp_idx (rel := fun k => Both5 (need5 p k)) (by omega) ?_ fun s t j j1 j2 hst => ?_) fun s1 t1 hs1 => ?_
    · exact ⟨⟨hs.sr, hs.si, hs.h, hs.z, hs.vt, hs.v, fun ha => (hu ha).2.2⟩, ⟨hs.a.h, hs.a.v, hs.a.zr, hs.a.z, fun ha => (hu ha).1, hs.a.wv, hs.a.wh⟩,
        ⟨hs.b.h, hs.b.v, hs.b.zr, hs.b.z, fun ha => (hu ha).2.1, hs.b.wv, hs.b.wh⟩⟩
    · exact qr5Krcol_pre hf hz (by omega) (by omega) j1 (by omega) hjt hst
    · have fin : ∀ (m : Nat) (s t : Qr5S F), Both5 m s t → Begin5 p r c ldv cv rz cz ru cu rv cwv rh cwh m s t := fun m s t q => ⟨q.1.sr, q.1.si, q.1.h, q.1.z, q.1.vt, q.1.v, q.2.1, q.2.2⟩
      exact Sim.ite (fun ha => (qr5Accumulate_pre (l1 ha) (l2 ha) hf ha k1 k2 hs1).mono fun a b => fin _ a b) fun _ => Sim.pure (fin _ _ _ hs1)
  refine Sim.ite (fun ha => ?_) fun ha => tail s.u s'.u fun h => absurd h ha
  have set : ∀ x : FA F, HqrShape x ru cu → ∃ u1, dlaset (F := F) 'A' 4 4 zero one x = pure u1 ∧ Is2 u1 ru cu (ru * cu) (fun i j =>
      if i = j ∧ 1 ≤ i ∧ i ≤ min (4 : Int) 4 then one
      else if (1 ≤ j ∧ j ≤ (4 : Int)) ∧ (uploLo 'A' j ≤ i ∧ i ≤ uploHi 'A' 4 j) then zero
      else ofList2 ru x.data i j) := fun x hx => by
    have hus := hx.small
    obtain ⟨u1, eu1, iu1⟩ := dlasetFA_ok (uplo := 'A') (m := 4) (n := 4) (zero : F) one hx.rows (by have := hf.ru4 ha; omega)
      (by have := hf.ru4 ha; simp [touchedRows]; omega) (by rw [hx.length]; exact hus)
      (lt_of_le_of_lt (Nat.mul_le_mul_left _ (hf.cu4 ha)) hus)
    rw [hx.cols, hx.length] at iu1
    refine ⟨u1, ?_, iu1⟩
    show (dlasetFA 'A' 4 4 zero one x >>= _) = _
    rw [show (dlasetFA 'A' 4 4 (zero : F) one x) = pure u1 from eu1, pure_bind]
    rfl
  obtain ⟨u1, e1, i1⟩ := set s.u (hs.a.u ha)
  obtain ⟨u2, e2, i2⟩ := set s'.u (hs.b.u ha)
  rw [e1, e2, pure_bind, pure_bind]
  refine tail u1 u2 fun _ => ⟨is2_hqrShape i1 (hs.a.u ha).small, is2_hqrShape i2 (hs.a.u ha).small, _, _, i1, i2, fun a b hab => ?_, fun a b h => absurd trivial h, fun a b h => absurd trivial h⟩
  unfold blkU at hab
  by_cases e : a = b
  · rw [if_pos ⟨e, by omega, by omega⟩, if_pos ⟨e, by omega, by omega⟩]
  · have hc : (1 ≤ b ∧ b ≤ (4 : Int)) ∧ (uploLo 'A' b ≤ a ∧ a ≤ uploHi 'A' 4 b) := by
      refine ⟨by omega, ?_⟩
      simp [uploLo, uploHi]
      omega
    rw [if_neg (by omega), if_pos hc, if_neg (by omega), if_pos hc]

theorem qr5Main_pre (l1 : p.accum = true → ((zero : F) =ᶠ zero) = true) (l2 : p.accum = true → ((zero : F) =ᶠ one) = false) (hf : Fit5 p r c ldv cv rz cz ru cu rv cwv rh cwh)
    (hz : p.accum = false → p.wantz = true → p.ktop + 2 ≤ p.kbot) (nshfts : Int)
    {s s' : Qr5S F} (hs : Begin5 p r c ldv cv rz cz ru cu rv cwv rh cwh 0 s s') :
    Sim (fun a b => b.h = a.h ∧ b.z = a.z) (qr5Main p nshfts s) (qr5Main p nshfts s') := by
  have h1 := hf.top; have h2 := hf.kn; have h3 := hf.nr; have h4 := hf.nc; have h7 := hf.lt
  unfold qr5Main
  rw [hs.sr, hs.si, hs.h]
  refine Sim.bind' fun q => ?_
  obtain ⟨sr, si⟩ := q
  simp only
  have tail : ∀ h : FA F, HqrShape h r c → Sim (fun a b => b.h = a.h ∧ b.z = a.z)
      (forStep (p.ktop - 2 * p.nbmps + 1) (p.kbot - 2) (2 * asUsize p.nbmps) { s with sr := sr, si := si, h := h } (qr5Incol p))
      (forStep (p.ktop - 2 * p.nbmps + 1) (p.kbot - 2) (2 * asUsize p.nbmps) { s' with sr := sr, si := si, h := h } (qr5Incol p)) := by
    intro h hh
    rw [hf.nb, show 2 * asUsize (1 : Int) = 2 by decide, show p.ktop - 2 * 1 + 1 = p.ktop - 1 by ring]
    refine Sim.mono (Sim.forStep2_idx (rel := fun k => Begin5 p r c ldv cv rz cz ru cu rv cwv rh cwh (need5 p k)) (by omega) ?_ fun s t i i1 i2 hst => ?_) fun a b hab => ⟨hab.h, hab.z⟩
    · have : need5 p (p.ktop - 1) = 0 := by unfold need5; rw [if_neg (by omega)]
      rw [this]
      exact ⟨rfl, rfl, rfl, hs.z, hs.vt, hs.v, ⟨hh, hs.a.v, hs.a.zr, hs.a.z, hs.a.u, hs.a.wv, hs.a.wh⟩, ⟨hh, hs.b.v, hs.b.zr, hs.b.z, hs.b.u, hs.b.wv, hs.b.wh⟩⟩
    · rw [show p.kbot - 2 + 1 = p.kbot - 1 by ring]
      exact qr5Incol_pre l1 l2 hf hz (by omega) (by omega) hst
  refine Sim.ite (fun hk => ?_) fun _ => tail _ hs.a.h
  obtain ⟨h, e, hh⟩ := set2_ret hs.a.h (a := p.ktop + 2) (b := p.ktop) (by omega) (by omega) (by omega) (by omega) (by omega) zero
  rw [e, pure_bind, pure_bind]
  exact tail h hh

end

end Verif

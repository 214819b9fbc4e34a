import Verif.Lib.Qr5Local
import Verif.Lib.Qr5Scratch3
import Verif.Lib.Qr5BlkG
import Verif.Lib.Qr5Sweep

/-!
# Two accumulating runs of `dlaqr5` whose arrays `h` agree on the active block

Any scalar arithmetic in which `zero` equals itself and not `one`, two or three shifts.  The flag `wantt` of the first run may be off while that of the second is on.
-/

namespace Verif
open Scalar Spec

theorem Tot.sim {α β : Type} {x : R α} {y : R β} {P : α → Prop} {Q : β → Prop} {rel : α → β → Prop} (hx : Tot x P) (hy : Tot y Q) (h : ∀ a b, P a → Q b → rel a b) :
    Sim rel x y := by
  intro p
  obtain ⟨a, ea, ha⟩ := hx p
  obtain ⟨b, eb, hb⟩ := hy p
  rw [ea, eb]
  exact .ok (h a b ha hb)

variable {F : Type} [Scalar F]

/-- The same parameters with another flag `wantt`. -/
def Qr5P.flag (p : Qr5P F) (b : Bool) : Qr5P F := { p with wantt := b }

/-- The first two loops of `qr5Accumulate`, those that change `h`. -/
def qr5AccH (p : Qr5P F) (incol : Int) (s : Qr5S F) : R (Qr5S F) := do
  let s ← forStep (min (incol + p.kdu) p.kbot + 1) (if p.wantt = true then p.n else p.kbot) (asUsize p.nh) s fun s jcol => do
    let q ← qr5Block true ((p.kdu - max 0 (incol + p.kdu - p.kbot)) - max 1 (p.ktop - incol) + 1) (min p.nh ((if p.wantt = true then p.n else p.kbot) - jcol + 1)) p.ldu p.ldh p.ldwh p.ldz
      (incol + max 1 (p.ktop - incol)) jcol (max 1 (p.ktop - incol)) s.u s.h s.wh
    pure { s with h := q.1, wh := q.2 }
  forStep (if p.wantt = true then 1 else p.ktop) (max p.ktop incol - 1) (asUsize p.nv) s fun s jrow => do
    let q ← qr5Block false ((p.kdu - max 0 (incol + p.kdu - p.kbot)) - max 1 (p.ktop - incol) + 1) (min p.nv (max p.ktop incol - jrow)) p.ldu p.ldh p.ldwv p.ldz jrow
      (incol + max 1 (p.ktop - incol)) (max 1 (p.ktop - incol)) s.u s.h s.wv
    pure { s with h := q.1, wv := q.2 }

/-- The third loop of `qr5Accumulate`. -/
def qr5AccZl (p : Qr5P F) (incol : Int) (s : Qr5S F) : R (Qr5S F) :=
  if p.wantz = true then
    forStep p.iloz p.ihiz (asUsize p.nv) s fun s jrow => do
      let q ← qr5Block false ((p.kdu - max 0 (incol + p.kdu - p.kbot)) - max 1 (p.ktop - incol) + 1) (min p.nv (p.ihiz - jrow + 1)) p.ldu p.ldz p.ldwv p.ldz jrow
        (incol + max 1 (p.ktop - incol)) (max 1 (p.ktop - incol)) s.u s.z s.wv
      pure { s with z := q.1, wv := q.2 }
  else pure s

theorem qr5Accumulate_split (p : Qr5P F) (incol : Int) (s : Qr5S F) : qr5Accumulate p incol s = qr5AccH p incol s >>= qr5AccZl p incol := by
  unfold qr5Accumulate qr5AccH qr5AccZl
  rw [bind_assoc]

variable {p : Qr5P F} {r c ldv cv rz cz ru cu rv cwv rh cwh : Nat} {g0 g0' : Int → Int → F}

theorem qr5AccH_tot (hf : Fit5 p r c ldv cv rz cz ru cu rv cwv rh cwh) (ha : p.accum = true) {incol : Int} (k1 : p.ktop - 1 ≤ incol) (k2 : incol + 2 ≤ p.kbot)
    {s : Qr5S F} (hs : Shape5 p r c ldv cv rz cz ru cu rv cwv rh cwh s) {g ug : Int → Int → F} (hg : Is2 s.h r c (r * c) g) (hug : Is2 s.u ru cu (ru * cu) ug) {nu : Nat}
    (hnu : (p.kdu - max 0 (incol + p.kdu - p.kbot)) - max 1 (p.ktop - incol) + 1 = nu) {jbot jtop : Int}
    (hjb' : (if p.wantt = true then p.n else p.kbot) = jbot) (hjt' : (if p.wantt = true then 1 else p.ktop) = jtop) :
    Tot (qr5AccH p incol s) fun s2 => s2 = { s with h := s2.h, wv := s2.wv, wh := s2.wh } ∧ ∃ g2, Is2 s2.h r c (r * c) g2 ∧
      (∀ a b, Reg true (incol + max 1 (p.ktop - incol)) (incol + max 1 (p.ktop - incol) + nu - 1) (min (incol + 4) p.kbot + 1) jbot a b →
        GemmAt true nu ug g (max 1 (p.ktop - incol)) (incol + max 1 (p.ktop - incol)) a b (g2 a b)) ∧
      (∀ a b, Reg false (incol + max 1 (p.ktop - incol)) (incol + max 1 (p.ktop - incol) + nu - 1) jtop (max p.ktop incol - 1) a b →
        GemmAt false nu ug g (max 1 (p.ktop - incol)) (incol + max 1 (p.ktop - incol)) a b (g2 a b)) ∧
      ∀ a b, ¬ Reg true (incol + max 1 (p.ktop - incol)) (incol + max 1 (p.ktop - incol) + nu - 1) (min (incol + 4) p.kbot + 1) jbot a b →
        ¬ Reg false (incol + max 1 (p.ktop - incol)) (incol + max 1 (p.ktop - incol) + nu - 1) jtop (max p.ktop incol - 1) a b → g2 a b = g a b := by
  have h1 := hf.top; have h2 := hf.kn; have h3 := hf.nr; have h4 := hf.nc; have h7 := hf.lt
  have q1 := hf.ru4 ha; have q2 := hf.cu4 ha; have q3 := hf.rh4 ha; have q4 := hf.nh1 ha; have q5 := hf.nhc ha; have q6 := hf.cv4 ha; have q7 := hf.nv1 ha; have q8 := hf.nvr ha
  have hkdu : p.kdu = 4 := by unfold Qr5P.kdu; rw [hf.nb]; norm_num
  obtain ⟨dh, edh, dh0, dh'⟩ := asUsize_pos q4 q5 (lt_of_le_of_lt (Nat.le_mul_of_pos_left _ (by omega)) (hs.wh ha).small)
  obtain ⟨dv, edv, dv0, dv'⟩ := asUsize_pos q7 q8 (lt_of_le_of_lt (Nat.le_mul_of_pos_right _ (by omega)) (hs.wv ha).small)
  have hjb : (if p.wantt = true then p.n else p.kbot) ≤ p.n := by split <;> omega
  have hjt : 1 ≤ (if p.wantt = true then 1 else p.ktop) := by split <;> omega
  unfold qr5AccH
  rw [hnu, edh, edv, hkdu, hf.ldu ha, hf.ldh, hf.ldwh ha, hf.ldwv ha, hf.ldz ha]
  rw [hkdu] at hnu
  rw [hjb'] at hjb ⊢
  rw [hjt'] at hjt ⊢
  have hU : UPart ru cu (max 1 (p.ktop - incol)) nu s.u ug := ⟨hug, (hs.u ha).small, by omega, by omega, by omega, by omega⟩
  refine Tot.bind (blockLoopG (hz := true) (w1 := incol + max 1 (p.ktop - incol)) (gx := fun s => s.h) (gw := fun s => s.wh)
    (put := fun s x w => { s with h := x, wh := w }) (fun _ _ _ => rfl) (fun _ _ _ => rfl) (fun _ _ _ _ _ => rfl) hU dh0 (s0 := s) (i0 := min (incol + 4) p.kbot + 1) (i1 := jbot) rfl hg
    hs.h.small (hs.wh ha).mat (by omega) (by omega) ?_ ?_) ?_
  · rw [if_pos rfl]
    omega
  · intro st i es
    rw [es, dh']
    rfl
  rintro s2 ⟨es2, mw2, g2, ig2, v2a, v2b⟩
  have hU2 : s2.u = s.u := by rw [es2]
  refine (blockLoopG (hz := false) (w1 := incol + max 1 (p.ktop - incol)) (gx := fun s => s.h) (gw := fun s => s.wv)
    (put := fun s x w => { s with h := x, wv := w }) (fun _ _ _ => rfl) (fun _ _ _ => rfl) (fun _ _ _ _ _ => rfl) hU dv0 (s0 := s2) (i0 := jtop) (i1 := max p.ktop incol - 1) rfl ig2
    hs.h.small (by rw [es2]; exact (hs.wv ha).mat) (by omega) (by omega) ?_ ?_).mono ?_
  · rw [if_neg (by simp)]
    omega
  · intro st i es
    rw [es, dv', show max p.ktop incol - 1 - i + 1 = max p.ktop incol - i by ring]
    dsimp only
    rw [hU2]
    rfl
  rintro s3 ⟨es3, mw3, g3, ig3, v3a, v3b⟩
  refine ⟨by rw [es3, es2], g3, ig3, fun a b hR => ?_, fun a b hR => ?_, fun a b hR hR' => ?_⟩
  · rw [v3b a b fun hR' => ?_]
    · exact v2a a b hR
    · simp only [Reg, if_true, Bool.false_eq_true, if_false] at hR hR'
      omega
  · refine (v3a a b hR).congr fun l hl => ?_
    rw [if_neg (by simp)]
    refine (v2b _ _ fun hR' => ?_).symm
    simp only [Reg, if_true, Bool.false_eq_true, if_false] at hR hR'
    omega
  · rw [v3b a b hR', v2b a b hR]

theorem GemmAt.unique (l1 : ((zero : F) =ᶠ zero) = true) (l2 : ((zero : F) =ᶠ one) = false) {hz : Bool} {nu : Nat} {ug g g' : Int → Int → F} {k1 w1 a b : Int} {y y' : F}
    (h : GemmAt hz nu ug g k1 w1 a b y) (h' : GemmAt hz nu ug g' k1 w1 a b y') (e : ∀ l < nu, if hz then g' (w1 + l) b = g (w1 + l) b else g' a (w1 + l) = g a (w1 + l)) : y = y' := by
  obtain ⟨c, rfl⟩ := h
  obtain ⟨c', rfl⟩ := h'
  refine gemmEntry_zero l1 l2 _ _ (fun l hl => ?_) fun l hl => ?_
  · have := e l hl
    cases hz
    · simp only [Bool.false_eq_true, if_false] at this ⊢
      exact this.symm
    · rfl
  · have := e l hl
    cases hz
    · rfl
    · simp only [if_true] at this ⊢
      exact this.symm

/-- The relation between the states, with their shapes. -/
def Rel6 (p : Qr5P F) (r c ldv cv rz cz ru cu rv cwv rh cwh : Nat) (g0 g0' : Int → Int → F) (k : Int) (s s' : Qr5S F) : Prop :=
  Rel5 p r c g0 g0' k s s' ∧ Shape5 p r c ldv cv rz cz ru cu rv cwv rh cwh s ∧ Shape5 p r c ldv cv rz cz ru cu rv cwv rh cwh s'

local notation "R6" => Rel6 p r c ldv cv rz cz ru cu rv cwv rh cwh g0 g0'

theorem Fit5.flag (hf : Fit5 p r c ldv cv rz cz ru cu rv cwv rh cwh) (b : Bool) : Fit5 (p.flag b) r c ldv cv rz cz ru cu rv cwv rh cwh :=
  ⟨hf.top, hf.lt, hf.kn, hf.nr, hf.nc, hf.ldh, hf.lv, hf.ldv3, hf.cv1, hf.nb, hf.ldz, hf.ldu, hf.ru4, hf.cu4, hf.ldwh, hf.rh4, hf.nh1, hf.nhc, hf.ldwv, hf.cv4, hf.nv1, hf.nvr, hf.iloz,
    hf.ihiz, hf.zr, hf.zc, hf.zfit⟩

theorem Shape5.flag {s : Qr5S F} (hs : Shape5 p r c ldv cv rz cz ru cu rv cwv rh cwh s) (b : Bool) : Shape5 (p.flag b) r c ldv cv rz cz ru cu rv cwv rh cwh s :=
  ⟨hs.h, hs.v, hs.zr, hs.z, hs.u, hs.wv, hs.wh⟩

theorem Shape5.unflag {s : Qr5S F} {b : Bool} (hs : Shape5 (p.flag b) r c ldv cv rz cz ru cu rv cwv rh cwh s) : Shape5 p r c ldv cv rz cz ru cu rv cwv rh cwh s :=
  ⟨hs.h, hs.v, hs.zr, hs.z, hs.u, hs.wv, hs.wh⟩

theorem qr5AccH_loc (l1 : ((zero : F) =ᶠ zero) = true) (l2 : ((zero : F) =ᶠ one) = false) (hf : Fit5 p r c ldv cv rz cz ru cu rv cwv rh cwh) (ha : p.accum = true) {b : Bool}
    (hb : b = true → p.wantt = true) {incol k : Int} (k1 : p.ktop - 1 ≤ incol) (k2 : incol + 2 ≤ p.kbot) {s s' : Qr5S F} (hs : R6 k s s') :
    Sim (Rel5 p r c g0 g0' k) (qr5AccH (p.flag b) incol s) (qr5AccH p incol s') := by
  have h1 := hf.top; have h2 := hf.kn; have h3 := hf.nr; have h4 := hf.nc; have h7 := hf.lt
  have q1 := hf.ru4 ha
  have hkdu : p.kdu = 4 := by unfold Qr5P.kdu; rw [hf.nb]; norm_num
  obtain ⟨⟨es, g, g', i, i', ag, f1, f2⟩, S, S'⟩ := hs
  obtain ⟨ug, iu⟩ : ∃ ug, Is2 s.u ru cu (ru * cu) ug := ⟨_, hqrShape_is2 (S.u ha) (by omega)⟩
  have iu' : Is2 s'.u ru cu (ru * cu) ug := by rw [show s'.u = s.u by rw [es]]; exact iu
  obtain ⟨nu, hnu⟩ : ∃ nu : Nat, (p.kdu - max 0 (incol + p.kdu - p.kbot)) - max 1 (p.ktop - incol) + 1 = nu :=
    ⟨((p.kdu - max 0 (incol + p.kdu - p.kbot)) - max 1 (p.ktop - incol) + 1).toNat, by rw [hkdu]; omega⟩
  obtain ⟨jb, ejb⟩ : ∃ jb, (if b = true then p.n else p.kbot) = jb := ⟨_, rfl⟩
  obtain ⟨jb', ejb'⟩ : ∃ jb, (if p.wantt = true then p.n else p.kbot) = jb := ⟨_, rfl⟩
  obtain ⟨jt, ejt⟩ : ∃ jt, (if b = true then 1 else p.ktop) = jt := ⟨_, rfl⟩
  obtain ⟨jt', ejt'⟩ : ∃ jt, (if p.wantt = true then 1 else p.ktop) = jt := ⟨_, rfl⟩
  refine Tot.sim (qr5AccH_tot (hf.flag b) ha k1 k2 (S.flag b) i iu hnu ejb ejt) (qr5AccH_tot hf ha k1 k2 S' i' iu' hnu ejb' ejt') ?_
  rw [hkdu] at hnu
  rintro t t' ⟨et, g2, ig2, a1, a2, a3⟩ ⟨et', g2', ig2', b1, b2, b3⟩
  have J : ∀ x : Bool, p.kbot ≤ (if x = true then p.n else p.kbot) ∧ (if x = true then p.n else p.kbot) ≤ p.n := fun x => by split <;> omega
  have T : ∀ x : Bool, (if x = true then 1 else p.ktop) ≤ p.ktop ∧ 1 ≤ (if x = true then 1 else p.ktop) := fun x => by split <;> omega
  have J' : ∀ x : Bool, (x = true → p.wantt = true) → p.kbot < (if x = true then p.n else p.kbot) → p.wantt = true := fun x hx h => by
    split at h
    · exact hx ‹_›
    · exact absurd h (lt_irrefl _)
  have T' : ∀ x : Bool, (x = true → p.wantt = true) → (if x = true then 1 else p.ktop) < p.ktop → p.wantt = true := fun x hx h => by
    split at h
    · exact hx ‹_›
    · exact absurd h (lt_irrefl _)
  have J1 := J b; have J2 := J p.wantt; have J1' := J' b hb; have J2' := J' p.wantt id
  have T1 := T b; have T2 := T p.wantt; have T1' := T' b hb; have T2' := T' p.wantt id
  simp only [Qr5P.flag] at a1 a2 a3
  rw [ejb] at J1 J1'
  rw [ejb'] at J2 J2'
  rw [ejt] at T1 T1'
  rw [ejt'] at T2 T2'
  clear J T J' T' ejb ejb' ejt ejt'
  simp only [Reg, if_true, Bool.false_eq_true, if_false] at a1 a2 a3 b1 b2 b3
  have w1 : p.ktop ≤ incol + max 1 (p.ktop - incol) := by omega
  have w2 : incol + max 1 (p.ktop - incol) + nu - 1 = min (incol + 4) p.kbot := by omega
  have w3 : min (incol + 4) p.kbot ≤ p.kbot := by omega
  have w4 : max p.ktop incol - 1 < incol + max 1 (p.ktop - incol) := by omega
  generalize incol + max 1 (p.ktop - incol) = w at *
  generalize max 1 (p.ktop - incol) = kk at *
  generalize min (incol + 4) p.kbot = m at *
  generalize max p.ktop incol - 1 = top at *
  rw [w2] at a1 a2 a3 b1 b2 b3
  clear hnu
  have out : ∀ (jb jt x y : Int), jb ≤ p.n → (p.kbot < jb → p.wantt = true) → 1 ≤ jt → (jt < p.ktop → p.wantt = true) → ¬ BlkW p x y →
      ¬ ((w ≤ x ∧ x ≤ m) ∧ m + 1 ≤ y ∧ y ≤ jb) ∧ ¬ ((jt ≤ x ∧ x ≤ top) ∧ w ≤ y ∧ y ≤ m) := by
    clear a1 a2 a3 b1 b2 b3
    intro jb jt x y u1 u2 u3 u4 hn
    refine ⟨fun hq => hn ?_, fun hq => hn ?_⟩
    · by_cases hy : y ≤ p.kbot
      · exact Or.inl (by omega)
      · exact Or.inr ⟨u2 (by omega), Or.inr (by omega)⟩
    · by_cases hx : p.ktop ≤ x
      · exact Or.inl (by omega)
      · exact Or.inr ⟨u4 (by omega), Or.inl (by omega)⟩
  refine ⟨by rw [et', et, es], g2, g2', ig2, ig2', fun x y hd => ?_, fun x y hn => ?_, fun x y hn => ?_⟩
  · have hd' := hd
    unfold BlkD at hd'
    by_cases r1 : (w ≤ x ∧ x ≤ m) ∧ m + 1 ≤ y ∧ y ≤ p.kbot
    · refine GemmAt.unique l1 l2 (a1 x y (by omega)) (b1 x y (by omega)) fun l hl => ?_
      rw [if_pos rfl]
      exact (ag _ _ (by unfold BlkD; omega)).symm
    · by_cases r2 : (p.ktop ≤ x ∧ x ≤ top) ∧ w ≤ y ∧ y ≤ m
      · refine GemmAt.unique l1 l2 (a2 x y (by omega)) (b2 x y (by omega)) fun l hl => ?_
        rw [if_neg (by simp)]
        exact (ag _ _ (by unfold BlkD; omega)).symm
      · rw [a3 x y (by omega) (by omega), b3 x y (by omega) (by omega), ag x y hd]
  · have := out jb jt x y J1.2 J1' T1.2 T1' hn
    rw [a3 x y this.1 this.2, f1 x y hn]
  · have := out jb' jt' x y J2.2 J2' T2.2 T2' hn
    rw [b3 x y this.1 this.2, f2 x y hn]

theorem qr5AccH_ret (hf : Fit5 p r c ldv cv rz cz ru cu rv cwv rh cwh) (ha : p.accum = true) {incol : Int} (k1 : p.ktop - 1 ≤ incol) (k2 : incol + 2 ≤ p.kbot)
    {s : Qr5S F} (hs : Shape5 p r c ldv cv rz cz ru cu rv cwv rh cwh s) : Ret (qr5AccH p incol s) (Shape5 p r c ldv cv rz cz ru cu rv cwv rh cwh) := by
  have := qr5Accumulate_ret (p := { p with wantz := false }) (cz := cz) (incol := incol) (s := s)
    ⟨hf.top, hf.lt, hf.kn, hf.nr, hf.nc, hf.ldh, hf.lv, hf.ldv3, hf.cv1, hf.nb, hf.ldz, hf.ldu, hf.ru4, hf.cu4, hf.ldwh, hf.rh4, hf.nh1, hf.nhc, hf.ldwv, hf.cv4, hf.nv1, hf.nvr,
      (fun h => by cases h), (fun h => by cases h), hf.zr, (fun _ h => by cases h), (fun _ h => by cases h)⟩ ha k1 k2
    ⟨hs.h, hs.v, (fun h => by cases h), (fun _ h => by cases h), hs.u, hs.wv, hs.wh⟩
  rw [qr5Accumulate_split] at this
  have e : qr5AccZl { p with wantz := false } incol = pure := by funext s; unfold qr5AccZl; rw [if_neg (by simp)]
  rw [e, bind_pure] at this
  obtain ⟨t, et, ht⟩ := this
  have et : qr5AccH p incol s = pure t := et
  have hz : t.z = s.z := by
    obtain ⟨g, ig⟩ : ∃ g, Is2 s.h r c (r * c) g := ⟨_, hqrShape_is2 hs.h (by have := hf.top; have := hf.lt; have := hf.kn; have := hf.nr; omega)⟩
    obtain ⟨ug, iu⟩ : ∃ ug, Is2 s.u ru cu (ru * cu) ug := ⟨_, hqrShape_is2 (hs.u ha) (by have := hf.ru4 ha; omega)⟩
    have hkdu : p.kdu = 4 := by unfold Qr5P.kdu; rw [hf.nb]; norm_num
    obtain ⟨t', et', ht', -⟩ := qr5AccH_tot hf ha k1 k2 hs ig iu (nu := ((p.kdu - max 0 (incol + p.kdu - p.kbot)) - max 1 (p.ktop - incol) + 1).toNat) (by rw [hkdu]; omega) rfl rfl .debug
    rw [et] at et'
    cases et'
    rw [ht']
  exact ⟨t, et, ht.h, ht.v, fun h => hz ▸ hs.zr h, fun h h' => hz ▸ hs.z h h', ht.u, ht.wv, ht.wh⟩

theorem qr5Accumulate_loc (l1 : ((zero : F) =ᶠ zero) = true) (l2 : ((zero : F) =ᶠ one) = false) (hf : Fit5 p r c ldv cv rz cz ru cu rv cwv rh cwh) (ha : p.accum = true) {b : Bool}
    (hb : b = true → p.wantt = true) {incol k : Int} (k1 : p.ktop - 1 ≤ incol) (k2 : incol + 2 ≤ p.kbot) {s s' : Qr5S F} (hs : R6 k s s') :
    Sim (R6 k) (qr5Accumulate (p.flag b) incol s) (qr5Accumulate p incol s') := by
  rw [qr5Accumulate_split, qr5Accumulate_split]
  refine Sim.bind (rel := R6 k) ((Sim.and_ret (qr5AccH_loc l1 l2 hf ha hb k1 k2 hs) (qr5AccH_ret (hf.flag b) ha k1 k2 (hs.2.1.flag b)) (qr5AccH_ret hf ha k1 k2 hs.2.2)).mono
    fun a b h => ⟨h.1, h.2.1.unflag, h.2.2⟩) fun s2 t2 hs2 => ?_
  show Sim (R6 k) (qr5AccZl p incol s2) _
  have h1 := hf.top; have h2 := hf.kn; have h3 := hf.nr; have h4 := hf.nc; have h7 := hf.lt
  have q1 := hf.ru4 ha; have q2 := hf.cu4 ha; have q6 := hf.cv4 ha; have q7 := hf.nv1 ha; have q8 := hf.nvr ha
  have hkdu : p.kdu = 4 := by unfold Qr5P.kdu; rw [hf.nb]; norm_num
  have hnv : 0 < asUsize p.nv := asUsize_of_pos q7 q8 (lt_of_le_of_lt (Nat.le_mul_of_pos_right _ (by omega)) (hs.2.1.wv ha).small)
  obtain ⟨nu, hnu⟩ : ∃ nu : Nat, (p.kdu - max 0 (incol + p.kdu - p.kbot)) - max 1 (p.ktop - incol) + 1 = nu :=
    ⟨((p.kdu - max 0 (incol + p.kdu - p.kbot)) - max 1 (p.ktop - incol) + 1).toNat, by rw [hkdu]; omega⟩
  unfold qr5AccZl
  simp only [hnu, hf.ldu ha, hf.ldwv ha, hf.ldz ha]
  rw [hkdu] at hnu
  refine Sim.ite (fun hw => Sim.forStep_mem hnv hs2 fun s t j j1 j2 hs' => ?_) fun _ => Sim.pure hs2
  obtain ⟨⟨es, L⟩, hs', ht'⟩ := hs'
  have i1 := hf.iloz hw; have i2 := hf.ihiz hw; have i3 := hf.zr ha; have i4 := hf.zc ha hw
  subst i3
  obtain ⟨jl, hjl⟩ : ∃ jl : Nat, min p.nv (p.ihiz - j + 1) = jl := ⟨(min p.nv (p.ihiz - j + 1)).toNat, by omega⟩
  rw [hjl]
  have b1 : j + ((if false = true then nu else jl : Nat) : Int) ≤ rz + 1 := by rw [if_neg (by simp)]; omega
  have b2 : incol + max 1 (p.ktop - incol) + ((if false = true then jl else nu : Nat) : Int) ≤ cz + 1 := by rw [if_neg (by simp)]; omega
  have b3 : (if false = true then nu else jl : Nat) ≤ rv := by rw [if_neg (by simp)]; omega
  have b4 : (if false = true then jl else nu : Nat) ≤ cwv := by rw [if_neg (by simp)]; omega
  have ez : t.z = s.z := by rw [es]
  have eu : t.u = s.u := by rw [es]
  have hU : LikeU ru cu s.u s.u := ⟨_, _, hqrShape_is2 (hs'.u ha) (by omega), hqrShape_is2 (hs'.u ha) (by omega), fun _ _ _ => rfl, fun _ _ h => absurd trivial h,
    fun _ _ h => absurd trivial h⟩
  rw [ez, eu]
  refine Sim.bind (Sim.and_ret (qr5Block_pre l1 l2 hU (hs'.u ha).small (hs'.z ha hw) (hs'.wv ha) (ht'.wv ha) (by omega) (by omega) (by omega) (by omega) (by omega) (by omega) (by omega) (by omega) b1 b2 b3 b4)
    (qr5Block_ret (hs'.u ha) (hs'.z ha hw) (hs'.wv ha) (by omega) (by omega) (by omega) (by omega) (by omega) (by omega) (by omega) b1 b2 b3 b4)
    (qr5Block_ret (hs'.u ha) (hs'.z ha hw) (ht'.wv ha) (by omega) (by omega) (by omega) (by omega) (by omega) (by omega) (by omega) b1 b2 b3 b4)) fun q q' hq => ?_
  obtain ⟨e, ⟨u1, u2⟩, u3, u4⟩ := hq
  refine Sim.pure ⟨⟨?_, L⟩, ⟨hs'.h, hs'.v, fun _ => u1.rows, fun _ _ => u1, hs'.u, fun _ => u2, hs'.wh⟩, ⟨ht'.h, ht'.v, fun _ => u3.rows, fun _ _ => u3, hs'.u, fun _ => u4, ht'.wh⟩⟩
  rw [e]
  conv_lhs => rw [es]

theorem qr5AccU_loc {incol krcol k m m' : Int} {s s' : Qr5S F} (hs : Rel5 p r c g0 g0' k s s') :
    Sim (Rel5 p r c g0 g0' k) (qr5AccU p incol krcol m s m') (qr5AccU p incol krcol m s' m') := by
  obtain ⟨es, L⟩ := hs
  rw [es]
  unfold qr5AccU
  exact Sim.bind' fun t1 => Sim.bind' fun v2 => Sim.bind' fun v3 => Sim.bind' fun z => Sim.pure ⟨rfl, L⟩

theorem Fit5.loc (hf : Fit5 p r c ldv cv rz cz ru cu rv cwv rh cwh) : FitL p r c := ⟨hf.top, hf.lt, hf.kn, hf.nr, hf.nc, hf.ldh, hf.nb⟩

theorem qr5Krcol_locA (hf : FitL p r c) (ha : p.accum = true) (hL : r * c < 2 ^ 31) {incol krcol : Int} (k1 : p.ktop - 1 ≤ krcol) (k2 : krcol + 2 ≤ p.kbot)
    {s s' : Qr5S F} (hs : Rel5 p r c g0 g0' krcol s s') :
    Sim (Rel5 p r c g0 g0' (krcol + 1)) (qr5Krcol p incol (max p.ktop incol) s krcol) (qr5Krcol p incol (max p.ktop incol) s' krcol) := by
  have h1 := hf.top; have h2 := hf.kn
  have hmt : max 1 ((p.ktop - krcol).tdiv 2 + 1) = 1 := by
    have := tdiv2_nonpos (x := p.ktop - krcol) (by omega)
    omega
  unfold qr5Krcol
  simp only [hmt, hf.nb, ha, if_true]
  have he : Ends5 p (max p.ktop incol) (min (incol + p.kdu) p.kbot) := ⟨by omega, fun h => by omega, by omega, fun h => by omega⟩
  rcases (by omega : krcol + 2 = p.kbot ∨ krcol + 3 ≤ p.kbot) with hk | hk
  · have hmb : min 1 ((p.kbot - krcol - 1).tdiv 2) = 0 := by rw [tdiv2_small (by omega) (by omega)]; rfl
    rw [hmb, if_pos ⟨by norm_num, by omega⟩, if_pos ⟨by norm_num, by omega⟩]
    refine Sim.bind (qr5Bmp22_loc hf hL k1 hk he hs) fun s1 s1' hs1 => ?_
    refine Sim.bind (Sim.forDown_mem hs1 fun _ _ m m1 m2 _ => by omega) fun s2 s2' hs2 => Sim.bind (Sim.forDown_mem hs2 fun _ _ m m1 m2 _ => by omega) fun s3 s3' hs3 => ?_
    exact Sim.forDown_mem hs3 fun _ _ m m1 m2 hs' => qr5AccU_loc hs'
  · have hmb : min 1 ((p.kbot - krcol - 1).tdiv 2) = 1 := by
      have := tdiv2_pos (x := p.kbot - krcol - 1) (by omega)
      omega
    have e1 : ∀ (f : Qr5S F → Int → R (Qr5S F)) (s : Qr5S F), forDown 1 1 s f = f s 1 := fun f s => by
      rw [forDown_cons (le_refl _)]
      simp
    rw [hmb, if_neg (by omega), if_neg (by omega), pure_bind, pure_bind, e1, e1]
    refine Sim.bind (qr5Bulge_loc hf hL k1 hk he hs) fun s2 s2' hs2 => ?_
    rw [e1, e1]
    refine Sim.bind (qr5Left_loc hf hL k1 hk he hs2) fun s3 s3' hs3 => ?_
    exact Sim.forDown_mem hs3 fun _ _ m m1 m2 hs' => qr5AccU_loc hs'

theorem qr5Krcol_flag (ha : p.accum = true) (b : Bool) (incol jtop : Int) : qr5Krcol (p.flag b) incol jtop = qr5Krcol p incol jtop := by
  funext s krcol
  unfold qr5Krcol
  have ha' : (p.flag b).accum = true := ha
  simp only [ha, ha', if_true]
  rfl

theorem qr5Incol_locA (l1 : ((zero : F) =ᶠ zero) = true) (l2 : ((zero : F) =ᶠ one) = false) (hf : Fit5 p r c ldv cv rz cz ru cu rv cwv rh cwh) (ha : p.accum = true) (hL : r * c < 2 ^ 31)
    {b : Bool} (hb : b = true → p.wantt = true) {incol : Int} (k1 : p.ktop - 1 ≤ incol) (k2 : incol + 2 ≤ p.kbot) {s s' : Qr5S F} (hs : R6 incol s s') :
    Sim (R6 (min (incol + 2) (p.kbot - 2 + 1))) (qr5Incol (p.flag b) s incol) (qr5Incol p s' incol) := by
  have h1 := hf.top
  have hkdu : p.kdu = 4 := by unfold Qr5P.kdu; rw [hf.nb]; norm_num
  unfold qr5Incol
  have e : ∀ jtop, qr5Krcol (p.flag b) incol jtop = qr5Krcol p incol jtop := qr5Krcol_flag ha b incol
  have ha' : (p.flag b).accum = true := ha
  simp only [e, ha, ha', if_true]
  show Sim _ (do
    let u ← dlaset (F := F) 'A' p.kdu p.kdu zero one s.u
    let s ← forUp incol (min (incol + 2 * p.nbmps - 1) (p.kbot - 2)) { s with u := u } (qr5Krcol p incol (max p.ktop incol))
    qr5Accumulate (p.flag b) incol s) _
  obtain ⟨⟨es, L⟩, S, S'⟩ := hs
  rw [show s'.u = s.u by rw [es], hkdu, hf.nb]
  have hus := (S.u ha).small
  obtain ⟨u1, eu1, iu1⟩ := dlasetFA_ok (uplo := 'A') (m := 4) (n := 4) (zero : F) one (S.u ha).rows (by have := hf.ru4 ha; omega)
    (by have := hf.ru4 ha; simp [touchedRows]; omega) (by rw [(S.u ha).length]; exact hus)
    (lt_of_le_of_lt (Nat.mul_le_mul_left _ (hf.cu4 ha)) hus)
  rw [(S.u ha).cols, (S.u ha).length] at iu1
  have eu2 : dlaset (F := F) 'A' 4 4 zero one s.u = pure u1 := by
    show (dlasetFA 'A' 4 4 zero one s.u >>= _) = _
    rw [show (dlasetFA 'A' 4 4 (zero : F) one s.u) = pure u1 from eu1, pure_bind]
    rfl
  have hu1 : HqrShape u1 ru cu := is2_hqrShape iu1 hus
  rw [eu2, pure_bind, pure_bind]
  refine Sim.bind (rel := R6 (min (incol + 2) (p.kbot - 2 + 1))) ?_ fun t t' ht => qr5Accumulate_loc l1 l2 hf ha hb k1 k2 ht
  rw [show min (incol + 2) (p.kbot - 2 + 1) = min (incol + 2 * 1 - 1) (p.kbot - 2) + 1 by omega]
  refine Sim.forUp_idx (rel := R6) (by omega) ⟨⟨by rw [es], L⟩, ⟨S.h, S.v, S.zr, S.z, fun _ => hu1, S.wv, S.wh⟩, ⟨S'.h, S'.v, S'.zr, S'.z, fun _ => hu1, S'.wv, S'.wh⟩⟩
    fun t t' i i1 i2 ht => ?_
  exact Sim.and_ret (qr5Krcol_locA hf.loc ha hL (by omega) (by omega) ht.1) (qr5Krcol_ret hf (by omega) (by omega) i1 (by omega) (by omega) ht.2.1)
    (qr5Krcol_ret hf (by omega) (by omega) i1 (by omega) (by omega) ht.2.2)

theorem qr5Main_locA (l1 : ((zero : F) =ᶠ zero) = true) (l2 : ((zero : F) =ᶠ one) = false) (hf : Fit5 p r c ldv cv rz cz ru cu rv cwv rh cwh) (ha : p.accum = true) (hL : r * c < 2 ^ 31)
    {b : Bool} (hb : b = true → p.wantt = true) (nshfts : Int) {s s' : Qr5S F} {g g' : Int → Int → F} (e : Is2 s.h r c (r * c) g) (e' : Is2 s'.h r c (r * c) g')
    (es : s' = { s with h := s'.h }) (S : Shape5 p r c ldv cv rz cz ru cu rv cwv rh cwh s)
    (hg : ∀ a b, p.ktop ≤ a → a ≤ p.kbot → p.ktop ≤ b → b ≤ p.kbot → (a ≤ b + 1 ∨ a = b + 3) → g a b = g' a b) :
    Sim (Rel6 p r c ldv cv rz cz ru cu rv cwv rh cwh g g' (p.kbot - 1)) (qr5Main (p.flag b) nshfts s) (qr5Main p nshfts s') := by
  have h1 := hf.top; have h2 := hf.kn; have h3 := hf.nr; have h4 := hf.nc; have h5 := hf.lt
  have L : Loc2 (fun a b => p.ktop ≤ a ∧ a ≤ p.kbot ∧ p.ktop ≤ b ∧ b ≤ p.kbot ∧ (a ≤ b + 1 ∨ a = b + 3)) (BlkW p) r c g g' s.h s'.h :=
    ⟨g, g', e, e', fun a b hd => hg a b hd.1 hd.2.1 hd.2.2.1 hd.2.2.2.1 hd.2.2.2.2, fun _ _ _ => rfl, fun _ _ _ => rfl⟩
  rw [es] at L ⊢
  unfold qr5Main
  refine Sim.bind' fun q => ?_
  obtain ⟨sr, si⟩ := q
  simp only at L ⊢
  have tail : ∀ x x' : FA F, Loc2 (BlkD p (p.ktop - 1)) (BlkW p) r c g g' x x' →
      Sim (Rel6 p r c ldv cv rz cz ru cu rv cwv rh cwh g g' (p.kbot - 1))
        (forStep (p.ktop - 2 * p.nbmps + 1) (p.kbot - 2) (2 * asUsize p.nbmps) { s with sr := sr, si := si, h := x } (qr5Incol (p.flag b)))
        (forStep (p.ktop - 2 * p.nbmps + 1) (p.kbot - 2) (2 * asUsize p.nbmps) { s with sr := sr, si := si, h := x' } (qr5Incol p)) := by
    intro x x' L
    rw [hf.nb]
    have a1 : 2 * asUsize 1 = 2 := by decide
    rw [a1]
    have hx : HqrShape x r c := by obtain ⟨_, _, i, -, -⟩ := L; exact is2_hqrShape i hL
    have hx' : HqrShape x' r c := by obtain ⟨_, _, -, i, -⟩ := L; exact is2_hqrShape i hL
    have := Sim.forStep2_idx (rel := Rel6 p r c ldv cv rz cz ru cu rv cwv rh cwh g g') (lo := p.ktop - 2 * 1 + 1) (hi := p.kbot - 2) (f := qr5Incol (p.flag b)) (g := qr5Incol p) (by omega)
      (s := { s with sr := sr, si := si, h := x }) (t := { s with sr := sr, si := si, h := x' })
      ⟨⟨rfl, by rw [show p.ktop - 2 * 1 + 1 = p.ktop - 1 by ring]; exact L⟩, ⟨hx, S.v, S.zr, S.z, S.u, S.wv, S.wh⟩, ⟨hx', S.v, S.zr, S.z, S.u, S.wv, S.wh⟩⟩
      fun _ _ i i1 i2 hs' => qr5Incol_locA l1 l2 hf ha hL hb (by omega) (by omega) hs'
    rwa [show p.kbot - 2 + 1 = p.kbot - 1 by ring] at this
  refine Sim.ite (c := p.ktop + 2 ≤ p.kbot) (fun hk => ?_) fun hk => tail _ _ (L.mono fun a b hd => by unfold BlkD at hd; omega)
  refine Sim.bind (L.set (D' := BlkD p (p.ktop - 1)) (a := p.ktop + 2) (b := p.ktop) hL (by omega) (by omega) (by omega) (by omega) (by unfold BlkW; omega) _
    fun i j hd => by unfold BlkD at hd; omega) fun x x' L => tail x x' L

end Verif

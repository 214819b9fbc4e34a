import Verif.Lib.Qr5F64c
import Verif.Lib.Qr5Chase

/-!
# One step of the chase of `dlaqr5` on binary64: the arrays
-/

namespace Verif
open F64 Scalar Spec Matrix

section code
variable {F : Type} [Scalar F] {r c : Nat} {lo hi kt kb k : ℤ} {g : ℤ → ℤ → F} {h : FA F}

/-- The element `(k + 1, k)` set to zero if `cut`. -/
def cutG (cut : Bool) (k : ℤ) (g : ℤ → ℤ → F) (a b : ℤ) : F := if cut = true ∧ a = k + 1 ∧ b = k then Scalar.zero else g a b

theorem store3_code (hd : Fits5 r c lo hi lo hi) (hh : Is2 h r c (r * c) g) (k1 : lo ≤ kt) (k2 : kt ≤ k) (k3 : k + 3 ≤ kb) (k4 : kb ≤ hi) (beta : F) :
    ∃ h1 h2 h3, h.set2 (k + 1) k beta = pure h1 ∧ h1.set2 (k + 2) k Scalar.zero = pure h2 ∧ h2.set2 (k + 3) k Scalar.zero = pure h3 ∧
      Is2 h3 r c (r * c) (col5 kt kb k beta g) := by
  obtain ⟨h1, e1, i1⟩ := set2_is2 hh (hd.cell (a := k + 1) (b := k) (by omega) (by omega) (by omega) (by omega)) hd.size beta
  obtain ⟨h2, e2, i2⟩ := set2_is2 i1 (hd.cell (a := k + 2) (b := k) (by omega) (by omega) (by omega) (by omega)) hd.size Scalar.zero
  obtain ⟨h3, e3, i3⟩ := set2_is2 i2 (hd.cell (a := k + 3) (b := k) (by omega) (by omega) (by omega) (by omega)) hd.size Scalar.zero
  refine ⟨h1, h2, h3, e1, e2, e3, ?_⟩
  convert i3 using 1
  funext a b
  simp only [col5, upd2]
  by_cases hb : b = k
  · subst hb
    split_ifs <;> first | rfl | omega
  · rw [if_neg (by omega), if_neg (by omega), if_neg (by omega), if_neg (by omega)]

theorem store2_code (hd : Fits5 r c lo hi lo hi) (hh : Is2 h r c (r * c) g) (k1 : lo ≤ kt) (k2 : kt ≤ k) (k3 : k + 2 = kb) (k4 : kb ≤ hi) (beta : F) :
    ∃ h1 h2, h.set2 (k + 1) k beta = pure h1 ∧ h1.set2 (k + 2) k Scalar.zero = pure h2 ∧ Is2 h2 r c (r * c) (col5 kt kb k beta g) := by
  obtain ⟨h1, e1, i1⟩ := set2_is2 hh (hd.cell (a := k + 1) (b := k) (by omega) (by omega) (by omega) (by omega)) hd.size beta
  obtain ⟨h2, e2, i2⟩ := set2_is2 i1 (hd.cell (a := k + 2) (b := k) (by omega) (by omega) (by omega) (by omega)) hd.size Scalar.zero
  refine ⟨h1, h2, e1, e2, ?_⟩
  convert i2 using 1
  funext a b
  simp only [col5, upd2]
  by_cases hb : b = k
  · subst hb
    split_ifs <;> first | rfl | omega
  · rw [if_neg (by omega), if_neg (by omega), if_neg (by omega)]

theorem col5_start (h : k < kt) (beta : F) : col5 kt kb k beta g = g := by
  funext a b
  exact col5_ne (by omega)

/-- The row left over by the previous step is completed. -/
theorem row_code (hd : Fits5 r c lo hi lo hi) (hh : Is2 h r c (r * c) g) (k1 : lo ≤ k) (k3 : k + 3 ≤ hi) (v2 v3 t : F) :
    ∃ h1 h2 h3, h.get2 (k + 3) (k + 2) = pure (g (k + 3) (k + 2)) ∧
      h.set2 (k + 3) k (-(v3 * g (k + 3) (k + 2)) * t) = pure h1 ∧ h1.set2 (k + 3) (k + 1) (-(v3 * g (k + 3) (k + 2)) * (t * v2)) = pure h2 ∧
      h2.modify2 (k + 3) (k + 2) (· - v3 * g (k + 3) (k + 2) * (t * v3)) = pure h3 ∧ Is2 h3 r c (r * c) (late5 k v2 v3 t g) := by
  have cl : ∀ b, k ≤ b → b ≤ k + 2 → Cell r (r * c) (k + 3) b := fun b b1 b2 => hd.cell (by omega) (by omega) (by omega) (by omega)
  obtain ⟨h1, e1, i1⟩ := set2_is2 hh (cl k (by omega) (by omega)) hd.size (-(v3 * g (k + 3) (k + 2)) * t)
  obtain ⟨h2, e2, i2⟩ := set2_is2 i1 (cl (k + 1) (by omega) (by omega)) hd.size (-(v3 * g (k + 3) (k + 2)) * (t * v2))
  obtain ⟨h3, e3, i3⟩ := modify2_is2 i2 (cl (k + 2) (by omega) (by omega)) hd.size (· - v3 * g (k + 3) (k + 2) * (t * v3))
  refine ⟨h1, h2, h3, get2_is2 hh (cl (k + 2) (by omega) (by omega)) hd.size, e1, e2, e3, ?_⟩
  convert i3 using 1
  funext a b
  simp only [late5, upd2]
  by_cases c2 : a = k + 3 ∧ b = k + 2
  · obtain ⟨rfl, rfl⟩ := c2
    rw [if_neg (by omega), if_neg (by omega), if_pos ⟨rfl, rfl⟩, if_pos ⟨rfl, rfl⟩, if_neg (by omega), if_neg (by omega)]
  · rw [if_neg c2, if_neg c2]
    by_cases c1 : a = k + 3 ∧ b = k + 1
    · rw [if_neg (by omega), if_pos c1, if_pos c1]
    · rw [if_neg c1, if_neg c1]

variable {v2 v3 t : F}

theorem right3_code {jt : ℤ} (hd : Fits5 r c lo hi lo hi) (hh : Is2 h r c (r * c) g) (hjt : lo ≤ jt) (k1 : lo ≤ k + 1) (k3 : k + 3 ≤ kb) (k4 : kb ≤ hi) :
    ∃ h', refl3Cols jt (min kb (k + 3)) (k + 1) (k + 2) (k + 3) v2 v3 t (t * v2) (t * v3) h = pure h' ∧
      Is2 h' r c (r * c) (right5 jt kb k v2 v3 t g) := by
  obtain ⟨h', e, i⟩ := refl3Cols_ok (lo := jt) (hi := min kb (k + 3)) (r1 := k + 1) (r2 := k + 2) (r3 := k + 3) v2 v3 t (t * v2) (t * v3) hh
    hd.size (by omega) (by omega) (by omega)
    (fun i i1 i2 => ⟨hd.cell (by omega) (by omega) (by omega) (by omega), hd.cell (by omega) (by omega) (by omega) (by omega),
      hd.cell (by omega) (by omega) (by omega) (by omega)⟩)
  refine ⟨h', e, ?_⟩
  convert i using 1
  funext a b
  unfold right5 reflG
  rw [if_pos (show k + 1 + 2 ≤ kb by omega), show k + 1 + 1 = k + 2 by ring, show k + 1 + 2 = k + 3 by ring]

/-- Columns `c1..m` updated from the left. -/
theorem left3_code {c1 m : ℤ} (hd : Fits5 r c lo hi lo hi) (hh : Is2 h r c (r * c) g) (hc1 : lo ≤ c1) (hm : m ≤ hi) (k1 : lo ≤ k + 1) (k3 : k + 3 ≤ kb) (k4 : kb ≤ hi) :
    ∃ h', refl3Rows c1 m (k + 1) (k + 2) (k + 3) v2 v3 t (t * v2) (t * v3) h = pure h' ∧
      Is2 h' r c (r * c) (fun a b => if c1 ≤ b ∧ b ≤ m then reflG kb (k + 1) v2 v3 t (fun i => g i b) a else g a b) := by
  obtain ⟨h', e, i⟩ := refl3Rows_ok (lo := c1) (hi := m) (r1 := k + 1) (r2 := k + 2) (r3 := k + 3) v2 v3 t (t * v2) (t * v3) hh
    hd.size (by omega) (by omega) (by omega)
    (fun i i1 i2 => ⟨hd.cell (by omega) (by omega) (by omega) (by omega), hd.cell (by omega) (by omega) (by omega) (by omega),
      hd.cell (by omega) (by omega) (by omega) (by omega)⟩)
  refine ⟨h', e, ?_⟩
  convert i using 1
  funext a b
  unfold reflG
  rw [if_pos (show k + 1 + 2 ≤ kb by omega), show k + 1 + 1 = k + 2 by ring, show k + 1 + 2 = k + 3 by ring]

theorem right2_code {jt : ℤ} (hd : Fits5 r c lo hi lo hi) (hh : Is2 h r c (r * c) g) (hjt : lo ≤ jt) (k1 : lo ≤ k + 1) (k3 : k + 2 = kb) (k4 : kb ≤ hi) :
    ∃ h', refl2Cols jt (min kb (k + 3)) (k + 1) (k + 2) v2 t (t * v2) h = pure h' ∧ Is2 h' r c (r * c) (right5 jt kb k v2 v3 t g) := by
  obtain ⟨h', e, i⟩ := refl2Cols_ok (lo := jt) (hi := min kb (k + 3)) (r1 := k + 1) (r2 := k + 2) v2 t (t * v2) hh hd.size (by omega)
    (fun i i1 i2 => ⟨hd.cell (by omega) (by omega) (by omega) (by omega), hd.cell (by omega) (by omega) (by omega) (by omega)⟩)
  refine ⟨h', e, ?_⟩
  convert i using 1
  funext a b
  unfold right5 reflG
  rw [if_neg (show ¬ k + 1 + 2 ≤ kb by omega), show k + 1 + 1 = k + 2 by ring]

theorem left2_code {jb : ℤ} (hd : Fits5 r c lo hi lo hi) (hh : Is2 h r c (r * c) g) (hjb : jb ≤ hi) (k1 : lo ≤ k + 1) (k3 : k + 2 = kb) (k4 : kb ≤ hi) :
    ∃ h', refl2Rows (k + 1) jb (k + 1) (k + 2) v2 t (t * v2) h = pure h' ∧ Is2 h' r c (r * c) (left5 jb kb k v2 v3 t g) := by
  obtain ⟨h', e, i⟩ := refl2Rows_ok (lo := k + 1) (hi := jb) (r1 := k + 1) (r2 := k + 2) v2 t (t * v2) hh hd.size (by omega)
    (fun i i1 i2 => ⟨hd.cell (by omega) (by omega) (by omega) (by omega), hd.cell (by omega) (by omega) (by omega) (by omega)⟩)
  refine ⟨h', e, ?_⟩
  convert i using 1
  funext a b
  unfold left5 reflG
  rw [if_neg (show ¬ k + 1 + 2 ≤ kb by omega), show k + 1 + 1 = k + 2 by ring]

end code

/-- The fixed arguments of a chase with one bulge. -/
structure Dim5F (p : Qr5P Float) (r c ldv : Nat) (lo hi : ℤ) (sm : ℝ) : Prop where
  fits : Fits5 r c lo hi lo hi
  nb : p.nbmps = 1
  lok : lo ≤ p.ktop
  hik : p.kbot ≤ hi
  lt : p.ktop < p.kbot
  ldh : p.ldh = r
  lv : p.ldv = ldv
  pf : PF5 p sm

section arr
variable {p : Qr5P Float} {r c ldv cv : Nat} {rest : List Float} {lo hi jt jb k : ℤ} {g : ℤ → ℤ → Float} {v2 v3 t : Float} {sm B : ℝ} {s : Qr5S Float}

/-- What the updates after the reflector has been built do to the array `h1`. -/
def Upd5 (p : Qr5P Float) (r c : Nat) (jt jb k : ℤ) (v2 v3 t : Float) (d : ℝ) (gs : ℤ → ℤ → Float) (v1 : FA Float) (s s' : Qr5S Float) : Prop :=
  s' = { s with h := s'.h, v := v1 } ∧ ∃ cut : Bool,
    (cut = true → p.ktop ≤ k ∧ |toR (left5 jb p.kbot k v2 v3 t (right5 jt p.kbot k v2 v3 t gs) (k + 1) k)| ≤ d) ∧
    Is2 s'.h r c (r * c) (cutG cut k (left5 jb p.kbot k v2 v3 t (right5 jt p.kbot k v2 v3 t gs)))

/-- The updates after a three-element reflector has been built. -/
theorem after3F (hd : Dim5F p r c ldv lo hi sm) {h1 v1 : FA Float} (hm : Is2 h1 r c (r * c) g) (hv : V5F ldv cv rest v1 t v2 v3)
    (t1 : lo ≤ jt) (b1 : k + 1 ≤ jb) (b2 : jb ≤ hi) (k1 : p.ktop - 1 ≤ k) (k3 : k + 3 ≤ p.kbot) (hB0 : 0 ≤ B) (hBb : 1024 * B ≤ big)
    (hB : p.ktop ≤ k → ∀ a b, p.ktop ≤ a → a ≤ p.kbot → p.ktop ≤ b → b ≤ k + 1 →
      Bn (left5 jb p.kbot k v2 v3 t (right5 jt p.kbot k v2 v3 t g) a b) B) :
    Tot (do
      let s1 ← (do
        let t1 ← v1.get2 1 1
        let v2 ← v1.get2 2 1
        let v3 ← v1.get2 3 1
        let t2 := t1 * v2
        let t3 := t1 * v3
        let h ← refl3Cols jt (min p.kbot (k + 3)) (k + 1) (k + 2) (k + 3) v2 v3 t1 t2 t3 h1
        let h ← refl3Rows (k + 1) (k + 1) (k + 1) (k + 2) (k + 3) v2 v3 t1 t2 t3 h
        let h ← if k < p.ktop then pure h else qr5Negligible p k h
        pure { s with h := h, v := v1, vt := s.vt })
      qr5Left p k jb s1 1) (Upd5 p r c jt jb k v2 v3 t (16 * (ur * B) + eta + sm) g v1 s) := by
  have l1 := hd.lok; have l2 := hd.hik
  obtain ⟨w1, w2, w3⟩ := hv.get
  obtain ⟨h2, e2, i2⟩ := right3_code (v2 := v2) (v3 := v3) (t := t) hd.fits hm (k := k) t1 (by omega) k3 l2
  obtain ⟨h3, e3, i3⟩ := left3_code (v2 := v2) (v3 := v3) (t := t) (c1 := k + 1) (m := k + 1) hd.fits i2 (k := k) (by omega) (by omega) (by omega) k3 l2
  set gR := right5 jt p.kbot k v2 v3 t g with hgR
  set gF := left5 jb p.kbot k v2 v3 t gR with hgF
  set g3 : ℤ → ℤ → Float := fun a b => if k + 1 ≤ b ∧ b ≤ k + 1 then reflG p.kbot (k + 1) v2 v3 t (fun i => gR i b) a else gR a b with hg3
  have e33 : ∀ a b, b ≤ k + 1 → g3 a b = gF a b := by
    intro a b hb
    rw [hgF]
    unfold left5
    simp only [hg3]
    by_cases hb1 : k + 1 ≤ b
    · rw [if_pos ⟨hb1, hb⟩, if_pos ⟨hb1, by omega⟩]
    · rw [if_neg (by omega), if_neg (by omega)]
  have neg : Tot (if k < p.ktop then pure h3 else qr5Negligible p k h3) fun h' => ∃ cut : Bool,
      (cut = true → p.ktop ≤ k ∧ |toR (gF (k + 1) k)| ≤ 16 * (ur * B) + eta + sm) ∧ Is2 h' r c (r * c) (cutG cut k g3) := by
    refine Tot.ite (fun hk => ?_) fun hk => ?_
    · refine Tot.pure ⟨false, by simp, ?_⟩
      have : cutG false k g3 = g3 := by funext a b; simp [cutG]
      rw [this]
      exact i3
    · refine (negl_F hd.fits i3 hd.pf hB0 hBb l1 l2 (by omega) (by omega) fun a b a1 a2 b1 b2 => ?_).mono ?_
      · show Bn (g3 a b) B
        rw [e33 a b b2]
        exact hB (by omega) a b a1 a2 b1 b2
      · rintro h' ⟨cut, q1, q2⟩
        refine ⟨cut, fun hc => ⟨by omega, ?_⟩, q2⟩
        have := q1 hc
        change |toR (g3 (k + 1) k)| ≤ _ at this
        rwa [e33 _ _ (by omega)] at this
  simp only [w1, w2, w3, pure_bind, e2, e3]
  refine Tot.bind (P := fun s1 => ∃ cut : Bool, (cut = true → p.ktop ≤ k ∧ |toR (gF (k + 1) k)| ≤ 16 * (ur * B) + eta + sm) ∧
      s1 = { s with h := s1.h, v := v1 } ∧ Is2 s1.h r c (r * c) (cutG cut k g3)) ?_ ?_
  · have := Tot.bind (f := fun h => (Pure.pure { s with h := h, v := v1 } : R (Qr5S Float))) (Q := fun s1 => ∃ cut : Bool,
      (cut = true → p.ktop ≤ k ∧ |toR (gF (k + 1) k)| ≤ 16 * (ur * B) + eta + sm) ∧ s1 = { s with h := s1.h, v := v1 } ∧
      Is2 s1.h r c (r * c) (cutG cut k g3)) neg (by
        rintro h' ⟨cut, q1, q2⟩
        exact Tot.pure ⟨cut, q1, rfl, q2⟩)
    by_cases hk : k < p.ktop
    · rw [if_pos hk, pure_bind] at this
      rw [if_pos hk]
      exact this
    · rw [if_neg hk] at this
      rw [if_neg hk]
      exact this
  · rintro s1 ⟨cut, q1, q2, i4⟩
    obtain ⟨h5, e5, i5⟩ := left3_code (v2 := v2) (v3 := v3) (t := t) (c1 := k + 2) (m := jb) hd.fits i4 (k := k) (by omega) (by omega) (by omega) k3 l2
    have hv1 : s1.v = v1 := by rw [q2]
    unfold qr5Left
    simp only [hv1, w1, w2, w3, pure_bind]
    rw [show k + 2 * (1 - 1) = k by ring, show max p.ktop (k + 2 * 1) = k + 2 by omega, e5]
    refine Tot.of_eq (pure_bind _ _) ⟨by rw [q2], cut, q1, ?_⟩
    show Is2 h5 r c (r * c) _
    convert i5 using 1
    funext a b
    by_cases hbk : k + 2 ≤ b
    · have ec : ∀ i, cutG cut k g3 i b = gR i b := by
        intro i
        unfold cutG
        rw [if_neg (by omega)]
        simp only [hg3]
        rw [if_neg (by omega)]
      simp only [ec]
      unfold cutG
      rw [if_neg (by omega), ← hgR]
      unfold left5
      by_cases hb : b ≤ jb
      · rw [if_pos ⟨by omega, hb⟩, if_pos ⟨hbk, hb⟩]
      · rw [if_neg (by omega), if_neg (by omega)]
    · beta_reduce
      rw [if_neg (by omega)]
      unfold cutG
      rw [e33 a b (by omega)]

/-- The updates after a two-element reflector has been built. -/
theorem after2F (hd : Dim5F p r c ldv lo hi sm) {h1 v1 : FA Float} (hm : Is2 h1 r c (r * c) g) (hv : V5F ldv cv rest v1 t v2 v3)
    (t1 : lo ≤ jt) (b1 : k + 1 ≤ jb) (b2 : jb ≤ hi) (k1 : p.ktop - 1 ≤ k) (k3 : k + 2 = p.kbot) (hB0 : 0 ≤ B) (hBb : 1024 * B ≤ big)
    (hB : p.ktop ≤ k → ∀ a b, p.ktop ≤ a → a ≤ p.kbot → p.ktop ≤ b → b ≤ k + 1 →
      Bn (left5 jb p.kbot k v2 v3 t (right5 jt p.kbot k v2 v3 t g) a b) B) {α : Type} {K : Float → Float → Qr5S Float → R α} {P : α → Prop}
    (hK : ∀ s', Upd5 p r c jt jb k v2 v3 t (16 * (ur * B) + eta + sm) g v1 s s' → Tot (K t v2 s') P) :
    Tot (do
        let t1 ← v1.get2 1 1
        let v2 ← v1.get2 2 1
        let t2 := t1 * v2
        let h ← refl2Cols jt (min p.kbot (k + 3)) (k + 1) (k + 2) v2 t1 t2 h1
        let h ← refl2Rows (k + 1) jb (k + 1) (k + 2) v2 t1 t2 h
        let h ← if k ≥ p.ktop then qr5Negligible p k h else pure h
        K t1 v2 { s with h := h, v := v1 }) P := by
  have l1 := hd.lok; have l2 := hd.hik
  obtain ⟨w1, w2, w3⟩ := hv.get
  obtain ⟨h2, e2, i2⟩ := right2_code (v2 := v2) (v3 := v3) (t := t) hd.fits hm (k := k) t1 (by omega) k3 l2
  obtain ⟨h3, e3, i3⟩ := left2_code (v2 := v2) (v3 := v3) (t := t) hd.fits i2 (k := k) b2 (by omega) k3 l2
  simp only [w1, w2, pure_bind, e2, e3]
  refine Tot.ite (fun hk => ?_) fun hk => ?_
  · refine Tot.bind (negl_F hd.fits i3 hd.pf hB0 hBb l1 l2 hk (by omega) (hB hk)) ?_
    rintro h' ⟨cut, q1, q2⟩
    exact hK _ ⟨rfl, cut, fun hc => ⟨hk, q1 hc⟩, q2⟩
  · refine hK _ ⟨rfl, false, by simp, ?_⟩
    have : ∀ f : ℤ → ℤ → Float, cutG false k f = f := fun f => by funext a b; simp [cutG]
    rw [this]
    exact i3

end arr

end Verif

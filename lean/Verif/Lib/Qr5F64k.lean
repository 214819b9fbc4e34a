import Verif.Lib.Qr5F64j
import Verif.Lib.Qr5Sweep

/-!
# One sweep in the accumulating mode of `dlaqr5` on binary64: the window
-/

namespace Verif
open F64 Scalar Spec

section win
variable {lo hi kt kb k jt jb : ℤ} {G Gv gS : ℤ → ℤ → Float} {v2 v3 t beta : Float}

theorem reflG_congr {q i : ℤ} {x y : ℤ → Float} (hi : x i = y i) (h0 : x q = y q) (h1 : x (q + 1) = y (q + 1)) (h2 : q + 2 ≤ kb → x (q + 2) = y (q + 2)) :
    reflG kb q v2 v3 t x i = reflG kb q v2 v3 t y i := by
  unfold reflG
  split
  · rename_i h
    simp only [refl3, hi, h0, h1, h2 h]
  · simp only [refl2, hi, h0, h1]

/-- The array `G` agrees with `Gv` in the window, and with `gS` outside. -/
structure WinG (jt jb : ℤ) (G Gv gS : ℤ → ℤ → Float) : Prop where
  on : ∀ a b, jt ≤ a → b ≤ jb → G a b = Gv a b
  off : ∀ a b, ¬ (jt ≤ a ∧ b ≤ jb) → G a b = gS a b

theorem WinG.col (h : WinG jt jb G Gv gS) (h1 : jt ≤ k + 1) (h2 : k ≤ jb) : WinG jt jb (col5 kt kb k beta G) (col5 kt kb k beta Gv) gS := by
  refine ⟨fun a b a1 b1 => ?_, fun a b hab => ?_⟩
  · unfold col5
    rw [h.on a b a1 b1]
  · rw [col5_ne (by omega)]
    exact h.off a b hab

theorem WinG.right (h : WinG jt jb G Gv gS) (hlo : lo ≤ jt) (h1 : jt ≤ k + 1) (h2 : k + 2 ≤ jb) (h3 : k + 3 ≤ kb → k + 3 ≤ jb) :
    WinG jt jb (right5 jt kb k v2 v3 t G) (right5 lo kb k v2 v3 t Gv) gS := by
  refine ⟨fun a b a1 b1 => ?_, fun a b hab => ?_⟩
  · unfold right5
    by_cases hc : a ≤ min kb (k + 3)
    · rw [if_pos ⟨a1, hc⟩, if_pos ⟨by omega, hc⟩]
      exact reflG_congr (h.on a b a1 b1) (h.on a _ a1 (by omega)) (h.on a _ a1 (by omega)) fun h' => h.on a _ a1 (by have := h3 (by omega); omega)
    · rw [if_neg (by omega), if_neg (by omega)]
      exact h.on a b a1 b1
  · unfold right5
    by_cases hc : jt ≤ a ∧ a ≤ min kb (k + 3)
    · rw [if_pos hc, reflG_ne (by omega) (by omega) (by
        by_cases h' : k + 1 + 2 ≤ kb
        · left; have := h3 (by omega); omega
        · exact Or.inr h')]
      exact h.off a b hab
    · rw [if_neg hc]
      exact h.off a b hab

theorem WinG.left (h : WinG jt jb G Gv gS) (hhi : jb ≤ hi) (h1 : jt ≤ k + 1) : WinG jt jb (left5 jb kb k v2 v3 t G) (left5 hi kb k v2 v3 t Gv) gS := by
  refine ⟨fun a b a1 b1 => ?_, fun a b hab => ?_⟩
  · unfold left5
    by_cases hc : k + 1 ≤ b
    · rw [if_pos ⟨hc, b1⟩, if_pos ⟨hc, by omega⟩]
      exact reflG_congr (h.on a b a1 b1) (h.on _ b (by omega) b1) (h.on _ b (by omega) b1) fun h' => h.on _ b (by omega) b1
    · rw [if_neg (by omega), if_neg (by omega)]
      exact h.on a b a1 b1
  · unfold left5
    by_cases hc : k + 1 ≤ b ∧ b ≤ jb
    · rw [if_pos hc, reflG_ne (by omega) (by omega) (by omega)]
      exact h.off a b hab
    · rw [if_neg hc]
      exact h.off a b hab

theorem WinG.late (h : WinG jt jb G Gv gS) (h1 : jt ≤ k + 1) (h2 : k + 2 ≤ jb) : WinG jt jb (late5 k v2 v3 t G) (late5 k v2 v3 t Gv) gS := by
  refine ⟨fun a b a1 b1 => ?_, fun a b hab => ?_⟩
  · unfold late5
    rw [h.on a b a1 b1, h.on (k + 3) (k + 2) (by omega) h2]
  · unfold late5
    rw [if_neg (by omega), if_neg (by omega), if_neg (by omega)]
    exact h.off a b hab

theorem WinG.cut {cut : Bool} (h : WinG jt jb G Gv gS) (h1 : jt ≤ k + 1) (h2 : k ≤ jb) : WinG jt jb (cutG cut k G) (cutG cut k Gv) gS := by
  refine ⟨fun a b a1 b1 => ?_, fun a b hab => ?_⟩
  · unfold cutG
    rw [h.on a b a1 b1]
  · unfold cutG
    rw [if_neg (by omega)]
    exact h.off a b hab

/-- Rows above the window. -/
theorem above5 {a : ℤ} (hlo : lo ≤ a) (ha : a < k + 1) (hk : k ≤ kb) (b : ℤ) :
    left5 hi kb k v2 v3 t (right5 lo kb k v2 v3 t (col5 kt kb k beta Gv)) a b = reflG kb (k + 1) v2 v3 t (Gv a) b := by
  have e : right5 lo kb k v2 v3 t (col5 kt kb k beta Gv) a b = reflG kb (k + 1) v2 v3 t (Gv a) b := by
    unfold right5
    rw [if_pos ⟨hlo, by omega⟩]
    have : col5 kt kb k beta Gv a = Gv a := by
      funext j
      exact col5_ne (by omega)
    rw [this]
  unfold left5
  split
  · rw [reflG_ne (by omega) (by omega) (by omega)]
    exact e
  · exact e

/-- Columns to the right of the window. -/
theorem beyond5 {b : ℤ} (hb : b ≤ hi) (h1 : k + 2 < b) (h3 : k + 3 ≤ kb → k + 3 < b) (a : ℤ) :
    left5 hi kb k v2 v3 t (right5 lo kb k v2 v3 t (col5 kt kb k beta Gv)) a b = reflG kb (k + 1) v2 v3 t (fun i => Gv i b) a := by
  have e : ∀ i, right5 lo kb k v2 v3 t (col5 kt kb k beta Gv) i b = Gv i b := by
    intro i
    unfold right5
    have ec : col5 kt kb k beta Gv i b = Gv i b := col5_ne (by omega)
    split
    · rw [reflG_ne (by omega) (by omega) (by
        by_cases h' : k + 1 + 2 ≤ kb
        · left; have := h3 (by omega); omega
        · exact Or.inr h'), ec]
    · exact ec
  unfold left5
  rw [if_pos ⟨by omega, hb⟩]
  simp only [e]

theorem refl3_shift (c q : ℤ) (t2 t3 : Float) {x y : ℤ → Float} {b : ℤ} (hb : x b = y (c + b)) (h0 : x q = y (c + q)) (h1 : x (q + 1) = y (c + q + 1)) (h2 : x (q + 2) = y (c + q + 2)) :
    refl3 q (q + 1) (q + 2) v2 v3 t t2 t3 x b = refl3 (c + q) (c + q + 1) (c + q + 2) v2 v3 t t2 t3 y (c + b) := by
  unfold refl3
  rw [hb, h0, h1, h2]
  have e : ∀ d : ℤ, (c + b = c + q + d) = (b = q + d) := fun d => propext ⟨fun h => by omega, fun h => by omega⟩
  have e0 : (c + b = c + q) = (b = q) := propext ⟨fun h => by omega, fun h => by omega⟩
  simp only [e, e0]

theorem refl2_shift (c q : ℤ) (t2 : Float) {x y : ℤ → Float} {b : ℤ} (hb : x b = y (c + b)) (h0 : x q = y (c + q)) (h1 : x (q + 1) = y (c + q + 1)) :
    refl2 q (q + 1) v2 t t2 x b = refl2 (c + q) (c + q + 1) v2 t t2 y (c + b) := by
  unfold refl2
  rw [hb, h0, h1]
  have e : ∀ d : ℤ, (c + b = c + q + d) = (b = q + d) := fun d => propext ⟨fun h => by omega, fun h => by omega⟩
  have e0 : (c + b = c + q) = (b = q) := propext ⟨fun h => by omega, fun h => by omega⟩
  simp only [e, e0]

end win

/-- The unit vector. -/
def unitF (a b : ℤ) : Float := if a = b then one else zero

/-- An array that holds the entries of `g`. -/
def faOf (r c : Nat) (g : ℤ → ℤ → Float) : FA Float := ⟨tab2 r (r * c) g, r, c, zero⟩

theorem faOf_is2 (r c : Nat) (g : ℤ → ℤ → Float) : Is2 (faOf r c g) r c (r * c) g := ⟨rfl, rfl, rfl⟩

/-- The array `u` holds the product of the reflectors. -/
def UOn (ru cu : Nat) (incol k1 kb : ℤ) (rs : List RflF) (u : FA Float) : Prop :=
  ∃ ug, Is2 u ru cu (ru * cu) ug ∧ ∀ i j, k1 ≤ i → i ≤ 4 → 1 ≤ j → j ≤ 4 → ug i j = applyF kb rs (unitF (incol + i)) (incol + j)

section
variable {ru cu : Nat} {incol k1 kb k : ℤ} {rs : List RflF} {u : FA Float} {v2 v3 t : Float} {V2 V3 θ : ℝ}

theorem UOn.refl3 (h : UOn ru cu incol k1 kb rs u) (hr : 4 ≤ ru) (hc : 4 ≤ cu) (hs : ru * cu < 2 ^ 31) (hk1 : 1 ≤ k1) (h1 : incol ≤ k) (h2 : k ≤ incol + 1) (h3 : k + 3 ≤ kb) :
    ∃ u', refl3Cols k1 4 (k - incol + 1) (k - incol + 1 + 1) (k - incol + 1 + 2) v2 v3 t (t * v2) (t * v3) u = pure u' ∧
      UOn ru cu incol k1 kb (rs ++ [⟨k + 1, v2, v3, t, V2, V3, θ⟩]) u' := by
  obtain ⟨ug, iu, ou⟩ := h
  have fu : Fits5 ru cu 1 4 1 4 := ⟨hs, le_refl _, by exact_mod_cast hr, by exact_mod_cast hc, le_refl _, le_refl _⟩
  obtain ⟨u', e, i⟩ := refl3Cols_ok (lo := k1) (hi := 4) (r1 := k - incol + 1) (r2 := k - incol + 1 + 1) (r3 := k - incol + 1 + 2) v2 v3 t (t * v2) (t * v3) iu
    hs (by omega) (by omega) (by omega)
    (fun i i1 i2 => ⟨fu.cell (by omega) (by omega) (by omega) (by omega), fu.cell (by omega) (by omega) (by omega) (by omega),
      fu.cell (by omega) (by omega) (by omega) (by omega)⟩)
  refine ⟨u', e, _, i, fun i j i1 i2 j1 j2 => ?_⟩
  rw [if_pos ⟨i1, i2⟩, applyF_snoc]
  unfold reflG
  rw [if_pos (by dsimp only; omega)]
  dsimp only
  rw [show k + 1 = incol + (k - incol + 1) by ring]
  exact refl3_shift incol (k - incol + 1) _ _ (ou i j i1 i2 j1 j2) (ou i _ i1 i2 (by omega) (by omega))
    (by rw [ou i _ i1 i2 (by omega) (by omega), ← add_assoc]) (by rw [ou i _ i1 i2 (by omega) (by omega), ← add_assoc])

theorem UOn.refl2 (h : UOn ru cu incol k1 kb rs u) (hr : 4 ≤ ru) (hc : 4 ≤ cu) (hs : ru * cu < 2 ^ 31) (hk1 : 1 ≤ k1) (h1 : incol ≤ k) (h2 : k ≤ incol + 1) (h3 : k + 2 = kb) :
    ∃ u', refl2Cols k1 4 (k - incol + 1) (k - incol + 1 + 1) v2 t (t * v2) u = pure u' ∧ UOn ru cu incol k1 kb (rs ++ [⟨k + 1, v2, v3, t, V2, V3, θ⟩]) u' := by
  obtain ⟨ug, iu, ou⟩ := h
  have fu : Fits5 ru cu 1 4 1 4 := ⟨hs, le_refl _, by exact_mod_cast hr, by exact_mod_cast hc, le_refl _, le_refl _⟩
  obtain ⟨u', e, i⟩ := refl2Cols_ok (lo := k1) (hi := 4) (r1 := k - incol + 1) (r2 := k - incol + 1 + 1) v2 t (t * v2) iu
    hs (by omega) (fun i i1 i2 => ⟨fu.cell (by omega) (by omega) (by omega) (by omega), fu.cell (by omega) (by omega) (by omega) (by omega)⟩)
  refine ⟨u', e, _, i, fun i j i1 i2 j1 j2 => ?_⟩
  rw [if_pos ⟨i1, i2⟩, applyF_snoc]
  unfold reflG
  rw [if_neg (by dsimp only; omega)]
  dsimp only
  rw [show k + 1 = incol + (k - incol + 1) by ring]
  exact refl2_shift incol (k - incol + 1) _ (ou i j i1 i2 j1 j2) (ou i _ i1 i2 (by omega) (by omega))
    (by rw [ou i _ i1 i2 (by omega) (by omega), ← add_assoc])

end

/-- During the sweep that begins at `incol`, before step `k`: `gS` is the array at the beginning of the sweep, `Zq0` the orthogonal matrix
then, `s1` the state; `hv` is the array that would be there if all the updates were made at once. -/
structure SwF (p : Qr5P Float) (r c ldv cv : Nat) (rest : List Float) (lo hi : ℤ) (H : ℤ → ℤ → ℝ) (ε D ρ : ℝ) (X : ℤ → ℝ) (E1 : ℝ) (incol : ℤ)
    (Zq0 : ℤ → ℤ → ℝ) (gS : ℤ → ℤ → Float) (s1 : Qr5S Float) (k : ℤ) (T Zq : ℤ → ℤ → ℝ) (gv g : ℤ → ℤ → Float) (t v2 v3 : Float) (rs : List RflF)
    (s : Qr5S Float) : Prop where
  arr : ArrF r c ldv cv rest lo hi p.ktop p.kbot k H ρ gS (faOf r c gv) s.v T gv t v2 v3
  real : RealF lo hi p.ktop p.kbot H ε D X E1 k T Zq
  hm : Is2 s.h r c (r * c) g
  win : WinG (jtop5 p incol) (jbot5 p incol) g gv gS
  good : ∀ r ∈ rs, r.Good (incol + kone5 p incol) (jbot5 p incol) p.kbot
  len : (rs.length : ℤ) = k - incol
  above : ∀ a b, lo ≤ a → a < jtop5 p incol → gv a b = applyF p.kbot rs (gS a) b
  right : ∀ a b, jbot5 p incol < b → b ≤ hi → gv a b = applyF p.kbot rs (fun i => gS i b) a
  zq : Zq = applyR (rs.map RflF.ex) Zq0
  st : s = { s1 with h := s.h, v := s.v, u := s.u }

section
variable {p : Qr5P Float} {r c ldv cv : Nat} {rest : List Float} {lo hi : ℤ} {H : ℤ → ℤ → ℝ} {sm ε D B M m ρ : ℝ} {X : ℤ → ℝ} {E1 : ℝ} {ru cu cz rv cwv rh cwh : Nat}
  {incol k : ℤ} {Zq0 : ℤ → ℤ → ℝ} {gS : ℤ → ℤ → Float} {s1 s s' : Qr5S Float} {T Zq : ℤ → ℤ → ℝ} {gv g : ℤ → ℤ → Float} {t v2 v3 : Float}
  {rs : List RflF} {a1 b1 a2 b2 : Float}

/-- The state after a step, but for `u`. -/
def NextF (p : Qr5P Float) (r c ldv cv : Nat) (rest : List Float) (lo hi : ℤ) (H : ℤ → ℤ → ℝ) (ε D ρ : ℝ) (X : ℤ → ℝ) (E1 : ℝ) (incol : ℤ)
    (Zq0 : ℤ → ℤ → ℝ) (gS : ℤ → ℤ → Float) (s1 : Qr5S Float) (k : ℤ) (rs : List RflF) (s s' : Qr5S Float) : Prop :=
  s'.u = s.u ∧ ∃ T Zq gv g t v2 v3 V2 V3 θ, SwF p r c ldv cv rest lo hi H ε D ρ X E1 incol Zq0 gS s1 (k + 1) T Zq gv g t v2 v3 (rs ++ [⟨k + 1, v2, v3, t, V2, V3, θ⟩]) s'

/-- The updates after the reflector has been built. -/
theorem SwF.next (hd : Dim5F p r c ldv lo hi sm) (h0 : Go5 lo hi p.ktop p.kbot H s a1 b1 a2 b2 sm ε D B M m ρ)
    (h : SwF p r c ldv cv rest lo hi H ε D ρ X E1 incol Zq0 gS s1 k T Zq gv g t v2 v3 rs s)
    (k0 : p.ktop - 1 ≤ incol) (k1 : incol ≤ k) (k2 : k ≤ incol + 1) (k3 : k + 2 ≤ p.kbot)
    {G Gv : ℤ → ℤ → Float} {T1 : ℤ → ℤ → ℝ} {h' v' : FA Float} {beta v2' v3' t' : Float} {β V2 V3 θ : ℝ} (hW : WinG (jtop5 p incol) (jbot5 p incol) G Gv gS)
    (hMd : Mid5 lo hi p.ktop p.kbot k H ε D B Gv T1 Zq) (hBt : Built r c ldv cv rest p.ktop p.kbot k G h' v' beta β v2' v3' t' V2 V3 θ)
    (hG : ∀ a b, ¬ (lo ≤ a ∧ a ≤ hi ∧ lo ≤ b ∧ b ≤ hi) → Gv a b = gS a b)
    (hab : ∀ a b, lo ≤ a → a < jtop5 p incol → Gv a b = gv a b) (hri : ∀ a b, jbot5 p incol < b → Gv a b = gv a b)
    (hf : k = p.ktop - 1 → ∃ γ, ∀ a, |γ * houseR (k + 1) V2 V3 θ Zq a p.ktop - X a| ≤ E1)
    (hlow : k + 4 ≤ p.kbot → ρ ^ (k + 1 - p.ktop + 2).toNat ≤ |toR v3'| ∧ 1 ≤ toR t') :
    (p.ktop ≤ k → ∀ a b, jtop5 p incol ≤ a → a ≤ p.kbot → p.ktop ≤ b → b ≤ k + 1 →
      Bn (left5 (jbot5 p incol) p.kbot k v2' v3' t' (right5 (jtop5 p incol) p.kbot k v2' v3' t' (col5 p.ktop p.kbot k beta G)) a b) B) ∧
    (∀ a b, a < jtop5 p incol →
      left5 (jbot5 p incol) p.kbot k v2' v3' t' (right5 (jtop5 p incol) p.kbot k v2' v3' t' (col5 p.ktop p.kbot k beta G)) a b = gS a b) ∧
    ∀ s', Upd5 p r c (jtop5 p incol) (jbot5 p incol) k v2' v3' t' (16 * (ur * B) + eta + sm) (col5 p.ktop p.kbot k beta G) v' s s' →
      NextF p r c ldv cv rest lo hi H ε D ρ X E1 incol Zq0 gS s1 k rs s s' := by
  have l1 := hd.lok; have l2 := hd.hik
  have hC := h0.con
  have j1 : jtop5 p incol ≤ k + 1 := by dsimp only [jtop5]; omega
  have j2 : k + 2 ≤ jbot5 p incol := by dsimp only [jbot5]; omega
  have j3 : k + 3 ≤ p.kbot → k + 3 ≤ jbot5 p incol := by dsimp only [jbot5]; omega
  have j4 : lo ≤ jtop5 p incol := by dsimp only [jtop5]; omega
  have j5 : jbot5 p incol ≤ hi := by dsimp only [jbot5]; omega
  have hh : p.ktop ≤ k → HeadF (toR (Gv (k + 1) k)) (toR (Gv (k + 2) k)) (if k + 3 ≤ p.kbot then toR (Gv (k + 3) k) else 0) beta β V2 V3 θ := by
    intro hk
    have := hBt.head hk
    rw [hW.on (k + 1) k j1 (by omega), hW.on (k + 2) k (by omega) (by omega), hW.on (k + 3) k (by omega) (by omega)] at this
    exact this
  obtain ⟨T', hAf, hTk, hbn⟩ := hMd.step hC l1 l2 (by omega) k3 hBt.near hBt.refl hh
  have hW2 := ((hW.col (kt := p.ktop) (kb := p.kbot) (beta := beta) j1 (by omega)).right (v2 := v2') (v3 := v3') (t := t') j4 j1 j2 j3).left (kb := p.kbot) (v2 := v2') (v3 := v3') (t := t') j5 j1
  refine ⟨fun hk a b x1 x2 y1 y2 => ?_, fun a b ha => hW2.off a b (by omega), ?_⟩
  · rw [hW2.on a b x1 (by omega)]
    exact hbn a b (by omega) (by omega) (by omega) y2
  rintro s' ⟨e1, cut, q1, q2⟩
  have ev : s'.v = v' := by rw [e1]
  obtain ⟨T'', w1, w2⟩ := hMd.next (v' := v') (g0 := gS) (cut := cut) hC l1 l2 (by omega) k3 hBt.near hAf hTk
    (fun hc => by rw [← hW2.on (k + 1) k j1 (by omega)]; exact q1 hc) (faOf_is2 r c _) hBt.vm hG h.real.out hf (fun hk => h.real.first hk) hlow
  refine ⟨by rw [e1], T'', _, _, _, t', v2', v3', V2, V3, θ, by rw [ev]; exact w1, w2, q2, hW2.cut j1 (by omega), ?_, ?_, ?_, ?_, ?_, ?_⟩
  · intro r hr
    rcases List.mem_append.1 hr with hr | hr
    · exact h.good r hr
    · rw [List.mem_singleton] at hr
      subst hr
      refine ⟨hBt.near, hBt.refl, ?_, ?_, ?_, ?_⟩ <;> dsimp only [kone5, jbot5] <;> omega
  · rw [List.length_append, List.length_singleton]
    have := h.len
    push_cast
    omega
  · intro a b x1 x2
    unfold cutG
    rw [if_neg (by omega), above5 x1 (by omega) (by omega), applyF_snoc]
    dsimp only
    congr 1
    funext j
    rw [hab a j x1 x2, h.above a j x1 x2]
  · intro a b y1 y2
    unfold cutG
    rw [if_neg (by omega), beyond5 y2 (by omega) (by omega), applyF_snoc]
    dsimp only
    congr 1
    funext i
    rw [hri i b y1, h.right i b y1 y2]
  · rw [map_ex_snoc, applyR_snoc, h.zq]
    rfl
  · rw [e1]
    conv_lhs => rw [h.st]

/-- One step with three elements. -/
theorem bulge_S (hX : X = startX p.ktop p.kbot H (toR a1) (toR b1) (toR a2) (toR b2)) (hd : Dim5F p r c ldv lo hi sm)
    (h0 : Go5 lo hi p.ktop p.kbot H s a1 b1 a2 b2 sm ε D B M m ρ) (hS : ∀ a b, lo ≤ a → a < jtop5 p incol → lo ≤ b → b ≤ hi → Bn (gS a b) B)
    (h : SwF p r c ldv cv rest lo hi H ε D ρ X (err5 (B + M)) incol Zq0 gS s1 k T Zq gv g t v2 v3 rs s)
    (k0 : p.ktop - 1 ≤ incol) (k1 : incol ≤ k) (k2 : k ≤ incol + 1) (k3 : k + 3 ≤ p.kbot) :
    Tot (qr5Bulge p (jtop5 p incol) k s 1 >>= fun s => qr5Left p k (jbot5 p incol) s 1)
      (NextF p r c ldv cv rest lo hi H ε D ρ X (err5 (B + M)) incol Zq0 gS s1 k rs s) := by
  have l1 := hd.lok; have l2 := hd.hik
  have hC := h0.con
  have hBb := hC.hBb
  have B0 := hC.B0
  have big1 := one_le_big
  have hA := h.arr
  have hR := h.real
  have j1 : jtop5 p incol ≤ k + 1 := by dsimp only [jtop5]; omega
  have j2 : k + 2 ≤ jbot5 p incol := by dsimp only [jbot5]; omega
  have j4 : lo ≤ jtop5 p incol := by dsimp only [jtop5]; omega
  have j5 : jbot5 p incol ≤ hi := by dsimp only [jbot5]; omega
  unfold qr5Bulge
  rw [show k + 2 * (1 - 1) = k by ring]
  dsimp only
  have main : ∀ (G Gv : ℤ → ℤ → Float) (T1 : ℤ → ℤ → ℝ) (h' v' : FA Float) (beta v2' v3' t' : Float) (β V2 V3 θ : ℝ), WinG (jtop5 p incol) (jbot5 p incol) G Gv gS →
      Mid5 lo hi p.ktop p.kbot k H ε D B Gv T1 Zq → Built r c ldv cv rest p.ktop p.kbot k G h' v' beta β v2' v3' t' V2 V3 θ →
      (∀ a b, ¬ (lo ≤ a ∧ a ≤ hi ∧ lo ≤ b ∧ b ≤ hi) → Gv a b = gS a b) → (∀ a b, lo ≤ a → a < jtop5 p incol → Gv a b = gv a b) →
      (∀ a b, jbot5 p incol < b → Gv a b = gv a b) →
      (k = p.ktop - 1 → ∃ γ, ∀ a, |γ * houseR (k + 1) V2 V3 θ Zq a p.ktop - X a| ≤ err5 (B + M)) →
      (k + 4 ≤ p.kbot → ρ ^ (k + 1 - p.ktop + 2).toNat ≤ |toR v3'| ∧ 1 ≤ toR t') → qr5Refl3 p k 1 s = pure (h', v', s.vt) →
      Tot ((do
        let __discr ← qr5Refl3 p k 1 s
        match __discr with
        | (h, v, vt) => do
          let t1 ← v.get2 1 1
          let v2 ← v.get2 2 1
          let v3 ← v.get2 3 1
          let t2 := t1 * v2
          let t3 := t1 * v3
          let h ← refl3Cols (jtop5 p incol) (min p.kbot (k + 3)) (k + 1) (k + 2) (k + 3) v2 v3 t1 t2 t3 h
          let h ← refl3Rows (k + 1) (k + 1) (k + 1) (k + 2) (k + 3) v2 v3 t1 t2 t3 h
          let h ← if k < p.ktop then pure h else qr5Negligible p k h
          pure { s with h := h, v := v, vt := vt }) >>= fun s => qr5Left p k (jbot5 p incol) s 1)
        (NextF p r c ldv cv rest lo hi H ε D ρ X (err5 (B + M)) incol Zq0 gS s1 k rs s) := by
    intro G Gv T1 h' v' beta v2' v3' t' β V2 V3 θ hW hMd hBt hG hab hri hf hlow er
    obtain ⟨n1, n2, n3⟩ := h.next hd h0 k0 k1 k2 (by omega) hW hMd hBt hG hab hri hf hlow
    rw [er, pure_bind]
    dsimp only
    refine (after3F (s := s) hd hBt.arr hBt.vm j4 (by omega) j5 (by omega) k3 B0 hBb fun hk a b x1 x2 y1 y2 => ?_).mono n3
    by_cases hc : jtop5 p incol ≤ a
    · exact n1 hk a b hc x2 y1 y2
    · rw [n2 a b (by omega)]
      exact hS a b (by omega) (by omega) (by omega) (by omega)
  by_cases hk : k = p.ktop - 1
  · obtain ⟨hTH, hZ⟩ := hR.init hk
    have hMd := hA.mid0 hR hC (by omega)
    have hent : ∀ a b, p.ktop ≤ a → a ≤ p.ktop + 2 → p.ktop ≤ b → b ≤ p.ktop + 2 → g a b = gv a b ∧ toR (gv a b) = H a b := fun a b x1 x2 y1 y2 => by
      refine ⟨h.win.on a b (by dsimp only [jtop5]; omega) (by dsimp only [jbot5]; omega), ?_⟩
      rw [(hMd.on a b (by omega) (by omega) (by omega) (by omega)).2, hTH]
    obtain ⟨v', beta, β, v2', v3', t', V2, V3, θ, er, hBt, hSt⟩ := start3_F (N := B) hd h.hm hA.vm h0.sh hk (by omega)
      (fun a b x1 x2 y1 y2 => ⟨by rw [(hent a b x1 x2 y1 y2).1]; exact hA.fin a b (by omega) (by omega) (by omega) (by omega), by
        rw [(hent a b x1 x2 y1 y2).1, (hent a b x1 x2 y1 y2).2]
        exact hC.entry hd.lt (by omega) (by omega) (by omega) (by omega)⟩) h0.M0 h0.hP
      (by rw [(hent _ _ (by omega) (by omega) (by omega) (by omega)).1, (hent _ _ (by omega) (by omega) (by omega) (by omega)).2, ← hTH]
          exact hR.shape.hess _ _ (by omega) (by omega) (by omega) (by omega))
      (by rw [(hent _ _ (by omega) (by omega) (by omega) (by omega)).1, (hent _ _ (by omega) (by omega) (by omega) (by omega)).2]; exact h0.unr)
    refine main g gv T s.h v' beta v2' v3' t' β V2 V3 θ h.win hMd hBt hA.out (fun _ _ _ _ => rfl) (fun _ _ _ => rfl) (fun _ => ?_) (fun k4 => ?_) er
    · obtain ⟨γ, hγ⟩ := hSt.first
      refine ⟨γ, fun a => ?_⟩
      have := hγ a
      rw [startX_congr hd.lt (g := H) (fun a b x1 x2 y1 y2 => ?_), ← hX] at this
      · rw [hZ, show k + 1 = p.ktop by omega]
        exact this
      · have hk2 := hd.lt
        beta_reduce
        rw [h.win.on a b (by dsimp only [jtop5]; omega) (by dsimp only [jbot5]; omega), (hMd.on a b (by omega) (by omega) (by omega) (by omega)).2, hTH]
    · obtain ⟨x, y, w, q1, q2, q3, q4, q5⟩ := hSt.third (by omega)
      rw [(hent _ _ (by omega) (by omega) (by omega) (by omega)).1, (hent _ _ (by omega) (by omega) (by omega) (by omega)).2,
        (hent _ _ (by omega) (by omega) (by omega) (by omega)).1, (hent _ _ (by omega) (by omega) (by omega) (by omega)).2] at q5
      have := low_start hC (by omega) q1 q2 q3 q4 q5
      rw [hk]
      exact this
  · obtain ⟨T1, hMd, hG, hlow⟩ := hA.midL hR hC l1 l2 (by omega) k3
    have hn := hMd.norm hC (by omega)
    have hW := h.win.late (v2 := v2) (v3 := v3) (t := t) j1 j2
    have hent : ∀ a b, lo ≤ a → a ≤ hi → lo ≤ b → b ≤ hi → Bn (late5 k v2 v3 t gv a b) B := fun a b x1 x2 y1 y2 => ⟨(hMd.on a b x1 x2 y1 y2).1, by
      rw [(hMd.on a b x1 x2 y1 y2).2]
      exact (fro_entry (block lo hi T1) ⟨a, Finset.mem_Icc.2 ⟨x1, x2⟩⟩ ⟨b, Finset.mem_Icc.2 ⟨y1, y2⟩⟩).trans hn⟩
    have hwk : ∀ a, k + 1 ≤ a → late5 k v2 v3 t g a k = late5 k v2 v3 t gv a k := fun a x1 => hW.on a k (by omega) (by omega)
    have hnc := hC.nc (by omega)
    obtain ⟨h', v', beta, β, v2', v3', t', V2, V3, θ, er, hBt, hTh⟩ := refl3_F hd h.hm hA.vm (by omega) k3
      (fun a x1 x2 => by
        rw [hwk a x1]
        exact ⟨(hent a k (by omega) (by omega) (by omega) (by omega)).1, (hent a k (by omega) (by omega) (by omega) (by omega)).2.trans (by linarith)⟩)
      (by
        rw [hwk _ (by omega)]
        have : 0 < ρ ^ (k - p.ktop + 2).toNat * m / 4 := by
          have := mul_pos (pow_pos hnc.ρ0 (k - p.ktop + 2).toNat) hnc.m0
          linarith
        exact abs_pos.1 (this.trans_le hlow))
    rw [hwk _ (by omega), hwk _ (by omega), hwk _ (by omega)] at hTh
    refine main _ _ T1 h' v' beta v2' v3' t' β V2 V3 θ hW hMd hBt hG (fun a b x1 x2 => ?_) (fun a b y1 => ?_) (fun h => absurd h hk)
      (fun k4 => low_next hC (by omega) k4 hTh (hent _ _ (by omega) (by omega) (by omega) (by omega)).2 (hent _ _ (by omega) (by omega) (by omega) (by omega)).2
        (hent _ _ (by omega) (by omega) (by omega) (by omega)).2 hlow) er
    · unfold late5
      rw [if_neg (by omega), if_neg (by omega), if_neg (by omega)]
    · unfold late5
      rw [if_neg (by omega), if_neg (by omega), if_neg (by omega)]

/-- The last step, with two elements. -/
theorem bmp22_S (hX : X = startX p.ktop p.kbot H (toR a1) (toR b1) (toR a2) (toR b2)) (hd : Dim5F p r c ldv lo hi sm) (hacc : p.accum = true)
    (h0 : Go5 lo hi p.ktop p.kbot H s a1 b1 a2 b2 sm ε D B M m ρ) (hS : ∀ a b, lo ≤ a → a < jtop5 p incol → lo ≤ b → b ≤ hi → Bn (gS a b) B)
    (hU : UOn ru cu incol (kone5 p incol) p.kbot rs s.u) (hr4 : 4 ≤ ru) (hc4 : 4 ≤ cu) (hus : ru * cu < 2 ^ 31)
    (h : SwF p r c ldv cv rest lo hi H ε D ρ X (err5 (B + M)) incol Zq0 gS s1 k T Zq gv g t v2 v3 rs s)
    (k0 : p.ktop - 1 ≤ incol) (k1 : incol ≤ k) (k2 : k ≤ incol + 1) (k3 : k + 2 = p.kbot) :
    Tot (qr5Bmp22 p incol (jtop5 p incol) (jbot5 p incol) k 1 s) fun s' => ∃ T Zq gv g t v2 v3 rs,
      SwF p r c ldv cv rest lo hi H ε D ρ X (err5 (B + M)) incol Zq0 gS s1 (k + 1) T Zq gv g t v2 v3 rs s' ∧ UOn ru cu incol (kone5 p incol) p.kbot rs s'.u := by
  have l1 := hd.lok; have l2 := hd.hik
  have hC := h0.con
  have hBb := hC.hBb
  have B0 := hC.B0
  have big1 := one_le_big
  have hA := h.arr
  have hR := h.real
  have hkdu : p.kdu = 4 := by unfold Qr5P.kdu; rw [hd.nb]; norm_num
  have j1 : jtop5 p incol ≤ k + 1 := by dsimp only [jtop5]; omega
  have j2 : k + 2 ≤ jbot5 p incol := by dsimp only [jbot5]; omega
  have j4 : lo ≤ jtop5 p incol := by dsimp only [jtop5]; omega
  have j5 : jbot5 p incol ≤ hi := by dsimp only [jbot5]; omega
  have hMd := hA.mid0 hR hC (by omega)
  unfold qr5Bmp22
  rw [show k + 2 * (1 - 1) = k by ring, hacc, hkdu]
  dsimp only
  simp only [if_true]
  have main : ∀ (h' v' : FA Float) (beta v2' v3' t' : Float) (β V2 V3 θ : ℝ),
      Built r c ldv cv rest p.ktop p.kbot k g h' v' beta β v2' v3' t' V2 V3 θ →
      (k = p.ktop - 1 → ∃ γ, ∀ a, |γ * houseR (k + 1) V2 V3 θ Zq a p.ktop - X a| ≤ err5 (B + M)) → qr5Bmp22Refl p k 1 s = pure (h', v') →
      Tot (do
        let __discr ← qr5Bmp22Refl p k 1 s
        match __discr with
        | (h, v) => do
          let t1 ← v.get2 1 1
          let v2 ← v.get2 2 1
          let t2 := t1 * v2
          let h ← refl2Cols (jtop5 p incol) (min p.kbot (k + 3)) (k + 1) (k + 2) v2 t1 t2 h
          let h ← refl2Rows (k + 1) (jbot5 p incol) (k + 1) (k + 2) v2 t1 t2 h
          let h ← if k ≥ p.ktop then qr5Negligible p k h else pure h
          let u ← refl2Cols (max 1 (p.ktop - incol)) 4 (k - incol + 1) (k - incol + 2) v2 t1 t2 s.u
          pure { s with h := h, v := v, u := u })
        (fun s' => ∃ T Zq gv g t v2 v3 rs, SwF p r c ldv cv rest lo hi H ε D ρ X (err5 (B + M)) incol Zq0 gS s1 (k + 1) T Zq gv g t v2 v3 rs s' ∧
          UOn ru cu incol (kone5 p incol) p.kbot rs s'.u) := by
    intro h' v' beta v2' v3' t' β V2 V3 θ hBt hf er
    obtain ⟨n1, n2, n3⟩ := h.next hd h0 k0 k1 k2 (by omega) h.win hMd hBt hA.out (fun _ _ _ _ => rfl) (fun _ _ _ => rfl) hf (fun h => by omega)
    rw [er, pure_bind]
    dsimp only
    set Pn : Qr5S Float → Prop := fun s' => ∃ T Zq gv g t v2 v3 rs, SwF p r c ldv cv rest lo hi H ε D ρ X (err5 (B + M)) incol Zq0 gS s1 (k + 1) T Zq gv g t v2 v3 rs s' ∧
          UOn ru cu incol (kone5 p incol) p.kbot rs s'.u with hPn
    have key := after2F (s := s) (P := Pn) (K := fun t1 v2 s => refl2Cols (max 1 (p.ktop - incol)) 4 (k - incol + 1) (k - incol + 2) v2 t1 (t1 * v2) s.u >>= fun u => pure { s with u := u })
      hd hBt.arr hBt.vm j4 (show k + 1 ≤ jbot5 p incol by omega) j5 (by omega) k3 B0 hBb (fun hk a b x1 x2 y1 y2 => ?_) ?_
    · dsimp only at key
      exact key
    · by_cases hc : jtop5 p incol ≤ a
      · exact n1 hk a b hc x2 y1 y2
      · rw [n2 a b (by omega)]
        exact hS a b (by omega) (by omega) (by omega) (by omega)
    · intro s' hs'
      have ev : s'.v = v' := by rw [hs'.1]
      obtain ⟨e, T', Zq', gv', g', t'', v2'', v3'', V2', V3', θ', hsw⟩ := n3 s' hs'
      have hdat := hsw.arr.vm.data
      rw [ev, hBt.vm.data] at hdat
      injection hdat with e1 hdat
      injection hdat with e2 hdat
      rw [e]
      obtain ⟨u', eu, hu'⟩ := hU.refl2 (k := k) (v2 := v2'') (v3 := v3'') (t := t'') (V2 := V2') (V3 := V3') (θ := θ') hr4 hc4 hus (le_max_left _ _) k1 k2 k3
      rw [e1, e2, show k - incol + 2 = k - incol + 1 + 1 by ring]
      rw [show refl2Cols (max 1 (p.ktop - incol)) 4 (k - incol + 1) (k - incol + 1 + 1) v2'' t'' (t'' * v2'') s.u = pure u' from eu, pure_bind]
      refine Tot.pure ⟨T', Zq', gv', g', t'', v2'', v3'', _, ⟨hsw.arr, hsw.real, hsw.hm, hsw.win, hsw.good, hsw.len, hsw.above, hsw.right, hsw.zq, ?_⟩, hu'⟩
      dsimp only
      conv_lhs => rw [hsw.st]
  by_cases hk : k = p.ktop - 1
  · obtain ⟨hTH, hZ⟩ := hR.init hk
    have hent : ∀ a b, p.ktop ≤ a → a ≤ p.ktop + 1 → p.ktop ≤ b → b ≤ p.ktop + 1 → g a b = gv a b ∧ toR (gv a b) = H a b := fun a b x1 x2 y1 y2 => by
      refine ⟨h.win.on a b (by dsimp only [jtop5]; omega) (by dsimp only [jbot5]; omega), ?_⟩
      rw [(hMd.on a b (by omega) (by omega) (by omega) (by omega)).2, hTH]
    obtain ⟨v', beta, β, v2', v3', t', V2, V3, θ, er, hBt, hSt⟩ := start2_F (N := B) hd h.hm hA.vm h0.sh hk (by omega)
      (fun a b x1 x2 y1 y2 => ⟨by rw [(hent a b x1 x2 y1 y2).1]; exact hA.fin a b (by omega) (by omega) (by omega) (by omega), by
        rw [(hent a b x1 x2 y1 y2).1, (hent a b x1 x2 y1 y2).2]
        exact hC.entry hd.lt (by omega) (by omega) (by omega) (by omega)⟩) h0.M0 h0.hP
      (by rw [(hent _ _ (by omega) (by omega) (by omega) (by omega)).1, (hent _ _ (by omega) (by omega) (by omega) (by omega)).2]; exact h0.unr)
    refine main s.h v' beta v2' v3' t' β V2 V3 θ hBt (fun _ => ?_) er
    obtain ⟨γ, hγ⟩ := hSt.first
    refine ⟨γ, fun a => ?_⟩
    have := hγ a
    rw [startX_congr hd.lt (g := H) (fun a b x1 x2 y1 y2 => ?_), ← hX] at this
    · rw [hZ, show k + 1 = p.ktop by omega]
      exact this
    · beta_reduce
      rw [(hent a b x1 (by omega) y1 (by omega)).1, (hent a b x1 (by omega) y1 (by omega)).2]
  · have hn := hMd.norm hC (by omega)
    obtain ⟨h', v', beta, β, v2', v3', t', V2, V3, θ, er, hBt⟩ := refl2_F hd h.hm hA.vm (by omega) k3
      (fun a x1 x2 => by
        rw [h.win.on a k (by omega) (by omega)]
        refine ⟨(hMd.on a k (by omega) (by omega) (by omega) (by omega)).1, ?_⟩
        rw [(hMd.on a k (by omega) (by omega) (by omega) (by omega)).2]
        exact (fro_entry (block lo hi T) ⟨a, Finset.mem_Icc.2 ⟨by omega, by omega⟩⟩ ⟨k, Finset.mem_Icc.2 ⟨by omega, by omega⟩⟩).trans (hn.trans (by linarith)))
    exact main h' v' beta v2' v3' t' β V2 V3 θ hBt (fun h => absurd h hk) er

/-- One step. -/
theorem krcol_S (hX : X = startX p.ktop p.kbot H (toR a1) (toR b1) (toR a2) (toR b2)) (hd : Dim5F p r c ldv lo hi sm) (hacc : p.accum = true)
    (h0 : Go5 lo hi p.ktop p.kbot H s1 a1 b1 a2 b2 sm ε D B M m ρ) (hS : ∀ a b, lo ≤ a → a < jtop5 p incol → lo ≤ b → b ≤ hi → Bn (gS a b) B)
    (hU : UOn ru cu incol (kone5 p incol) p.kbot rs s.u) (hr4 : 4 ≤ ru) (hc4 : 4 ≤ cu) (hus : ru * cu < 2 ^ 31)
    (h : SwF p r c ldv cv rest lo hi H ε D ρ X (err5 (B + M)) incol Zq0 gS s1 k T Zq gv g t v2 v3 rs s)
    (k0 : p.ktop - 1 ≤ incol) (k1 : incol ≤ k) (k2 : k ≤ incol + 1) (k3 : k + 2 ≤ p.kbot) :
    Tot (qr5Krcol p incol (jtop5 p incol) s k) fun s' => ∃ T Zq gv g t v2 v3 rs,
      SwF p r c ldv cv rest lo hi H ε D ρ X (err5 (B + M)) incol Zq0 gS s1 (k + 1) T Zq gv g t v2 v3 rs s' ∧ UOn ru cu incol (kone5 p incol) p.kbot rs s'.u := by
  have l1 := hd.lok; have l2 := hd.hik
  have h1 : Go5 lo hi p.ktop p.kbot H s a1 b1 a2 b2 sm ε D B M m ρ := h0.of (by rw [h.st]) (by rw [h.st])
  have hkdu : p.kdu = 4 := by unfold Qr5P.kdu; rw [hd.nb]; norm_num
  set Pn : Qr5S Float → Prop := fun s' => ∃ T Zq gv g t v2 v3 rs,
      SwF p r c ldv cv rest lo hi H ε D ρ X (err5 (B + M)) incol Zq0 gS s1 (k + 1) T Zq gv g t v2 v3 rs s' ∧ UOn ru cu incol (kone5 p incol) p.kbot rs s'.u
  unfold qr5Krcol
  have e1 : max 1 ((p.ktop - k).tdiv 2 + 1) = 1 := by
    have := tdiv_le_zero (show p.ktop - k ≤ 1 by omega)
    omega
  dsimp only
  rw [hacc, hd.nb, e1, hkdu]
  simp only [if_true]
  by_cases hk : k + 2 = p.kbot
  · have e2 : min 1 ((p.kbot - k - 1).tdiv 2) = 0 := by
      rw [Int.tdiv_eq_ediv_of_nonneg (by omega)]
      omega
    rw [e2, if_pos (by omega)]
    refine Tot.bind (P := Pn) (bmp22_S hX hd hacc h1 hS hU hr4 hc4 hus h k0 k1 k2 hk) fun s2 h2 => ?_
    rw [forDown_empty (by norm_num), pure_bind, forDown_empty (by norm_num), pure_bind, forDown_empty (by norm_num)]
    exact Tot.pure h2
  · have e2 : min 1 ((p.kbot - k - 1).tdiv 2) = 1 := by
      rw [Int.tdiv_eq_ediv_of_nonneg (by omega)]
      omega
    rw [e2, if_neg (by omega), pure_bind]
    have one : ∀ (f : Qr5S Float → ℤ → R (Qr5S Float)) s, forDown 1 1 s f = f s 1 := by
      intro f s
      rw [forDown_cons (le_refl _)]
      simp
    simp only [one]
    rw [← bind_assoc]
    refine Tot.bind (bulge_S hX hd h1 hS h k0 k1 k2 (by omega)) ?_
    rintro s2 ⟨es2, T', Zq', gv', g', t', v2', v3', V2, V3, θ, hsw⟩
    obtain ⟨g1, g2, g3⟩ := hsw.arr.vm.get
    unfold qr5AccU
    dsimp only
    rw [g1, g2, g3, pure_bind, pure_bind, pure_bind, es2, hkdu]
    obtain ⟨u', eu, hu'⟩ := hU.refl3 (k := k) (v2 := v2') (v3 := v3') (t := t') (V2 := V2) (V3 := V3) (θ := θ) hr4 hc4 hus (le_max_left _ _) k1 k2 (by omega)
    rw [show max 1 (max (p.ktop - incol) (k + 2 * (1 - 1) - incol - (k - incol) + 1)) = kone5 p incol by dsimp only [kone5]; omega,
      show min 4 (k + 2 * (1 - 1) - incol + 5) = 4 by omega, show k + 2 * (1 - 1) - incol + 1 = k - incol + 1 by ring,
      show k + 2 * (1 - 1) - incol + 2 = k - incol + 1 + 1 by ring, show k + 2 * (1 - 1) - incol + 3 = k - incol + 1 + 2 by ring, eu, pure_bind]
    refine Tot.pure ⟨T', Zq', gv', g', t', v2', v3', _, ⟨hsw.arr, hsw.real, hsw.hm, hsw.win, hsw.good, hsw.len, hsw.above, hsw.right, hsw.zq, ?_⟩, hu'⟩
    dsimp only
    conv_lhs => rw [hsw.st]

end

end Verif

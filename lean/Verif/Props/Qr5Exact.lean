import Verif.Lib.Qr5Chase
import Verif.Props.HqrExact
import Verif.Props.HqrIndep

/-!
# `dlaqr5` with two shifts in exact arithmetic (C57)
-/

namespace Verif
open Scalar XR

namespace Spec

/-- `A` is the upper Hessenberg matrix in rows and columns `lo..hi` of the array, of which rows and columns `kt..kb` form an unreduced
block that is not coupled to the columns before and the rows after it.  The element `(kt + 2, kt)`, which `dlaqr5` clears before it
starts, may hold anything. -/
structure Qr5Input (h : FA XR) (r : Nat) (lo hi kt kb : ℤ) (A : ℤ → ℤ → ℝ) : Prop where
  entry : ∀ a b, lo ≤ a → a ≤ hi → lo ≤ b → b ≤ hi → ¬ (kt + 2 ≤ kb ∧ a = kt + 2 ∧ b = kt) → Entry h r a b (fin (A a b))
  hess : ∀ a b, b + 1 < a → A a b = 0
  top : lo < kt → A kt (kt - 1) = 0
  bot : kb < hi → A (kb + 1) kb = 0
  unreduced : ∀ j, kt ≤ j → j < kb → A (j + 1) j ≠ 0

/-- The bound on the backward error for a block `kt..kb` of a matrix of order `n` and Frobenius norm `N`. -/
noncomputable def qr5Bound (n kt kb : ℤ) (N : ℝ) : ℝ := (kb - kt : ℤ) * (6 * (1 / 2 ^ 52) * N + 1 / 2 ^ 1022 * (n / (1 / 2 ^ 52)))

/-- The polynomial `(x - a1)(x - a2) - b1 b2` of a square matrix; for shifts `a ± b i` it is `(x - a - b i)(x - a + b i)`. -/
def shiftPoly {m : Type} [Fintype m] [DecidableEq m] (a1 b1 a2 b2 : ℝ) (M : Matrix m m ℝ) : Matrix m m ℝ :=
  (M - a1 • (1 : Matrix m m ℝ)) * (M - a2 • (1 : Matrix m m ℝ)) - (b1 * b2) • (1 : Matrix m m ℝ)

/-- What `dlaqr5` delivers with the shifts `a1 + b1 i` and `a2 + b2 i`.  The returned `h'` holds, in rows and columns `lo..hi`, a Hessenberg
matrix `T` orthogonally similar to `A + E` by the matrix with entries `q`, and is the same as `h` elsewhere; `q` is the identity outside rows
and columns `kt..kb`, and its column `kt` is a multiple of the first column of the shift polynomial of the active block. -/
structure Qr5Done (r c : Nat) (n lo hi kt kb : ℤ) (A : ℤ → ℤ → ℝ) (a1 b1 a2 b2 : ℝ) (q T : ℤ → ℤ → ℝ) (E : Matrix (Blk lo hi) (Blk lo hi) ℝ)
    (h h' : FA XR) : Prop where
  backward : Backward (block lo hi A) (block lo hi q) E (block lo hi T) (qr5Bound n kt kb (fro (block lo hi A)))
  hess : ∀ a b, lo ≤ b → b + 1 < a → a ≤ hi → T a b = 0
  top : lo < kt → T kt (kt - 1) = 0
  bot : kb < hi → T (kb + 1) kb = 0
  entry : ∀ a b, lo ≤ a → a ≤ hi → lo ≤ b → b ≤ hi → Entry h' r a b (fin (T a b))
  rest : ∀ a b : ℤ, 1 ≤ a → a ≤ r → 1 ≤ b → b ≤ c → ¬ (lo ≤ a ∧ a ≤ hi ∧ lo ≤ b ∧ b ≤ hi) → ∀ x, Entry h' r a b x ↔ Entry h r a b x
  outside : ∀ a b : ℤ, (a < kt ∨ kb < a) ∨ (b < kt ∨ kb < b) → q a b = if a = b then 1 else 0
  first : ∀ e : Blk kt kb, (e : ℤ) = kt → ∃ γ : ℝ, ∀ a : Blk kt kb, γ * q a e = shiftPoly a1 b1 a2 b2 (block kt kb A) a e

end Spec
open Spec

/-- The first column of the shift polynomial of a Hessenberg matrix. -/
theorem shiftPoly_col {kt kb : ℤ} {A : ℤ → ℤ → ℝ} (hA : ∀ a b, b + 1 < a → A a b = 0) (hlt : kt < kb) (a1 b1 a2 b2 : ℝ) (e a : Blk kt kb)
    (he : (e : ℤ) = kt) : shiftPoly a1 b1 a2 b2 (block kt kb A) a e = startX kt kb A a1 b1 a2 b2 a := by
  obtain ⟨x1, x2⟩ := Finset.mem_Icc.1 a.2
  have one : ∀ x y : Blk kt kb, (1 : Matrix (Blk kt kb) (Blk kt kb) ℝ) x y = if (x : ℤ) = y then 1 else 0 := fun x y => by
    rw [Matrix.one_apply]
    simp only [Subtype.ext_iff]
  unfold shiftPoly
  rw [Matrix.sub_apply, Matrix.mul_apply]
  have es : (∑ j : Blk kt kb, (block kt kb A - a1 • (1 : Matrix (Blk kt kb) (Blk kt kb) ℝ)) a j * (block kt kb A - a2 • (1 : Matrix (Blk kt kb) (Blk kt kb) ℝ)) j e) =
      ∑ j ∈ Finset.Icc kt kb, (A a j - a1 * if (a : ℤ) = j then 1 else 0) * (A j kt - a2 * if j = kt then 1 else 0) := by
    rw [← Finset.sum_coe_sort (Finset.Icc kt kb)]
    refine Finset.sum_congr rfl fun j _ => ?_
    simp only [Matrix.sub_apply, Matrix.smul_apply, smul_eq_mul, one, block, he]
  have e3 : ∑ j ∈ Finset.Icc kt kb, (A a j - a1 * if (a : ℤ) = j then 1 else 0) * (A j kt - a2 * if j = kt then 1 else 0) =
      (A a kt - a1 * if (a : ℤ) = kt then 1 else 0) * (A kt kt - a2) + (A a (kt + 1) - a1 * if (a : ℤ) = kt + 1 then 1 else 0) * A (kt + 1) kt := by
    rw [Finset.sum_eq_add_of_mem kt (kt + 1) (Finset.mem_Icc.2 ⟨le_refl _, hlt.le⟩) (Finset.mem_Icc.2 ⟨by omega, by omega⟩) (by omega)]
    · rw [if_pos rfl, if_neg (show ¬ (kt + 1 = kt) by omega)]
      ring
    · intro j hj hne
      obtain ⟨j1, j2⟩ := Finset.mem_Icc.1 hj
      obtain ⟨n1, n2⟩ := hne
      rw [hA j kt (by omega), if_neg n1]
      ring
  rw [es, e3, Matrix.smul_apply, one, he, smul_eq_mul]
  unfold startX
  by_cases c1 : (a : ℤ) = kt
  · rw [c1, if_pos rfl, if_pos rfl, if_neg (by omega)]
    ring
  · rw [if_neg c1, if_neg c1]
    by_cases c2 : (a : ℤ) = kt + 1
    · rw [c2, if_pos rfl, if_pos rfl]
      ring
    · rw [if_neg c2, if_neg c2, hA a kt (by omega)]
      by_cases c3 : (a : ℤ) = kt + 2
      · rw [c3, if_pos ⟨rfl, by omega⟩]
        ring
      · rw [if_neg (by omega), hA a (kt + 1) (by omega)]
        ring

section
variable {wantt : Bool} {kacc22 n ktop kbot ldh iloz ihiz ldz ldu nv ldwv nh ldwh : ℤ} {h z v u wv wh : FA XR} {r c ldv cv : Nat}
  {a1 b1 a2 b2 : ℝ} {sr si : List XR} {A : ℤ → ℤ → ℝ}

/-- `dlaqr5` with two shifts returns in both profiles, provided the sweeps do.  `W` is what is to be known of `z`, `u`, `wv` and `wh`. -/
theorem dlaqr5_core {wantz : Bool} {W : (ℤ → ℤ → ℝ) → Qr5S XR → Prop} (hM : IsMatrix h r c) (h1 : 1 ≤ ktop) (h2 : ktop < kbot) (h3 : kbot ≤ n) (h4 : n ≤ r) (h5 : n ≤ c)
    (hA : Qr5Input h r (if wantt then 1 else ktop) (if wantt then n else kbot) ktop kbot A)
    (hN : fro (block (if wantt then 1 else ktop) (if wantt then n else kbot) A) ≤ 2 ^ 490)
    (ha1 : |a1| ≤ 2 ^ 490) (hb1 : |b1| ≤ 2 ^ 490) (ha2 : |a2| ≤ 2 ^ 490) (hv : IsMatrix v ldv cv) (hv3 : 3 ≤ ldv) (hcv : 1 ≤ cv)
    (hvf : ∀ x ∈ v.data, ∃ y : ℝ, x = fin y)
    (hsw : ∀ (p : Qr5P XR) lo hi, p = qr5Params wantt wantz kacc22 n ktop kbot 2 (r : ℤ) iloz ihiz ldz (ldv : ℤ) ldu nv ldwv nh ldwh →
      (if wantt then 1 else ktop) = lo → (if wantt then n else kbot) = hi → ∀ (sm B ε : ℝ),
      Dim5 p r c ldv lo hi lo hi (1 / 2 ^ 52) sm B → 6 * (1 / 2 ^ 52) * B + sm ≤ ε → ∀ (s0 : Qr5S XR), s0.z = z → s0.u = u → s0.wv = wv → s0.wh = wh → s0.v = v →
      Start5 p.ktop p.kbot A s0 a1 b1 a2 b2 → ∀ rest g g0 x y w, Arr r c ldv cv rest lo hi lo hi p.ktop p.kbot (p.ktop - 1) g0 s0.h s0.v A g x y w →
      Real5 lo hi p.ktop p.kbot A B ε (startX p.ktop p.kbot A a1 b1 a2 b2) (p.ktop - 1) A idT →
      Tot (forStep (p.ktop - 2 * p.nbmps + 1) (p.kbot - 2) (2 * asUsize p.nbmps) s0 (qr5Incol p)) fun s => ∃ T Zq g t v2 v3,
        Arr r c ldv cv rest lo hi lo hi p.ktop p.kbot (p.kbot - 1) g0 s.h s.v T g t v2 v3 ∧
        Real5 lo hi p.ktop p.kbot A B ε (startX p.ktop p.kbot A a1 b1 a2 b2) (p.kbot - 1) T Zq ∧ W Zq s) :
    Tot (dlaqr5 (F := XR) wantt wantz kacc22 n ktop kbot 2 (fin a1 :: fin a2 :: sr) (fin b1 :: fin b2 :: si) h (r : ℤ) iloz ihiz z ldz v (ldv : ℤ) u ldu
      nv wv ldwv nh wh ldwh) fun ret => IsMatrix ret.h r c ∧ ∃ q T E,
        Qr5Done r c n (if wantt then 1 else ktop) (if wantt then n else kbot) ktop kbot A a1 b1 a2 b2 q T E h ret.h ∧
        ∃ s, W q s ∧ ret.z = s.z ∧ ret.u = s.u ∧ ret.wv = s.wv ∧ ret.wh = s.wh ∧ ret.v = s.v := by
  unfold dlaqr5
  simp only [show ∀ (a : FA XR) ld, ToFA.toFa2d (F := XR) a ld = pure a from fun _ _ => rfl, pure_bind]
  rw [if_neg (by omega), if_neg (by omega)]
  generalize hlo : (if wantt then (1 : ℤ) else ktop) = lo at *
  generalize hhi : (if wantt then (n : ℤ) else kbot) = hi at *
  have l1 : 1 ≤ lo := by rw [← hlo]; split <;> omega
  have l2 : lo ≤ ktop := by rw [← hlo]; split <;> omega
  have l3 : kbot ≤ hi := by rw [← hhi]; split <;> omega
  have l4 : hi ≤ n := by rw [← hhi]; split <;> omega
  set p : Qr5P XR := qr5Params wantt wantz kacc22 n ktop kbot 2 (r : ℤ) iloz ihiz ldz (ldv : ℤ) ldu nv ldwv nh ldwh with hp
  set B := fro (block lo hi A) with hB
  have hd : Dim5 p r c ldv lo hi lo hi (1 / 2 ^ 52) (1 / 2 ^ 1022 * ((n : ℝ) / (1 / 2 ^ 52))) B := by
    refine ⟨⟨hM.small, l1, by omega, by omega, le_refl _, le_refl _⟩, ?_, l2, l3, h2, rfl, rfl, dlamch_P, by positivity, ?_, ?_, fro_nonneg _, hN⟩
    · show (2 - (2 : ℤ).tmod 2).tdiv 2 = 1
      decide
    · show (dlamch 'S' : XR) * (ofInt n / dlamch 'P') = _
      rw [dlamch_S, dlamch_P, ofInt_eq, fin_div _ _ (by positivity), fin_mul]
    · have : (0 : ℝ) ≤ (n : ℝ) := by exact_mod_cast (by omega : (0 : ℤ) ≤ n)
      positivity
  have hs := is2_of_matrix hM (by omega)
  set g0 := ofList2 r h.data with hg0
  -- the array `h` after the element has been cleared
  obtain ⟨h', eh, g, hg, hon, hout⟩ : ∃ h', (if ktop + 2 ≤ kbot then h.set2 (ktop + 2) ktop zero else pure h) = (pure h' : R (FA XR)) ∧
      ∃ g, Is2 h' r c (r * c) g ∧ OnR lo hi lo hi g A ∧ OutR lo hi lo hi g g0 := by
    have e0 : ∀ a b, lo ≤ a → a ≤ hi → lo ≤ b → b ≤ hi → ¬ (ktop + 2 ≤ kbot ∧ a = ktop + 2 ∧ b = ktop) → g0 a b = fin (A a b) := fun a b x1 x2 y1 y2 hn =>
      (entry_is2 hs (by omega) (by omega) (by omega) (by omega) _).1 (hA.entry a b x1 x2 y1 y2 hn)
    by_cases hk : ktop + 2 ≤ kbot
    · rw [if_pos hk]
      obtain ⟨h', e, k⟩ := set2_is2 hs (hd.fits.cell (a := ktop + 2) (b := ktop) (by omega) (by omega) (by omega) (by omega)) hM.small zero
      refine ⟨h', e, _, k, ?_, ?_⟩
      · intro a b x1 x2 y1 y2
        simp only [upd2]
        by_cases hc : a = ktop + 2 ∧ b = ktop
        · rw [if_pos hc, hc.1, hc.2, hA.hess _ _ (by omega), zero_eq]
        · rw [if_neg hc]
          exact e0 a b x1 x2 y1 y2 (by tauto)
      · intro a b hab
        simp only [upd2]
        rw [if_neg (by rintro ⟨rfl, rfl⟩; exact hab ⟨by omega, by omega, by omega, by omega⟩)]
    · rw [if_neg hk]
      exact ⟨h, rfl, g0, hs, fun a b x1 x2 y1 y2 => e0 a b x1 x2 y1 y2 (by tauto), fun _ _ _ => rfl⟩
  -- the array `v`
  obtain ⟨x, y, w, rest, hvd⟩ : ∃ x y w rest, v.data = (x :: y :: w :: rest).map fin := by
    have hlen : 3 ≤ v.data.length := by
      rw [hv.length]
      exact hv3.trans (Nat.le_mul_of_pos_right _ hcv)
    obtain ⟨l, hl⟩ : ∃ l : List ℝ, v.data = l.map fin := by
      generalize v.data = d at hvf
      clear hlen
      induction d with
      | nil => exact ⟨[], rfl⟩
      | cons a d ih =>
        obtain ⟨y, rfl⟩ := hvf a (by simp)
        obtain ⟨l, rfl⟩ := ih fun x hx => hvf x (by simp [hx])
        exact ⟨y :: l, rfl⟩
    rw [hl] at hlen ⊢
    match l, hlen with
    | x :: y :: w :: rest, _ => exact ⟨x, y, w, rest, rfl⟩
  have hV : V5 ldv cv rest v x y w := ⟨hv3, hv, hvd⟩
  set s0 : Qr5S XR := ⟨ToFA.toFa (fin a1 :: fin a2 :: sr), ToFA.toFa (fin b1 :: fin b2 :: si), h', z, v, u, wv, wh, faOfVec [zero, zero, zero]⟩ with hs0
  have hst : Start5 p.ktop p.kbot A s0 a1 b1 a2 b2 := ⟨rfl, rfl, rfl, rfl, ha1, hb1, ha2, hA.unreduced⟩
  set ε : ℝ := 6 * (1 / 2 ^ 52) * B + 1 / 2 ^ 1022 * ((n : ℝ) / (1 / 2 ^ 52)) with hε
  have hI : Real5 lo hi p.ktop p.kbot A B ε (startX p.ktop p.kbot A a1 b1 a2 b2) (p.ktop - 1) A idT := by
    refine ⟨⟨fun a b _ hab _ _ => hA.hess a b hab, hA.top, hA.bot⟩, ⟨⟨1, 0, ?_, by rw [Matrix.mul_one]⟩, le_refl _⟩, fun j j1 j2 => ?_, fun _ _ _ => rfl,
      fun h => by omega, fun _ => ⟨rfl, rfl⟩⟩
    · have := backward_start (lo := lo) (hi := hi) A
      refine ⟨this.orth, this.eq, this.trace, this.bound.trans (le_of_eq ?_)⟩
      rw [show p.ktop - 1 - p.ktop + 1 = 0 by ring, Int.cast_zero, zero_mul]
    · exact hA.unreduced j (by change ktop ≤ j; change ktop - 1 + 3 ≤ j at j1; omega) j2
  have main := hsw p lo hi hp rfl rfl _ B ε hd (le_refl _) s0 rfl rfl rfl rfl rfl hst rest g g0 x y w
    ⟨hg, hV, fun a b x1 x2 y1 y2 _ => hon a b x1 x2 y1 y2, hout, fun h => by omega⟩ hI
  unfold qr5Main
  rw [show forStep 0 (2 - 3) 2 (s0.sr, s0.si) qr5Shuffle = pure (s0.sr, s0.si) from rfl, pure_bind]
  have em : (if p.ktop + 2 ≤ p.kbot then do
      let h ← h.set2 (p.ktop + 2) p.ktop zero
      forStep (p.ktop - 2 * p.nbmps + 1) (p.kbot - 2) (2 * asUsize p.nbmps) { s0 with h := h } (qr5Incol p)
    else forStep (p.ktop - 2 * p.nbmps + 1) (p.kbot - 2) (2 * asUsize p.nbmps) { s0 with h := h } (qr5Incol p)) =
      forStep (p.ktop - 2 * p.nbmps + 1) (p.kbot - 2) (2 * asUsize p.nbmps) s0 (qr5Incol p) := by
    by_cases hk : ktop + 2 ≤ kbot
    · rw [if_pos hk] at eh
      rw [if_pos (show p.ktop + 2 ≤ p.kbot from hk), show p.ktop = ktop from rfl, eh, pure_bind]
    · rw [if_neg hk] at eh
      have : h = h' := congrFun eh .debug |> fun e => by injection e
      rw [if_neg (show ¬ p.ktop + 2 ≤ p.kbot from hk), hs0, ← this]
  dsimp only
  refine Tot.bind (em ▸ main) fun s1 h1 => ?_
  simp only [show ∀ a : FA XR, FromFA.fromFa (A := FA XR) a = pure a from fun _ => rfl, pure_bind]
  obtain ⟨T, Zq, g1, t, v2, v3, hAr, hR, hW⟩ := h1
  obtain ⟨⟨Q, E, hbk, hcol⟩, -⟩ := hR.track
  have hQ : Q = block lo hi Zq := by
    ext a b
    have := congrFun (congrFun hcol a) b
    rw [Matrix.mul_apply] at this
    simp only [colsM, idT] at this
    unfold block
    rw [this, Finset.sum_eq_single a]
    · rw [if_pos rfl, one_mul]
    · intro d _ hda
      rw [if_neg (by intro e; exact hda (Subtype.ext e.symm)), zero_mul]
    · intro hn; exact absurd (Finset.mem_univ _) hn
  refine Tot.pure ⟨⟨hAr.hm.rows, hAr.hm.cols, by rw [hAr.hm.data, length_tab2], hM.small⟩, 
    Zq, T, E, ⟨?_, ?_, hR.shape.top, hR.shape.bot, ?_, ?_, hR.out, ?_⟩, s1, hW, rfl, rfl, rfl, rfl, rfl⟩
  · rw [hQ] at hbk
    refine ⟨hbk.orth, hbk.eq, hbk.trace, hbk.bound.trans (le_of_eq ?_)⟩
    unfold qr5Bound
    rw [show p.kbot - 1 - p.ktop + 1 = kbot - ktop from by change kbot - 1 - ktop + 1 = _; ring]
  · intro a b y1 hab x2
    exact hR.shape.hess a b y1 hab x2 (by omega)
  · intro a b x1 x2 y1 y2
    exact (entry_is2 hAr.hm (by omega) (by omega) (by omega) (by omega) _).2 (hAr.on a b x1 x2 y1 y2 (by omega))
  · intro a b x1 x2 y1 y2 hn w
    have e1 := entry_is2 hAr.hm x1 x2 y1 y2 w
    have e2 := entry_is2 hs x1 x2 y1 y2 w
    rw [hAr.out a b hn] at e1
    exact e1.trans e2.symm
  · intro e he
    obtain ⟨γ, hγ⟩ := hR.first (by change ktop ≤ kbot - 1; omega)
    refine ⟨γ, fun a => ?_⟩
    rw [shiftPoly_col hA.hess h2 _ _ _ _ e a he, he]
    exact hγ a

/-- `dlaqr5` with two shifts, without accumulation and without `z`, returns in both profiles. -/
theorem dlaqr5_run (hk1 : kacc22 ≠ 1) (hk2 : kacc22 ≠ 2) (hM : IsMatrix h r c) (h1 : 1 ≤ ktop) (h2 : ktop < kbot) (h3 : kbot ≤ n) (h4 : n ≤ r) (h5 : n ≤ c)
    (hA : Qr5Input h r (if wantt then 1 else ktop) (if wantt then n else kbot) ktop kbot A)
    (hN : fro (block (if wantt then 1 else ktop) (if wantt then n else kbot) A) ≤ 2 ^ 490)
    (ha1 : |a1| ≤ 2 ^ 490) (hb1 : |b1| ≤ 2 ^ 490) (ha2 : |a2| ≤ 2 ^ 490) (hv : IsMatrix v ldv cv) (hv3 : 3 ≤ ldv) (hcv : 1 ≤ cv)
    (hvf : ∀ x ∈ v.data, ∃ y : ℝ, x = fin y) :
    Tot (dlaqr5 (F := XR) wantt false kacc22 n ktop kbot 2 (fin a1 :: fin a2 :: sr) (fin b1 :: fin b2 :: si) h (r : ℤ) iloz ihiz z ldz v (ldv : ℤ) u ldu
      nv wv ldwv nh wh ldwh) fun ret => IsMatrix ret.h r c ∧ ret.z = z ∧ ret.u = u ∧ ret.wv = wv ∧ ret.wh = wh ∧ ∃ q T E,
        Qr5Done r c n (if wantt then 1 else ktop) (if wantt then n else kbot) ktop kbot A a1 b1 a2 b2 q T E h ret.h := by
  refine (dlaqr5_core (W := fun _ s => s.z = z ∧ s.u = u ∧ s.wv = wv ∧ s.wh = wh) hM h1 h2 h3 h4 h5 hA hN ha1 hb1 ha2 hv hv3 hcv hvf ?_).mono ?_
  · intro p lo hi hp hlo hhi sm B ε hd hε s0 z0 u0 wv0 wh0 _ hst rest g g0 x y w hAr hR
    have hn : NoAcc5 p lo hi := by
      subst hp
      refine ⟨?_, rfl, hlo, hhi⟩
      show (decide (kacc22 = 1) || decide (kacc22 = 2)) = false
      simp [hk1, hk2]
    refine (sweeps_ok hd hn hε hst ⟨⟨A, idT, g, x, y, w, hAr, hR⟩, rfl⟩).mono ?_
    rintro s1 ⟨⟨T, Zq, g1, t, v2, v3, q1, q2⟩, hs1⟩
    exact ⟨T, Zq, g1, t, v2, v3, q1, q2, by rw [hs1]; exact z0, by rw [hs1]; exact u0, by rw [hs1]; exact wv0, by rw [hs1]; exact wh0⟩
  · rintro ret ⟨q1, q, T, E, q2, s1, ⟨w1, w2, w3, w4⟩, e1, e2, e3, e4, -⟩
    exact ⟨q1, e1.trans w1, e2.trans w2, e3.trans w3, e4.trans w4, q, T, E, q2⟩

/-- **C57.** In exact arithmetic, one sweep of `dlaqr5` with two shifts, no accumulation and no `z` always returns, in both build profiles:
`h` is then a Hessenberg matrix orthogonally similar to a slight perturbation of the input, the transformation acts only on rows and columns
`ktop..kbot`, and it begins with the reflection given by the shifts.  `z`, `u`, `wv` and `wh` come back as they were. -/
theorem C57_dlaqr5_sweep (wantt : Bool) (kacc22 n ktop kbot iloz ihiz ldz ldu nv ldwv nh ldwh : ℤ) (h z v u wv wh : FA XR) (r c ldv cv : Nat)
    (a1 b1 a2 b2 : ℝ) (sr si : List XR) (A : ℤ → ℤ → ℝ) (hk1 : kacc22 ≠ 1) (hk2 : kacc22 ≠ 2) (hM : IsMatrix h r c) (h1 : 1 ≤ ktop) (h2 : ktop < kbot)
    (h3 : kbot ≤ n) (h4 : n ≤ r) (h5 : n ≤ c)
    (hA : Qr5Input h r (if wantt then 1 else ktop) (if wantt then n else kbot) ktop kbot A)
    (hN : fro (block (if wantt then 1 else ktop) (if wantt then n else kbot) A) ≤ 2 ^ 490)
    (ha1 : |a1| ≤ 2 ^ 490) (hb1 : |b1| ≤ 2 ^ 490) (ha2 : |a2| ≤ 2 ^ 490) (hv : IsMatrix v ldv cv) (hv3 : 3 ≤ ldv) (hcv : 1 ≤ cv)
    (hvf : ∀ x ∈ v.data, ∃ y : ℝ, x = fin y) (pr : Profile) :
    ∃ ret : Qr5Ret (FA XR) (FA XR) (FA XR) (FA XR) (FA XR) (FA XR),
      dlaqr5 (F := XR) wantt false kacc22 n ktop kbot 2 (fin a1 :: fin a2 :: sr) (fin b1 :: fin b2 :: si) h (r : ℤ) iloz ihiz z ldz v (ldv : ℤ) u ldu
        nv wv ldwv nh wh ldwh pr = .ok ret ∧
      IsMatrix ret.h r c ∧ ret.z = z ∧ ret.u = u ∧ ret.wv = wv ∧ ret.wh = wh ∧ ∃ q T E,
        Qr5Done r c n (if wantt then 1 else ktop) (if wantt then n else kbot) ktop kbot A a1 b1 a2 b2 q T E h ret.h :=
  dlaqr5_run hk1 hk2 hM h1 h2 h3 h4 h5 hA hN ha1 hb1 ha2 hv hv3 hcv hvf pr

/-- **C57** (with `z`).  If `dlaqr5` is also told to transform `z`, in whatever container, and returns, then it returns such an `h`. -/
theorem C57_dlaqr5_sweep_z {Z : Type} [ToFA XR Z] [FromFA XR Z] (wantt wantz : Bool) (kacc22 n ktop kbot iloz ihiz ldz ldu nv ldwv nh ldwh : ℤ)
    (h v u wv wh : FA XR) (z : Z) (r c ldv cv : Nat)
    (a1 b1 a2 b2 : ℝ) (sr si : List XR) (A : ℤ → ℤ → ℝ) (hk1 : kacc22 ≠ 1) (hk2 : kacc22 ≠ 2) (hM : IsMatrix h r c) (h1 : 1 ≤ ktop) (h2 : ktop < kbot)
    (h3 : kbot ≤ n) (h4 : n ≤ r) (h5 : n ≤ c)
    (hA : Qr5Input h r (if wantt then 1 else ktop) (if wantt then n else kbot) ktop kbot A)
    (hN : fro (block (if wantt then 1 else ktop) (if wantt then n else kbot) A) ≤ 2 ^ 490)
    (ha1 : |a1| ≤ 2 ^ 490) (hb1 : |b1| ≤ 2 ^ 490) (ha2 : |a2| ≤ 2 ^ 490) (hv : IsMatrix v ldv cv) (hv3 : 3 ≤ ldv) (hcv : 1 ≤ cv)
    (hvf : ∀ x ∈ v.data, ∃ y : ℝ, x = fin y) (pr : Profile) (ret : Qr5Ret (FA XR) Z (FA XR) (FA XR) (FA XR) (FA XR))
    (hret : dlaqr5 (F := XR) wantt wantz kacc22 n ktop kbot 2 (fin a1 :: fin a2 :: sr) (fin b1 :: fin b2 :: si) h (r : ℤ) iloz ihiz z ldz v (ldv : ℤ) u ldu
        nv wv ldwv nh wh ldwh pr = .ok ret) :
    IsMatrix ret.h r c ∧ ∃ q T E,
      Qr5Done r c n (if wantt then 1 else ktop) (if wantt then n else kbot) ktop kbot A a1 b1 a2 b2 q T E h ret.h := by
  obtain ⟨z2, e⟩ := C54_dlaqr5_without_z wantt wantz kacc22 n ktop kbot 2 hk1 hk2 _ _ h r iloz ihiz z ldz v ldv u ldu nv wv ldwv nh wh ldwh
    1 1 h 1 pr ret hret
  obtain ⟨ret', e', hM', -, -, -, -, hD⟩ := C57_dlaqr5_sweep wantt kacc22 n ktop kbot 1 1 1 ldu nv ldwv nh ldwh h h v u wv wh r c ldv cv
    a1 b1 a2 b2 sr si A hk1 hk2 hM h1 h2 h3 h4 h5 hA hN ha1 hb1 ha2 hv hv3 hcv hvf pr
  rw [e] at e'
  cases e'
  exact ⟨hM', hD⟩

/-- The cyclic permutation of three coordinates, with a NaN in the element that is cleared. -/
def cyc : FA XR := { data := [fin 0, fin 1, XR.nan, fin 0, fin 0, fin 1, fin 1, fin 0, fin 0], rows := 3, cols := 3, defaultValue := fin 0 }

/-- Its entries. -/
def cycA (a b : ℤ) : ℝ := if a = b + 1 ∧ 1 ≤ b ∧ b ≤ 2 then 1 else if a = 1 ∧ b = 3 then 1 else 0

theorem cyc_input : Qr5Input cyc 3 1 3 1 3 cycA := by
  refine ⟨?_, ?_, fun h => by omega, fun h => by omega, ?_⟩
  · intro a b h1 h2 h3 h4 hn
    rcases (by omega : a = 1 ∨ a = 2 ∨ a = 3) with rfl | rfl | rfl <;> rcases (by omega : b = 1 ∨ b = 2 ∨ b = 3) with rfl | rfl | rfl <;>
      simp [Entry, cyc, cycA] at hn ⊢
  · intro a b h
    unfold cycA
    rw [if_neg (by omega), if_neg (by omega)]
  · intro j j1 j2
    unfold cycA
    rw [if_pos (by omega)]
    exact one_ne_zero

theorem cyc_fro : fro (block 1 3 cycA) ≤ 2 := by
  unfold fro
  refine Real.sqrt_le_iff.2 ⟨by norm_num, ?_⟩
  have e : ∀ f : ℤ → ℝ, ∑ a : Blk 1 3, f a = f 1 + f 2 + f 3 := fun f => by
    rw [Finset.sum_coe_sort (Finset.Icc (1 : ℤ) 3) f, sum_Icc_cons (by norm_num), sum_Icc_cons (by norm_num), show (1 : ℤ) + 1 + 1 = 3 by norm_num, Finset.Icc_self,
      Finset.sum_singleton]
    norm_num
    ring
  have e2 : ∑ a : Blk 1 3, ∑ b : Blk 1 3, block 1 3 cycA a b ^ 2 = 3 := by
    have := e fun a => ∑ b : Blk 1 3, cycA a b ^ 2
    refine this.trans ?_
    rw [e fun b => cycA 1 b ^ 2, e fun b => cycA 2 b ^ 2, e fun b => cycA 3 b ^ 2]
    norm_num [cycA]
  rw [e2]
  norm_num

/-- The hypotheses of C57 are met by the cyclic permutation with the shifts `1 ± i`. -/
theorem C57_example (pr : Profile) : ∃ ret : Qr5Ret (FA XR) (FA XR) (FA XR) (FA XR) (FA XR) (FA XR),
    dlaqr5 (F := XR) true false 0 3 1 3 2 [fin 1, fin 1] [fin 1, fin (-1)] cyc 3 1 1 cyc 3 (⟨[fin 0, fin 0, fin 0], 3, 1, fin 0⟩ : FA XR) 3 cyc 3 0 cyc 3 0 cyc 3 pr
      = .ok ret ∧ ∃ q T E, Qr5Done 3 3 3 1 3 1 3 cycA 1 1 1 (-1) q T E cyc ret.h := by
  have h490 : (2 : ℝ) ≤ 2 ^ 490 := by
    calc (2 : ℝ) = 2 ^ 1 := by norm_num
      _ ≤ 2 ^ 490 := pow_le_pow_right₀ (by norm_num) (by norm_num)
  obtain ⟨ret, e, -, -, -, -, -, h⟩ := C57_dlaqr5_sweep true 0 3 1 3 1 1 3 3 0 3 0 3 cyc cyc (⟨[fin 0, fin 0, fin 0], 3, 1, fin 0⟩ : FA XR) cyc cyc cyc 3 3 3 1
    1 1 1 (-1) [] [] cycA (by norm_num) (by norm_num) ⟨rfl, rfl, rfl, by decide⟩ (by norm_num) (by norm_num) (by norm_num) (by norm_num) (by norm_num)
    cyc_input (cyc_fro.trans h490) (by rw [abs_one]; exact one_le_two.trans h490) (by rw [abs_one]; exact one_le_two.trans h490) (by rw [abs_one]; exact one_le_two.trans h490) ⟨rfl, rfl, rfl, by decide⟩ (le_refl _) (le_refl _)
    (fun x hx => ⟨0, by simpa using hx⟩) pr
  exact ⟨ret, e, h⟩

end

end Verif

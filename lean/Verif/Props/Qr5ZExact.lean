import Verif.Lib.Qr5ZSweep
import Verif.Props.Qr5Exact

/-!
# `dlaqr5` and `z` without accumulation, in exact arithmetic (C82)
-/

namespace Verif
open Scalar XR

namespace Spec

/-- The value read outside an array, `f64::MIN_POSITIVE`. -/
noncomputable def tinyR : ℝ := 1 / 2 ^ 1022

/-- `W - t (W w) wᵀ`, with `w` the vector `(1, v2, v3)` in places `q`, `q + 1`, `q + 2`. -/
def reflectCols (q : ℤ) (t v2 v3 : ℝ) (W : ℤ → ℤ → ℝ) (a b : ℤ) : ℝ :=
  W a b - t * (if b = q then 1 else if b = q + 1 then v2 else if b = q + 2 then v3 else 0) * (W a q + v2 * W a (q + 1) + v3 * W a (q + 2))

/-- The entries of a matrix with `cz` columns as the code reads them. -/
noncomputable def asRead (cz : Nat) (W : ℤ → ℤ → ℝ) (a b : ℤ) : ℝ := if 1 ≤ b ∧ b ≤ cz then W a b else tinyR

/-- `Z` with its columns `kt..kb` multiplied by `q`. -/
noncomputable def timesQ (kt kb : ℤ) (q Z : ℤ → ℤ → ℝ) (a b : ℤ) : ℝ := if kt ≤ b ∧ b ≤ kb then ∑ d ∈ Finset.Icc kt kb, Z a d * q d b else Z a b

/-- `W` as `dlaqr5` spoils it: first by `(1, v2, v3)` in columns `kb - 1`, `kb`, `kb + 1`, then by a vector read outside the array `v`
in columns `kb - 3`, `kb - 2`, `kb - 1`. -/
noncomputable def spoilt (cz : Nat) (kb : ℤ) (t v2 v3 : ℝ) (W : ℤ → ℤ → ℝ) : ℤ → ℤ → ℝ :=
  reflectCols (kb - 3) tinyR tinyR tinyR (asRead cz (reflectCols (kb - 1) t v2 v3 (asRead cz W)))

end Spec
open Spec

theorem applyR_timesQ {kt kb : ℤ} {rs : List Rfl5} (h : AllIn kt kb rs) (Z : ℤ → ℤ → ℝ) (a b : ℤ) :
    applyR rs Z a b = timesQ kt kb (applyR rs idT) Z a b := by
  unfold timesQ
  split
  · next hb =>
    have := applyV_sum (S := Finset.univ) (e := fun d : Blk kt kb => (d : ℤ)) (fun f i i1 i2 => blk_delta f i1 i2) h (Z a) hb.1 hb.2
    unfold applyR
    rw [this, ← Finset.sum_coe_sort (Finset.Icc kt kb)]
  · next hb =>
    unfold applyR
    exact applyV_out h _ (by omega)

section
variable {wantt : Bool} {kacc22 n ktop kbot iloz ihiz ldz ldu nv ldwv nh ldwh : ℤ} {h z v u wv wh : FA XR} {r c rz cz ldv cv : Nat}
  {a1 b1 a2 b2 : ℝ} {sr si : List XR} {A Z0 : ℤ → ℤ → ℝ}

theorem dlaqr5_z (hk1 : kacc22 ≠ 1) (hk2 : kacc22 ≠ 2) (hM : IsMatrix h r c) (h1 : 1 ≤ ktop) (h2 : ktop < kbot) (h3 : kbot ≤ n) (h4 : n ≤ r) (h5 : n ≤ c)
    (hA : Qr5Input h r (if wantt then 1 else ktop) (if wantt then n else kbot) ktop kbot A)
    (hN : fro (block (if wantt then 1 else ktop) (if wantt then n else kbot) A) ≤ 2 ^ 490)
    (ha1 : |a1| ≤ 2 ^ 490) (hb1 : |b1| ≤ 2 ^ 490) (ha2 : |a2| ≤ 2 ^ 490) (hv : IsMatrix v ldv cv) (hv3 : 3 ≤ ldv) (hcv : 1 ≤ cv)
    (hvf : ∀ x ∈ v.data, ∃ y : ℝ, x = fin y) (hZ : IsMatrix z rz cz) (hzs : rz * (cz + 1) < 2 ^ 31) (i0 : 1 ≤ iloz) (i1 : ihiz ≤ rz) (hkc : kbot ≤ cz)
    (hrz : 1 ≤ rz) (hz : ∀ a b : ℤ, iloz ≤ a → a ≤ ihiz → 1 ≤ b → b ≤ cz → Entry z rz a b (fin (Z0 a b))) :
    Tot (dlaqr5 (F := XR) wantt true kacc22 n ktop kbot 2 (fin a1 :: fin a2 :: sr) (fin b1 :: fin b2 :: si) h (r : ℤ) iloz ihiz z ldz v (ldv : ℤ) u ldu
      nv wv ldwv nh wh ldwh) fun ret => IsMatrix ret.h r c ∧ IsMatrix ret.z rz cz ∧ ∃ q T E t v2 v3,
        Qr5Done r c n (if wantt then 1 else ktop) (if wantt then n else kbot) ktop kbot A a1 b1 a2 b2 q T E h ret.h ∧
        ret.v.data = fin t :: fin v2 :: fin v3 :: v.data.drop 3 ∧ (t = 0 ∨ t * (1 + v2 ^ 2) = 2) ∧ (ktop + 2 ≤ kbot → v3 ≠ 0) ∧
        (kbot = ktop + 1 → Entry v ldv 3 1 (fin v3)) ∧
        (∀ a b : ℤ, iloz ≤ a → a ≤ ihiz → 1 ≤ b → b ≤ cz → Entry ret.z rz a b (fin (spoilt cz kbot t v2 v3 (timesQ ktop kbot q Z0) a b))) ∧
        ∀ a b : ℤ, 1 ≤ a → a ≤ rz → 1 ≤ b → b ≤ cz → ¬ (iloz ≤ a ∧ a ≤ ihiz) → ∀ x, Entry ret.z rz a b x ↔ Entry z rz a b x := by
  refine (dlaqr5_core (W := fun q s => IsMatrix s.z rz cz ∧ ∃ t v2 v3, s.v.data = fin t :: fin v2 :: fin v3 :: v.data.drop 3 ∧
        (t = 0 ∨ t * (1 + v2 ^ 2) = 2) ∧ (ktop + 2 ≤ kbot → v3 ≠ 0) ∧ (kbot = ktop + 1 → Entry v ldv 3 1 (fin v3)) ∧
        (∀ a b : ℤ, iloz ≤ a → a ≤ ihiz → 1 ≤ b → b ≤ cz → Entry s.z rz a b (fin (spoilt cz kbot t v2 v3 (timesQ ktop kbot q Z0) a b))) ∧
        ∀ a b : ℤ, 1 ≤ a → a ≤ rz → 1 ≤ b → b ≤ cz → ¬ (iloz ≤ a ∧ a ≤ ihiz) → ∀ x, Entry s.z rz a b x ↔ Entry z rz a b x)
      hM h1 h2 h3 h4 h5 hA hN ha1 hb1 ha2 hv hv3 hcv hvf ?_).mono ?_
  · intro p lo hi hp hlo hhi sm B ε hd hε s0 z0 u0 wv0 wh0 v0 hst rest g g0 x y w hAr hR
    have hpi : p.iloz = iloz := by rw [hp]; rfl
    have hpj : p.ihiz = ihiz := by rw [hp]; rfl
    have hpk : p.ktop = ktop := by rw [hp]; rfl
    have hpl : p.kbot = kbot := by rw [hp]; rfl
    have hn : NoAccZ p rz cz lo hi := by
      subst hp
      refine ⟨?_, rfl, hlo, hhi, i0, i1, hkc, hzs⟩
      show (decide (kacc22 = 1) || decide (kacc22 = 2)) = false
      simp [hk1, hk2]
    have iz := is2_of_matrix hZ (by omega)
    have hV := hAr.vm
    rw [v0] at hV
    refine (sweeps_z (rz := rz) (cz := cz) (gz := ofList2 rz z.data) (Z0 := Z0) (w0 := w) (rs := []) hd hn hε hst ⟨hAr, hR, fun r hr => by simp at hr, rfl, ⟨_, z0 ▸ iz, ?_, fun _ _ _ => rfl⟩, fun _ => rfl,
      fun h => by omega, rfl⟩).mono ?_
    · intro a b x1 x2 y1 y2
      rw [hpi] at x1; rw [hpj] at x2
      exact (entry_is2 iz (by omega) (by omega) y1 y2 _).1 (hz a b x1 x2 y1 y2)
    rintro s1 ⟨T, Zq, g1, t, v2, v3, rs, hF⟩
    obtain ⟨zg, kz, zon, zout⟩ := hF.z.ex
    rw [hpi, hpj] at zon zout
    have hall := hF.all
    rw [hpk, hpl] at hall
    have hap : applyR rs Z0 = timesQ ktop kbot Zq Z0 := by
      rw [hF.zq]
      funext a b
      exact applyR_timesQ hall Z0 a b
    refine ⟨T, Zq, g1, t, v2, v3, hF.arr, hF.real, ⟨kz.rows, kz.cols, by rw [kz.data, length_tab2], hZ.small⟩, t, v2, v3, ?_, ?_, ?_, ?_, ?_, ?_⟩
    · rw [hF.arr.vm.data, hV.data]
      rfl
    · have := hF.refl
      unfold Refl at this
      rcases mul_eq_zero.1 this with e | e
      · exact Or.inl e
      · right
        linear_combination e
    · intro hk
      exact hF.later (by omega)
    · intro hk
      rw [hF.start (by omega)]
      unfold Entry
      rw [hV.data]
      simp
    · intro a b x1 x2 y1 y2
      rw [entry_is2 kz (by omega) (by omega) y1 y2, zon a b x1 x2 y1 y2, hap, hpl]
      rfl
    · intro a b x1 x2 y1 y2 hn' x
      rw [entry_is2 kz x1 x2 y1 y2, entry_is2 iz x1 x2 y1 y2, zout a b hn']
  · rintro ret ⟨q1, q, T, E, q2, s1, ⟨w1, t, v2, v3, w2, w3, w4, w5, w6, w7⟩, e1, e2, e3, e4, e5⟩
    rw [e1, e5]
    exact ⟨q1, w1, q, T, E, t, v2, v3, q2, w2, w3, w4, w5, w6, w7⟩

end

/-- **C82.** In exact arithmetic, one sweep of `dlaqr5` with two shifts that transforms `z` without accumulation always returns, in both build
profiles.  `h` is as in C57, with the transformation `q`.  The rows `iloz..ihiz` of `z` are multiplied by `q`, as they should be, but then spoilt: what
the first three places `t`, `v2`, `v3` of the returned `v` hold (the last, two-element, reflection and a third number left from before) is applied
to columns `kbot - 1..kbot + 1`, and numbers read outside `v` to columns `kbot - 3..kbot - 1`. -/
theorem C82_dlaqr5_z_spoilt (wantt : Bool) (kacc22 n ktop kbot iloz ihiz ldz ldu nv ldwv nh ldwh : ℤ) (h z v u wv wh : FA XR) (r c rz cz ldv cv : Nat)
    (a1 b1 a2 b2 : ℝ) (sr si : List XR) (A Z0 : ℤ → ℤ → ℝ) (hk1 : kacc22 ≠ 1) (hk2 : kacc22 ≠ 2) (hM : IsMatrix h r c) (h1 : 1 ≤ ktop) (h2 : ktop < kbot)
    (h3 : kbot ≤ n) (h4 : n ≤ r) (h5 : n ≤ c)
    (hA : Qr5Input h r (if wantt then 1 else ktop) (if wantt then n else kbot) ktop kbot A)
    (hN : fro (block (if wantt then 1 else ktop) (if wantt then n else kbot) A) ≤ 2 ^ 490)
    (ha1 : |a1| ≤ 2 ^ 490) (hb1 : |b1| ≤ 2 ^ 490) (ha2 : |a2| ≤ 2 ^ 490) (hv : IsMatrix v ldv cv) (hv3 : 3 ≤ ldv) (hcv : 1 ≤ cv)
    (hvf : ∀ x ∈ v.data, ∃ y : ℝ, x = fin y) (hZ : IsMatrix z rz cz) (hzs : rz * (cz + 1) < 2 ^ 31) (hrz : 1 ≤ rz) (i0 : 1 ≤ iloz) (i1 : ihiz ≤ rz)
    (hkc : kbot ≤ cz) (hz : ∀ a b : ℤ, iloz ≤ a → a ≤ ihiz → 1 ≤ b → b ≤ cz → Entry z rz a b (fin (Z0 a b))) (pr : Profile) :
    ∃ ret : Qr5Ret (FA XR) (FA XR) (FA XR) (FA XR) (FA XR) (FA XR),
      dlaqr5 (F := XR) wantt true kacc22 n ktop kbot 2 (fin a1 :: fin a2 :: sr) (fin b1 :: fin b2 :: si) h (r : ℤ) iloz ihiz z ldz v (ldv : ℤ) u ldu
        nv wv ldwv nh wh ldwh pr = .ok ret ∧
      IsMatrix ret.h r c ∧ IsMatrix ret.z rz cz ∧ ∃ q T E t v2 v3,
        Qr5Done r c n (if wantt then 1 else ktop) (if wantt then n else kbot) ktop kbot A a1 b1 a2 b2 q T E h ret.h ∧
        ret.v.data = fin t :: fin v2 :: fin v3 :: v.data.drop 3 ∧ (t = 0 ∨ t * (1 + v2 ^ 2) = 2) ∧ (ktop + 2 ≤ kbot → v3 ≠ 0) ∧
        (kbot = ktop + 1 → Entry v ldv 3 1 (fin v3)) ∧
        (∀ a b : ℤ, iloz ≤ a → a ≤ ihiz → 1 ≤ b → b ≤ cz → Entry ret.z rz a b (fin (spoilt cz kbot t v2 v3 (timesQ ktop kbot q Z0) a b))) ∧
        ∀ a b : ℤ, 1 ≤ a → a ≤ rz → 1 ≤ b → b ≤ cz → ¬ (iloz ≤ a ∧ a ≤ ihiz) → ∀ x, Entry ret.z rz a b x ↔ Entry z rz a b x :=
  dlaqr5_z hk1 hk2 hM h1 h2 h3 h4 h5 hA hN ha1 hb1 ha2 hv hv3 hcv hvf hZ hzs i0 i1 hkc hrz hz pr

/-- **C82** (the column after the block).  If `z` has a column `kb + 1`, on which the transformation does not act, the row of `z` that was the unit row
of that column gets `1 - t v3²` there; this is not 1 unless the last reflection was trivial. -/
theorem C82_next_column {kt kb : ℤ} {cz : Nat} (h1 : 1 ≤ kt) (h2 : kt < kb) (hc : kb + 1 ≤ cz) (t v2 v3 : ℝ) (q Z : ℤ → ℤ → ℝ) (a : ℤ)
    (hZ : ∀ b, Z a b = if b = kb + 1 then 1 else 0) :
    spoilt cz kb t v2 v3 (timesQ kt kb q Z) a (kb + 1) = 1 - t * v3 ^ 2 ∧ (t ≠ 0 → v3 ≠ 0 → 1 - t * v3 ^ 2 ≠ 1) := by
  have hin : ∀ b, kt ≤ b → b ≤ kb → timesQ kt kb q Z a b = 0 := by
    intro b x1 x2
    unfold timesQ
    rw [if_pos ⟨x1, x2⟩]
    refine Finset.sum_eq_zero fun d hd => ?_
    obtain ⟨d1, d2⟩ := Finset.mem_Icc.1 hd
    rw [hZ, if_neg (by omega), zero_mul]
  have hout : timesQ kt kb q Z a (kb + 1) = 1 := by
    unfold timesQ
    rw [if_neg (by omega), hZ, if_pos rfl]
  have hr : ∀ (W : ℤ → ℤ → ℝ) b, 1 ≤ b → b ≤ (cz : ℤ) → asRead cz W a b = W a b := fun W b x1 x2 => by unfold asRead; rw [if_pos ⟨x1, x2⟩]
  refine ⟨?_, fun ht hv3 e => ?_⟩
  · unfold spoilt
    rw [reflectCols, if_neg (by omega), if_neg (by omega), if_neg (by omega), hr _ _ (by omega) (by omega)]
    rw [reflectCols, if_neg (by omega), if_neg (by omega), if_pos (by omega), hr _ _ (by omega) (by omega), hr _ _ (by omega) (by omega),
      hr _ _ (by omega) (by omega), hr _ _ (by omega) (by omega), show kb - 1 + 1 = kb by ring, show kb - 1 + 2 = kb + 1 by ring,
      hin (kb - 1) (by omega) (by omega), hin kb (by omega) (by omega), hout]
    ring
  · have : t * v3 ^ 2 = 0 := by linarith
    rcases mul_eq_zero.1 this with e | e
    · exact ht e
    · exact hv3 (pow_eq_zero_iff (by norm_num) |>.1 e)

/-- **C82** (the last column).  If the block ends at the last column of `z`, then up to `t v2 v3` times the smallest normal number that column is as
if the last reflection had not been applied: `W` being `W0` with that reflection, `z` gets the column of `W0`. -/
theorem C82_last_column {cz : Nat} (hc : 2 ≤ cz) (t v2 v3 : ℝ) (ht : t = 0 ∨ t * (1 + v2 ^ 2) = 2) (W W0 : ℤ → ℤ → ℝ)
    (hW : ∀ a b, W a b = reflectCols (cz - 1) t v2 0 W0 a b) (a : ℤ) :
    spoilt cz cz t v2 v3 W a cz = W0 a cz - t * v2 * v3 * tinyR := by
  have hr : ∀ (W : ℤ → ℤ → ℝ) b, 1 ≤ b → b ≤ (cz : ℤ) → asRead cz W a b = W a b := fun W b x1 x2 => by unfold asRead; rw [if_pos ⟨x1, x2⟩]
  have hn : ∀ W : ℤ → ℤ → ℝ, asRead cz W a (cz + 1) = tinyR := fun W => by unfold asRead; rw [if_neg (by omega)]
  unfold spoilt
  rw [reflectCols, if_neg (by omega), if_neg (by omega), if_neg (by omega), hr _ _ (by omega) (by omega)]
  rw [reflectCols, if_neg (by omega), if_pos (by omega), show (cz : ℤ) - 1 + 1 = cz by ring, show (cz : ℤ) - 1 + 2 = cz + 1 by ring, hn,
    hr _ _ (by omega) (by omega), hr _ _ (by omega) (by omega), hW, hW]
  unfold reflectCols
  rw [if_neg (by omega), if_pos (by omega), if_pos rfl, show (cz : ℤ) - 1 + 1 = cz by ring, show (cz : ℤ) - 1 + 2 = cz + 1 by ring]
  rcases ht with rfl | ht
  · ring
  · linear_combination t * v2 * (W0 a (cz - 1) + v2 * W0 a cz) * ht

/-- The identity of order four. -/
def eye44 : FA XR :=
  { data := [fin 1, fin 0, fin 0, fin 0, fin 0, fin 1, fin 0, fin 0, fin 0, fin 0, fin 1, fin 0, fin 0, fin 0, fin 0, fin 1], rows := 4, cols := 4, defaultValue := fin 0 }

/-- The hypotheses of C82 are met by the cyclic permutation, with the identity of order four for `z`: the last diagonal element of `z` is `1 - t v3²`
with `v3` not zero. -/
theorem C82_example (pr : Profile) : ∃ ret : Qr5Ret (FA XR) (FA XR) (FA XR) (FA XR) (FA XR) (FA XR),
    dlaqr5 (F := XR) true true 0 3 1 3 2 [fin 1, fin 1] [fin 1, fin (-1)] cyc 3 1 4 eye44 4 (⟨[fin 0, fin 0, fin 0], 3, 1, fin 0⟩ : FA XR) 3 cyc 3 0 cyc 3 0 cyc 3 pr
      = .ok ret ∧ ∃ t v2 v3, v3 ≠ 0 ∧ ret.v.data = [fin t, fin v2, fin v3] ∧ Entry ret.z 4 4 4 (fin (1 - t * v3 ^ 2)) := by
  have h490 : (2 : ℝ) ≤ 2 ^ 490 := by
    calc (2 : ℝ) = 2 ^ 1 := by norm_num
      _ ≤ 2 ^ 490 := pow_le_pow_right₀ (by norm_num) (by norm_num)
  obtain ⟨ret, e, -, -, q, T, E, t, v2, v3, -, w1, -, w2, -, w3, -⟩ := C82_dlaqr5_z_spoilt true 0 3 1 3 1 4 4 3 0 3 0 3 cyc eye44
    (⟨[fin 0, fin 0, fin 0], 3, 1, fin 0⟩ : FA XR) cyc cyc cyc 3 3 4 4 3 1
    1 1 1 (-1) [] [] cycA (fun a b => if a = b then 1 else 0) (by norm_num) (by norm_num) ⟨rfl, rfl, rfl, by decide⟩ (by norm_num) (by norm_num) (by norm_num) (by norm_num) (by norm_num)
    cyc_input (cyc_fro.trans h490) (by rw [abs_one]; exact one_le_two.trans h490) (by rw [abs_one]; exact one_le_two.trans h490) (by rw [abs_one]; exact one_le_two.trans h490) ⟨rfl, rfl, rfl, by decide⟩ (le_refl _) (le_refl _)
    (fun x hx => ⟨0, by simpa using hx⟩) ⟨rfl, rfl, rfl, by decide⟩ (by norm_num) (by norm_num) (by norm_num) (by norm_num) (by norm_num) (by
      intro a b x1 x2 y1 y2
      push_cast at y2
      rcases (by omega : a = 1 ∨ a = 2 ∨ a = 3 ∨ a = 4) with rfl | rfl | rfl | rfl <;> rcases (by omega : b = 1 ∨ b = 2 ∨ b = 3 ∨ b = 4) with rfl | rfl | rfl | rfl <;>
        simp [Entry, eye44]) pr
  refine ⟨ret, e, t, v2, v3, w2 (by norm_num), by simpa using w1, ?_⟩
  have := w3 4 4 (by norm_num) (by norm_num) (by norm_num) (by norm_num)
  have e4 := (C82_next_column (kt := 1) (kb := 3) (cz := 4) (by norm_num) (by norm_num) (by norm_num) t v2 v3 q (fun a b => if a = b then 1 else 0) 4 (by
    intro b
    norm_num
    by_cases hb : b = 4
    · rw [if_pos hb, if_pos hb.symm]
    · rw [if_neg hb, if_neg (Ne.symm hb)])).1
  norm_num at e4
  rwa [e4] at this

end Verif

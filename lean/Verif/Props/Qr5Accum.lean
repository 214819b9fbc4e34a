import Verif.Lib.Qr5Sweep
import Verif.Props.Qr5Exact

/-!
# `dlaqr5` with two shifts and accumulation in exact arithmetic (C59)
-/

namespace Verif
open Scalar XR

namespace Spec

/-- The work arrays the accumulating mode needs: `u` has at least 4 rows and columns, `wv` at least `nv` rows and 4 columns, `wh` at least 4 rows
and `nh` columns; each has the leading dimension given. -/
structure Qr5Work {F : Type} (u wv wh : FA F) (ru rv rh : Nat) (nv nh : ℤ) : Prop where
  u4 : 4 ≤ ru
  u : ∃ cu, 4 ≤ cu ∧ IsMatrix u ru cu
  nv1 : 1 ≤ nv
  nvr : nv ≤ rv
  wv : ∃ cv, 4 ≤ cv ∧ IsMatrix wv rv cv
  rh4 : 4 ≤ rh
  nh1 : 1 ≤ nh
  wh : ∃ ch : Nat, nh ≤ ch ∧ IsMatrix wh rh ch

end Spec
open Spec

section
variable {wantt wantz : Bool} {kacc22 n ktop kbot iloz ihiz nv nh : ℤ} {h z v u wv wh : FA XR} {r c cz ldv cv ru rv rh : Nat}
  {a1 b1 a2 b2 : ℝ} {sr si : List XR} {A Z0 : ℤ → ℤ → ℝ}

theorem dlaqr5_acc (hk : kacc22 = 1 ∨ kacc22 = 2) (hM : IsMatrix h r c) (h1 : 1 ≤ ktop) (h2 : ktop < kbot) (h3 : kbot ≤ n) (h4 : n ≤ r) (h5 : n ≤ c)
    (hA : Qr5Input h r (if wantt then 1 else ktop) (if wantt then n else kbot) ktop kbot A)
    (hN : fro (block (if wantt then 1 else ktop) (if wantt then n else kbot) A) ≤ 2 ^ 490)
    (ha1 : |a1| ≤ 2 ^ 490) (hb1 : |b1| ≤ 2 ^ 490) (ha2 : |a2| ≤ 2 ^ 490) (hv : IsMatrix v ldv cv) (hv3 : 3 ≤ ldv) (hcv : 1 ≤ cv)
    (hvf : ∀ x ∈ v.data, ∃ y : ℝ, x = fin y) (hW : Qr5Work u wv wh ru rv rh nv nh)
    (hz : wantz = true → IsMatrix z r cz ∧ 1 ≤ iloz ∧ ihiz ≤ r ∧ kbot ≤ cz ∧
      ∀ a b, iloz ≤ a → a ≤ ihiz → ktop ≤ b → b ≤ kbot → Entry z r a b (fin (Z0 a b))) :
    Tot (dlaqr5 (F := XR) wantt wantz kacc22 n ktop kbot 2 (fin a1 :: fin a2 :: sr) (fin b1 :: fin b2 :: si) h (r : ℤ) iloz ihiz z (r : ℤ) v (ldv : ℤ) u (ru : ℤ)
      nv wv (rv : ℤ) nh wh (rh : ℤ)) fun ret => IsMatrix ret.h r c ∧ ∃ q T E,
        Qr5Done r c n (if wantt then 1 else ktop) (if wantt then n else kbot) ktop kbot A a1 b1 a2 b2 q T E h ret.h ∧
        (wantz = true → IsMatrix ret.z r cz ∧ ZDone r cz iloz ihiz ktop kbot Z0 (block ktop kbot q) z ret.z) ∧ (wantz = false → ret.z = z) := by
  obtain ⟨cu, hcu, hu⟩ := hW.u
  obtain ⟨cwv, hcwv, hwv⟩ := hW.wv
  obtain ⟨cwh, hcwh, hwh⟩ := hW.wh
  refine (dlaqr5_core (W := fun q s => (wantz = true → IsMatrix s.z r cz ∧ ZDone r cz iloz ihiz ktop kbot Z0 (block ktop kbot q) z s.z) ∧ (wantz = false → s.z = z))
    hM h1 h2 h3 h4 h5 hA hN ha1 hb1 ha2 hv hv3 hcv hvf ?_).mono ?_
  · intro p lo hi hp hlo hhi sm B ε hd hε s0 z0 u0 wv0 wh0 _ hst rest g g0 x y w hAr hR
    have ha : Acc5 p r cz ru cu rv cwv rh cwh lo hi := by
      subst hp
      refine ⟨?_, hlo, hhi, rfl, rfl, hW.u4, hcu, rfl, hW.rh4, hW.nh1, hcwh, rfl, hcwv, hW.nv1, hW.nvr, fun hwz => ?_⟩
      · show (decide (kacc22 = 1) || decide (kacc22 = 2)) = true
        rcases hk with hk | hk <;> simp [hk]
      · obtain ⟨q1, q2, q3, q4, -⟩ := hz hwz
        exact ⟨q2, q3, q4, q1.small⟩
    have hpz : p.wantz = wantz := by rw [hp]; rfl
    have hpi : p.iloz = iloz := by rw [hp]; rfl
    have hpj : p.ihiz = ihiz := by rw [hp]; rfl
    have hpk : p.ktop = ktop := by rw [hp]; rfl
    have hpl : p.kbot = kbot := by rw [hp]; rfl
    have hZ : ZInv p r cz Z0 s0.z [] s0.z := by
      unfold ZInv
      by_cases hwz : wantz = true
      · rw [if_pos (by rw [hpz]; exact hwz), hpi, hpj, hpk, hpl, z0]
        obtain ⟨q1, q2, q3, q4, q5⟩ := hz hwz
        have iz := is2_of_matrix q1 (by omega)
        refine ⟨_, iz, fun a b x1 x2 y1 y2 => ?_, fun _ _ _ => rfl⟩
        exact (entry_is2 iz (by omega) (by omega) (by omega) (by omega) _).1 (q5 a b x1 x2 y1 y2)
      · rw [if_neg (by rw [hpz]; exact hwz)]
    refine (sweeps_acc hd ha hε hst ⟨A, idT, g, x, y, w, [], hAr, hR, fun r hr => by simp at hr, rfl, hZ,
      ⟨by rw [u0]; exact hu, by rw [wv0]; exact hwv, by rw [wh0]; exact hwh⟩, rfl, rfl⟩).mono ?_
    rintro s1 ⟨T, Zq, g1, t, v2, v3, rs, hB⟩
    refine ⟨T, Zq, g1, t, v2, v3, hB.arr, hB.real, fun hwz => ?_, fun hwz => ?_⟩
    · have hzi := hB.z
      unfold ZInv at hzi
      rw [if_pos (by rw [hpz]; exact hwz), hpi, hpj, hpk, hpl, z0] at hzi
      obtain ⟨zg, iz, zon, zout⟩ := hzi
      obtain ⟨q1, q2, q3, q4, q5⟩ := hz hwz
      refine ⟨⟨iz.rows, iz.cols, by rw [iz.data, length_tab2], q1.small⟩, fun a x1 x2 b => ?_, fun a b x1 x2 y1 y2 hn w => ?_⟩
      · obtain ⟨y1, y2⟩ := Finset.mem_Icc.1 b.2
        rw [entry_is2 iz (by omega) (by omega) (by omega) (by omega), zon a b x1 x2 y1 y2]
        congr 1
        have hall := hB.all
        rw [hpk, hpl] at hall
        have := applyV_sum (S := Finset.univ) (e := fun d : Blk ktop kbot => (d : ℤ)) (fun f i i1 i2 => blk_delta f i1 i2) hall (Z0 a) y1 y2
        unfold applyR
        rw [this]
        refine Finset.sum_congr rfl fun d _ => ?_
        unfold block
        rw [hB.zq]
        rfl
      · rw [entry_is2 iz x1 x2 y1 y2, entry_is2 (is2_of_matrix q1 (by omega)) x1 x2 y1 y2, zout a b (by tauto)]
    · have hzi := hB.z
      unfold ZInv at hzi
      rw [if_neg (by rw [hpz, hwz]; simp)] at hzi
      rw [hzi, z0]
  · rintro ret ⟨q1, q, T, E, q2, s1, ⟨w1, w2⟩, e1, -⟩
    exact ⟨q1, q, T, E, q2, by rw [e1]; exact w1, by rw [e1]; exact w2⟩

/-- **C59.** In exact arithmetic, one sweep of `dlaqr5` with two shifts and accumulation (`kacc22` 1 or 2, `ldz` equal to `ldh`) always returns, in
both build profiles.  `h` is then a Hessenberg matrix orthogonally similar to a slight perturbation of the input, the transformation acts only on
rows and columns `ktop..kbot` and begins with the reflection given by the shifts; and if `wantz`, the rows `iloz..ihiz` of `z` were multiplied by
the very same transformation, the rest of `z` being unchanged. -/
theorem C59_dlaqr5_accumulated (wantt wantz : Bool) (kacc22 n ktop kbot iloz ihiz nv nh : ℤ) (h z v u wv wh : FA XR) (r c cz ldv cv ru rv rh : Nat)
    (a1 b1 a2 b2 : ℝ) (sr si : List XR) (A Z0 : ℤ → ℤ → ℝ) (hk : kacc22 = 1 ∨ kacc22 = 2) (hM : IsMatrix h r c) (h1 : 1 ≤ ktop) (h2 : ktop < kbot)
    (h3 : kbot ≤ n) (h4 : n ≤ r) (h5 : n ≤ c)
    (hA : Qr5Input h r (if wantt then 1 else ktop) (if wantt then n else kbot) ktop kbot A)
    (hN : fro (block (if wantt then 1 else ktop) (if wantt then n else kbot) A) ≤ 2 ^ 490)
    (ha1 : |a1| ≤ 2 ^ 490) (hb1 : |b1| ≤ 2 ^ 490) (ha2 : |a2| ≤ 2 ^ 490) (hv : IsMatrix v ldv cv) (hv3 : 3 ≤ ldv) (hcv : 1 ≤ cv)
    (hvf : ∀ x ∈ v.data, ∃ y : ℝ, x = fin y) (hW : Qr5Work u wv wh ru rv rh nv nh)
    (hz : wantz = true → IsMatrix z r cz ∧ 1 ≤ iloz ∧ ihiz ≤ r ∧ kbot ≤ cz ∧
      ∀ a b, iloz ≤ a → a ≤ ihiz → ktop ≤ b → b ≤ kbot → Entry z r a b (fin (Z0 a b))) (pr : Profile) :
    ∃ ret : Qr5Ret (FA XR) (FA XR) (FA XR) (FA XR) (FA XR) (FA XR),
      dlaqr5 (F := XR) wantt wantz kacc22 n ktop kbot 2 (fin a1 :: fin a2 :: sr) (fin b1 :: fin b2 :: si) h (r : ℤ) iloz ihiz z (r : ℤ) v (ldv : ℤ) u (ru : ℤ)
        nv wv (rv : ℤ) nh wh (rh : ℤ) pr = .ok ret ∧
      IsMatrix ret.h r c ∧ ∃ q T E,
        Qr5Done r c n (if wantt then 1 else ktop) (if wantt then n else kbot) ktop kbot A a1 b1 a2 b2 q T E h ret.h ∧
        (wantz = true → IsMatrix ret.z r cz ∧ ZDone r cz iloz ihiz ktop kbot Z0 (block ktop kbot q) z ret.z) ∧ (wantz = false → ret.z = z) :=
  dlaqr5_acc hk hM h1 h2 h3 h4 h5 hA hN ha1 hb1 ha2 hv hv3 hcv hvf hW hz pr

/-- Four by four zeros. -/
def zer44 : FA XR := { data := List.replicate 16 (fin 0), rows := 4, cols := 4, defaultValue := fin 0 }

/-- The hypotheses of C59 are met by the cyclic permutation with the shifts `1 ± i`, `z` being the cyclic permutation too. -/
theorem C59_example (pr : Profile) : ∃ ret : Qr5Ret (FA XR) (FA XR) (FA XR) (FA XR) (FA XR) (FA XR),
    dlaqr5 (F := XR) true true 1 3 1 3 2 [fin 1, fin 1] [fin 1, fin (-1)] cyc 3 1 2 cyc 3
      (⟨[fin 0, fin 0, fin 0], 3, 1, fin 0⟩ : FA XR) 3 zer44 4 2 zer44 4 1 zer44 4 pr
      = .ok ret ∧ ∃ q T E, Qr5Done 3 3 3 1 3 1 3 cycA 1 1 1 (-1) q T E cyc ret.h ∧ ZDone 3 3 1 2 1 3 cycA (block 1 3 q) cyc ret.z := by
  have h490 : (2 : ℝ) ≤ 2 ^ 490 := by
    calc (2 : ℝ) = 2 ^ 1 := by norm_num
      _ ≤ 2 ^ 490 := pow_le_pow_right₀ (by norm_num) (by norm_num)
  have hm : IsMatrix zer44 4 4 := ⟨rfl, rfl, rfl, by decide⟩
  obtain ⟨ret, e, -, q, T, E, hD, hZ, -⟩ := C59_dlaqr5_accumulated true true 1 3 1 3 1 2 2 1 cyc cyc (⟨[fin 0, fin 0, fin 0], 3, 1, fin 0⟩ : FA XR) zer44 zer44 zer44
    3 3 3 3 1 4 4 4 1 1 1 (-1) [] [] cycA cycA (Or.inl rfl) ⟨rfl, rfl, rfl, by decide⟩ (by norm_num) (by norm_num) (by norm_num) (by norm_num) (by norm_num)
    cyc_input (cyc_fro.trans h490) (by rw [abs_one]; exact one_le_two.trans h490) (by rw [abs_one]; exact one_le_two.trans h490) (by rw [abs_one]; exact one_le_two.trans h490) ⟨rfl, rfl, rfl, by decide⟩ (le_refl _) (le_refl _)
    (fun x hx => ⟨0, by simpa using hx⟩)
    ⟨le_refl _, ⟨4, le_refl _, hm⟩, by norm_num, by norm_num, ⟨4, le_refl _, hm⟩, le_refl _, by norm_num, ⟨4, by norm_num, hm⟩⟩
    (fun _ => ⟨⟨rfl, rfl, rfl, by decide⟩, le_refl _, by norm_num, by norm_num, fun a b x1 x2 y1 y2 => cyc_input.entry a b x1 (by omega) y1 y2 (by omega)⟩) pr
  exact ⟨ret, e, q, T, E, hD, (hZ rfl).2⟩

end

end Verif

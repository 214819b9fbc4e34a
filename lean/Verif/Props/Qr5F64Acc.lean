import Verif.Lib.Qr5F64n
import Verif.Props.Qr5F64
import Verif.Props.Qr5Accum

/-!
# `dlaqr5` with two shifts and accumulation on binary64: backward stability (C80)
-/

namespace Verif
open F64 Scalar

namespace Spec

/-- The bound on the backward error for a block `kt..kb` of a matrix of order `n` and Frobenius norm `N`, when the reflectors are accumulated. -/
noncomputable def qr5BoundAccF (n kt kb : ℤ) (N : ℝ) : ℝ := (kb - kt + 1 : ℤ) * (81100 / 2 ^ 53 * N + 4 * n / 2 ^ 969)

/-- The bound on the error in a row of `z` of norm at most `K`. -/
noncomputable def qr5BoundZF (kt kb : ℤ) (K : ℝ) : ℝ := (kb - kt + 1 : ℤ) * (29100 / 2 ^ 53 * K + 1 / 2 ^ 1067)

end Spec
open Spec

/-! ### The constants -/

theorem consts5A {N n K nh : ℝ} (N0 : 0 ≤ N) (n1 : 1 ≤ n) (K0 : 0 ≤ K) (K1 : K + 1 ≤ 2 ^ 31) (nh0 : 0 ≤ nh) (hnh : nh ≤ n) {B ε Dm : ℝ}
    (hB : B = 103 / 100 * N + 4 * ((K + 1) * (n * tiny))) (hε : ε = 7136 * (ur * B) + n * tiny) (hD : Dm = (K + 1) * ((4 * (35800 * ur * B) + 4 * (nh * (200 * eta))) / 2)) :
    0 ≤ B ∧ 0 ≤ ε ∧ 0 ≤ Dm ∧ 7136 * (ur * B) + (60 * nh + 25) * eta + 4 * mu + n * (tiny / 2) ≤ ε ∧ N + (K * ε + Dm) ≤ B ∧
      K * ε + Dm ≤ (K + 1) * (81100 * ur * N + 4 * (n * tiny)) := by
  have u0 := ur_pos
  have t0 := tiny_pos'
  have e0 := eta_pos
  have nt : 0 ≤ n * tiny := mul_nonneg (by linarith) t0.le
  have Knt : 0 ≤ (K + 1) * (n * tiny) := mul_nonneg (by linarith) nt
  have B0 : 0 ≤ B := by rw [hB]; linarith
  have uB : 0 ≤ ur * B := mul_nonneg u0.le B0
  have te : 2 ^ 100 * eta ≤ tiny ∧ 2 ^ 80 * mu ≤ tiny := by
    unfold eta mu tiny
    have h : (0 : ℝ) < 1 / 2 ^ 969 := one_div_pos.2 (pow_pos (by norm_num) _)
    rw [show (1075 : ℕ) = 106 + 969 by norm_num, show (1051 : ℕ) = 82 + 969 by norm_num, pow_add, pow_add,
      show (2 : ℝ) ^ 100 * (1 / (2 ^ 106 * 2 ^ 969)) = 2 ^ 100 / 2 ^ 106 * (1 / 2 ^ 969) by ring,
      show (2 : ℝ) ^ 80 * (1 / (2 ^ 82 * 2 ^ 969)) = 2 ^ 80 / 2 ^ 82 * (1 / 2 ^ 969) by ring]
    generalize (1 : ℝ) / 2 ^ 969 = q at *
    constructor <;> norm_num <;> linarith
  have h2 : n * (2 ^ 100 * eta) ≤ n * tiny := mul_le_mul_of_nonneg_left te.1 (by linarith)
  have e2 : n * (2 ^ 100 * eta) = 2 ^ 100 * (n * eta) := by ring
  rw [e2] at h2
  have h4 : 0 ≤ n * eta := mul_nonneg (by linarith) e0.le
  have he : nh * eta ≤ n * eta := mul_le_mul_of_nonneg_right hnh e0.le
  have he0 : 0 ≤ nh * eta := mul_nonneg nh0 e0.le
  have ε0 : 0 ≤ ε := by rw [hε]; linarith
  have eD : Dm = (K + 1) * (71600 * (ur * B) + 400 * (nh * eta)) := by rw [hD]; ring
  have D0 : 0 ≤ Dm := by rw [eD]; exact mul_nonneg (by linarith) (by linarith)
  have Ku : (K + 1) * (78736 * ur) ≤ 19 / 1000 := by
    have h1 : (K + 1) * (78736 * ur) ≤ 2 ^ 31 * (78736 * ur) := mul_le_mul_of_nonneg_right K1 (by linarith)
    refine h1.trans ?_
    unfold ur
    norm_num
  have KuB : (K + 1) * (78736 * ur) * B ≤ 19 / 1000 * B := mul_le_mul_of_nonneg_right Ku B0
  have tot : K * ε + Dm ≤ (K + 1) * (78736 * (ur * B) + 2 * (n * tiny)) := by
    have q1 : K * ε ≤ (K + 1) * ε := mul_le_mul_of_nonneg_right (by linarith) ε0
    have q2 : (K + 1) * ε + Dm = (K + 1) * (78736 * (ur * B) + n * tiny + 400 * (nh * eta)) := by rw [eD, hε]; ring
    have q3 : (K + 1) * (78736 * (ur * B) + n * tiny + 400 * (nh * eta)) ≤ (K + 1) * (78736 * (ur * B) + 2 * (n * tiny)) :=
      mul_le_mul_of_nonneg_left (by linarith) (by linarith)
    linarith
  refine ⟨B0, ε0, D0, ?_, ?_, tot.trans (mul_le_mul_of_nonneg_left ?_ (by linarith))⟩
  · rw [hε]
    have h1 : (60 * nh + 25) * eta ≤ 85 * n * eta := mul_le_mul_of_nonneg_right (by linarith) e0.le
    have h3 : 1 * tiny ≤ n * tiny := mul_le_mul_of_nonneg_right n1 t0.le
    have e1 : 85 * n * eta = 85 * (n * eta) := by ring
    have e3 : n * (tiny / 2) = n * tiny / 2 := by ring
    rw [e1] at h1
    rw [e3]
    have := te.2
    have := mu_pos
    linarith
  · have e1 : (K + 1) * (78736 * (ur * B) + 2 * (n * tiny)) = (K + 1) * (78736 * ur) * B + 2 * ((K + 1) * (n * tiny)) := by ring
    rw [e1] at tot
    have : N + (19 / 1000 * B + 2 * ((K + 1) * (n * tiny))) ≤ B := by rw [hB]; linarith
    linarith
  · rw [hB]
    have h1 : (K + 1) * (78736 * ur) * (n * tiny) ≤ 19 / 1000 * (n * tiny) := mul_le_mul_of_nonneg_right Ku nt
    have h3 : 0 ≤ ur * N := mul_nonneg u0.le N0
    have e1 : 78736 * (ur * (103 / 100 * N + 4 * ((K + 1) * (n * tiny)))) + 2 * (n * tiny) =
        78736 * (103 / 100) * (ur * N) + 4 * ((K + 1) * (78736 * ur) * (n * tiny)) + 2 * (n * tiny) := by ring
    have e4 : 81100 * ur * N = 81100 * (ur * N) := by ring
    rw [e1, e4]
    linarith

theorem consts5Z {Kz K : ℝ} (Kz0 : 0 ≤ Kz) (K0 : 0 ≤ K) (K1 : K + 1 ≤ 2 ^ 31) {C δm : ℝ} (hC : C = 101 / 100 * Kz + 200 * ((K + 1) * eta))
    (hδ : δm = (K + 1) * ((57600 * (ur * C) + 300 * eta) / 2)) :
    0 ≤ C ∧ Kz + δm ≤ C ∧ δm ≤ (K + 1) * (29100 * ur * Kz + 256 * eta) := by
  have u0 := ur_pos
  have e0 := eta_pos
  have Ke : 0 ≤ (K + 1) * eta := mul_nonneg (by linarith) e0.le
  have C0 : 0 ≤ C := by rw [hC]; linarith
  have Ku : (K + 1) * (28800 * ur) ≤ 7 / 1000 := by
    have h1 : (K + 1) * (28800 * ur) ≤ 2 ^ 31 * (28800 * ur) := mul_le_mul_of_nonneg_right K1 (by linarith)
    refine h1.trans ?_
    unfold ur
    norm_num
  have KuC : (K + 1) * (28800 * ur) * C ≤ 7 / 1000 * C := mul_le_mul_of_nonneg_right Ku C0
  have eδ : δm = (K + 1) * (28800 * ur) * C + 150 * ((K + 1) * eta) := by rw [hδ]; ring
  refine ⟨C0, ?_, ?_⟩
  · rw [eδ]
    have : Kz + (7 / 1000 * C + 150 * ((K + 1) * eta)) ≤ C := by rw [hC]; linarith
    linarith
  · rw [hδ]
    refine mul_le_mul_of_nonneg_left ?_ (by linarith)
    rw [hC]
    have h1 : (K + 1) * (28800 * ur) * eta ≤ 7 / 1000 * eta := mul_le_mul_of_nonneg_right Ku e0.le
    have h3 : 0 ≤ ur * Kz := mul_nonneg u0.le Kz0
    have e1 : (57600 * (ur * (101 / 100 * Kz + 200 * ((K + 1) * eta))) + 300 * eta) / 2 =
        28800 * (101 / 100) * (ur * Kz) + 200 * ((K + 1) * (28800 * ur) * eta) + 150 * eta := by ring
    have e4 : 29100 * ur * Kz = 29100 * (ur * Kz) := by ring
    rw [e1, e4]
    linarith

section
variable {wantt wantz : Bool} {kacc22 n ktop kbot iloz ihiz nv nh : ℤ} {h z v u wv wh : FA Float} {r c cz ldv cv ru rv rh : Nat}
  {a1 b1 a2 b2 : Float} {sr si : List Float} {A Z0 : ℤ → ℤ → ℝ} {S Kz : ℝ}

theorem dlaqr5_accF (hk : kacc22 = 1 ∨ kacc22 = 2) (hM : IsMatrix h r c) (h1 : 1 ≤ ktop) (h2 : ktop < kbot) (h3 : kbot ≤ n) (h4 : n ≤ r) (h5 : n ≤ c)
    (hA : Qr5InputF h r (if wantt then 1 else ktop) (if wantt then n else kbot) ktop kbot A)
    (f1 : a1.isFinite = true) (f2 : b1.isFinite = true) (f3 : a2.isFinite = true) (f4 : b2.isFinite = true)
    (hS : S = fro (block (if wantt then 1 else ktop) (if wantt then n else kbot) A) + (|toR a1| + |toR b1| + |toR a2| + |toR b2|)) (hS2 : S ≤ 2 ^ 980)
    (hcl : Clear5 ktop kbot A S) (hv : IsMatrix v ldv cv) (hv3 : 3 ≤ ldv) (hcv : 1 ≤ cv) (hW : Qr5Work u wv wh ru rv rh nv nh)
    (hz : wantz = true → IsMatrix z r cz ∧ 1 ≤ iloz ∧ ihiz ≤ r ∧ kbot ≤ cz)
    (hZ : wantz = true → ∀ a b, iloz ≤ a → a ≤ ihiz → ktop ≤ b → b ≤ kbot → EntryF z r a b (Z0 a b)) (hK0 : 0 ≤ Kz) (hK2 : Kz ≤ 2 ^ 980)
    (hZK : wantz = true → ∀ a, iloz ≤ a → a ≤ ihiz → Real.sqrt (∑ b : Blk ktop kbot, Z0 a b ^ 2) ≤ Kz) :
    Tot (dlaqr5 (F := Float) wantt wantz kacc22 n ktop kbot 2 (a1 :: a2 :: sr) (b1 :: b2 :: si) h (r : ℤ) iloz ihiz z (r : ℤ) v (ldv : ℤ) u (ru : ℤ)
      nv wv (rv : ℤ) nh wh (rh : ℤ)) fun ret => IsMatrix ret.h r c ∧ ∃ q T E,
        Qr5DoneF r c (if wantt then 1 else ktop) (if wantt then n else kbot) ktop kbot A (toR a1) (toR b1) (toR a2) (toR b2) S
          (qr5BoundAccF n ktop kbot (fro (block (if wantt then 1 else ktop) (if wantt then n else kbot) A))) q T E h ret.h ∧
        (wantz = true → IsMatrix ret.z r cz ∧ ZDoneF r cz iloz ihiz ktop kbot Z0 (qr5BoundZF ktop kbot Kz) (block ktop kbot q) z ret.z) ∧
        (wantz = false → ret.z = z) := by
  obtain ⟨cu, hcu, hu⟩ := hW.u
  obtain ⟨cwv, hcwv, hwv⟩ := hW.wv
  obtain ⟨cwh, hcwh, hwh⟩ := hW.wh
  have hr31 : r < 2 ^ 31 := (Nat.le_mul_of_pos_right r (by omega)).trans_lt hM.small
  generalize hlo : (if wantt then (1 : ℤ) else ktop) = lo at *
  generalize hhi : (if wantt then (n : ℤ) else kbot) = hi at *
  have l1 : 1 ≤ lo := by rw [← hlo]; split <;> omega
  have l4 : hi ≤ n := by rw [← hhi]; split <;> omega
  have nR : (1 : ℝ) ≤ (n : ℝ) := by exact_mod_cast (by omega : (1 : ℤ) ≤ n)
  have nR2 : (n : ℝ) ≤ 2 ^ 31 := by exact_mod_cast (by omega : n ≤ 2 ^ 31)
  obtain ⟨K, hK⟩ : ∃ K : ℝ, K = ((kbot - ktop : ℤ) : ℝ) := ⟨_, rfl⟩
  have hK' : ((kbot - ktop + 1 : ℤ) : ℝ) = K + 1 := by rw [hK]; push_cast; ring
  have K0 : 0 ≤ K := by rw [hK]; exact_mod_cast (by omega : (0 : ℤ) ≤ kbot - ktop)
  have K1 : K + 1 ≤ 2 ^ 31 := by rw [← hK']; exact_mod_cast (by omega : kbot - ktop + 1 ≤ 2 ^ 31)
  have nhn : (((hi - lo + 1).toNat : ℕ) : ℝ) ≤ (n : ℝ) := by
    have : (((hi - lo + 1).toNat : ℕ) : ℤ) ≤ n := by omega
    exact_mod_cast this
  obtain ⟨N, hN⟩ : ∃ N, N = fro (block lo hi A) := ⟨_, rfl⟩
  have N0 : 0 ≤ N := by rw [hN]; exact fro_nonneg _
  obtain ⟨B, hB⟩ : ∃ B, B = 103 / 100 * N + 4 * ((K + 1) * (n * tiny)) := ⟨_, rfl⟩
  obtain ⟨ε, hε⟩ : ∃ ε, ε = 7136 * (ur * B) + n * tiny := ⟨_, rfl⟩
  obtain ⟨Dm, hDm⟩ : ∃ Dm, Dm = ((kbot - ktop + 1 : ℤ) : ℝ) * (dacc lo hi B / 2) := ⟨_, rfl⟩
  obtain ⟨B0, ε0, D0, c1, c2, c3⟩ := consts5A N0 nR K0 K1 (Nat.cast_nonneg (hi - lo + 1).toNat) nhn hB hε (Dm := Dm) (by rw [hDm, hK']; rfl)
  obtain ⟨C, hC⟩ : ∃ C, C = 101 / 100 * Kz + 200 * ((K + 1) * eta) := ⟨_, rfl⟩
  obtain ⟨δm, hδm⟩ : ∃ δm, δm = ((kbot - ktop + 1 : ℤ) : ℝ) * (dz5 C / 2) := ⟨_, rfl⟩
  obtain ⟨C0, c5, c6⟩ := consts5Z hK0 K0 K1 hC (δm := δm) (by rw [hδm, hK']; rfl)
  have sl := slack5 (by linarith) nR2 (by linarith : 0 ≤ K + 1) K1
  have Cb : 1024 * C ≤ big := by
    have h1 : (K + 1) * eta ≤ 2 ^ 31 * ur := mul_le_mul K1 eta_le_ur eta_pos.le (by norm_num)
    have h2 : 2 ^ 31 * ur ≤ 1 := by unfold ur; norm_num
    have hbig : 1024 * (2 * 2 ^ 980 + 200) ≤ big := by
      unfold big
      rw [show (1000 : ℕ) = 980 + 20 from rfl, pow_add]
      have : (200 : ℝ) ≤ 2 ^ 980 := by
        calc (200 : ℝ) ≤ 2 ^ 8 := by norm_num
          _ ≤ 2 ^ 980 := pow_le_pow_right₀ (by norm_num) (by norm_num)
      generalize (2 : ℝ) ^ 980 = w at *
      norm_num
      linarith
    rw [hC]
    generalize (2 : ℝ) ^ 980 = w at *
    linarith
  rw [← hN] at hS ⊢
  refine (dlaqr5_coreF (W := fun q s => (wantz = true → IsMatrix s.z r cz ∧ ZDoneF r cz iloz ihiz ktop kbot Z0 (qr5BoundZF ktop kbot Kz) (block ktop kbot q) z s.z) ∧
      (wantz = false → s.z = z)) (Dm := Dm) hlo hhi hM h1 h2 h3 h4 h5 hA f1 f2 f3 f4 hN hS hS2 hcl hv hv3 hcv B0 D0
    ε0 c1 (by rw [← hK]; exact c2) (β := qr5BoundAccF n ktop kbot N) ?_ (by rw [hB]; linarith) ?_).mono ?_
  · rw [← hK]
    refine c3.trans (le_of_eq ?_)
    unfold qr5BoundAccF
    rw [hK']
    unfold ur tiny
    generalize (2 : ℝ) ^ 969 = w
    ring
  · intro p hp hd M m ρ X s0 hX hgo z0 u0 wv0 wh0 rest g g0 x y w hA0 hR0
    have ha : Acc5 p r cz ru cu rv cwv rh cwh lo hi := by
      subst hp
      refine ⟨?_, hlo, hhi, rfl, rfl, hW.u4, hcu, rfl, hW.rh4, hW.nh1, hcwh, rfl, hcwv, hW.nv1, hW.nvr, fun hwz => ?_⟩
      · show (decide (kacc22 = 1) || decide (kacc22 = 2)) = true
        rcases hk with hk | hk <;> simp [hk]
      · obtain ⟨q1, q2, q3, q4⟩ := hz hwz
        exact ⟨q2, q3, q4, q1.small⟩
    have hpz : p.wantz = wantz := by rw [hp]; rfl
    have hpi : p.iloz = iloz := by rw [hp]; rfl
    have hpj : p.ihiz = ihiz := by rw [hp]; rfl
    have hpk : p.ktop = ktop := by rw [hp]; rfl
    have hpl : p.kbot = kbot := by rw [hp]; rfl
    have e1 : block p.ktop p.kbot idT = 1 := by
      ext a b
      rw [Matrix.one_apply]
      simp only [block, idT, Subtype.ext_iff]
    have hZ0 : ZInvF p r cz Z0 s0.z 0 idT s0.z := by
      unfold ZInvF
      by_cases hwz : wantz = true
      · rw [if_pos (by rw [hpz]; exact hwz), e1, hpi, hpj, hpk, hpl, z0]
        obtain ⟨q1, q2, q3, q4⟩ := hz hwz
        have iz := is2_of_matrix q1 (by omega)
        have en : ∀ a b, iloz ≤ a → a ≤ ihiz → ktop ≤ b → b ≤ kbot → (ofList2 r z.data a b).isFinite = true ∧ toR (ofList2 r z.data a b) = Z0 a b := by
          intro a b x1 x2 y1 y2
          obtain ⟨f, k1, k2, k3⟩ := hZ hwz a b x1 x2 y1 y2
          rw [(entry_is2 iz (by omega) (by omega) (by omega) (by omega) _).1 k1]
          exact ⟨k2, k3⟩
        refine ⟨_, iz, fun a x1 x2 => ⟨fun b y1 y2 => (en a b x1 x2 y1 y2).1, ?_⟩, fun _ _ _ => rfl⟩
        rw [Matrix.mul_one]
        have e2 : colsM ktop kbot (fun (_ : Unit) b => toR (ofList2 r z.data a b)) - colsM ktop kbot (fun _ => Z0 a) = 0 := by
          ext i b
          obtain ⟨y1, y2⟩ := Finset.mem_Icc.1 b.2
          simp only [Matrix.sub_apply, colsM, Matrix.zero_apply]
          rw [(en a b x1 x2 y1 y2).2, sub_self]
        rw [e2, fro_zero]
      · rw [if_neg (by rw [hpz]; exact hwz)]
    refine (sweeps_S hX hd ha hgo (C := C) (δm := δm) (Z0 := Z0) (g0 := g0) (by rw [hpk, hpl]; exact hDm) C0 (by rw [hpk, hpl]; exact hδm) (fun hwz => ⟨Cb, fun a x1 x2 => ?_⟩)
      ⟨A, idT, g, x, y, w, hA0, hR0, by rw [e1]; simp, hZ0, ⟨by rw [u0]; exact hu, by rw [wv0]; exact hwv, by rw [wh0]; exact hwh⟩, rfl, rfl⟩).mono ?_
    · rw [hpz] at hwz
      rw [hpi] at x1
      rw [hpj] at x2
      rw [hpk, hpl]
      have := le_of_eq_of_le (fro_row fun b => Z0 a b) (hZK hwz a x1 x2)
      exact (add_le_add_left this δm).trans c5
    rintro s1 ⟨T, Zq, g1, t, v2, v3, hB'⟩
    refine ⟨T, Zq, g1, t, v2, v3, hB'.arr, hB'.real, fun hwz => ?_, fun hwz => ?_⟩
    · have hzi := hB'.z
      unfold ZInvF at hzi
      rw [if_pos (by rw [hpz]; exact hwz), hpi, hpj, hpk, hpl, z0] at hzi
      obtain ⟨zg, iz, zon, zout⟩ := hzi
      obtain ⟨q1, q2, q3, q4⟩ := hz hwz
      refine ⟨⟨iz.rows, iz.cols, by rw [iz.data, length_tab2], q1.small⟩, fun a x1 x2 => ?_, fun a b x1 x2 y1 y2 hn w => ?_⟩
      · obtain ⟨k1, k2⟩ := zon a x1 x2
        refine ⟨fun b => toR (zg a b), fun b => ?_, ?_⟩
        · obtain ⟨b1, b2⟩ := Finset.mem_Icc.1 b.2
          exact ⟨zg a b, (entry_is2 iz (by omega) (by omega) (by omega) (by omega) _).2 rfl, k1 b b1 b2, rfl⟩
        · have k3 := fro_row (ilo := ktop) (ihi := kbot) fun b => toR (zg a b) - ∑ d : Blk ktop kbot, Z0 a d * block ktop kbot Zq d b
          rw [← k3]
          refine le_trans (le_of_eq_of_le ?_ k2) (c6.trans (le_of_eq ?_))
          · rfl
          · unfold qr5BoundZF
            rw [hK']
            unfold ur eta
            rw [show (1075 : ℕ) = 8 + 1067 from rfl, pow_add]
            generalize (2 : ℝ) ^ 1067 = w
            ring
      · rw [entry_is2 iz x1 x2 y1 y2, entry_is2 (is2_of_matrix q1 (by omega)) x1 x2 y1 y2, zout a b (by tauto)]
    · have hzi := hB'.z
      unfold ZInvF at hzi
      rw [if_neg (by rw [hpz, hwz]; simp)] at hzi
      rw [hzi, z0]
  · rintro ret ⟨q1, q, T, E, q2, s1, ⟨w1, w2⟩, e1, -⟩
    exact ⟨q1, q, T, E, q2, by rw [e1]; exact w1, by rw [e1]; exact w2⟩

end

/-- **C80** (`dlaqr5` with accumulation is backward stable on `f64`).  The setting is that of C78, but the reflectors are accumulated (`kacc22` is
1 or 2), `ldz` equals `ldh`, and `z` may be transformed.  The sweep returns; the new `h` is exactly orthogonally similar to a matrix within
`qr5BoundAccF` of `A`; if `wantz`, every row `iloz..ihiz` of `z`, of norm at most `Kz`, was multiplied by the same orthogonal matrix with an error
of at most `qr5BoundZF`, and the rest of `z` is unchanged; if not, `z` is returned as it is. -/
theorem C80_dlaqr5_accumulated_f64 (wantt wantz : Bool) (kacc22 n ktop kbot iloz ihiz nv nh : ℤ) (h z v u wv wh : FA Float) (r c cz ldv cv ru rv rh : Nat)
    (a1 b1 a2 b2 : Float) (sr si : List Float) (A Z0 : ℤ → ℤ → ℝ) (S Kz : ℝ) (hk : kacc22 = 1 ∨ kacc22 = 2) (hM : IsMatrix h r c) (h1 : 1 ≤ ktop)
    (h2 : ktop < kbot) (h3 : kbot ≤ n) (h4 : n ≤ r) (h5 : n ≤ c)
    (hA : Qr5InputF h r (if wantt then 1 else ktop) (if wantt then n else kbot) ktop kbot A)
    (f1 : a1.isFinite = true) (f2 : b1.isFinite = true) (f3 : a2.isFinite = true) (f4 : b2.isFinite = true)
    (hS : S = fro (block (if wantt then 1 else ktop) (if wantt then n else kbot) A) + (|toR a1| + |toR b1| + |toR a2| + |toR b2|)) (hS2 : S ≤ 2 ^ 980)
    (hcl : Clear5 ktop kbot A S) (hv : IsMatrix v ldv cv) (hv3 : 3 ≤ ldv) (hcv : 1 ≤ cv) (hW : Qr5Work u wv wh ru rv rh nv nh)
    (hz : wantz = true → IsMatrix z r cz ∧ 1 ≤ iloz ∧ ihiz ≤ r ∧ kbot ≤ cz)
    (hZ : wantz = true → ∀ a b, iloz ≤ a → a ≤ ihiz → ktop ≤ b → b ≤ kbot → EntryF z r a b (Z0 a b)) (hK0 : 0 ≤ Kz) (hK2 : Kz ≤ 2 ^ 980)
    (hZK : wantz = true → ∀ a, iloz ≤ a → a ≤ ihiz → Real.sqrt (∑ b : Blk ktop kbot, Z0 a b ^ 2) ≤ Kz) (pr : Profile) :
    ∃ ret : Qr5Ret (FA Float) (FA Float) (FA Float) (FA Float) (FA Float) (FA Float),
      dlaqr5 (F := Float) wantt wantz kacc22 n ktop kbot 2 (a1 :: a2 :: sr) (b1 :: b2 :: si) h (r : ℤ) iloz ihiz z (r : ℤ) v (ldv : ℤ) u (ru : ℤ)
        nv wv (rv : ℤ) nh wh (rh : ℤ) pr = .ok ret ∧
      IsMatrix ret.h r c ∧ ∃ q T E,
        Qr5DoneF r c (if wantt then 1 else ktop) (if wantt then n else kbot) ktop kbot A (toR a1) (toR b1) (toR a2) (toR b2) S
          (qr5BoundAccF n ktop kbot (fro (block (if wantt then 1 else ktop) (if wantt then n else kbot) A))) q T E h ret.h ∧
        (wantz = true → IsMatrix ret.z r cz ∧ ZDoneF r cz iloz ihiz ktop kbot Z0 (qr5BoundZF ktop kbot Kz) (block ktop kbot q) z ret.z) ∧
        (wantz = false → ret.z = z) :=
  dlaqr5_accF hk hM h1 h2 h3 h4 h5 hA f1 f2 f3 f4 hS hS2 hcl hv hv3 hcv hW hz hZ hK0 hK2 hZK pr

/-! ### An example -/

/-- Four by four zeros. -/
def zer44F : FA Float := { data := List.replicate 16 0, rows := 4, cols := 4, defaultValue := 0 }

/-- The cyclic permutation again, without the NaN. -/
def cyc4Z : FA Float := { data := [0, 1, 0, 0, 0, 0, 1, 0, 0, 0, 0, 1, 1, 0, 0, 0], rows := 4, cols := 4, defaultValue := 0 }

theorem cyc4Z_entry (a b : ℤ) (x1 : 1 ≤ a) (x2 : a ≤ 4) (y1 : 1 ≤ b) (y2 : b ≤ 4) : EntryF cyc4Z 4 a b (cyc4A a b) := by
  rcases (by omega : a = 1 ∨ a = 2 ∨ a = 3 ∨ a = 4) with rfl | rfl | rfl | rfl <;>
    rcases (by omega : b = 1 ∨ b = 2 ∨ b = 3 ∨ b = 4) with rfl | rfl | rfl | rfl <;>
    first
    | (refine ⟨0, by rfl, lit0.1, ?_⟩; rw [lit0.2]; norm_num [cyc4A])
    | (refine ⟨1, by rfl, lit1.1, ?_⟩; rw [lit1.2]; norm_num [cyc4A])

/-- The hypotheses of C80 are met by the cyclic permutation of four coordinates with the shifts `1 ± i`, `z` being that permutation too. -/
theorem C80_example (pr : Profile) : ∃ ret : Qr5Ret (FA Float) (FA Float) (FA Float) (FA Float) (FA Float) (FA Float),
    dlaqr5 (F := Float) true true 1 4 1 4 2 ([1, 1] : List Float) ([1, -1] : List Float) cyc4 4 1 3 cyc4Z 4 (⟨[0, 0, 0], 3, 1, 0⟩ : FA Float) 3
      zer44F 4 2 zer44F 4 1 zer44F 4 pr = .ok ret ∧
    ∃ q T E, Qr5DoneF 4 4 1 4 1 4 cyc4A 1 1 1 (-1) 6 (qr5BoundAccF 4 1 4 2) q T E cyc4 ret.h ∧
      ZDoneF 4 4 1 3 1 4 cyc4A (qr5BoundZF 1 4 2) (block 1 4 q) cyc4Z ret.z := by
  obtain ⟨n1, n2⟩ : (-1 : Float).isFinite = true ∧ toR (-1 : Float) = -1 := by
    exact ⟨by rw [neg_finite]; exact lit1.1, by rw [neg_toR, lit1.2]⟩
  have hS : (6 : ℝ) = fro (block 1 4 cyc4A) + (|toR (1 : Float)| + |toR (1 : Float)| + |toR (1 : Float)| + |toR (-1 : Float)|) := by
    rw [cyc4_fro, lit1.2, n2]; norm_num
  have h980 : (6 : ℝ) ≤ 2 ^ 980 := by
    calc (6 : ℝ) ≤ 2 ^ 3 := by norm_num
      _ ≤ 2 ^ 980 := pow_le_pow_right₀ (by norm_num) (by norm_num)
  have hm : IsMatrix zer44F 4 4 := ⟨rfl, rfl, rfl, by decide⟩
  obtain ⟨ret, e, -, q, T, E, hD, hZ, -⟩ := C80_dlaqr5_accumulated_f64 true true 1 4 1 4 1 3 2 1 cyc4 cyc4Z (⟨[0, 0, 0], 3, 1, 0⟩ : FA Float) zer44F zer44F zer44F
    4 4 4 3 1 4 4 4 1 1 1 (-1) [] [] cyc4A cyc4A 6 2 (Or.inl rfl) ⟨rfl, rfl, rfl, by decide⟩ (by norm_num) (by norm_num) (by norm_num) (by norm_num) (by norm_num)
    cyc4_input lit1.1 lit1.1 lit1.1 n1 hS h980 cyc4_clear ⟨rfl, rfl, rfl, by decide⟩ (le_refl _) (le_refl _)
    ⟨le_refl _, ⟨4, le_refl _, hm⟩, by norm_num, by norm_num, ⟨4, le_refl _, hm⟩, le_refl _, by norm_num, ⟨4, by norm_num, hm⟩⟩
    (fun _ => ⟨⟨rfl, rfl, rfl, by decide⟩, le_refl _, by norm_num, by norm_num⟩) (fun _ a b x1 x2 y1 y2 => cyc4Z_entry a b x1 (by omega) y1 y2) (by norm_num) (le_trans (by norm_num) h980)
    (fun _ a x1 x2 => by
      have h1 := cnorm_le (block 1 4 cyc4A).transpose ⟨a, Finset.mem_Icc.2 ⟨x1, by omega⟩⟩
      rw [fro_transpose, cyc4_fro] at h1
      exact h1) pr
  rw [lit1.2, n2] at hD
  rw [show (2 : ℝ) = fro (block 1 4 cyc4A) from cyc4_fro.symm] at *
  exact ⟨ret, e, q, T, E, hD, (hZ rfl).2⟩

end Verif

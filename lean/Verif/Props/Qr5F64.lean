import Verif.Lib.Qr5F64i
import Verif.Props.Qr5Exact
import Verif.Props.HqrF64

/-!
# `dlaqr5` with two shifts on binary64: backward stability (C78)
-/

namespace Verif
open F64 Scalar

namespace Spec

/-- `A` is the upper Hessenberg matrix in rows and columns `lo..hi` of the array, with finite elements, in which rows and columns `kt..kb`
form a block that is not coupled to the columns before and the rows after it.  The element `(kt + 2, kt)`, which `dlaqr5` clears before it
starts, may hold anything. -/
structure Qr5InputF (h : FA Float) (r : Nat) (lo hi kt kb : ℤ) (A : ℤ → ℤ → ℝ) : Prop where
  entry : ∀ a b, lo ≤ a → a ≤ hi → lo ≤ b → b ≤ hi → ¬ (kt + 2 ≤ kb ∧ a = kt + 2 ∧ b = kt) → EntryF h r a b (A a b)
  hess : ∀ a b, b + 1 < a → A a b = 0
  top : lo < kt → A kt (kt - 1) = 0
  bot : kb < hi → A (kb + 1) kb = 0
  first : A (kt + 1) kt ≠ 0

/-- The subdiagonal elements of a block of order four or more are so large that their products, scaled by `S`, do not underflow. -/
def Clear5 (kt kb : ℤ) (A : ℤ → ℤ → ℝ) (S : ℝ) : Prop :=
  kt + 3 ≤ kb → 1 ≤ S ∧ ∃ m : ℝ, 0 < m ∧ (∀ j, kt ≤ j → j < kb → m ≤ |A (j + 1) j|) ∧ 1 / 2 ^ 1000 ≤ (m / (17 * S)) ^ (kb - kt).toNat

/-- The bound on the backward error for a block `kt..kb` of a matrix of order `n` and Frobenius norm `N`. -/
noncomputable def qr5BoundF (n kt kb : ℤ) (N : ℝ) : ℝ := (kb - kt : ℤ) * (7210 / 2 ^ 53 * N + 2 * n / 2 ^ 969)

/-- The bound on the error of the first column. -/
noncomputable def qr5FirstF (S : ℝ) : ℝ := 32 / 2 ^ 53 * (S + 1 / 2 ^ 900) ^ 2

/-- What `dlaqr5` delivers with the shifts `a1 + b1 i` and `a2 + b2 i` on `f64`.  The returned `h'` holds, in rows and columns `lo..hi`,
exactly a Hessenberg matrix `T` orthogonally similar to `A + E` by the matrix with entries `q`, and is the same as `h` elsewhere; `q` is the
identity outside rows and columns `kt..kb`, and its column `kt` is, up to rounding, a multiple of the first column of the shift polynomial
of the active block. -/
structure Qr5DoneF (r c : Nat) (lo hi kt kb : ℤ) (A : ℤ → ℤ → ℝ) (a1 b1 a2 b2 S bound : ℝ) (q T : ℤ → ℤ → ℝ) (E : Matrix (Blk lo hi) (Blk lo hi) ℝ)
    (h h' : FA Float) : Prop where
  backward : BackwardF (block lo hi A) (block lo hi q) E (block lo hi T) bound
  hess : ∀ a b, lo ≤ b → b + 1 < a → a ≤ hi → T a b = 0
  top : lo < kt → T kt (kt - 1) = 0
  bot : kb < hi → T (kb + 1) kb = 0
  entry : ∀ a b, lo ≤ a → a ≤ hi → lo ≤ b → b ≤ hi → EntryF h' r a b (T a b)
  rest : ∀ a b : ℤ, 1 ≤ a → a ≤ r → 1 ≤ b → b ≤ c → ¬ (lo ≤ a ∧ a ≤ hi ∧ lo ≤ b ∧ b ≤ hi) → ∀ x, Entry h' r a b x ↔ Entry h r a b x
  outside : ∀ a b : ℤ, (a < kt ∨ kb < a) ∨ (b < kt ∨ kb < b) → q a b = if a = b then 1 else 0
  first : ∀ e : Blk kt kb, (e : ℤ) = kt → ∃ γ : ℝ, ∀ a : Blk kt kb,
    |γ * q a e - shiftPoly a1 b1 a2 b2 (block kt kb A) a e| ≤ qr5FirstF S

end Spec
open Spec

/-! ### The constants -/

theorem consts5 {N n K nh : ℝ} (N0 : 0 ≤ N) (n1 : 1 ≤ n) (K0 : 0 ≤ K) (K1 : K ≤ 2 ^ 31) (hnh : nh ≤ n) {B ε : ℝ}
    (hB : B = 101 / 100 * N + 2 * (K * (n * tiny))) (hε : ε = 7136 * (ur * B) + n * tiny) :
    0 ≤ B ∧ 7136 * (ur * B) + (60 * nh + 25) * eta + 4 * mu + n * (tiny / 2) ≤ ε ∧ N + K * ε ≤ B ∧ K * ε ≤ K * (7210 * ur * N + 2 * (n * tiny)) := by
  have u0 := ur_pos
  have t0 := tiny_pos'
  have e0 := eta_pos
  have nt : 0 ≤ n * tiny := mul_nonneg (by linarith) t0.le
  have Knt : 0 ≤ K * (n * tiny) := mul_nonneg K0 nt
  have B0 : 0 ≤ B := by rw [hB]; linarith
  have uB : 0 ≤ ur * B := mul_nonneg u0.le B0
  have Ku : K * (7136 * ur) ≤ 1 / 500 := by
    have h1 : K * (7136 * ur) ≤ 2 ^ 31 * (7136 * ur) := mul_le_mul_of_nonneg_right K1 (by linarith)
    refine h1.trans ?_
    unfold ur
    norm_num
  have KuB : K * (7136 * ur) * B ≤ 1 / 500 * B := mul_le_mul_of_nonneg_right Ku B0
  have eK : K * ε = K * (7136 * ur) * B + K * (n * tiny) := by rw [hε]; ring
  have te : 2 ^ 100 * eta ≤ tiny ∧ 2 ^ 80 * mu ≤ tiny := by
    unfold eta mu tiny
    have h : (0 : ℝ) < 1 / 2 ^ 969 := one_div_pos.2 (pow_pos (by norm_num) _)
    rw [show (1075 : ℕ) = 106 + 969 by norm_num, show (1051 : ℕ) = 82 + 969 by norm_num, pow_add, pow_add,
      show (2 : ℝ) ^ 100 * (1 / (2 ^ 106 * 2 ^ 969)) = 2 ^ 100 / 2 ^ 106 * (1 / 2 ^ 969) by ring,
      show (2 : ℝ) ^ 80 * (1 / (2 ^ 82 * 2 ^ 969)) = 2 ^ 80 / 2 ^ 82 * (1 / 2 ^ 969) by ring]
    generalize (1 : ℝ) / 2 ^ 969 = q at *
    constructor <;> norm_num <;> linarith
  refine ⟨B0, ?_, ?_, ?_⟩
  · rw [hε]
    have h1 : (60 * nh + 25) * eta ≤ 85 * n * eta := mul_le_mul_of_nonneg_right (by linarith) e0.le
    have h2 : n * (2 ^ 100 * eta) ≤ n * tiny := mul_le_mul_of_nonneg_left te.1 (by linarith)
    have h3 : 1 * tiny ≤ n * tiny := mul_le_mul_of_nonneg_right n1 t0.le
    have h4 : 0 ≤ n * eta := mul_nonneg (by linarith) e0.le
    have e1 : 85 * n * eta = 85 * (n * eta) := by ring
    have e2 : n * (2 ^ 100 * eta) = 2 ^ 100 * (n * eta) := by ring
    have e3 : n * (tiny / 2) = n * tiny / 2 := by ring
    rw [e1] at h1
    rw [e2] at h2
    rw [e3]
    have := te.2
    have := mu_pos
    linarith
  · rw [eK]
    rw [hB] at KuB ⊢
    linarith
  · refine mul_le_mul_of_nonneg_left ?_ K0
    rw [hε, hB]
    have h1 : K * (7136 * ur) * (n * tiny) ≤ 1 / 500 * (n * tiny) := mul_le_mul_of_nonneg_right Ku nt
    have h2 : 0 ≤ ur * N := mul_nonneg u0.le N0
    have e1 : 7136 * (ur * (101 / 100 * N + 2 * (K * (n * tiny)))) + n * tiny = 7136 * (101 / 100) * (ur * N) + 2 * (K * (7136 * ur) * (n * tiny)) + n * tiny := by
      ring
    have e2 : 7210 * ur * N = 7210 * (ur * N) := by ring
    rw [e1, e2]
    linarith

theorem slack5 {n K : ℝ} (n0 : 0 ≤ n) (n1 : n ≤ 2 ^ 31) (K0 : 0 ≤ K) (K1 : K ≤ 2 ^ 31) : 4 * (K * (n * tiny)) ≤ 1 / 2 ^ 900 := by
  have t0 := tiny_pos'
  have h1 : n * tiny ≤ 2 ^ 31 * tiny := mul_le_mul_of_nonneg_right n1 t0.le
  have h2 : K * (n * tiny) ≤ 2 ^ 31 * (2 ^ 31 * tiny) := mul_le_mul K1 h1 (mul_nonneg n0 t0.le) (by norm_num)
  refine (mul_le_mul_of_nonneg_left h2 (by norm_num)).trans ?_
  unfold tiny
  rw [show (969 : ℕ) = 69 + 900 by norm_num, pow_add, show (4 : ℝ) * (2 ^ 31 * (2 ^ 31 * (1 / (2 ^ 69 * 2 ^ 900)))) = 2 ^ 64 / 2 ^ 69 * (1 / 2 ^ 900) by ring]
  have : (0 : ℝ) < 1 / 2 ^ 900 := one_div_pos.2 (pow_pos (by norm_num) _)
  generalize (1 : ℝ) / 2 ^ 900 = q at *
  norm_num
  linarith

theorem err5_le {P S : ℝ} (P0 : 0 ≤ P) (S0 : 0 ≤ S) (h : P ≤ 103 / 100 * (S + 1 / 2 ^ 900)) : err5 P ≤ qr5FirstF S := by
  have u0 := ur_pos
  have q0 : (0 : ℝ) < 1 / 2 ^ 900 := one_div_pos.2 (pow_pos (by norm_num) _)
  have hm : mu ≤ 1 / 100 * (ur * (1 / 2 ^ 900)) := by
    unfold mu ur
    rw [show (1051 : ℕ) = 98 + (53 + 900) by norm_num, pow_add, pow_add (2 : ℝ) 53 900,
      show (1 : ℝ) / (2 ^ 98 * (2 ^ 53 * 2 ^ 900)) = 1 / 2 ^ 98 * (1 / 2 ^ 53 * (1 / 2 ^ 900)) by ring]
    exact mul_le_mul_of_nonneg_right (by norm_num) (by positivity)
  unfold err5 qr5FirstF
  have e : (32 : ℝ) / 2 ^ 53 = 32 * ur := by unfold ur; ring
  rw [e]
  generalize (1 : ℝ) / 2 ^ 900 = q at *
  have W0 : 0 ≤ S + q := by linarith
  have h1 : P ^ 2 ≤ (103 / 100 * (S + q)) ^ 2 := pow_le_pow_left₀ P0 h 2
  have h2 : ur * P ^ 2 ≤ ur * (103 / 100 * (S + q)) ^ 2 := mul_le_mul_of_nonneg_left h1 u0.le
  have h3 : mu * P ≤ 1 / 100 * (ur * (S + q)) * (103 / 100 * (S + q)) := by
    refine mul_le_mul (hm.trans ?_) h P0 ?_
    · have := mul_le_mul_of_nonneg_left (show q ≤ S + q by linarith) u0.le
      linarith
    · have := mul_nonneg u0.le W0
      linarith
  have h4 : 0 ≤ ur * (S + q) ^ 2 := mul_nonneg u0.le (sq_nonneg _)
  have e1 : ur * (103 / 100 * (S + q)) ^ 2 = 10609 / 10000 * (ur * (S + q) ^ 2) := by ring
  have e2 : 1 / 100 * (ur * (S + q)) * (103 / 100 * (S + q)) = 103 / 10000 * (ur * (S + q) ^ 2) := by ring
  have e3 : 32 * ur * (S + q) ^ 2 = 32 * (ur * (S + q) ^ 2) := by ring
  rw [e1] at h2
  rw [e2] at h3
  rw [e3]
  linarith

theorem params5_pf (wantt wantz : Bool) (kacc22 n ktop kbot nshfts ldh iloz ihiz ldz ldv ldu nv ldwv nh ldwh : ℤ) (h1 : 1 ≤ n) (h2 : n < 2 ^ 31) :
    PF5 (qr5Params (F := Float) wantt wantz kacc22 n ktop kbot nshfts ldh iloz ihiz ldz ldv ldu nv ldwv nh ldwh) (n * (tiny / 2)) := by
  obtain ⟨u1, u2⟩ := dlamch_val 'P'
  obtain ⟨s1, s2⟩ := hqrSmall_val 1 n h1 (by omega)
  have t0 := tiny_pos'
  have ht : (2 : ℝ) ^ (-970 : ℤ) = tiny / 2 := by
    unfold tiny
    rw [zpow_neg, show (970 : ℤ) = ((970 : ℕ) : ℤ) from rfl, zpow_natCast, show (970 : ℕ) = 969 + 1 from rfl, pow_succ]
    generalize (2 : ℝ) ^ 969 = w
    rw [mul_inv, one_div, div_eq_mul_inv]
  have hn : (1 : ℝ) ≤ (n : ℝ) := by exact_mod_cast h1
  have e : (qr5Params (F := Float) wantt wantz kacc22 n ktop kbot nshfts ldh iloz ihiz ldz ldv ldu nv ldwv nh ldwh).smlnum = Spec.hqrSmall 1 n := by
    unfold Spec.hqrSmall
    rw [show n - 1 + 1 = n by ring]
    rfl
  refine ⟨u1, ?_, ?_, ?_, mul_nonneg (by linarith) (by linarith)⟩
  · show toR (dlamch 'P' : Float) = _
    rw [u2, machine_P]; unfold ur; norm_num
  · rw [e]; exact s1
  · rw [e, s2, ht, show n - 1 + 1 = n by ring]

section
variable {wantt : Bool} {kacc22 n ktop kbot iloz ihiz ldz ldu nv ldwv nh ldwh : ℤ} {h z v u wv wh : FA Float} {r c ldv cv : Nat}
  {a1 b1 a2 b2 : Float} {sr si : List Float} {A : ℤ → ℤ → ℝ} {S : ℝ}

/-- `dlaqr5` with two shifts, when the sweeps keep the invariant. -/
theorem dlaqr5_coreF {wantz : Bool} {W : (ℤ → ℤ → ℝ) → Qr5S Float → Prop} {lo hi : ℤ} {N B ε Dm β : ℝ} (hlo : (if wantt then (1 : ℤ) else ktop) = lo)
    (hhi : (if wantt then (n : ℤ) else kbot) = hi) (hM : IsMatrix h r c) (h1 : 1 ≤ ktop) (h2 : ktop < kbot) (h3 : kbot ≤ n) (h4 : n ≤ r) (h5 : n ≤ c)
    (hA : Qr5InputF h r lo hi ktop kbot A)
    (f1 : a1.isFinite = true) (f2 : b1.isFinite = true) (f3 : a2.isFinite = true) (f4 : b2.isFinite = true) (hN : N = fro (block lo hi A))
    (hS : S = N + (|toR a1| + |toR b1| + |toR a2| + |toR b2|)) (hS2 : S ≤ 2 ^ 980)
    (hcl : Clear5 ktop kbot A S) (hv : IsMatrix v ldv cv) (hv3 : 3 ≤ ldv) (hcv : 1 ≤ cv) (B0 : 0 ≤ B) (D0 : 0 ≤ Dm) (ε0 : 0 ≤ ε)
    (c1 : 7136 * (ur * B) + (60 * ((hi - lo + 1).toNat : ℝ) + 25) * eta + 4 * mu + n * (tiny / 2) ≤ ε)
    (c2 : N + ((kbot - ktop : ℤ) * ε + Dm) ≤ B) (c3 : (kbot - ktop : ℤ) * ε + Dm ≤ β) (c4 : B ≤ 103 / 100 * N + 1 / 2 ^ 900)
    (hW : ∀ p : Qr5P Float, p = qr5Params wantt wantz kacc22 n ktop kbot 2 (r : ℤ) iloz ihiz ldz (ldv : ℤ) ldu nv ldwv nh ldwh → Dim5F p r c ldv lo hi (n * (tiny / 2)) →
      ∀ (M m ρ : ℝ) (X : ℤ → ℝ) (s0 : Qr5S Float), X = startX p.ktop p.kbot A (toR a1) (toR b1) (toR a2) (toR b2) →
      Go5 lo hi p.ktop p.kbot A s0 a1 b1 a2 b2 (n * (tiny / 2)) ε Dm B M m ρ → s0.z = z → s0.u = u → s0.wv = wv → s0.wh = wh →
      ∀ (rest : List Float) (g g0 : ℤ → ℤ → Float) (x y w : Float), ArrF r c ldv cv rest lo hi p.ktop p.kbot (p.ktop - 1) A ρ g0 s0.h s0.v A g x y w →
      RealF lo hi p.ktop p.kbot A ε 0 X (err5 (B + M)) (p.ktop - 1) A idT →
      Tot (forStep (p.ktop - 2 * p.nbmps + 1) (p.kbot - 2) (2 * asUsize p.nbmps) s0 (qr5Incol p)) fun s1 => ∃ T Zq g1 t v2 v3,
        ArrF r c ldv cv rest lo hi p.ktop p.kbot (p.kbot - 1) A ρ g0 s1.h s1.v T g1 t v2 v3 ∧
        RealF lo hi p.ktop p.kbot A ε Dm X (err5 (B + M)) (p.kbot - 1) T Zq ∧ W Zq s1) :
    Tot (dlaqr5 (F := Float) wantt wantz kacc22 n ktop kbot 2 (a1 :: a2 :: sr) (b1 :: b2 :: si) h (r : ℤ) iloz ihiz z ldz v (ldv : ℤ) u ldu
      nv wv ldwv nh wh ldwh) fun ret => IsMatrix ret.h r c ∧ ∃ q T E,
        Qr5DoneF r c lo hi ktop kbot A (toR a1) (toR b1) (toR a2) (toR b2) S β q T E h ret.h ∧
        ∃ s1, W q s1 ∧ ret.z = s1.z ∧ ret.u = s1.u ∧ ret.wv = s1.wv ∧ ret.wh = s1.wh := by
  unfold dlaqr5
  simp only [show ∀ (a : FA Float) ld, ToFA.toFa2d (F := Float) a ld = pure a from fun _ _ => rfl, pure_bind]
  rw [if_neg (by omega), if_neg (by omega)]
  have l1 : 1 ≤ lo := by rw [← hlo]; split <;> omega
  have l2 : lo ≤ ktop := by rw [← hlo]; split <;> omega
  have l3 : kbot ≤ hi := by rw [← hhi]; split <;> omega
  have l4 : hi ≤ n := by rw [← hhi]; split <;> omega
  have hr31 : r < 2 ^ 31 := (Nat.le_mul_of_pos_right r (by omega)).trans_lt hM.small
  have n31 : n < 2 ^ 31 := by omega
  set p : Qr5P Float := qr5Params wantt wantz kacc22 n ktop kbot 2 (r : ℤ) iloz ihiz ldz (ldv : ℤ) ldu nv ldwv nh ldwh with hp
  have hd : Dim5F p r c ldv lo hi (n * (tiny / 2)) := by
    refine ⟨⟨hM.small, l1, by omega, by omega, le_refl _, le_refl _⟩, ?_, l2, l3, h2, rfl, rfl, params5_pf _ _ _ n _ _ _ _ _ _ _ _ _ _ _ _ _ (by omega) n31⟩
    show (2 - (2 : ℤ).tmod 2).tdiv 2 = 1
    decide
  -- the constants
  have N0 : 0 ≤ N := by rw [hN]; exact fro_nonneg _
  obtain ⟨M, hMd⟩ : ∃ M, M = |toR a1| + |toR b1| + |toR a2| + |toR b2| := ⟨_, rfl⟩
  have M0 : 0 ≤ M := by rw [hMd]; positivity
  rw [← hMd] at hS
  have S0 : 0 ≤ S := by rw [hS]; linarith
  have NB : N ≤ B := by
    have : 0 ≤ ((kbot - ktop : ℤ) : ℝ) * ε := mul_nonneg (by exact_mod_cast (by omega : (0 : ℤ) ≤ kbot - ktop)) ε0
    linarith
  have q900 : (1 : ℝ) / 2 ^ 900 ≤ 1 / 1000 := one_div_le_one_div_of_le (by norm_num) (by
    calc (1000 : ℝ) ≤ 2 ^ 10 := by norm_num
      _ ≤ 2 ^ 900 := pow_le_pow_right₀ (by norm_num) (by norm_num))
  have q900' : (0 : ℝ) < 1 / 2 ^ 900 := one_div_pos.2 (pow_pos (by norm_num) _)
  have hPS : B + M ≤ 103 / 100 * (S + 1 / 2 ^ 900) := by rw [hS]; linarith
  have hbig : 1024 * (2 * 2 ^ 980 + 2) ≤ big := by
    unfold big
    rw [show (1000 : ℕ) = 980 + 20 from rfl, pow_add]
    have : (1 : ℝ) ≤ 2 ^ 980 := one_le_pow₀ (by norm_num)
    generalize (2 : ℝ) ^ 980 = w at *
    norm_num
    linarith
  have hP2 : 1024 * (B + M) ≤ big := by
    generalize (2 : ℝ) ^ 980 = w at *
    linarith
  set m : ℝ := if hc : ktop + 3 ≤ kbot then Classical.choose (hcl hc).2 else 1 with hm
  have hC : Con5 lo hi ktop kbot A (n * (tiny / 2)) ε Dm B (B + M) m (m / (16 * (B + M))) := by
    refine ⟨c1, ?_, by linarith only [hP2, M0], by omega, by linarith only [M0], hd.pf.s0, B0, D0, fun hc => ?_⟩
    · rw [← hN]; exact c2
    · obtain ⟨S1, -⟩ := hcl hc
      have hmm := Classical.choose_spec (hcl hc).2
      rw [dif_pos hc] at hm
      rw [← hm] at hmm
      obtain ⟨m0, ml, mp⟩ := hmm
      have P1 : 1 ≤ B + M := by linarith
      have P17 : 16 * (B + M) ≤ 17 * S := by linarith
      have hmB : m ≤ B := by
        refine (ml ktop (le_refl _) h2).trans ?_
        refine (fro_entry (block lo hi A) ⟨ktop + 1, Finset.mem_Icc.2 ⟨by omega, by omega⟩⟩ ⟨ktop, Finset.mem_Icc.2 ⟨by omega, by omega⟩⟩).trans ?_
        rw [← hN]; exact NB
      refine ⟨m0, P1, ?_, ?_, ml, mp.trans ?_⟩
      · rw [mul_div_cancel₀]
        linarith
      · rw [div_le_one (by linarith)]
        linarith
      · refine pow_le_pow_left₀ (div_nonneg m0.le (by linarith)) ?_ _
        exact div_le_div_of_nonneg_left m0.le (by linarith) P17
  have hs := is2_of_matrix hM (by omega)
  set g0 := ofList2 r h.data with hg0
  -- the array `h` after the element has been cleared
  obtain ⟨h', eh, g, hg, hon, hout⟩ : ∃ h', (if ktop + 2 ≤ kbot then h.set2 (ktop + 2) ktop Scalar.zero else pure h) = (pure h' : R (FA Float)) ∧
      ∃ g, Is2 h' r c (r * c) g ∧ OnF lo hi g A ∧ (∀ a b, ¬ (lo ≤ a ∧ a ≤ hi ∧ lo ≤ b ∧ b ≤ hi) → g a b = g0 a b) := by
    have e0 : ∀ a b, lo ≤ a → a ≤ hi → lo ≤ b → b ≤ hi → ¬ (ktop + 2 ≤ kbot ∧ a = ktop + 2 ∧ b = ktop) →
        (g0 a b).isFinite = true ∧ toR (g0 a b) = A a b := fun a b x1 x2 y1 y2 hn => by
      obtain ⟨f, q1, q2, q3⟩ := hA.entry a b x1 x2 y1 y2 hn
      rw [(entry_is2 hs (by omega) (by omega) (by omega) (by omega) _).1 q1]
      exact ⟨q2, q3⟩
    by_cases hk : ktop + 2 ≤ kbot
    · rw [if_pos hk]
      obtain ⟨h', e, k⟩ := set2_is2 hs (hd.fits.cell (a := ktop + 2) (b := ktop) (by omega) (by omega) (by omega) (by omega)) hM.small Scalar.zero
      refine ⟨h', e, _, k, ?_, ?_⟩
      · intro a b x1 x2 y1 y2
        simp only [upd2]
        by_cases hc : a = ktop + 2 ∧ b = ktop
        · rw [if_pos hc, hc.1, hc.2, hA.hess _ _ (by omega)]
          exact toR_zero
        · rw [if_neg hc]
          exact e0 a b x1 x2 y1 y2 (by tauto)
      · intro a b hab
        simp only [upd2]
        rw [if_neg (by rintro ⟨rfl, rfl⟩; exact hab ⟨by omega, by omega, by omega, by omega⟩)]
    · rw [if_neg hk]
      exact ⟨h, rfl, g0, hs, fun a b x1 x2 y1 y2 => e0 a b x1 x2 y1 y2 (by tauto), fun _ _ _ => rfl⟩
  -- the array `v`
  obtain ⟨x, y, w, rest, hvd⟩ : ∃ x y w rest, v.data = x :: y :: w :: rest := by
    have hlen : 3 ≤ v.data.length := by
      rw [hv.length]
      exact hv3.trans (Nat.le_mul_of_pos_right _ hcv)
    match v.data, hlen with
    | x :: y :: w :: rest, _ => exact ⟨x, y, w, rest, rfl⟩
  have hV : V5F ldv cv rest v x y w := ⟨hv3, hv, hvd⟩
  set s0 : Qr5S Float := ⟨ToFA.toFa (a1 :: a2 :: sr), ToFA.toFa (b1 :: b2 :: si), h', z, v, u, wv, wh, faOfVec [Scalar.zero, Scalar.zero, Scalar.zero]⟩ with hs0
  have hgo : Go5 lo hi p.ktop p.kbot A s0 a1 b1 a2 b2 (n * (tiny / 2)) ε Dm B M m (m / (16 * (B + M))) :=
    ⟨hC, ⟨rfl, rfl, rfl, rfl, f1, f2, f3, f4, hMd.ge⟩, M0, by linarith only [hP2, B0, M0], hA.first⟩
  obtain ⟨X, hX⟩ : ∃ X, X = startX p.ktop p.kbot A (toR a1) (toR b1) (toR a2) (toR b2) := ⟨_, rfl⟩
  have hAr0 : ArrF r c ldv cv rest lo hi p.ktop p.kbot (p.ktop - 1) A (m / (16 * (B + M))) g0 s0.h s0.v A g x y w :=
    ⟨hg, hV, hout, fun a b x1 x2 y1 y2 => (hon a b x1 x2 y1 y2).1, fun a b x1 x2 y1 y2 _ => (hon a b x1 x2 y1 y2).2, fun h => by omega⟩
  have hR0 : RealF lo hi p.ktop p.kbot A ε 0 X (err5 (B + M)) (p.ktop - 1) A idT := by
    refine ⟨⟨fun a b _ hab _ _ => hA.hess a b hab, hA.top, hA.bot⟩, fun _ _ _ => rfl, ?_, fun _ _ _ => rfl, fun h => by omega, fun _ => ⟨rfl, rfl⟩⟩
    have e1 : block lo hi idT = 1 := by
      ext a b
      rw [Matrix.one_apply]
      simp only [block, idT, Subtype.ext_iff]
    rw [e1, show p.ktop - 1 - p.ktop + 1 = 0 by ring, Int.cast_zero, zero_mul, add_zero]
    exact Trk.start A
  have main := hW p hp hd M m _ X s0 hX hgo rfl rfl rfl rfl rest g g0 x y w hAr0 hR0
  unfold qr5Main
  rw [show forStep 0 (2 - 3) 2 (s0.sr, s0.si) qr5Shuffle = pure (s0.sr, s0.si) from rfl, pure_bind]
  have em : (if p.ktop + 2 ≤ p.kbot then do
      let h ← h.set2 (p.ktop + 2) p.ktop Scalar.zero
      forStep (p.ktop - 2 * p.nbmps + 1) (p.kbot - 2) (2 * asUsize p.nbmps) { s0 with h := h } (qr5Incol p)
    else forStep (p.ktop - 2 * p.nbmps + 1) (p.kbot - 2) (2 * asUsize p.nbmps) { s0 with h := h } (qr5Incol p)) =
      forStep (p.ktop - 2 * p.nbmps + 1) (p.kbot - 2) (2 * asUsize p.nbmps) s0 (qr5Incol p) := by
    by_cases hk : ktop + 2 ≤ kbot
    · rw [if_pos hk] at eh
      rw [if_pos (show p.ktop + 2 ≤ p.kbot from hk), show p.ktop = ktop from rfl, eh, pure_bind]
    · rw [if_neg hk] at eh
      have : h = h' := congrFun eh .debug |> fun e => by injection e
      rw [if_neg (show ¬ p.ktop + 2 ≤ p.kbot from hk), hs0, ← this]
  dsimp only
  refine Tot.bind (em ▸ main) fun s1 h1 => ?_
  simp only [show ∀ a : FA Float, FromFA.fromFa (A := FA Float) a = pure a from fun _ => rfl, pure_bind]
  obtain ⟨T, Zq, g1, t, v2, v3, hAr, hR, hw1⟩ := h1
  refine Tot.pure ⟨⟨hAr.hm.rows, hAr.hm.cols, by rw [hAr.hm.data, length_tab2], hM.small⟩,
    Zq, T, block lo hi Zq * (block lo hi T - (block lo hi Zq).transpose * block lo hi A * block lo hi Zq) * (block lo hi Zq).transpose, ⟨⟨hR.track.orth, ?_, ?_⟩, ?_, hR.shape.top, hR.shape.bot, ?_, ?_, hR.out, ?_⟩, s1, hw1, rfl, rfl, rfl, rfl⟩
  · have e3 : ∀ Q : Matrix (Blk lo hi) (Blk lo hi) ℝ, Q.transpose * (block lo hi A + Q * (block lo hi T - Q.transpose * block lo hi A * Q) * Q.transpose) * Q =
        Q.transpose * block lo hi A * Q + (Q.transpose * Q) * (block lo hi T - Q.transpose * block lo hi A * Q) * (Q.transpose * Q) := by
      intro Q
      simp only [Matrix.mul_add, Matrix.add_mul, Matrix.mul_assoc]
    rw [e3, hR.track.orth, Matrix.one_mul, Matrix.mul_one]
    abel
  · rw [fro_mul_right _ (by rw [Matrix.transpose_transpose]; exact hR.track.orth), fro_mul_left _ hR.track.orth]
    refine hR.track.close.trans ?_
    rw [show p.kbot - 1 - p.ktop + 1 = kbot - ktop from by change kbot - 1 - ktop + 1 = _; ring]
    exact c3
  · intro a b y1 hab x2
    exact hR.shape.hess a b y1 hab x2 (by omega)
  · intro a b x1 x2 y1 y2
    exact ⟨g1 a b, (entry_is2 hAr.hm (by omega) (by omega) (by omega) (by omega) _).2 rfl, hAr.fin a b x1 x2 y1 y2, hAr.on a b x1 x2 y1 y2 (by omega)⟩
  · intro a b x1 x2 y1 y2 hn w
    have e1 := entry_is2 hAr.hm x1 x2 y1 y2 w
    have e2 := entry_is2 hs x1 x2 y1 y2 w
    rw [hAr.out a b hn] at e1
    exact e1.trans e2.symm
  · intro e he
    obtain ⟨γ, hγ⟩ := hR.first (by change ktop ≤ kbot - 1; omega)
    refine ⟨γ, fun a => ?_⟩
    rw [shiftPoly_col hA.hess h2 _ _ _ _ e a he, he]
    have := hγ a
    rw [hX] at this
    exact this.trans (err5_le (by linarith) S0 hPS)


theorem dlaqr5_runF (hk1 : kacc22 ≠ 1) (hk2 : kacc22 ≠ 2) (hM : IsMatrix h r c) (h1 : 1 ≤ ktop) (h2 : ktop < kbot) (h3 : kbot ≤ n) (h4 : n ≤ r) (h5 : n ≤ c)
    (hA : Qr5InputF h r (if wantt then 1 else ktop) (if wantt then n else kbot) ktop kbot A)
    (f1 : a1.isFinite = true) (f2 : b1.isFinite = true) (f3 : a2.isFinite = true) (f4 : b2.isFinite = true)
    (hS : S = fro (block (if wantt then 1 else ktop) (if wantt then n else kbot) A) + (|toR a1| + |toR b1| + |toR a2| + |toR b2|)) (hS2 : S ≤ 2 ^ 980)
    (hcl : Clear5 ktop kbot A S) (hv : IsMatrix v ldv cv) (hv3 : 3 ≤ ldv) (hcv : 1 ≤ cv) :
    Tot (dlaqr5 (F := Float) wantt false kacc22 n ktop kbot 2 (a1 :: a2 :: sr) (b1 :: b2 :: si) h (r : ℤ) iloz ihiz z ldz v (ldv : ℤ) u ldu
      nv wv ldwv nh wh ldwh) fun ret => IsMatrix ret.h r c ∧ ret.z = z ∧ ret.u = u ∧ ret.wv = wv ∧ ret.wh = wh ∧ ∃ q T E,
        Qr5DoneF r c (if wantt then 1 else ktop) (if wantt then n else kbot) ktop kbot A (toR a1) (toR b1) (toR a2) (toR b2) S
          (qr5BoundF n ktop kbot (fro (block (if wantt then 1 else ktop) (if wantt then n else kbot) A))) q T E h ret.h := by
  have hr31 : r < 2 ^ 31 := (Nat.le_mul_of_pos_right r (by omega)).trans_lt hM.small
  generalize hlo : (if wantt then (1 : ℤ) else ktop) = lo at *
  generalize hhi : (if wantt then (n : ℤ) else kbot) = hi at *
  have l1 : 1 ≤ lo := by rw [← hlo]; split <;> omega
  have l4 : hi ≤ n := by rw [← hhi]; split <;> omega
  have nR : (1 : ℝ) ≤ (n : ℝ) := by exact_mod_cast (by omega : (1 : ℤ) ≤ n)
  have nR2 : (n : ℝ) ≤ 2 ^ 31 := by exact_mod_cast (by omega : n ≤ 2 ^ 31)
  obtain ⟨K, hK⟩ : ∃ K : ℝ, K = ((kbot - ktop : ℤ) : ℝ) := ⟨_, rfl⟩
  have K0 : 0 ≤ K := by rw [hK]; exact_mod_cast (by omega : (0 : ℤ) ≤ kbot - ktop)
  have K1 : K ≤ 2 ^ 31 := by rw [hK]; exact_mod_cast (by omega : kbot - ktop ≤ 2 ^ 31)
  have nhn : (((hi - lo + 1).toNat : ℕ) : ℝ) ≤ (n : ℝ) := by
    have : (((hi - lo + 1).toNat : ℕ) : ℤ) ≤ n := by omega
    exact_mod_cast this
  obtain ⟨N, hN⟩ : ∃ N, N = fro (block lo hi A) := ⟨_, rfl⟩
  have N0 : 0 ≤ N := by rw [hN]; exact fro_nonneg _
  obtain ⟨B, hB⟩ : ∃ B, B = 101 / 100 * N + 2 * (K * (n * tiny)) := ⟨_, rfl⟩
  obtain ⟨ε, hε⟩ : ∃ ε, ε = 7136 * (ur * B) + n * tiny := ⟨_, rfl⟩
  obtain ⟨B0, c1, c2, c3⟩ := consts5 N0 nR K0 K1 nhn hB hε
  have sl := slack5 (by linarith) nR2 K0 K1
  have nt : 0 ≤ (n : ℝ) * tiny := mul_nonneg (by linarith) tiny_pos'.le
  have Knt : 0 ≤ K * (n * tiny) := mul_nonneg K0 nt
  rw [← hN] at hS ⊢
  refine (dlaqr5_coreF (W := fun _ s => s.z = z ∧ s.u = u ∧ s.wv = wv ∧ s.wh = wh) (Dm := 0) hlo hhi hM h1 h2 h3 h4 h5 hA f1 f2 f3 f4 hN hS hS2 hcl hv hv3 hcv B0 (le_refl _)
    (by rw [hε]; have := mul_nonneg ur_pos.le B0; linarith) c1 (by rw [← hK, add_zero]; exact c2) (β := qr5BoundF n ktop kbot N) ?_ (by rw [hB]; linarith) ?_).mono ?_
  · rw [← hK, add_zero]
    refine c3.trans (le_of_eq ?_)
    unfold qr5BoundF
    rw [← hK]
    unfold ur tiny
    generalize (2 : ℝ) ^ 969 = w
    ring
  · intro p hp hd M m ρ X s0 hX hgo z0 u0 wv0 wh0 rest g g0 x y w hA0 hR0
    have hn : NoAccF p lo hi := by
      subst hp
      refine ⟨?_, rfl, hlo, hhi⟩
      show (decide (kacc22 = 1) || decide (kacc22 = 2)) = false
      simp [hk1, hk2]
    refine (sweeps_F hX hd hn hgo (g0 := g0) ⟨⟨A, idT, g, x, y, w, hA0, hR0⟩, rfl⟩).mono ?_
    rintro s1 ⟨⟨T, Zq, g1, t, v2, v3, hAr, hR⟩, hs1⟩
    exact ⟨T, Zq, g1, t, v2, v3, hAr, hR, by rw [hs1]; exact z0, by rw [hs1]; exact u0, by rw [hs1]; exact wv0, by rw [hs1]; exact wh0⟩
  · rintro ret ⟨q1, q, T, E, q2, s1, ⟨w1, w2, w3, w4⟩, e1, e2, e3, e4⟩
    exact ⟨q1, e1.trans w1, e2.trans w2, e3.trans w3, e4.trans w4, q, T, E, q2⟩

end

/-- **C78** (`dlaqr5` is backward stable on `f64`).  The matrix `h` is `r` by `c`, its part `lo..hi` (all of `1..n` with `wantt`, else the
active block) holds finite elements, and neither the reflectors are accumulated (`kacc22` is not 1 or 2) nor `z` transformed.  With two finite
shifts, where `S`, the norm of `A` plus the size of the shifts, is at most `2 ^ 980`, and if the active block is clear of underflow, the sweep
returns; the new `h` is exactly orthogonally similar to a matrix within `qr5BoundF` of `A`, and the first column of the similarity is the
one which the shifts determine. -/
theorem C78_dlaqr5_backward_stable (wantt : Bool) (kacc22 n ktop kbot iloz ihiz ldz ldu nv ldwv nh ldwh : ℤ) (h z v u wv wh : FA Float) (r c ldv cv : Nat)
    (a1 b1 a2 b2 : Float) (sr si : List Float) (A : ℤ → ℤ → ℝ) (S : ℝ) (hk1 : kacc22 ≠ 1) (hk2 : kacc22 ≠ 2) (hM : IsMatrix h r c) (h1 : 1 ≤ ktop)
    (h2 : ktop < kbot) (h3 : kbot ≤ n) (h4 : n ≤ r) (h5 : n ≤ c)
    (hA : Qr5InputF h r (if wantt then 1 else ktop) (if wantt then n else kbot) ktop kbot A)
    (f1 : a1.isFinite = true) (f2 : b1.isFinite = true) (f3 : a2.isFinite = true) (f4 : b2.isFinite = true)
    (hS : S = fro (block (if wantt then 1 else ktop) (if wantt then n else kbot) A) + (|toR a1| + |toR b1| + |toR a2| + |toR b2|)) (hS2 : S ≤ 2 ^ 980)
    (hcl : Clear5 ktop kbot A S) (hv : IsMatrix v ldv cv) (hv3 : 3 ≤ ldv) (hcv : 1 ≤ cv) (pr : Profile) :
    ∃ ret : Qr5Ret (FA Float) (FA Float) (FA Float) (FA Float) (FA Float) (FA Float),
      dlaqr5 (F := Float) wantt false kacc22 n ktop kbot 2 (a1 :: a2 :: sr) (b1 :: b2 :: si) h (r : ℤ) iloz ihiz z ldz v (ldv : ℤ) u ldu
        nv wv ldwv nh wh ldwh pr = .ok ret ∧
      IsMatrix ret.h r c ∧ ret.z = z ∧ ret.u = u ∧ ret.wv = wv ∧ ret.wh = wh ∧ ∃ q T E,
        Qr5DoneF r c (if wantt then 1 else ktop) (if wantt then n else kbot) ktop kbot A (toR a1) (toR b1) (toR a2) (toR b2) S
          (qr5BoundF n ktop kbot (fro (block (if wantt then 1 else ktop) (if wantt then n else kbot) A))) q T E h ret.h :=
  dlaqr5_runF hk1 hk2 hM h1 h2 h3 h4 h5 hA f1 f2 f3 f4 hS hS2 hcl hv hv3 hcv pr

/-- **C78** (with `z`).  If `dlaqr5` is also told to transform `z`, in whatever container, and returns, then it returns such an `h`. -/
theorem C78_dlaqr5_backward_stable_z {Z : Type} [ToFA Float Z] [FromFA Float Z] (wantt wantz : Bool) (kacc22 n ktop kbot iloz ihiz ldz ldu nv ldwv nh ldwh : ℤ)
    (h v u wv wh : FA Float) (z : Z) (r c ldv cv : Nat)
    (a1 b1 a2 b2 : Float) (sr si : List Float) (A : ℤ → ℤ → ℝ) (S : ℝ) (hk1 : kacc22 ≠ 1) (hk2 : kacc22 ≠ 2) (hM : IsMatrix h r c) (h1 : 1 ≤ ktop)
    (h2 : ktop < kbot) (h3 : kbot ≤ n) (h4 : n ≤ r) (h5 : n ≤ c)
    (hA : Qr5InputF h r (if wantt then 1 else ktop) (if wantt then n else kbot) ktop kbot A)
    (f1 : a1.isFinite = true) (f2 : b1.isFinite = true) (f3 : a2.isFinite = true) (f4 : b2.isFinite = true)
    (hS : S = fro (block (if wantt then 1 else ktop) (if wantt then n else kbot) A) + (|toR a1| + |toR b1| + |toR a2| + |toR b2|)) (hS2 : S ≤ 2 ^ 980)
    (hcl : Clear5 ktop kbot A S) (hv : IsMatrix v ldv cv) (hv3 : 3 ≤ ldv) (hcv : 1 ≤ cv) (pr : Profile)
    (ret : Qr5Ret (FA Float) Z (FA Float) (FA Float) (FA Float) (FA Float))
    (hret : dlaqr5 (F := Float) wantt wantz kacc22 n ktop kbot 2 (a1 :: a2 :: sr) (b1 :: b2 :: si) h (r : ℤ) iloz ihiz z ldz v (ldv : ℤ) u ldu
        nv wv ldwv nh wh ldwh pr = .ok ret) :
    IsMatrix ret.h r c ∧ ∃ q T E,
      Qr5DoneF r c (if wantt then 1 else ktop) (if wantt then n else kbot) ktop kbot A (toR a1) (toR b1) (toR a2) (toR b2) S
          (qr5BoundF n ktop kbot (fro (block (if wantt then 1 else ktop) (if wantt then n else kbot) A))) q T E h ret.h := by
  obtain ⟨z2, e⟩ := C54_dlaqr5_without_z wantt wantz kacc22 n ktop kbot 2 hk1 hk2 _ _ h r iloz ihiz z ldz v ldv u ldu nv wv ldwv nh wh ldwh
    1 1 h 1 pr ret hret
  obtain ⟨ret', e', hM', -, -, -, -, hD⟩ := C78_dlaqr5_backward_stable wantt kacc22 n ktop kbot 1 1 1 ldu nv ldwv nh ldwh h h v u wv wh r c ldv cv
    a1 b1 a2 b2 sr si A S hk1 hk2 hM h1 h2 h3 h4 h5 hA f1 f2 f3 f4 hS hS2 hcl hv hv3 hcv pr
  rw [e] at e'
  cases e'
  exact ⟨hM', hD⟩

/-! ### An example -/

/-- The cyclic permutation of four coordinates, with a NaN in the element that is cleared. -/
def cyc4 : FA Float := { data := [0, 1, 0 / 0, 0, 0, 0, 1, 0, 0, 0, 0, 1, 1, 0, 0, 0], rows := 4, cols := 4, defaultValue := 0 }

/-- Its entries. -/
def cyc4A (a b : ℤ) : ℝ := if a = b + 1 ∧ 1 ≤ b ∧ b ≤ 3 then 1 else if a = 1 ∧ b = 4 then 1 else 0

theorem cyc4_input : Qr5InputF cyc4 4 1 4 1 4 cyc4A := by
  refine ⟨?_, ?_, fun h => by omega, fun h => by omega, ?_⟩
  · intro a b x1 x2 y1 y2 hn
    rcases (by omega : a = 1 ∨ a = 2 ∨ a = 3 ∨ a = 4) with rfl | rfl | rfl | rfl <;>
      rcases (by omega : b = 1 ∨ b = 2 ∨ b = 3 ∨ b = 4) with rfl | rfl | rfl | rfl <;>
      first
      | (exact absurd ⟨by norm_num, rfl, rfl⟩ hn)
      | (refine ⟨0, by rfl, lit0.1, ?_⟩; rw [lit0.2]; norm_num [cyc4A])
      | (refine ⟨1, by rfl, lit1.1, ?_⟩; rw [lit1.2]; norm_num [cyc4A])
  · intro a b h
    unfold cyc4A
    rw [if_neg (by omega), if_neg (by omega)]
  · unfold cyc4A
    rw [if_pos (by omega)]
    exact one_ne_zero

theorem cyc4_fro : fro (block 1 4 cyc4A) = 2 := by
  unfold fro
  have e : ∀ f : ℤ → ℝ, ∑ a : Blk 1 4, f a = f 1 + f 2 + f 3 + f 4 := fun f => by
    rw [Finset.sum_coe_sort (Finset.Icc (1 : ℤ) 4) f, sum_Icc_cons (by norm_num), show (1 : ℤ) + 1 = 2 by norm_num, sum_Icc_cons (by norm_num),
      show (2 : ℤ) + 1 = 3 by norm_num, sum_Icc_cons (by norm_num), show (3 : ℤ) + 1 = 4 by norm_num, Finset.Icc_self, Finset.sum_singleton]
    ring
  have e2 : ∑ a : Blk 1 4, ∑ b : Blk 1 4, block 1 4 cyc4A a b ^ 2 = 4 := by
    have := e fun a => ∑ b : Blk 1 4, cyc4A a b ^ 2
    refine this.trans ?_
    rw [e fun b => cyc4A 1 b ^ 2, e fun b => cyc4A 2 b ^ 2, e fun b => cyc4A 3 b ^ 2, e fun b => cyc4A 4 b ^ 2]
    norm_num [cyc4A]
  rw [e2, show (4 : ℝ) = 2 ^ 2 by norm_num]
  exact Real.sqrt_sq (by norm_num)

theorem cyc4_clear : Clear5 1 4 cyc4A 6 := by
  refine fun _ => ⟨by norm_num, 1, one_pos, fun j j1 j2 => ?_, ?_⟩
  · unfold cyc4A
    rw [if_pos (by omega), abs_one]
  · have : (1 : ℝ) / 2 ^ 1000 ≤ 1 / 2 ^ 21 := one_div_le_one_div_of_le (by norm_num) (pow_le_pow_right₀ (by norm_num) (by norm_num))
    refine this.trans ?_
    rw [show ((4 : ℤ) - 1).toNat = 3 from rfl]
    norm_num

/-- The hypotheses of C78 are met by the cyclic permutation of four coordinates with the shifts `1 ± i`. -/
theorem C78_example (pr : Profile) : ∃ ret : Qr5Ret (FA Float) (FA Float) (FA Float) (FA Float) (FA Float) (FA Float),
    dlaqr5 (F := Float) true false 0 4 1 4 2 ([1, 1] : List Float) ([1, -1] : List Float) cyc4 4 1 1 cyc4 4 (⟨[0, 0, 0], 3, 1, 0⟩ : FA Float) 3 cyc4 4 0 cyc4 4 0 cyc4 4 pr
      = .ok ret ∧ ∃ q T E, Qr5DoneF 4 4 1 4 1 4 cyc4A 1 1 1 (-1) 6 (qr5BoundF 4 1 4 2) q T E cyc4 ret.h := by
  obtain ⟨n1, n2⟩ : (-1 : Float).isFinite = true ∧ toR (-1 : Float) = -1 := by
    exact ⟨by rw [neg_finite]; exact lit1.1, by rw [neg_toR, lit1.2]⟩
  have hS : (6 : ℝ) = fro (block 1 4 cyc4A) + (|toR (1 : Float)| + |toR (1 : Float)| + |toR (1 : Float)| + |toR (-1 : Float)|) := by
    rw [cyc4_fro, lit1.2, n2]; norm_num
  have h980 : (6 : ℝ) ≤ 2 ^ 980 := by
    calc (6 : ℝ) ≤ 2 ^ 3 := by norm_num
      _ ≤ 2 ^ 980 := pow_le_pow_right₀ (by norm_num) (by norm_num)
  obtain ⟨ret, e, -, -, -, -, -, h⟩ := C78_dlaqr5_backward_stable true 0 4 1 4 1 1 4 4 0 4 0 4 cyc4 cyc4 (⟨[0, 0, 0], 3, 1, 0⟩ : FA Float) cyc4 cyc4 cyc4 4 4 3 1
    1 1 1 (-1) [] [] cyc4A 6 (by norm_num) (by norm_num) ⟨rfl, rfl, rfl, by decide⟩ (by norm_num) (by norm_num) (by norm_num) (by norm_num) (by norm_num)
    cyc4_input lit1.1 lit1.1 lit1.1 n1 hS h980 cyc4_clear ⟨rfl, rfl, rfl, by decide⟩ (le_refl _) (le_refl _) pr
  rw [lit1.2, n2, show (if true = true then (1 : ℤ) else 1) = 1 from rfl, show (if true = true then (4 : ℤ) else 4) = 4 from rfl, cyc4_fro] at h
  exact ⟨ret, e, h⟩

end Verif

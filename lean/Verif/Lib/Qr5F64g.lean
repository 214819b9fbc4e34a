import Verif.Lib.Qr5F64f

/-!
# The invariant of the `dlaqr5` chase on binary64
-/

namespace Verif
open F64 Scalar Spec Matrix

/-- What keeps the bulge from vanishing by underflow. -/
structure NC5 (kt kb : ℤ) (H : ℤ → ℤ → ℝ) (P m ρ : ℝ) : Prop where
  m0 : 0 < m
  P1 : 1 ≤ P
  mP : m = 16 * P * ρ
  ρ1 : ρ ≤ 1
  low : ∀ j, kt ≤ j → j < kb → m ≤ |H (j + 1) j|
  pw : 1 / 2 ^ 1000 ≤ ρ ^ (kb - kt).toNat

/-- The constants of the error analysis: every step adds at most `ε`, and `D` was added before. -/
structure Con5 (lo hi kt kb : ℤ) (H : ℤ → ℤ → ℝ) (sm ε D B P m ρ : ℝ) : Prop where
  hε : 7136 * (ur * B) + (60 * ((hi - lo + 1).toNat : ℝ) + 25) * eta + 4 * mu + sm ≤ ε
  hB : fro (block lo hi H) + ((kb - kt : ℤ) * ε + D) ≤ B
  hBb : 1024 * B ≤ big
  nb : (hi - lo + 1).toNat < 2 ^ 31
  hP : B ≤ P
  sm0 : 0 ≤ sm
  B0 : 0 ≤ B
  D0 : 0 ≤ D
  nc : kt + 3 ≤ kb → NC5 kt kb H P m ρ

/-- The arrays before step `k`, when `T` is the matrix reached: the entries of row `k + 3` in columns
`k..k + 2` have not been updated by the previous reflector `t`, `v2`, `v3` yet. -/
structure ArrF (r c ldv cv : Nat) (rest : List Float) (lo hi kt kb k : ℤ) (H : ℤ → ℤ → ℝ) (ρ : ℝ) (g0 : ℤ → ℤ → Float) (h v : FA Float) (T : ℤ → ℤ → ℝ)
    (g : ℤ → ℤ → Float) (t v2 v3 : Float) : Prop where
  hm : Is2 h r c (r * c) g
  vm : V5F ldv cv rest v t v2 v3
  out : ∀ a b, ¬ (lo ≤ a ∧ a ≤ hi ∧ lo ≤ b ∧ b ≤ hi) → g a b = g0 a b
  fin : ∀ a b, lo ≤ a → a ≤ hi → lo ≤ b → b ≤ hi → (g a b).isFinite = true
  on : ∀ a b, lo ≤ a → a ≤ hi → lo ≤ b → b ≤ hi → ¬ (kt ≤ k ∧ k + 3 ≤ kb ∧ a = k + 3 ∧ k ≤ b ∧ b ≤ k + 2) → toR (g a b) = T a b
  late : kt ≤ k → k + 3 ≤ kb → ∃ V2 V3 θ, NearR kb k v2 v3 t V2 V3 θ ∧ toR (g (k + 3) (k + 2)) = H (k + 3) (k + 2) ∧
    T (k + 3) k = -(V3 * toR (g (k + 3) (k + 2))) * θ ∧ T (k + 3) (k + 1) = -(V3 * toR (g (k + 3) (k + 2))) * (θ * V2) ∧
    T (k + 3) (k + 2) = toR (g (k + 3) (k + 2)) - V3 * toR (g (k + 3) (k + 2)) * (θ * V3) ∧
    ρ ^ (k - kt + 2).toNat ≤ |toR v3| ∧ 1 ≤ toR t

/-- The matrix `T` and the orthogonal matrix `Zq` before step `k`; `X` is the column the first column of `Zq` is nearly a multiple of. -/
structure RealF (lo hi kt kb : ℤ) (H : ℤ → ℤ → ℝ) (ε D : ℝ) (X : ℤ → ℝ) (E1 : ℝ) (k : ℤ) (T Zq : ℤ → ℤ → ℝ) : Prop where
  shape : Shape lo hi kt kb k T
  sub : ∀ j, k + 3 ≤ j → j < kb → T (j + 1) j = H (j + 1) j
  track : Trk (block lo hi H) (block lo hi Zq) ((k - kt + 1 : ℤ) * ε + D) T
  out : ∀ a b, (a < kt ∨ kb < a) ∨ (b < kt ∨ kb < b) → Zq a b = idT a b
  first : kt ≤ k → ∃ γ, ∀ a, |γ * Zq a kt - X a| ≤ E1
  init : k = kt - 1 → T = H ∧ Zq = idT

/-- The array `G` after the row left over has been completed. -/
structure Mid5 (lo hi kt kb k : ℤ) (H : ℤ → ℤ → ℝ) (ε D B : ℝ) (G : ℤ → ℤ → Float) (T Zq : ℤ → ℤ → ℝ) : Prop where
  on : OnF lo hi G T
  shape : Shape lo hi kt kb k T
  sub : ∀ j, k + 3 ≤ j → j < kb → T (j + 1) j = H (j + 1) j
  track : Trk (block lo hi H) (block lo hi Zq) ((k - kt + 1 : ℤ) * ε + D + 2 * (1160 * (ur * B) + 12 * eta)) T

section
variable {lo hi kt kb k : ℤ} {H : ℤ → ℤ → ℝ} {sm ε D B P m ρ : ℝ}

theorem Con5.eps0 (h : Con5 lo hi kt kb H sm ε D B P m ρ) : 0 ≤ ε := by
  have h1 := h.hε
  have h2 := mul_nonneg ur_pos.le h.B0
  have h3 : 0 ≤ (60 * ((hi - lo + 1).toNat : ℝ) + 25) * eta :=
    mul_nonneg (by have := Nat.cast_nonneg (α := ℝ) (hi - lo + 1).toNat; linarith) eta_pos.le
  have h4 := mu_pos
  have h5 := h.sm0
  linarith

/-- The errors of a step. -/
theorem Con5.sum (h : Con5 lo hi kt kb H sm ε D B P m ρ) : (k - kt + 1 : ℤ) * ε + D + 2 * (1160 * (ur * B) + 12 * eta) +
    (4800 * ur * B + 60 * (hi - lo + 1).toNat * eta + 4 * mu) + (16 * (ur * B) + eta + sm) ≤ (k + 1 - kt + 1 : ℤ) * ε + D := by
  have h1 := h.hε
  push_cast
  have e : (4800 : ℝ) * ur * B = 4800 * (ur * B) := by ring
  have e2 : ((60 * ((hi - lo + 1).toNat : ℝ) + 25) * eta) = 60 * (hi - lo + 1).toNat * eta + 25 * eta := by ring
  rw [e2] at h1
  rw [e]
  linarith

theorem Con5.total (h : Con5 lo hi kt kb H sm ε D B P m ρ) (k2 : k + 2 ≤ kb) : fro (block lo hi H) + ((k - kt + 1 : ℤ) * ε + D + 2 * (1160 * (ur * B) + 12 * eta) +
    (4800 * ur * B + 60 * (hi - lo + 1).toNat * eta + 4 * mu) + (16 * (ur * B) + eta + sm)) ≤ B := by
  refine le_trans (add_le_add_right (h.sum (k := k)) _) (le_trans ?_ h.hB)
  refine add_le_add_right (add_le_add_left (mul_le_mul_of_nonneg_right ?_ h.eps0) _) _
  exact_mod_cast (by omega : k + 1 - kt + 1 ≤ kb - kt)

theorem Con5.parts (h : Con5 lo hi kt kb H sm ε D B P m ρ) : 0 ≤ 2 * (1160 * (ur * B) + 12 * eta) ∧
    0 ≤ 4800 * ur * B + 60 * (hi - lo + 1).toNat * eta + 4 * mu ∧ 0 ≤ 16 * (ur * B) + eta + sm := by
  have h2 := mul_nonneg ur_pos.le h.B0
  have h3 : 0 ≤ 60 * ((hi - lo + 1).toNat : ℝ) * eta :=
    mul_nonneg (by have := Nat.cast_nonneg (α := ℝ) (hi - lo + 1).toNat; linarith) eta_pos.le
  have h4 := mu_pos
  have h5 := h.sm0
  have h6 := eta_pos
  have e : (4800 : ℝ) * ur * B = 4800 * (ur * B) := by ring
  rw [e]
  exact ⟨by linarith, by linarith, by linarith⟩

theorem Mid5.norm {G : ℤ → ℤ → Float} {T Zq : ℤ → ℤ → ℝ} (h : Mid5 lo hi kt kb k H ε D B G T Zq) (hC : Con5 lo hi kt kb H sm ε D B P m ρ) (k2 : k + 2 ≤ kb) :
    fro (block lo hi T) ≤ B := by
  have h1 := h.track.norm
  have h2 := hC.total k2
  obtain ⟨-, h3, h4⟩ := hC.parts
  linarith

variable {G : ℤ → ℤ → Float} {T Zq : ℤ → ℤ → ℝ} {v2 v3 t beta : Float} {V2 V3 θ β : ℝ}

/-- The step on the entries. -/
theorem Mid5.step (h : Mid5 lo hi kt kb k H ε D B G T Zq) (hC : Con5 lo hi kt kb H sm ε D B P m ρ) (hlo : lo ≤ kt) (hhi : kb ≤ hi) (k1 : kt - 1 ≤ k) (k2 : k + 2 ≤ kb)
    (hR : NearR kb (k + 1) v2 v3 t V2 V3 θ) (hrefl : Refl V2 V3 θ)
    (hH : kt ≤ k → HeadF (toR (G (k + 1) k)) (toR (G (k + 2) k)) (if k + 3 ≤ kb then toR (G (k + 3) k) else 0) beta β V2 V3 θ) :
    ∃ T', After5 lo hi kt kb k V2 V3 θ T G (left5 hi kb k v2 v3 t (right5 lo kb k v2 v3 t (col5 kt kb k beta G))) T' ∧
      Trk (block lo hi H) (block lo hi Zq * houseM lo hi (k + 1) V2 V3 θ) ((k - kt + 1 : ℤ) * ε + D + 2 * (1160 * (ur * B) + 12 * eta) +
        (4800 * ur * B + 60 * (hi - lo + 1).toNat * eta + 4 * mu)) T' ∧
      ∀ a b, lo ≤ a → a ≤ hi → lo ≤ b → b ≤ k + 1 → Bn (left5 hi kb k v2 v3 t (right5 lo kb k v2 v3 t (col5 kt kb k beta G)) a b) B := by
  have hn := h.norm hC k2
  obtain ⟨T', hA, hT⟩ := step5_near (beta := beta) (β := β) h.on h.shape hlo hhi k1 k2 hR hrefl (fun hk => by
    have e : ∀ a, k + 1 ≤ a → a ≤ kb → toR (G a k) = T a k := fun a a1 a2 => (h.on a k (by omega) (by omega) (by omega) (by omega)).2
    have := hH hk
    rw [e (k + 1) (by omega) (by omega), e (k + 2) (by omega) (by omega)] at this
    by_cases h3 : k + 3 ≤ kb
    · rw [if_pos h3, e (k + 3) (by omega) h3] at this
      rw [if_pos h3]
      exact this
    · rw [if_neg h3] at this ⊢
      exact this) hn hC.hBb hC.nb
  have hT' := hT _ _ _ h.track
  refine ⟨T', hA, hT', fun a b a1 a2 b1 b2 => ⟨hA.fin a b a1 a2 b1 (by omega), ?_⟩⟩
  by_cases hc : a = k + 4 ∧ a ≤ kb
  · rw [gF_low (by omega) k2, (h.on a b a1 a2 b1 (by omega)).2]
    exact (fro_entry (block lo hi T) ⟨a, Finset.mem_Icc.2 ⟨a1, a2⟩⟩ ⟨b, Finset.mem_Icc.2 ⟨b1, by omega⟩⟩).trans hn
  · rw [hA.on a b a1 a2 b1 (by omega) (by omega)]
    refine (hT'.entry ⟨a1, a2⟩ ⟨b1, by omega⟩).trans ?_
    have h2 := hC.total k2
    obtain ⟨-, h3, h4⟩ := hC.parts
    linarith

/-- The step does not touch the entries outside. -/
theorem gF_out (hlo : lo ≤ kt) (hhi : kb ≤ hi) (k1 : kt - 1 ≤ k) (k2 : k + 2 ≤ kb) {a b : ℤ} (h : ¬ (lo ≤ a ∧ a ≤ hi ∧ lo ≤ b ∧ b ≤ hi)) :
    left5 hi kb k v2 v3 t (right5 lo kb k v2 v3 t (col5 kt kb k beta G)) a b = G a b := by
  have hc : ∀ a b, ¬ (lo ≤ a ∧ a ≤ hi ∧ lo ≤ b ∧ b ≤ hi) → col5 kt kb k beta G a b = G a b := fun a b h => by
    unfold col5
    rw [if_neg (by omega)]
  have hr : right5 lo kb k v2 v3 t (col5 kt kb k beta G) a b = G a b := by
    rw [← hc a b h]
    unfold right5
    split
    · unfold reflG
      split
      · rw [refl3_ne _ (by omega) (by omega) (by omega)]
      · rw [refl2_ne _ (by omega) (by omega)]
    · rfl
  rw [← hr]
  unfold left5
  split
  · unfold reflG
    split
    · rw [refl3_ne _ (by omega) (by omega) (by omega)]
    · rw [refl2_ne _ (by omega) (by omega)]
  · rfl

/-- The state after the step. -/
theorem Mid5.next {r c ldv cv : Nat} {rest : List Float} {g0 : ℤ → ℤ → Float} {h' v' : FA Float} {X : ℤ → ℝ} {E1 : ℝ} {T' : ℤ → ℤ → ℝ} {cut : Bool}
    (h : Mid5 lo hi kt kb k H ε D B G T Zq) (hC : Con5 lo hi kt kb H sm ε D B P m ρ) (hlo : lo ≤ kt) (hhi : kb ≤ hi) (k1 : kt - 1 ≤ k) (k2 : k + 2 ≤ kb)
    (hR : NearR kb (k + 1) v2 v3 t V2 V3 θ)
    (hA : After5 lo hi kt kb k V2 V3 θ T G (left5 hi kb k v2 v3 t (right5 lo kb k v2 v3 t (col5 kt kb k beta G))) T')
    (hT : Trk (block lo hi H) (block lo hi Zq * houseM lo hi (k + 1) V2 V3 θ) ((k - kt + 1 : ℤ) * ε + D + 2 * (1160 * (ur * B) + 12 * eta) +
        (4800 * ur * B + 60 * (hi - lo + 1).toNat * eta + 4 * mu)) T')
    (hcut : cut = true → kt ≤ k ∧ |toR (left5 hi kb k v2 v3 t (right5 lo kb k v2 v3 t (col5 kt kb k beta G)) (k + 1) k)| ≤ 16 * (ur * B) + eta + sm)
    (hm : Is2 h' r c (r * c) (cutG cut k (left5 hi kb k v2 v3 t (right5 lo kb k v2 v3 t (col5 kt kb k beta G)))))
    (hv : V5F ldv cv rest v' t v2 v3) (hG : ∀ a b, ¬ (lo ≤ a ∧ a ≤ hi ∧ lo ≤ b ∧ b ≤ hi) → G a b = g0 a b)
    (hz : ∀ a b, (a < kt ∨ kb < a) ∨ (b < kt ∨ kb < b) → Zq a b = idT a b)
    (hf : k = kt - 1 → ∃ γ, ∀ a, |γ * houseR (k + 1) V2 V3 θ Zq a kt - X a| ≤ E1) (hf2 : kt ≤ k → ∃ γ, ∀ a, |γ * Zq a kt - X a| ≤ E1)
    (hlow : k + 4 ≤ kb → ρ ^ (k + 1 - kt + 2).toNat ≤ |toR v3| ∧ 1 ≤ toR t) :
    ∃ T'', ArrF r c ldv cv rest lo hi kt kb (k + 1) H ρ g0 h' v' T''
        (cutG cut k (left5 hi kb k v2 v3 t (right5 lo kb k v2 v3 t (col5 kt kb k beta G)))) t v2 v3 ∧
      RealF lo hi kt kb H ε D X E1 (k + 1) T'' (houseR (k + 1) V2 V3 θ Zq) := by
  have hw : InBlk lo hi kt kb k V3 := ⟨hlo, hhi, k1, by
    by_cases h3 : k + 3 ≤ kb
    · exact Or.inl h3
    · exact Or.inr ⟨by omega, hR.z3 (by omega)⟩⟩
  set gF := left5 hi kb k v2 v3 t (right5 lo kb k v2 v3 t (col5 kt kb k beta G)) with hgF
  have ez : block lo hi Zq * houseM lo hi (k + 1) V2 V3 θ = block lo hi (houseR (k + 1) V2 V3 θ Zq) := by
    have := mul_houseM (m := Blk lo hi) (v2 := V2) (t := θ) hw.inside (fun a b => Zq a b)
    exact this
  rw [ez] at hT
  have hsum := hC.sum (k := k)
  obtain ⟨-, -, p3⟩ := hC.parts
  -- the entries after the element has been set to zero
  obtain ⟨T'', hA', hT'⟩ : ∃ T'', After5 lo hi kt kb k V2 V3 θ T G (cutG cut k gF) T'' ∧
      Trk (block lo hi H) (block lo hi (houseR (k + 1) V2 V3 θ Zq)) ((k + 1 - kt + 1 : ℤ) * ε + D) T'' := by
    cases cut with
    | false =>
      have : cutG false k gF = gF := by funext a b; simp [cutG]
      rw [this]
      exact ⟨T', hA, hT.mono (by linarith)⟩
    | true =>
      obtain ⟨c1, c2⟩ := hcut rfl
      have : cutG true k gF = fun a b => if a = k + 1 ∧ b = k then Scalar.zero else gF a b := by funext a b; simp [cutG]
      rw [this]
      rw [hA.on (k + 1) k (by omega) (by omega) (by omega) (by omega) (by omega)] at c2
      exact ⟨_, hA.cut k2 c1, (hT.cut (k + 1) k c2).mono hsum⟩
  refine ⟨T'', ⟨hm, hv, ?_, hA'.fin, ?_, ?_⟩, ⟨hA'.shape, ?_, hT', outside_step hw hz, ?_, fun e => by omega⟩⟩
  · intro a b hab
    unfold cutG
    by_cases hc : cut = true ∧ a = k + 1 ∧ b = k
    · obtain ⟨c1, rfl, rfl⟩ := hc
      have := (hcut c1).1
      exact absurd ⟨by omega, by omega, by omega, by omega⟩ hab
    · rw [if_neg hc, hgF, gF_out hlo hhi k1 k2 hab]
      exact hG a b hab
  · intro a b a1 a2 b1 b2 hn
    exact hA'.on a b a1 a2 b1 b2 (by omega)
  · intro _ k4
    obtain ⟨l1, l2, l3, l4⟩ := hA'.late (by omega)
    have e1 : toR (cutG cut k gF (k + 4) (k + 3)) = T (k + 4) (k + 3) := by
      rw [l1]
      exact (h.on _ _ (by omega) (by omega) (by omega) (by omega)).2
    have e2 := h.sub (k + 3) (by omega) (by omega)
    rw [show k + 3 + 1 = k + 4 by ring] at e2
    refine ⟨V2, V3, θ, hR, ?_⟩
    rw [show k + 1 + 3 = k + 4 by ring, show k + 1 + 2 = k + 3 by ring, show k + 1 + 1 = k + 2 by ring, e1]
    exact ⟨e2, l2, l3, l4, hlow (by omega)⟩
  · intro j j1 j2
    rw [hA'.sub j (by omega) j2]
    exact h.sub j (by omega) j2
  · intro hk
    by_cases hk' : k = kt - 1
    · exact hf hk'
    · obtain ⟨γ, hγ⟩ := hf2 (by omega)
      refine ⟨γ, fun a => ?_⟩
      have : houseR (k + 1) V2 V3 θ Zq a kt = Zq a kt := by
        unfold houseR
        rw [house_ne _ (by omega) (by omega) (Or.inl (by omega))]
      rw [this]
      exact hγ a

end

end Verif

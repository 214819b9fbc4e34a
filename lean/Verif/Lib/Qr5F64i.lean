import Verif.Lib.Qr5F64h

/-!
# The single-bulge sweep of `dlaqr5` on binary64
-/

namespace Verif
open F64 Scalar Spec Matrix

/-- The shifts, the constants and the first subdiagonal element. -/
structure Go5 (lo hi kt kb : ℤ) (H : ℤ → ℤ → ℝ) (s : Qr5S Float) (a1 b1 a2 b2 : Float) (sm ε D B M m ρ : ℝ) : Prop where
  con : Con5 lo hi kt kb H sm ε D B (B + M) m ρ
  sh : Shift5 s a1 b1 a2 b2 M
  M0 : 0 ≤ M
  hP : 8 * (B + M) ≤ big
  unr : H (kt + 1) kt ≠ 0

/-- The column the first reflector is made from, and how well it fits. -/
noncomputable def err5 (P : ℝ) : ℝ := 30 * (ur * P ^ 2) + 5 * (mu * P)

/-- Neither accumulation nor update of `z`. -/
structure NoAccF (p : Qr5P Float) (lo hi : ℤ) : Prop where
  acc : p.accum = false
  wz : p.wantz = false
  jt : (if p.wantt then 1 else p.ktop) = lo
  jb : (if p.wantt then p.n else p.kbot) = hi

/-- Before step `k`. -/
def InvF (p : Qr5P Float) (r c ldv cv : Nat) (rest : List Float) (lo hi : ℤ) (H : ℤ → ℤ → ℝ) (ε ρ : ℝ) (X : ℤ → ℝ) (E1 : ℝ) (g0 : ℤ → ℤ → Float) (s0 : Qr5S Float)
    (k : ℤ) (s : Qr5S Float) : Prop :=
  (∃ T Zq g t v2 v3, ArrF r c ldv cv rest lo hi p.ktop p.kbot k H ρ g0 s.h s.v T g t v2 v3 ∧ RealF lo hi p.ktop p.kbot H ε 0 X E1 k T Zq) ∧
    s = { s0 with h := s.h, v := s.v }

section
variable {p : Qr5P Float} {r c ldv cv : Nat} {rest : List Float} {lo hi k : ℤ} {g0 : ℤ → ℤ → Float} {H : ℤ → ℤ → ℝ} {sm ε D B M m ρ : ℝ}
  {a1 b1 a2 b2 : Float} {s s0 : Qr5S Float}

theorem Go5.of {kt kb : ℤ} (h : Go5 lo hi kt kb H s0 a1 b1 a2 b2 sm ε D B M m ρ) (hr : s.sr = s0.sr) (hi' : s.si = s0.si) :
    Go5 lo hi kt kb H s a1 b1 a2 b2 sm ε D B M m ρ :=
  ⟨h.con, ⟨hr ▸ h.sh.sr1, hi' ▸ h.sh.si1, hr ▸ h.sh.sr2, hi' ▸ h.sh.si2, h.sh.f1, h.sh.f2, h.sh.f3, h.sh.f4, h.sh.hM⟩, h.M0, h.hP, h.unr⟩

/-- One step with three elements. -/
theorem bulge_F {X : ℤ → ℝ} (hX : X = startX p.ktop p.kbot H (toR a1) (toR b1) (toR a2) (toR b2)) (hd : Dim5F p r c ldv lo hi sm)
    (h0 : Go5 lo hi p.ktop p.kbot H s a1 b1 a2 b2 sm ε 0 B M m ρ)
    (hI : InvF p r c ldv cv rest lo hi H ε ρ X (err5 (B + M)) g0 s0 k s) (k1 : p.ktop - 1 ≤ k) (k3 : k + 3 ≤ p.kbot) :
    Tot (qr5Bulge p lo k s 1 >>= fun s => qr5Left p k hi s 1) (InvF p r c ldv cv rest lo hi H ε ρ X (err5 (B + M)) g0 s0 (k + 1)) := by
  obtain ⟨⟨T, Zq, g, t, v2, v3, hA, hR⟩, hs⟩ := hI
  have l1 := hd.lok; have l2 := hd.hik
  have hC := h0.con
  have hBb := hC.hBb
  have B0 := hC.B0
  have big1 := one_le_big
  unfold qr5Bulge
  rw [show k + 2 * (1 - 1) = k by ring]
  dsimp only
  -- what remains once the reflector has been built
  have main : ∀ (G : ℤ → ℤ → Float) (T1 : ℤ → ℤ → ℝ) (h' v' : FA Float) (beta v2' v3' t' : Float) (β V2 V3 θ : ℝ), Mid5 lo hi p.ktop p.kbot k H ε 0 B G T1 Zq →
      Built r c ldv cv rest p.ktop p.kbot k G h' v' beta β v2' v3' t' V2 V3 θ → (∀ a b, ¬ (lo ≤ a ∧ a ≤ hi ∧ lo ≤ b ∧ b ≤ hi) → G a b = g0 a b) →
      (k = p.ktop - 1 → ∃ γ, ∀ a, |γ * houseR (k + 1) V2 V3 θ Zq a p.ktop - X a| ≤ err5 (B + M)) →
      (k + 4 ≤ p.kbot → ρ ^ (k + 1 - p.ktop + 2).toNat ≤ |toR v3'| ∧ 1 ≤ toR t') → qr5Refl3 p k 1 s = pure (h', v', s.vt) →
      Tot ((do
        let __discr ← qr5Refl3 p k 1 s
        match __discr with
        | (h, v, vt) => do
          let t1 ← v.get2 1 1
          let v2 ← v.get2 2 1
          let v3 ← v.get2 3 1
          let t2 := t1 * v2
          let t3 := t1 * v3
          let h ← refl3Cols lo (min p.kbot (k + 3)) (k + 1) (k + 2) (k + 3) v2 v3 t1 t2 t3 h
          let h ← refl3Rows (k + 1) (k + 1) (k + 1) (k + 2) (k + 3) v2 v3 t1 t2 t3 h
          let h ← if k < p.ktop then pure h else qr5Negligible p k h
          pure { s with h := h, v := v, vt := vt }) >>= fun s => qr5Left p k hi s 1)
        (InvF p r c ldv cv rest lo hi H ε ρ X (err5 (B + M)) g0 s0 (k + 1)) := by
    intro G T1 h' v' beta v2' v3' t' β V2 V3 θ hMd hBt hG hf hlow er
    obtain ⟨T', hAf, hTk, hbn⟩ := hMd.step hC l1 l2 k1 (by omega) hBt.near hBt.refl hBt.head
    rw [er, pure_bind]
    dsimp only
    refine (after3F (s := s) hd hBt.arr hBt.vm (le_refl _) (by omega) (le_refl _) k1 k3 B0 hBb fun hk a b x1 x2 y1 y2 => hbn a b (by omega) (by omega) (by omega) y2).mono ?_
    rintro s' ⟨e1, cut, q1, q2⟩
    have ev : s'.v = v' := by rw [e1]
    obtain ⟨T'', w1, w2⟩ := hMd.next (v' := v') (g0 := g0) hC l1 l2 k1 (by omega) hBt.near hAf hTk q1 q2 hBt.vm hG hR.out hf (fun hk => hR.first hk) hlow
    exact ⟨⟨T'', _, _, t', v2', v3', by rw [ev]; exact w1, w2⟩, by rw [e1, hs]⟩
  by_cases hk : k = p.ktop - 1
  · obtain ⟨hTH, hZ⟩ := hR.init hk
    have hMd := hA.mid0 hR hC (by omega)
    have hent : ∀ a b, lo ≤ a → a ≤ hi → lo ≤ b → b ≤ hi → toR (g a b) = H a b := fun a b x1 x2 y1 y2 => by rw [(hMd.on a b x1 x2 y1 y2).2, hTH]
    obtain ⟨v', beta, β, v2', v3', t', V2, V3, θ, er, hBt, hSt⟩ := start3_F (N := B) hd hA.hm hA.vm h0.sh hk (by omega)
      (fun a b x1 x2 y1 y2 => ⟨hA.fin a b (by omega) (by omega) (by omega) (by omega), by
        rw [hent a b (by omega) (by omega) (by omega) (by omega)]
        exact hC.entry hd.lt (by omega) (by omega) (by omega) (by omega)⟩) h0.M0 h0.hP
      (by rw [hent _ _ (by omega) (by omega) (by omega) (by omega), ← hTH]; exact hR.shape.hess _ _ (by omega) (by omega) (by omega) (by omega))
      (by rw [hent _ _ (by omega) (by omega) (by omega) (by omega)]; exact h0.unr)
    refine main g T s.h v' beta v2' v3' t' β V2 V3 θ hMd hBt hA.out (fun _ => ?_) (fun k4 => ?_) er
    · obtain ⟨γ, hγ⟩ := hSt.first
      refine ⟨γ, fun a => ?_⟩
      have := hγ a
      rw [startX_congr hd.lt (g := H) (fun a b x1 x2 y1 y2 => hent a b (by omega) (by omega) (by omega) (by have := hd.lt; omega)), ← hX] at this
      rw [hZ, show k + 1 = p.ktop by omega]
      exact this
    · obtain ⟨x, y, w, q1, q2, q3, q4, q5⟩ := hSt.third (by omega)
      rw [hent _ _ (by omega) (by omega) (by omega) (by omega), hent _ _ (by omega) (by omega) (by omega) (by omega)] at q5
      have := low_start hC (by omega) q1 q2 q3 q4 q5
      rw [hk]
      exact this
  · obtain ⟨T1, hMd, hG, hlow⟩ := hA.midL hR hC l1 l2 (by omega) k3
    have hn := hMd.norm hC (by omega)
    have hent : ∀ a b, lo ≤ a → a ≤ hi → lo ≤ b → b ≤ hi → Bn (late5 k v2 v3 t g a b) B := fun a b x1 x2 y1 y2 => ⟨(hMd.on a b x1 x2 y1 y2).1, by
      rw [(hMd.on a b x1 x2 y1 y2).2]
      exact (fro_entry (block lo hi T1) ⟨a, Finset.mem_Icc.2 ⟨x1, x2⟩⟩ ⟨b, Finset.mem_Icc.2 ⟨y1, y2⟩⟩).trans hn⟩
    have hnc := hC.nc (by omega)
    obtain ⟨h', v', beta, β, v2', v3', t', V2, V3, θ, er, hBt, hTh⟩ := refl3_F hd hA.hm hA.vm (by omega) k3
      (fun a x1 x2 => ⟨(hent a k (by omega) (by omega) (by omega) (by omega)).1, (hent a k (by omega) (by omega) (by omega) (by omega)).2.trans (by linarith)⟩)
      (by
        have : 0 < ρ ^ (k - p.ktop + 2).toNat * m / 4 := by
          have := mul_pos (pow_pos hnc.ρ0 (k - p.ktop + 2).toNat) hnc.m0
          linarith
        exact abs_pos.1 (this.trans_le hlow))
    exact main _ T1 h' v' beta v2' v3' t' β V2 V3 θ hMd hBt hG (fun h => absurd h hk)
      (fun k4 => low_next hC (by omega) k4 hTh (hent _ _ (by omega) (by omega) (by omega) (by omega)).2 (hent _ _ (by omega) (by omega) (by omega) (by omega)).2
        (hent _ _ (by omega) (by omega) (by omega) (by omega)).2 hlow) er

/-- The last step, with two elements. -/
theorem bmp22_F {X : ℤ → ℝ} {incol : ℤ} (hX : X = startX p.ktop p.kbot H (toR a1) (toR b1) (toR a2) (toR b2)) (hd : Dim5F p r c ldv lo hi sm)
    (hn : NoAccF p lo hi) (h0 : Go5 lo hi p.ktop p.kbot H s a1 b1 a2 b2 sm ε 0 B M m ρ)
    (hI : InvF p r c ldv cv rest lo hi H ε ρ X (err5 (B + M)) g0 s0 k s) (k1 : p.ktop - 1 ≤ k) (k3 : k + 2 = p.kbot) :
    Tot (qr5Bmp22 p incol lo hi k 1 s) (InvF p r c ldv cv rest lo hi H ε ρ X (err5 (B + M)) g0 s0 (k + 1)) := by
  obtain ⟨⟨T, Zq, g, t, v2, v3, hA, hR⟩, hs⟩ := hI
  have l1 := hd.lok; have l2 := hd.hik
  have hC := h0.con
  have hBb := hC.hBb
  have B0 := hC.B0
  have big1 := one_le_big
  have hMd := hA.mid0 hR hC (by omega)
  unfold qr5Bmp22
  rw [show k + 2 * (1 - 1) = k by ring, hn.acc, hn.wz]
  dsimp only
  have main : ∀ (h' v' : FA Float) (beta v2' v3' t' : Float) (β V2 V3 θ : ℝ),
      Built r c ldv cv rest p.ktop p.kbot k g h' v' beta β v2' v3' t' V2 V3 θ →
      (k = p.ktop - 1 → ∃ γ, ∀ a, |γ * houseR (k + 1) V2 V3 θ Zq a p.ktop - X a| ≤ err5 (B + M)) → qr5Bmp22Refl p k 1 s = pure (h', v') →
      Tot (do
        let __discr ← qr5Bmp22Refl p k 1 s
        match __discr with
        | (h, v) => do
          let t1 ← v.get2 1 1
          let v2 ← v.get2 2 1
          let t2 := t1 * v2
          let h ← refl2Cols lo (min p.kbot (k + 3)) (k + 1) (k + 2) v2 t1 t2 h
          let h ← refl2Rows (k + 1) hi (k + 1) (k + 2) v2 t1 t2 h
          let h ← if k ≥ p.ktop then qr5Negligible p k h else pure h
          pure { s with h := h, v := v })
        (InvF p r c ldv cv rest lo hi H ε ρ X (err5 (B + M)) g0 s0 (k + 1)) := by
    intro h' v' beta v2' v3' t' β V2 V3 θ hBt hf er
    obtain ⟨T', hAf, hTk, hbn⟩ := hMd.step hC l1 l2 k1 (by omega) hBt.near hBt.refl hBt.head
    rw [er, pure_bind]
    dsimp only
    refine after2F (s := s) (K := fun _ _ s => pure s) hd hBt.arr hBt.vm (le_refl _) (by omega) (le_refl _) k1 k3 B0 hBb (fun hk a b x1 x2 y1 y2 => hbn a b (by omega) (by omega) (by omega) y2) ?_
    rintro s' ⟨e1, cut, q1, q2⟩
    have ev : s'.v = v' := by rw [e1]
    obtain ⟨T'', w1, w2⟩ := hMd.next (v' := v') (g0 := g0) hC l1 l2 k1 (by omega) hBt.near hAf hTk q1 q2 hBt.vm hA.out hR.out hf (fun hk => hR.first hk)
      (fun h => by omega)
    exact Tot.pure ⟨⟨T'', _, _, t', v2', v3', by rw [ev]; exact w1, w2⟩, by rw [e1, hs]⟩
  by_cases hk : k = p.ktop - 1
  · obtain ⟨hTH, hZ⟩ := hR.init hk
    have hent : ∀ a b, lo ≤ a → a ≤ hi → lo ≤ b → b ≤ hi → toR (g a b) = H a b := fun a b x1 x2 y1 y2 => by rw [(hMd.on a b x1 x2 y1 y2).2, hTH]
    obtain ⟨v', beta, β, v2', v3', t', V2, V3, θ, er, hBt, hSt⟩ := start2_F (N := B) hd hA.hm hA.vm h0.sh hk (by omega)
      (fun a b x1 x2 y1 y2 => ⟨hA.fin a b (by omega) (by omega) (by omega) (by omega), by
        rw [hent a b (by omega) (by omega) (by omega) (by omega)]
        exact hC.entry hd.lt (by omega) (by omega) (by omega) (by omega)⟩) h0.M0 h0.hP
      (by rw [hent _ _ (by omega) (by omega) (by omega) (by omega)]; exact h0.unr)
    refine main s.h v' beta v2' v3' t' β V2 V3 θ hBt (fun _ => ?_) er
    obtain ⟨γ, hγ⟩ := hSt.first
    refine ⟨γ, fun a => ?_⟩
    have := hγ a
    rw [startX_congr hd.lt (g := H) (fun a b x1 x2 y1 y2 => hent a b (by omega) (by omega) (by omega) (by have := hd.lt; omega)), ← hX] at this
    rw [hZ, show k + 1 = p.ktop by omega]
    exact this
  · have hn := hMd.norm hC (by omega)
    obtain ⟨h', v', beta, β, v2', v3', t', V2, V3, θ, er, hBt⟩ := refl2_F hd hA.hm hA.vm (by omega) k3
      (fun a x1 x2 => ⟨(hMd.on a k (by omega) (by omega) (by omega) (by omega)).1, by
        rw [(hMd.on a k (by omega) (by omega) (by omega) (by omega)).2]
        exact (fro_entry (block lo hi T) ⟨a, Finset.mem_Icc.2 ⟨by omega, by omega⟩⟩ ⟨k, Finset.mem_Icc.2 ⟨by omega, by omega⟩⟩).trans (hn.trans (by linarith))⟩)
    exact main h' v' beta v2' v3' t' β V2 V3 θ hBt (fun h => absurd h hk) er

/-- One step `krcol`. -/
theorem krcol_F {X : ℤ → ℝ} {incol : ℤ} (hX : X = startX p.ktop p.kbot H (toR a1) (toR b1) (toR a2) (toR b2)) (hd : Dim5F p r c ldv lo hi sm)
    (hn : NoAccF p lo hi) (h0 : Go5 lo hi p.ktop p.kbot H s0 a1 b1 a2 b2 sm ε 0 B M m ρ)
    (hI : InvF p r c ldv cv rest lo hi H ε ρ X (err5 (B + M)) g0 s0 k s) (k1 : p.ktop - 1 ≤ k) (k3 : k + 2 ≤ p.kbot) :
    Tot (qr5Krcol p incol lo s k) (InvF p r c ldv cv rest lo hi H ε ρ X (err5 (B + M)) g0 s0 (k + 1)) := by
  have hs := hI.2
  have h1 : Go5 lo hi p.ktop p.kbot H s a1 b1 a2 b2 sm ε 0 B M m ρ := h0.of (by rw [hs]) (by rw [hs])
  have l1 := hd.lok; have l2 := hd.hik
  unfold qr5Krcol
  have e1 : max 1 ((p.ktop - k).tdiv 2 + 1) = 1 := by
    have := tdiv_le_zero (show p.ktop - k ≤ 1 by omega)
    omega
  dsimp only
  rw [hn.acc, hn.wz, hd.nb, e1]
  simp only [Bool.false_eq_true, if_false, hn.jb]
  by_cases hk : k + 2 = p.kbot
  · have e2 : min 1 ((p.kbot - k - 1).tdiv 2) = 0 := by
      rw [Int.tdiv_eq_ediv_of_nonneg (by omega)]
      omega
    rw [e2, if_pos (by omega)]
    refine Tot.bind (bmp22_F hX hd hn h1 hI k1 hk) fun s1 h1 => ?_
    rw [forDown_empty (by norm_num), pure_bind, forDown_empty (by norm_num), pure_bind]
    exact Tot.pure h1
  · have e2 : min 1 ((p.kbot - k - 1).tdiv 2) = 1 := by
      rw [Int.tdiv_eq_ediv_of_nonneg (by omega)]
      omega
    rw [e2, if_neg (by omega), pure_bind]
    have one : ∀ (f : Qr5S Float → ℤ → R (Qr5S Float)) s, forDown 1 1 s f = f s 1 := by
      intro f s
      rw [forDown_cons (le_refl _)]
      simp
    rw [one]
    have := bulge_F hX hd h1 hI k1 (by omega)
    simpa [one] using this

/-- One sweep. -/
theorem incol_F {X : ℤ → ℝ} (hX : X = startX p.ktop p.kbot H (toR a1) (toR b1) (toR a2) (toR b2)) (hd : Dim5F p r c ldv lo hi sm)
    (hn : NoAccF p lo hi) (h0 : Go5 lo hi p.ktop p.kbot H s0 a1 b1 a2 b2 sm ε 0 B M m ρ)
    (hI : InvF p r c ldv cv rest lo hi H ε ρ X (err5 (B + M)) g0 s0 k s) (k1 : p.ktop - 1 ≤ k) (k3 : k + 2 ≤ p.kbot) :
    Tot (qr5Incol p s k) (InvF p r c ldv cv rest lo hi H ε ρ X (err5 (B + M)) g0 s0 (min (k + 2) (p.kbot - 1))) := by
  unfold qr5Incol
  dsimp only
  simp only [hn.acc, Bool.false_eq_true, if_false, hn.jt, hd.nb, pure_bind]
  have e : min (k + 2 * 1 - 1) (p.kbot - 2) + 1 = min (k + 2) (p.kbot - 1) := by omega
  refine Tot.bind (P := InvF p r c ldv cv rest lo hi H ε ρ X (err5 (B + M)) g0 s0 (min (k + 2) (p.kbot - 1))) ?_ fun s1 h1 => Tot.pure h1
  rw [← e]
  exact Tot.forUp (P := fun i s => InvF p r c ldv cv rest lo hi H ε ρ X (err5 (B + M)) g0 s0 i s) (by omega) hI
    fun i s i1 i2 hi' => krcol_F hX hd hn h0 hi' (by omega) (by omega)

/-- All the sweeps. -/
theorem sweeps_F {X : ℤ → ℝ} (hX : X = startX p.ktop p.kbot H (toR a1) (toR b1) (toR a2) (toR b2)) (hd : Dim5F p r c ldv lo hi sm)
    (hn : NoAccF p lo hi) (h0 : Go5 lo hi p.ktop p.kbot H s0 a1 b1 a2 b2 sm ε 0 B M m ρ)
    (hI : InvF p r c ldv cv rest lo hi H ε ρ X (err5 (B + M)) g0 s0 (p.ktop - 1) s) :
    Tot (forStep (p.ktop - 2 * p.nbmps + 1) (p.kbot - 2) (2 * asUsize p.nbmps) s (qr5Incol p))
      (InvF p r c ldv cv rest lo hi H ε ρ X (err5 (B + M)) g0 s0 (p.kbot - 1)) := by
  have hlt := hd.lt
  rw [hd.nb, show p.ktop - 2 * 1 + 1 = p.ktop - 1 by ring, show 2 * asUsize 1 = 2 from rfl]
  refine (Tot.forStep (P := fun i s => InvF p r c ldv cv rest lo hi H ε ρ X (err5 (B + M)) g0 s0 (min i (p.kbot - 1)) s) (by norm_num)
    (by rw [show min (p.ktop - 1) (p.kbot - 1) = p.ktop - 1 by omega]; exact hI) fun i s i1 i2 hi' => ?_).mono ?_
  · rw [show min i (p.kbot - 1) = i by omega] at hi'
    exact incol_F hX hd hn h0 hi' i1 (by omega)
  · rintro s1 ⟨i, i1, i2, h⟩
    rwa [show min i (p.kbot - 1) = p.kbot - 1 by omega] at h

end

end Verif

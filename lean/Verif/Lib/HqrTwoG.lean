import Verif.Lib.HqrTop
import Verif.Props.HqrStuckF64
import Verif.Props.HqrTop

/-!
# `dlahqr` on an active block of order two, in any arithmetic
-/

namespace Verif
open Scalar Spec

namespace Spec
variable {F : Type} [Scalar F]

/-- The array `A` with the block at rows and columns `ilo`, `ilo + 1` replaced by the one `dlanv2` returns and, if the Schur form is wanted,
with the entries right of the block changed as `dlahqr` does: of row `ilo` only the entry next to the block is rotated, of row `ilo + 1` all
entries up to column `n`; no entry above the block is rotated. -/
def twoH (wantt : Bool) (n ilo : Int) (o : Lanv2 F) (A : Int → Int → F) (a b : Int) : F :=
  if a = ilo ∧ b = ilo then o.a
  else if a = ilo ∧ b = ilo + 1 then o.b
  else if a = ilo + 1 ∧ b = ilo then o.c
  else if a = ilo + 1 ∧ b = ilo + 1 then o.d
  else if wantt = true ∧ a = ilo ∧ b = ilo + 2 ∧ b ≤ n then o.cs * A ilo b + o.sn * A (ilo + 1) b
  else if wantt = true ∧ a = ilo + 1 ∧ ilo + 2 ≤ b ∧ b ≤ n then o.cs * A (ilo + 1) b - o.sn * A ilo b
  else A a b

/-- The test by which a block of order two with rows `(p, q)` and `(s, t)` counts as already split, as computed in the arithmetic at hand: `s` is
below the safe minimum times `2 / eps`, or it is below `eps (|p| + |t|)` and passes the criterion of Ahues and Tisseur. -/
def splitTwo (p q s t : F) : Bool :=
  let eps : F := dlamch 'P'
  let small : F := dlamch 'S' * (ofInt 2 / eps)
  let ab := fmax (abs s) (abs q)
  let ba := fmin (abs s) (abs q)
  let aa := fmax (abs t) (abs (p - t))
  let bb := fmin (abs t) (abs (p - t))
  (abs s ≤ᶠ small) || ((abs s ≤ᶠ eps * (abs p + abs t)) && (ba * (ab / (aa + ab)) ≤ᶠ fmax small (eps * (bb * (aa / (aa + ab))))))

/-- The array `Z` with columns `ilo` and `ilo + 1` rotated in rows `iloz..ihiz`. -/
def twoZ (wantz : Bool) (ilo iloz ihiz : Int) (o : Lanv2 F) (Z : Int → Int → F) (a b : Int) : F :=
  if wantz = true ∧ iloz ≤ a ∧ a ≤ ihiz then
    if b = ilo then o.cs * Z a ilo + o.sn * Z a (ilo + 1)
    else if b = ilo + 1 then o.cs * Z a (ilo + 1) - o.sn * Z a ilo
    else Z a b
  else Z a b

end Spec

variable {F : Type} [Scalar F]

/-- As `rotBack`, for the entries of the first vector that the second write overwrites: they keep their value. -/
theorem rotBack' {r c : Nat} {g : Int → Int → F} {h : FA F} (hh : Is2 h r c (r * c) g) (hL : r * c < 2 ^ 31) (hr : 0 < r) (hc : 0 < c)
    {q0 q1 n inc : Nat} (hinc : 0 < inc) (h01 : q0 < q1) (hq1 : q1 ≤ r * c) (hfit : ∀ k < n, q1 + k * inc < r * c) (hn : n * inc + 1 < 2 ^ 31) (cs sn : F) :
    ∃ x y h1 h2 g', drot (n : Int) (h.data.drop q0) (inc : Int) (h.data.drop q1) (inc : Int) cs sn = pure (x, y) ∧
      writeBack ((q0 : Int) + 1) x h = pure h1 ∧ writeBack ((q1 : Int) + 1) y h1 = pure h2 ∧ Is2 h2 r c (r * c) g' ∧
      (∀ a b, Cell r (r * c) a b → (∀ k < n, cpos r a b = q0 + k * inc → q1 ≤ cpos r a b) → (∀ k < n, cpos r a b ≠ q1 + k * inc) → g' a b = g a b) ∧
      (∀ k < n, ∀ a b a' b', Cell r (r * c) a b → Cell r (r * c) a' b' → cpos r a b = q0 + k * inc → cpos r a' b' = q1 + k * inc →
        g' a' b' = cs * g a' b' - sn * g a b ∧ (q0 + k * inc < q1 → g' a b = cs * g a b + sn * g a' b')) := by
  have hdl : h.data.length = r * c := by rw [hh.data, length_tab2]
  have six : ∀ k, strideIx n (inc : Int) k = k * inc := by
    intro k; unfold strideIx; rw [if_neg (by omega)]; simp
  obtain ⟨x, y, e, lx, ly, hxy, kx, ky⟩ := C14_drot n (h.data.drop q0) (h.data.drop q1) (inc : Int) (inc : Int) cs sn (by omega) (by omega)
    (fun k hk => by rw [six, List.length_drop]; have := hfit k hk; omega)
    (fun k hk => by rw [six, List.length_drop]; have := hfit k hk; omega) (by simpa using hn) (by simpa using hn)
  rw [List.length_drop] at lx ly
  obtain ⟨h1, h2, g', e1, e2, hI, hg⟩ := writeTwo hh hL (fun h' r' c' => len_shape (r'.trans hh.rows) (c'.trans hh.cols) hL hc) q0 q1 h01.le hq1 hr x y
    (by omega) (by omega)
  have at0 : ∀ (a b : Int), Cell r (r * c) a b → ∀ q, q ≤ cpos r a b → (h.data.drop q)[cpos r a b - q]? = some (g a b) := by
    intro a b hab q hq
    rw [List.getElem?_drop, show q + (cpos r a b - q) = cpos r a b by omega, data_at hh hab]
  refine ⟨x, y, h1, h2, g', e, e1, e2, hI, ?_, ?_⟩
  · intro a b hab n0 n1
    have := hg a b hab
    by_cases c1 : q1 ≤ cpos r a b
    · rw [if_pos c1, ky _ (fun k hk => by rw [six]; have := n1 k hk; omega), at0 a b hab q1 c1] at this
      exact Option.some.inj this
    · rw [if_neg c1] at this
      by_cases c0 : q0 ≤ cpos r a b
      · rw [if_pos c0, kx _ (fun k hk => by rw [six]; have := n0 k hk; omega), at0 a b hab q0 c0] at this
        exact Option.some.inj this
      · rw [if_neg c0] at this
        exact Option.some.inj this
  · intro k hk a b a' b' hab hab' p0 p1
    obtain ⟨v1, v2⟩ := hxy k hk
    have ex := at0 a b hab q0 (by omega)
    have ey := at0 a' b' hab' q1 (by omega)
    rw [show cpos r a b - q0 = k * inc by omega] at ex
    rw [show cpos r a' b' - q1 = k * inc by omega] at ey
    simp only [six] at v1 v2
    obtain ⟨_, ex⟩ := List.getElem?_eq_some_iff.1 ex
    obtain ⟨_, ey⟩ := List.getElem?_eq_some_iff.1 ey
    rw [ex, ey] at v1 v2
    constructor
    · have := hg a' b' hab'
      rw [if_pos (by omega), show cpos r a' b' - q1 = k * inc by omega, v2] at this
      exact Option.some.inj this
    · intro hlt
      have := hg a b hab
      rw [if_neg (by omega), if_pos (by omega), show cpos r a b - q0 = k * inc by omega, v1] at this
      exact Option.some.inj this

/-- The second half of the rotation of `h`: the copies of the two columns are rotated and dropped. -/
theorem rotH_rest {r c : Nat} (hL : r * c < 2 ^ 31) {i : Int} (i1 : 2 ≤ i) (i2 : i ≤ r) (i3 : i ≤ c) (cs sn : F) (h' : FA F) (g' : Int → Int → F)
    (hh' : Is2 h' r c (r * c) g') : ∃ h2, (do
      let h10 ← h'.from2 1 (i - 1)
      let h11 ← h'.from2 1 i
      let _ ← drot (i - 1 - 1) h10 1 h11 1 cs sn
      let i10 ← h'.idx 1 (i - 1)
      let i11 ← h'.idx 1 i
      let h ← writeBack i10 h10 h'
      writeBack i11 h11 h : R (FA F)) = pure h2 ∧ Is2 h2 r c (r * c) g' := by
  have hr : 0 < r := by omega
  have hc : 0 < c := by omega
  have c0 : Cell r (r * c) 1 (i - 1) := cell_rc (by omega) (by omega) (by omega) (by omega)
  have c1 : Cell r (r * c) 1 i := cell_rc (by omega) (by omega) (by omega) (by omega)
  have e01 : cpos r 1 i = cpos r 1 (i - 1) + r := cpos_step c0 c1 (by ring)
  have hlen := len_shape hh'.rows hh'.cols hL hc
  have hdl : h'.data.length = r * c := by rw [hh'.data, length_tab2]
  obtain ⟨n, hn'⟩ : ∃ n : Nat, i - 1 - 1 = n := ⟨(i - 1 - 1).toNat, by omega⟩
  have pos1 : ∀ k : Nat, k < n → Cell r (r * c) (1 + k) i ∧ cpos r (1 + k) i = cpos r 1 i + k * 1 := by
    intro k hk
    have hc' : Cell r (r * c) (1 + k) i := cell_rc (by omega) (by omega) (by omega) (by omega)
    exact ⟨hc', cpos_step c1 hc' (by push_cast; ring)⟩
  have hrc : r ≤ r * c := Nat.le_mul_of_pos_right r hc
  obtain ⟨x, y, _, _, _, er, _⟩ := rotBack hh' hL hr hc (n := n) (inc := 1) (q0 := cpos r 1 (i - 1))
    (q1 := cpos r 1 i) (by omega) (by omega) (cell_pos c1).2.le
    (fun k hk => by have := cell_pos (pos1 k hk).1; rw [← (pos1 k hk).2]; exact this.2) (by omega) cs sn
  obtain ⟨h1, h2, g2, w1, w2, hI, hg2⟩ := writeTwo hh' hL (fun h'' r' c' => len_shape (r'.trans hh'.rows) (c'.trans hh'.cols) hL hc) (cpos r 1 (i - 1)) (cpos r 1 i)
    (by omega) (cell_pos c1).2.le hr (h'.data.drop (cpos r 1 (i - 1))) (h'.data.drop (cpos r 1 i)) (by rw [List.length_drop, hdl]) (by rw [List.length_drop, hdl])
  refine ⟨h2, ?_, hI.congrCell hr fun a b hab => ?_⟩
  · rw [from2_eq hh' hL hlen c0, from2_eq hh' hL hlen c1, idx_eq hh' hL c0, idx_eq hh' hL c1]
    simp only [pure_bind]
    rw [hn']
    rw [show drot (n : Int) (h'.data.drop (cpos r 1 (i - 1))) 1 (h'.data.drop (cpos r 1 i)) 1 cs sn = pure (x, y) from er]
    simp only [pure_bind]
    rw [w1]
    simp only [pure_bind]
    rw [w2]
  · have := hg2 a b hab
    rw [List.getElem?_drop, List.getElem?_drop] at this
    have d := data_at hh' hab
    by_cases k1 : cpos r 1 i ≤ cpos r a b
    · rw [if_pos k1, show cpos r 1 i + (cpos r a b - cpos r 1 i) = cpos r a b by omega, d] at this
      exact Option.some.inj this
    · rw [if_neg k1] at this
      by_cases k0 : cpos r 1 (i - 1) ≤ cpos r a b
      · rw [if_pos k0, show cpos r 1 (i - 1) + (cpos r a b - cpos r 1 (i - 1)) = cpos r a b by omega, d] at this
        exact Option.some.inj this
      · rw [if_neg k0] at this
        exact Option.some.inj this

/-- What the rotation of the rest of `h` does, entry by entry. -/
theorem hqrRotH_exact {r c : Nat} {g : Int → Int → F} {h : FA F} (hh : Is2 h r c (r * c) g) (hL : r * c < 2 ^ 31) (p : HqrP F) {i : Int}
    (hld : p.ldh = r) (i1 : 2 ≤ i) (i2 : i ≤ r) (i3 : i ≤ c) (hn : p.n ≤ c) (cs sn : F) :
    ∃ h', hqrRotH p i cs sn h = pure h' ∧ Is2 h' r c (r * c) fun a b =>
      if a = i - 1 ∧ b = i + 1 ∧ b ≤ p.n then cs * g (i - 1) b + sn * g i b
      else if a = i ∧ i + 1 ≤ b ∧ b ≤ p.n then cs * g i b - sn * g (i - 1) b
      else g a b := by
  have hr : 0 < r := by omega
  have hc : 0 < c := by omega
  unfold hqrRotH
  by_cases hni : p.n > i
  · simp only [if_pos hni]
    have c0 : Cell r (r * c) (i - 1) (i + 1) := cell_rc (by omega) (by omega) (by omega) (by omega)
    have c1 : Cell r (r * c) i (i + 1) := cell_rc (by omega) (by omega) (by omega) (by omega)
    have e01 : cpos r i (i + 1) = cpos r (i - 1) (i + 1) + 1 := cpos_step c0 c1 (by push_cast; ring)
    have hlen := len_shape hh.rows hh.cols hL hc
    obtain ⟨n, hn'⟩ : ∃ n : Nat, p.n - i = n := ⟨(p.n - i).toNat, by omega⟩
    have pos1 : ∀ k : Nat, k < n → Cell r (r * c) i (i + 1 + k) ∧ cpos r i (i + 1 + k) = cpos r i (i + 1) + k * r := by
      intro k hk
      have hc' : Cell r (r * c) i (i + 1 + k) := cell_rc (by omega) (by omega) (by omega) (by omega)
      exact ⟨hc', cpos_step c1 hc' (by push_cast; ring)⟩
    have pos0 : ∀ k : Nat, k < n → Cell r (r * c) (i - 1) (i + 1 + k) ∧ cpos r (i - 1) (i + 1 + k) = cpos r (i - 1) (i + 1) + k * r := by
      intro k hk
      have hc' : Cell r (r * c) (i - 1) (i + 1 + k) := cell_rc (by omega) (by omega) (by omega) (by omega)
      exact ⟨hc', cpos_step c0 hc' (by push_cast; ring)⟩
    have hnr : n * r + 1 < 2 ^ 31 := by
      have h1 : (n + 2) * r ≤ c * r := Nat.mul_le_mul_right r (by omega)
      rw [mul_comm c r, add_mul] at h1
      omega
    obtain ⟨x, y, z1, z2, g', e, w1, w2, hI, same, rot⟩ := rotBack' hh hL hr hc (n := n) (inc := r) (q0 := cpos r (i - 1) (i + 1))
      (q1 := cpos r i (i + 1)) hr (by omega) (cell_pos c1).2.le
      (fun k hk => by have := cell_pos (pos1 k hk).1; rw [← (pos1 k hk).2]; exact this.2) hnr cs sn
    obtain ⟨h3, e3, hh3⟩ := rotH_rest hL i1 i2 i3 cs sn z2 _ hI
    refine ⟨h3, ?_, hh3.congrCell hr fun a b hab => ?_⟩
    · rw [from2_eq hh hL hlen c0, from2_eq hh hL hlen c1, idx_eq hh hL c0, idx_eq hh hL c1, hn', hld]
      simp only [pure_bind]
      rw [e]
      simp only [pure_bind]
      rw [w1]
      simp only [pure_bind]
      rw [w2]
      simp only [pure_bind]
      exact e3
    · by_cases k1 : a = i - 1 ∧ b = i + 1 ∧ b ≤ p.n
      · rw [if_pos k1, k1.1, k1.2.1]
        have := rot 0 (by omega) (i - 1) (i + 1) i (i + 1) c0 c1 (by omega) (by omega)
        exact this.2 (by omega)
      · rw [if_neg k1]
        by_cases k2 : a = i ∧ i + 1 ≤ b ∧ b ≤ p.n
        · rw [if_pos k2, k2.1]
          obtain ⟨k, hk⟩ : ∃ k : Nat, b = i + 1 + k := ⟨(b - (i + 1)).toNat, by omega⟩
          have hkn : k < n := by omega
          rw [hk]
          exact (rot k hkn _ _ _ _ (pos0 k hkn).1 (pos1 k hkn).1 (pos0 k hkn).2 (pos1 k hkn).2).1
        · rw [if_neg k2]
          refine same a b hab (fun k' hk' he => ?_) fun k' hk' he => ?_
          · have := cpos_inj hab (pos0 k' hk').1 (he.trans (pos0 k' hk').2.symm)
            have hk0 : 1 ≤ k' := by omega
            have : 1 * r ≤ k' * r := Nat.mul_le_mul_right r hk0
            omega
          · have := cpos_inj hab (pos1 k' hk').1 (he.trans (pos1 k' hk').2.symm)
            omega
  · simp only [if_neg hni]
    obtain ⟨h3, e3, hh3⟩ := rotH_rest hL i1 i2 i3 cs sn h g hh
    refine ⟨h3, e3, hh3.congrCell hr fun a b hab => ?_⟩
    rw [if_neg (by omega), if_neg (by omega)]

end Verif

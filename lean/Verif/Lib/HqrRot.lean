import Verif.Lib.HqrRefl
import Verif.Props.Blas1
import Mathlib.Tactic.Positivity

/-!
# The rotations of the rest of `h` and of `z` in `dlahqr`
-/

namespace Verif
open Scalar Spec

variable {F : Type} [Scalar F]

/-- The position of the entry `(a, b)` in the data. -/
def cpos (ld : Nat) (a b : Int) : Nat := ((b - 1) * ld + (a - 1)).toNat

section
variable {ld L : Nat} {cols : Int} {g : Int → Int → F}

theorem cell_pos {a b : Int} (h : Cell ld L a b) : (cpos ld a b : Int) = (b - 1) * ld + (a - 1) ∧ cpos ld a b < L := by
  obtain ⟨h1, h2, h3, h4⟩ := h
  have hm : (0 : Int) ≤ (b - 1) * ld := Int.mul_nonneg (by omega) (by omega)
  unfold cpos
  omega

theorem data_at {h : FA F} (hh : Is2 h ld cols L g) {a b : Int} (hc : Cell ld L a b) : h.data[cpos ld a b]? = some (g a b) := by
  obtain ⟨q, hq, hi, hj⟩ := cell_idx hc.1 hc.2.1 hc.2.2.1
  have hp := cell_pos hc
  have e : cpos ld a b = q := by omega
  rw [hh.data, tab2_getElem?, e, if_pos (by omega), hi, hj]

/-- `h[(k, j)..]` copies the data from that entry on. -/
theorem from2_eq {h : FA F} (hh : Is2 h ld cols L g) (hL : L < 2 ^ 31) (hlen : h.len = pure (L : Int)) {k j : Int}
    (hc : Cell ld L k j) : h.from2 k j = pure (h.data.drop (cpos ld k j)) := by
  obtain ⟨h1, h2, h3, h4⟩ := hc
  have hm : (0 : Int) ≤ (j - 1) * ld := Int.mul_nonneg (by omega) (by omega)
  have hj : j - 1 ≤ (j - 1) * ld := by nlinarith
  have hL' : (L : Int) < 2147483648 := by exact_mod_cast hL
  have hlen' : h.data.length = L := by rw [hh.data, length_tab2]
  unfold FA.from2
  rw [isub_ok (by unfold FitsI32; omega), hh.rows]
  simp only [pure_bind]
  rw [imul_ok (by unfold FitsI32; omega)]
  simp only [pure_bind]
  rw [iadd_ok (by unfold FitsI32; omega)]
  simp only [pure_bind]
  unfold FA.from1 cpos
  rw [hlen, pure_bind, if_pos (by omega), asUsize_nonneg (by omega) (by unfold FitsI32; omega), if_pos (by omega)]
  congr 3; ring

theorem idx_eq {h : FA F} (hh : Is2 h ld cols L g) (hL : L < 2 ^ 31) {k j : Int}
    (hc : Cell ld L k j) : h.idx k j = pure ((cpos ld k j : Int) + 1) := by
  have hp := cell_pos hc
  obtain ⟨h1, h2, h3, h4⟩ := hc
  have hm : (0 : Int) ≤ (j - 1) * ld := Int.mul_nonneg (by omega) (by omega)
  have hj : j - 1 ≤ (j - 1) * ld := by nlinarith
  have hL' : (L : Int) < 2147483648 := by exact_mod_cast hL
  unfold FA.idx
  rw [isub_ok (by unfold FitsI32; omega), hh.rows]
  simp only [pure_bind]
  rw [imul_ok (by unfold FitsI32; omega)]
  simp only [pure_bind]
  rw [iadd_ok (by unfold FitsI32; omega), hp.1]
  congr 1; ring

/-- Writing a list back from position `q` on. -/
theorem writeBack_ok (a : FA F) (hL : L < 2 ^ 31) (hlen : a.len = pure (L : Int)) (hdl : a.data.length = L) (q : Nat) (hq : q ≤ L) (vec : List F)
    (hv : vec.length = L - q) :
    ∃ a', writeBack ((q : Int) + 1) vec a = pure a' ∧ a'.data = a.data.take q ++ vec ∧ a'.rows = a.rows ∧ a'.cols = a.cols := by
  have hL' : (L : Int) < 2147483648 := by exact_mod_cast hL
  unfold writeBack
  rw [hlen, pure_bind]
  obtain ⟨a', e, h1⟩ := forUp_inv (P := fun i (b : FA F) => b.rows = a.rows ∧ b.cols = a.cols ∧
      Is1 b L fun k => if (q : Int) < k ∧ k < i then vec.getD (k - q - 1).toNat minPositive else ofList a.data k)
    (f := fun (a : FA F) (idx : Int) => match vec[asUsize (idx - ((q : Int) + 1))]? with
      | some x => pure (a.set1 idx x)
      | none => R.panic .bounds) (lo := (q : Int) + 1) (hi := (L : Int)) (by omega)
    (by
      intro i b i1 i2 ⟨p1, p2, p3⟩
      have hx : vec[asUsize (i - ((q : Int) + 1))]? = some (vec.getD (i - q - 1).toNat minPositive) := by
        rw [asUsize_nonneg (by omega) (by unfold FitsI32; omega), show i - ((q : Int) + 1) = i - q - 1 by ring]
        rw [List.getElem?_eq_getElem (by omega), List.getD_eq_getElem?_getD, List.getElem?_eq_getElem (by omega)]
        rfl
      rw [hx]
      refine ⟨_, rfl, ?_, ?_, ?_⟩
      · exact ((set1_shape b i _).1).symm.trans p1
      · exact ((set1_shape b i _).2.1).symm.trans p2
      · have := (set1_is1 p3 (i := i) (by omega) (by unfold FitsI32; omega) (vec.getD (i - q - 1).toNat minPositive))
        unfold Is1 at this ⊢
        rw [this]
        apply tab_congr
        intro k k1 k2
        unfold upd
        by_cases hk : k = i
        · subst hk
          rw [if_pos rfl, if_pos (by omega)]
        · rw [if_neg hk]
          beta_reduce
          by_cases hk2 : (q : Int) < k ∧ k < i
          · rw [if_pos hk2, if_pos (by omega)]
          · rw [if_neg hk2, if_neg (by omega)])
    (s := a) (by
      refine ⟨rfl, rfl, ?_⟩
      have := is1_ofList a
      unfold Is1 at this ⊢
      rw [hdl] at this
      rw [this]
      apply tab_congr
      intro k k1 k2
      rw [if_neg (by omega), ← this])
  refine ⟨a', e, ?_, h1.1, h1.2.1⟩
  rw [h1.2.2]
  apply List.ext_getElem?
  intro k
  rw [tab_getElem?, List.getElem?_append, List.length_take, List.getElem?_take]
  have hmin : min q a.data.length = q := by omega
  rw [hmin]
  by_cases hkq : k < q
  · rw [if_pos hkq, if_pos hkq, if_pos (by omega), if_neg (by omega)]
    unfold ofList
    rw [List.getD_eq_getElem?_getD, show ((k : Int) + 1 - 1).toNat = k by omega, List.getElem?_eq_getElem (by omega)]
    rfl
  · rw [if_neg hkq]
    by_cases hkL : k < L
    · rw [if_pos hkL, if_pos (by omega), List.getD_eq_getElem?_getD, show ((k : Int) + 1 - q - 1).toNat = k - q by omega,
        List.getElem?_eq_getElem (by omega)]
      rfl
    · rw [if_neg hkL, List.getElem?_eq_none (by omega)]

end

/-- Two lists written back one after the other. -/
theorem writeTwo {r c : Nat} {g : Int → Int → F} {h : FA F} (hh : Is2 h r c (r * c) g) (hL : r * c < 2 ^ 31) (hlen : ∀ h' : FA F, h'.rows = h.rows → h'.cols = h.cols → h'.len = pure ((r * c : Nat) : Int))
    (q0 q1 : Nat) (hq0 : q0 ≤ q1) (hq1 : q1 ≤ r * c) (hr : 0 < r) (x y : List F) (hx : x.length = r * c - q0) (hy : y.length = r * c - q1) :
    ∃ h1 h2 g', writeBack ((q0 : Int) + 1) x h = pure h1 ∧ writeBack ((q1 : Int) + 1) y h1 = pure h2 ∧ Is2 h2 r c (r * c) g' ∧
      ∀ a b, Cell r (r * c) a b → some (g' a b) = if q1 ≤ cpos r a b then y[cpos r a b - q1]? else
        if q0 ≤ cpos r a b then x[cpos r a b - q0]? else some (g a b) := by
  have hdl : h.data.length = r * c := by rw [hh.data, length_tab2]
  obtain ⟨h1, e1, d1, r1, c1⟩ := writeBack_ok h hL (hlen h rfl rfl) hdl q0 (by omega) x hx
  have hdl1 : h1.data.length = r * c := by rw [d1, List.length_append, List.length_take, hx]; omega
  obtain ⟨h2, e2, d2, r2, c2⟩ := writeBack_ok h1 hL (hlen h1 r1 c1) hdl1 q1 hq1 y hy
  have hdl2 : h2.data.length = r * c := by rw [d2, List.length_append, List.length_take, hy]; omega
  have hI : Is2 h2 r c (r * c) (ofList2 r h2.data) :=
    ⟨by rw [r2, r1, hh.rows], by rw [c2, c1, hh.cols], by rw [← hdl2, tab2_ofList2 hr]⟩
  refine ⟨h1, h2, _, e1, e2, hI, fun a b hab => ?_⟩
  rw [← data_at hI hab, d2, d1, List.getElem?_append, List.length_take, List.length_append, List.length_take, hx, hdl]
  have hm : min q1 (min q0 (r * c) + (r * c - q0)) = q1 := by omega
  rw [hm]
  by_cases h1' : q1 ≤ cpos r a b
  · rw [if_neg (by omega), if_pos h1']
  · rw [if_pos (by omega), if_neg h1', List.getElem?_take, if_pos (by omega), List.getElem?_append, List.length_take, hdl]
    have hm2 : min q0 (r * c) = q0 := by omega
    rw [hm2]
    by_cases h0' : q0 ≤ cpos r a b
    · rw [if_neg (by omega), if_pos h0']
    · rw [if_pos (by omega), if_neg h0', List.getElem?_take, if_pos (by omega), data_at hh hab]

theorem len_shape {h : FA F} {r c : Nat} (h1 : h.rows = r) (h2 : h.cols = c) (hL : r * c < 2 ^ 31) (hc : 0 < c) :
    h.len = pure ((r * c : Nat) : Int) := by
  unfold FA.len FA.is2d
  rw [h2, h1]
  have hf : FitsI32 ((r : ℤ) * c) := by
    have : ((r * c : Nat) : ℤ) < 2 ^ 31 := by exact_mod_cast hL
    have h0 : (0 : ℤ) ≤ r * c := by positivity
    push_cast at this
    rw [fits_iff]
    constructor <;> omega
  rw [imul_ok hf]
  push_cast
  simp only [show decide ((c : ℤ) > 0) = true by simpa using hc, Bool.and_true, decide_eq_true_eq]
  split
  · rfl
  · rw [show (r : ℤ) = 0 by omega, zero_mul]

theorem Is2.congrCell {a : FA F} {ld L : Nat} (hld : 0 < ld) {cols : Int} {g g' : Int → Int → F} (h : Is2 a ld cols L g)
    (hg : ∀ i j : Int, Cell ld L i j → g i j = g' i j) : Is2 a ld cols L g' := by
  refine ⟨h.rows, h.cols, h.data.trans ?_⟩
  apply List.map_congr_left
  intro k hk
  have hm := Nat.mod_lt k hld
  have hd := Nat.div_add_mod k ld
  have hkL : k < L := List.mem_range.1 hk
  apply hg
  have hq : (0 : ℤ) ≤ ((k / ld : Nat) : ℤ) := Int.natCast_nonneg _
  refine ⟨by omega, by omega, by linarith, ?_⟩
  have e : ((k / ld : Nat) : ℤ) + 1 - 1 = (k / ld : Nat) := by ring
  rw [e, mul_comm]
  have : ((ld * (k / ld) : Nat) : ℤ) = ld * (k / ld : Nat) := by push_cast; rfl
  omega

theorem cpos_inj {r L : Nat} {a b a' b' : Int} (h : Cell r L a b) (h' : Cell r L a' b') (e : cpos r a b = cpos r a' b') : a = a' ∧ b = b' := by
  have p := (cell_pos h).1
  have p' := (cell_pos h').1
  obtain ⟨h1, h2, h3, h4⟩ := h
  obtain ⟨k1, k2, k3, k4⟩ := h'
  have hr : (0 : Int) < r := by omega
  have e' : (b - 1) * (r : ℤ) + (a - 1) = (b' - 1) * r + (a' - 1) := by rw [← p, ← p', e]
  have hb : b = b' := by
    rcases lt_trichotomy b b' with h | h | h
    · exfalso
      have : (b - 1 + 1) * (r : ℤ) ≤ (b' - 1) * r := mul_le_mul_of_nonneg_right (by omega) hr.le
      rw [add_mul] at this; omega
    · exact h
    · exfalso
      have : (b' - 1 + 1) * (r : ℤ) ≤ (b - 1) * r := mul_le_mul_of_nonneg_right (by omega) hr.le
      rw [add_mul] at this; omega
  subst hb
  exact ⟨by omega, rfl⟩

/-- `drot` on two slices of an array, written back one after the other. -/
theorem rotBack {r c : Nat} {g : Int → Int → F} {h : FA F} (hh : Is2 h r c (r * c) g) (hL : r * c < 2 ^ 31) (hr : 0 < r) (hc : 0 < c)
    {q0 q1 n inc : Nat} (hinc : 0 < inc) (h01 : q0 < q1) (hq1 : q1 ≤ r * c) (hfit : ∀ k < n, q1 + k * inc < r * c) (hn : n * inc + 1 < 2 ^ 31) (cs sn : F) :
    ∃ x y h1 h2 g', drot (n : Int) (h.data.drop q0) (inc : Int) (h.data.drop q1) (inc : Int) cs sn = pure (x, y) ∧
      writeBack ((q0 : Int) + 1) x h = pure h1 ∧ writeBack ((q1 : Int) + 1) y h1 = pure h2 ∧ Is2 h2 r c (r * c) g' ∧
      (∀ a b, Cell r (r * c) a b → (∀ k < n, cpos r a b ≠ q0 + k * inc) → (∀ k < n, cpos r a b ≠ q1 + k * inc) → g' a b = g a b) ∧
      (∀ k < n, ∀ a b a' b', Cell r (r * c) a b → Cell r (r * c) a' b' → cpos r a b = q0 + k * inc → cpos r a' b' = q1 + k * inc →
        g' a' b' = cs * g a' b' - sn * g a b ∧ (q0 + k * inc < q1 → g' a b = cs * g a b + sn * g a' b')) := by
  have hdl : h.data.length = r * c := by rw [hh.data, length_tab2]
  have six : ∀ k, strideIx n (inc : Int) k = k * inc := by
    intro k; unfold strideIx; rw [if_neg (by omega)]; simp
  obtain ⟨x, y, e, lx, ly, hxy, kx, ky⟩ := C14_drot n (h.data.drop q0) (h.data.drop q1) (inc : Int) (inc : Int) cs sn (by omega) (by omega)
    (fun k hk => by rw [six, List.length_drop]; have := hfit k hk; omega)
    (fun k hk => by rw [six, List.length_drop]; have := hfit k hk; omega) (by simpa using hn) (by simpa using hn)
  rw [List.length_drop] at lx ly
  obtain ⟨h1, h2, g', e1, e2, hI, hg⟩ := writeTwo hh hL (fun h' r' c' => len_shape (r'.trans hh.rows) (c'.trans hh.cols) hL hc) q0 q1 h01.le hq1 hr x y
    (by omega) (by omega)
  have at0 : ∀ (a b : Int), Cell r (r * c) a b → ∀ q, q ≤ cpos r a b → (h.data.drop q)[cpos r a b - q]? = some (g a b) := by
    intro a b hab q hq
    rw [List.getElem?_drop, show q + (cpos r a b - q) = cpos r a b by omega, data_at hh hab]
  refine ⟨x, y, h1, h2, g', e, e1, e2, hI, ?_, ?_⟩
  · intro a b hab n0 n1
    have := hg a b hab
    by_cases c1 : q1 ≤ cpos r a b
    · rw [if_pos c1, ky _ (fun k hk => by rw [six]; have := n1 k hk; omega), at0 a b hab q1 c1] at this
      exact Option.some.inj this
    · rw [if_neg c1] at this
      by_cases c0 : q0 ≤ cpos r a b
      · rw [if_pos c0, kx _ (fun k hk => by rw [six]; have := n0 k hk; omega), at0 a b hab q0 c0] at this
        exact Option.some.inj this
      · rw [if_neg c0] at this
        exact Option.some.inj this
  · intro k hk a b a' b' hab hab' p0 p1
    obtain ⟨v1, v2⟩ := hxy k hk
    have ex := at0 a b hab q0 (by omega)
    have ey := at0 a' b' hab' q1 (by omega)
    rw [show cpos r a b - q0 = k * inc by omega] at ex
    rw [show cpos r a' b' - q1 = k * inc by omega] at ey
    simp only [six] at v1 v2
    obtain ⟨_, ex⟩ := List.getElem?_eq_some_iff.1 ex
    obtain ⟨_, ey⟩ := List.getElem?_eq_some_iff.1 ey
    rw [ex, ey] at v1 v2
    constructor
    · have := hg a' b' hab'
      rw [if_pos (by omega), show cpos r a' b' - q1 = k * inc by omega, v2] at this
      exact Option.some.inj this
    · intro hlt
      have := hg a b hab
      rw [if_neg (by omega), if_pos (by omega), show cpos r a b - q0 = k * inc by omega, v1] at this
      exact Option.some.inj this

/-- A cell of an array with `r` rows and `c` columns. -/
theorem cell_rc {r c : Nat} {a b : Int} (a1 : 1 ≤ a) (a2 : a ≤ r) (b1 : 1 ≤ b) (b2 : b ≤ c) : Cell r (r * c) a b := by
  refine ⟨a1, a2, b1, ?_⟩
  have : (b - 1) * (r : ℤ) ≤ (c - 1) * r := mul_le_mul_of_nonneg_right (by omega) (by omega)
  have e : ((c : ℤ) - 1) * r = r * c - r := by ring
  push_cast
  omega

theorem cpos_step {r c : Nat} {a b a' b' : Int} {d : Nat} (h : Cell r (r * c) a b) (h' : Cell r (r * c) a' b')
    (e : (b' - b) * r + (a' - a) = d) : cpos r a' b' = cpos r a b + d := by
  have p := (cell_pos h).1
  have p' := (cell_pos h').1
  have : (b' - b) * (r : ℤ) = (b' - 1) * r - (b - 1) * r := by ring
  omega

/-- The rotation of `z`. -/
theorem hqrRotZ_ok {r c : Nat} {g : Int → Int → F} {z : FA F} (hz : Is2 z r c (r * c) g) (hL : r * c < 2 ^ 31) (p : HqrP F) {i : Int}
    (h1 : 1 ≤ p.iloz) (h2 : p.iloz ≤ p.ihiz) (h3 : p.ihiz ≤ r) (i1 : 2 ≤ i) (i2 : i ≤ c) (cs sn : F) :
    ∃ z', hqrRotZ p i cs sn z = pure z' ∧ Is2 z' r c (r * c) fun a b =>
      if p.iloz ≤ a ∧ a ≤ p.ihiz then (if b = i - 1 then cs * g a (i - 1) + sn * g a i else if b = i then cs * g a i - sn * g a (i - 1) else g a b)
      else g a b := by
  have hr : 0 < r := by omega
  have hc : 0 < c := by omega
  have c0 : Cell r (r * c) p.iloz (i - 1) := cell_rc h1 (by omega) (by omega) (by omega)
  have c1 : Cell r (r * c) p.iloz i := cell_rc h1 (by omega) (by omega) (by omega)
  have e01 : cpos r p.iloz i = cpos r p.iloz (i - 1) + r := cpos_step c0 c1 (by ring)
  have hlen := len_shape hz.rows hz.cols hL hc
  obtain ⟨n, hn⟩ : ∃ n : Nat, p.ihiz - p.iloz + 1 = n := ⟨(p.ihiz - p.iloz + 1).toNat, by omega⟩
  have pos1 : ∀ k : Nat, k < n → Cell r (r * c) (p.iloz + k) i ∧ cpos r (p.iloz + k) i = cpos r p.iloz i + k * 1 := by
    intro k hk
    have hc' : Cell r (r * c) (p.iloz + k) i := cell_rc (by omega) (by omega) (by omega) (by omega)
    exact ⟨hc', cpos_step c1 hc' (by push_cast; ring)⟩
  have pos0 : ∀ k : Nat, k < n → Cell r (r * c) (p.iloz + k) (i - 1) ∧ cpos r (p.iloz + k) (i - 1) = cpos r p.iloz (i - 1) + k * 1 := by
    intro k hk
    have hc' : Cell r (r * c) (p.iloz + k) (i - 1) := cell_rc (by omega) (by omega) (by omega) (by omega)
    exact ⟨hc', cpos_step c0 hc' (by push_cast; ring)⟩
  have hrc : r ≤ r * c := Nat.le_mul_of_pos_right r hc
  have hrc2 : r * 2 ≤ r * c := Nat.mul_le_mul_left r (by omega)
  obtain ⟨x, y, z1, z2, g', e, w1, w2, hI, same, rot⟩ := rotBack hz hL hr hc (n := n) (inc := 1) (q0 := cpos r p.iloz (i - 1)) (q1 := cpos r p.iloz i) (by omega) (by omega)
    (cell_pos c1).2.le (fun k hk => by have := cell_pos (pos1 k hk).1; rw [← (pos1 k hk).2]; exact this.2) (by omega) cs sn
  refine ⟨z2, ?_, hI.congrCell hr fun a b hab => ?_⟩
  · unfold hqrRotZ
    rw [from2_eq hz hL hlen c0, from2_eq hz hL hlen c1, idx_eq hz hL c0, idx_eq hz hL c1, hn]
    simp only [pure_bind]
    rw [show drot (n : Int) (z.data.drop (cpos r p.iloz (i - 1))) 1 (z.data.drop (cpos r p.iloz i)) 1 cs sn = pure (x, y) from e]
    simp only [pure_bind]
    rw [w1]
    simp only [pure_bind]
    rw [w2]
  · by_cases ha : p.iloz ≤ a ∧ a ≤ p.ihiz
    · rw [if_pos ha]
      obtain ⟨k, hk⟩ : ∃ k : Nat, a = p.iloz + k := ⟨(a - p.iloz).toNat, by omega⟩
      have hkn : k < n := by omega
      have R := rot k hkn (p.iloz + k) (i - 1) (p.iloz + k) i (pos0 k hkn).1 (pos1 k hkn).1 (pos0 k hkn).2 (pos1 k hkn).2
      by_cases hb : b = i - 1
      · rw [if_pos hb, hb, hk]
        exact R.2 (by omega)
      · rw [if_neg hb]
        by_cases hb' : b = i
        · rw [if_pos hb', hb', hk]
          exact R.1
        · rw [if_neg hb']
          refine same a b hab (fun k' hk' he => ?_) fun k' hk' he => ?_
          · exact hb (cpos_inj hab (pos0 k' hk').1 (he.trans (pos0 k' hk').2.symm)).2
          · exact hb' (cpos_inj hab (pos1 k' hk').1 (he.trans (pos1 k' hk').2.symm)).2
    · rw [if_neg ha]
      refine same a b hab (fun k' hk' he => ?_) fun k' hk' he => ?_
      · have := (cpos_inj hab (pos0 k' hk').1 (he.trans (pos0 k' hk').2.symm)).1
        omega
      · have := (cpos_inj hab (pos1 k' hk').1 (he.trans (pos1 k' hk').2.symm)).1
        omega

/-- The rotation of the rest of `h` changes entries of rows `i - 1` and `i` right of column `i` only. -/
theorem hqrRotH_ok {r c : Nat} {g : Int → Int → F} {h : FA F} (hh : Is2 h r c (r * c) g) (hL : r * c < 2 ^ 31) (p : HqrP F) {i : Int}
    (hld : p.ldh = r) (i1 : 2 ≤ i) (i2 : i ≤ r) (i3 : i ≤ c) (hn : p.n ≤ c) (cs sn : F) :
    ∃ h' g', hqrRotH p i cs sn h = pure h' ∧ Is2 h' r c (r * c) g' ∧
      ∀ a b, ¬ ((a = i - 1 ∨ a = i) ∧ i < b ∧ b ≤ p.n) → g' a b = g a b := by
  have hr : 0 < r := by omega
  have hc : 0 < c := by omega
  have rest : ∀ (h' : FA F) (g' : Int → Int → F), Is2 h' r c (r * c) g' → ∃ h2, (do
      let h10 ← h'.from2 1 (i - 1)
      let h11 ← h'.from2 1 i
      let _ ← drot (i - 1 - 1) h10 1 h11 1 cs sn
      let i10 ← h'.idx 1 (i - 1)
      let i11 ← h'.idx 1 i
      let h ← writeBack i10 h10 h'
      writeBack i11 h11 h : R (FA F)) = pure h2 ∧ Is2 h2 r c (r * c) g' := by
    intro h' g' hh'
    have c0 : Cell r (r * c) 1 (i - 1) := cell_rc (by omega) (by omega) (by omega) (by omega)
    have c1 : Cell r (r * c) 1 i := cell_rc (by omega) (by omega) (by omega) (by omega)
    have e01 : cpos r 1 i = cpos r 1 (i - 1) + r := cpos_step c0 c1 (by ring)
    have hlen := len_shape hh'.rows hh'.cols hL hc
    have hdl : h'.data.length = r * c := by rw [hh'.data, length_tab2]
    obtain ⟨n, hn'⟩ : ∃ n : Nat, i - 1 - 1 = n := ⟨(i - 1 - 1).toNat, by omega⟩
    have pos1 : ∀ k : Nat, k < n → Cell r (r * c) (1 + k) i ∧ cpos r (1 + k) i = cpos r 1 i + k * 1 := by
      intro k hk
      have hc' : Cell r (r * c) (1 + k) i := cell_rc (by omega) (by omega) (by omega) (by omega)
      exact ⟨hc', cpos_step c1 hc' (by push_cast; ring)⟩
    have hrc : r ≤ r * c := Nat.le_mul_of_pos_right r hc
    obtain ⟨x, y, _, _, _, er, _⟩ := rotBack hh' hL hr hc (n := n) (inc := 1) (q0 := cpos r 1 (i - 1))
      (q1 := cpos r 1 i) (by omega) (by omega) (cell_pos c1).2.le
      (fun k hk => by have := cell_pos (pos1 k hk).1; rw [← (pos1 k hk).2]; exact this.2) (by omega) cs sn
    obtain ⟨h1, h2, g2, w1, w2, hI, hg2⟩ := writeTwo hh' hL (fun h'' r' c' => len_shape (r'.trans hh'.rows) (c'.trans hh'.cols) hL hc) (cpos r 1 (i - 1)) (cpos r 1 i)
      (by omega) (cell_pos c1).2.le hr (h'.data.drop (cpos r 1 (i - 1))) (h'.data.drop (cpos r 1 i)) (by rw [List.length_drop, hdl]) (by rw [List.length_drop, hdl])
    refine ⟨h2, ?_, hI.congrCell hr fun a b hab => ?_⟩
    · rw [from2_eq hh' hL hlen c0, from2_eq hh' hL hlen c1, idx_eq hh' hL c0, idx_eq hh' hL c1]
      simp only [pure_bind]
      rw [hn']
      rw [show drot (n : Int) (h'.data.drop (cpos r 1 (i - 1))) 1 (h'.data.drop (cpos r 1 i)) 1 cs sn = pure (x, y) from er]
      simp only [pure_bind]
      rw [w1]
      simp only [pure_bind]
      rw [w2]
    · have := hg2 a b hab
      rw [List.getElem?_drop, List.getElem?_drop] at this
      have d := data_at hh' hab
      by_cases k1 : cpos r 1 i ≤ cpos r a b
      · rw [if_pos k1, show cpos r 1 i + (cpos r a b - cpos r 1 i) = cpos r a b by omega, d] at this
        exact Option.some.inj this
      · rw [if_neg k1] at this
        by_cases k0 : cpos r 1 (i - 1) ≤ cpos r a b
        · rw [if_pos k0, show cpos r 1 (i - 1) + (cpos r a b - cpos r 1 (i - 1)) = cpos r a b by omega, d] at this
          exact Option.some.inj this
        · rw [if_neg k0] at this
          exact Option.some.inj this
  unfold hqrRotH
  by_cases hni : p.n > i
  · simp only [if_pos hni]
    have c0 : Cell r (r * c) (i - 1) (i + 1) := cell_rc (by omega) (by omega) (by omega) (by omega)
    have c1 : Cell r (r * c) i (i + 1) := cell_rc (by omega) (by omega) (by omega) (by omega)
    have e01 : cpos r i (i + 1) = cpos r (i - 1) (i + 1) + 1 := cpos_step c0 c1 (by push_cast; ring)
    have hlen := len_shape hh.rows hh.cols hL hc
    obtain ⟨n, hn'⟩ : ∃ n : Nat, p.n - i = n := ⟨(p.n - i).toNat, by omega⟩
    have pos1 : ∀ k : Nat, k < n → Cell r (r * c) i (i + 1 + k) ∧ cpos r i (i + 1 + k) = cpos r i (i + 1) + k * r := by
      intro k hk
      have hc' : Cell r (r * c) i (i + 1 + k) := cell_rc (by omega) (by omega) (by omega) (by omega)
      exact ⟨hc', cpos_step c1 hc' (by push_cast; ring)⟩
    have pos0 : ∀ k : Nat, k < n → Cell r (r * c) (i - 1) (i + 1 + k) ∧ cpos r (i - 1) (i + 1 + k) = cpos r (i - 1) (i + 1) + k * r := by
      intro k hk
      have hc' : Cell r (r * c) (i - 1) (i + 1 + k) := cell_rc (by omega) (by omega) (by omega) (by omega)
      exact ⟨hc', cpos_step c0 hc' (by push_cast; ring)⟩
    have hnr : n * r + 1 < 2 ^ 31 := by
      have h1 : (n + 2) * r ≤ c * r := Nat.mul_le_mul_right r (by omega)
      rw [mul_comm c r, add_mul] at h1
      omega
    obtain ⟨x, y, z1, z2, g', e, w1, w2, hI, same, rot⟩ := rotBack hh hL hr hc (n := n) (inc := r) (q0 := cpos r (i - 1) (i + 1))
      (q1 := cpos r i (i + 1)) hr (by omega) (cell_pos c1).2.le
      (fun k hk => by have := cell_pos (pos1 k hk).1; rw [← (pos1 k hk).2]; exact this.2) hnr cs sn
    obtain ⟨h3, e3, hh3⟩ := rest z2 _ hI
    refine ⟨h3, fun a b => if ((a = i - 1 ∨ a = i) ∧ i < b ∧ b ≤ p.n) then g' a b else g a b, ?_, hh3.congrCell hr fun a b hab => ?_, ?_⟩
    · rw [from2_eq hh hL hlen c0, from2_eq hh hL hlen c1, idx_eq hh hL c0, idx_eq hh hL c1, hn', hld]
      simp only [pure_bind]
      rw [e]
      simp only [pure_bind]
      rw [w1]
      simp only [pure_bind]
      rw [w2]
      simp only [pure_bind]
      exact e3
    · split
      · rfl
      · rename_i hne
        refine same a b hab (fun k' hk' he => ?_) fun k' hk' he => ?_
        · have := cpos_inj hab (pos0 k' hk').1 (he.trans (pos0 k' hk').2.symm)
          omega
        · have := cpos_inj hab (pos1 k' hk').1 (he.trans (pos1 k' hk').2.symm)
          omega
    · intro a b hne
      beta_reduce
      rw [if_neg hne]
  · simp only [if_neg hni]
    obtain ⟨h3, e3, hh3⟩ := rest h g hh
    exact ⟨h3, g, e3, hh3, fun _ _ _ => rfl⟩

end Verif

import Verif.Props.HqrTwoG
import Verif.Props.HqrStuckF64
import Verif.Props.Lanv2F64
import Verif.Props.HqrIndep

/-!
# `dlahqr` on an active block of order two returns its eigenvalues, whatever `wantt` and `wantz` (C83)
-/

namespace Verif
open Scalar Spec

section generic
variable {F : Type} [Scalar F]

theorem some_entry {g : FA F} {rg cg : Nat} (hg : IsMatrix g rg cg) (a b : ℤ) (a1 : 1 ≤ a) (a2 : a ≤ rg) (b1 : 1 ≤ b) (b2 : b ≤ cg) :
    Entry g rg a b ((g.data[((b - 1) * rg + (a - 1)).toNat]?).getD zero) := by
  unfold Entry
  have hl : ((b - 1) * rg + (a - 1)).toNat < g.data.length := by
    rw [hg.length]
    have hb : (b - 1) * rg ≤ (cg - 1) * rg := mul_le_mul_of_nonneg_right (by omega) (by omega)
    have e : ((rg * cg : ℕ) : ℤ) = (cg - 1) * rg + rg := by push_cast; ring
    have h0 : 0 ≤ (b - 1) * (rg : ℤ) := mul_nonneg (by omega) (by omega)
    omega
  rw [List.getElem?_eq_getElem hl]
  rfl

theorem entry_val {h : FA F} {r : Nat} {a b : ℤ} {x : F} (hx : Entry h r a b x) : (h.data[((b - 1) * r + (a - 1)).toNat]?).getD zero = x := by
  unfold Entry at hx
  rw [hx]; rfl

/-- C81 for a call that returned. -/
theorem order_two_returned {fuel : ℕ} {wantt wantz : Bool} {n ilo : ℤ} (hn0 : n ≠ 0) {h : FA F} {r c : Nat} (hM : IsMatrix h r c) (h1 : 1 ≤ ilo)
    (h2 : ilo + 1 ≤ r) (h3 : ilo + 1 ≤ c) (h4 : n ≤ c) {wr wi : List F} {iloz ihiz : ℤ} {z : FA F} {rz cz : Nat} {ldz : ℤ}
    (hz : wantz = true → IsMatrix z rz cz ∧ 1 ≤ iloz ∧ iloz ≤ ihiz ∧ ihiz ≤ rz ∧ ilo + 1 ≤ cz) {p q s t : F}
    (e1 : Entry h r ilo ilo p) (e2 : Entry h r ilo (ilo + 1) q) (e3 : Entry h r (ilo + 1) ilo s) (e4 : Entry h r (ilo + 1) (ilo + 1) t)
    {pr : Profile} {ret : HqrRet (FA F) (List F) (List F) (FA F)}
    (hret : dlahqr (F := F) fuel wantt wantz n ilo (ilo + 1) h r wr wi iloz ihiz z ldz pr = .ok ret) :
    ret.info = 0 ∧ Entry ret.h r ilo ilo (dlanv2 p q s t).a ∧ Entry ret.h r ilo (ilo + 1) (dlanv2 p q s t).b ∧
      Entry ret.h r (ilo + 1) ilo (dlanv2 p q s t).c ∧ Entry ret.h r (ilo + 1) (ilo + 1) (dlanv2 p q s t).d ∧
      ret.wr = (wr.set (ilo - 1).toNat (dlanv2 p q s t).rt1r).set ilo.toNat (dlanv2 p q s t).rt2r ∧
      ret.wi = (wi.set (ilo - 1).toNat (dlanv2 p q s t).rt1i).set ilo.toNat (dlanv2 p q s t).rt2i := by
  rcases C81_dlahqr_order_two wantt wantz n ilo hn0 h r c hM h1 h2 h3 h4 wr wi iloz ihiz z rz cz ldz hz
    (A := fun a b => (h.data[((b - 1) * r + (a - 1)).toNat]?).getD zero) (Z := fun a b => (z.data[((b - 1) * rz + (a - 1)).toNat]?).getD zero)
    (some_entry hM) (fun hw => some_entry (hz hw).1) (o := dlanv2 p q s t) (by simp only [entry_val e1, entry_val e2, entry_val e3, entry_val e4])
    with ⟨-, hto⟩ | ⟨-, ret', hf, hi, -, eh, -, -, ewr, ewi⟩
  · rw [hto] at hret; cases hret
  · have er : ret = ret' := C55_dlahqr_fuel fuel 2 wantt wantz n ilo (ilo + 1) h r wr wi iloz ihiz z ldz pr ret ret' hret
      (by rw [show 2 = 0 + 2 from rfl, hf]; rfl)
    subst er
    have g := fun a b a1 a2 b1 b2 => eh a b a1 a2 b1 b2
    refine ⟨hi, ?_, ?_, ?_, ?_, ewr, ewi⟩
    · have := g ilo ilo (by omega) (by omega) (by omega) (by omega)
      unfold twoH at this
      simpa using this
    · have := g ilo (ilo + 1) (by omega) (by omega) (by omega) (by omega)
      unfold twoH at this
      simpa using this
    · have := g (ilo + 1) ilo (by omega) (by omega) (by omega) (by omega)
      unfold twoH at this
      simpa using this
    · have := g (ilo + 1) (ilo + 1) (by omega) (by omega) (by omega) (by omega)
      unfold twoH at this
      simpa using this

theorem two_set {l : List F} {ilo : ℤ} (h1 : 1 ≤ ilo) (hl : ilo + 1 ≤ l.length) (x y : F) :
    ((l.set (ilo - 1).toNat x).set ilo.toNat y)[(ilo - 1).toNat]? = some x ∧ ((l.set (ilo - 1).toNat x).set ilo.toNat y)[ilo.toNat]? = some y := by
  constructor
  · rw [List.getElem?_set_ne (by omega), List.getElem?_set_self (by omega)]
  · rw [List.getElem?_set_self (by rw [List.length_set]; omega)]

end generic

section exact
open XR

/-- **C83** (exact arithmetic). If `dlahqr` returns on an active block of order two, in any mode, with room in `wr` and `wi`, then `info = 0` and the
elements `ilo` and `ilo + 1` of `wr` and `wi` are real numbers. They are the eigenvalues of the block, unless the block is in the exceptional set of
C38, and then they are not. -/
theorem C83_dlahqr_eigenvalues (fuel : ℕ) (wantt wantz : Bool) (n ilo : ℤ) (hn0 : n ≠ 0) (h : FA XR) (r c : Nat) (hM : IsMatrix h r c) (h1 : 1 ≤ ilo)
    (h2 : ilo + 1 ≤ r) (h3 : ilo + 1 ≤ c) (h4 : n ≤ c) (wr wi : List XR) (hwr : ilo + 1 ≤ wr.length) (hwi : ilo + 1 ≤ wi.length) (iloz ihiz : ℤ)
    (z : FA XR) (rz cz : Nat) (ldz : ℤ) (hz : wantz = true → IsMatrix z rz cz ∧ 1 ≤ iloz ∧ iloz ≤ ihiz ∧ ihiz ≤ rz ∧ ilo + 1 ≤ cz) (p q s t : ℝ)
    (e1 : Entry h r ilo ilo (fin p)) (e2 : Entry h r ilo (ilo + 1) (fin q)) (e3 : Entry h r (ilo + 1) ilo (fin s))
    (e4 : Entry h r (ilo + 1) (ilo + 1) (fin t)) (b1 : 4 * |p| ≤ fMax) (b2 : 4 * |q| ≤ fMax) (b3 : 4 * |s| ≤ fMax) (b4 : 4 * |t| ≤ fMax)
    (pr : Profile) (ret : HqrRet (FA XR) (List XR) (List XR) (FA XR))
    (hret : dlahqr (F := XR) fuel wantt wantz n ilo (ilo + 1) h r wr wi iloz ihiz z ldz pr = .ok ret) :
    ret.info = 0 ∧ ∃ x1 y1 x2 y2 : ℝ,
      ret.wr[(ilo - 1).toNat]? = some (fin x1) ∧ ret.wi[(ilo - 1).toNat]? = some (fin y1) ∧
      ret.wr[ilo.toNat]? = some (fin x2) ∧ ret.wi[ilo.toNat]? = some (fin y2) ∧
      (Eigenvalues p q s t ⟨x1, y1⟩ ⟨x2, y2⟩ ↔ ¬ NearEqual p q s t) := by
  obtain ⟨hi, -, -, -, -, ewr, ewi⟩ := order_two_returned hn0 hM h1 h2 h3 h4 hz e1 e2 e3 e4 hret
  refine ⟨hi, ?_⟩
  have key : ∃ o : Lanv2 ℝ, dlanv2 (fin p) (fin q) (fin s) (fin t) = o.map fin ∧
      (Eigenvalues p q s t ⟨o.rt1r, o.rt1i⟩ ⟨o.rt2r, o.rt2i⟩ ↔ ¬ NearEqual p q s t) := by
    by_cases hn : NearEqual p q s t
    · obtain ⟨o, eo, -, ho⟩ := C38_dlanv2_exception p q s t hn
      exact ⟨o, eo, by simp [hn, ho]⟩
    · obtain ⟨o, eo, ho⟩ := C38_dlanv2_eigenvalues p q s t b1 b2 b3 b4 hn
      exact ⟨o, eo, by simp [hn, ho]⟩
  obtain ⟨o, eo, ho⟩ := key
  rw [eo] at ewr ewi
  obtain ⟨w1, w2⟩ := two_set h1 hwr (o.map fin).rt1r (o.map fin).rt2r
  obtain ⟨w3, w4⟩ := two_set h1 hwi (o.map fin).rt1i (o.map fin).rt2i
  exact ⟨o.rt1r, o.rt1i, o.rt2r, o.rt2i, by rw [ewr, w1]; rfl, by rw [ewi, w3]; rfl, by rw [ewr, w2]; rfl, by rw [ewi, w4]; rfl, ho⟩

end exact

section f64
open F64

/-- **C83** (binary64). If `dlahqr` returns on an active block of order two with finite entries of magnitude at most `2^1000`, in any mode, then `info = 0`
and, outside the exceptional set of C76, the block of `h` is replaced by a block in standard form, exactly similar to one within `900 · 2^-53` of the
largest entry of the given one, and `wr` and `wi` receive finite numbers that are exactly the eigenvalues of a matrix within `1030 · 2^-53`. Nothing
is asked of the entry below the diagonal: when it is below the safe range of C76, `dlahqr` does not return. -/
theorem C83_dlahqr_eigenvalues_f64 (fuel : ℕ) (wantt wantz : Bool) (n ilo : ℤ) (hn0 : n ≠ 0) (h : FA Float) (r c : Nat) (hM : IsMatrix h r c) (h1 : 1 ≤ ilo)
    (h2 : ilo + 1 ≤ r) (h3 : ilo + 1 ≤ c) (h4 : n ≤ c) (wr wi : List Float) (hwr : ilo + 1 ≤ wr.length) (hwi : ilo + 1 ≤ wi.length) (iloz ihiz : ℤ)
    (z : FA Float) (rz cz : Nat) (ldz : ℤ) (hz : wantz = true → IsMatrix z rz cz ∧ 1 ≤ iloz ∧ iloz ≤ ihiz ∧ ihiz ≤ rz ∧ ilo + 1 ≤ cz) (p q s t : Float)
    (e1 : Entry h r ilo ilo p) (e2 : Entry h r ilo (ilo + 1) q) (e3 : Entry h r (ilo + 1) ilo s) (e4 : Entry h r (ilo + 1) (ilo + 1) t)
    (fp : p.isFinite = true) (fq : q.isFinite = true) (fs : s.isFinite = true) (ft : t.isFinite = true)
    (hb : maxAbs (toR p) (toR q) (toR s) (toR t) ≤ 2 ^ 1000)
    (hn : toR q * toR s < 0 → toR p = toR t ∨ 1 / 2 ^ 52 ≤ |toR (p - t)|)
    (pr : Profile) (ret : HqrRet (FA Float) (List Float) (List Float) (FA Float))
    (hret : dlahqr (F := Float) fuel wantt wantz n ilo (ilo + 1) h r wr wi iloz ihiz z ldz pr = .ok ret) :
    ret.info = 0 ∧ ∃ o : Lanv2 Float, Lanv2Accurate p q s t o ∧
      Entry ret.h r ilo ilo o.a ∧ Entry ret.h r ilo (ilo + 1) o.b ∧ Entry ret.h r (ilo + 1) ilo o.c ∧ Entry ret.h r (ilo + 1) (ilo + 1) o.d ∧
      ret.wr[(ilo - 1).toNat]? = some o.rt1r ∧ ret.wi[(ilo - 1).toNat]? = some o.rt1i ∧
      ret.wr[ilo.toNat]? = some o.rt2r ∧ ret.wi[ilo.toNat]? = some o.rt2i := by
  obtain ⟨hi, k1, k2, k3, k4, ewr, ewi⟩ := order_two_returned hn0 hM h1 h2 h3 h4 hz e1 e2 e3 e4 hret
  refine ⟨hi, _, C76_dlanv2_f64 p q s t fp fq fs ft hb ?_ hn, k1, k2, k3, k4, ?_⟩
  · by_contra hc
    rw [not_or, not_le] at hc
    have hto := C44_dlahqr_diverges_f64 fuel wantt wantz n hn0 ilo.toNat (ilo + 1).toNat h r c hM (by omega) (by omega) (by omega) (by omega)
      (fun k hk1 hk2 => ⟨s, by
        obtain rfl : k = (ilo + 1).toNat := by omega
        unfold Entry at e3
        rw [← e3]
        congr 1
        zify
        have h0 : 0 ≤ (ilo - 1) * (r : ℤ) := mul_nonneg (by omega) (by omega)
        rw [Int.toNat_of_nonneg (by omega), Int.ofNat_sub (by omega), Int.ofNat_sub (by omega), Int.toNat_of_nonneg (by omega)]
        push_cast
        ring, fs, by
        refine hc.2.le.trans (le_of_eq ?_)
        have ee : (((ilo + 1).toNat : ℝ)) - ilo.toNat + 1 = 2 := by
          have : (ilo + 1).toNat = ilo.toNat + 1 := by omega
          rw [this]; push_cast; ring
        rw [ee, show (-970 : ℤ) = -969 + -1 by norm_num, zpow_add₀ (by norm_num), zpow_neg, one_div]
        have : (2 : ℝ) ^ (969 : ℤ) = 2 ^ 969 := by
          rw [show (969 : ℤ) = ((969 : ℕ) : ℤ) from rfl, zpow_natCast]
        rw [this]
        generalize ((2 : ℝ) ^ 969)⁻¹ = w
        norm_num; ring⟩) r wr wi iloz ihiz z ldz
    rw [Int.toNat_of_nonneg (by omega), Int.toNat_of_nonneg (by omega)] at hto
    rw [hto] at hret
    cases hret
  · obtain ⟨w1, w2⟩ := two_set h1 hwr (dlanv2 p q s t).rt1r (dlanv2 p q s t).rt2r
    obtain ⟨w3, w4⟩ := two_set h1 hwi (dlanv2 p q s t).rt1i (dlanv2 p q s t).rt2i
    exact ⟨by rw [ewr, w1], by rw [ewi, w3], by rw [ewr, w2], by rw [ewi, w4]⟩

/-- A block whose entry below the diagonal is large enough does not count as split. -/
theorem not_split {p q s t : Float} (fp : p.isFinite = true) (fs : s.isFinite = true) (ft : t.isFinite = true)
    (bp : |toR p| ≤ 2 ^ 1000) (bt : |toR t| ≤ 2 ^ 1000) (h1 : 1 / 2 ^ 969 < |toR s|) (h2 : 1 / 2 ^ 51 * (|toR p| + |toR t|) ≤ |toR s|) :
    splitTwo p q s t = false := by
  have hsm : (abs s ≤ᶠ (dlamch 'S' * (ofInt 2 / dlamch 'P') : Float)) = false := by
    obtain ⟨v1, v2⟩ := hqrSmall_val 1 2 (by norm_num) (by norm_num)
    rw [show ((2 - 1 + 1 : ℤ) : ℝ) * (2 : ℝ) ^ (-970 : ℤ) = 1 / 2 ^ 969 by
      rw [show (-970 : ℤ) = -969 + -1 by norm_num, zpow_add₀ (by norm_num), zpow_neg, one_div]
      have : (2 : ℝ) ^ (969 : ℤ) = 2 ^ 969 := by rw [show (969 : ℤ) = ((969 : ℕ) : ℤ) from rfl, zpow_natCast]
      rw [this]
      generalize ((2 : ℝ) ^ 969)⁻¹ = w
      norm_num; ring] at v2
    rw [← Bool.not_eq_true]
    intro hle
    have := (le_iff (x := s.abs) (y := Spec.hqrSmall 1 2) (abs_fin fs) v1).1 (show s.abs ≤ Spec.hqrSmall 1 2 from hle)
    rw [abs_toR, v2] at this
    linarith
  have hul : (abs s ≤ᶠ (dlamch 'P' * (abs p + abs t) : Float)) = false := by
    obtain ⟨f1, v1⟩ : (dlamch 'P' : Float).isFinite = true ∧ toR (dlamch 'P' : Float) = 1 / 2 ^ 52 := by
      obtain ⟨p1, p2⟩ := dlamch_val 'P'
      rw [machine_P] at p2
      exact ⟨p1, p2⟩
    have h4 : 4 * eta ≤ |toR s| := by
      refine le_trans ?_ h1.le
      unfold eta
      rw [show (1075 : ℕ) = 969 + 106 from rfl, pow_add]
      have w0 : (0 : ℝ) < 2 ^ 969 := by positivity
      generalize (2 : ℝ) ^ 969 = w at *
      rw [show 4 * (1 / (w * 2 ^ 106)) = (1 / w) * (4 / 2 ^ 106) by field_simp]
      have : 0 < 1 / w := by positivity
      nlinarith
    clear h1
    have hbig : big = 2 ^ 1000 := rfl
    rw [← hbig] at bp bt
    have B0 := big_pos
    obtain ⟨f2, d, hd, e2⟩ := addF (abs_fin fp) (abs_fin ft) (by
      rw [abs_toR, abs_toR, abs_of_nonneg (by positivity)]
      linarith only [bp, bt, B0])
    rw [abs_toR, abs_toR] at e2
    have u := ur_small
    have u0 := ur_pos
    have d1 := abs_le.1 hd
    have hXb : |toR p| + |toR t| ≤ 2 * big := by linarith only [bp, bt]
    have X0 : 0 ≤ |toR p| + |toR t| := by positivity
    generalize |toR p| + |toR t| = X at *
    have Y0 : 0 ≤ X * d := mul_nonneg X0 (by linarith only [d1.1, u])
    have Y1 : X * d ≤ X * (1 + 1 / 100) := mul_le_mul_of_nonneg_left (by linarith only [d1.2, u]) X0
    have e3 : |toR (dlamch 'P' : Float) * toR (p.abs + t.abs)| ≤ 1 / 2 ^ 52 * (X * (1 + 1 / 100)) := by
      rw [v1, e2, abs_of_nonneg (mul_nonneg (by norm_num) Y0)]
      exact mul_le_mul_of_nonneg_left Y1 (by norm_num)
    obtain ⟨f3, e4⟩ := mulF f1 f2 (e3.trans (by linarith only [hXb, B0]))
    have e5 := (abs_le.1 (e4.abs1 e3)).2
    have e6 := (le_abs_self _).trans e3
    rw [← Bool.not_eq_true]
    intro hle
    have := (le_iff (x := s.abs) (y := dlamch 'P' * (p.abs + t.abs)) (abs_fin fs) f3).1 (show s.abs ≤ dlamch 'P' * (p.abs + t.abs) from hle)
    rw [abs_toR] at this
    have hη := eta_pos
    have e7 : ur * (1 / 2 ^ 52 * (X * (1 + 1 / 100))) ≤ 1 / 100 * (1 / 2 ^ 52 * (X * (1 + 1 / 100))) :=
      mul_le_mul_of_nonneg_right (by linarith only [u]) (by positivity)
    linarith only [this, e5, e6, e7, h2, h4, hη, X0]
  show ((abs s ≤ᶠ (dlamch 'S' * (ofInt 2 / dlamch 'P') : Float)) || ((abs s ≤ᶠ (dlamch 'P' * (abs p + abs t) : Float)) && _)) = false
  rw [hsm, hul]
  rfl

/-- **C83** (it returns). On binary64, an active block of order two whose entry below the diagonal exceeds `2^-969` and is at least
`2^-51 (|p| + |t|)`, with `p` and `t` the diagonal entries: `dlahqr` returns, in any mode, whatever the rest of `h` and `z` holds. -/
theorem C83_dlahqr_returns_f64 (fuel : ℕ) (wantt wantz : Bool) (n ilo : ℤ) (hn0 : n ≠ 0) (h : FA Float) (r c : Nat) (hM : IsMatrix h r c) (h1 : 1 ≤ ilo)
    (h2 : ilo + 1 ≤ r) (h3 : ilo + 1 ≤ c) (h4 : n ≤ c) (wr wi : List Float) (iloz ihiz : ℤ)
    (z : FA Float) (rz cz : Nat) (ldz : ℤ) (hz : wantz = true → IsMatrix z rz cz ∧ 1 ≤ iloz ∧ iloz ≤ ihiz ∧ ihiz ≤ rz ∧ ilo + 1 ≤ cz) (p s t : Float)
    (e1 : Entry h r ilo ilo p) (e3 : Entry h r (ilo + 1) ilo s) (e4 : Entry h r (ilo + 1) (ilo + 1) t)
    (fp : p.isFinite = true) (fs : s.isFinite = true) (ft : t.isFinite = true) (bp : |toR p| ≤ 2 ^ 1000) (bt : |toR t| ≤ 2 ^ 1000)
    (hs1 : 1 / 2 ^ 969 < |toR s|) (hs2 : 1 / 2 ^ 51 * (|toR p| + |toR t|) ≤ |toR s|) (pr : Profile) :
    ∃ ret : HqrRet (FA Float) (List Float) (List Float) (FA Float),
      dlahqr (F := Float) (fuel + 2) wantt wantz n ilo (ilo + 1) h r wr wi iloz ihiz z ldz pr = .ok ret := by
  rcases C81_dlahqr_order_two wantt wantz n ilo hn0 h r c hM h1 h2 h3 h4 wr wi iloz ihiz z rz cz ldz hz
    (A := fun a b => (h.data[((b - 1) * r + (a - 1)).toNat]?).getD zero) (Z := fun a b => (z.data[((b - 1) * rz + (a - 1)).toNat]?).getD zero)
    (some_entry hM) (fun hw => some_entry (hz hw).1) rfl with ⟨hsp, -⟩ | ⟨-, ret, hf, -⟩
  · exfalso
    simp only [entry_val e1, entry_val e3, entry_val e4] at hsp
    rw [not_split fp fs ft bp bt hs1 hs2] at hsp
    cases hsp
  · exact ⟨ret, by rw [hf]; rfl⟩

/-- The matrix with rows `(1, 2)` and `(3, 4)`, eigenvalues only (`wantt = wantz = false`), in binary64: the call returns and the hypotheses are met. -/
theorem C83_example (pr : Profile) : ∃ ret : HqrRet (FA Float) (List Float) (List Float) (FA Float),
    dlahqr (F := Float) 2 false false 2 1 (1 + 1) (⟨[1, 3, 2, 4], 2, 2, 0⟩ : FA Float) (2 : ℕ) [0, 0] [0, 0] 1 2 (⟨[], 0, 0, 0⟩ : FA Float) 2 pr = .ok ret ∧
    ret.info = 0 ∧ ∃ o : Lanv2 Float, Lanv2Accurate 1 2 3 4 o ∧ ret.wr = [o.rt1r, o.rt2r] ∧ ret.wi = [o.rt1i, o.rt2i] := by
  have hs : ∀ pr, ((dlahqr (F := Float) 2 false false 2 1 (1 + 1) (⟨[1, 3, 2, 4], 2, 2, 0⟩ : FA Float) (2 : ℕ) [0, 0] [0, 0] 1 2
      (⟨[], 0, 0, 0⟩ : FA Float) 2 pr : Res (HqrRet (FA Float) (List Float) (List Float) (FA Float))).val?.map (·.info)) = some 0 := by
    intro pr
    cases pr <;> decide +kernel
  have hp := hs pr
  cases e : (dlahqr (F := Float) 2 false false 2 1 (1 + 1) (⟨[1, 3, 2, 4], 2, 2, 0⟩ : FA Float) (2 : ℕ) [0, 0] [0, 0] 1 2
      (⟨[], 0, 0, 0⟩ : FA Float) 2 pr : Res (HqrRet (FA Float) (List Float) (List Float) (FA Float))) with
  | ok ret =>
    refine ⟨ret, rfl, ?_⟩
    have v : ∀ k : ℤ, k.natAbs < 2 ^ 53 → (Float.ofInt k).isFinite = true ∧ toR (Float.ofInt k) = k := fun k hk => ofInt_exact k hk
    have i1 : (1 : Float) = Float.ofInt 1 := by decide +kernel
    have i2 : (2 : Float) = Float.ofInt 2 := by decide +kernel
    have i3 : (3 : Float) = Float.ofInt 3 := by decide +kernel
    have i4 : (4 : Float) = Float.ofInt 4 := by decide +kernel
    obtain ⟨f1, v1⟩ := v 1 (by norm_num)
    obtain ⟨f2, v2⟩ := v 2 (by norm_num)
    obtain ⟨f3, v3⟩ := v 3 (by norm_num)
    obtain ⟨f4, v4⟩ := v 4 (by norm_num)
    rw [← i1] at f1 v1
    rw [← i2] at f2 v2
    rw [← i3] at f3 v3
    rw [← i4] at f4 v4
    obtain ⟨hi, o, ho, -, -, -, -, w1, w2, w3, w4⟩ := C83_dlahqr_eigenvalues_f64 2 false false 2 1 (by norm_num) ⟨[1, 3, 2, 4], 2, 2, 0⟩ 2 2 ⟨rfl, rfl, rfl, by norm_num⟩ (by norm_num)
      (by norm_num) (by norm_num) (by norm_num) [0, 0] [0, 0] (by norm_num) (by norm_num) 1 2 _ 0 0 2 (fun h => absurd h (by decide)) 1 2 3 4 rfl rfl rfl rfl
      f1 f2 f3 f4 (by
        rw [v1, v2, v3, v4]
        refine le_trans (b := (2 : ℝ) ^ 2) ?_ (pow_le_pow_right₀ (by norm_num) (by norm_num))
        unfold maxAbs
        norm_num)
      (fun h => by rw [v2, v3] at h; norm_num at h) pr ret e
    obtain ⟨-, -, -, -, -, ewr, ewi⟩ := order_two_returned (F := Float) (p := 1) (q := 2) (s := 3) (t := 4) (n := 2) (ilo := 1) (by norm_num) (h := ⟨[1, 3, 2, 4], 2, 2, 0⟩) (r := 2) (c := 2)
      ⟨rfl, rfl, rfl, by norm_num⟩ (by norm_num) (by norm_num) (by norm_num) (by norm_num) (rz := 0) (cz := 0) (fun h => absurd h (by decide)) rfl rfl rfl rfl e
    refine ⟨hi, o, ho, ?_, ?_⟩
    · rw [ewr] at w1 w3 ⊢
      simp at w1 w3 ⊢
      exact ⟨w1, w3⟩
    · rw [ewi] at w2 w4 ⊢
      simp at w2 w4 ⊢
      exact ⟨w2, w4⟩
  | panic => rw [e] at hp; cases hp
  | exit => rw [e] at hp; cases hp
  | timeout => rw [e] at hp; cases hp

/-- The hypotheses of `C83_dlahqr_returns_f64` are met by the same matrix, with the Schur form wanted. -/
example (fuel : ℕ) (pr : Profile) : ∃ ret : HqrRet (FA Float) (List Float) (List Float) (FA Float),
    dlahqr (F := Float) (fuel + 2) true true 2 1 (1 + 1) (⟨[Float.ofInt 1, Float.ofInt 3, Float.ofInt 2, Float.ofInt 4], 2, 2, 0⟩ : FA Float) (2 : ℕ) [0, 0] [0, 0] 1 2
      (⟨[1, 0, 0, 1], 2, 2, 0⟩ : FA Float) 2 pr = .ok ret := by
  obtain ⟨f1, v1⟩ := ofInt_exact 1 (by norm_num)
  obtain ⟨f3, v3⟩ := ofInt_exact 3 (by norm_num)
  obtain ⟨f4, v4⟩ := ofInt_exact 4 (by norm_num)
  have hb : (4 : ℝ) ≤ 2 ^ 1000 := le_trans (b := (2 : ℝ) ^ 2) (by norm_num) (pow_le_pow_right₀ (by norm_num) (by norm_num))
  have hs : (1 : ℝ) / 2 ^ 969 < 3 := by
    have : (1 : ℝ) / 2 ^ 969 ≤ 1 := by
      rw [div_le_one (by positivity)]
      exact one_le_pow₀ (by norm_num)
    generalize (1 : ℝ) / 2 ^ 969 = w at *
    linarith
  refine C83_dlahqr_returns_f64 fuel true true 2 1 (by norm_num) ⟨[Float.ofInt 1, Float.ofInt 3, Float.ofInt 2, Float.ofInt 4], 2, 2, 0⟩ 2 2 ⟨rfl, rfl, rfl, by norm_num⟩
    (by norm_num) (by norm_num) (by norm_num) (by norm_num) [0, 0] [0, 0] 1 2 _ 2 2 2 (fun _ => ⟨⟨rfl, rfl, rfl, by norm_num⟩, by norm_num, by norm_num, by norm_num, by norm_num⟩)
    (Float.ofInt 1) (Float.ofInt 3) (Float.ofInt 4) rfl rfl rfl f1 f3 f4 ?_ ?_ ?_ ?_ pr
  · rw [v1]; norm_num only [Int.cast_one, abs_one]; exact le_trans (by norm_num) hb
  · rw [v4, show ((4 : ℤ) : ℝ) = 4 by norm_num, abs_of_pos (by norm_num)]; exact hb
  · rw [v3, show ((3 : ℤ) : ℝ) = 3 by norm_num, abs_of_pos (by norm_num)]; exact hs
  · rw [v1, v3, v4]; norm_num

end f64
end Verif

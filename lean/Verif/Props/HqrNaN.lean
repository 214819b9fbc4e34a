import Verif.Lib.HqrNaN
import Verif.Props.HqrSafe
import Verif.Props.HqrNested
import Verif.Props.Qr5Z

/-!
# NaN in the trailing rows of the active block: `dlahqr` on `f64` (C89)
-/

namespace Verif
open F64 Spec

section
variable {r c : Nat}

theorem hqrClear_same {ilo ihi : Int} {h : FA Float} (hs : HqrShape h r c) (h1 : 1 ≤ ilo) (h2 : ilo ≤ ihi) (hir : ihi ≤ r) (hic : ihi ≤ c) :
    Ret (hqrClear ilo ihi h) fun h' => HqrShape h' r c ∧ ∀ a b, 1 ≤ a → a ≤ ihi → 1 ≤ b → b ≤ ihi → a ≤ b + 1 → h'.data[posOf r a b]? = h.data[posOf r a b]? := by
  have key : ∀ {s : FA Float} {x y : Int}, HqrShape s r c → 1 ≤ x → x ≤ ihi → 1 ≤ y → y ≤ ihi → y + 1 < x →
      (∀ a b, 1 ≤ a → a ≤ ihi → 1 ≤ b → b ≤ ihi → a ≤ b + 1 → s.data[posOf r a b]? = h.data[posOf r a b]?) → Ret (s.set2 x y Scalar.zero) fun h' => HqrShape h' r c ∧
        ∀ a b, 1 ≤ a → a ≤ ihi → 1 ≤ b → b ≤ ihi → a ≤ b + 1 → h'.data[posOf r a b]? = h.data[posOf r a b]? := by
    intro s x y s0 x1 x2 y1 y2 xy hsame
    refine (set2_upd s0 (by omega) (by omega) (by omega) (by omega) (by omega) _).mono fun h' ⟨hh', u⟩ => ⟨hh', fun a b a1 a2 b1 b2 ab => ?_⟩
    rw [u, if_neg (posOf_ne (by omega) (by omega) (by omega) (by omega) (by omega) (by omega) (by omega) (by omega) s0.small (by omega))]
    exact hsame a b a1 a2 b1 b2 ab
  unfold hqrClear
  refine Ret.bind (Ret.forUp (P := fun h' => HqrShape h' r c ∧ ∀ a b, 1 ≤ a → a ≤ ihi → 1 ≤ b → b ≤ ihi → a ≤ b + 1 → h'.data[posOf r a b]? = h.data[posOf r a b]?)
    ⟨hs, fun _ _ _ _ _ _ _ => rfl⟩ fun s j j1 j2 ⟨s0, e0⟩ => ?_) fun h' ⟨hh', e'⟩ => ?_
  · exact Ret.bind (key s0 (by omega) (by omega) (by omega) (by omega) (by omega) e0) fun b ⟨hb, eb⟩ => key hb (by omega) (by omega) (by omega) (by omega) (by omega) eb
  · exact Ret.ite (fun _ => key hh' (by omega) (by omega) (by omega) (by omega) (by omega) e') fun _ => Ret.pure ⟨hh', e'⟩

theorem get2_congr {h h' : FA Float} (hs : HqrShape h r c) (hs' : HqrShape h' r c) {a b : Int} (a1 : 1 ≤ a) (a2 : a ≤ r) (b1 : 1 ≤ b) (b2 : b ≤ c)
    (e : h'.data[posOf r a b]? = h.data[posOf r a b]?) : h'.get2 a b = h.get2 a b := by
  have l1 := posOf_lt hs a1 a2 b1 b2
  unfold FA.get2
  rw [off_top hs (by omega) a2 b1 b2 (by omega), off_top hs' (by omega) a2 b1 b2 (by omega), pure_bind, pure_bind]
  unfold posOf at e l1
  rw [e, List.getElem?_eq_getElem l1]

theorem nc_of_get {h : FA Float} (hs : HqrShape h r c) {a b : Int} (a1 : 1 ≤ a) (a2 : a ≤ r) (b1 : 1 ≤ b) (b2 : b ≤ c) {x : Float} (e : h.get2 a b = pure x)
    (hx : x.isNaN = true) : NC r h a b := by
  have l1 := posOf_lt hs a1 a2 b1 b2
  obtain ⟨y, e', hy⟩ := get2_val hs (by omega) a2 b1 b2 (by omega)
  rw [e] at e'
  obtain rfl : x = y := Res.ok.inj (congrFun e' .debug)
  refine ⟨_, List.getElem?_eq_getElem l1, ?_⟩
  rw [← hy _ (List.getElem?_eq_getElem l1)]
  exact hx

/-- Row `k` of `h` cannot be split off because of a NaN: the element left of its diagonal is not tiny (a NaN is not), and that element or one of the two diagonal elements
next to it is NaN. -/
def Spec.NaNJoins (h : FA Float) (small : Float) (k : Int) : Prop :=
  ∃ x y w : Float, h.get2 k (k - 1) = pure x ∧ h.get2 (k - 1) (k - 1) = pure y ∧ h.get2 k k = pure w ∧ ¬ x.abs ≤ small ∧
    (x.isNaN = true ∨ y.isNaN = true ∨ w.isNaN = true)

theorem nn_of_joins {p : HqrP Float} {h h' : FA Float} (hs : HqrShape h r c) (hs' : HqrShape h' r c) {k : Int} (k1 : 2 ≤ k) (kr : k ≤ r) (kc : k ≤ c)
    (hsame : ∀ a b, 1 ≤ a → a ≤ k → 1 ≤ b → b ≤ k → a ≤ b + 1 → h'.data[posOf r a b]? = h.data[posOf r a b]?) (hj : NaNJoins h p.smlnum k) : NN r p h' k := by
  obtain ⟨x, y, w, e1, e2, e3, hx, hn⟩ := hj
  have g : ∀ {a b : Int}, 1 ≤ a → a ≤ k → 1 ≤ b → b ≤ k → a ≤ b + 1 → h'.get2 a b = h.get2 a b := fun a1 a2 b1 b2 ab =>
    get2_congr hs hs' a1 (by omega) b1 (by omega) (hsame _ _ a1 a2 b1 b2 ab)
  have f1 := (g (a := k) (b := k - 1) (by omega) (by omega) (by omega) (by omega) (by omega)).trans e1
  have f2 := (g (a := k - 1) (b := k - 1) (by omega) (by omega) (by omega) (by omega) (by omega)).trans e2
  have f3 := (g (a := k) (b := k) (by omega) (by omega) (by omega) (by omega) (by omega)).trans e3
  refine ⟨x, f1, Bool.eq_false_iff.2 fun hc => hx hc, ?_⟩
  rcases hn with hn | hn | hn
  · exact Or.inl (nc_of_get hs' (by omega) (by omega) (by omega) (by omega) f1 hn)
  · exact Or.inr (Or.inl (nc_of_get hs' (by omega) (by omega) (by omega) (by omega) f2 hn))
  · exact Or.inr (Or.inr (nc_of_get hs' (by omega) (by omega) (by omega) (by omega) f3 hn))

theorem hqrMain_nan (wantt wantz : Bool) (n ilo ihi ldh : Int) (a : HqrA Float) (iloz ihiz : Int) (rz cz : Nat) (hs : HqrShape a.h r c) (h1 : 1 ≤ ilo) (h2 : ilo + 2 ≤ ihi)
    (h3 : ihi ≤ r) (h4 : ihi ≤ c) (hn : wantt = true → n ≤ c ∧ ldh = r)
    (hz : wantz = true → HqrShape a.z rz cz ∧ 1 ≤ iloz ∧ iloz ≤ ihiz ∧ ihiz ≤ rz ∧ ihi ≤ cz)
    (j1 : NaNJoins a.h (dlamch 'S' * (Float.ofInt (ihi - ilo + 1) / dlamch 'P')) ihi) (j2 : NaNJoins a.h (dlamch 'S' * (Float.ofInt (ihi - ilo + 1) / dlamch 'P')) (ihi - 1)) :
    ∃ q : HqrA Float, (∀ fuel, hqrMain (F := Float) (fuel + 1) wantt wantz n ilo ihi ldh iloz ihiz a = pure (q, ihi)) ∧ HqrShape q.h r c ∧ q.wr = a.wr ∧ q.wi = a.wi ∧
      NC r q.h ihi (ihi - 1) ∧ NC r q.h (ihi - 1) (ihi - 2) := by
  obtain ⟨h', e, hh', hsame⟩ := hqrClear_same hs h1 (by omega) h3 h4
  have hf : HqrFits (hqrParams wantt wantz n ilo ihi ldh iloz ihiz : HqrP Float) r c rz cz :=
    ⟨h1, h3, h4, fun hw => (hz hw).2.1, fun hw => (hz hw).2.2.1, fun hw => (hz hw).2.2.2.1, fun hw => (hz hw).2.2.2.2, fun hw => (hn hw).1, fun hw => (hn hw).2⟩
  have n1 := nn_of_joins (p := hqrParams wantt wantz n ilo ihi ldh iloz ihiz) hs hh' (k := ihi) (by omega) (by omega) (by omega) (fun x y x1 x2 y1 y2 xy => hsame x y x1 x2 y1 y2 xy) j1
  have n2 := nn_of_joins (p := hqrParams wantt wantz n ilo ihi ldh iloz ihiz) hs hh' (k := ihi - 1) (by omega) (by omega) (by omega)
    (fun x y x1 x2 y1 y2 xy => hsame x y x1 (by omega) y1 (by omega) xy) j2
  obtain ⟨⟨s, its⟩, e1, hsh, hit, hl1, hl2, hsub⟩ := hqrInner_nan hf (i := ihi) (le_refl _) (HqrP.itmax (hqrParams wantt wantz n ilo ihi ldh iloz ihiz : HqrP Float)) 0
    ⟨h', a.z, faOfVec [Scalar.zero, Scalar.zero, Scalar.zero], 0, ihi, ilo, 0⟩ ⟨hh', fun hw => (hz hw).1, ⟨rfl, Or.inr (by simp [faOfVec, wrap32]), rfl⟩⟩ (le_refl _) h2 (Or.inl ⟨rfl, n1, n2⟩)
  simp only at hsh hit hl1 hl2 hsub
  refine ⟨{ a with h := s.h, z := s.z }, fun fuel => ?_, hsh.h, rfl, rfl, hsub ihi (by omega) (le_refl _), ?_⟩
  · unfold hqrMain
    rw [e, pure_bind]
    unfold hqrOuter
    rw [if_neg (by show ¬ ihi < ilo; omega)]
    show (hqrInner _ ihi _ 0 ⟨h', a.z, _, 0, ihi, ilo, 0⟩ >>= _) = _
    rw [e1, pure_bind]
    simp only
    rw [if_pos (by omega)]
  · have := hsub (ihi - 1) (by omega) (by omega)
    rwa [show ihi - 1 - 1 = ihi - 2 by ring] at this

/-- **C89.** `dlahqr` on `f64`, active block of order at least three, any modes, `h` an `r`-by-`c` array and arguments of suitable sizes.  If NaNs keep the last two rows of
the block from being split off (`NaNJoins` at rows `ihi` and `ihi - 1`), then the first round of the outer loop uses up all its sweeps: `dlahqr` returns, in both build profiles,
with `info = ihi`, so that no eigenvalue has been found; `wr` and `wi` are unchanged, and the two subdiagonal elements of the last two rows of `h` are NaN. -/
theorem C89_dlahqr_nan (fuel : Nat) (wantt wantz : Bool) (n ilo ihi : Int) (h : FA Float) (r c : Nat) (wr wi : List Float) (iloz ihiz : Int) (z : FA Float) (rz cz : Nat) (ldz : Int)
    (hM : IsMatrix h r c) (h1 : 1 ≤ ilo) (h2 : ilo + 2 ≤ ihi) (h3 : ihi ≤ n) (h4 : n ≤ r) (h5 : n ≤ c)
    (hz : wantz = true → IsMatrix z rz cz ∧ 1 ≤ iloz ∧ iloz ≤ ihiz ∧ ihiz ≤ rz ∧ ihi ≤ cz)
    (j1 : NaNJoins h (dlamch 'S' * (Float.ofInt (ihi - ilo + 1) / dlamch 'P')) ihi) (j2 : NaNJoins h (dlamch 'S' * (Float.ofInt (ihi - ilo + 1) / dlamch 'P')) (ihi - 1)) :
    ∃ ret, dlahqr (F := Float) (fuel + 1) wantt wantz n ilo ihi h (r : Int) wr wi iloz ihiz z ldz = pure ret ∧ ret.info = ihi ∧ ret.wr = wr ∧ ret.wi = wi ∧
      ∃ x y : Float, ret.h.get2 ihi (ihi - 1) = pure x ∧ ret.h.get2 (ihi - 1) (ihi - 2) = pure y ∧ x.isNaN = true ∧ y.isNaN = true := by
  have hs : HqrShape h r c := ⟨hM.rows, hM.cols, hM.length, hM.small⟩
  obtain ⟨q, e, s, w1, w2, m1, m2⟩ := hqrMain_nan wantt wantz n ilo ihi r ⟨h, ToFA.toFa wr, ToFA.toFa wi, z⟩ iloz ihiz rz cz hs h1 h2 (by omega) (by omega) (fun _ => ⟨h5, rfl⟩)
    (fun hw => ⟨⟨(hz hw).1.rows, (hz hw).1.cols, (hz hw).1.length, (hz hw).1.small⟩, (hz hw).2⟩) j1 j2
  obtain ⟨x, ex, hx⟩ := m1.get s (by omega) (by omega) (by omega) (by omega)
  obtain ⟨y, ey, hy⟩ := m2.get s (by omega) (by omega) (by omega) (by omega)
  refine ⟨⟨q.h, q.wr.data, q.wi.data, q.z, ihi⟩, ?_, rfl, by rw [w1]; rfl, by rw [w2]; rfl, x, y, ex, ey, hx, hy⟩
  unfold dlahqr
  rw [if_neg (by omega)]
  simp only
  rw [if_neg (by omega)]
  have e' := e fuel
  show (hqrMain (fuel + 1) wantt wantz n ilo ihi r iloz ihiz ⟨h, ToFA.toFa wr, ToFA.toFa wi, z⟩ >>= _) = _
  rw [e', pure_bind]
  rfl

/-- **C89, one NaN.** A single NaN on the diagonal next to the last row is enough, if the two subdiagonal elements beside it are not tiny. -/
theorem C89_dlahqr_one_nan (fuel : Nat) (wantt wantz : Bool) (n ilo ihi : Int) (h : FA Float) (r c : Nat) (wr wi : List Float) (iloz ihiz : Int) (z : FA Float) (rz cz : Nat) (ldz : Int)
    (hM : IsMatrix h r c) (h1 : 1 ≤ ilo) (h2 : ilo + 2 ≤ ihi) (h3 : ihi ≤ n) (h4 : n ≤ r) (h5 : n ≤ c)
    (hz : wantz = true → IsMatrix z rz cz ∧ 1 ≤ iloz ∧ iloz ≤ ihiz ∧ ihiz ≤ rz ∧ ihi ≤ cz) {d x y : Float}
    (hd : h.get2 (ihi - 1) (ihi - 1) = pure d) (hx : h.get2 ihi (ihi - 1) = pure x) (hy : h.get2 (ihi - 1) (ihi - 2) = pure y) (hdn : d.isNaN = true)
    (hxs : ¬ x.abs ≤ dlamch 'S' * (Float.ofInt (ihi - ilo + 1) / dlamch 'P')) (hys : ¬ y.abs ≤ dlamch 'S' * (Float.ofInt (ihi - ilo + 1) / dlamch 'P')) :
    ∃ ret, dlahqr (F := Float) (fuel + 1) wantt wantz n ilo ihi h (r : Int) wr wi iloz ihiz z ldz = pure ret ∧ ret.info = ihi ∧ ret.wr = wr ∧ ret.wi = wi ∧
      ∃ x y : Float, ret.h.get2 ihi (ihi - 1) = pure x ∧ ret.h.get2 (ihi - 1) (ihi - 2) = pure y ∧ x.isNaN = true ∧ y.isNaN = true := by
  have hs : HqrShape h r c := ⟨hM.rows, hM.cols, hM.length, hM.small⟩
  obtain ⟨w, ew, -⟩ := get2_ret hs (a := ihi) (b := ihi) (by omega) (by omega) (by omega) (by omega) (by omega)
  obtain ⟨u, eu, -⟩ := get2_ret hs (a := ihi - 2) (b := ihi - 2) (by omega) (by omega) (by omega) (by omega) (by omega)
  refine C89_dlahqr_nan fuel wantt wantz n ilo ihi h r c wr wi iloz ihiz z rz cz ldz hM h1 h2 h3 h4 h5 hz ⟨x, d, w, hx, hd, ew, hxs, Or.inr (Or.inl hdn)⟩
    ⟨y, u, d, ?_, ?_, hd, hys, Or.inr (Or.inr hdn)⟩
  · rw [show ihi - 1 - 1 = ihi - 2 by ring]; exact hy
  · rw [show ihi - 1 - 1 = ihi - 2 by ring]; exact eu

/-- **C89, nested vectors.** The same on square nested vectors (`h[j][i]` is row `i + 1`, column `j + 1`). -/
theorem C89_dlahqr_nan_nested (fuel : Nat) (wantt wantz : Bool) (n ilo ihi : Int) (h : List (List Float)) (r : Nat) (wr wi : List Float) (iloz ihiz : Int) (z : List (List Float))
    (rz : Nat) (ldz : Int) (hh : Rect h r r) (hz : Rect z rz rz) (hr0 : 0 < r) (hz0 : 0 < rz) (hrs : r * r < 2 ^ 31) (hzs : rz * rz < 2 ^ 31) (hwr : wr.length < 2 ^ 63)
    (hwi : wi.length < 2 ^ 63) (h1 : 1 ≤ ilo) (h2 : ilo + 2 ≤ ihi) (h3 : ihi ≤ n) (h4 : n ≤ r) (hw : wantz = true → 1 ≤ iloz ∧ iloz ≤ ihiz ∧ ihiz ≤ rz ∧ ihi ≤ rz)
    (j1 : NaNJoins (faOfVecVec h) (dlamch 'S' * (Float.ofInt (ihi - ilo + 1) / dlamch 'P')) ihi)
    (j2 : NaNJoins (faOfVecVec h) (dlamch 'S' * (Float.ofInt (ihi - ilo + 1) / dlamch 'P')) (ihi - 1)) :
    ∃ ret, dlahqr (F := Float) (fuel + 1) wantt wantz n ilo ihi h (r : Int) wr wi iloz ihiz z ldz = pure ret ∧ ret.info = ihi ∧ ret.wr = wr ∧ ret.wi = wi := by
  have q1 : r < 2 ^ 31 := by nlinarith
  have q2 : rz < 2 ^ 31 := by nlinarith
  obtain ⟨a1, a2, a3⟩ := faOfVecVec_shape hh hr0 q1 q1
  obtain ⟨b1, b2, b3⟩ := faOfVecVec_shape hz hz0 q2 q2
  have la : (ToFA.toFa (F := Float) h).data.length = r * r := by show (faOfVecVec h).data.length = _; rw [a3, flatten_length hh]
  have lb : (ToFA.toFa (F := Float) z).data.length = rz * rz := by show (faOfVecVec z).data.length = _; rw [b3, flatten_length hz]
  obtain ⟨q, e, s, w1, w2, m1, m2⟩ := hqrMain_nan wantt wantz n ilo ihi r ⟨ToFA.toFa h, ToFA.toFa wr, ToFA.toFa wi, ToFA.toFa z⟩ iloz ihiz rz rz ⟨a1, a2, la, hrs⟩ h1 h2
    (by omega) (by omega) (fun _ => ⟨h4, rfl⟩) (fun v => ⟨⟨b1, b2, lb, hzs⟩, hw v⟩) j1 j2
  obtain ⟨h', eh, _⟩ := vecVec_of_shape hr0 q1 hh (a := q.h) (s.rows.trans a1.symm) (s.cols.trans a2.symm) (s.length.trans la.symm)
  have hfr := hqrMain_frame (F := Float) (fuel + 1) wantt wantz n ilo ihi r iloz ihiz ⟨ToFA.toFa h, ToFA.toFa wr, ToFA.toFa wi, ToFA.toFa z⟩
    (by rw [fits_iff]; omega) (by rw [fits_iff]; omega) hwr hwi .debug (q, ihi) (by rw [e fuel]; rfl)
  obtain ⟨f1, f2, f3⟩ := hfr.1.hz.2.1
  obtain ⟨z', ez, _⟩ := vecVec_of_shape hz0 q2 hz (a := q.z) f1.symm f2.symm f3.symm
  refine ⟨⟨h', q.wr.data, q.wi.data, z', ihi⟩, ?_, rfl, by rw [w1]; rfl, by rw [w2]; rfl⟩
  unfold dlahqr
  rw [if_neg (by omega)]
  simp only
  rw [if_neg (by omega)]
  show (hqrMain (fuel + 1) wantt wantz n ilo ihi r iloz ihiz ⟨ToFA.toFa h, ToFA.toFa wr, ToFA.toFa wi, ToFA.toFa z⟩ >>= _) = _
  rw [e fuel, pure_bind]
  have eh' : (FromFA.fromFa q.h : R (List (List Float))) = pure h' := eh
  have ez' : (FromFA.fromFa q.z : R (List (List Float))) = pure z' := ez
  simp only [eh', ez', pure_bind]
  rfl

/-- The 3-by-3 matrix of ones with a single NaN, in the middle. -/
def nanMiddle : FA Float := ⟨[1, 1, 0, 1, 0 / 0, 1, 1, 1, 1], 3, 3, 0⟩

/-- The hypotheses of C89 are met by a matrix with a single NaN. -/
theorem C89_example (fuel : Nat) (wr wi : List Float) :
    ∃ ret, dlahqr (F := Float) (fuel + 1) true true 3 1 3 nanMiddle (3 : Nat) wr wi 1 3 nanMiddle 3 = pure ret ∧ ret.info = 3 ∧ ret.wr = wr ∧ ret.wi = wi := by
  have hM : IsMatrix nanMiddle 3 3 := ⟨rfl, rfl, rfl, by norm_num⟩
  obtain ⟨ret, e, e1, e2, e3, -⟩ := C89_dlahqr_one_nan fuel true true 3 1 3 nanMiddle 3 3 wr wi 1 3 nanMiddle 3 3 3 hM (by norm_num) (by norm_num) (by norm_num) (by norm_num)
    (by norm_num) (fun _ => ⟨hM, by norm_num, by norm_num, by norm_num, by norm_num⟩) (d := 0 / 0) (x := 1) (y := 1)
    (by funext pr; cases pr <;> rfl) (by funext pr; cases pr <;> rfl) (by funext pr; cases pr <;> rfl) (by decide +kernel) (by decide +kernel) (by decide +kernel)
  exact ⟨ret, e, e1, e2, e3⟩

end
end Verif

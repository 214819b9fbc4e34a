import Verif.Lib.HqrLocal
import Verif.Props.HqrSafe
import Verif.Props.Qr5Z
import Verif.Inst.Float

/-!
# Which entries of `h` the result of `dlahqr` depends on, and which it changes (C90)

Any scalar arithmetic, Schur form wanted.
-/

namespace Verif
open Scalar

variable {F : Type} [Scalar F]

/-- Two column-major lists with leading dimension `r` hold the same entry in row `a`, column `b` (counted from one). -/
def Spec.sameAt (r : Nat) (x y : List F) (a b : Int) : Prop := x[((b - 1) * r + (a - 1)).toNat]? = y[((b - 1) * r + (a - 1)).toNat]?

/-- Two calls, as functions of the number of rounds their outer loops are allowed: both never end, or both return once more than `rounds` rounds are allowed, and what
they return is related by `rel`. -/
def Spec.LoopOrReturnTogether {α : Type} (run run' : Nat → R α) (rounds : Int) (rel : α → α → Prop) : Prop :=
  (∀ fuel, run fuel = R.timeout ∧ run' fuel = R.timeout) ∨ ∃ ret ret', rel ret ret' ∧ ∀ fuel : Nat, rounds < fuel → run fuel = pure ret ∧ run' fuel = pure ret'

open Spec

section
variable {p : HqrP F} {r c rz cz : Nat} {g g0 g0' : Int → Int → F} {h h' : FA F}

theorem data_is2 (e : Is2 h r c (r * c) g) (hL : r * c < 2 ^ 31) {a b : Int} (a1 : 1 ≤ a) (a2 : a ≤ r) (b1 : 1 ≤ b) (b2 : b ≤ c) :
    h.data[((b - 1) * r + (a - 1)).toNat]? = some (g a b) := by
  obtain ⟨x, rfl⟩ : ∃ x : Nat, a = x + 1 := ⟨(a - 1).toNat, by omega⟩
  obtain ⟨y, rfl⟩ : ∃ y : Nat, b = y + 1 := ⟨(b - 1).toNat, by omega⟩
  have e1 : (((y : Int) + 1 - 1) * r + ((x : Int) + 1 - 1)).toNat = x + r * y := by
    rw [show ((y : Int) + 1 - 1) * r + ((x : Int) + 1 - 1) = ((x + r * y : Nat) : Int) by push_cast; ring]
    exact Int.toNat_natCast _
  have hx : x < r := by omega
  have hy : y < c := by omega
  have hlt : x + r * y < r * c := by
    have : r * (y + 1) ≤ r * c := Nat.mul_le_mul_left _ hy
    rw [Nat.mul_add] at this
    omega
  rw [e1, e.data, tab2_getElem?, if_pos hlt, Nat.add_mul_mod_self_left, Nat.mod_eq_of_lt hx, Nat.add_mul_div_left _ _ (by omega), Nat.div_eq_of_lt hx, Nat.zero_add]

/-- What is common to the results of two calls. -/
def LocOut {H WR WI Z : Type} (dat : H → List F) (r c : Nat) (n ilo ihi : Int) (h h' : H) (q q' : HqrRet H WR WI Z) : Prop :=
  (q'.wr = q.wr ∧ q'.wi = q.wi ∧ q'.z = q.z ∧ q'.info = q.info) ∧
    (∀ a b : Int, ilo ≤ a → a ≤ ihi → ilo ≤ b → b ≤ ihi → a ≤ b + 4 → sameAt r (dat q.h) (dat q'.h) a b) ∧
    (∀ a b : Int, 1 ≤ a → a ≤ r → 1 ≤ b → b ≤ c → (a < ilo ∨ ihi < a ∨ b < ilo ∨ n < b ∨ b + 4 < a) → sameAt r (dat q.h) (dat h) a b) ∧
    ∀ a b : Int, 1 ≤ a → a ≤ r → 1 ≤ b → b ≤ c → (a < ilo ∨ ihi < a ∨ b < ilo ∨ n < b ∨ b + 4 < a) → sameAt r (dat q'.h) (dat h') a b

theorem dlahqr_local {H Z : Type} [ToFA F H] [FromFA F H] [ToFA F Z] [FromFA F Z] (fuel : Nat) (wantz : Bool) (n ilo ihi : Int) (h h' : H) (r c : Nat)
    (wr wi : List F) (iloz ihiz : Int) (z : Z) (rz cz : Nat) (ldz : Int) (dat : H → List F) (hM : IsMatrix (ToFA.toFa h : FA F) r c)
    (hM' : IsMatrix (ToFA.toFa h' : FA F) r c) (hd : (ToFA.toFa h : FA F).data = dat h) (hd' : (ToFA.toFa h' : FA F).data = dat h') (h1 : 1 ≤ ilo) (h2 : ilo ≤ ihi)
    (h3 : ihi ≤ n) (h4 : n ≤ r) (h5 : n ≤ c)
    (hz : wantz = true → IsMatrix (ToFA.toFa z : FA F) rz cz ∧ 1 ≤ iloz ∧ iloz ≤ ihiz ∧ ihiz ≤ rz ∧ ihi ≤ cz)
    (hH : ∀ a : FA F, IsMatrix a r c → ∃ w : H, FromFA.fromFa a = pure w ∧ dat w = a.data)
    (hag : ∀ a b, ilo ≤ a → a ≤ ihi → ilo ≤ b → b ≤ ihi → (a ≤ b + 1 ∨ a = b + 4) → sameAt r (dat h) (dat h') a b) :
    Sim (LocOut dat r c n ilo ihi h h') (dlahqr (F := F) fuel true wantz n ilo ihi h (r : Int) wr wi iloz ihiz z ldz)
      (dlahqr (F := F) fuel true wantz n ilo ihi h' (r : Int) wr wi iloz ihiz z ldz) := by
  have hL := hM.small
  have s : Is2 (ToFA.toFa h : FA F) r c (r * c) _ := is2_of_matrix hM (by omega)
  have s' : Is2 (ToFA.toFa h' : FA F) r c (r * c) _ := is2_of_matrix hM' (by omega)
  have hg : ∀ x y, ilo ≤ x → x ≤ ihi → ilo ≤ y → y ≤ ihi → (x ≤ y + 1 ∨ x = y + 4) →
      ofList2 r (ToFA.toFa h : FA F).data x y = ofList2 r (ToFA.toFa h' : FA F).data x y := by
    intro x y x1 x2 y1 y2 xy
    have := hag x y x1 x2 y1 y2 xy
    unfold sameAt at this
    rw [← hd, ← hd', data_is2 s hL (by omega) (by omega) (by omega) (by omega), data_is2 s' hL (by omega) (by omega) (by omega) (by omega)] at this
    exact Option.some.inj this
  have hn0 : ¬ n = 0 := by omega
  unfold dlahqr
  simp only [if_neg hn0]
  by_cases he : ilo = ihi
  · subst he
    simp only [if_true]
    have c0 : Cell r (r * c) ilo ilo := cell_rc (by omega) (by omega) (by omega) (by omega)
    rw [get2_is2 s c0 hL, get2_is2 s' c0 hL, hg ilo ilo (le_refl _) (le_refl _) (le_refl _) (le_refl _) (Or.inl (by omega))]
    simp only [pure_bind]
    refine Sim.bind' fun wr' => Sim.bind' fun wi' => Sim.pure ⟨⟨rfl, rfl, rfl, rfl⟩, fun a b a1 a2 b1 b2 _ => ?_, fun _ _ _ _ _ _ _ => rfl, fun _ _ _ _ _ _ _ => rfl⟩
    exact hag a b a1 a2 b1 b2 (Or.inl (by omega))
  · simp only [if_neg he]
    have hf : HqrFits (hqrParams true wantz n ilo ihi r iloz ihiz : HqrP F) r c rz cz :=
      ⟨h1, by show ihi ≤ r; omega, by show ihi ≤ c; omega, fun hw => (hz hw).2.1, fun hw => (hz hw).2.2.1, fun hw => (hz hw).2.2.2.1, fun hw => (hz hw).2.2.2.2, fun _ => h5, fun _ => rfl⟩
    refine Sim.bind (hqrMain_loc hf hL (by omega) fuel ⟨ToFA.toFa h, ToFA.toFa wr, ToFA.toFa wi, ToFA.toFa z⟩ ⟨ToFA.toFa h', ToFA.toFa wr, ToFA.toFa wi, ToFA.toFa z⟩ s s'
      (fun hw => ⟨(hz hw).1.rows, (hz hw).1.cols, (hz hw).1.length, (hz hw).1.small⟩) rfl hg) fun q q' ⟨L, e1, e2⟩ => ?_
    obtain ⟨⟨k, kr, ki, kz⟩, inf⟩ := q
    obtain ⟨⟨k', kr', ki', kz'⟩, inf'⟩ := q'
    simp only [HqrA.mk.injEq, true_and] at L e1 e2
    obtain ⟨rfl, rfl, rfl⟩ := e1
    obtain rfl := e2
    obtain ⟨f, f', t, t', ag, f1, f2⟩ := L
    have S := is2_hqrShape t hL
    have S' := is2_hqrShape t' hL
    obtain ⟨w, ew, dw⟩ := hH k ⟨S.rows, S.cols, S.length, S.small⟩
    obtain ⟨w', ew', dw'⟩ := hH k' ⟨S'.rows, S'.cols, S'.length, S'.small⟩
    simp only [ew, ew', pure_bind]
    refine Sim.bind' fun wr' => Sim.bind' fun wi' => Sim.bind' fun z' => Sim.pure ⟨⟨rfl, rfl, rfl, rfl⟩, fun a b a1 a2 b1 b2 ab => ?_, fun a b a1 a2 b1 b2 hn => ?_, fun a b a1 a2 b1 b2 hn => ?_⟩
    · unfold sameAt
      simp only [dw, dw']
      rw [data_is2 t hL (by omega) (by omega) (by omega) (by omega), data_is2 t' hL (by omega) (by omega) (by omega) (by omega), ag a b a1 a2 b1 b2 ab]
    · unfold sameAt
      simp only [dw, ← hd]
      rw [data_is2 t hL a1 a2 b1 b2, data_is2 s hL a1 a2 b1 b2, f1 a b]
      rintro ⟨i1, i2, i3, i4, i5⟩
      simp only [hqrParams] at i1 i2 i3 i4
      omega
    · unfold sameAt
      simp only [dw', ← hd']
      rw [data_is2 t' hL a1 a2 b1 b2, data_is2 s' hL a1 a2 b1 b2, f2 a b]
      rintro ⟨i1, i2, i3, i4, i5⟩
      simp only [hqrParams] at i1 i2 i3 i4
      omega

theorem together {α : Type} {rel : α → α → Prop} {run run' : Nat → R α} {rounds : Int} (hs : ∀ fuel, Sim rel (run fuel) (run' fuel)) (h : LoopsOrReturns run rounds)
    (h' : LoopsOrReturns run' rounds) : LoopOrReturnTogether run run' rounds rel := by
  have far : rounds < ((rounds.toNat + 1 : Nat) : Int) := by omega
  rcases h with t | ⟨ret, e⟩ <;> rcases h' with t' | ⟨ret', e'⟩
  · exact Or.inl fun fuel => ⟨t fuel, t' fuel⟩
  · have := hs (rounds.toNat + 1) .debug
    rw [t, e' _ far] at this
    cases this
  · have := hs (rounds.toNat + 1) .debug
    rw [t', e _ far] at this
    cases this
  · refine Or.inr ⟨ret, ret', ?_, fun fuel hfu => ⟨e fuel hfu, e' fuel hfu⟩⟩
    have := hs (rounds.toNat + 1) .debug
    rw [e _ far, e' _ far] at this
    cases this with
    | ok h => exact h

end

/-- **C90.** For every scalar arithmetic, and for sizes that fit: two calls of `dlahqr` with the Schur form wanted, whose matrices `h` and `h'` agree in rows and columns
`ilo .. ihi` on and above the subdiagonal and on the fourth diagonal below the main one, and whose other arguments are the same, either both never end, or both return;
then `wr`, `wi`, `z` and `info` are the same, and so are the entries of `h` in rows and columns `ilo .. ihi` down to the fourth diagonal below the main one.  Whatever `h`
holds elsewhere, NaNs included, has no influence on them. -/
theorem C90_dlahqr_reads_block (wantz : Bool) (n ilo ihi : Int) (h h' : FA F) (r c : Nat) (wr wi : List F) (iloz ihiz : Int) (z : FA F) (rz cz : Nat) (ldz : Int)
    (hM : IsMatrix h r c) (hM' : IsMatrix h' r c) (h1 : 1 ≤ ilo) (h2 : ilo ≤ ihi) (h3 : ihi ≤ n) (h4 : n ≤ r) (h5 : n ≤ c)
    (hz : wantz = true → IsMatrix z rz cz ∧ 1 ≤ iloz ∧ iloz ≤ ihiz ∧ ihiz ≤ rz ∧ ihi ≤ cz)
    (hag : ∀ a b, ilo ≤ a → a ≤ ihi → ilo ≤ b → b ≤ ihi → (a ≤ b + 1 ∨ a = b + 4) → sameAt r h.data h'.data a b) :
    LoopOrReturnTogether (fun fuel => dlahqr (F := F) fuel true wantz n ilo ihi h (r : Int) wr wi iloz ihiz z ldz)
      (fun fuel => dlahqr (F := F) fuel true wantz n ilo ihi h' (r : Int) wr wi iloz ihiz z ldz) (ihi - ilo + 1)
      fun ret ret' => ret'.wr = ret.wr ∧ ret'.wi = ret.wi ∧ ret'.z = ret.z ∧ ret'.info = ret.info ∧
        ∀ a b, ilo ≤ a → a ≤ ihi → ilo ≤ b → b ≤ ihi → a ≤ b + 4 → sameAt r ret.h.data ret'.h.data a b :=
  together (fun fuel => (dlahqr_local fuel wantz n ilo ihi h h' r c wr wi iloz ihiz z rz cz ldz FA.data hM hM' rfl rfl h1 h2 h3 h4 h5 hz (fun a _ => ⟨a, rfl, rfl⟩) hag).mono
      fun _ _ q => ⟨q.1.1, q.1.2.1, q.1.2.2.1, q.1.2.2.2, q.2.1⟩)
    (C69_dlahqr_safe true wantz n ilo ihi h r c wr wi iloz ihiz z rz cz ldz hM h1 h2 h3 h4 h5 hz)
    (C69_dlahqr_safe true wantz n ilo ihi h' r c wr wi iloz ihiz z rz cz ldz hM' h1 h2 h3 h4 h5 hz)

/-- **C90, what is changed.** A call of `dlahqr` with the Schur form wanted that returns leaves every entry of `h` as it was that lies outside the rows `ilo .. ihi`, left of
column `ilo`, right of column `n`, or more than four places below the diagonal. -/
theorem C90_dlahqr_writes_block (fuel : Nat) (wantz : Bool) (n ilo ihi : Int) (h : FA F) (r c : Nat) (wr wi : List F) (iloz ihiz : Int) (z : FA F) (rz cz : Nat) (ldz : Int)
    (hM : IsMatrix h r c) (h1 : 1 ≤ ilo) (h2 : ilo ≤ ihi) (h3 : ihi ≤ n) (h4 : n ≤ r) (h5 : n ≤ c)
    (hz : wantz = true → IsMatrix z rz cz ∧ 1 ≤ iloz ∧ iloz ≤ ihiz ∧ ihiz ≤ rz ∧ ihi ≤ cz) (pr : Profile) (ret : HqrRet (FA F) (List F) (List F) (FA F))
    (e : dlahqr (F := F) fuel true wantz n ilo ihi h (r : Int) wr wi iloz ihiz z ldz pr = .ok ret) (a b : Int) (a1 : 1 ≤ a) (a2 : a ≤ r) (b1 : 1 ≤ b) (b2 : b ≤ c)
    (hout : a < ilo ∨ ihi < a ∨ b < ilo ∨ n < b ∨ b + 4 < a) : sameAt r ret.h.data h.data a b := by
  have := dlahqr_local fuel wantz n ilo ihi h h r c wr wi iloz ihiz z rz cz ldz FA.data hM hM rfl rfl h1 h2 h3 h4 h5 hz (fun a _ => ⟨a, rfl, rfl⟩)
    (fun _ _ _ _ _ _ _ => rfl) pr
  rw [e] at this
  cases this with
  | ok q => exact q.2.2.1 a b a1 a2 b1 b2 hout

/-- **C90, nested vectors.** The same for square nested vectors (`h[j][i]` is row `i + 1`, column `j + 1`): what the results depend on, and what is changed. -/
theorem C90_dlahqr_nested (wantz : Bool) (n ilo ihi : Int) (h h' : List (List F)) (r : Nat) (wr wi : List F) (iloz ihiz : Int) (z : List (List F)) (rz : Nat)
    (ldz : Int) (hh : Rect h r r) (hh' : Rect h' r r) (hz : Rect z rz rz) (hr0 : 0 < r) (hz0 : 0 < rz) (hrs : r * r < 2 ^ 31) (hzs : rz * rz < 2 ^ 31)
    (hwr : wr.length < 2 ^ 63) (hwi : wi.length < 2 ^ 63) (h1 : 1 ≤ ilo) (h2 : ilo ≤ ihi) (h3 : ihi ≤ n) (h4 : n ≤ r)
    (hw : wantz = true → 1 ≤ iloz ∧ iloz ≤ ihiz ∧ ihiz ≤ rz ∧ ihi ≤ rz)
    (hag : ∀ a b, ilo ≤ a → a ≤ ihi → ilo ≤ b → b ≤ ihi → (a ≤ b + 1 ∨ a = b + 4) → sameAt r h.flatten h'.flatten a b) :
    LoopOrReturnTogether (fun fuel => dlahqr (F := F) fuel true wantz n ilo ihi h (r : Int) wr wi iloz ihiz z ldz)
      (fun fuel => dlahqr (F := F) fuel true wantz n ilo ihi h' (r : Int) wr wi iloz ihiz z ldz) (ihi - ilo + 1)
      fun ret ret' => (ret'.wr = ret.wr ∧ ret'.wi = ret.wi ∧ ret'.z = ret.z ∧ ret'.info = ret.info ∧
        ∀ a b, ilo ≤ a → a ≤ ihi → ilo ≤ b → b ≤ ihi → a ≤ b + 4 → sameAt r ret.h.flatten ret'.h.flatten a b) ∧
        ∀ a b : Int, 1 ≤ a → a ≤ r → 1 ≤ b → b ≤ r → (a < ilo ∨ ihi < a ∨ b < ilo ∨ n < b ∨ b + 4 < a) → sameAt r ret.h.flatten h.flatten a b := by
  have q1 : r < 2 ^ 31 := by nlinarith
  have q2 : rz < 2 ^ 31 := by nlinarith
  obtain ⟨a1, a2, a3⟩ := faOfVecVec_shape hh hr0 q1 q1
  obtain ⟨a1', a2', a3'⟩ := faOfVecVec_shape hh' hr0 q1 q1
  obtain ⟨b1, b2, b3⟩ := faOfVecVec_shape hz hz0 q2 q2
  have la : (ToFA.toFa (F := F) h).data.length = r * r := by show (faOfVecVec h).data.length = _; rw [a3, flatten_length hh]
  have la' : (ToFA.toFa (F := F) h').data.length = r * r := by show (faOfVecVec h').data.length = _; rw [a3', flatten_length hh']
  have lb : (ToFA.toFa (F := F) z).data.length = rz * rz := by show (faOfVecVec z).data.length = _; rw [b3, flatten_length hz]
  refine together (fun fuel => (dlahqr_local fuel wantz n ilo ihi h h' r r wr wi iloz ihiz z rz rz ldz List.flatten ⟨a1, a2, la, hrs⟩ ⟨a1', a2', la', hrs⟩ a3 a3' h1 h2 h3 h4 h4
      (fun w => ⟨⟨b1, b2, lb, hzs⟩, hw w⟩) (fun a ha => ?_) hag).mono fun _ _ q => ⟨⟨q.1.1, q.1.2.1, q.1.2.2.1, q.1.2.2.2, q.2.1⟩, q.2.2.1⟩)
    (C69_dlahqr_safe_nested true wantz n ilo ihi h r wr wi iloz ihiz z rz ldz hh hz hr0 hz0 hrs hzs hwr hwi h1 h2 h3 h4 hw)
    (C69_dlahqr_safe_nested true wantz n ilo ihi h' r wr wi iloz ihiz z rz ldz hh' hz hr0 hz0 hrs hzs hwr hwi h1 h2 h3 h4 hw)
  obtain ⟨w, e, _, e2⟩ := vecVec_of_shape hr0 q1 hh (a := a) (ha.rows.trans a1.symm) (ha.cols.trans a2.symm) (ha.length.trans la.symm)
  exact ⟨w, e, e2⟩

/-! ### Examples -/

/-- A nearly diagonal 5-by-5 upper Hessenberg matrix, with `x` in the last row of the first column. -/
def graded5 (x : Float) : FA Float :=
  ⟨[625, 1 / 65536, 0, 0, x, 0, 125, 1 / 65536, 0, 0, 0, 0, 25, 1 / 65536, 0, 0, 0, 0, 5, 1 / 65536, 0, 0, 0, 0, 1], 5, 5, 0⟩

/-- The call that decomposes it. -/
def gradedSchur5 (fuel : Nat) (x : Float) : R (HqrRet (FA Float) (List Float) (List Float) (FA Float)) :=
  dlahqr (F := Float) fuel true false 5 1 5 (graded5 x) (5 : Nat) [0, 0, 0, 0, 0] [0, 0, 0, 0, 0] 1 5 (graded5 0) 5

theorem LoopsOrReturns.pure_of_holds {α : Type} {run : Nat → R α} {rounds : Int} (h : LoopsOrReturns run rounds) {f : α → Bool} {pr : Profile} {fuel : Nat} (hf : rounds < fuel)
    (e : (run fuel pr).holds f = true) : ∃ a, run fuel = pure a ∧ f a = true := by
  obtain ⟨a, ea, fa⟩ := Res.holds_spec e
  rcases h with t | ⟨ret, hr⟩
  · rw [t] at ea
    cases ea
  · refine ⟨ret, hr fuel hf, ?_⟩
    rw [hr fuel hf] at ea
    cases ea
    exact fa

theorem graded5_matrix (x : Float) : IsMatrix (graded5 x) 5 5 := ⟨rfl, rfl, rfl, by norm_num⟩

/-- **C90: the fourth diagonal below the main one does matter** (in LAPACK it does not).  `graded5 0` and `graded5 1` differ in row 5 of column 1 only, an entry no
Hessenberg matrix has.  For both `dlahqr` reports success, but the fourth entry of `wr` is an eigenvalue near 5 for the one and near 1 for the other. -/
theorem C90_dlahqr_fourth_diagonal :
    (∃ ret, gradedSchur5 6 0 = pure ret ∧ ret.info = 0 ∧ (4 : Float) < ret.wr.getD 3 0) ∧ ∃ ret, gradedSchur5 6 1 = pure ret ∧ ret.info = 0 ∧ ret.wr.getD 3 0 < (2 : Float) := by
  have safe : ∀ x, LoopsOrReturns (fun fuel => gradedSchur5 fuel x) (5 - 1 + 1) := fun x =>
    C69_dlahqr_safe true false 5 1 5 (graded5 x) 5 5 _ _ 1 5 (graded5 0) 5 5 5 (graded5_matrix x) (by norm_num) (by norm_num) (by norm_num) (by norm_num) (by norm_num) fun h => by cases h
  have e0 : (gradedSchur5 6 0 .release).holds (fun ret => decide (ret.info = 0) && decide ((4 : Float) < ret.wr.getD 3 0)) = true := by decide +kernel
  have e1 : (gradedSchur5 6 1 .release).holds (fun ret => decide (ret.info = 0) && decide (ret.wr.getD 3 0 < (2 : Float))) = true := by decide +kernel
  obtain ⟨a, ea, ha⟩ := LoopsOrReturns.pure_of_holds (safe 0) (by norm_num) e0
  obtain ⟨b, eb, hb⟩ := LoopsOrReturns.pure_of_holds (safe 1) (by norm_num) e1
  rw [Bool.and_eq_true, decide_eq_true_iff, decide_eq_true_iff] at ha hb
  exact ⟨⟨a, ea, ha⟩, ⟨b, eb, hb⟩⟩

/-- A 4-by-4 upper Hessenberg matrix with sevens in the first row. -/
def above4 : FA Float := ⟨[7, 1, 0, 0, 7, 1, 1 / 8, 0, 7, 0, 1, 1 / 8, 7, 0, 0, 1], 4, 4, 0⟩

/-- **C90: without the Schur form entries above and to the left of the block are overwritten.**  `dlahqr` is asked for the eigenvalues of rows and columns 2 to 4; it
reports success and has changed the entry in row 1, column 2 from 7 to a negative value, and the entry in row 4, column 1 from 0 to a negative value. -/
theorem C90_dlahqr_values_only :
    ∃ ret, dlahqr (F := Float) 6 false false 4 2 4 above4 (4 : Nat) ([0, 0, 0, 0] : List Float) ([0, 0, 0, 0] : List Float) 1 4 above4 4 = pure ret ∧ ret.info = 0 ∧
      (above4.data.getD 4 0 = (7 : Float) ∧ ret.h.data.getD 4 0 < (0 : Float)) ∧ above4.data.getD 3 0 = (0 : Float) ∧ ret.h.data.getD 3 0 < (0 : Float) := by
  have safe := C69_dlahqr_safe_values false 4 2 4 (4 : Nat) above4 4 4 ([0, 0, 0, 0] : List Float) ([0, 0, 0, 0] : List Float) 1 4 above4 4 4 4 ⟨rfl, rfl, rfl, by norm_num⟩ (by norm_num)
    (by norm_num) (by norm_num) (by norm_num) fun h => by cases h
  have e0 : (dlahqr (F := Float) 6 false false 4 2 4 above4 (4 : Nat) ([0, 0, 0, 0] : List Float) ([0, 0, 0, 0] : List Float) 1 4 above4 4 .release).holds
      (fun ret => decide (ret.info = 0) && (decide (ret.h.data.getD 4 0 < (0 : Float)) && decide (ret.h.data.getD 3 0 < (0 : Float)))) = true := by decide +kernel
  obtain ⟨a, ea, ha⟩ := LoopsOrReturns.pure_of_holds safe (by norm_num) e0
  rw [Bool.and_eq_true, Bool.and_eq_true, decide_eq_true_iff, decide_eq_true_iff, decide_eq_true_iff] at ha
  exact ⟨a, ea, ha.1, ⟨rfl, ha.2.1⟩, rfl, ha.2.2⟩

/-- A 6-by-6 array that holds the block of `graded5 0` in rows and columns 1 to 5, and NaNs everywhere else and two places below the diagonal. -/
def nanFrame : FA Float :=
  ⟨[625, 1 / 65536, 0 / 0, 0, 0, 0 / 0, 0, 125, 1 / 65536, 0 / 0, 0, 0 / 0, 0, 0, 25, 1 / 65536, 0 / 0, 0 / 0, 0, 0, 0, 5, 1 / 65536, 0 / 0, 0, 0, 0, 0, 1, 0 / 0,
    0 / 0, 0 / 0, 0 / 0, 0 / 0, 0 / 0, 0 / 0], 6, 6, 0⟩

/-- The same with zeros in the place of the NaNs. -/
def zeroFrame : FA Float :=
  ⟨[625, 1 / 65536, 0, 0, 0, 0, 0, 125, 1 / 65536, 0, 0, 0, 0, 0, 25, 1 / 65536, 0, 0, 0, 0, 0, 5, 1 / 65536, 0, 0, 0, 0, 0, 1, 0, 0, 0, 0, 0, 0, 0], 6, 6, 0⟩

/-- The hypotheses of C90 are met by two matrices of which one holds NaNs outside the block and below its subdiagonal. -/
theorem C90_example (wr wi : List Float) (z : FA Float) :
    LoopOrReturnTogether (fun fuel => dlahqr (F := Float) fuel true false 6 1 5 nanFrame (6 : Nat) wr wi 1 6 z 6)
      (fun fuel => dlahqr (F := Float) fuel true false 6 1 5 zeroFrame (6 : Nat) wr wi 1 6 z 6) (5 - 1 + 1)
      fun ret ret' => ret'.wr = ret.wr ∧ ret'.wi = ret.wi ∧ ret'.z = ret.z ∧ ret'.info = ret.info ∧
        ∀ a b, 1 ≤ a → a ≤ 5 → 1 ≤ b → b ≤ 5 → a ≤ b + 4 → sameAt 6 ret.h.data ret'.h.data a b := by
  refine C90_dlahqr_reads_block false 6 1 5 nanFrame zeroFrame 6 6 wr wi 1 6 z 0 0 6 ⟨rfl, rfl, rfl, by norm_num⟩ ⟨rfl, rfl, rfl, by norm_num⟩ (by norm_num) (by norm_num)
    (by norm_num) (by norm_num) (by norm_num) (fun h => by cases h) fun a b a1 a2 b1 b2 ab => ?_
  obtain rfl | rfl | rfl | rfl | rfl : b = 1 ∨ b = 2 ∨ b = 3 ∨ b = 4 ∨ b = 5 := by omega
  all_goals
    obtain rfl | rfl | rfl | rfl | rfl : a = 1 ∨ a = 2 ∨ a = 3 ∨ a = 4 ∨ a = 5 := by omega
    all_goals first | rfl | (exfalso; omega)

end Verif

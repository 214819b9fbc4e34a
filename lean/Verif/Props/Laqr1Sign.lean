import Verif.Lib.F64Sign
import Verif.Props.Lapy2F64
import Verif.Props.Laqr1
import Verif.Props.HqrIndep

/-!
# C101: symmetries of `dlaqr1` on binary64
-/

namespace Verif
open F64 Scalar Spec

/-- Specification: `x` or `-x`. -/
def Spec.flip (b : Bool) (x : Float) : Float := if b then -x else x

/-- Specification: `w` is `v` (or `-v` if `b`), where any zero stands for any other and `NaN` for `NaN`. -/
def Spec.FlipEq (b : Bool) (v w : Float) : Prop := (v.isNaN = true ∧ w.isNaN = true) ∨ (w == Spec.flip b v) = true

namespace F64
open Float.Model Float.Model.UnpackedFloat

/-- `y` is `x`, or `-x` if `b`, up to the sign of a zero. -/
def Rel (b : Bool) (x y : Float) : Prop := Opp (Spec.flip (!b) x) y

theorem Opp.symm' {x y : Float} (h : Opp x y) : Opp y x := by
  rcases h with h | ⟨s, t, hs, ht⟩
  · left
    rw [h]
    cases up x <;> simp only [UnpackedFloat.neg, sneg_neg]
  · exact Or.inr ⟨t, s, ht, hs⟩

theorem Opp.trans' {x y z : Float} (h : Opp x y) (h' : Opp y z) : Opp (-x) z := by
  unfold Opp
  rw [up_neg']
  rcases h with h | ⟨s, t, hs, ht⟩
  · rcases h' with h' | ⟨s', t', hs', ht'⟩
    · left; rw [h', h]
    · right
      rw [hs'] at h
      exact ⟨s', t', h.symm, ht'⟩
  · rcases h' with h' | ⟨s', t', hs', ht'⟩
    · right
      rw [ht] at h'
      exact ⟨-s, -t, by rw [hs]; rfl, h'⟩
    · exact Or.inr ⟨-s, t', by rw [hs]; rfl, ht'⟩

theorem rel_true {x y : Float} : Rel true x y ↔ Opp x y := Iff.rfl
theorem rel_false {x y : Float} : Rel false x y ↔ Opp (-x) y := Iff.rfl

theorem Rel.of_flip (b : Bool) (x : Float) : Rel b x (Spec.flip b x) := by
  cases b
  · have := Opp.of_neg (-x)
    rw [neg_neg'] at this
    exact this
  · exact Opp.of_neg x

theorem Opp.neg' {x y : Float} (h : Opp x y) : Opp (-x) (-y) := by
  have := h.mulR (-1)
  unfold Opp
  rw [up_neg', up_neg']
  exact oppU_neg h

theorem Rel.add {b : Bool} {x x' y y' : Float} (h : Rel b x x') (h' : Rel b y y') : Rel b (x + y) (x' + y') := by
  cases b
  · have h1 : Opp (-x + -y) (x' + y') := Opp.add h h'
    have h2 : Opp (x + y) (-x + -y) := (Opp.of_neg x).add (Opp.of_neg y)
    exact h2.trans' h1
  · exact Opp.add h h'

theorem Rel.sub {b : Bool} {x x' y y' : Float} (h : Rel b x x') (h' : Rel b y y') : Rel b (x - y) (x' - y') := by
  cases b
  · have h1 : Opp (-x - -y) (x' - y') := Opp.sub h h'
    have h2 : Opp (x - y) (-x - -y) := (Opp.of_neg x).sub (Opp.of_neg y)
    exact h2.trans' h1
  · exact Opp.sub h h'

theorem Rel.mul {b b' : Bool} {x x' y y' : Float} (h : Rel b x x') (h' : Rel b' y y') : Rel (b ^^ b') (x * y) (x' * y') := by
  have key : ∀ {x x' y y' : Float}, Opp x x' → Opp y y' → Opp (-(x * y)) (x' * y') := fun {x x' y y'} h h' =>
    Opp.trans' (h'.mulL x) (h.mulR y')
  cases b <;> cases b'
  · have := key h h'
    show Opp (-(x * y)) _
    rwa [show Spec.flip (!false) x = -x from rfl, show Spec.flip (!false) y = -y from rfl, neg_mul_neg'] at this
  · have := key (x := -x) (y := y) h h'
    show Opp (x * y) _
    rwa [neg_mul', neg_neg'] at this
  · have := key (x := x) (y := -y) h h'
    show Opp (x * y) _
    rwa [mul_neg', neg_neg'] at this
  · exact key h h'

theorem oppU_div {u u' v : UnpackedFloat} (h : OppU u u') :
    OppU (UnpackedFloat.div Format.binary64 u v) (UnpackedFloat.div Format.binary64 u' v) := by
  rcases h with rfl | ⟨s, t, rfl, rfl⟩
  · exact Or.inl (uneg_div u v)
  · cases v with
    | notANumber => left; rfl
    | infinity s => right; exact ⟨_, _, rfl, rfl⟩
    | zero s => left; rfl
    | finite s m e h => right; exact ⟨_, _, rfl, rfl⟩

theorem Rel.div {b : Bool} {x x' : Float} (h : Rel b x x') (s : Float) : Rel b (x / s) (x' / s) := by
  have key : ∀ {x x' : Float}, Opp x x' → Opp (x / s) (x' / s) := by
    intro x x' h
    unfold Opp
    rw [up_div, up_div]
    exact (oppU_div h).fix
  cases b
  · have := key h
    show Opp (-(x / s)) _
    rwa [show Spec.flip (!false) x = -x from rfl, neg_div'] at this
  · exact key h

theorem Rel.abs {b : Bool} {x x' : Float} (h : Rel b x x') : x'.abs = x.abs := by
  have key : ∀ {x x' : Float}, Opp x x' → x'.abs = x.abs := by
    intro x x' h
    apply up_inj
    rw [up_abs', up_abs']
    rcases h with h | ⟨s, t, hs, ht⟩
    · rw [h]; cases up x <;> rfl
    · rw [hs, ht]; rfl
  cases b
  · exact (key h).trans (abs_neg' x)
  · exact key h

theorem Rel.spec {b : Bool} {x y : Float} (h : Rel b x y) : FlipEq b x y := by
  cases b
  · rcases Opp.spec h with ⟨h1, h2⟩ | h1
    · exact Or.inl ⟨by rwa [show Spec.flip (!false) x = -x from rfl, isNaN_neg] at h1, h2⟩
    · right
      rwa [show Spec.flip (!false) x = -x from rfl, neg_neg'] at h1
  · exact Opp.spec h

end F64

theorem rel_zero (b : Bool) : Rel b (Scalar.zero : Float) Scalar.zero := by
  cases b
  · exact Rel.of_flip false _
  · exact Opp.zero toR_zero.2 toR_zero.1 toR_zero.2 toR_zero.1

theorem laqr1Val_rel (n : Nat) (hn : n = 2 ∨ n = 3) (g g' : Nat → Nat → Float) (e k : Bool) (σ : Nat → Bool)
    (h : ∀ i < n, ∀ j < n, g' i j = Spec.flip (e ^^ (σ i ^^ σ j)) (g i j)) (sr1 si1 sr2 si2 : Float) (i : Nat) (hi : i < n) :
    Rel (σ 0 ^^ σ i) (laqr1Val n g sr1 si1 sr2 si2 i)
      (laqr1Val n g' (Spec.flip e sr1) (Spec.flip k si1) (Spec.flip e sr2) (Spec.flip k si2) i) := by
  have r : ∀ i < n, ∀ j < n, Rel (e ^^ (σ i ^^ σ j)) (g i j) (g' i j) := fun i hi j hj => by
    rw [h i hi j hj]; exact Rel.of_flip _ _
  have cast : ∀ {b b' : Bool} {x y : Float}, b = b' → Rel b x y → Rel b' x y := fun h r => h ▸ r
  have d : ∀ i < n, Rel e (g i i) (g' i i) := fun i hi => cast (by simp) (r i hi i hi)
  have h1 := Rel.of_flip e sr1
  have h2 := Rel.of_flip e sr2
  have k1 := Rel.of_flip k si1
  have k2 := Rel.of_flip k si2
  have hs : laqr1S n g' (Spec.flip e sr2) (Spec.flip k si2) = laqr1S n g sr2 si2 := by
    unfold laqr1S
    show (if n = 2 then (g' 0 0 - Spec.flip e sr2).abs + (Spec.flip k si2).abs + (g' 1 0).abs
      else (g' 0 0 - Spec.flip e sr2).abs + (Spec.flip k si2).abs + (g' 1 0).abs + (g' 2 0).abs) =
      if n = 2 then (g 0 0 - sr2).abs + si2.abs + (g 1 0).abs
      else (g 0 0 - sr2).abs + si2.abs + (g 1 0).abs + (g 2 0).abs
    rw [((d 0 (by omega)).sub h2).abs, k2.abs, (r 1 (by omega) 0 (by omega)).abs]
    split
    · rfl
    · rw [(r 2 (by omega) 0 (by omega)).abs]
  unfold laqr1Val
  simp only [hs]
  generalize laqr1S n g sr2 si2 = s
  split
  · exact rel_zero _
  · have t : Rel false (si1 * (si2 / s)) (Spec.flip k si1 * (Spec.flip k si2 / s)) := cast (by simp) (k1.mul (k2.div s))
    have t0 : Rel false ((g 0 0 - sr1) * ((g 0 0 - sr2) / s)) ((g' 0 0 - Spec.flip e sr1) * ((g' 0 0 - Spec.flip e sr2) / s)) :=
      cast (by simp) (((d 0 (by omega)).sub h1).mul (((d 0 (by omega)).sub h2).div s))
    have q1 := (r 1 (by omega) 0 (by omega)).div s
    rcases hn with rfl | rfl
    · rw [if_pos (rfl : (2 : Nat) = 2), if_pos (rfl : (2 : Nat) = 2)]
      have : i = 0 ∨ i = 1 := by omega
      rcases this with rfl | rfl
      · rw [if_pos (rfl : (0 : Nat) = 0), if_pos (rfl : (0 : Nat) = 0)]
        refine cast (b := false) (by simp) (Rel.sub (Rel.add (cast (b' := false) ?_ (q1.mul (r 0 (by omega) 1 (by omega)))) t0) t)
        cases e <;> cases σ 0 <;> cases σ 1 <;> rfl
      · rw [if_neg (show ¬ (1 : Nat) = 0 by norm_num), if_neg (show ¬ (1 : Nat) = 0 by norm_num)]
        refine cast ?_ (q1.mul ((((d 0 (by omega)).add (d 1 (by omega))).sub h1).sub h2))
        cases e <;> cases σ 0 <;> cases σ 1 <;> rfl
    · rw [if_neg (show ¬ (3 : Nat) = 2 by norm_num), if_neg (show ¬ (3 : Nat) = 2 by norm_num)]
      have q2 := (r 2 (by omega) 0 (by omega)).div s
      have : i = 0 ∨ i = 1 ∨ i = 2 := by omega
      rcases this with rfl | rfl | rfl
      · rw [if_pos (rfl : (0 : Nat) = 0), if_pos (rfl : (0 : Nat) = 0)]
        refine cast (b := false) (by simp) (Rel.add (Rel.add (Rel.sub t0 t) (cast (b' := false) ?_ ((r 0 (by omega) 1 (by omega)).mul q1)))
          (cast (b' := false) ?_ ((r 0 (by omega) 2 (by omega)).mul q2)))
        · cases e <;> cases σ 0 <;> cases σ 1 <;> rfl
        · cases e <;> cases σ 0 <;> cases σ 2 <;> rfl
      · rw [if_neg (show ¬ (1 : Nat) = 0 by norm_num), if_pos (rfl : (1 : Nat) = 1), if_neg (show ¬ (1 : Nat) = 0 by norm_num), if_pos (rfl : (1 : Nat) = 1)]
        refine Rel.add (cast ?_ (q1.mul ((((d 0 (by omega)).add (d 1 (by omega))).sub h1).sub h2)))
          (cast ?_ ((r 1 (by omega) 2 (by omega)).mul q2))
        · cases e <;> cases σ 0 <;> cases σ 1 <;> rfl
        · cases e <;> cases σ 0 <;> cases σ 1 <;> cases σ 2 <;> rfl
      · rw [if_neg (show ¬ (2 : Nat) = 0 by norm_num), if_neg (show ¬ (2 : Nat) = 1 by norm_num), if_neg (show ¬ (2 : Nat) = 0 by norm_num), if_neg (show ¬ (2 : Nat) = 1 by norm_num)]
        refine Rel.add (cast ?_ (q2.mul ((((d 0 (by omega)).add (d 2 (by omega))).sub h1).sub h2)))
          (cast ?_ (q1.mul (r 2 (by omega) 1 (by omega))))
        · cases e <;> cases σ 0 <;> cases σ 2 <;> rfl
        · cases e <;> cases σ 0 <;> cases σ 1 <;> cases σ 2 <;> rfl

/-- **C101.** Replace `H` by `D H D`, where `D` is diagonal with entries `±1`, or by `-D H D` with both shifts negated,
and possibly both shifts by their complex conjugates.  Then element `i` of the vector of `dlaqr1` is multiplied by `d_1 d_i`, on binary64
without any rounding error, infinities and `NaN` included; only a zero may have either sign. -/
theorem C101_dlaqr1_signs (n : Nat) (hn : n = 2 ∨ n = 3) (h h' : List Float) (ldh : Nat) (sh : Stored h ldh n n) (sh' : Stored h' ldh n n)
    (e k : Bool) (σ : Nat → Bool) (hh : ∀ i < n, ∀ j < n, entry h' ldh i j = Spec.flip (e ^^ (σ i ^^ σ j)) (entry h ldh i j))
    (sr1 si1 sr2 si2 : Float) (v : List Float) (hv : n ≤ v.length) :
    ∃ r r' : List Float, dlaqr1 (n : Int) h ldh sr1 si1 sr2 si2 v = pure r ∧
      dlaqr1 (n : Int) h' ldh (Spec.flip e sr1) (Spec.flip k si1) (Spec.flip e sr2) (Spec.flip k si2) v = pure r' ∧
      ∀ i < n, ∃ x y, r[i]? = some x ∧ r'[i]? = some y ∧ FlipEq (σ 0 ^^ σ i) x y := by
  obtain ⟨r, e1, -, hr, -⟩ := dlaqr1_ok n hn h ldh sh sr1 si1 sr2 si2 v
  obtain ⟨r', e2, -, hr', -⟩ := dlaqr1_ok n hn h' ldh sh' (Spec.flip e sr1) (Spec.flip k si1) (Spec.flip e sr2) (Spec.flip k si2) v
  exact ⟨r, r', e1, e2, fun i hi => ⟨_, _, hr i hi (by omega), hr' i hi (by omega), (laqr1Val_rel n hn _ _ e k σ hh sr1 si1 sr2 si2 i hi).spec⟩⟩

/-- **C101.** Which member of a conjugate pair comes first does not matter: the results are equal bit for bit, whatever
the arguments (panics and lengths included). -/
theorem C101_dlaqr1_conjugate {H V : Type} [ToFA Float H] [ToFA Float V] [FromFA Float V] (n : Int) (h : H) (ldh : Int)
    (sr1 si1 sr2 si2 : Float) (v : V) :
    dlaqr1 n h ldh sr1 (-si1) sr2 (-si2) v = (dlaqr1 n h ldh sr1 si1 sr2 si2 v : R V) := by
  have e : ∀ s : Float, -si1 * (-si2 / s) = si1 * (si2 / s) := fun s => by rw [neg_div', neg_mul_neg']
  have a : (Scalar.abs (-si2) : Float) = Scalar.abs si2 := abs_neg' si2
  unfold dlaqr1 dlaqr1FA
  simp only [a, e]

/-- A case with `D = diag(1, -1, 1)` and rounding. -/
theorem C101_example (pr : Profile) :
    ((dlaqr1 (F := Float) 3 ([0.1, 0.7, 0.3, 1, 2, 3, 5, 6, 7] : List Float) 3 0.2 0.9 0.2 (-0.9) ([0, 0, 0] : List Float) pr).val?.bind fun r =>
      (dlaqr1 (F := Float) 3 ([0.1, -0.7, 0.3, -1, 2, -3, 5, -6, 7] : List Float) 3 0.2 (-0.9) 0.2 0.9 ([0, 0, 0] : List Float) pr).val?.map fun r' =>
        (r.map fun x => decide (1 < x), List.zipWith (· == ·) r' (List.zipWith (· * ·) [1, -1, 1] r))) = some ([true, true, true], [true, true, true]) := by
  cases pr <;> decide +kernel

/-- The hypotheses of `C101_dlaqr1_signs` are met by that case. -/
theorem C101_meets : ∀ i < 3, ∀ j < 3, (entry ([0.1, -0.7, 0.3, -1, 2, -3, 5, -6, 7] : List Float) 3 i j).toBits =
    (Spec.flip (false ^^ ((i == 1) ^^ (j == 1))) (entry ([0.1, 0.7, 0.3, 1, 2, 3, 5, 6, 7] : List Float) 3 i j)).toBits := by
  decide +kernel

end Verif

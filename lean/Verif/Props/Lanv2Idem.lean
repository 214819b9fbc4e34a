import Verif.Props.ScalMono

/-!
# C116: `dlanv2` leaves what it has returned alone
-/

namespace Verif
open Float.Model F64 Scalar Spec

theorem F64.sub_self_fin {x : Float} (h : x.isFinite = true) : (x - x).isFinite = true ∧ toR (x - x) = 0 := by
  rw [sub_eq_add_neg']
  have r := add_rounds x (-x) h (by rw [neg_finite]; exact h)
  rw [neg_toR, add_neg_cancel] at r
  exact r.exact (by rw [abs_zero]; linarith [one_lt_ovf]) (by rw [← toR_zero.2]; exact grid_toR _)

section
variable {F : Type} [Scalar F]

theorem lanv2Out_block (a b c d cs sn : F) :
    (lanv2Out a b c d cs sn).a = a ∧ (lanv2Out a b c d cs sn).b = b ∧ (lanv2Out a b c d cs sn).c = c ∧ (lanv2Out a b c d cs sn).d = d := by
  unfold lanv2Out
  split <;> exact ⟨rfl, rfl, rfl, rfl⟩

theorem lanv2Out_rot (a b c d cs sn cs' sn' : F) : { lanv2Out a b c d cs sn with cs := cs', sn := sn' } = lanv2Out a b c d cs' sn' := by
  unfold lanv2Out
  split <;> rfl

/-- What `dlanv2` returns: a block that is triangular, or whose diagonal elements are equal or almost so and whose off-diagonal elements have different signs. -/
inductive Lanv2Shape : Lanv2 F → Prop
  | tri (a b c d cs sn : F) (h : (c =ᶠ zero) = true) : Lanv2Shape (lanv2Out a b c d cs sn)
  | keep (a b c d cs sn : F) (hc : (c =ᶠ zero) = false) (hb : (b =ᶠ zero) = false) (h : ((abs (a - d) <ᶠ epsilon) && (signum b ≠ᶠ signum c)) = true) : Lanv2Shape (lanv2Out a b c d cs sn)
  | pair (t b c cs sn : F) (hc : (c =ᶠ zero) = false) (hb : (b =ᶠ zero) = false) (h : (signum b ≠ᶠ signum c) = true) : Lanv2Shape (lanv2Out t b c t cs sn)

theorem dlanv2_shape (hz : ((zero : F) =ᶠ zero) = true) (a b c d : F) : Lanv2Shape (dlanv2 a b c d) := by
  have fin : ∀ t b c cs sn : F, Lanv2Shape (lanv2Finish t b c cs sn) := by
    intro t b c cs sn
    unfold lanv2Finish
    split
    · rename_i h1
      split
      · rename_i h2
        split
        · exact .tri _ _ _ _ _ _ hz
        · rename_i h3
          exact .pair _ _ _ _ _ (by simpa using h1) (by simpa using h2) (by simpa using h3)
      · exact .tri _ _ _ _ _ _ hz
    · rename_i h1
      exact .tri _ _ _ _ _ _ (by simpa using h1)
  unfold dlanv2
  split
  · rename_i h; exact .tri _ _ _ _ _ _ h
  · rename_i h1
    split
    · exact .tri _ _ _ _ _ _ hz
    · rename_i h2
      split
      · rename_i h3
        exact .keep _ _ _ _ _ _ (by simpa using h1) (by simpa using h2) h3
      · dsimp only
        split
        · exact .tri _ _ _ _ _ _ hz
        · exact fin _ _ _ _ _

theorem Lanv2Shape.again {r : Lanv2 F} (h : Lanv2Shape r) (hs : (abs (r.a - r.a) <ᶠ epsilon) = true) :
    dlanv2 r.a r.b r.c r.d = { r with cs := one, sn := zero } := by
  cases h with
  | tri a b c d cs sn h =>
    obtain ⟨e1, e2, e3, e4⟩ := lanv2Out_block a b c d cs sn
    rw [lanv2Out_rot, e1, e2, e3, e4]
    unfold dlanv2
    rw [if_pos h]
  | keep a b c d cs sn hc hb h =>
    obtain ⟨e1, e2, e3, e4⟩ := lanv2Out_block a b c d cs sn
    rw [lanv2Out_rot, e1, e2, e3, e4]
    unfold dlanv2
    rw [if_neg (by simp [hc]), if_neg (by simp [hb]), if_pos h]
  | pair t b c cs sn hc hb h =>
    obtain ⟨e1, e2, e3, e4⟩ := lanv2Out_block t b c t cs sn
    rw [e1] at hs
    rw [lanv2Out_rot, e1, e2, e3, e4]
    unfold dlanv2
    rw [if_neg (by simp [hc]), if_neg (by simp [hb]), if_pos (by rw [hs, h]; rfl)]

end

/-- **C116.** On binary64, a second call of `dlanv2` on the block `a, b, c, d` that a first call returned gives back the same block and the same eigenvalues, bit for bit, and the identity
as rotation, if the first element of the block is finite. -/
theorem C116_dlanv2_again (a b c d : Float) (h : (dlanv2 a b c d).a.isFinite = true) :
    dlanv2 (dlanv2 a b c d).a (dlanv2 a b c d).b (dlanv2 a b c d).c (dlanv2 a b c d).d = { dlanv2 a b c d with cs := 1, sn := 0 } := by
  refine (dlanv2_shape (by decide +kernel) a b c d).again ?_
  generalize (dlanv2 a b c d).a = x at h
  obtain ⟨f, v⟩ := sub_self_fin h
  show Float.lt (x - x).abs epsilon = true
  rw [lt_toXR, toXR_fin (by rw [abs_finite]; exact f), abs_toR, v, abs_zero, ← toR_zero.2, ← toXR_fin toR_zero.1, ← lt_toXR]
  decide +kernel

/-- **C116.** The eigenvalues `dlanv2` returns on binary64 are read off the block it returns: the real parts are the diagonal elements; the imaginary parts are zero if `c` is zero, and otherwise
exactly opposite. -/
theorem C116_dlanv2_eigenvalues (a b c d : Float) :
    (dlanv2 a b c d).rt1r = (dlanv2 a b c d).a ∧ (dlanv2 a b c d).rt2r = (dlanv2 a b c d).d ∧
    (((dlanv2 a b c d).c == 0) = true → (dlanv2 a b c d).rt1i = 0 ∧ (dlanv2 a b c d).rt2i = 0) ∧
    (((dlanv2 a b c d).c == 0) = false → (dlanv2 a b c d).rt2i = -(dlanv2 a b c d).rt1i ∧
      (dlanv2 a b c d).rt1i = Float.sqrt (dlanv2 a b c d).b.abs * Float.sqrt (dlanv2 a b c d).c.abs) := by
  have key : ∀ a b c d cs sn : Float, (lanv2Out a b c d cs sn).rt1r = (lanv2Out a b c d cs sn).a ∧ (lanv2Out a b c d cs sn).rt2r = (lanv2Out a b c d cs sn).d ∧
      (((lanv2Out a b c d cs sn).c == 0) = true → (lanv2Out a b c d cs sn).rt1i = 0 ∧ (lanv2Out a b c d cs sn).rt2i = 0) ∧
      (((lanv2Out a b c d cs sn).c == 0) = false → (lanv2Out a b c d cs sn).rt2i = -(lanv2Out a b c d cs sn).rt1i ∧
        (lanv2Out a b c d cs sn).rt1i = Float.sqrt (lanv2Out a b c d cs sn).b.abs * Float.sqrt (lanv2Out a b c d cs sn).c.abs) := by
    intro a b c d cs sn
    by_cases h : (c == 0) = true
    · have e : lanv2Out a b c d cs sn = ⟨a, b, c, d, a, 0, d, 0, cs, sn⟩ := by unfold lanv2Out; exact if_pos h
      rw [e]
      exact ⟨rfl, rfl, fun _ => ⟨rfl, rfl⟩, fun g => by rw [h] at g; cases g⟩
    · have e : lanv2Out a b c d cs sn = ⟨a, b, c, d, a, Float.sqrt b.abs * Float.sqrt c.abs, d, -(Float.sqrt b.abs * Float.sqrt c.abs), cs, sn⟩ := by unfold lanv2Out; exact if_neg h
      rw [e]
      exact ⟨rfl, rfl, fun g => absurd g h, fun _ => ⟨rfl, rfl⟩⟩
  have f := dlanv2_shape (F := Float) (by decide +kernel) a b c d
  generalize dlanv2 a b c d = r at f
  cases f <;> exact key _ _ _ _ _ _

/-- Cases: a block with complex eigenvalues, and one with real eigenvalues. -/
theorem C116_example :
    (let r := dlanv2 (1 : Float) 2 (-3) 4
     let s := dlanv2 r.a r.b r.c r.d
     r.a.isFinite && r.a == s.a && r.b == s.b && r.c == s.c && r.d == s.d && r.rt1i == s.rt1i && !(r.cs == 1) && !(r.c == 0) && s.cs == 1 && s.sn == 0) = true ∧
    (let r := dlanv2 (1 : Float) 2 3 4
     let s := dlanv2 r.a r.b r.c r.d
     r.a.isFinite && r.a == s.a && r.b == s.b && r.c == s.c && r.d == s.d && !(r.cs == 1) && r.c == 0 && s.cs == 1) = true := by
  decide +kernel

/-- The first element has to be finite: for a block with diagonal elements near the overflow threshold it is not, and the second call gives NaN. -/
theorem C116_overflow :
    (let r := dlanv2 (1.7e308 : Float) 1e308 (-1e308) 1.5e308
     let s := dlanv2 r.a r.b r.c r.d
     (r.a.isFinite, r.a.isNaN, s.a.isNaN)) = (false, false, true) := by
  decide +kernel

end Verif

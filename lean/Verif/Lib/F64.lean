import Verif.Inst.Float
import Mathlib.Tactic.Linarith
import Mathlib.Tactic.Ring
import Mathlib.Data.Nat.Log

/-!
# Facts about binary64

`up x` is the sign/mantissa/exponent view of a `Float`; every operation is an operation on these
views followed by `fix`, which turns an exponent that is too large into an infinity.
-/

namespace Verif.F64
open Float.Model Float.Model.UnpackedFloat

/-- The view of a `Float`. -/
def up (x : Float) : UnpackedFloat := x.toModel.unpack

/-- Packing followed by unpacking. -/
def fix (u : UnpackedFloat) : UnpackedFloat :=
  UnpackedFloat.unpack Format.binary64 (UnpackedFloat.pack Format.binary64 u)

/-- Mantissa and exponent in canonical form. -/
def Canon (m : Nat) (e : Int) : Prop := (m.log2 = 52 ∧ -1074 ≤ e) ∨ (m.log2 < 52 ∧ e = -1074)

/-- A view in canonical form. -/
def CanonU : UnpackedFloat → Prop
  | .finite _ m e _ => Canon m e
  | _ => True

theorem unpackSign_packComponents {spec : Format} {sign : Sign} {exponent mantissa} :
    unpackSign (packComponents spec sign exponent mantissa) = sign.toBitVec := by
  ext i hi
  have : i = 0 := by omega
  subst this
  simp [unpackSign, packComponents, BitVec.getLsbD_eq_getElem, BitVec.getLsbD_append]
  rw [← BitVec.getLsbD_eq_getElem, BitVec.getLsbD_append]
  simp [BitVec.getLsbD_eq_getElem]

theorem ofBitVec_toBitVec (s : Sign) : Sign.ofBitVec s.toBitVec = s := by
  cases s <;> simp [Sign.toBitVec, Sign.ofBitVec]

theorem one_append_toNat (m : BitVec 52) : (1#1 ++ m).toNat = 2 ^ 52 + m.toNat := by
  rw [BitVec.toNat_append, ← Nat.shiftLeft_add_eq_or_of_lt (BitVec.isLt _)]
  simp [Nat.shiftLeft_eq]

theorem one_append_pos (m : BitVec 52) : 0 < (1#1 ++ m).toNat := by
  rw [one_append_toNat]; omega

theorem unpack_packComponents (s : Sign) (e : BitVec 11) (m : BitVec 52) :
    UnpackedFloat.unpack Format.binary64 (packComponents Format.binary64 s e m) =
      if e = -1#11 then (if m = 0#52 then .infinity s else .notANumber)
      else if e = 0#11 then
        (if h : m = 0#52 then .zero s
        else .finite s m.toNat (-1074) (by simpa [BitVec.toNat_pos, BitVec.pos_iff_ne_zero] using h))
      else .finite s (1#1 ++ m).toNat ((e.toNat : Int) - 1075) (one_append_pos m) := by
  unfold UnpackedFloat.unpack
  simp only [unpackMantissa_packComponents, unpackExponent_packComponents,
    unpackSign_packComponents, ofBitVec_toBitVec]
  by_cases h1 : e = -1#11
  · simp only [h1, if_true]
  · simp only [h1, if_false]
    by_cases h2 : e = 0#11
    · simp only [h2, if_true]
      congr
    · simp only [h2, if_false]
      congr

theorem fix_nan : fix .notANumber = .notANumber := by
  show UnpackedFloat.unpack Format.binary64 (packComponents Format.binary64 _ _ _) = _
  rw [unpack_packComponents]; simp

theorem fix_inf (s : Sign) : fix (.infinity s) = .infinity s := by
  show UnpackedFloat.unpack Format.binary64 (packComponents Format.binary64 _ _ _) = _
  rw [unpack_packComponents]; simp

theorem fix_zero (s : Sign) : fix (.zero s) = .zero s := by
  show UnpackedFloat.unpack Format.binary64 (packComponents Format.binary64 _ _ _) = _
  rw [unpack_packComponents]; simp

theorem log2_lt {m k : Nat} (hm : 0 < m) : m.log2 < k ↔ m < 2 ^ k :=
  Nat.log2_lt (by omega)

theorem append_one_toNat (m : Nat) (h1 : 2 ^ 52 ≤ m) (h2 : m < 2 ^ 53) :
    (1#1 ++ BitVec.ofNat 52 m).toNat = m := by
  rw [BitVec.toNat_append, ← Nat.shiftLeft_add_eq_or_of_lt (BitVec.isLt _)]
  simp only [BitVec.toNat_ofNat, Nat.shiftLeft_eq]
  omega

theorem pack_finite (s : Sign) (m : Nat) (e : Int) (h : 0 < m) :
    UnpackedFloat.pack Format.binary64 (.finite s m e h) =
      if 2048 ≤ (e + 1075).toNat + 1 then packedInfinity Format.binary64 s
      else if m.log2 = 52 then
        packComponents Format.binary64 s (BitVec.ofNat 11 (e + 1075).toNat) (BitVec.ofNat 52 m)
      else packComponents Format.binary64 s 0#11 (BitVec.ofNat 52 m) := by
  have hb : (e + (Format.binary64.exponentBias : Int) + ((52 : Nat) : Int)).toNat = (e + 1075).toNat := by
    have : (Format.binary64.exponentBias : Int) = 1023 := by decide
    rw [this]; congr 1; omega
  have hm : (m.log2 + 1 = Format.binary64.mantissaBits) ↔ m.log2 = 52 := by
    have : Format.binary64.mantissaBits = 53 := by decide
    omega
  show (if 2 ^ 11 ≤ (e + (Format.binary64.exponentBias : Int) + ((52 : Nat) : Int)).toNat + 1 then _
    else if m.log2 + 1 = Format.binary64.mantissaBits then
      packComponents Format.binary64 s (BitVec.ofNat 11 (e + (Format.binary64.exponentBias : Int) + ((52 : Nat) : Int)).toNat) _
    else _) = _
  simp only [hb, hm, show (2 : Nat) ^ 11 = 2048 from rfl]

theorem fix_finite (s : Sign) (m : Nat) (e : Int) (h : 0 < m) (hc : Canon m e) :
    fix (.finite s m e h) = if 972 ≤ e then .infinity s else .finite s m e h := by
  unfold fix
  rw [pack_finite]
  by_cases he : 972 ≤ e
  · rw [if_pos he, if_pos (by omega)]
    exact fix_inf s
  · rw [if_neg he, if_neg (by omega)]
    rcases hc with ⟨h1, h2⟩ | ⟨h1, h2⟩
    · rw [if_pos (by omega), unpack_packComponents]
      have hlt : m < 2 ^ 53 := (log2_lt h).1 (by omega)
      have hge : 2 ^ 52 ≤ m := by
        by_contra hh
        have := (log2_lt (k := 52) h).2 (by omega)
        omega
      have e1 : ¬ (BitVec.ofNat 11 (e + 1075).toNat = -1#11) := by
        intro hh
        have := congrArg BitVec.toNat hh
        simp at this; omega
      have e2 : ¬ (BitVec.ofNat 11 (e + 1075).toNat = 0#11) := by
        intro hh
        have := congrArg BitVec.toNat hh
        simp at this; omega
      rw [if_neg e1, if_neg e2]
      have e3 : ((BitVec.ofNat 11 (e + 1075).toNat).toNat : Int) - 1075 = e := by
        simp; omega
      simp only [append_one_toNat m hge hlt, e3]
    · rw [if_neg (by omega), unpack_packComponents]
      have hlt : m < 2 ^ 52 := (log2_lt h).1 (by omega)
      rw [if_neg (by decide), if_pos rfl]
      have e1 : ¬ (BitVec.ofNat 52 m = 0#52) := by
        intro hh
        have := congrArg BitVec.toNat hh
        simp at this; omega
      rw [dif_neg e1]
      have e2 : (BitVec.ofNat 52 m).toNat = m := by simp; omega
      simp only [e2, h2]

theorem unpack_canon (b : BitVec 64) : match UnpackedFloat.unpack Format.binary64 b with
    | .finite _ m e _ => Canon m e ∧ e ≤ 971
    | _ => True := by
  let em : BitVec 11 := unpackExponent (spec := Format.binary64) b
  let mm : BitVec 52 := unpackMantissa (spec := Format.binary64) b
  have hu : UnpackedFloat.unpack Format.binary64 b =
      if em = -1#11 then (if mm = 0#52 then .infinity (Sign.ofBitVec (unpackSign (spec := Format.binary64) b)) else .notANumber)
      else if em = 0#11 then
        (if h : mm = 0#52 then .zero (Sign.ofBitVec (unpackSign (spec := Format.binary64) b))
        else .finite (Sign.ofBitVec (unpackSign (spec := Format.binary64) b)) mm.toNat
          ((em.toNat : Int) - 1075 + 1) (by simpa [BitVec.toNat_pos, BitVec.pos_iff_ne_zero] using h))
      else .finite (Sign.ofBitVec (unpackSign (spec := Format.binary64) b)) (1#1 ++ mm).toNat
        ((em.toNat : Int) - 1075) (one_append_pos mm) := rfl
  rw [hu]
  by_cases h1 : em = -1#11
  · rw [if_pos h1]
    by_cases h3 : mm = 0#52
    · rw [if_pos h3]; trivial
    · rw [if_neg h3]; trivial
  · rw [if_neg h1]
    by_cases h2 : em = 0#11
    · rw [if_pos h2]
      by_cases h3 : mm = 0#52
      · rw [dif_pos h3]; trivial
      · rw [dif_neg h3]
        have hlt := mm.isLt
        have hpos : 0 < mm.toNat := by simpa [BitVec.toNat_pos, BitVec.pos_iff_ne_zero] using h3
        have : em.toNat = 0 := by rw [h2]; rfl
        exact ⟨Or.inr ⟨(log2_lt hpos).2 hlt, by omega⟩, by omega⟩
    · rw [if_neg h2]
      have hlt := mm.isLt
      have hlog : (1#1 ++ mm).toNat.log2 = 52 := by
        rw [one_append_toNat, Nat.log2_eq_iff (by omega)]
        omega
      have he0 : em.toNat ≠ 0 := by
        intro hh; apply h2; apply BitVec.eq_of_toNat_eq; simpa using hh
      have he1 : em.toNat ≠ 2047 := by
        intro hh; apply h1; apply BitVec.eq_of_toNat_eq; rw [hh]; decide
      have hel := em.isLt
      exact ⟨Or.inl ⟨hlog, by omega⟩, by omega⟩

/-- Views of floats are canonical and in range. -/
theorem up_canon (x : Float) : match up x with
    | .finite _ m e _ => Canon m e ∧ e ≤ 971
    | _ => True := unpack_canon _

theorem eq_packComponents (b : BitVec 64) :
    b = packComponents Format.binary64 (Sign.ofBitVec (unpackSign (spec := Format.binary64) b))
      (unpackExponent (spec := Format.binary64) b) (unpackMantissa (spec := Format.binary64) b) := by
  have hs : (Sign.ofBitVec (unpackSign (spec := Format.binary64) b)).toBitVec =
      unpackSign (spec := Format.binary64) b := by
    generalize unpackSign (spec := Format.binary64) b = c
    unfold Sign.ofBitVec
    split
    · rename_i h; rw [h]; rfl
    · rename_i h
      apply BitVec.eq_of_toNat_eq
      have h1 := c.isLt
      have h2 : c.toNat ≠ 0 := fun hh => h (BitVec.eq_of_toNat_eq (by simpa using hh))
      show 1 = c.toNat
      omega
  unfold packComponents
  rw [hs]
  apply BitVec.eq_of_toNat_eq
  unfold unpackSign unpackExponent unpackMantissa
  rw [BitVec.toNat_append, BitVec.toNat_append]
  rw [← Nat.shiftLeft_add_eq_or_of_lt (BitVec.isLt _), ← Nat.shiftLeft_add_eq_or_of_lt (BitVec.isLt _)]
  simp only [BitVec.toNat_cast, BitVec.extractLsb_toNat, Nat.shiftLeft_eq, Nat.shiftRight_eq_div_pow]
  have := b.isLt
  norm_num at this ⊢
  omega

theorem pack_unpack (b : BitVec 64) (hv : Format.binary64.Valid b) :
    UnpackedFloat.pack Format.binary64 (UnpackedFloat.unpack Format.binary64 b) = b := by
  have hb := eq_packComponents b
  set s := Sign.ofBitVec (unpackSign (spec := Format.binary64) b)
  have hn := hv.eq_packedNaN
  set em : BitVec 11 := unpackExponent (spec := Format.binary64) b
  set mm : BitVec 52 := unpackMantissa (spec := Format.binary64) b
  conv_lhs => rw [hb]
  rw [unpack_packComponents]
  by_cases h1 : em = -1#11
  · rw [if_pos h1]
    by_cases h3 : mm = 0#52
    · rw [if_pos h3, hb, h1, h3]; rfl
    · rw [if_neg h3, hn h1 h3]; rfl
  · rw [if_neg h1]
    by_cases h2 : em = 0#11
    · rw [if_pos h2]
      by_cases h3 : mm = 0#52
      · rw [dif_pos h3, hb, h2, h3]; rfl
      · rw [dif_neg h3, pack_finite, if_neg (by norm_num)]
        have hpos : 0 < mm.toNat := by simpa [BitVec.toNat_pos, BitVec.pos_iff_ne_zero] using h3
        have := (log2_lt hpos).2 mm.isLt
        rw [if_neg (by omega), hb, h2]
        simp
    · rw [if_neg h2, pack_finite]
      have he0 : em.toNat ≠ 0 := by
        intro hh; apply h2; apply BitVec.eq_of_toNat_eq; simpa using hh
      have he1 : em.toNat ≠ 2047 := by
        intro hh; apply h1; apply BitVec.eq_of_toNat_eq; rw [hh]; decide
      have hel := em.isLt
      have hlt := mm.isLt
      have hlog : (1#1 ++ mm).toNat.log2 = 52 := by
        rw [one_append_toNat, Nat.log2_eq_iff (by omega)]
        omega
      have hee : ((em.toNat : Int) - 1075 + 1075).toNat = em.toNat := by omega
      rw [hee, if_neg (by omega), if_pos hlog]
      conv_rhs => rw [hb]
      congr 1
      · simp
      · apply BitVec.eq_of_toNat_eq
        rw [one_append_toNat, BitVec.toNat_ofNat]
        omega

/-- A float is determined by its view. -/
theorem up_inj {x y : Float} (h : up x = up y) : x = y := by
  have hx := pack_unpack x.toModel.toBits.toBitVec x.toModel.valid
  have hy := pack_unpack y.toModel.toBits.toBitVec y.toModel.valid
  have h' : x.toModel.toBits.toBitVec = y.toModel.toBits.toBitVec := by
    rw [← hx, ← hy]
    exact congrArg _ h
  obtain ⟨⟨⟨bx⟩, vx⟩⟩ := x
  obtain ⟨⟨⟨by'⟩, vy⟩⟩ := y
  simp only at h'
  subst h'
  rfl

/-! ### Operations -/

theorem up_add (x y : Float) : up (x + y) = fix (UnpackedFloat.add Format.binary64 (up x) (up y)) := rfl
theorem up_sub (x y : Float) : up (x - y) = fix (UnpackedFloat.sub Format.binary64 (up x) (up y)) := rfl
theorem up_mul (x y : Float) : up (x * y) = fix (UnpackedFloat.mul Format.binary64 (up x) (up y)) := rfl
theorem up_div (x y : Float) : up (x / y) = fix (UnpackedFloat.div Format.binary64 (up x) (up y)) := rfl
theorem up_sqrt (x : Float) : up x.sqrt = fix (UnpackedFloat.sqrt Format.binary64 (up x)) := rfl
theorem up_neg (x : Float) : up (-x) = fix (up x).neg := rfl
theorem up_abs (x : Float) : up x.abs = fix (up x).abs := rfl
theorem isNaN_up (x : Float) : x.isNaN = (up x).isNaN := rfl
theorem isFinite_up (x : Float) : x.isFinite = (up x).isFinite := rfl
theorem isInf_up (x : Float) : x.isInf = (up x).isInf := rfl
theorem lt_up (x y : Float) : Float.lt x y = (up x).lt (up y) := by
  show decide (_ = true) = _
  simp; rfl
theorem le_up (x y : Float) : Float.le x y = (up x).le (up y) := by
  show decide (_ = true) = _
  simp; rfl
theorem beq_up (x y : Float) : Float.beq x y = (up x).beq (up y) := rfl

end Verif.F64

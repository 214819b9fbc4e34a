import Verif.Props.Ieeeck
import Verif.Lib.Loops

/-!
# C40, C41: `ilaenv` and `iparmq`

Names are strings, given as lists of characters.  "Upper-casing" in the statements is Lean's own
`Char.toUpper`.  Where a theorem is about ASCII names only, it says so; for the others the code confuses
character and byte positions, which the last theorems of the two sections are about.
-/

namespace Verif

theorem upAscii_eq (c : Char) : upAscii c = c.toUpper := by
  unfold upAscii Char.toUpper
  have h1 : c.toNat = c.val.toNat := rfl
  by_cases h : 97 ≤ c.toNat ∧ c.toNat ≤ 122
  · have h2 : c.val ≥ 'a'.val ∧ c.val ≤ 'z'.val := by
      constructor
      · show 'a'.val ≤ c.val
        rw [UInt32.le_iff_toNat_le]; exact h.1
      · rw [UInt32.le_iff_toNat_le]; exact h.2
    rw [if_pos h, dif_pos h2]
    apply Char.ext
    apply UInt32.toNat.inj
    have h3 : (Char.ofNat (c.toNat - 32)).toNat = c.toNat - 32 := by
      unfold Char.ofNat
      rw [dif_pos (show (c.toNat - 32).isValidChar by left; omega)]
      rfl
    show (Char.ofNat (c.toNat - 32)).toNat = _
    rw [h3]
    show _ = (c.val + ('A'.val - 'a'.val)).toNat
    rw [UInt32.toNat_add]
    rw [show ('A'.val - 'a'.val).toNat = 2 ^ 32 - 32 from rfl]
    omega
  · have h2 : ¬ (c.val ≥ 'a'.val ∧ c.val ≤ 'z'.val) := by
      rintro ⟨h3, h4⟩
      apply h
      rw [ge_iff_le, UInt32.le_iff_toNat_le] at h3
      rw [UInt32.le_iff_toNat_le] at h4
      exact ⟨h3, h4⟩
    rw [if_neg h, dif_neg h2]

/-- `c` is one of `a`, ..., `z`. -/
def Spec.isLower (c : Char) : Prop := 'a' ≤ c ∧ c ≤ 'z'

theorem isLower_iff (c : Char) : Spec.isLower c ↔ 97 ≤ c.toNat ∧ c.toNat ≤ 122 := by
  unfold Spec.isLower
  rw [Char.le_def, Char.le_def, UInt32.le_iff_toNat_le, UInt32.le_iff_toNat_le]
  rfl

theorem upAscii_eq_two (c : Char) : upAscii c = '2' ↔ c = '2' := by
  unfold upAscii
  split
  · rename_i h
    have h3 : (Char.ofNat (c.toNat - 32)).toNat = c.toNat - 32 := by
      unfold Char.ofNat
      rw [dif_pos (show (c.toNat - 32).isValidChar by left; omega)]
      rfl
    constructor
    · intro h1
      rw [h1] at h3
      have : ('2' : Char).toNat = 50 := rfl
      omega
    · rintro rfl
      exact absurd h (by decide)
  · rfl

theorem upAscii_idem (c : Char) : upAscii (upAscii c) = upAscii c := by
  unfold upAscii
  split
  · rename_i h
    have h3 : (Char.ofNat (c.toNat - 32)).toNat = c.toNat - 32 := by
      unfold Char.ofNat
      rw [dif_pos (show (c.toNat - 32).isValidChar by left; omega)]
      rfl
    rw [if_neg (by rw [h3]; omega)]
  · rfl

/-! ### Byte positions and character positions -/

/-- All characters are ASCII characters. -/
def Spec.ascii (name : List Char) : Prop := ∀ c ∈ name, c.toNat < 128

theorem utf8Size_ascii {c : Char} (h : c.toNat < 128) : c.utf8Size = 1 := by
  unfold Char.utf8Size
  have h1 : c.val ≤ UInt32.ofNatLT 0x7F (by decide) := by
    rw [UInt32.le_iff_toNat_le]
    show c.toNat ≤ 127
    omega
  rw [if_pos h1]

theorem strLen_ascii {s : List Char} (h : Spec.ascii s) : strLen s = s.length := by
  unfold strLen
  induction s with
  | nil => rfl
  | cons c t ih =>
    rw [List.map_cons, List.sum_cons, utf8Size_ascii (h c (by simp)), ih (fun d hd => h d (by simp [hd]))]
    simp [Nat.add_comm]

theorem length_le_strLen (s : List Char) : s.length ≤ strLen s := by
  unfold strLen
  induction s with
  | nil => simp
  | cons c t ih =>
    rw [List.map_cons, List.sum_cons, List.length_cons]
    have := Char.utf8Size_pos c
    omega

theorem charIx_ascii {s : List Char} (h : Spec.ascii s) (b : Nat) :
    charIx s b = if b ≤ s.length then some b else none := by
  induction s generalizing b with
  | nil => cases b <;> simp [charIx]
  | cons c t ih =>
    cases b with
    | zero => simp [charIx]
    | succ b =>
      have h1 := utf8Size_ascii (h c (by simp))
      rw [charIx, h1, if_pos (by omega), Nat.add_sub_cancel, ih (fun d hd => h d (by simp [hd]))]
      by_cases hb : b ≤ t.length
      · simp [hb]
      · simp [hb]

/-- A character boundary is never beyond the end. -/
theorem charIx_le {s : List Char} {b k : Nat} (h : charIx s b = some k) : b ≤ strLen s ∧ k ≤ s.length := by
  induction s generalizing b k with
  | nil =>
    cases b with
    | zero => simp [charIx] at h; subst h; simp
    | succ b => simp [charIx] at h
  | cons c t ih =>
    cases b with
    | zero => simp [charIx] at h; subst h; simp
    | succ b =>
      rw [charIx] at h
      split at h
      · rename_i h1
        rw [Option.map_eq_some_iff] at h
        obtain ⟨k', h2, rfl⟩ := h
        obtain ⟨h3, h4⟩ := ih h2
        unfold strLen at *
        rw [List.map_cons, List.sum_cons, List.length_cons]
        omega
      · cases h

theorem strSlice_ascii {s : List Char} (h : Spec.ascii s) (lo hi : Nat) :
    strSlice s lo hi = if lo ≤ hi ∧ hi ≤ s.length then pure ((s.take hi).drop lo) else R.panic .strSlice := by
  unfold strSlice
  rw [charIx_ascii h, charIx_ascii h]
  by_cases h1 : lo ≤ hi
  · by_cases h2 : hi ≤ s.length
    · simp [h1, h2, h1.trans h2]
    · by_cases h3 : lo ≤ s.length <;> simp [h2, h3]
  · by_cases h2 : hi ≤ s.length <;> by_cases h3 : lo ≤ s.length <;> simp [h1, h2, h3]

theorem replaceByte_ascii {s : List Char} (h : Spec.ascii s) {i : Nat} (hi : i < s.length) (c : Char) :
    replaceByte s i c = pure (s.set i c) := by
  unfold replaceByte
  rw [charIx_ascii h, charIx_ascii h, if_pos hi.le, if_pos (show i + 1 ≤ s.length from hi)]
  simp only
  rw [List.set_eq_take_append_cons_drop, if_pos hi]

theorem upAscii_ascii {c : Char} (h : c.toNat < 128) : (upAscii c).toNat < 128 := by
  unfold upAscii
  split
  · have h3 : (Char.ofNat (c.toNat - 32)).toNat = c.toNat - 32 := by
      unfold Char.ofNat
      rw [dif_pos (show (c.toNat - 32).isValidChar by left; omega)]
      rfl
    omega
  · exact h

theorem upAscii_self {c : Char} (h : ¬ (97 ≤ c.toNat ∧ c.toNat ≤ 122)) : upAscii c = c := if_neg h

theorem ascii_set {s : List Char} (h : Spec.ascii s) (i : Nat) {c : Char} (hc : c.toNat < 128) :
    Spec.ascii (s.set i c) := fun d hd => by
  rcases List.mem_or_eq_of_mem_set hd with h1 | h1
  · exact h d h1
  · rw [h1]; exact hc

theorem ilaenvUpper_ascii {s : List Char} (h : Spec.ascii s) {i : Nat} (hi : i < s.length) :
    ilaenvUpper s i = pure (s.set i (upAscii s[i])) ∧ Spec.ascii (s.set i (upAscii s[i])) := by
  have hd := h s[i] (List.getElem_mem hi)
  refine ⟨?_, ascii_set h _ (upAscii_ascii hd)⟩
  unfold ilaenvUpper
  rw [List.getElem?_eq_getElem hi]
  simp only
  split
  · exact replaceByte_ascii h hi _
  · rename_i h1
    rw [upAscii_self h1, List.set_getElem_self]

/-- On ASCII names the code upper-cases the first six characters. -/
theorem ilaenvName_ascii {name : List Char} (h : Spec.ascii name) : ilaenvName name =
    match name with
    | [] => R.panic .unwrap
    | c :: _ =>
      if 97 ≤ c.toNat ∧ c.toNat ≤ 122 then
        if 6 ≤ name.length then pure ((name.take 6).map upAscii ++ name.drop 6)
        else R.panic .unwrap
      else pure name := by
  cases name with
  | nil => rfl
  | cons c t =>
    simp only [ilaenvName]
    by_cases hlow : 97 ≤ c.toNat ∧ c.toNat ≤ 122
    · rw [if_pos hlow, if_pos hlow, replaceByte_ascii h (by simp)]
      simp only [pure_bind, List.set_cons_zero, List.foldlM_cons, List.foldlM_nil]
      have h0 : Spec.ascii (upAscii c :: t) := ascii_set h 0 (upAscii_ascii (h c (by simp)))
      rcases t with _ | ⟨d1, t⟩
      · rfl
      obtain ⟨e1, h1⟩ := ilaenvUpper_ascii (i := 1) h0 (by simp)
      rw [e1]
      simp only [pure_bind, List.set_cons_succ, List.set_cons_zero, List.getElem_cons_succ, List.getElem_cons_zero] at h1 ⊢
      rcases t with _ | ⟨d2, t⟩
      · rfl
      obtain ⟨e2, h2⟩ := ilaenvUpper_ascii (i := 2) h1 (by simp)
      rw [e2]
      simp only [pure_bind, List.set_cons_succ, List.set_cons_zero, List.getElem_cons_succ, List.getElem_cons_zero] at h2 ⊢
      rcases t with _ | ⟨d3, t⟩
      · rfl
      obtain ⟨e3, h3⟩ := ilaenvUpper_ascii (i := 3) h2 (by simp)
      rw [e3]
      simp only [pure_bind, List.set_cons_succ, List.set_cons_zero, List.getElem_cons_succ, List.getElem_cons_zero] at h3 ⊢
      rcases t with _ | ⟨d4, t⟩
      · rfl
      obtain ⟨e4, h4⟩ := ilaenvUpper_ascii (i := 4) h3 (by simp)
      rw [e4]
      simp only [pure_bind, List.set_cons_succ, List.set_cons_zero, List.getElem_cons_succ, List.getElem_cons_zero] at h4 ⊢
      rcases t with _ | ⟨d5, t⟩
      · rfl
      obtain ⟨e5, h5⟩ := ilaenvUpper_ascii (i := 5) h4 (by simp)
      rw [e5]
      simp only [pure_bind, List.set_cons_succ, List.set_cons_zero, List.getElem_cons_succ, List.getElem_cons_zero]
      rw [if_pos (by simp)]
      simp
    · rw [if_neg hlow, if_neg hlow]

theorem twoStage_ascii {s : List Char} (h : Spec.ascii s) :
    ilaenvTwoStage s = pure (decide (s.length ≥ 11) && decide (s[10]? = some '2')) := by
  unfold ilaenvTwoStage
  rw [strLen_ascii h]
  by_cases h1 : 11 ≤ s.length
  · rw [if_pos h1, List.getElem?_eq_getElem (by omega : 10 < s.length)]
    simp [h1]
  · rw [if_neg h1]
    simp [h1]

/-! ### C40: `ilaenv` -/

/-- **C40.** Outside `1..=17` the answer is `-1`. -/
theorem C40_ilaenv_range (ispec : Int) (name : List Char) (n1 n2 n3 n4 : Int) (h : ispec < 1 ∨ 17 < ispec) :
    ilaenv ispec name n1 n2 n3 n4 = pure (-1) := by
  unfold ilaenv ilaenvWith
  rw [if_neg (by omega), if_neg (by omega), if_neg (by omega), if_neg (by omega), if_neg (by omega),
    if_neg (by omega), if_neg (by omega), if_neg (by omega), if_neg (by omega), if_neg (by omega)]

/-- **C40.** The fixed answers. For 10 and 11 (may infinities and NaN be trusted, may infinities be trusted)
they are 0 and 1: `ieeeck` on real binary64 arithmetic. -/
theorem C40_ilaenv_fixed (name : List Char) (n1 n2 n3 n4 : Int) :
    ilaenv 4 name n1 n2 n3 n4 = pure 6 ∧ ilaenv 5 name n1 n2 n3 n4 = pure 2 ∧
    ilaenv 7 name n1 n2 n3 n4 = pure 1 ∧ ilaenv 8 name n1 n2 n3 n4 = pure 50 ∧
    ilaenv 9 name n1 n2 n3 n4 = pure 25 ∧ ilaenv 10 name n1 n2 n3 n4 = pure 0 ∧
    ilaenv 11 name n1 n2 n3 n4 = pure 1 := by
  refine ⟨rfl, rfl, rfl, rfl, rfl, ?_, ?_⟩
  · show pure (ieeeck 1 (0 : Float) 1) = _
    rw [C39_ieeeck_f64, if_neg (by simp)]
  · show pure (ieeeck 0 (0 : Float) 1) = _
    rw [C39_ieeeck_f64, if_pos ⟨rfl, rfl, by decide +kernel, by decide +kernel⟩]

/-- The name can be processed: it is not empty and has six characters if it starts with a lower-case letter. -/
def Spec.nameOK (name : List Char) : Prop :=
  name ≠ [] ∧ (∀ c, name.head? = some c → Spec.isLower c → 6 ≤ name.length)

theorem ilaenvName_ok {name : List Char} (ha : Spec.ascii name) (h : Spec.nameOK name) :
    ∃ c t, ilaenvName name = pure (c :: t) ∧ Spec.ascii (c :: t) := by
  obtain ⟨h1, h2⟩ := h
  cases name with
  | nil => exact absurd rfl h1
  | cons c t =>
    by_cases hc : 97 ≤ c.toNat ∧ c.toNat ≤ 122
    · have h3 := h2 c rfl ((isLower_iff c).2 hc)
      refine ⟨upAscii c, (t.take 5).map upAscii ++ t.drop 5, ?_, ?_⟩
      · rw [ilaenvName_ascii ha]
        simp only
        rw [if_pos hc, if_pos h3]
        simp
      · intro d hd
        rw [List.mem_cons, List.mem_append, List.mem_map] at hd
        rcases hd with rfl | ⟨e, he, rfl⟩ | hd
        · exact upAscii_ascii (ha c (by simp))
        · exact upAscii_ascii (ha e (by simp [List.mem_of_mem_take he]))
        · exact ha d (by simp [List.mem_of_mem_drop hd])
    · exact ⟨c, t, by simp only [ilaenvName]; rw [if_neg hc], ha⟩

theorem ilaenvTune_ok {ispec : Int} {name : List Char} {c t} (h : ilaenvName name = pure (c :: t)) {ts : Bool}
    (hts : ilaenvTwoStage (c :: t) = pure ts) (n1 n2 n4 : Int) :
    ilaenvTune ispec name n1 n2 n4 =
      (let sname := c = 'S' || c = 'D'
       let cname := c = 'C' || c = 'Z'
       if !(cname || sname) then pure 1
       else
        let c2 := ((c :: t).drop 1).take 2
        let c3 := ((c :: t).drop 3).take 3
        let c4 := (c3.drop 1).take 2
        if ispec = 1 then ilaenvBlock (c :: t) c2 c3 c4 sname cname ts n1 n2 n4
        else if ispec = 2 then pure (ilaenvMin (c :: t) c2 c3 c4 sname cname)
        else pure (ilaenvCross (c :: t) c2 c3 c4 sname cname)) := by
  unfold ilaenvTune
  rw [h]
  simp only [pure_bind, hts]

theorem ilaenvBlock_range (sub c2 c3 c4 : List Char) (sname cname twostage : Bool) (n1 n2 n4 : Int)
    (h : FitsI32 (min n1 n2 * 16)) :
    ∃ v, ilaenvBlock sub c2 c3 c4 sname cname twostage n1 n2 n4 = pure v ∧ 1 ≤ v ∧ v ≤ 240 := by
  have h8 : FitsI32 (min n1 n2 * 8) := by rw [fits_iff] at *; omega
  have hite : ∀ (p : Prop) [Decidable p] (x y : R Int), (∃ v, x = pure v ∧ 1 ≤ v ∧ v ≤ 240) →
      (∃ v, y = pure v ∧ 1 ≤ v ∧ v ≤ 240) → ∃ v, (if p then x else y) = pure v ∧ 1 ≤ v ∧ v ≤ 240 := by
    intro p _ x y hx hy
    split <;> assumption
  unfold ilaenvBlock
  simp only
  repeat' apply hite
  all_goals first
    | exact ⟨_, rfl, by norm_num, by norm_num⟩
    | (rw [imul_ok h, pure_bind]; refine ⟨_, rfl, ?_, ?_⟩ <;> omega)
    | (rw [imul_ok h8, pure_bind]; refine ⟨_, rfl, ?_, ?_⟩ <;> omega)

/-- **C40 (block sizes).** For a usable ASCII name `ilaenv` returns, in both profiles, a block size between 1 and 240
for `ispec = 1`, a minimum block size 1, 2 or 8 for `ispec = 2` and a crossover point 0, 32 or 128 for
`ispec = 3` (1 if the name does not start with a letter of S, D, C, Z). -/
theorem C40_ilaenv_tuning (name : List Char) (n1 n2 n3 n4 : Int) (ha : Spec.ascii name) (hn : Spec.nameOK name)
    (h : FitsI32 (min n1 n2 * 16)) :
    (∃ v, ilaenv 1 name n1 n2 n3 n4 = pure v ∧ 1 ≤ v ∧ v ≤ 240) ∧
    (∃ v, ilaenv 2 name n1 n2 n3 n4 = pure v ∧ (v = 1 ∨ v = 2 ∨ v = 8)) ∧
    (∃ v, ilaenv 3 name n1 n2 n3 n4 = pure v ∧ (v = 0 ∨ v = 32 ∨ v = 128 ∨ v = 1)) := by
  obtain ⟨c, t, hc, hb⟩ := ilaenvName_ok ha hn
  have hts := twoStage_ascii hb
  refine ⟨?_, ?_, ?_⟩
  · show ∃ v, ilaenvTune 1 name n1 n2 n4 = _ ∧ _
    rw [ilaenvTune_ok hc hts]
    simp only
    split
    · exact ⟨1, rfl, by norm_num, by norm_num⟩
    · rw [if_pos trivial]
      exact ilaenvBlock_range _ _ _ _ _ _ _ _ _ _ h
  · show ∃ v, ilaenvTune 2 name n1 n2 n4 = _ ∧ _
    rw [ilaenvTune_ok hc hts]
    simp only
    split
    · exact ⟨1, rfl, by norm_num⟩
    · rw [if_neg (by norm_num), if_pos trivial]
      refine ⟨_, rfl, ?_⟩
      unfold ilaenvMin
      repeat' split
      all_goals norm_num
  · show ∃ v, ilaenvTune 3 name n1 n2 n4 = _ ∧ _
    rw [ilaenvTune_ok hc hts]
    simp only
    split
    · exact ⟨1, rfl, by norm_num⟩
    · rw [if_neg (by norm_num), if_neg (by norm_num)]
      refine ⟨_, rfl, ?_⟩
      unfold ilaenvCross
      repeat' split
      all_goals norm_num

theorem charIx_succ {s : List Char} {i a b : Nat} (h1 : charIx s i = some a) (h2 : charIx s (i + 1) = some b) :
    b = a + 1 := by
  induction s generalizing i a b with
  | nil => simp [charIx] at h2
  | cons c t ih =>
    have hp := Char.utf8Size_pos c
    rw [charIx] at h2
    split at h2
    · rename_i h3
      rw [Option.map_eq_some_iff] at h2
      obtain ⟨b', h4, rfl⟩ := h2
      cases i with
      | zero =>
        have h5 : c.utf8Size = 1 := by omega
        rw [h5] at h4
        simp [charIx] at h1 h4
        omega
      | succ i =>
        rw [charIx] at h1
        split at h1
        · rename_i h6
          rw [Option.map_eq_some_iff] at h1
          obtain ⟨a', h7, rfl⟩ := h1
          rw [show i + 1 + 1 - c.utf8Size = i + 1 - c.utf8Size + 1 by omega] at h4
          rw [ih h7 h4]
        · cases h1
    · cases h2

/-- One round of the upper-casing loop panics or keeps the number of characters. -/
theorem ilaenvUpper_cases (s : List Char) (i : Nat) : (∃ q, ilaenvUpper s i = R.panic q) ∨
    (i < s.length ∧ ∃ s', ilaenvUpper s i = pure s' ∧ s'.length = s.length) := by
  unfold ilaenvUpper
  cases h : s[i]? with
  | none => exact Or.inl ⟨_, rfl⟩
  | some c =>
    obtain ⟨hi, -⟩ := List.getElem?_eq_some_iff.1 h
    simp only
    split
    · unfold replaceByte
      cases ha : charIx s i with
      | none => exact Or.inl ⟨_, rfl⟩
      | some a =>
        cases hb : charIx s (i + 1) with
        | none => exact Or.inl ⟨_, rfl⟩
        | some b =>
          refine Or.inr ⟨hi, _, rfl, ?_⟩
          have h1 := charIx_succ ha hb
          have h2 := (charIx_le hb).2
          simp; omega
    · exact Or.inr ⟨hi, s, rfl, rfl⟩

theorem ilaenvUpper_fold (l : List Nat) (s : List Char) (h : ∃ i ∈ l, s.length ≤ i) :
    ∃ q, l.foldlM ilaenvUpper s = R.panic q := by
  induction l generalizing s with
  | nil => obtain ⟨i, hi, _⟩ := h; cases hi
  | cons j l ih =>
    rw [List.foldlM_cons]
    rcases ilaenvUpper_cases s j with ⟨q, hq⟩ | ⟨hj, s', hs, hl⟩
    · exact ⟨q, by rw [hq]; rfl⟩
    · rw [hs, pure_bind]
      apply ih
      obtain ⟨i, hi, hi2⟩ := h
      rcases List.mem_cons.1 hi with rfl | hi
      · omega
      · exact ⟨i, hi, by omega⟩

/-- **C40 (panics).** For `ispec` 1, 2, 3 an empty name, or a name of fewer than six characters that starts with a
lower-case letter, makes `ilaenv` panic (any name, ASCII or not). -/
theorem C40_ilaenv_panic (ispec : Int) (name : List Char) (n1 n2 n3 n4 : Int) (h : 1 ≤ ispec ∧ ispec ≤ 3)
    (hn : ¬ Spec.nameOK name) : ∃ q, ilaenv ispec name n1 n2 n3 n4 = R.panic q := by
  unfold ilaenv ilaenvWith
  rw [if_pos h]
  unfold ilaenvTune
  cases name with
  | nil => exact ⟨_, rfl⟩
  | cons c t =>
    have h1 : Spec.isLower c ∧ ¬ 6 ≤ (c :: t).length := by
      by_contra h2
      apply hn
      refine ⟨by simp, fun d hd hl => ?_⟩
      obtain rfl : c = d := by simpa using hd
      by_contra h3
      exact h2 ⟨hl, h3⟩
    simp only [ilaenvName]
    have hlow := (isLower_iff c).1 h1.1
    rw [if_pos hlow]
    have e : replaceByte (c :: t) 0 (upAscii c) = pure (upAscii c :: t) := by
      unfold replaceByte
      simp [charIx, utf8Size_ascii (show c.toNat < 128 by omega)]
    rw [e, pure_bind]
    obtain ⟨q, hq⟩ := ilaenvUpper_fold [1, 2, 3, 4, 5] (upAscii c :: t)
      ⟨5, by simp, by have := h1.2; simp at this ⊢; omega⟩
    exact ⟨q, by rw [hq]; rfl⟩

/-- **C40 (panics, bytes and characters).** For `ispec` 1, 2, 3 a name that starts with S, D, C or Z and has at least
eleven bytes but fewer than eleven characters makes `ilaenv` panic: the byte length is tested, then character
number eleven is taken. -/
theorem C40_ilaenv_bytes (ispec : Int) (c : Char) (t : List Char) (n1 n2 n3 n4 : Int) (h : 1 ≤ ispec ∧ ispec ≤ 3)
    (hc : c = 'S' ∨ c = 'D' ∨ c = 'C' ∨ c = 'Z') (hb : 11 ≤ ((c :: t).map Char.utf8Size).sum)
    (hl : (c :: t).length < 11) : ilaenv ispec (c :: t) n1 n2 n3 n4 = R.panic .unwrap := by
  unfold ilaenv ilaenvWith
  rw [if_pos h]
  unfold ilaenvTune
  have e1 : ilaenvName (c :: t) = pure (c :: t) := by
    simp only [ilaenvName]
    rw [if_neg (by rcases hc with rfl | rfl | rfl | rfl <;> decide)]
  have e2 : ilaenvTwoStage (c :: t) = R.panic .unwrap := by
    unfold ilaenvTwoStage strLen
    rw [if_pos hb, List.getElem?_eq_none (by omega)]
  rw [e1]
  simp only [pure_bind, e2]
  rw [if_neg (by rcases hc with rfl | rfl | rfl | rfl <;> decide)]
  rfl

/-- Whatever `x` returns is between 1 and 240. -/
def Within240 (p : Profile) (x : R Int) : Prop := ∀ v, x p = .ok v → 1 ≤ v ∧ v ≤ 240

theorem ilaenvBlock_range' (sub c2 c3 c4 : List Char) (sname cname twostage : Bool) (n1 n2 n4 : Int) (p : Profile) :
    Within240 p (ilaenvBlock sub c2 c3 c4 sname cname twostage n1 n2 n4) := by
  have hite : ∀ (q : Prop) [Decidable q] (x y : R Int), Within240 p x → Within240 p y →
      Within240 p (if q then x else y) := by
    intro q _ x y hx hy
    split <;> assumption
  have hpure : ∀ w : Int, 1 ≤ w → w ≤ 240 → Within240 p (pure w : R Int) := by
    intro w h1 h2 v hv
    simp only [R.pure_apply, Res.ok.injEq] at hv
    omega
  have hb : ∀ (x : R Int) (g : Int → Int), (∀ w, 1 ≤ g w ∧ g w ≤ 240) →
      Within240 p (x >>= fun w => pure (g w)) := by
    intro x g hg v hv
    rw [R.bind_apply] at hv
    cases hx : x p with
    | ok w =>
      rw [hx] at hv
      simp only [R.pure_apply, Res.ok.injEq] at hv
      rw [← hv]; exact hg w
    | panic q => rw [hx] at hv; cases hv
    | exit a b => rw [hx] at hv; cases hv
    | timeout => rw [hx] at hv; cases hv
  unfold ilaenvBlock
  simp only
  repeat' apply hite
  all_goals first
    | exact hpure _ (by norm_num) (by norm_num)
    | exact hb _ (fun x => min (max 48 (x.tdiv 100)) 240) (fun w => by omega)
    | exact hb _ (fun x => min (max 24 (x.tdiv 100)) 80) (fun w => by omega)

/-- **C40 (block sizes, every name).** Whatever the name, the sizes and the profile: if `ilaenv` returns for
`ispec = 1, 2, 3`, the answer is in the same range. -/
theorem C40_ilaenv_bounds (name : List Char) (n1 n2 n3 n4 : Int) (p : Profile) (v : Int) :
    (ilaenv 1 name n1 n2 n3 n4 p = .ok v → 1 ≤ v ∧ v ≤ 240) ∧
    (ilaenv 2 name n1 n2 n3 n4 p = .ok v → v = 1 ∨ v = 2 ∨ v = 8) ∧
    (ilaenv 3 name n1 n2 n3 n4 p = .ok v → v = 0 ∨ v = 32 ∨ v = 128 ∨ v = 1) := by
  have key : ∀ (ispec : Int) (Q : Int → Prop), Q 1 → (∀ sub c2 c3 c4 sname cname ts,
      (if ispec = 1 then ilaenvBlock sub c2 c3 c4 sname cname ts n1 n2 n4
        else if ispec = 2 then pure (ilaenvMin sub c2 c3 c4 sname cname)
        else pure (ilaenvCross sub c2 c3 c4 sname cname) : R Int) p = .ok v → Q v) →
      ilaenvTune ispec name n1 n2 n4 p = .ok v → Q v := by
    intro ispec Q h1 hQ h
    unfold ilaenvTune at h
    rw [R.bind_apply] at h
    cases hx : ilaenvName name p with
    | ok sub =>
      rw [hx] at h
      cases sub with
      | nil => cases h
      | cons c t =>
        simp only at h
        split at h
        · simp only [R.pure_apply, Res.ok.injEq] at h
          rw [← h]; exact h1
        · rw [R.bind_apply] at h
          cases hy : ilaenvTwoStage (c :: t) p with
          | ok ts => rw [hy] at h; exact hQ _ _ _ _ _ _ _ h
          | panic q => rw [hy] at h; cases h
          | exit a b => rw [hy] at h; cases h
          | timeout => rw [hy] at h; cases h
    | panic q => rw [hx] at h; cases h
    | exit a b => rw [hx] at h; cases h
    | timeout => rw [hx] at h; cases h
  refine ⟨?_, ?_, ?_⟩
  · refine key 1 (fun v => 1 ≤ v ∧ v ≤ 240) (by norm_num) fun sub c2 c3 c4 sname cname ts h => ?_
    exact ilaenvBlock_range' sub c2 c3 c4 sname cname ts n1 n2 n4 p v h
  · refine key 2 (fun v => v = 1 ∨ v = 2 ∨ v = 8) (by norm_num) fun sub c2 c3 c4 sname cname ts h => ?_
    have h' : (pure (ilaenvMin sub c2 c3 c4 sname cname) : R Int) p = .ok v := h
    rw [R.pure_apply, Res.ok.injEq] at h'
    rw [← h']
    unfold ilaenvMin
    repeat' split
    all_goals norm_num
  · refine key 3 (fun v => v = 0 ∨ v = 32 ∨ v = 128 ∨ v = 1) (by norm_num) fun sub c2 c3 c4 sname cname ts h => ?_
    have h' : (pure (ilaenvCross sub c2 c3 c4 sname cname) : R Int) p = .ok v := h
    rw [R.pure_apply, Res.ok.injEq] at h'
    rw [← h']
    unfold ilaenvCross
    repeat' split
    all_goals norm_num

theorem qp3rk_false (c2 sub : List Char) : qp3rk c2 sub = false := by
  unfold qp3rk
  have : (sub.drop 3).take 4 ≠ "QP3RK".toList := by
    intro h
    have := congrArg List.length h
    rw [List.length_take, show ("QP3RK".toList).length = 5 from rfl] at this
    omega
  rw [decide_eq_false this, Bool.and_false]

/-- **C40 (case).** An ASCII name of at least six characters that starts with a lower-case letter gives the same answer
as its upper-case spelling. -/
theorem C40_ilaenv_case (ispec : Int) (name : List Char) (n1 n2 n3 n4 : Int) (h : 1 ≤ ispec ∧ ispec ≤ 3)
    (ha : Spec.ascii name) (hl : 6 ≤ name.length) (hc : ∀ c, name.head? = some c → Spec.isLower c) :
    ilaenv ispec name n1 n2 n3 n4 = ilaenv ispec (name.map Char.toUpper) n1 n2 n3 n4 := by
  have hu : name.map Char.toUpper = name.map upAscii := by
    exact congrArg (fun f => List.map f name) (funext fun c => (upAscii_eq c).symm)
  rw [hu]
  have ht : ∀ l, ilaenv ispec l n1 n2 n3 n4 = ilaenvTune ispec l n1 n2 n4 := fun l => by
    unfold ilaenv ilaenvWith; rw [if_pos h]
  refine (ht _).trans (Eq.trans ?_ (ht _).symm)
  clear hu ht
  obtain ⟨c, d1, d2, d3, d4, d5, t, rfl⟩ : ∃ c d1 d2 d3 d4 d5 t, name = c :: d1 :: d2 :: d3 :: d4 :: d5 :: t := by
    rcases name with _ | ⟨c, _ | ⟨d1, _ | ⟨d2, _ | ⟨d3, _ | ⟨d4, _ | ⟨d5, t⟩⟩⟩⟩⟩⟩
    all_goals first
      | exact ⟨_, _, _, _, _, _, _, rfl⟩
      | (exfalso; revert hl; simp; done)
  · have hlow := (isLower_iff c).1 (hc c rfl)
    have e1 : ilaenvName (c :: d1 :: d2 :: d3 :: d4 :: d5 :: t) =
        pure (upAscii c :: upAscii d1 :: upAscii d2 :: upAscii d3 :: upAscii d4 :: upAscii d5 :: t) := by
      rw [ilaenvName_ascii ha]
      simp only
      rw [if_pos hlow, if_pos (by simp)]
      rfl
    have hb : Spec.ascii ((c :: d1 :: d2 :: d3 :: d4 :: d5 :: t).map upAscii) := fun d hd => by
      obtain ⟨e, he, rfl⟩ := List.mem_map.1 hd
      exact upAscii_ascii (ha e he)
    have hb1 : Spec.ascii (upAscii c :: upAscii d1 :: upAscii d2 :: upAscii d3 :: upAscii d4 :: upAscii d5 :: t) := by
      intro d hd
      simp only [List.mem_cons] at hd
      rcases hd with rfl | rfl | rfl | rfl | rfl | rfl | hd
      all_goals first
        | exact upAscii_ascii (ha _ (by simp))
        | exact ha _ (by simp [hd])
    have e2 : ilaenvName ((c :: d1 :: d2 :: d3 :: d4 :: d5 :: t).map upAscii) =
        pure (upAscii c :: upAscii d1 :: upAscii d2 :: upAscii d3 :: upAscii d4 :: upAscii d5 :: t.map upAscii) := by
      refine (ilaenvName_ascii hb).trans ?_
      show (if _ then _ else _) = _
      split
      · rw [if_pos (by simp)]
        simp [upAscii_idem]
      · rfl
    rw [ilaenvTune_ok e1 (twoStage_ascii hb1), ilaenvTune_ok e2 (twoStage_ascii (by simpa using hb))]
    have e3 : ∀ t : List Char, ((upAscii c :: upAscii d1 :: upAscii d2 :: upAscii d3 :: upAscii d4 :: upAscii d5 :: t)[10]? = some '2')
        ↔ (t[4]? = some '2') := fun t => by simp
    have e4 : ((t.map upAscii)[4]? = some '2') ↔ (t[4]? = some '2') := by
      rw [List.getElem?_map]
      cases t[4]? with
      | none => simp
      | some x => simp [upAscii_eq_two]
    have e5 : ∀ t : List Char, ((upAscii c :: upAscii d1 :: upAscii d2 :: upAscii d3 :: upAscii d4 :: upAscii d5 :: t).drop 1).take 5
        = [upAscii d1, upAscii d2, upAscii d3, upAscii d4, upAscii d5] := fun t => rfl
    have e6 : ∀ t : List Char, ((upAscii c :: upAscii d1 :: upAscii d2 :: upAscii d3 :: upAscii d4 :: upAscii d5 :: t).drop 3).take 3
        = [upAscii d3, upAscii d4, upAscii d5] := fun t => rfl
    have e7 : ∀ t : List Char, ((upAscii c :: upAscii d1 :: upAscii d2 :: upAscii d3 :: upAscii d4 :: upAscii d5 :: t).drop 1).take 2
        = [upAscii d1, upAscii d2] := fun t => rfl
    simp only [ilaenvBlock, ilaenvMin, ilaenvCross, qp3rk_false, e5, e6, e7, e3, e4, List.length_cons, List.length_map]

/-- **C40 (case, the other way).** A name whose first letter is an upper-case one is not upper-cased: if its second
letter is lower-case, no rule applies and the block size is 1, whatever the routine. -/
theorem C40_ilaenv_mixed (c d : Char) (t : List Char) (n1 n2 n3 n4 : Int) (ha : Spec.ascii (c :: d :: t))
    (hc : ¬ Spec.isLower c) (hd : Spec.isLower d) : ilaenv 1 (c :: d :: t) n1 n2 n3 n4 = pure 1 := by
  show ilaenvTune 1 _ n1 n2 n4 = _
  have e1 : ilaenvName (c :: d :: t) = pure (c :: d :: t) := by
    simp only [ilaenvName]
    rw [if_neg (fun h => hc ((isLower_iff c).2 h))]
  rw [ilaenvTune_ok e1 (twoStage_ascii ha)]
  simp only
  split
  · rfl
  · rw [if_pos trivial]
    have hd' := (isLower_iff d).1 hd
    have hne : ∀ e : Char, e.toNat < 97 → d ≠ e := by rintro e he rfl; omega
    have hd0 : ∀ (e : Char) (l m : List Char), e.toNat < 97 → ((c :: d :: t).drop 1).take 2 ≠ e :: l := by
      intro e l m he h
      have : d = e := by
        have := congrArg List.head? h
        simpa using this
      exact hne e he this
    have k : ∀ (s : String) (e : Char) (l : List Char), s.toList = e :: l → e.toNat < 97 →
        (((c :: d :: t).drop 1).take 2 = s.toList) = False := by
      intro s e l hs he
      rw [hs]
      exact eq_false (hd0 e l l he)
    unfold ilaenvBlock geFact
    simp only [k "SY" 'S' ['Y'] rfl (by decide), k "HE" 'H' ['E'] rfl (by decide), k "LA" 'L' ['A'] rfl (by decide),
      k "GE" 'G' ['E'] rfl (by decide), k "OR" 'O' ['R'] rfl (by decide), k "UN" 'U' ['N'] rfl (by decide),
      k "GB" 'G' ['B'] rfl (by decide), k "PB" 'P' ['B'] rfl (by decide), k "TR" 'T' ['R'] rfl (by decide),
      k "ST" 'S' ['T'] rfl (by decide), k "GG" 'G' ['G'] rfl (by decide), qp3rk_false]
    simp

/-- Concrete instances: the block size of `DGEQRF` is 32 in either spelling, but 1 when written `Dgeqrf`. -/
example : ilaenv 1 "dgeqrf".toList 0 0 0 0 = pure 32 ∧ ilaenv 1 "DGEQRF".toList 0 0 0 0 = pure 32 ∧
    ilaenv 1 "Dgeqrf".toList 0 0 0 0 = pure 1 ∧ Spec.nameOK "dgeqrf".toList ∧ ¬ Spec.nameOK "dge".toList := by
  refine ⟨rfl, rfl, rfl, ⟨by decide, fun _ _ _ => by decide⟩, ?_⟩
  rintro ⟨_, h⟩
  exact absurd (h 'd' rfl (by unfold Spec.isLower; decide)) (by decide)

/-! ### C41: `iparmq` -/

/-- **C41.** The answers of `iparmq` that do not look at the name; `ihi - ilo + 1` is the size of the active block.
The number of shifts is 2 whatever the size. -/
theorem C41_iparmq (ispec : Int) (name : List Char) (ilo ihi : Int) (hs : ispec ≠ 16) (h1 : FitsI32 (ihi - ilo))
    (h2 : FitsI32 (ihi - ilo + 1)) :
    iparmq ispec name ilo ihi = pure
      (if ispec = 12 then 75 else if ispec = 13 then (if ihi - ilo + 1 < 500 then 2 else 3)
       else if ispec = 14 then 14 else if ispec = 15 then 2 else if ispec = 17 then 10 else -1) := by
  unfold iparmq
  rw [isub_ok h1]
  simp only [pure_bind, iadd_ok h2]
  have e : iparmqNs (ihi - ilo + 1) = 2 := rfl
  rw [e]
  by_cases a : ispec = 12
  · rw [if_pos a, if_pos a]
  by_cases b : ispec = 13
  · subst b; simp only [ite_self]
    norm_num
    split <;> rfl
  by_cases c : ispec = 14
  · subst c; norm_num
  by_cases d : ispec = 15
  · subst d; norm_num
  by_cases g : ispec = 17
  · subst g; norm_num
  rw [if_neg a, if_neg c, if_neg d, if_neg b, if_neg hs, if_neg g, if_neg a, if_neg b, if_neg c, if_neg d, if_neg g]

/-- **C41 (block structure).** For `ispec = 16` and an ASCII name of at least six characters, upper-cased if its first
letter is lower-case, the answer is: for `?GGHRD` and `?GGHD3` 2 from size 14 on and else 1; for `???EXC` 1 from
size 14 on and else 0; in all other cases 0 (`?HSEQR` and `?LAQR?` included, since the number of shifts is 2). -/
theorem C41_iparmq_acc22 (name : List Char) (ilo ihi : Int) (ha : Spec.ascii name) (hl : 6 ≤ name.length)
    (h1 : FitsI32 (ihi - ilo)) (h2 : FitsI32 (ihi - ilo + 1))
    (hc : (∀ c, name.head? = some c → Spec.isLower c) ∨ (∀ c ∈ name, ¬ Spec.isLower c)) :
    let up := (name.map Char.toUpper).take 6
    iparmq 16 name ilo ihi = pure
      (if up.drop 1 = "GGHRD".toList ∨ up.drop 1 = "GGHD3".toList then (if 14 ≤ ihi - ilo + 1 then 2 else 1)
       else if up.drop 3 = "EXC".toList ∧ 14 ≤ ihi - ilo + 1 then 1 else 0) := by
  intro up
  have hu : name.map Char.toUpper = name.map upAscii := by
    exact congrArg (fun f => List.map f name) (funext fun c => (upAscii_eq c).symm)
  have hname : ∃ sub, iparmqName name = pure sub ∧ sub.take 6 = up ∧ 6 ≤ sub.length ∧ Spec.ascii sub := by
    show ∃ sub : List Char, _ ∧ sub.take 6 = (name.map Char.toUpper).take 6 ∧ _
    rw [hu]
    cases name with
    | nil => simp at hl
    | cons c t =>
      by_cases hlow : 97 ≤ c.toNat ∧ c.toNat ≤ 122
      · refine ⟨_, by simp only [iparmqName]; rw [if_pos hlow], ?_, ?_, ?_⟩
        · rw [List.take_append_of_le_length (by simpa using hl), List.map_take, List.take_take]
          simp
        · simp at hl ⊢; omega
        · intro d hd
          rw [List.mem_append, List.mem_map] at hd
          rcases hd with ⟨e, he, rfl⟩ | hd
          · exact upAscii_ascii (ha e (List.mem_of_mem_take he))
          · exact ha d (List.mem_of_mem_drop hd)
      · refine ⟨c :: t, by simp only [iparmqName]; rw [if_neg hlow], ?_, hl, ha⟩
        have hc' : ∀ d ∈ c :: t, ¬ Spec.isLower d := by
          rcases hc with hc | hc
          · exact absurd ((isLower_iff c).1 (hc c rfl)) hlow
          · exact hc
        have : (c :: t).map upAscii = c :: t := by
          conv_rhs => rw [← List.map_id (c :: t)]
          apply List.map_congr_left
          intro d hd
          unfold upAscii
          rw [if_neg (fun h => hc' d hd ((isLower_iff d).2 h))]; rfl
        rw [this]
  obtain ⟨sub, e1, e2, e3, e4⟩ := hname
  unfold iparmq
  rw [isub_ok h1]
  simp only [pure_bind, iadd_ok h2, e1]
  rw [if_neg (by norm_num), if_neg (by norm_num), if_neg (by norm_num), if_neg (by norm_num), if_pos trivial,
    if_pos (by norm_num)]
  unfold iparmqAcc22
  have s1 : strSlice sub 1 6 = pure (up.drop 1) := by
    rw [strSlice_ascii e4, if_pos ⟨by norm_num, e3⟩, e2]
  have s2 : strSlice sub 3 6 = pure (up.drop 3) := by
    rw [strSlice_ascii e4, if_pos ⟨by norm_num, e3⟩, e2]
  have s3 : ∃ l, strSlice sub 1 5 = pure l := by
    rw [strSlice_ascii e4, if_pos ⟨by norm_num, by omega⟩]; exact ⟨_, rfl⟩
  obtain ⟨l, s3⟩ := s3
  have e : iparmqNs (ihi - ilo + 1) = 2 := rfl
  simp only [s1, s2, s3, pure_bind, e]
  by_cases p1 : up.drop 1 = "GGHRD".toList ∨ up.drop 1 = "GGHD3".toList
  · rw [if_pos p1, if_pos p1]
    split <;> rfl
  · rw [if_neg p1, if_neg p1]
    by_cases p2 : up.drop 3 = "EXC".toList
    · rw [if_pos p2]
      by_cases p3 : 14 ≤ ihi - ilo + 1
      · rw [if_pos (by omega), if_pos ⟨p2, p3⟩]
      · rw [if_neg (by omega), if_neg (by omega), if_neg (fun h => p3 h.2)]
    · have p4 : ¬ (up.drop 3 = "EXC".toList ∧ 14 ≤ ihi - ilo + 1) := fun h => p2 h.1
      rw [if_neg p2, if_neg p4]
      split <;> rfl

/-- **C41 (panic).** For `ispec = 16` a name of fewer than six bytes panics. -/
theorem C41_iparmq_panic (name : List Char) (ilo ihi : Int) (hl : (name.map Char.utf8Size).sum < 6)
    (h1 : FitsI32 (ihi - ilo)) (h2 : FitsI32 (ihi - ilo + 1)) : ∃ p, iparmq 16 name ilo ihi = R.panic p := by
  unfold iparmq
  rw [isub_ok h1]
  simp only [pure_bind, iadd_ok h2]
  norm_num
  cases name with
  | nil => exact ⟨_, rfl⟩
  | cons c t =>
    refine ⟨.strSlice, ?_⟩
    have : ∃ sub, iparmqName (c :: t) = pure sub ∧ strLen sub < 6 := by
      simp only [iparmqName]
      split
      · refine ⟨_, rfl, ?_⟩
        unfold strLen
        rw [List.map_append, List.map_map, List.sum_append]
        have : ∀ l : List Char, (l.map (Char.utf8Size ∘ upAscii)).sum ≤ (l.map Char.utf8Size).sum := by
          intro l
          induction l with
          | nil => simp
          | cons d l ih =>
            simp only [List.map_cons, List.sum_cons, Function.comp]
            have : (upAscii d).utf8Size ≤ d.utf8Size := by
              by_cases hd : 97 ≤ d.toNat ∧ d.toNat ≤ 122
              · rw [utf8Size_ascii (upAscii_ascii (by omega))]
                exact Char.utf8Size_pos d
              · rw [upAscii_self hd]
            simp only [Function.comp_def] at ih ⊢
            omega
        have h3 := this ((c :: t).take 6)
        have h4 : ((c :: t).map Char.utf8Size).sum =
            (((c :: t).take 6).map Char.utf8Size).sum + (((c :: t).drop 6).map Char.utf8Size).sum := by
          rw [← List.sum_append, ← List.map_append, List.take_append_drop]
        omega
      · exact ⟨_, rfl, hl⟩
    obtain ⟨sub, e1, e2⟩ := this
    rw [e1]
    unfold iparmqAcc22 strSlice
    have : charIx sub 6 = none := by
      cases h : charIx sub 6 with
      | none => rfl
      | some k => have := (charIx_le h).1; omega
    simp only [pure_bind, this]
    cases charIx sub 1 <;> rfl

/-- **C41 (overflow).** If the size `ihi - ilo + 1` is not an `i32` value, a debug build panics for every `ispec`; a
release build goes on with the size modulo `2^32`. -/
theorem C41_iparmq_overflow (ispec : Int) (name : List Char) (ilo ihi : Int)
    (h : ¬ (FitsI32 (ihi - ilo) ∧ FitsI32 (ihi - ilo + 1))) :
    iparmq ispec name ilo ihi .debug = .panic .overflow ∧
    (ispec ≠ 16 → iparmq ispec name ilo ihi .release = .ok
      (if ispec = 12 then 75 else if ispec = 13 then (if wrap32 (ihi - ilo + 1) < 500 then 2 else 3)
       else if ispec = 14 then 14 else if ispec = 15 then 2 else if ispec = 17 then 10 else -1)) := by
  constructor
  · unfold iparmq isub iadd
    by_cases h1 : FitsI32 (ihi - ilo)
    · rw [chk_ok h1]
      have h2 : ¬ FitsI32 (ihi - ilo + 1) := fun h2 => h ⟨h1, h2⟩
      simp [R.bind_apply, chk, h2]
    · simp [R.bind_apply, chk, h1]
  · intro hs
    have e : iparmq ispec name ilo ihi .release =
        (let ns := if ispec = 15 ∨ ispec = 13 ∨ ispec = 16 then iparmqNs (wrap32 (ihi - ilo + 1)) else 2
         if ispec = 12 then pure 75
         else if ispec = 14 then pure 14
         else if ispec = 15 then pure ns
         else if ispec = 13 then
           if wrap32 (ihi - ilo + 1) < 500 then pure ns else pure ((3 * ns).tdiv 2)
         else if ispec = 16 then do
           let sub ← iparmqName name
           iparmqAcc22 (wrap32 (ihi - ilo + 1)) ns sub
         else if ispec = 17 then pure 10
         else pure (-1) : R Int) .release := by
      unfold iparmq isub iadd
      have hr : ∀ x, chk x .release = .ok (wrap32 x) := fun x => by unfold chk; split <;> simp_all [wrap32_of_fits]
      simp only [R.bind_apply, hr]
      have : wrap32 (wrap32 (ihi - ilo) + 1) = wrap32 (ihi - ilo + 1) := by
        generalize ihi - ilo = x
        unfold wrap32; omega
      rw [this]
    rw [e]
    have e2 : ∀ x, iparmqNs x = 2 := fun _ => rfl
    simp only [e2, ite_self]
    by_cases a : ispec = 12
    · simp [a]
    by_cases b : ispec = 13
    · subst b
      by_cases c : wrap32 (ihi - ilo + 1) < 500
      · simp [c]
      · simp [c]
    by_cases c : ispec = 14
    · simp [c]
    by_cases d : ispec = 15
    · simp [d]
    by_cases g : ispec = 17
    · simp [g]
    simp [a, b, c, d, g, hs]

/-- **C41 (panic, bytes and characters).** For `ispec = 16` a name whose first character is not ASCII panics: byte
number 1 is not the start of a character. -/
theorem C41_iparmq_bytes (c : Char) (t : List Char) (ilo ihi : Int) (hc : 128 ≤ c.toNat)
    (h1 : FitsI32 (ihi - ilo)) (h2 : FitsI32 (ihi - ilo + 1)) :
    iparmq 16 (c :: t) ilo ihi = R.panic .strSlice := by
  unfold iparmq
  rw [isub_ok h1]
  simp only [pure_bind, iadd_ok h2]
  norm_num
  have e1 : iparmqName (c :: t) = pure (c :: t) := by
    simp only [iparmqName]
    rw [if_neg (by omega)]
  have e2 : charIx (c :: t) 1 = none := by
    have : ¬ c.utf8Size ≤ 1 := by
      unfold Char.utf8Size
      have h3 : ¬ c.val ≤ UInt32.ofNatLT 0x7F (by decide) := by
        rw [UInt32.le_iff_toNat_le]
        show ¬ c.toNat ≤ 127
        omega
      rw [if_neg h3]
      split
      · norm_num
      · split <;> norm_num
    simp [charIx, this]
  rw [e1]
  unfold iparmqAcc22 strSlice
  simp only [pure_bind, e2]
  rfl

/-- Names with letters outside ASCII: seven characters in eleven bytes; a first letter of two bytes; and a lower-case
name with a letter of two bytes, where the character to be upper-cased is not the byte that is replaced. -/
example : ilaenv 1 "Dääääßß".toList 0 0 0 0 = R.panic .unwrap ∧ iparmq 16 "ÄGGHRD".toList 1 20 = R.panic .strSlice ∧
    ilaenv 1 "dägeqrf".toList 0 0 0 0 = R.panic .strSlice :=
  ⟨C40_ilaenv_bytes 1 'D' _ 0 0 0 0 (by decide) (by decide) (by decide) (by decide),
    C41_iparmq_bytes 'Ä' _ 1 20 (by decide) (by decide) (by decide), rfl⟩

example : iparmq 16 "cgghrd".toList 1 14 = pure 2 ∧ iparmq 13 "DHSEQR".toList 1 1000 = pure 3 := ⟨rfl, rfl⟩

end Verif

import Verif.Lib.Trmm
import Verif.Spec.Tri
import Verif.Props.GemmArgs

/-!
# `dtrmm` (C26, C27): parametric part
-/

set_option linter.unusedSectionVars false

namespace Verif
open Scalar Spec

variable {F : Type} [Scalar F]

/-! ### One formula for the eight loop nests -/

/-- The value the update loops give to entry `(i, j)`. -/
def trmmVal (lside upper notrans nounit : Bool) (m n : Int) (alpha : F) (ga gb : Int → Int → F)
    (i j : Int) : F :=
  if lside then
    if notrans then
      if upper then (irange (i + 1) m).foldl (lnStep alpha ga (gb · j) i)
          (lnStart nounit alpha ga (gb · j) i)
      else (irange 1 (i - 1)).reverse.foldl (lnStep alpha ga (gb · j) i)
          (lnStart nounit alpha ga (gb · j) i)
    else if upper then ltVal nounit alpha ga (gb · j) 1 (i - 1) i
    else ltVal nounit alpha ga (gb · j) (i + 1) m i
  else if notrans then
    if upper then rnVal nounit alpha ga (gb i) 1 (j - 1) j
    else rnVal nounit alpha ga (gb i) (j + 1) n j
  else if upper then
    (irange (j + 1) n).foldl (fun acc k => rAcc alpha (ga j k) (gb i) acc k)
      (rtStart nounit alpha ga (gb i) j)
  else
    (irange 1 (j - 1)).reverse.foldl (fun acc k => rAcc alpha (ga j k) (gb i) acc k)
      (rtStart nounit alpha ga (gb i) j)

theorem dtrmmCore_ok {ld L lda La : Nat} {cols colsa m n : Int} {ga g : Int → Int → F}
    {a b : FA F} (hm : 0 ≤ m) (hn : 0 ≤ n) (hL : L < 2 ^ 31) (hLa : La < 2 ^ 31)
    (lside upper notrans nounit : Bool) (alpha : F)
    (ha : Is2 a lda colsa La ga)
    (hA : Block lda La (if lside then m else n) (if lside then m else n)) (hB : Block ld L m n)
    (hb : Is2 b ld cols L g) :
    ∃ b', dtrmmCore lside upper notrans nounit m n alpha a b = pure b' ∧
      Is2 b' ld cols L (fun i j => if (1 ≤ i ∧ i ≤ m) ∧ (1 ≤ j ∧ j ≤ n) then
        trmmVal lside upper notrans nounit m n alpha ga g i j else g i j) := by
  unfold dtrmmCore trmmVal
  cases lside
  · simp only [Bool.false_eq_true, if_false] at hA ⊢
    cases notrans
    · simp only [Bool.false_eq_true, if_false]
      cases upper
      · exact rtl_ok hL hLa ha hA hB hn nounit alpha hb
      · exact rtu_ok hL hLa ha hA hB hn nounit alpha hb
    · simp only [if_true]
      cases upper
      · exact rnl_ok hL hLa ha hA hB hn nounit alpha hb
      · exact rnu_ok hL hLa ha hA hB hn nounit alpha hb
  · simp only [if_true] at hA ⊢
    cases notrans
    · simp only [Bool.false_eq_true, if_false]
      cases upper
      · exact left_all (fun x i => ltVal nounit alpha ga x (i + 1) m i)
          (fun j h1 h2 b g hb => ltl_col hL hLa ha hA hB nounit alpha h1 h2 hb) hb
      · exact left_all (fun x i => ltVal nounit alpha ga x 1 (i - 1) i)
          (fun j h1 h2 b g hb => ltu_col hL hLa ha hA hB nounit alpha h1 h2 hb) hb
    · simp only [if_true]
      cases upper
      · exact left_all (fun x i => (irange 1 (i - 1)).reverse.foldl (lnStep alpha ga x i)
          (lnStart nounit alpha ga x i))
          (fun j h1 h2 b g hb => lln_col hL hLa ha hA hB nounit alpha h1 h2 hb) hb
      · exact left_all (fun x i => (irange (i + 1) m).foldl (lnStep alpha ga x i)
          (lnStart nounit alpha ga x i))
          (fun j h1 h2 b g hb => lun_col hL hLa ha hA hB nounit alpha h1 h2 hb) hb

/-! ### Flags -/

theorem lsame_L {s : Char} (h : SideFlag s) : lsame s 'L' = isLeft s ∧
    (lsame s 'L' || lsame s 'R') = true := by
  unfold SideFlag at h
  simp only [List.mem_cons, List.not_mem_nil, or_false] at h
  rcases h with rfl | rfl | rfl | rfl <;> decide

theorem lsame_U {s : Char} (h : UploFlag s) : lsame s 'U' = isUpper s ∧
    (lsame s 'U' || lsame s 'L') = true := by
  unfold UploFlag at h
  simp only [List.mem_cons, List.not_mem_nil, or_false] at h
  rcases h with rfl | rfl | rfl | rfl <;> decide

theorem lsame_D {s : Char} (h : DiagFlag s) : lsame s 'N' = !isUnit s ∧
    (lsame s 'U' || lsame s 'N') = true := by
  unfold DiagFlag at h
  simp only [List.mem_cons, List.not_mem_nil, or_false] at h
  rcases h with rfl | rfl | rfl | rfl <;> decide

theorem lsame_latin' (t : Char) (ht : t.toNat < 256) :
    (lsame t 'L' = true ↔ t = 'L' ∨ t = 'l') ∧ (lsame t 'R' = true ↔ t = 'R' ∨ t = 'r') ∧
      (lsame t 'U' = true ↔ t = 'U' ∨ t = 'u') := by
  have key : ∀ c d : Char, t = c ↔ t.toNat = c.toNat := by
    intro c _
    constructor
    · intro h; rw [h]
    · intro h; exact Char.toNat_inj.1 h
  simp only [key _ 'a']
  unfold lsame charU8 u8Alpha u8Lower
  rw [Nat.mod_eq_of_lt ht]
  generalize t.toNat = x at *
  simp only [show ('L' : Char).toNat = 76 from rfl, show ('l' : Char).toNat = 108 from rfl,
    show ('R' : Char).toNat = 82 from rfl, show ('r' : Char).toNat = 114 from rfl,
    show ('U' : Char).toNat = 85 from rfl, show ('u' : Char).toNat = 117 from rfl,
    Bool.or_eq_true, Bool.and_eq_true, beq_iff_eq, decide_eq_true_eq, Nat.reduceMod]
  refine ⟨?_, ?_, ?_⟩ <;> split <;> simp <;> omega

instance (t : Char) : Decidable (SideFlag t) := inferInstanceAs (Decidable (_ ∈ _))
instance (t : Char) : Decidable (UploFlag t) := inferInstanceAs (Decidable (_ ∈ _))
instance (t : Char) : Decidable (DiagFlag t) := inferInstanceAs (Decidable (_ ∈ _))

/-- The number of the first illegal argument of `dtrmm`, if any. -/
def trmmIllegal (side uplo transa diag : Char) (m n lda ldb : Int) : Option Int :=
  if ¬ SideFlag side then some 1
  else if ¬ UploFlag uplo then some 2
  else if ¬ TransFlag transa then some 3
  else if ¬ DiagFlag diag then some 4
  else if m < 0 then some 5
  else if n < 0 then some 6
  else if lda < 1 ∨ lda < (if isLeft side then m else n) then some 9
  else if ldb < 1 ∨ ldb < m then some 11
  else none

theorem trmmIllegal_pos {side uplo transa diag : Char} {m n lda ldb p : Int}
    (h : trmmIllegal side uplo transa diag m n lda ldb = some p) : p ≠ 0 := by
  unfold trmmIllegal at h
  split_ifs at h <;> simp at h <;> omega

theorem dtrmmInfo_eq (side uplo transa diag : Char) (h1 : side.toNat < 256) (h2 : uplo.toNat < 256)
    (h3 : transa.toNat < 256) (h4 : diag.toNat < 256) (m n lda ldb : Int) :
    dtrmmInfo side uplo transa diag m n lda ldb =
      (trmmIllegal side uplo transa diag m n lda ldb).getD 0 := by
  have f1 : ((!lsame side 'L' && !lsame side 'R') = true) ↔ ¬ SideFlag side := by
    obtain ⟨a, b, -⟩ := lsame_latin' side h1
    have : SideFlag side ↔ lsame side 'L' = true ∨ lsame side 'R' = true := by
      rw [a, b]; unfold SideFlag
      simp only [List.mem_cons, List.not_mem_nil, or_false, or_assoc]
    rw [this]; cases lsame side 'L' <;> cases lsame side 'R' <;> simp
  have f2 : ((!lsame uplo 'U' && !lsame uplo 'L') = true) ↔ ¬ UploFlag uplo := by
    obtain ⟨a, -, b⟩ := lsame_latin' uplo h2
    have : UploFlag uplo ↔ lsame uplo 'U' = true ∨ lsame uplo 'L' = true := by
      rw [a, b]; unfold UploFlag
      simp only [List.mem_cons, List.not_mem_nil, or_false, or_assoc]
    rw [this]; cases lsame uplo 'L' <;> cases lsame uplo 'U' <;> simp
  have f3 : ((!lsame transa 'N' && !lsame transa 'T' && !lsame transa 'C') = true) ↔
      ¬ TransFlag transa := by
    rw [transFlag_iff transa h3]
    cases lsame transa 'N' <;> cases lsame transa 'T' <;> cases lsame transa 'C' <;> simp
  have f4 : ((!lsame diag 'U' && !lsame diag 'N') = true) ↔ ¬ DiagFlag diag := by
    obtain ⟨-, -, b⟩ := lsame_latin' diag h4
    obtain ⟨a, -, -⟩ := lsame_latin diag h4
    have : DiagFlag diag ↔ lsame diag 'U' = true ∨ lsame diag 'N' = true := by
      rw [a, b]; unfold DiagFlag
      simp only [List.mem_cons, List.not_mem_nil, or_false, or_assoc]
    rw [this]; cases lsame diag 'N' <;> cases lsame diag 'U' <;> simp
  have k1 : ∀ x y : Int, x < max 1 y ↔ (x < 1 ∨ x < y) := by intro x y; omega
  unfold dtrmmInfo trmmIllegal
  simp only [f1, f2, f3, f4, k1]
  by_cases hs : SideFlag side
  · simp only [(lsame_L hs).1]
    split_ifs <;> rfl
  · simp only [hs, not_false_eq_true, if_true]
    rfl

theorem dtrmmFA_illegal {side uplo transa diag : Char} (h1 : side.toNat < 256)
    (h2 : uplo.toNat < 256) (h3 : transa.toNat < 256) (h4 : diag.toNat < 256)
    {m n lda ldb p : Int} (h : trmmIllegal side uplo transa diag m n lda ldb = some p)
    (alpha : F) (a b : FA F) :
    dtrmmFA side uplo transa diag m n alpha a lda b ldb = R.exit "DTRMM " p := by
  unfold dtrmmFA
  rw [dtrmmInfo_eq side uplo transa diag h1 h2 h3 h4, h]
  exact if_pos (trmmIllegal_pos h)

/-- **C27, illegal arguments.** An illegal argument ends the process through `xerbla("DTRMM ", p)`,
`p` being the number of the first illegal argument, for all container kinds. -/
theorem C27_dtrmm_illegal {A B : Type} [ToFA F A] [FromFA F A] [ToFA F B] [FromFA F B]
    {side uplo transa diag : Char} (h1 : side.toNat < 256)
    (h2 : uplo.toNat < 256) (h3 : transa.toNat < 256) (h4 : diag.toNat < 256)
    {m n lda ldb p : Int} (h : trmmIllegal side uplo transa diag m n lda ldb = some p)
    (alpha : F) (a : A) (b : B) :
    dtrmm side uplo transa diag m n alpha a lda b ldb = R.exit "DTRMM " p := by
  unfold dtrmm
  rw [dtrmmFA_illegal h1 h2 h3 h4 h]; rfl

/-- **C27, legal arguments.** If every argument is legal, `dtrmm` never ends the process, whatever
the container kinds, the data and the lengths. -/
theorem C27_dtrmm_legal {A B : Type} [ToFA F A] [FromFA F A] [ToFA F B] [FromFA F B]
    [Sink F A] [Sink F B]
    {side uplo transa diag : Char} (h1 : side.toNat < 256)
    (h2 : uplo.toNat < 256) (h3 : transa.toNat < 256) (h4 : diag.toNat < 256)
    {m n lda ldb : Int} (h : trmmIllegal side uplo transa diag m n lda ldb = none)
    (alpha : F) (a : A) (b : B) :
    NoExit (dtrmm side uplo transa diag m n alpha a lda b ldb) := by
  have hax : ∀ lo hi (t : F) (a : FA F) k j b, NoExit (trmmAxpyA lo hi t a k j b) := fun _ _ _ _ _ _ _ =>
    .forUp (fun _ _ => .bind (.get2 _ _ _) fun _ => .modify2 _ _ _ _) _ _ _
  have hbx : ∀ (t : F) j k b, NoExit (trmmAxpyB m t j k b) := fun _ _ _ _ =>
    .forUp (fun _ _ => .bind (.get2 _ _ _) fun _ => .modify2 _ _ _ _) _ _ _
  have hsc : ∀ (t : F) j b, NoExit (trmmScale m t j b) := fun _ _ _ =>
    .forUp (fun _ _ => .modify2 _ _ _ _) _ _ _
  have hlt : ∀ nu lo hi (a : FA F) j b i, NoExit (trmmLTStep nu lo hi alpha a j b i) := by
    intro nu lo hi a j b i
    have hl : ∀ t : F, NoExit (forUp lo hi t (fun temp k => do
        let aki ← a.get2 k i
        let bkj ← b.get2 k j
        pure (temp + aki * bkj)) >>= fun temp => b.set2 i j (alpha * temp)) := fun t =>
      .bind (.forUp (fun _ _ => .bind (.get2 _ _ _) fun _ => .bind (.get2 _ _ _) fun _ => .pure _)
        _ _ _) fun _ => .set2 _ _ _ _
    unfold trmmLTStep
    refine .bind (.get2 _ _ _) fun _ => ?_
    cases nu
    · simpa only [Bool.false_eq_true, if_false, pure_bind] using hl _
    · simp only [if_true, pure_bind]
      exact .bind (.get2 _ _ _) fun _ => hl _
  have hrn : ∀ nu lo hi (a : FA F) b j, NoExit (trmmRNStep nu m lo hi alpha a b j) := by
    intro nu lo hi a b j
    have hl : ∀ t : F, NoExit (trmmScale m t j b >>= fun b => forUp lo hi b fun b k => do
        let akj ← a.get2 k j
        if akj ≠ᶠ zero then trmmAxpyB m (alpha * akj) j k b else pure b) := fun t =>
      .bind (hsc _ _ _) fun _ => .forUp (fun _ _ => .bind (.get2 _ _ _) fun _ =>
        .ite (hbx _ _ _ _) (.pure _)) _ _ _
    unfold trmmRNStep
    cases nu
    · simpa only [Bool.false_eq_true, if_false, pure_bind] using hl _
    · simp only [if_true, pure_bind]
      exact .bind (.get2 _ _ _) fun _ => hl _
  have hrt : ∀ nu lo hi (a : FA F) b j, NoExit (trmmRTStep nu m lo hi alpha a b j) := by
    intro nu lo hi a b j
    unfold trmmRTStep
    refine .bind (.forUp (fun _ _ => .bind (.get2 _ _ _) fun _ =>
        .ite (hbx _ _ _ _) (.pure _)) _ _ _) fun b => ?_
    cases nu
    · simp only [Bool.false_eq_true, if_false, pure_bind]
      exact .ite (hsc _ _ _) (.pure _)
    · simp only [if_true, pure_bind]
      exact .bind (.get2 _ _ _) fun _ => .ite (hsc _ _ _) (.pure _)
  have hlu : ∀ nu (a : FA F) j b k, NoExit (trmmLUNStep nu alpha a j b k) := by
    intro nu a j b k
    unfold trmmLUNStep
    refine .bind (.get2 _ _ _) fun _ => .ite (.bind (hax _ _ _ _ _ _ _) fun _ => ?_) (.pure _)
    cases nu
    · exact .set2 _ _ _ _
    · simp only [if_true, pure_bind]
      exact .bind (.get2 _ _ _) fun _ => .set2 _ _ _ _
  have hll : ∀ nu (a : FA F) j b k, NoExit (trmmLLNStep nu m alpha a j b k) := by
    intro nu a j b k
    unfold trmmLLNStep
    refine .bind (.get2 _ _ _) fun _ => .ite (.bind (.set2 _ _ _ _) fun _ => ?_) (.pure _)
    cases nu
    · exact hax _ _ _ _ _ _ _
    · simp only [if_true, pure_bind]
      exact .bind (.get2 _ _ _) fun _ => .bind (.modify2 _ _ _ _) fun _ => hax _ _ _ _ _ _ _
  have hcore : ∀ ls up nt nu (a b : FA F), NoExit (dtrmmCore ls up nt nu m n alpha a b) := by
    intro ls up nt nu a b
    unfold dtrmmCore
    refine .ite (.ite (.ite ?_ ?_) (.ite ?_ ?_)) (.ite (.ite ?_ ?_) (.ite ?_ ?_))
    · exact .forUp (fun _ _ => .forUp (fun _ _ => hlu _ _ _ _ _) _ _ _) _ _ _
    · exact .forUp (fun _ _ => .forDown (fun _ _ => hll _ _ _ _ _) _ _ _) _ _ _
    · exact .forUp (fun _ _ => .forDown (fun _ _ => hlt _ _ _ _ _ _ _) _ _ _) _ _ _
    · exact .forUp (fun _ _ => .forUp (fun _ _ => hlt _ _ _ _ _ _ _) _ _ _) _ _ _
    · exact .forDown (fun _ _ => hrn _ _ _ _ _ _) _ _ _
    · exact .forUp (fun _ _ => hrn _ _ _ _ _ _) _ _ _
    · exact .forUp (fun _ _ => hrt _ _ _ _ _ _) _ _ _
    · exact .forDown (fun _ _ => hrt _ _ _ _ _ _) _ _ _
  unfold dtrmm
  refine .bind ?_ fun o => ?_
  · unfold dtrmmFA
    rw [dtrmmInfo_eq side uplo transa diag h1 h2 h3 h4, h, if_neg (by simp)]
    refine .ite (.pure _) (.ite (.bind ?_ fun _ => .pure _) (.bind (hcore _ _ _ _ _ _) fun _ => .pure _))
    exact .forUp (fun c j => .forUp (fun c i => .set2 _ _ _ _) _ _ _) _ _ _
  · cases o with
    | nothing => exact .pure _
    | onlyB b => exact .bind (Sink.noExit _) fun _ => .pure _
    | both a b => exact .bind (Sink.noExit _) fun _ => .bind (Sink.noExit _) fun _ => .pure _

/-- Concrete cases: several illegal arguments at once, and a legal list. -/
example : trmmIllegal 'l' 'U' 'Q' 'x' (-1) 2 3 2 = some 3 ∧
    trmmIllegal 'R' 'l' 'n' 'u' 4 3 3 3 = some 11 ∧
    trmmIllegal 'R' 'l' 'c' 'u' 4 3 3 4 = none := by decide

theorem dtrmmInfo_zero {side uplo transa diag : Char} (h1 : SideFlag side) (h2 : UploFlag uplo)
    (h3 : TransFlag transa) (h4 : DiagFlag diag) {m n : Nat} {lda ldb : Int}
    (hla : max 1 (if isLeft side then (m : Int) else n) ≤ lda) (hlb : max 1 (m : Int) ≤ ldb) :
    dtrmmInfo side uplo transa diag m n lda ldb = 0 := by
  have e1 := lsame_L h1
  have e2 := lsame_U h2
  have e3 := lsame_flag h3
  have e4 := lsame_D h4
  unfold dtrmmInfo
  simp only
  rw [if_neg (by revert e1; cases lsame side 'L' <;> cases lsame side 'R' <;> simp),
    if_neg (by revert e2; cases lsame uplo 'U' <;> cases lsame uplo 'L' <;> simp),
    if_neg (by revert e3; cases lsame transa 'N' <;> cases lsame transa 'T' <;>
      cases lsame transa 'C' <;> simp),
    if_neg (by revert e4; cases lsame diag 'U' <;> cases lsame diag 'N' <;> simp),
    if_neg (by omega), if_neg (by omega), e1.1, if_neg (by omega), if_neg (by omega)]

/-- **C27, empty matrices.** `m = 0` or `n = 0`: both arguments are returned as they were, for all
container kinds. -/
theorem C27_empty {A B : Type} [ToFA F A] [FromFA F A] [ToFA F B] [FromFA F B]
    {side uplo transa diag : Char} (h1 : SideFlag side) (h2 : UploFlag uplo)
    (h3 : TransFlag transa) (h4 : DiagFlag diag) {m n : Nat} {lda ldb : Int}
    (hla : max 1 (if isLeft side then (m : Int) else n) ≤ lda) (hlb : max 1 (m : Int) ≤ ldb)
    (h0 : m = 0 ∨ n = 0) (alpha : F) (a : A) (b : B) :
    dtrmm side uplo transa diag m n alpha a lda b ldb = pure (a, b) := by
  unfold dtrmm dtrmmFA
  rw [dtrmmInfo_zero h1 h2 h3 h4 hla hlb, if_neg (by simp), if_pos (by omega)]
  rfl

/-- **C27, alpha = 0.** The block of `B` is set to 0, nothing else changes, and `A` is not read: it
may be any array at all. -/
theorem C27_alpha_zero {side uplo transa diag : Char} (h1 : SideFlag side) (h2 : UploFlag uplo)
    (h3 : TransFlag transa) (h4 : DiagFlag diag) {m n : Nat} {lda ldb : Int}
    (hla : max 1 (if isLeft side then (m : Int) else n) ≤ lda) (hlb : max 1 (m : Int) ≤ ldb)
    (alpha : F) (h0 : (alpha =ᶠ zero) = true) (b : FA F) (rb : Nat) (hb : b.rows = rb)
    (sb : Stored b.data rb m n) :
    ∃ b' : FA F, (∀ a : FA F, dtrmm side uplo transa diag m n alpha a lda b ldb = pure (a, b')) ∧
      b'.rows = b.rows ∧ b'.cols = b.cols ∧
      Updated rb m n b.data b'.data (fun _ _ => zero) := by
  obtain ⟨b', e1, e2⟩ := zeroBlock_ok sb.small sb.block (is2_ofList hb sb.pos)
  by_cases hq : (m : Int) = 0 ∨ (n : Int) = 0
  · refine ⟨b, fun a => ?_, rfl, rfl, rfl, ?_, fun p _ => rfl⟩
    · exact C27_empty h1 h2 h3 h4 hla hlb (by omega) alpha a b
    · intro i hi j hj; omega
  · refine ⟨b', fun a => ?_, by rw [hb]; exact e2.rows, e2.cols, updated_of_is2 sb e2⟩
    unfold dtrmm dtrmmFA
    rw [dtrmmInfo_zero h1 h2 h3 h4 hla hlb, if_neg (by simp), if_neg hq, if_pos h0]
    show ((forUp 1 (n : Int) b (zeroCol m) >>= fun x => pure (TrmmOut.onlyB x)) >>= _) = _
    rw [e1]; rfl

/-! ### C26 -/

/-- Order of the triangular matrix. -/
abbrev triOrder (side : Char) (m n : Nat) : Nat := if isLeft side then m else n

/-- The whole of `dtrmm` on arrays when there is something to do. -/
theorem dtrmmFA_ok {side uplo transa diag : Char} (h1 : SideFlag side) (h2 : UploFlag uplo)
    (h3 : TransFlag transa) (h4 : DiagFlag diag) {m n : Nat} {lda ldb : Int}
    (hla : max 1 (if isLeft side then (m : Int) else n) ≤ lda) (hlb : max 1 (m : Int) ≤ ldb)
    (hm : m ≠ 0) (hn : n ≠ 0) (alpha : F) (h0 : (alpha =ᶠ zero) = false)
    (a b : FA F) (ra rb : Nat) (ha : a.rows = ra) (hb : b.rows = rb)
    (sa : Stored a.data ra (triOrder side m n) (triOrder side m n)) (sb : Stored b.data rb m n) :
    ∃ b' : FA F, dtrmmFA side uplo transa diag m n alpha a lda b ldb = pure (.both a b') ∧
      b'.rows = b.rows ∧ b'.cols = b.cols ∧
      Updated rb m n b.data b'.data (fun i j => trmmVal (isLeft side) (isUpper uplo)
        (noTrans transa) (!isUnit diag) m n alpha (ofList2 ra a.data) (ofList2 rb b.data)
        ((i : Int) + 1) ((j : Int) + 1)) := by
  have hA : Block ra a.data.length (if isLeft side then (m : Int) else n)
      (if isLeft side then (m : Int) else n) := by
    have := sa.block
    unfold triOrder at this
    cases h : isLeft side <;> simpa [h] using this
  obtain ⟨b', e1, e2⟩ := dtrmmCore_ok (m := m) (n := n) (by omega) (by omega) sb.small sa.small
    (isLeft side) (isUpper uplo) (noTrans transa) (!isUnit diag) alpha (is2_ofList ha sa.pos) hA
    sb.block (is2_ofList hb sb.pos)
  refine ⟨b', ?_, by rw [hb]; exact e2.rows, e2.cols, updated_of_is2 sb e2⟩
  unfold dtrmmFA
  rw [dtrmmInfo_zero h1 h2 h3 h4 hla hlb, if_neg (by simp), if_neg (by omega),
    if_neg (by rw [h0]; simp), (lsame_L h1).1, (lsame_U h2).1, lsame_N h3, (lsame_D h4).1, e1]
  rfl

/-- Agreement of two square matrices on the triangle and diagonal designated by `upper`, `nounit`
(1-based). -/
def TriEq (upper nounit : Bool) (s : Int) (ga ga' : Int → Int → F) : Prop :=
  (∀ i j, 1 ≤ i → i ≤ s → 1 ≤ j → j ≤ s → (if upper then i < j else j < i) → ga i j = ga' i j) ∧
  (nounit = true → ∀ i, 1 ≤ i → i ≤ s → ga i i = ga' i i)

theorem diagMul_congr {upper nounit : Bool} {s : Int} {ga ga' : Int → Int → F}
    (h : TriEq upper nounit s ga ga') {i : Int} (h1 : 1 ≤ i) (h2 : i ≤ s) (x : F) :
    diagMul nounit x (ga i i) = diagMul nounit x (ga' i i) := by
  unfold diagMul
  cases nounit
  · rfl
  · simp only [if_true]; rw [h.2 rfl i h1 h2]

theorem trmmVal_congr {lside upper notrans nounit : Bool} {m n : Int} {alpha : F}
    {ga ga' gb : Int → Int → F} (h : TriEq upper nounit (if lside then m else n) ga ga')
    {i j : Int} (hi1 : 1 ≤ i) (hi2 : i ≤ m) (hj1 : 1 ≤ j) (hj2 : j ≤ n) :
    trmmVal lside upper notrans nounit m n alpha ga gb i j =
      trmmVal lside upper notrans nounit m n alpha ga' gb i j := by
  unfold trmmVal
  cases lside
  · simp only [Bool.false_eq_true, if_false] at h ⊢
    have hd := diagMul_congr h hj1 hj2
    obtain ⟨ht, -⟩ := h
    cases notrans
    · simp only [Bool.false_eq_true, if_false]
      unfold rtStart
      cases upper <;> simp only [Bool.false_eq_true, if_false, if_true] at ht ⊢ <;> rw [hd]
      · apply foldl_congr'
        intro s k hk
        rw [List.mem_reverse, mem_irange] at hk
        rw [ht j k (by omega) (by omega) (by omega) (by omega) (by omega)]
      · apply foldl_congr'
        intro s k hk
        rw [mem_irange] at hk
        rw [ht j k (by omega) (by omega) (by omega) (by omega) (by omega)]
    · simp only [if_true]
      unfold rnVal
      cases upper <;> simp only [Bool.false_eq_true, if_false, if_true] at ht ⊢ <;> rw [hd] <;>
      · apply foldl_congr'
        intro s k hk
        rw [mem_irange] at hk
        rw [ht k j (by omega) (by omega) (by omega) (by omega) (by omega)]
  · simp only [if_true] at h ⊢
    have hd := diagMul_congr h hi1 hi2
    obtain ⟨ht, -⟩ := h
    cases notrans
    · simp only [Bool.false_eq_true, if_false]
      unfold ltVal
      cases upper <;> simp only [Bool.false_eq_true, if_false, if_true] at ht ⊢ <;> rw [hd] <;>
        congr 1 <;>
      · apply foldl_congr'
        intro s k hk
        rw [mem_irange] at hk
        rw [ht k i (by omega) (by omega) (by omega) (by omega) (by omega)]
    · simp only [if_true]
      unfold lnStart
      cases upper <;> simp only [Bool.false_eq_true, if_false, if_true] at ht ⊢ <;> rw [hd]
      · apply foldl_congr'
        intro s k hk
        rw [List.mem_reverse, mem_irange] at hk
        unfold lnStep
        rw [ht i k (by omega) (by omega) (by omega) (by omega) (by omega)]
      · apply foldl_congr'
        intro s k hk
        rw [mem_irange] at hk
        unfold lnStep
        rw [ht i k (by omega) (by omega) (by omega) (by omega) (by omega)]

theorem triEq_of_entries {uplo diag : Char} {s ra ra' : Nat} {v v' : List F}
    (h : ∀ i < s, ∀ j < s, InTri uplo diag i j → entry v ra i j = entry v' ra' i j) :
    TriEq (isUpper uplo) (!isUnit diag) (s : Nat) (ofList2 ra v) (ofList2 ra' v') := by
  have key : ∀ i j : Int, 1 ≤ i → i ≤ s → 1 ≤ j → j ≤ s → InTri uplo diag (i - 1).toNat (j - 1).toNat →
      ofList2 ra v i j = ofList2 ra' v' i j := by
    intro i j h1 h2 h3 h4 h5
    have := h _ (by omega) _ (by omega) h5
    rw [← entry_ofList2, ← entry_ofList2] at this
    rwa [show (((i - 1).toNat : Int) + 1) = i by omega, show (((j - 1).toNat : Int) + 1) = j by omega]
      at this
  constructor
  · intro i j h1 h2 h3 h4 h5
    refine key i j h1 h2 h3 h4 ⟨?_, fun _ => ?_⟩
    · revert h5; cases isUpper uplo <;> simp <;> omega
    · revert h5; cases isUpper uplo <;> simp <;> omega
  · intro hu i h1 h2
    refine key i i h1 h2 h1 h2 ⟨?_, fun h => ?_⟩
    · cases isUpper uplo <;> simp
    · rw [h] at hu; cases hu

/-- **C26.** Whatever the scalar arithmetic: `dtrmm` on arrays returns normally, returns `A`
unchanged, changes `B` only inside the `m`-by-`n` block, and two matrices `A`, `A'` that agree on the
designated triangle (which excludes the diagonal if `diag` is `U`) give the same `B`. -/
theorem C26_dtrmm {side uplo transa diag : Char} (h1 : SideFlag side) (h2 : UploFlag uplo)
    (h3 : TransFlag transa) (h4 : DiagFlag diag) {m n : Nat} {lda ldb : Int}
    (hla : max 1 (if isLeft side then (m : Int) else n) ≤ lda) (hlb : max 1 (m : Int) ≤ ldb)
    (alpha : F) (a a' b : FA F) (ra ra' rb : Nat) (ha : a.rows = ra) (ha' : a'.rows = ra')
    (hb : b.rows = rb)
    (sa : Stored a.data ra (triOrder side m n) (triOrder side m n))
    (sa' : Stored a'.data ra' (triOrder side m n) (triOrder side m n))
    (sb : Stored b.data rb m n)
    (heq : ∀ i < triOrder side m n, ∀ j < triOrder side m n, InTri uplo diag i j →
      entry a.data ra i j = entry a'.data ra' i j) :
    ∃ b' : FA F, dtrmm side uplo transa diag m n alpha a lda b ldb = pure (a, b') ∧
      (∃ b'' : FA F, dtrmm side uplo transa diag m n alpha a' lda b ldb = pure (a', b'') ∧
        b''.data = b'.data) ∧
      b'.rows = b.rows ∧ b'.cols = b.cols ∧ b'.data.length = b.data.length ∧
      ∀ p, ¬ InBlock rb m n p → b'.data[p]? = b.data[p]? := by
  by_cases hq : m = 0 ∨ n = 0
  · have e := fun a => C27_empty (F := F) (A := FA F) (B := FA F) h1 h2 h3 h4 hla hlb hq alpha a b
    exact ⟨b, e a, ⟨b, e a', rfl⟩, rfl, rfl, rfl, fun _ _ => rfl⟩
  · cases h0 : (alpha =ᶠ zero) with
    | true =>
      obtain ⟨b', e, r, c, u⟩ := C27_alpha_zero h1 h2 h3 h4 hla hlb alpha h0 b rb hb sb
      exact ⟨b', e a, ⟨b', e a', rfl⟩, r, c, u.length, u.frame⟩
    | false =>
      obtain ⟨b', e, r, c, u⟩ := dtrmmFA_ok h1 h2 h3 h4 hla hlb (by omega) (by omega) alpha h0 a b
        ra rb ha hb sa sb
      obtain ⟨b'', e', _, _, u'⟩ := dtrmmFA_ok h1 h2 h3 h4 hla hlb (by omega) (by omega) alpha h0 a' b
        ra' rb ha' hb sa' sb
      refine ⟨b', ?_, ⟨b'', ?_, ?_⟩, r, c, u.length, u.frame⟩
      · unfold dtrmm
        show (dtrmmFA side uplo transa diag m n alpha a lda b ldb >>= _) = _
        rw [e]; rfl
      · unfold dtrmm
        show (dtrmmFA side uplo transa diag m n alpha a' lda b ldb >>= _) = _
        rw [e']; rfl
      · refine updated_unique u' u (fun i hi j hj => ?_) (fun _ _ => rfl)
        have ht := triEq_of_entries heq
        refine (trmmVal_congr ?_ (by omega) (by omega) (by omega) (by omega)).symm
        unfold triOrder at ht
        cases h : isLeft side <;> simpa [h] using ht

/-- Two 2-by-2 matrices that differ in every entry `dtrmm('L', 'U', _, 'U')` must not read. -/
example (x y z : F) : Stored [x, y, z, x] 2 (triOrder 'L' 2 1) (triOrder 'L' 2 1) ∧
    ∀ i < triOrder 'L' 2 1, ∀ j < triOrder 'L' 2 1, InTri 'U' 'U' i j →
      entry [x, y, z, x] 2 i j = entry [y, x, z, y] 2 i j := by
  refine ⟨⟨by decide, by decide, by decide, by simp, ?_⟩, ?_⟩
  · intro i hi j hj
    simp [triOrder, isLeft] at hi hj
    simp; omega
  · intro i hi j hj hij
    simp [triOrder, isLeft] at hi hj
    simp [InTri, isUpper, isUnit] at hij
    have : i = 0 ∧ j = 1 := by omega
    obtain ⟨rfl, rfl⟩ := this
    rfl

end Verif

import Verif.Lib.NoExit
import Verif.Props.Gemm

/-!
# Argument checks of `dgemm` (C22)
-/

set_option linter.unusedSectionVars false

namespace Verif
open Scalar Spec

variable {F : Type} [Scalar F]

instance (t : Char) : Decidable (TransFlag t) := inferInstanceAs (Decidable (_ ∈ _))

/-- The number of the first illegal argument of `dgemm`, if any. -/
def gemmIllegal (ta tb : Char) (m n k lda ldb ldc : Int) : Option Int :=
  if ¬ TransFlag ta then some 1
  else if ¬ TransFlag tb then some 2
  else if m < 0 then some 3
  else if n < 0 then some 4
  else if k < 0 then some 5
  else if lda < 1 ∨ lda < (if noTrans ta then m else k) then some 8
  else if ldb < 1 ∨ ldb < (if noTrans tb then k else n) then some 10
  else if ldc < 1 ∨ ldc < m then some 13
  else none

/-- Flags below U+0100 are recognised exactly when legal. -/
theorem lsame_latin (t : Char) (ht : t.toNat < 256) :
    (lsame t 'N' = true ↔ t = 'N' ∨ t = 'n') ∧ (lsame t 'C' = true ↔ t = 'C' ∨ t = 'c') ∧
      (lsame t 'T' = true ↔ t = 'T' ∨ t = 't') := by
  have key : ∀ c d : Char, t = c ↔ t.toNat = c.toNat := by
    intro c _
    constructor
    · intro h; rw [h]
    · intro h; exact Char.toNat_inj.1 h
  have hN : ('N' : Char).toNat = 78 := rfl
  simp only [key _ 'a']
  unfold lsame charU8 u8Alpha u8Lower
  rw [Nat.mod_eq_of_lt ht]
  generalize t.toNat = x at *
  simp only [show ('N' : Char).toNat = 78 from rfl, show ('n' : Char).toNat = 110 from rfl,
    show ('C' : Char).toNat = 67 from rfl, show ('c' : Char).toNat = 99 from rfl,
    show ('T' : Char).toNat = 84 from rfl, show ('t' : Char).toNat = 116 from rfl,
    Bool.or_eq_true, Bool.and_eq_true, beq_iff_eq, decide_eq_true_eq, Nat.reduceMod]
  refine ⟨?_, ?_, ?_⟩ <;> split <;> simp <;> omega

theorem transFlag_iff (t : Char) (ht : t.toNat < 256) :
    TransFlag t ↔ lsame t 'N' = true ∨ lsame t 'C' = true ∨ lsame t 'T' = true := by
  obtain ⟨h1, h2, h3⟩ := lsame_latin t ht
  rw [h1, h2, h3]
  unfold TransFlag
  simp only [List.mem_cons, List.not_mem_nil, or_false]
  tauto

theorem dgemmInfo_eq (ta tb : Char) (hta : ta.toNat < 256) (htb : tb.toNat < 256)
    (m n k lda ldb ldc : Int) :
    dgemmInfo ta tb m n k lda ldb ldc = (gemmIllegal ta tb m n k lda ldb ldc).getD 0 := by
  unfold dgemmInfo gemmIllegal
  have f1 := transFlag_iff ta hta
  have f2 := transFlag_iff tb htb
  by_cases ha : TransFlag ta
  · have e1 := lsame_N ha
    have g1 := lsame_flag ha
    by_cases hb : TransFlag tb
    · have e2 := lsame_N hb
      have g2 := lsame_flag hb
      have c1 : (!noTrans ta && !lsame ta 'C' && !lsame ta 'T') = false := by
        rw [e1] at g1; revert g1
        cases noTrans ta <;> cases lsame ta 'C' <;> cases lsame ta 'T' <;> simp
      have c2 : (!noTrans tb && !lsame tb 'C' && !lsame tb 'T') = false := by
        rw [e2] at g2; revert g2
        cases noTrans tb <;> cases lsame tb 'C' <;> cases lsame tb 'T' <;> simp
      simp only [e1, e2, c1, c2, ha, hb, not_true_eq_false, if_false, Bool.false_eq_true]
      have k1 : ∀ x y : Int, x < max 1 y ↔ (x < 1 ∨ x < y) := by intro x y; omega
      simp only [k1]
      split_ifs <;> rfl
    · have c1 : (!lsame ta 'N' && !lsame ta 'C' && !lsame ta 'T') = false := by
        revert g1
        cases lsame ta 'N' <;> cases lsame ta 'C' <;> cases lsame ta 'T' <;> simp
      have c2 : (!lsame tb 'N' && !lsame tb 'C' && !lsame tb 'T') = true := by
        rw [f2] at hb; revert hb
        cases lsame tb 'N' <;> cases lsame tb 'C' <;> cases lsame tb 'T' <;> simp
      simp only [c1, c2, ha, hb, not_true_eq_false, not_false_eq_true, if_false, if_true,
        Bool.false_eq_true]
      rfl
  · have c1 : (!lsame ta 'N' && !lsame ta 'C' && !lsame ta 'T') = true := by
      rw [f1] at ha; revert ha
      cases lsame ta 'N' <;> cases lsame ta 'C' <;> cases lsame ta 'T' <;> simp
    simp only [c1, ha, not_false_eq_true, if_true]
    rfl

theorem gemmIllegal_pos {ta tb : Char} {m n k lda ldb ldc p : Int}
    (h : gemmIllegal ta tb m n k lda ldb ldc = some p) : p ≠ 0 := by
  unfold gemmIllegal at h
  split_ifs at h <;> simp at h <;> omega

theorem dgemmFA_illegal {ta tb : Char} (hta : ta.toNat < 256) (htb : tb.toNat < 256)
    {m n k lda ldb ldc p : Int} (h : gemmIllegal ta tb m n k lda ldb ldc = some p)
    (alpha beta : F) (a b c : FA F) :
    dgemmFA ta tb m n k alpha a lda b ldb beta c ldc = R.exit "DGEMM " p := by
  unfold dgemmFA
  rw [dgemmInfo_eq ta tb hta htb, h]
  exact if_pos (gemmIllegal_pos h)

/-- **C22 (arrays).** An illegal argument ends the process through `xerbla("DGEMM ", p)`, `p` being
the number of the first illegal argument. -/
theorem C22_dgemm_illegal {ta tb : Char} (hta : ta.toNat < 256) (htb : tb.toNat < 256)
    {m n k lda ldb ldc p : Int} (h : gemmIllegal ta tb m n k lda ldb ldc = some p)
    (alpha beta : F) (a b c : FA F) :
    (dgemm ta tb m n k alpha a lda b ldb beta c ldc : R (FA F)) = R.exit "DGEMM " p := by
  unfold dgemm
  show (dgemmFA ta tb m n k alpha a lda b ldb beta c ldc >>= _) = _
  rw [dgemmFA_illegal hta htb h]; rfl

/-- The same for nested vectors. -/
theorem C22_dgemm_illegal_nested {ta tb : Char} (hta : ta.toNat < 256) (htb : tb.toNat < 256)
    {m n k lda ldb ldc p : Int} (h : gemmIllegal ta tb m n k lda ldb ldc = some p)
    (alpha beta : F) (a b c : List (List F)) :
    (dgemm ta tb m n k alpha a lda b ldb beta c ldc : R (List (List F))) = R.exit "DGEMM " p := by
  unfold dgemm
  show (dgemmFA ta tb m n k alpha (faOfVecVec a) lda (faOfVecVec b) ldb beta (faOfVecVec c) ldc
    >>= _) = _
  rw [dgemmFA_illegal hta htb h]; rfl

theorem as2d_ok {v : List F} (hv : v.length < 2 ^ 31) {ld : Int} (h0 : ld ≠ 0) :
    ∃ a : FA F, (faOfVec v).as2d ld = pure a := by
  unfold FA.as2d
  rw [if_neg h0]
  have hv' : (v.length : Int) < 2147483648 := by exact_mod_cast hv
  have hw : wrap32 (faOfVec v).data.length = v.length :=
    wrap32_of_fits (by unfold FitsI32; simp only [faOfVec]; omega)
  have h1 : ((v.length : Int).tdiv ld).natAbs ≤ v.length := by
    rw [Int.natAbs_tdiv]; exact Nat.div_le_self _ _
  rw [hw, chk_ok (by unfold FitsI32; omega)]
  exact ⟨_, rfl⟩

/-- **C22 (flat vectors).** The same, as long as no leading dimension is 0. -/
theorem C22_dgemm_illegal_flat {ta tb : Char} (hta : ta.toNat < 256) (htb : tb.toNat < 256)
    {m n k lda ldb ldc p : Int} (h : gemmIllegal ta tb m n k lda ldb ldc = some p)
    (h1 : lda ≠ 0) (h2 : ldb ≠ 0) (h3 : ldc ≠ 0)
    (alpha beta : F) (a b c : List F) (la : a.length < 2 ^ 31) (lb : b.length < 2 ^ 31)
    (lc : c.length < 2 ^ 31) :
    (dgemm ta tb m n k alpha a lda b ldb beta c ldc : R (List F)) = R.exit "DGEMM " p := by
  obtain ⟨fa, ea⟩ := as2d_ok la h1
  obtain ⟨fb, eb⟩ := as2d_ok lb h2
  obtain ⟨fc, ec⟩ := as2d_ok lc h3
  unfold dgemm
  show ((faOfVec a).as2d lda >>= fun a_f => (faOfVec b).as2d ldb >>= fun b_f =>
    (faOfVec c).as2d ldc >>= fun c_f => _) = _
  rw [ea, eb, ec]
  simp only [pure_bind]
  rw [dgemmFA_illegal hta htb h]; rfl

/-- **C22 (flat vectors), finding.** A leading dimension `lda = 0` is not reported: the conversion of
the argument panics with a division by zero before any check. -/
theorem C22_dgemm_zero_ld (ta tb : Char) (m n k ldb ldc : Int) (alpha beta : F) (a b c : List F) :
    (dgemm ta tb m n k alpha a 0 b ldb beta c ldc : R (List F)) = R.panic .divZero := rfl

/-- **C22, legal arguments.** If every argument is legal, `dgemm` never ends the process, whatever
the container kinds, the data and the lengths. -/
theorem C22_dgemm_legal {A B C : Type} [ToFA F A] [ToFA F B] [ToFA F C] [FromFA F C]
    [Container F A] [Container F B] [Container F C] [Sink F C]
    {ta tb : Char} (hta : ta.toNat < 256) (htb : tb.toNat < 256)
    {m n k lda ldb ldc : Int} (h : gemmIllegal ta tb m n k lda ldb ldc = none)
    (alpha beta : F) (a : A) (b : B) (c : C) :
    NoExit (dgemm ta tb m n k alpha a lda b ldb beta c ldc) := by
  have hz : ∀ c : FA F, NoExit (forUp 1 n c (zeroCol m)) := fun c =>
    .forUp (fun c j => .forUp (fun c i => .set2 _ _ _ _) _ _ _) _ _ _
  have hs : ∀ c : FA F, NoExit (forUp 1 n c (scaleCol m beta)) := fun c =>
    .forUp (fun c j => .forUp (fun c i => .modify2 _ _ _ _) _ _ _) _ _ _
  have hn : ∀ tb (a b c : FA F), NoExit (gemmNotA tb m n k alpha a b beta c) := by
    intro tb a b c
    refine .forUp (fun c j => .bind ?_ fun c => .forUp (fun c l => ?_) _ _ _) _ _ _
    · exact .ite (.forUp (fun c i => .set2 _ _ _ _) _ _ _)
        (.ite (.forUp (fun c i => .modify2 _ _ _ _) _ _ _) (.pure _))
    · unfold gemmAxpy
      exact .ite
        (.bind (.get2 _ _ _) fun _ => .forUp (fun _ _ => .bind (.get2 _ _ _) fun _ => .modify2 _ _ _ _) _ _ _)
        (.bind (.get2 _ _ _) fun _ => .forUp (fun _ _ => .bind (.get2 _ _ _) fun _ => .modify2 _ _ _ _) _ _ _)
  have ht : ∀ tb (a b c : FA F), NoExit (gemmTransA tb m n k alpha a b beta c) := by
    intro tb a b c
    refine .forUp (fun c j => .forUp (fun c i => .bind ?_ fun t => ?_) _ _ _) _ _ _
    · refine .forUp (fun t l => .bind (.get2 _ _ _) fun _ => ?_) _ _ _
      exact .ite (.bind (.get2 _ _ _) fun _ => .pure _) (.bind (.get2 _ _ _) fun _ => .pure _)
    · exact .ite (.set2 _ _ _ _) (.bind (.get2 _ _ _) fun _ => .set2 _ _ _ _)
  unfold dgemm
  refine .bind (Container.noExit _ _) fun fa => .bind (Container.noExit _ _) fun fb =>
    .bind (Container.noExit _ _) fun fc => .bind ?_ fun o => ?_
  · unfold dgemmFA
    rw [dgemmInfo_eq ta tb hta htb, h, if_neg (by simp)]
    refine .ite (.pure _) (.ite (.ite ?_ ?_) (.ite (.ite ?_ ?_) (.ite ?_ ?_)))
    · exact .bind (hz _) fun _ => .pure _
    · exact .bind (hs _) fun _ => .pure _
    · exact .bind (hn _ _ _ _) fun _ => .pure _
    · exact .bind (ht _ _ _ _) fun _ => .pure _
    · exact .bind (hn _ _ _ _) fun _ => .pure _
    · exact .bind (ht _ _ _ _) fun _ => .pure _
  · cases o
    · exact .pure _
    · exact Sink.noExit _

/-- Concrete cases: several illegal arguments at once, and a legal list. -/
example : gemmIllegal 'N' 'x' (-1) 2 3 2 3 0 = some 2 ∧ gemmIllegal 'T' 'n' 2 2 3 2 3 2 = some 8 ∧
    gemmIllegal 'T' 'n' 2 2 3 3 3 2 = none := by decide

end Verif

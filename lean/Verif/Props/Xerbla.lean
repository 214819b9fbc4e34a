import Verif.Model.Xerbla
import Verif.Props.GemmArgs
import Verif.Props.Trmm

/-!
# What a rejected call prints (C92)
-/

namespace Verif
open Scalar Spec

variable {F : Type} [Scalar F]

/-! ### The text determines routine and parameter -/

theorem digits_inj {m n : Nat} (h : Nat.toDigits 10 m = Nat.toDigits 10 n) : m = n := by
  rw [← Nat.ofDigitChars_ten_toDigits (n := m), h, Nat.ofDigitChars_ten_toDigits]

theorem digits_isDigit {n : Nat} {c : Char} (h : c ∈ Nat.toDigits 10 n) : c.isDigit = true :=
  Nat.isDigit_of_mem_toDigits (by norm_num) (by norm_num) h

theorem decimal_toList (i : Int) : (toString i).toList = if 0 ≤ i then Nat.toDigits 10 i.toNat else '-' :: Nat.toDigits 10 (-i).toNat := by
  rw [Int.toString_eq_repr, Int.repr_eq_if]
  split
  · rw [Nat.toList_repr]
  · rw [String.toList_append, Nat.toList_repr]
    rfl

theorem decimal_inj {i j : Int} (h : (toString i).toList = (toString j).toList) : i = j := by
  rw [decimal_toList, decimal_toList] at h
  have key : ∀ m n : Nat, Nat.toDigits 10 m ≠ '-' :: Nat.toDigits 10 n := fun m n e => by
    have := digits_isDigit (n := m) (c := '-') (by rw [e]; exact List.mem_cons_self)
    exact absurd this (by decide)
  split at h <;> split at h
  · have := digits_inj h
    omega
  · exact absurd h (key _ _)
  · exact absurd h.symm (key _ _)
  · have := digits_inj (List.cons.inj h).2
    omega

theorem decimal_no_space (i : Int) : ' ' ∉ (toString i).toList := by
  rw [decimal_toList]
  split
  · intro h
    exact absurd (digits_isDigit h) (by decide)
  · intro h
    rcases List.mem_cons.1 h with h | h
    · exact absurd h (by decide)
    · exact absurd (digits_isDigit h) (by decide)

/-- The part after the last space can be told from the rest. -/
theorem lastWord_inj {a a' d d' : List Char} (h : ' ' ∉ d) (h' : ' ' ∉ d') (e : a ++ ' ' :: d = a' ++ ' ' :: d') : a = a' ∧ d = d' := by
  rcases List.append_eq_append_iff.1 e with ⟨b, e1, e2⟩ | ⟨b, e1, e2⟩
  · cases b with
    | nil => simp only [List.nil_append, List.cons.injEq, true_and] at e2; exact ⟨by rw [e1, List.append_nil], e2⟩
    | cons x b =>
      simp only [List.cons_append, List.cons.injEq] at e2
      exact absurd (by rw [e2.2]; simp) h
  · cases b with
    | nil => simp only [List.nil_append, List.cons.injEq, true_and] at e2; exact ⟨by rw [e1, List.append_nil], e2.symm⟩
    | cons x b =>
      simp only [List.cons_append, List.cons.injEq] at e2
      exact absurd (by rw [e2.2]; simp) h'

/-- **C92, the text.** Two calls of `xerbla` that print the same text were given the same routine name and the same parameter number, whatever these are. -/
theorem C92_text_injective (s s' : String) (i i' : Int) (h : xerblaText s i = xerblaText s' i') : s = s' ∧ i = i' := by
  unfold xerblaText at h
  rw [String.append_left_inj] at h
  have e := congrArg String.toList h
  simp only [String.toList_append] at e
  have t : (" parameter number " : String).toList = " parameter number".toList ++ [' '] := rfl
  rw [t] at e
  simp only [List.append_assoc, List.singleton_append] at e
  have e2 := List.append_cancel_left e
  rw [← List.append_assoc, ← List.append_assoc] at e2
  obtain ⟨e3, e4⟩ := lastWord_inj (decimal_no_space i) (decimal_no_space i') e2
  exact ⟨String.toList_inj.1 (List.append_cancel_right e3), decimal_inj e4⟩

/-! ### The calls -/

theorem ended_exit {α : Type} {x : R α} {s : String} {i : Int} (h : x = R.exit s i) (pr : Profile) : (x pr).ended = some (xerblaText s i, 1) := by
  rw [h]; rfl

theorem ended_none {α : Type} {x : R α} (h : NoExit x) (pr : Profile) : (x pr).ended = none := by
  cases e : x pr with
  | exit s i => exact absurd e (h pr s i)
  | _ => rfl

/-- **C92, `dgemm`.** An illegal argument of `dgemm` makes the program print one line with the number of the first illegal argument, and end with exit status 1. -/
theorem C92_dgemm_message {ta tb : Char} (hta : ta.toNat < 256) (htb : tb.toNat < 256) {m n k lda ldb ldc p : Int}
    (h : gemmIllegal ta tb m n k lda ldb ldc = some p) (alpha beta : F) (a b c : FA F) (pr : Profile) :
    (dgemm ta tb m n k alpha a lda b ldb beta c ldc pr).ended =
      some ("** On entry to DGEMM  parameter number " ++ toString p ++ " had an illegal value\n", 1) :=
  ended_exit (C22_dgemm_illegal hta htb h alpha beta a b c) pr

/-- The same for nested vectors. -/
theorem C92_dgemm_message_nested {ta tb : Char} (hta : ta.toNat < 256) (htb : tb.toNat < 256) {m n k lda ldb ldc p : Int}
    (h : gemmIllegal ta tb m n k lda ldb ldc = some p) (alpha beta : F) (a b c : List (List F)) (pr : Profile) :
    (dgemm ta tb m n k alpha a lda b ldb beta c ldc pr).ended =
      some ("** On entry to DGEMM  parameter number " ++ toString p ++ " had an illegal value\n", 1) :=
  ended_exit (C22_dgemm_illegal_nested hta htb h alpha beta a b c) pr

/-- The same for flat vectors, as long as no leading dimension is 0. -/
theorem C92_dgemm_message_flat {ta tb : Char} (hta : ta.toNat < 256) (htb : tb.toNat < 256) {m n k lda ldb ldc p : Int}
    (h : gemmIllegal ta tb m n k lda ldb ldc = some p) (h1 : lda ≠ 0) (h2 : ldb ≠ 0) (h3 : ldc ≠ 0)
    (alpha beta : F) (a b c : List F) (la : a.length < 2 ^ 31) (lb : b.length < 2 ^ 31) (lc : c.length < 2 ^ 31) (pr : Profile) :
    (dgemm ta tb m n k alpha a lda b ldb beta c ldc pr).ended =
      some ("** On entry to DGEMM  parameter number " ++ toString p ++ " had an illegal value\n", 1) :=
  ended_exit (C22_dgemm_illegal_flat hta htb h h1 h2 h3 alpha beta a b c la lb lc) pr

/-- **C92, `dgemm` with legal arguments** prints nothing and does not end the program. -/
theorem C92_dgemm_silent {A B C : Type} [ToFA F A] [ToFA F B] [ToFA F C] [FromFA F C] [Container F A] [Container F B] [Container F C] [Sink F C]
    {ta tb : Char} (hta : ta.toNat < 256) (htb : tb.toNat < 256) {m n k lda ldb ldc : Int} (h : gemmIllegal ta tb m n k lda ldb ldc = none)
    (alpha beta : F) (a : A) (b : B) (c : C) (pr : Profile) : (dgemm ta tb m n k alpha a lda b ldb beta c ldc pr).ended = none :=
  ended_none (C22_dgemm_legal hta htb h alpha beta a b c) pr

/-- **C92, `dtrmm`.** An illegal argument of `dtrmm` makes the program print one line with the number of the first illegal argument, and end with exit status 1. -/
theorem C92_dtrmm_message {A B : Type} [ToFA F A] [FromFA F A] [ToFA F B] [FromFA F B] {side uplo transa diag : Char} (h1 : side.toNat < 256)
    (h2 : uplo.toNat < 256) (h3 : transa.toNat < 256) (h4 : diag.toNat < 256) {m n lda ldb p : Int}
    (h : trmmIllegal side uplo transa diag m n lda ldb = some p) (alpha : F) (a : A) (b : B) (pr : Profile) :
    (dtrmm side uplo transa diag m n alpha a lda b ldb pr).ended =
      some ("** On entry to DTRMM  parameter number " ++ toString p ++ " had an illegal value\n", 1) :=
  ended_exit (C27_dtrmm_illegal h1 h2 h3 h4 h alpha a b) pr

/-- **C92, `dtrmm` with legal arguments** prints nothing and does not end the program. -/
theorem C92_dtrmm_silent {A B : Type} [ToFA F A] [FromFA F A] [ToFA F B] [FromFA F B] [Sink F A] [Sink F B] {side uplo transa diag : Char} (h1 : side.toNat < 256)
    (h2 : uplo.toNat < 256) (h3 : transa.toNat < 256) (h4 : diag.toNat < 256) {m n lda ldb : Int}
    (h : trmmIllegal side uplo transa diag m n lda ldb = none) (alpha : F) (a : A) (b : B) (pr : Profile) :
    (dtrmm side uplo transa diag m n alpha a lda b ldb pr).ended = none :=
  ended_none (C27_dtrmm_legal h1 h2 h3 h4 h alpha a b) pr

/-- `dgemm` with `m = -1` and `lda = 0`: the message names `m`, the first of the two. -/
theorem C92_example (x : F) (a : FA F) (pr : Profile) :
    (dgemm 'N' 'T' (-1) 2 2 x a 0 a 2 x a 2 pr).ended = some ("** On entry to DGEMM  parameter number 3 had an illegal value\n", 1) :=
  C92_dgemm_message (p := 3) (by decide) (by decide) (by decide) x x a a a pr

end Verif

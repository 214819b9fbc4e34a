import Verif.Props.TrmmF64

/-!
# C23, C25, C26, C64: `dgemm` and `dtrmm` with nested vectors

`dtrmm` converts its arguments on entry and on exit.  For square nested vectors this is lossless (C06), so
what is shown for arrays carries over: `dtrmm_nested` is the bridge.
-/

namespace Verif

open Scalar Spec XR F64

variable {F : Type} [Scalar F]

/-- What `dtrmm` does to a pair of arrays it does to the square nested vectors they came from. -/
theorem dtrmm_nested {side uplo transa diag : Char} {m n lda ldb : Int} {alpha : F} {a b : List (List F)} {ra rb : Nat}
    (ha : Rect a ra ra) (hra : ra < 2 ^ 31) (hb : Rect b rb rb) (hrb : 0 < rb) (hrb' : rb < 2 ^ 31) {b' : FA F}
    (h : dtrmm side uplo transa diag m n alpha (faOfVecVec a) lda (faOfVecVec b) ldb = pure (faOfVecVec a, b'))
    (hr : b'.rows = (faOfVecVec b).rows) (hc : b'.cols = (faOfVecVec b).cols)
    (hl : b'.data.length = (faOfVecVec b).data.length) :
    ∃ w, dtrmm side uplo transa diag m n alpha a lda b ldb = pure (a, w) ∧ Rect w rb rb ∧ w.flatten = b'.data := by
  obtain ⟨b1, b2, b3⟩ := faOfVecVec_shape hb hrb hrb' hrb'
  have hlen : b'.data.length = rb * rb := by rw [hl, b3, flatten_length hb]
  obtain ⟨w, f1, f2, f3⟩ := vecVecOfFa_ok b' rb rb hrb hrb' hrb' (hr.trans b1) (hc.trans b2) hlen.le
  rw [hlen, Nat.sub_self, List.replicate_zero, List.append_nil] at f3
  refine ⟨w, ?_, f2, f3⟩
  have fa : (vecVecOfFa (faOfVecVec a) : R (List (List F))) = pure a := C06_roundtrip_square a ra hra ha
  funext p
  have hp := congrFun h p
  unfold dtrmm at hp ⊢
  change (dtrmmFA side uplo transa diag m n alpha (faOfVecVec a) lda (faOfVecVec b) ldb >>= _) p = _ at hp
  change (dtrmmFA side uplo transa diag m n alpha (faOfVecVec a) lda (faOfVecVec b) ldb >>= _) p = _
  generalize dtrmmFA side uplo transa diag m n alpha (faOfVecVec a) lda (faOfVecVec b) ldb = x at hp ⊢
  rw [R.bind_apply] at hp ⊢
  cases hx : x p with
  | ok o =>
    rw [hx] at hp
    cases o with
    | nothing =>
      have e : (Res.ok (faOfVecVec a, faOfVecVec b) : Res (FA F × FA F)) = Res.ok (faOfVecVec a, b') := hp
      have e := (Prod.mk.inj (Res.ok.inj e)).2
      subst e
      show Res.ok (a, b) = Res.ok (a, w)
      rw [rect_ext hb f2 (by rw [f3]; exact b3.symm)]
    | onlyB b2 =>
      have e : (Res.ok (faOfVecVec a, b2) : Res (FA F × FA F)) = Res.ok (faOfVecVec a, b') := hp
      have e := (Prod.mk.inj (Res.ok.inj e)).2
      subst e
      show (vecVecOfFa b2 >>= fun b => pure (a, b)) p = _
      rw [f1]; rfl
    | both a2 b2 =>
      have e : (Res.ok (a2, b2) : Res (FA F × FA F)) = Res.ok (faOfVecVec a, b') := hp
      obtain ⟨e0, e⟩ := Prod.mk.inj (Res.ok.inj e)
      subst e; subst e0
      show (vecVecOfFa (faOfVecVec a) >>= fun a => vecVecOfFa b2 >>= fun b => pure (a, b)) p = _
      rw [fa, f1]; rfl
  | panic c => rw [hx] at hp; cases hp
  | exit c d => rw [hx] at hp; cases hp
  | timeout => rw [hx] at hp; cases hp

/-- **C26 (square nested vectors).** Whatever the scalar arithmetic: `dtrmm` returns normally, returns `A`
unchanged, changes `B` only inside the `m`-by-`n` block, and two matrices `A`, `A'` that agree on the
designated triangle give the same `B`. -/
theorem C26_dtrmm_nested {side uplo transa diag : Char} (h1 : SideFlag side) (h2 : UploFlag uplo)
    (h3 : TransFlag transa) (h4 : DiagFlag diag) {m n : Nat} {lda ldb : Int}
    (hla : max 1 (if isLeft side then (m : Int) else n) ≤ lda) (hlb : max 1 (m : Int) ≤ ldb)
    (alpha : F) (a a' b : List (List F)) (ra ra' rb : Nat) (ha : Rect a ra ra) (ha' : Rect a' ra' ra')
    (hb : Rect b rb rb)
    (sa : Stored a.flatten ra (triOrder side m n) (triOrder side m n))
    (sa' : Stored a'.flatten ra' (triOrder side m n) (triOrder side m n))
    (sb : Stored b.flatten rb m n)
    (heq : ∀ i < triOrder side m n, ∀ j < triOrder side m n, InTri uplo diag i j →
      entry a.flatten ra i j = entry a'.flatten ra' i j) :
    ∃ b', dtrmm side uplo transa diag m n alpha a lda b ldb = pure (a, b') ∧
      dtrmm side uplo transa diag m n alpha a' lda b ldb = pure (a', b') ∧ Rect b' rb rb ∧
      ∀ p, ¬ InBlock rb m n p → b'.flatten[p]? = b.flatten[p]? := by
  obtain ⟨x1, x2, x3⟩ := faOfVecVec_shape ha sa.pos sa.ldSmall sa.ldSmall
  obtain ⟨y1, y2, y3⟩ := faOfVecVec_shape ha' sa'.pos sa'.ldSmall sa'.ldSmall
  obtain ⟨z1, z2, z3⟩ := faOfVecVec_shape hb sb.pos sb.ldSmall sb.ldSmall
  have ta := sa; have ta' := sa'; have tb := sb
  rw [← x3] at ta; rw [← y3] at ta'; rw [← z3] at tb
  obtain ⟨d, e, ⟨d', e', hd⟩, hr, hc, hl, hf⟩ := C26_dtrmm h1 h2 h3 h4 hla hlb alpha (faOfVecVec a) (faOfVecVec a')
    (faOfVecVec b) ra ra' rb x1 y1 z1 ta ta' tb (by rw [x3, y3]; exact heq)
  obtain ⟨w, q1, q2, q3⟩ := dtrmm_nested ha sa.ldSmall hb sb.pos sb.ldSmall e hr hc hl
  obtain ⟨d2, e2, ⟨_, -, -⟩, hr2, hc2, hl2, -⟩ := C26_dtrmm h1 h2 h3 h4 hla hlb alpha (faOfVecVec a') (faOfVecVec a')
    (faOfVecVec b) ra' ra' rb y1 y1 z1 ta' ta' tb (fun _ _ _ _ _ => rfl)
  have hdd : d2 = d' := (Prod.mk.inj (Res.ok.inj (congrFun (e2.symm.trans e') .debug))).2
  subst hdd
  obtain ⟨w', r1, r2, r3⟩ := dtrmm_nested ha' sa'.ldSmall hb sb.pos sb.ldSmall e2 hr2 hc2 hl2
  have hw : w' = w := rect_ext r2 q2 (by rw [r3, q3, hd])
  refine ⟨w, q1, hw ▸ r1, q2, ?_⟩
  intro p hp
  rw [q3, ← z3]; exact hf p hp

/-- **C25 (square nested vectors).** In exact arithmetic `dtrmm` overwrites the `m`-by-`n` block of `B` by
`alpha*op(T)*B` (side left) or `alpha*B*op(T)` (side right), `T` being the triangular matrix
designated by `uplo` and `diag` in `A`.  The inner vectors are the columns. -/
theorem C25_dtrmm_nested {side uplo transa diag : Char} (h1 : SideFlag side) (h2 : UploFlag uplo)
    (h3 : TransFlag transa) (h4 : DiagFlag diag) {m n : Nat} {lda ldb : Int}
    (hla : max 1 (if isLeft side then (m : Int) else n) ≤ lda) (hlb : max 1 (m : Int) ≤ ldb)
    (alpha : ℝ) (A B : List ℝ) (a b : List (List XR)) (ra rb : Nat) (ha : Rect a ra ra) (hb : Rect b rb rb)
    (hA : a.flatten = A.map fin) (hB : b.flatten = B.map fin)
    (sa : Stored a.flatten ra (triOrder side m n) (triOrder side m n))
    (sb : Stored b.flatten rb m n) :
    ∃ (b' : List (List XR)) (B' : List ℝ),
      dtrmm side uplo transa diag m n (fin alpha) a lda b ldb = pure (a, b') ∧ Rect b' rb rb ∧
      b'.flatten = B'.map fin ∧ B'.length = B.length ∧
      (∀ i < m, ∀ j < n, B'[i + j * rb]? = some (alpha * (if isLeft side then
        ∑ l ∈ Finset.range m, opR transa (tri uplo diag (mat A ra)) i l * mat B rb l j
        else ∑ l ∈ Finset.range n, mat B rb i l * opR transa (tri uplo diag (mat A ra)) l j))) ∧
      (∀ p, ¬ InBlock rb m n p → B'[p]? = B[p]?) := by
  obtain ⟨x1, x2, x3⟩ := faOfVecVec_shape ha sa.pos sa.ldSmall sa.ldSmall
  obtain ⟨z1, z2, z3⟩ := faOfVecVec_shape hb sb.pos sb.ldSmall sb.ldSmall
  have ta := sa; have tb := sb
  rw [← x3] at ta; rw [← z3] at tb
  obtain ⟨d, B', e, hr, hc, hd, hl, he, hf⟩ := C25_dtrmm h1 h2 h3 h4 hla hlb alpha A B (faOfVecVec a)
    (faOfVecVec b) ra rb x1 z1 (x3.trans hA) (z3.trans hB) ta tb
  obtain ⟨w, q1, q2, q3⟩ := dtrmm_nested ha sa.ldSmall hb sb.pos sb.ldSmall e hr hc
    (by rw [hd, z3, hB, List.length_map, List.length_map, hl])
  exact ⟨w, B', q1, q2, q3.trans hd, hl, he, hf⟩

/-- **C64 (square nested vectors).** The rounding errors of `dtrmm` on `f64`. -/
theorem C64_dtrmm_f64_nested {side uplo transa diag : Char} (h1 : SideFlag side) (h2 : UploFlag uplo)
    (h3 : TransFlag transa) (h4 : DiagFlag diag) {m n : Nat} {lda ldb : Int}
    (hla : max 1 (if isLeft side then (m : Int) else n) ≤ lda) (hlb : max 1 (m : Int) ≤ ldb)
    (alpha : Float) (a b : List (List Float)) (ra rb : Nat) (ha : Rect a ra ra) (hb : Rect b rb rb)
    (sa : Stored a.flatten ra (triOrder side m n) (triOrder side m n))
    (sb : Stored b.flatten rb m n) :
    ∃ b', dtrmm side uplo transa diag m n alpha a lda b ldb = pure (a, b') ∧ Rect b' rb rb ∧
      (∀ i < m, ∀ j < n, ∃ w, b'.flatten[i + j * rb]? = some w ∧
        TrmmAccurate (if isLeft side then m else n) alpha
          (fun l => if isLeft side then opR transa (tri uplo diag (fun i j => toR (entry a.flatten ra i j))) i l
            else opR transa (tri uplo diag (fun i j => toR (entry a.flatten ra i j))) l j)
          (fun l => if isLeft side then toR (entry b.flatten rb l j) else toR (entry b.flatten rb i l))
          ((∀ i < triOrder side m n, ∀ j < triOrder side m n, InTri uplo diag i j → (entry a.flatten ra i j).isFinite = true) ∧
            ∀ i < m, ∀ j < n, (entry b.flatten rb i j).isFinite = true) w) ∧
      (∀ p, ¬ InBlock rb m n p → b'.flatten[p]? = b.flatten[p]?) := by
  obtain ⟨x1, x2, x3⟩ := faOfVecVec_shape ha sa.pos sa.ldSmall sa.ldSmall
  obtain ⟨z1, z2, z3⟩ := faOfVecVec_shape hb sb.pos sb.ldSmall sb.ldSmall
  have ta := sa; have tb := sb
  rw [← x3] at ta; rw [← z3] at tb
  obtain ⟨d, e, hr, hc, hl, he, hf⟩ := C64_dtrmm_f64 h1 h2 h3 h4 hla hlb alpha (faOfVecVec a)
    (faOfVecVec b) ra rb x1 z1 ta tb
  obtain ⟨w, q1, q2, q3⟩ := dtrmm_nested ha sa.ldSmall hb sb.pos sb.ldSmall e hr hc hl
  rw [← q3, z3] at hf
  rw [← q3, z3, x3] at he
  exact ⟨w, q1, q2, he, hf⟩

/-- Non-vacuity: two square nested vectors of order 3 meet the hypotheses of the three theorems above for a
`2`-by-`3` block of `B` and a triangle of order 2. -/
theorem C26_nested_example : SideFlag 'L' ∧ UploFlag 'U' ∧ TransFlag 'T' ∧ DiagFlag 'N' ∧
    Rect ([[1, 0, 7], [2, 3, 7], [7, 7, 7]] : List (List Float)) 3 3 ∧
    Stored ([[1, 0, 7], [2, 3, 7], [7, 7, 7]] : List (List Float)).flatten 3 (triOrder 'L' 2 3) (triOrder 'L' 2 3) ∧
    Stored ([[1, 0, 7], [2, 3, 7], [7, 7, 7]] : List (List Float)).flatten 3 2 3 := by
  refine ⟨?_, ?_, ?_, ?_, ⟨rfl, ?_⟩, ⟨?_, ?_, ?_, ?_, ?_⟩, ⟨?_, ?_, ?_, ?_, ?_⟩⟩
  all_goals first
    | decide
    | (simp [SideFlag, UploFlag, TransFlag, DiagFlag]; done)
    | (intro x hx; simp at hx; rcases hx with rfl | rfl | rfl <;> rfl)
    | (simp [triOrder, isLeft]; done)
    | (intro i hi j hj; simp [triOrder, isLeft] at hi hj ⊢; omega)

/-! ### `dgemm` with nothing to do, for the other argument types -/

theorem dgemmFA_unchanged {ta tb : Char} (hta : TransFlag ta) (htb : TransFlag tb) {m n k : Nat} {lda ldb ldc : Int}
    (hla : max 1 (storedRows ta m k : Int) ≤ lda) (hlb : max 1 (storedRows tb k n : Int) ≤ ldb)
    (hlc : max 1 (m : Int) ≤ ldc) {alpha beta : F} (a b c : FA F)
    (h : m = 0 ∨ n = 0 ∨ (((alpha =ᶠ Scalar.zero) = true ∨ k = 0) ∧ (beta =ᶠ Scalar.one) = true)) :
    dgemmFA ta tb m n k alpha a lda b ldb beta c ldc = pure none := by
  unfold dgemmFA
  rw [dgemmInfo_zero hta htb hla hlb hlc, if_neg (by simp), if_pos]
  · rcases h with h | h | ⟨h, h'⟩
    · left; omega
    · right; left; omega
    · right; right; exact ⟨h.imp id (by omega), h'⟩

/-- **C23, nothing to do (`FortranArray`).** -/
theorem C23_unchanged_array {ta tb : Char} (hta : TransFlag ta) (htb : TransFlag tb) (m n k : Nat)
    (alpha beta : F) (a b c : FA F) (lda ldb ldc : Int)
    (hla : max 1 (storedRows ta m k : Int) ≤ lda) (hlb : max 1 (storedRows tb k n : Int) ≤ ldb)
    (hlc : max 1 (m : Int) ≤ ldc)
    (h : m = 0 ∨ n = 0 ∨ (((alpha =ᶠ Scalar.zero) = true ∨ k = 0) ∧ (beta =ᶠ Scalar.one) = true)) :
    dgemm ta tb m n k alpha a lda b ldb beta c ldc = (pure c : R (FA F)) := by
  unfold dgemm
  show (dgemmFA ta tb m n k alpha a lda b ldb beta c ldc >>= _) = _
  rw [dgemmFA_unchanged hta htb hla hlb hlc a b c h]; rfl

/-- **C23, nothing to do (nested vectors of any shape).** -/
theorem C23_unchanged_nested {ta tb : Char} (hta : TransFlag ta) (htb : TransFlag tb) (m n k : Nat)
    (alpha beta : F) (a b c : List (List F)) (lda ldb ldc : Int)
    (hla : max 1 (storedRows ta m k : Int) ≤ lda) (hlb : max 1 (storedRows tb k n : Int) ≤ ldb)
    (hlc : max 1 (m : Int) ≤ ldc)
    (h : m = 0 ∨ n = 0 ∨ (((alpha =ᶠ Scalar.zero) = true ∨ k = 0) ∧ (beta =ᶠ Scalar.one) = true)) :
    dgemm ta tb m n k alpha a lda b ldb beta c ldc = (pure c : R (List (List F))) := by
  unfold dgemm
  show (dgemmFA ta tb m n k alpha (faOfVecVec a) lda (faOfVecVec b) ldb beta (faOfVecVec c) ldc >>= _) = _
  rw [dgemmFA_unchanged hta htb hla hlb hlc _ _ _ h]; rfl

/-- **C23, alpha = 0 (nested vectors of any shape).** -/
theorem C23_alpha_zero_nested {ta tb : Char} (m n k : Int) (alpha beta : F) (a a' b b' c : List (List F))
    (lda ldb ldc : Int) (h0 : (alpha =ᶠ Scalar.zero) = true) :
    (dgemm ta tb m n k alpha a lda b ldb beta c ldc : R (List (List F))) =
      dgemm ta tb m n k alpha a' lda b' ldb beta c ldc := by
  unfold dgemm
  show (dgemmFA ta tb m n k alpha (faOfVecVec a) lda (faOfVecVec b) ldb beta (faOfVecVec c) ldc >>= _) =
    (dgemmFA ta tb m n k alpha (faOfVecVec a') lda (faOfVecVec b') ldb beta (faOfVecVec c) ldc >>= _)
  rw [dgemmFA_alpha_zero (ta := ta) (tb := tb) m n k alpha beta (faOfVecVec a) (faOfVecVec a') (faOfVecVec b)
    (faOfVecVec b') (faOfVecVec c) lda ldb ldc h0]

end Verif

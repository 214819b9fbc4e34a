import Verif.Props.Monotone

/-!
# C108: `dtrmm` on binary64 is monotone
-/

namespace Verif
open Float.Model F64 Scalar Spec

theorem F64.Eqz.le_iff {x y x' y' : Float} (h : Eqz x y) (h' : Eqz x' y') (n : y.isNaN = false) (n' : y'.isNaN = false) : Float.le x x' = Float.le y y' := by
  have key : ∀ {x y : Float}, Eqz x y → y.isNaN = false → toXR x = toXR y := by
    intro x y h n
    rcases h.symm.spec with ⟨m, -⟩ | e
    · rw [n] at m; cases m
    · have e : Float.beq x y = true := e
      rw [beq_toXR] at e
      cases hx : toXR x <;> cases hy : toXR y <;> rw [hx, hy] at e <;> simp [XR.beq] at e ⊢
      exact e
  rw [le_toXR, le_toXR, key h n, key h' n']

theorem F64.NNeg.not_nan {x : Float} (h : NNeg x) : x.isNaN = false := by
  rcases h with h | h
  · exact finite_not_nan h.1
  · rw [isNaN_up, h]; rfl

theorem F64.Eqz.mo_le {x y x' y' : Float} (h : Eqz x y) (h' : Eqz x' y') (m : Mo y y') : x ≤ x' := by
  show Float.le x x' = true
  rw [h.le_iff h' m.1.not_nan m.nn.not_nan]
  exact m.le

theorem Spec.NonnegLe.mo {x y : Float} (h : NonnegLe x y) : Mo x y := ⟨Or.inl ⟨h.1, h.val.1⟩, Or.inr ⟨h.1, h.2.1, h.val.2⟩⟩

theorem triDot_mo {nounit : Bool} {c b c' b' : Int → Float} {l : List Int} {i : Int} (hd : nounit = true → NonnegLe (c i) (c' i)) (hb : NonnegLe (b i) (b' i))
    (hl : ∀ k ∈ l, NonnegLe (c k) (c' k) ∧ NonnegLe (b k) (b' k)) : Mo (triDot nounit c b l i) (triDot nounit c' b' l i) := by
  induction l using List.reverseRecOn with
  | nil =>
    unfold triDot diagMul
    cases nounit
    · exact hb.mo
    · exact hb.mul (hd rfl)
  | append_singleton l k ih =>
    have hs : ∀ c b : Int → Float, triDot nounit c b (l ++ [k]) i = triDot nounit c b l i + c k * b k := by
      intro c b
      unfold triDot
      rw [List.foldl_append]; rfl
    rw [hs, hs]
    obtain ⟨h1, h2⟩ := hl k (by simp)
    exact (ih fun q hq => hl q (by simp [hq])).add (h1.mul h2)

/-- The triangles of `op(A)` and `op(A')` (of order `m`), and `B` and `B'`, are nonnegative, and the first of each pair is at most the second. -/
structure Spec.TriMonoLeft (uplo ta diag : Char) (m n : Nat) (A B A' B' : Nat → Nat → Float) : Prop where
  tri : ∀ i < m, ∀ l < m, InOp uplo ta diag i l → NonnegLe (op ta A i l) (op ta A' i l)
  full : ∀ l < m, ∀ j < n, NonnegLe (B l j) (B' l j)

/-- The same with triangles of order `n`. -/
structure Spec.TriMonoRight (uplo ta diag : Char) (m n : Nat) (A B A' B' : Nat → Nat → Float) : Prop where
  full : ∀ i < m, ∀ l < n, NonnegLe (B i l) (B' i l)
  tri : ∀ l < n, ∀ j < n, InOp uplo ta diag l j → NonnegLe (op ta A l j) (op ta A' l j)

/-- **C108.** `dtrmm` from the left with `alpha = 1` is monotone on nonnegative data, overflow included. -/
theorem C108_dtrmm_left {uplo ta diag : Char} (h2 : UploFlag uplo) (hta : TransFlag ta) (h4 : DiagFlag diag)
    {m n : Nat} {lda ldb : Int} (hla : max 1 (m : Int) ≤ lda) (hlb : max 1 (m : Int) ≤ ldb)
    (a b a' b' : FA Float) (ra rb : Nat) (ha : a.rows = ra) (hb : b.rows = rb) (ha' : a'.rows = ra) (hb' : b'.rows = rb)
    (sa : Stored a.data ra m m) (sb : Stored b.data rb m n) (sa' : Stored a'.data ra m m) (sb' : Stored b'.data rb m n)
    (h : TriMonoLeft uplo ta diag m n (entry a.data ra) (entry b.data rb) (entry a'.data ra) (entry b'.data rb)) :
    ∃ r r' : FA Float, dtrmm 'L' uplo ta diag m n (1 : Float) a lda b ldb = pure (a, r) ∧ dtrmm 'L' uplo ta diag m n (1 : Float) a' lda b' ldb = pure (a', r') ∧
      ∀ i < m, ∀ j < n, ∃ v w, r.data[i + j * rb]? = some v ∧ r'.data[i + j * rb]? = some w ∧ v ≤ w := by
  have hL : SideFlag 'L' := by decide
  have iL : isLeft 'L' = true := rfl
  have hla1 : max 1 (if isLeft 'L' then (m : Int) else n) ≤ lda := by rw [iL, if_pos rfl]; exact hla
  by_cases hq : m = 0 ∨ n = 0
  · refine ⟨b, b', C27_empty hL h2 hta h4 hla1 hlb hq _ a b, C27_empty hL h2 hta h4 hla1 hlb hq _ a' b', ?_⟩
    intro i hi j hj; omega
  · have h0 : ((1 : Float) =ᶠ (zero : Float)) = false := by decide +kernel
    obtain ⟨r, e, -, -, u⟩ := dtrmmFA_ok hL h2 hta h4 hla1 hlb (by omega) (by omega) (1 : Float) h0 a b ra rb ha hb (by unfold triOrder; rw [iL]; exact sa) sb
    obtain ⟨r', e', -, -, u'⟩ := dtrmmFA_ok hL h2 hta h4 hla1 hlb (by omega) (by omega) (1 : Float) h0 a' b' ra rb ha' hb' (by unfold triOrder; rw [iL]; exact sa') sb'
    refine ⟨r, r', ?_, ?_, fun i hi j hj => ⟨_, _, u.block i hi j hj, u'.block i hi j hj, ?_⟩⟩
    · unfold dtrmm
      show (dtrmmFA 'L' uplo ta diag m n (1 : Float) a lda b ldb >>= _) = _
      rw [e]; rfl
    · unfold dtrmm
      show (dtrmmFA 'L' uplo ta diag m n (1 : Float) a' lda b' ldb >>= _) = _
      rw [e']; rfl
    · rw [iL]
      obtain ⟨l, hl, H⟩ := trmmVal_left_list (isUpper uplo) (noTrans ta) m ((i : Int) + 1) (by omega) (by omega)
      have ei : ((i : Int) + 1 - 1).toNat = i := by omega
      have ej : ((j : Int) + 1 - 1).toNat = j := by omega
      have hop : ∀ d : List Float, ∀ k : Int, 1 ≤ k → (if noTrans ta then ofList2 ra d ((i : Int) + 1) k else ofList2 ra d k ((i : Int) + 1)) = op ta (entry d ra) i (k - 1).toNat :=
        fun d k hk => by rw [opInt ta d ra (by omega) hk, ei]
      have hdg : ∀ d : List Float, ofList2 ra d ((i : Int) + 1) ((i : Int) + 1) = op ta (entry d ra) i i := by
        intro d
        have := hop d ((i : Int) + 1) (by omega)
        rwa [ite_self, ei] at this
      have hbe : ∀ d : List Float, ∀ k : Int, 1 ≤ k → ofList2 rb d k ((j : Int) + 1) = entry d rb (k - 1).toNat j :=
        fun d k hk => by rw [entry_eq_ofList2 _ _ hk (by omega), ej]
      have hin : ∀ k ∈ l, InOp uplo ta diag i (k - 1).toNat := by
        intro k hk
        obtain ⟨k1, k2, k3⟩ := hl k hk
        refine inOp_off ?_
        by_cases hc : (isUpper uplo == noTrans ta) = true
        · rw [if_pos hc] at k3 ⊢; omega
        · rw [if_neg hc] at k3 ⊢; omega
      have E := H (!isUnit diag) (ofList2 ra a.data) (ofList2 rb b.data) n ((j : Int) + 1)
        (fun hn => by rw [hdg]; exact (h.tri i hi i hi (inOp_diag hn)).1)
        (fun k hk => by rw [hop _ k (hl k hk).1]; exact (h.tri i hi _ (by have := hl k hk; omega) (hin k hk)).1)
      have E' := H (!isUnit diag) (ofList2 ra a'.data) (ofList2 rb b'.data) n ((j : Int) + 1)
        (fun hn => by rw [hdg]; exact (h.tri i hi i hi (inOp_diag hn)).2.1)
        (fun k hk => by rw [hop _ k (hl k hk).1]; exact (h.tri i hi _ (by have := hl k hk; omega) (hin k hk)).2.1)
      refine E.mo_le E' (triDot_mo ?_ ?_ ?_)
      · intro hn
        simp only [ite_self]
        rw [hdg, hdg]
        exact h.tri i hi i hi (inOp_diag hn)
      · rw [hbe _ _ (by omega), hbe _ _ (by omega), ei]
        exact h.full i hi j hj
      · intro k hk
        obtain ⟨k1, k2, k3⟩ := hl k hk
        have hkm : (k - 1).toNat < m := by omega
        rw [hop _ k k1, hop _ k k1, hbe _ k k1, hbe _ k k1]
        exact ⟨h.tri i hi _ hkm (hin k hk), h.full _ hkm j hj⟩

/-- **C108.** The same from the right. -/
theorem C108_dtrmm_right {uplo ta diag : Char} (h2 : UploFlag uplo) (hta : TransFlag ta) (h4 : DiagFlag diag)
    {m n : Nat} {lda ldb : Int} (hla : max 1 (n : Int) ≤ lda) (hlb : max 1 (m : Int) ≤ ldb)
    (a b a' b' : FA Float) (ra rb : Nat) (ha : a.rows = ra) (hb : b.rows = rb) (ha' : a'.rows = ra) (hb' : b'.rows = rb)
    (sa : Stored a.data ra n n) (sb : Stored b.data rb m n) (sa' : Stored a'.data ra n n) (sb' : Stored b'.data rb m n)
    (h : TriMonoRight uplo ta diag m n (entry a.data ra) (entry b.data rb) (entry a'.data ra) (entry b'.data rb)) :
    ∃ r r' : FA Float, dtrmm 'R' uplo ta diag m n (1 : Float) a lda b ldb = pure (a, r) ∧ dtrmm 'R' uplo ta diag m n (1 : Float) a' lda b' ldb = pure (a', r') ∧
      ∀ i < m, ∀ j < n, ∃ v w, r.data[i + j * rb]? = some v ∧ r'.data[i + j * rb]? = some w ∧ v ≤ w := by
  have hR : SideFlag 'R' := by decide
  have iR : isLeft 'R' = false := rfl
  have hla1 : max 1 (if isLeft 'R' then (m : Int) else n) ≤ lda := by rw [iR, if_neg (by simp)]; exact hla
  by_cases hq : m = 0 ∨ n = 0
  · refine ⟨b, b', C27_empty hR h2 hta h4 hla1 hlb hq _ a b, C27_empty hR h2 hta h4 hla1 hlb hq _ a' b', ?_⟩
    intro i hi j hj; omega
  · have h0 : ((1 : Float) =ᶠ (zero : Float)) = false := by decide +kernel
    obtain ⟨r, e, -, -, u⟩ := dtrmmFA_ok hR h2 hta h4 hla1 hlb (by omega) (by omega) (1 : Float) h0 a b ra rb ha hb (by unfold triOrder; rw [iR]; exact sa) sb
    obtain ⟨r', e', -, -, u'⟩ := dtrmmFA_ok hR h2 hta h4 hla1 hlb (by omega) (by omega) (1 : Float) h0 a' b' ra rb ha' hb' (by unfold triOrder; rw [iR]; exact sa') sb'
    refine ⟨r, r', ?_, ?_, fun i hi j hj => ⟨_, _, u.block i hi j hj, u'.block i hi j hj, ?_⟩⟩
    · unfold dtrmm
      show (dtrmmFA 'R' uplo ta diag m n (1 : Float) a lda b ldb >>= _) = _
      rw [e]; rfl
    · unfold dtrmm
      show (dtrmmFA 'R' uplo ta diag m n (1 : Float) a' lda b' ldb >>= _) = _
      rw [e']; rfl
    · rw [iR]
      obtain ⟨l, hl, H⟩ := trmmVal_right_list (isUpper uplo) (noTrans ta) n ((j : Int) + 1) (by omega) (by omega)
      have ei : ((i : Int) + 1 - 1).toNat = i := by omega
      have ej : ((j : Int) + 1 - 1).toNat = j := by omega
      have hop : ∀ d : List Float, ∀ k : Int, 1 ≤ k → (if noTrans ta then ofList2 ra d k ((j : Int) + 1) else ofList2 ra d ((j : Int) + 1) k) = op ta (entry d ra) (k - 1).toNat j :=
        fun d k hk => by rw [opInt ta d ra hk (by omega), ej]
      have hdg : ∀ d : List Float, ofList2 ra d ((j : Int) + 1) ((j : Int) + 1) = op ta (entry d ra) j j := by
        intro d
        have := hop d ((j : Int) + 1) (by omega)
        rwa [ite_self, ej] at this
      have hbe : ∀ d : List Float, ∀ k : Int, 1 ≤ k → ofList2 rb d ((i : Int) + 1) k = entry d rb i (k - 1).toNat :=
        fun d k hk => by rw [entry_eq_ofList2 _ _ (by omega) hk, ei]
      have hin : ∀ k ∈ l, InOp uplo ta diag (k - 1).toNat j := by
        intro k hk
        obtain ⟨k1, k2, k3⟩ := hl k hk
        refine inOp_off ?_
        by_cases hc : (isUpper uplo == noTrans ta) = true
        · rw [if_pos hc] at k3 ⊢; omega
        · rw [if_neg hc] at k3 ⊢; omega
      have E := H (!isUnit diag) (ofList2 ra a.data) (ofList2 rb b.data) m ((i : Int) + 1)
        (fun k hk => by rw [hbe _ k (hl k hk).1]; exact (h.full i hi _ (by have := hl k hk; omega)).1)
      have E' := H (!isUnit diag) (ofList2 ra a'.data) (ofList2 rb b'.data) m ((i : Int) + 1)
        (fun k hk => by rw [hbe _ k (hl k hk).1]; exact (h.full i hi _ (by have := hl k hk; omega)).2.1)
      refine E.mo_le E' (triDot_mo ?_ ?_ ?_)
      · intro hn
        simp only [ite_self]
        rw [hdg, hdg]
        exact h.tri j hj j hj (inOp_diag hn)
      · rw [hbe _ _ (by omega), hbe _ _ (by omega), ej]
        exact h.full i hi j hj
      · intro k hk
        obtain ⟨k1, k2, k3⟩ := hl k hk
        have hkm : (k - 1).toNat < n := by omega
        rw [hop _ k k1, hop _ k k1, hbe _ k k1, hbe _ k k1]
        exact ⟨h.tri _ hkm j hj (hin k hk), h.full i hi _ hkm⟩

/-- A case: the unit upper triangle with `0.3` and one with `0.4`; the part that is not read is arbitrary. -/
theorem C108_dtrmm_example (pr : Profile) :
    ((dtrmm (F := Float) 'L' 'U' 'N' 'U' 2 1 1 (⟨[0.1, Scalar.nan, 0.3, 0.7], 2, 2, 0⟩ : FA Float) 2 (⟨[1.1, 1.3], 2, 1, 0⟩ : FA Float) 2 pr).val?.bind fun r =>
      (dtrmm (F := Float) 'L' 'U' 'N' 'U' 2 1 1 (⟨[0, 5, 0.4, -1], 2, 2, 0⟩ : FA Float) 2 (⟨[1.1, 1.4], 2, 1, 0⟩ : FA Float) 2 pr).val?.map fun r' =>
        r.2.data.zipWith (fun v w => decide (v < w)) r'.2.data) = some [true, true] := by
  cases pr <;> decide +kernel

end Verif

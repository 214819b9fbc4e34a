import Verif.Props.TrmmSides
import Verif.Props.PowTwo

/-!
# C103: `dtrmm` of matrices scaled by powers of two, on binary64
-/

namespace Verif
open Float.Model F64 Scalar Spec

theorem F64.Eqz.fin {x y : Float} (h : Eqz x y) (f : x.isFinite = true) : y.isFinite = true ∧ toR y = toR x := by
  rcases h.spec with ⟨n, -⟩ | e
  · rw [finite_not_nan f] at n; cases n
  · exact eq_toR f e

theorem F64.Eqz.sc {k : ℤ} {x y x' y' : Float} (h : Eqz x y) (h' : Eqz x' y') (f : x.isFinite = true) (f' : x'.isFinite = true) (hs : Sc k y y') : Sc k x x' :=
  ⟨f, f', by rw [← (h.fin f).2, ← (h'.fin f').2, hs.eq]⟩

/-- The order in which the terms of an entry are added, from the left. -/
theorem trmmVal_left_list (upper notrans : Bool) (m i : Int) (h1 : 1 ≤ i) (h2 : i ≤ m) :
    ∃ l : List Int, (∀ k ∈ l, 1 ≤ k ∧ k ≤ m ∧ if upper == notrans then i < k else k < i) ∧
      ∀ (nounit : Bool) (ga gb : Int → Int → Float) (n j : Int), (nounit = true → (ga i i).isFinite = true) →
        (∀ k ∈ l, (if notrans then ga i k else ga k i).isFinite = true) →
        Eqz (trmmVal true upper notrans nounit m n 1 ga gb i j) (triDot nounit (fun k => if notrans then ga i k else ga k i) (fun k => gb k j) l i) := by
  cases notrans
  · cases upper
    · refine ⟨irange (i + 1) m, fun k hk => ?_, fun nounit ga gb n j _ _ => ?_⟩
      · rw [mem_irange] at hk
        simp only [BEq.rfl, if_true]
        omega
      · exact Eqz.of_eq (one_mul' _)
    · refine ⟨irange 1 (i - 1), fun k hk => ?_, fun nounit ga gb n j _ _ => ?_⟩
      · rw [mem_irange] at hk
        refine ⟨hk.1, by omega, ?_⟩
        rw [if_neg (by decide)]
        omega
      · exact Eqz.of_eq (one_mul' _)
  · cases upper
    · refine ⟨(irange 1 (i - 1)).reverse, fun k hk => ?_, fun nounit ga gb n j fd fa => ?_⟩
      · rw [List.mem_reverse, mem_irange] at hk
        refine ⟨hk.1, by omega, ?_⟩
        rw [if_neg (by decide)]
        omega
      · exact ln_triDot fd fa
    · refine ⟨irange (i + 1) m, fun k hk => ?_, fun nounit ga gb n j fd fa => ?_⟩
      · rw [mem_irange] at hk
        simp only [BEq.rfl, if_true]
        omega
      · exact ln_triDot fd fa

/-- The order in which the terms of an entry are added, from the right. -/
theorem trmmVal_right_list (upper notrans : Bool) (n j : Int) (h1 : 1 ≤ j) (h2 : j ≤ n) :
    ∃ l : List Int, (∀ k ∈ l, 1 ≤ k ∧ k ≤ n ∧ if upper == notrans then k < j else j < k) ∧
      ∀ (nounit : Bool) (ga gb : Int → Int → Float) (m i : Int), (∀ k ∈ l, (gb i k).isFinite = true) →
        Eqz (trmmVal false upper notrans nounit m n 1 ga gb i j) (triDot nounit (fun k => if notrans then ga k j else ga j k) (gb i) l j) := by
  cases notrans
  · cases upper
    · refine ⟨(irange 1 (j - 1)).reverse, fun k hk => ?_, fun nounit ga gb m i fb => ?_⟩
      · rw [List.mem_reverse, mem_irange] at hk
        simp only [BEq.rfl, if_true]
        omega
      · have e : trmmVal false false false nounit m n 1 ga gb i j =
            (irange 1 (j - 1)).reverse.foldl (fun acc k => rAcc 1 (ga j k) (gb i) acc k) (diagMul nounit 1 (ga j j) * gb i j) := by
          rw [← rtStart_eq]; rfl
        rw [e]
        exact r_triDot fb
    · refine ⟨irange (j + 1) n, fun k hk => ?_, fun nounit ga gb m i fb => ?_⟩
      · rw [mem_irange] at hk
        refine ⟨by omega, hk.2, ?_⟩
        rw [if_neg (by decide)]
        omega
      · have e : trmmVal false true false nounit m n 1 ga gb i j =
            (irange (j + 1) n).foldl (fun acc k => rAcc 1 (ga j k) (gb i) acc k) (diagMul nounit 1 (ga j j) * gb i j) := by
          rw [← rtStart_eq]; rfl
        rw [e]
        exact r_triDot fb
  · cases upper
    · refine ⟨irange (j + 1) n, fun k hk => ?_, fun nounit ga gb m i fb => ?_⟩
      · rw [mem_irange] at hk
        refine ⟨by omega, hk.2, ?_⟩
        rw [if_neg (by decide)]
        omega
      · exact r_triDot fb
    · refine ⟨irange 1 (j - 1), fun k hk => ?_, fun nounit ga gb m i fb => ?_⟩
      · rw [mem_irange] at hk
        simp only [BEq.rfl, if_true]
        omega
      · exact r_triDot fb

theorem triDot_scale {nounit : Bool} {t : ℤ} {δ ε : Int → ℤ} {c b c' b' : Int → Float} {l : List Int} {i : Int}
    (hd : nounit = true → Sc (δ i) (c i) (c' i) ∧ NoUnderflow (toR (c i) * toR (b i)) ∧ NoUnderflow (toR (c' i) * toR (b' i))) (hd' : nounit = false → δ i = 0)
    (hb : Sc (ε i) (b i) (b' i)) (ht : δ i + ε i = t)
    (hl : ∀ k ∈ l, Sc (δ k) (c k) (c' k) ∧ Sc (ε k) (b k) (b' k) ∧ δ k + ε k = t ∧ NoUnderflow (toR (c k) * toR (b k)) ∧ NoUnderflow (toR (c' k) * toR (b' k)))
    (f : (triDot nounit c b l i).isFinite = true) (f' : (triDot nounit c' b' l i).isFinite = true) : Sc t (triDot nounit c b l i) (triDot nounit c' b' l i) := by
  induction l using List.reverseRecOn with
  | nil =>
    unfold triDot diagMul at *
    cases nounit
    · simp only [Bool.false_eq_true, if_false, List.foldl_nil] at *
      rw [← ht, hd' trivial, zero_add]
      exact hb
    · simp only [if_true, List.foldl_nil] at *
      rw [← ht, add_comm]
      obtain ⟨h1, h2, h3⟩ := hd trivial
      exact hb.mul h1 (by rwa [mul_comm]) (by rwa [mul_comm]) f f'
  | append_singleton l k ih =>
    have hs : ∀ c b : Int → Float, triDot nounit c b (l ++ [k]) i = triDot nounit c b l i + c k * b k := by
      intro c b
      unfold triDot
      rw [List.foldl_append]; rfl
    rw [hs] at f f'
    rw [hs, hs]
    have g := finite_of_add f
    have g' := finite_of_add f'
    obtain ⟨h1, h2, h3, h4, h5⟩ := hl k (by simp)
    have hm := h1.mul h2 h4 h5 g.2 g'.2
    rw [h3] at hm
    exact (ih (fun q hq => hl q (by simp [hq])) g.1 g'.1).add hm f f'

/-- Positions of `op(A)` that `dtrmm` reads. -/
def Spec.InOp (uplo ta diag : Char) (i l : Nat) : Prop := if noTrans ta then InTri uplo diag i l else InTri uplo diag l i

/-- The triangle of `op(A')` is that of `D_ρ op(A) D_δ`, and `B'` is `D_δ⁻¹ B D_γ`, for diagonal matrices of powers of two; no product of two entries underflows. -/
structure Spec.TriScaledLeft (uplo ta diag : Char) (m n : Nat) (ρ γ δ : Nat → ℤ) (A B A' B' : Nat → Nat → Float) : Prop where
  tri : ∀ i < m, ∀ l < m, InOp uplo ta diag i l → Sc (ρ i + δ l) (op ta A i l) (op ta A' i l)
  unit : isUnit diag = true → ∀ i < m, ρ i + δ i = 0
  full : ∀ l < m, ∀ j < n, Sc (γ j - δ l) (B l j) (B' l j)
  under : ∀ i < m, ∀ l < m, ∀ j < n, InOp uplo ta diag i l → NoUnderflow (toR (op ta A i l) * toR (B l j))
  under' : ∀ i < m, ∀ l < m, ∀ j < n, InOp uplo ta diag i l → NoUnderflow (toR (op ta A' i l) * toR (B' l j))

/-- `B'` is `D_ρ B D_δ`, and the triangle of `op(A')` is that of `D_δ⁻¹ op(A) D_γ`. -/
structure Spec.TriScaledRight (uplo ta diag : Char) (m n : Nat) (ρ γ δ : Nat → ℤ) (A B A' B' : Nat → Nat → Float) : Prop where
  full : ∀ i < m, ∀ l < n, Sc (ρ i + δ l) (B i l) (B' i l)
  tri : ∀ l < n, ∀ j < n, InOp uplo ta diag l j → Sc (γ j - δ l) (op ta A l j) (op ta A' l j)
  unit : isUnit diag = true → ∀ j < n, γ j - δ j = 0
  under : ∀ i < m, ∀ l < n, ∀ j < n, InOp uplo ta diag l j → NoUnderflow (toR (op ta A l j) * toR (B i l))
  under' : ∀ i < m, ∀ l < n, ∀ j < n, InOp uplo ta diag l j → NoUnderflow (toR (op ta A' l j) * toR (B' i l))

theorem inOp_off {uplo ta diag : Char} {i l : Nat} (h : if isUpper uplo == noTrans ta then i < l else l < i) : InOp uplo ta diag i l := by
  unfold InOp InTri
  cases hu : isUpper uplo <;> cases hn : noTrans ta <;> rw [hu, hn] at h <;>
    simp only [BEq.rfl, if_true, Bool.false_eq_true, if_false, show (true == false) = false from rfl, show (false == true) = false from rfl] at h ⊢ <;>
    exact ⟨by omega, fun _ => by omega⟩

theorem inOp_diag {uplo ta diag : Char} {i : Nat} (h : (!isUnit diag) = true) : InOp uplo ta diag i i := by
  have h' : isUnit diag ≠ true := by rw [Bool.not_eq_true'] at h; rw [h]; simp
  unfold InOp InTri
  split <;> exact ⟨by split <;> exact le_rfl, fun e => absurd e h'⟩

theorem opInt (ta : Char) (d : List Float) (r : Nat) {i k : Int} (h1 : 1 ≤ i) (h2 : 1 ≤ k) :
    (if noTrans ta then ofList2 r d i k else ofList2 r d k i) = op ta (entry d r) (i - 1).toNat (k - 1).toNat := by
  unfold op
  rw [entry_eq_ofList2 _ _ h1 h2, entry_eq_ofList2 _ _ h2 h1]

/-- **C103.** `dtrmm` from the left with `alpha = 1`: scaling the rows of the triangular matrix, the columns of `B` and the inner index by powers of two scales entry `(i, j)`
by `2^(ρ i + γ j)`, without any further error, wherever both results are finite. -/
theorem C103_dtrmm_left {uplo ta diag : Char} (h2 : UploFlag uplo) (hta : TransFlag ta) (h4 : DiagFlag diag)
    {m n : Nat} {lda ldb : Int} (hla : max 1 (m : Int) ≤ lda) (hlb : max 1 (m : Int) ≤ ldb)
    (a b a' b' : FA Float) (ra rb : Nat) (ha : a.rows = ra) (hb : b.rows = rb) (ha' : a'.rows = ra) (hb' : b'.rows = rb)
    (sa : Stored a.data ra m m) (sb : Stored b.data rb m n) (sa' : Stored a'.data ra m m) (sb' : Stored b'.data rb m n) (ρ γ δ : Nat → ℤ)
    (h : TriScaledLeft uplo ta diag m n ρ γ δ (entry a.data ra) (entry b.data rb) (entry a'.data ra) (entry b'.data rb)) :
    ∃ r r' : FA Float, dtrmm 'L' uplo ta diag m n (1 : Float) a lda b ldb = pure (a, r) ∧ dtrmm 'L' uplo ta diag m n (1 : Float) a' lda b' ldb = pure (a', r') ∧
      ∀ i < m, ∀ j < n, ∃ v w, r.data[i + j * rb]? = some v ∧ r'.data[i + j * rb]? = some w ∧ (v.isFinite = true → w.isFinite = true → Sc (ρ i + γ j) v w) := by
  have hL : SideFlag 'L' := by decide
  have iL : isLeft 'L' = true := rfl
  have hla1 : max 1 (if isLeft 'L' then (m : Int) else n) ≤ lda := by rw [iL, if_pos rfl]; exact hla
  by_cases hq : m = 0 ∨ n = 0
  · refine ⟨b, b', C27_empty hL h2 hta h4 hla1 hlb hq _ a b, C27_empty hL h2 hta h4 hla1 hlb hq _ a' b', ?_⟩
    intro i hi j hj; omega
  · have h0 : ((1 : Float) =ᶠ (zero : Float)) = false := by decide +kernel
    obtain ⟨r, e, -, -, u⟩ := dtrmmFA_ok hL h2 hta h4 hla1 hlb (by omega) (by omega) (1 : Float) h0 a b ra rb ha hb (by unfold triOrder; rw [iL]; exact sa) sb
    obtain ⟨r', e', -, -, u'⟩ := dtrmmFA_ok hL h2 hta h4 hla1 hlb (by omega) (by omega) (1 : Float) h0 a' b' ra rb ha' hb' (by unfold triOrder; rw [iL]; exact sa') sb'
    refine ⟨r, r', ?_, ?_, fun i hi j hj => ⟨_, _, u.block i hi j hj, u'.block i hi j hj, fun f f' => ?_⟩⟩
    · unfold dtrmm
      show (dtrmmFA 'L' uplo ta diag m n (1 : Float) a lda b ldb >>= _) = _
      rw [e]; rfl
    · unfold dtrmm
      show (dtrmmFA 'L' uplo ta diag m n (1 : Float) a' lda b' ldb >>= _) = _
      rw [e']; rfl
    · rw [iL] at f f' ⊢
      obtain ⟨l, hl, H⟩ := trmmVal_left_list (isUpper uplo) (noTrans ta) m ((i : Int) + 1) (by omega) (by omega)
      have ei : ((i : Int) + 1 - 1).toNat = i := by omega
      have ej : ((j : Int) + 1 - 1).toNat = j := by omega
      have hop : ∀ d : List Float, ∀ k : Int, 1 ≤ k → (if noTrans ta then ofList2 ra d ((i : Int) + 1) k else ofList2 ra d k ((i : Int) + 1)) = op ta (entry d ra) i (k - 1).toNat :=
        fun d k hk => by rw [opInt ta d ra (by omega) hk, ei]
      have hdg : ∀ d : List Float, ofList2 ra d ((i : Int) + 1) ((i : Int) + 1) = op ta (entry d ra) i i := by
        intro d
        have := hop d ((i : Int) + 1) (by omega)
        rwa [ite_self, ei] at this
      have hbe : ∀ d : List Float, ∀ k : Int, 1 ≤ k → ofList2 rb d k ((j : Int) + 1) = entry d rb (k - 1).toNat j :=
        fun d k hk => by rw [entry_eq_ofList2 _ _ hk (by omega), ej]
      have hin : ∀ k ∈ l, InOp uplo ta diag i (k - 1).toNat := by
        intro k hk
        obtain ⟨k1, k2, k3⟩ := hl k hk
        refine inOp_off ?_
        by_cases hc : (isUpper uplo == noTrans ta) = true
        · rw [if_pos hc] at k3 ⊢; omega
        · rw [if_neg hc] at k3 ⊢; omega
      have E := H (!isUnit diag) (ofList2 ra a.data) (ofList2 rb b.data) n ((j : Int) + 1)
        (fun hn => by rw [hdg]; exact (h.tri i hi i hi (inOp_diag hn)).fx)
        (fun k hk => by rw [hop _ k (hl k hk).1]; exact (h.tri i hi _ (by have := hl k hk; omega) (hin k hk)).fx)
      have E' := H (!isUnit diag) (ofList2 ra a'.data) (ofList2 rb b'.data) n ((j : Int) + 1)
        (fun hn => by rw [hdg]; exact (h.tri i hi i hi (inOp_diag hn)).fy)
        (fun k hk => by rw [hop _ k (hl k hk).1]; exact (h.tri i hi _ (by have := hl k hk; omega) (hin k hk)).fy)
      refine E.sc E' f f' (triDot_scale (δ := fun k => ρ i + δ (k - 1).toNat) (ε := fun k => γ j - δ (k - 1).toNat) ?_ ?_ ?_ ?_ ?_ (E.fin f).1 (E'.fin f').1)
      · intro hn
        simp only [ite_self]
        rw [hdg, hdg, hbe _ _ (by omega), hbe _ _ (by omega), ei]
        exact ⟨h.tri i hi i hi (inOp_diag hn), h.under i hi i hi j hj (inOp_diag hn), h.under' i hi i hi j hj (inOp_diag hn)⟩
      · intro hn
        rw [Bool.not_eq_false'] at hn
        simp only [ei]
        exact h.unit hn i hi
      · rw [hbe _ _ (by omega), hbe _ _ (by omega), ei]
        exact h.full i hi j hj
      · ring
      · intro k hk
        obtain ⟨k1, k2, k3⟩ := hl k hk
        have hkm : (k - 1).toNat < m := by omega
        rw [hop _ k k1, hop _ k k1, hbe _ k k1, hbe _ k k1]
        exact ⟨h.tri i hi _ hkm (hin k hk), h.full _ hkm j hj, by ring, h.under i hi _ hkm j hj (hin k hk), h.under' i hi _ hkm j hj (hin k hk)⟩

/-- **C103.** The same from the right. -/
theorem C103_dtrmm_right {uplo ta diag : Char} (h2 : UploFlag uplo) (hta : TransFlag ta) (h4 : DiagFlag diag)
    {m n : Nat} {lda ldb : Int} (hla : max 1 (n : Int) ≤ lda) (hlb : max 1 (m : Int) ≤ ldb)
    (a b a' b' : FA Float) (ra rb : Nat) (ha : a.rows = ra) (hb : b.rows = rb) (ha' : a'.rows = ra) (hb' : b'.rows = rb)
    (sa : Stored a.data ra n n) (sb : Stored b.data rb m n) (sa' : Stored a'.data ra n n) (sb' : Stored b'.data rb m n) (ρ γ δ : Nat → ℤ)
    (h : TriScaledRight uplo ta diag m n ρ γ δ (entry a.data ra) (entry b.data rb) (entry a'.data ra) (entry b'.data rb)) :
    ∃ r r' : FA Float, dtrmm 'R' uplo ta diag m n (1 : Float) a lda b ldb = pure (a, r) ∧ dtrmm 'R' uplo ta diag m n (1 : Float) a' lda b' ldb = pure (a', r') ∧
      ∀ i < m, ∀ j < n, ∃ v w, r.data[i + j * rb]? = some v ∧ r'.data[i + j * rb]? = some w ∧ (v.isFinite = true → w.isFinite = true → Sc (ρ i + γ j) v w) := by
  have hR : SideFlag 'R' := by decide
  have iR : isLeft 'R' = false := rfl
  have hla1 : max 1 (if isLeft 'R' then (m : Int) else n) ≤ lda := by rw [iR, if_neg (by simp)]; exact hla
  by_cases hq : m = 0 ∨ n = 0
  · refine ⟨b, b', C27_empty hR h2 hta h4 hla1 hlb hq _ a b, C27_empty hR h2 hta h4 hla1 hlb hq _ a' b', ?_⟩
    intro i hi j hj; omega
  · have h0 : ((1 : Float) =ᶠ (zero : Float)) = false := by decide +kernel
    obtain ⟨r, e, -, -, u⟩ := dtrmmFA_ok hR h2 hta h4 hla1 hlb (by omega) (by omega) (1 : Float) h0 a b ra rb ha hb (by unfold triOrder; rw [iR]; exact sa) sb
    obtain ⟨r', e', -, -, u'⟩ := dtrmmFA_ok hR h2 hta h4 hla1 hlb (by omega) (by omega) (1 : Float) h0 a' b' ra rb ha' hb' (by unfold triOrder; rw [iR]; exact sa') sb'
    refine ⟨r, r', ?_, ?_, fun i hi j hj => ⟨_, _, u.block i hi j hj, u'.block i hi j hj, fun f f' => ?_⟩⟩
    · unfold dtrmm
      show (dtrmmFA 'R' uplo ta diag m n (1 : Float) a lda b ldb >>= _) = _
      rw [e]; rfl
    · unfold dtrmm
      show (dtrmmFA 'R' uplo ta diag m n (1 : Float) a' lda b' ldb >>= _) = _
      rw [e']; rfl
    · rw [iR] at f f' ⊢
      obtain ⟨l, hl, H⟩ := trmmVal_right_list (isUpper uplo) (noTrans ta) n ((j : Int) + 1) (by omega) (by omega)
      have ei : ((i : Int) + 1 - 1).toNat = i := by omega
      have ej : ((j : Int) + 1 - 1).toNat = j := by omega
      have hop : ∀ d : List Float, ∀ k : Int, 1 ≤ k → (if noTrans ta then ofList2 ra d k ((j : Int) + 1) else ofList2 ra d ((j : Int) + 1) k) = op ta (entry d ra) (k - 1).toNat j :=
        fun d k hk => by rw [opInt ta d ra hk (by omega), ej]
      have hdg : ∀ d : List Float, ofList2 ra d ((j : Int) + 1) ((j : Int) + 1) = op ta (entry d ra) j j := by
        intro d
        have := hop d ((j : Int) + 1) (by omega)
        rwa [ite_self, ej] at this
      have hbe : ∀ d : List Float, ∀ k : Int, 1 ≤ k → ofList2 rb d ((i : Int) + 1) k = entry d rb i (k - 1).toNat :=
        fun d k hk => by rw [entry_eq_ofList2 _ _ (by omega) hk, ei]
      have hin : ∀ k ∈ l, InOp uplo ta diag (k - 1).toNat j := by
        intro k hk
        obtain ⟨k1, k2, k3⟩ := hl k hk
        refine inOp_off ?_
        by_cases hc : (isUpper uplo == noTrans ta) = true
        · rw [if_pos hc] at k3 ⊢; omega
        · rw [if_neg hc] at k3 ⊢; omega
      have E := H (!isUnit diag) (ofList2 ra a.data) (ofList2 rb b.data) m ((i : Int) + 1)
        (fun k hk => by rw [hbe _ k (hl k hk).1]; exact (h.full i hi _ (by have := hl k hk; omega)).fx)
      have E' := H (!isUnit diag) (ofList2 ra a'.data) (ofList2 rb b'.data) m ((i : Int) + 1)
        (fun k hk => by rw [hbe _ k (hl k hk).1]; exact (h.full i hi _ (by have := hl k hk; omega)).fy)
      refine E.sc E' f f' (triDot_scale (δ := fun k => γ j - δ (k - 1).toNat) (ε := fun k => ρ i + δ (k - 1).toNat) ?_ ?_ ?_ ?_ ?_ (E.fin f).1 (E'.fin f').1)
      · intro hn
        simp only [ite_self]
        rw [hdg, hdg, hbe _ _ (by omega), hbe _ _ (by omega), ej]
        exact ⟨h.tri j hj j hj (inOp_diag hn), h.under i hi j hj j hj (inOp_diag hn), h.under' i hi j hj j hj (inOp_diag hn)⟩
      · intro hn
        rw [Bool.not_eq_false'] at hn
        simp only [ej]
        exact h.unit hn j hj
      · rw [hbe _ _ (by omega), hbe _ _ (by omega), ej]
        exact h.full i hi j hj
      · ring
      · intro k hk
        obtain ⟨k1, k2, k3⟩ := hl k hk
        have hkn : (k - 1).toNat < n := by omega
        rw [hop _ k k1, hop _ k k1, hbe _ k k1, hbe _ k k1]
        exact ⟨h.tri _ hkn j hj (hin k hk), h.full i hi _ hkn, by ring, h.under i hi _ hkn j hj (hin k hk), h.under' i hi _ hkn j hj (hin k hk)⟩

/-- Rows of a triangle scaled by `2` and `1/8`, `B` by `4`: the product is scaled by `8` and `1/2`. -/
theorem C103_dtrmm_example (pr : Profile) :
    ((dtrmm (F := Float) 'L' 'U' 'N' 'N' 2 1 1 (⟨[0.1, Scalar.nan, 0.3, 0.7], 2, 2, 0⟩ : FA Float) 2 (⟨[1.1, 1.3], 2, 1, 0⟩ : FA Float) 2 pr).val?.map
        fun r => r.2.data.zipWith (· * ·) [8, 0.5]) =
      (dtrmm (F := Float) 'L' 'U' 'N' 'N' 2 1 1 (⟨[0.1 * 2, 5, 0.3 * 2, 0.7 / 8], 2, 2, 0⟩ : FA Float) 2 (⟨[1.1 * 4, 1.3 * 4], 2, 1, 0⟩ : FA Float) 2 pr).val?.map
        fun r => r.2.data := by
  cases pr <;> decide +kernel

end Verif

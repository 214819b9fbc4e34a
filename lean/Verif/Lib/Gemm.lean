import Verif.Lib.Mat
import Verif.Model.Blas

/-!
# `dgemm`: what each loop nest computes
-/

set_option linter.unusedSectionVars false

namespace Verif
open Scalar

variable {F : Type} [Scalar F]

/-- Entries `1..=m` × `1..=n` are stored. -/
def Block (ld L : Nat) (m n : Int) : Prop :=
  ∀ i j : Int, 1 ≤ i → i ≤ m → 1 ≤ j → j ≤ n → Cell ld L i j

section
variable {ld L : Nat} {cols m n : Int}

theorem zeroCol_ok (hL : L < 2 ^ 31) {j : Int} (hb : ∀ i, 1 ≤ i → i ≤ m → Cell ld L i j)
    {c : FA F} {g : Int → Int → F} (hc : Is2 c ld cols L g) :
    ∃ c', zeroCol m c j = pure c' ∧ Is2 c' ld cols L
      (fun i' j' => if (1 ≤ i' ∧ i' ≤ m) ∧ j' = j then zero else g i' j') :=
  rowLoop (fun _ _ => zero) (fun i h1 h2 _ _ hc => set2_is2 hc (hb i h1 h2) hL zero)
    (fun _ _ _ _ _ _ => rfl) hc

theorem scaleCol_ok (hL : L < 2 ^ 31) {j : Int} (hb : ∀ i, 1 ≤ i → i ≤ m → Cell ld L i j)
    (beta : F) {c : FA F} {g : Int → Int → F} (hc : Is2 c ld cols L g) :
    ∃ c', scaleCol m beta c j = pure c' ∧ Is2 c' ld cols L
      (fun i' j' => if (1 ≤ i' ∧ i' ≤ m) ∧ j' = j then g i' j * beta else g i' j') :=
  rowLoop (fun g i => g i j * beta)
    (fun i h1 h2 _ _ hc => modify2_is2 hc (hb i h1 h2) hL (· * beta))
    (fun i _ _ g g' h => by beta_reduce; rw [h]) hc

/-- The value an entry of `c` starts from. -/
def betaVal (beta x : F) : F :=
  if beta =ᶠ zero then zero else if beta ≠ᶠ one then x * beta else x

theorem betaCol_ok (hL : L < 2 ^ 31) {j : Int} (hb : ∀ i, 1 ≤ i → i ≤ m → Cell ld L i j)
    (beta : F) {c : FA F} {g : Int → Int → F} (hc : Is2 c ld cols L g) :
    ∃ c', betaCol m beta c j = pure c' ∧ Is2 c' ld cols L
      (fun i' j' => if (1 ≤ i' ∧ i' ≤ m) ∧ j' = j then betaVal beta (g i' j) else g i' j') := by
  unfold betaCol betaVal
  by_cases h0 : (beta =ᶠ zero) = true
  · simp only [h0, if_true]; exact zeroCol_ok hL hb hc
  · by_cases h1 : (beta ≠ᶠ one) = true
    · simp only [h0, h1, if_true]; exact scaleCol_ok hL hb beta hc
    · refine ⟨c, by simp only [h0, h1]; rfl, ?_⟩
      have : (fun i' j' => if (1 ≤ i' ∧ i' ≤ m) ∧ j' = j then
          (if (beta =ᶠ zero) = true then (zero : F) else if (beta ≠ᶠ one) = true then g i' j * beta
            else g i' j) else g i' j') = g := by
        funext i' j'
        rw [if_neg h0, if_neg h1]
        split
        · rename_i h; rw [h.2]
        · rfl
      rw [this]; exact hc

variable {lda La ldb Lb : Nat} {colsa colsb : Int} {ga gb : Int → Int → F} {a b : FA F} {k : Int}

/-- The entry of `op(B)` that `dgemm` reads. -/
def opB (tb : Bool) (gb : Int → Int → F) (l j : Int) : F := if tb then gb j l else gb l j

theorem opB_read (hb : Is2 b ldb colsb Lb gb) (hLb : Lb < 2 ^ 31) (tb : Bool)
    (hbB : if tb then Block ldb Lb n k else Block ldb Lb k n) {l j : Int}
    (hl : 1 ≤ l ∧ l ≤ k) (hj : 1 ≤ j ∧ j ≤ n) :
    (if tb then b.get2 j l else b.get2 l j) = pure (opB tb gb l j) := by
  unfold opB
  cases tb
  · simp only [Bool.false_eq_true, if_false] at hbB ⊢
    exact get2_is2 hb (hbB l j hl.1 hl.2 hj.1 hj.2) hLb
  · simp only [if_true] at hbB ⊢
    exact get2_is2 hb (hbB j l hj.1 hj.2 hl.1 hl.2) hLb

theorem gemmAxpy_ok (hL : L < 2 ^ 31) (hLa : La < 2 ^ 31) (hLb : Lb < 2 ^ 31)
    (hbC : Block ld L m n) (ha : Is2 a lda colsa La ga) (hbA : Block lda La m k)
    (hb : Is2 b ldb colsb Lb gb) (tb : Bool)
    (hbB : if tb then Block ldb Lb n k else Block ldb Lb k n)
    (alpha : F) {l j : Int} (hl : 1 ≤ l ∧ l ≤ k) (hj : 1 ≤ j ∧ j ≤ n)
    {c : FA F} {g : Int → Int → F} (hc : Is2 c ld cols L g) :
    ∃ c', gemmAxpy tb m alpha a b j c l = pure c' ∧ Is2 c' ld cols L
      (fun i' j' => if (1 ≤ i' ∧ i' ≤ m) ∧ j' = j then
        g i' j + alpha * opB tb gb l j * ga i' l else g i' j') := by
  obtain ⟨c', h1, h2⟩ := rowLoop (lo := 1) (hi := m) (j := j)
    (f := fun c i => do
      let ail ← a.get2 i l
      c.modify2 i j (· + alpha * opB tb gb l j * ail))
    (fun g i => g i j + alpha * opB tb gb l j * ga i l)
    (fun i h1 h2 c g hc => by
      rw [get2_is2 ha (hbA i l h1 h2 hl.1 hl.2) hLa]
      exact modify2_is2 hc (hbC i j h1 h2 hj.1 hj.2) hL (· + alpha * opB tb gb l j * ga i l))
    (fun i _ _ g g' h => by beta_reduce; rw [h]) hc
  refine ⟨c', ?_, h2⟩
  rw [← h1]
  have hr := opB_read hb hLb tb hbB hl hj
  unfold gemmAxpy
  cases tb
  · simp only [Bool.false_eq_true, if_false] at hr ⊢
    rw [hr]; rfl
  · simp only [if_true] at hr ⊢
    rw [hr]; rfl

theorem gemmNotA_ok (hL : L < 2 ^ 31) (hLa : La < 2 ^ 31) (hLb : Lb < 2 ^ 31)
    (hbC : Block ld L m n) (ha : Is2 a lda colsa La ga) (hbA : Block lda La m k)
    (hb : Is2 b ldb colsb Lb gb) (tb : Bool)
    (hbB : if tb then Block ldb Lb n k else Block ldb Lb k n)
    (alpha beta : F) {c : FA F} {g : Int → Int → F} (hc : Is2 c ld cols L g) :
    ∃ c', gemmNotA tb m n k alpha a b beta c = pure c' ∧ Is2 c' ld cols L
      (fun i j => if (1 ≤ i ∧ i ≤ m) ∧ (1 ≤ j ∧ j ≤ n) then
        (irange 1 k).foldl (fun acc l => acc + alpha * opB tb gb l j * ga i l)
          (betaVal beta (g i j)) else g i j) := by
  obtain ⟨c', h1, h2⟩ := colLoop (lo := 1) (hi := n)
    (f := fun c j => do
      let c ← betaCol m beta c j
      forUp 1 k c (gemmAxpy tb m alpha a b j))
    (fun g i j => if 1 ≤ i ∧ i ≤ m then
      (irange 1 k).foldl (fun acc l => acc + alpha * opB tb gb l j * ga i l)
        (betaVal beta (g i j)) else g i j)
    (fun j hj1 hj2 c g hc => by
      obtain ⟨c1, e1, e2⟩ := betaCol_ok hL (fun i h1 h2 => hbC i j h1 h2 hj1 hj2) beta hc
      obtain ⟨c2, e3, e4⟩ := pointLoop (lo := 1) (hi := k) (f := gemmAxpy tb m alpha a b j)
        (fun i' j' x l => if (1 ≤ i' ∧ i' ≤ m) ∧ j' = j then
          x + alpha * opB tb gb l j * ga i' l else x)
        (fun l hl1 hl2 c g hc => by
          obtain ⟨c', q1, q2⟩ := gemmAxpy_ok hL hLa hLb hbC ha hbA hb tb hbB alpha
            ⟨hl1, hl2⟩ ⟨hj1, hj2⟩ hc
          refine ⟨c', q1, ?_⟩
          convert q2 using 3 with i' j'
          split
          · rename_i h; rw [h.2]
          · rfl) e2
      refine ⟨c2, by rw [e1]; exact e3, ?_⟩
      convert e4 using 1
      funext i' j'
      by_cases hj : j' = j
      · subst hj
        by_cases hi : 1 ≤ i' ∧ i' ≤ m
        · simp only [hi, and_self, if_true]
        · simp only [hi, and_true, if_true, if_false]
          rw [foldl_const]; intros; rfl
      · simp only [hj, and_false, if_false]
        rw [foldl_const]; intros; rfl)
    (fun j _ _ g g' h i => by beta_reduce; rw [h]) hc
  refine ⟨c', h1, ?_⟩
  convert h2 using 1
  funext i j
  by_cases hi : 1 ≤ i ∧ i ≤ m <;> by_cases hj : 1 ≤ j ∧ j ≤ n <;> simp [hi, hj]

theorem gemmDot_ok (hLa : La < 2 ^ 31) (hLb : Lb < 2 ^ 31)
    (ha : Is2 a lda colsa La ga) (hbA : Block lda La k m)
    (hb : Is2 b ldb colsb Lb gb) (tb : Bool)
    (hbB : if tb then Block ldb Lb n k else Block ldb Lb k n)
    {i j : Int} (hi : 1 ≤ i ∧ i ≤ m) (hj : 1 ≤ j ∧ j ≤ n) :
    gemmDot tb k a b i j =
      pure ((irange 1 k).foldl (fun t l => t + ga l i * opB tb gb l j) zero) := by
  unfold gemmDot
  apply accLoop
  intro l h1 h2 t
  have hr := opB_read hb hLb tb hbB ⟨h1, h2⟩ hj
  rw [get2_is2 ha (hbA l i h1 h2 hi.1 hi.2) hLa]
  cases tb
  · simp only [Bool.false_eq_true, if_false] at hr ⊢
    rw [hr]; rfl
  · simp only [if_true] at hr ⊢
    rw [hr]; rfl

/-- What `gemmStore` puts in place of `x`. -/
def storeVal (alpha beta t x : F) : F :=
  if beta =ᶠ zero then alpha * t else alpha * t + beta * x

theorem gemmTransA_ok (hL : L < 2 ^ 31) (hLa : La < 2 ^ 31) (hLb : Lb < 2 ^ 31)
    (hbC : Block ld L m n) (ha : Is2 a lda colsa La ga) (hbA : Block lda La k m)
    (hb : Is2 b ldb colsb Lb gb) (tb : Bool)
    (hbB : if tb then Block ldb Lb n k else Block ldb Lb k n)
    (alpha beta : F) {c : FA F} {g : Int → Int → F} (hc : Is2 c ld cols L g) :
    ∃ c', gemmTransA tb m n k alpha a b beta c = pure c' ∧ Is2 c' ld cols L
      (fun i j => if (1 ≤ i ∧ i ≤ m) ∧ (1 ≤ j ∧ j ≤ n) then
        storeVal alpha beta ((irange 1 k).foldl (fun t l => t + ga l i * opB tb gb l j) zero)
          (g i j) else g i j) := by
  obtain ⟨c', h1, h2⟩ := colLoop (lo := 1) (hi := n)
    (f := fun c j => forUp 1 m c fun c i => do
      gemmStore alpha beta i j c (← gemmDot tb k a b i j))
    (fun g i j => if 1 ≤ i ∧ i ≤ m then
      storeVal alpha beta ((irange 1 k).foldl (fun t l => t + ga l i * opB tb gb l j) zero)
          (g i j) else g i j)
    (fun j hj1 hj2 c g hc => by
      obtain ⟨c2, e3, e4⟩ := rowLoop (lo := 1) (hi := m) (j := j)
        (f := fun c i => do gemmStore alpha beta i j c (← gemmDot tb k a b i j))
        (fun g i =>
          storeVal alpha beta ((irange 1 k).foldl (fun t l => t + ga l i * opB tb gb l j) zero)
            (g i j))
        (fun i h1 h2 c g hc => by
          rw [gemmDot_ok hLa hLb ha hbA hb tb hbB ⟨h1, h2⟩ ⟨hj1, hj2⟩, pure_bind]
          unfold gemmStore storeVal
          by_cases h0 : (beta =ᶠ zero) = true
          · simp only [h0, if_true]
            exact set2_is2 hc (hbC i j h1 h2 hj1 hj2) hL _
          · simp only [h0, if_false]
            rw [get2_is2 hc (hbC i j h1 h2 hj1 hj2) hL, pure_bind]
            exact set2_is2 hc (hbC i j h1 h2 hj1 hj2) hL _)
        (fun i _ _ g g' h => by beta_reduce; rw [h]) hc
      refine ⟨c2, e3, ?_⟩
      convert e4 using 1
      funext i' j'
      by_cases hj : j' = j
      · subst hj
        by_cases hi : 1 ≤ i' ∧ i' ≤ m <;> simp [hi]
      · simp only [hj, and_false, if_false])
    (fun j _ _ g g' h i => by beta_reduce; rw [h]) hc
  refine ⟨c', h1, ?_⟩
  convert h2 using 1
  funext i j
  by_cases hi : 1 ≤ i ∧ i ≤ m <;> by_cases hj : 1 ≤ j ∧ j ≤ n <;> simp [hi, hj]

theorem zeroBlock_ok (hL : L < 2 ^ 31) (hbC : Block ld L m n)
    {c : FA F} {g : Int → Int → F} (hc : Is2 c ld cols L g) :
    ∃ c', forUp 1 n c (zeroCol m) = pure c' ∧ Is2 c' ld cols L
      (fun i j => if (1 ≤ i ∧ i ≤ m) ∧ (1 ≤ j ∧ j ≤ n) then zero else g i j) := by
  obtain ⟨c', h1, h2⟩ := colLoop (lo := 1) (hi := n) (f := zeroCol m)
    (fun g i j => if 1 ≤ i ∧ i ≤ m then zero else g i j)
    (fun j hj1 hj2 c g hc => by
      obtain ⟨c', e1, e2⟩ := zeroCol_ok hL (fun i h1 h2 => hbC i j h1 h2 hj1 hj2) hc
      refine ⟨c', e1, ?_⟩
      convert e2 using 1
      funext i' j'
      by_cases hj : j' = j
      · subst hj; by_cases hi : 1 ≤ i' ∧ i' ≤ m <;> simp [hi]
      · simp only [hj, and_false, if_false])
    (fun j _ _ g g' h i => by beta_reduce; rw [h]) hc
  refine ⟨c', h1, ?_⟩
  convert h2 using 1
  funext i j
  by_cases hi : 1 ≤ i ∧ i ≤ m <;> by_cases hj : 1 ≤ j ∧ j ≤ n <;> simp [hi, hj]

theorem scaleBlock_ok (hL : L < 2 ^ 31) (hbC : Block ld L m n) (beta : F)
    {c : FA F} {g : Int → Int → F} (hc : Is2 c ld cols L g) :
    ∃ c', forUp 1 n c (scaleCol m beta) = pure c' ∧ Is2 c' ld cols L
      (fun i j => if (1 ≤ i ∧ i ≤ m) ∧ (1 ≤ j ∧ j ≤ n) then g i j * beta else g i j) := by
  obtain ⟨c', h1, h2⟩ := colLoop (lo := 1) (hi := n) (f := scaleCol m beta)
    (fun g i j => if 1 ≤ i ∧ i ≤ m then g i j * beta else g i j)
    (fun j hj1 hj2 c g hc => by
      obtain ⟨c', e1, e2⟩ := scaleCol_ok hL (fun i h1 h2 => hbC i j h1 h2 hj1 hj2) beta hc
      refine ⟨c', e1, ?_⟩
      convert e2 using 1
      funext i' j'
      by_cases hj : j' = j
      · subst hj; by_cases hi : 1 ≤ i' ∧ i' ≤ m <;> simp [hi]
      · simp only [hj, and_false, if_false])
    (fun j _ _ g g' h i => by beta_reduce; rw [h]) hc
  refine ⟨c', h1, ?_⟩
  convert h2 using 1
  funext i j
  by_cases hi : 1 ≤ i ∧ i ≤ m <;> by_cases hj : 1 ≤ j ∧ j ≤ n <;> simp [hi, hj]

end
end Verif

import Verif.Lib.Gemm

/-!
# `dtrmm`: what each loop nest computes
-/

set_option linter.unusedSectionVars false

namespace Verif
open Scalar

variable {F : Type} [Scalar F]
variable {ld L lda La : Nat} {cols colsa m n : Int} {ga : Int → Int → F} {a : FA F}

/-- `x * d` for a general triangle, `x` for a unit triangle. -/
def diagMul (nounit : Bool) (x d : F) : F := if nounit then x * d else x

theorem is2_of_eq {c : FA F} {g g' : Int → Int → F} (h : Is2 c ld cols L g) (e : g = g') :
    Is2 c ld cols L g' := e ▸ h

/-! ### Left, no transpose -/

/-- Start value of row `i`. -/
def lnStart (nounit : Bool) (alpha : F) (ga : Int → Int → F) (b : Int → F) (i : Int) : F :=
  if b i ≠ᶠ zero then diagMul nounit (alpha * b i) (ga i i) else b i

/-- Contribution of row `k` to row `i`. -/
def lnStep (alpha : F) (ga : Int → Int → F) (b : Int → F) (i : Int) (acc : F) (k : Int) : F :=
  if b k ≠ᶠ zero then acc + alpha * b k * ga i k else acc

theorem lnStep_pos {alpha : F} {ga : Int → Int → F} {b : Int → F} {i k : Int} {acc : F}
    (h : (b k ≠ᶠ zero) = true) : lnStep alpha ga b i acc k = acc + alpha * b k * ga i k := if_pos h

theorem lnStep_neg {alpha : F} {ga : Int → Int → F} {b : Int → F} {i k : Int} {acc : F}
    (h : ¬ (b k ≠ᶠ zero) = true) : lnStep alpha ga b i acc k = acc := if_neg h

theorem trmmAxpyA_ok (hL : L < 2 ^ 31) (hLa : La < 2 ^ 31) {lo hi k j : Int}
    (hC : ∀ i, lo ≤ i → i ≤ hi → Cell ld L i j) (ha : Is2 a lda colsa La ga)
    (hA : ∀ i, lo ≤ i → i ≤ hi → Cell lda La i k) (temp : F)
    {b : FA F} {g : Int → Int → F} (hb : Is2 b ld cols L g) :
    ∃ b', trmmAxpyA lo hi temp a k j b = pure b' ∧ Is2 b' ld cols L
      (fun i' j' => if (lo ≤ i' ∧ i' ≤ hi) ∧ j' = j then g i' j + temp * ga i' k else g i' j') :=
  rowLoop (fun g i => g i j + temp * ga i k)
    (fun i h1 h2 c g hc => by
      rw [get2_is2 ha (hA i h1 h2) hLa]
      exact modify2_is2 hc (hC i h1 h2) hL (· + temp * ga i k))
    (fun i _ _ g g' h => by beta_reduce; rw [h]) hb

section Left
variable (hL : L < 2 ^ 31) (hLa : La < 2 ^ 31) (ha : Is2 a lda colsa La ga)
  (hA : Block lda La m m) (hB : Block ld L m n)
include hL hLa ha hA hB

theorem lun_col (nounit : Bool) (alpha : F) {j : Int} (hj1 : 1 ≤ j) (hj2 : j ≤ n)
    {b : FA F} {g : Int → Int → F} (hb : Is2 b ld cols L g) :
    ∃ b', forUp 1 m b (trmmLUNStep nounit alpha a j) = pure b' ∧ Is2 b' ld cols L
      (fun i' j' => if j' = j then (if 1 ≤ i' ∧ i' ≤ m then
        (irange (i' + 1) m).foldl (lnStep alpha ga (g · j) i') (lnStart nounit alpha ga (g · j) i')
        else g i' j) else g i' j') := by
  by_cases hm : 0 ≤ m
  swap
  · refine ⟨b, forUp_empty (by omega) _ _, is2_of_eq hb ?_⟩
    funext i' j'
    rw [if_neg (show ¬ (1 ≤ i' ∧ i' ≤ m) by omega)]
    split
    · rename_i h; rw [h]
    · rfl
  obtain ⟨b', e1, e2⟩ := forUp_inv (f := trmmLUNStep nounit alpha a j) (lo := 1) (hi := m)
    (P := fun k c => Is2 c ld cols L (fun i' j' => if j' = j ∧ 1 ≤ i' ∧ i' < k then
      (irange (i' + 1) (k - 1)).foldl (lnStep alpha ga (g · j) i')
        (lnStart nounit alpha ga (g · j) i') else g i' j')) (by omega)
    (fun k c hk1 hk2 hP => by
      unfold trmmLUNStep
      rw [get2_is2 hP (hB k j hk1 hk2 hj1 hj2) hL, if_neg (by omega), pure_bind]
      by_cases h0 : (g k j ≠ᶠ zero) = true
      · rw [if_pos h0]
        obtain ⟨c1, q1, q2⟩ := trmmAxpyA_ok (lo := 1) (hi := k - 1) (k := k) (j := j) hL hLa
          (fun i h1 h2 => hB i j h1 (by omega) hj1 hj2) ha
          (fun i h1 h2 => hA i k h1 (by omega) hk1 hk2) (alpha * g k j) hP
        obtain ⟨c2, q3, q4⟩ := set2_is2 q2 (hB k j hk1 hk2 hj1 hj2) hL
          (diagMul nounit (alpha * g k j) (ga k k))
        refine ⟨c2, ?_, is2_of_eq q4 ?_⟩
        · dsimp only
          rw [q1, pure_bind, get2_is2 ha (hA k k hk1 hk2 hk1 hk2) hLa]
          unfold diagMul at q3
          cases nounit <;> exact q3
        · funext i' j'
          unfold upd2
          beta_reduce
          by_cases hjj : j' = j
          · subst hjj
            rcases lt_trichotomy i' k with h | h | h
            · by_cases h1 : 1 ≤ i'
              · rw [if_neg (by omega), if_pos ⟨⟨h1, by omega⟩, rfl⟩, if_pos ⟨rfl, h1, h⟩,
                  if_pos ⟨rfl, h1, by omega⟩, add_sub_cancel_right,
                  irange_snoc (lo := i' + 1) (hi := k) (by omega), List.foldl_append]
                simp only [List.foldl_cons, List.foldl_nil]
                exact (lnStep_pos (b := fun x => g x j') h0).symm
              · rw [if_neg (by omega), if_neg (by omega), if_neg (by omega), if_neg (by omega)]
            · subst h
              rw [if_pos ⟨rfl, rfl⟩, if_pos ⟨rfl, hk1, by omega⟩, irange_empty (by omega)]
              simp only [List.foldl_nil]
              unfold lnStart
              rw [if_pos h0]
            · rw [if_neg (by omega), if_neg (by omega), if_neg (by omega), if_neg (by omega)]
          · rw [if_neg (by tauto), if_neg (by tauto), if_neg (by tauto), if_neg (by tauto)]
      · rw [if_neg h0]
        refine ⟨c, rfl, is2_of_eq hP ?_⟩
        funext i' j'
        by_cases hjj : j' = j
        · subst hjj
          rcases lt_trichotomy i' k with h | h | h
          · by_cases h1 : 1 ≤ i'
            · rw [if_pos ⟨rfl, h1, h⟩,
                if_pos ⟨rfl, h1, by omega⟩, add_sub_cancel_right,
                irange_snoc (lo := i' + 1) (hi := k) (by omega), List.foldl_append]
              simp only [List.foldl_cons, List.foldl_nil]
              exact (lnStep_neg (b := fun x => g x j') h0).symm
            · rw [if_neg (by omega), if_neg (by omega)]
          · subst h
            rw [if_neg (by omega), if_pos ⟨rfl, hk1, by omega⟩, irange_empty (by omega)]
            simp only [List.foldl_nil]
            unfold lnStart
            rw [if_neg h0]
          · rw [if_neg (by omega), if_neg (by omega)]
        · rw [if_neg (by tauto), if_neg (by tauto)])
    (s := b) (is2_of_eq hb (by funext i' j'; rw [if_neg (by omega)]))
  refine ⟨b', e1, is2_of_eq e2 ?_⟩
  funext i' j'
  by_cases hjj : j' = j
  · subst hjj
    rw [if_pos rfl, add_sub_cancel_right]
    by_cases hi : 1 ≤ i' ∧ i' ≤ m
    · rw [if_pos hi, if_pos ⟨rfl, hi.1, by omega⟩]
    · rw [if_neg hi, if_neg (by omega)]
  · rw [if_neg (by tauto), if_neg hjj]

theorem lln_col (nounit : Bool) (alpha : F) {j : Int} (hj1 : 1 ≤ j) (hj2 : j ≤ n)
    {b : FA F} {g : Int → Int → F} (hb : Is2 b ld cols L g) :
    ∃ b', forDown 1 m b (trmmLLNStep nounit m alpha a j) = pure b' ∧ Is2 b' ld cols L
      (fun i' j' => if j' = j then (if 1 ≤ i' ∧ i' ≤ m then
        (irange 1 (i' - 1)).reverse.foldl (lnStep alpha ga (g · j) i')
          (lnStart nounit alpha ga (g · j) i')
        else g i' j) else g i' j') := by
  by_cases hm : 0 ≤ m
  swap
  · refine ⟨b, forDown_empty (by omega) _ _, is2_of_eq hb ?_⟩
    funext i' j'
    rw [if_neg (show ¬ (1 ≤ i' ∧ i' ≤ m) by omega)]
    split
    · rename_i h; rw [h]
    · rfl
  obtain ⟨b', e1, e2⟩ := forDown_inv (f := trmmLLNStep nounit m alpha a j) (lo := 1) (hi := m)
    (P := fun k c => Is2 c ld cols L (fun i' j' => if j' = j ∧ k < i' ∧ i' ≤ m then
      (irange (k + 1) (i' - 1)).reverse.foldl (lnStep alpha ga (g · j) i')
        (lnStart nounit alpha ga (g · j) i') else g i' j')) (by omega)
    (fun k c hk1 hk2 hP => by
      unfold trmmLLNStep
      rw [get2_is2 hP (hB k j hk1 hk2 hj1 hj2) hL, if_neg (by omega), pure_bind]
      by_cases h0 : (g k j ≠ᶠ zero) = true
      · rw [if_pos h0]
        obtain ⟨c0, p1, p2⟩ := set2_is2 hP (hB k j hk1 hk2 hj1 hj2) hL (alpha * g k j)
        have hmid : ∃ c1, (if nounit then do
              let akk ← a.get2 k k
              c0.modify2 k j (· * akk)
            else pure c0) = pure c1 ∧ Is2 c1 ld cols L (upd2 (fun i' j' =>
              if j' = j ∧ k < i' ∧ i' ≤ m then
                (irange (k + 1) (i' - 1)).reverse.foldl (lnStep alpha ga (g · j) i')
                  (lnStart nounit alpha ga (g · j) i') else g i' j') k j
              (diagMul nounit (alpha * g k j) (ga k k))) := by
          unfold diagMul
          cases nounit
          · exact ⟨c0, rfl, p2⟩
          · obtain ⟨c1, r1, r2⟩ := modify2_is2 p2 (hB k j hk1 hk2 hj1 hj2) hL (· * ga k k)
            refine ⟨c1, ?_, is2_of_eq r2 ?_⟩
            · rw [if_pos rfl, get2_is2 ha (hA k k hk1 hk2 hk1 hk2) hLa]; exact r1
            · funext i' j'
              unfold upd2
              beta_reduce
              simp only [and_self, if_true]
              split <;> rfl
        obtain ⟨c1, r1, r2⟩ := hmid
        obtain ⟨c2, q1, q2⟩ := trmmAxpyA_ok (lo := k + 1) (hi := m) (k := k) (j := j) hL hLa
          (fun i h1 h2 => hB i j (by omega) h2 hj1 hj2) ha
          (fun i h1 h2 => hA i k (by omega) h2 hk1 hk2) (alpha * g k j) r2
        refine ⟨c2, ?_, is2_of_eq q2 ?_⟩
        · dsimp only
          rw [p1, pure_bind]
          cases nounit
          · simp only [Bool.false_eq_true, if_false] at r1 ⊢
            rw [r1, pure_bind]; exact q1
          · simp only [if_true] at r1 ⊢
            rw [get2_is2 ha (hA k k hk1 hk2 hk1 hk2) hLa, pure_bind] at r1 ⊢
            rw [r1, pure_bind]; exact q1
        · funext i' j'
          unfold upd2
          beta_reduce
          by_cases hjj : j' = j
          · subst hjj
            rcases lt_trichotomy k i' with h | h | h
            · by_cases h1 : i' ≤ m
              · rw [if_pos ⟨⟨by omega, by omega⟩, rfl⟩, if_neg (by omega), if_pos ⟨rfl, h, h1⟩,
                  if_pos ⟨rfl, by omega, h1⟩, sub_add_cancel,
                  irange_cons (lo := k) (hi := i' - 1) (by omega), List.reverse_cons,
                  List.foldl_append]
                simp only [List.foldl_cons, List.foldl_nil]
                exact (lnStep_pos (b := fun x => g x j') h0).symm
              · rw [if_neg (by omega), if_neg (by omega), if_neg (by omega), if_neg (by omega)]
            · subst h
              rw [if_neg (by omega), if_pos ⟨rfl, rfl⟩, if_pos ⟨rfl, by omega, hk2⟩,
                irange_empty (by omega)]
              simp only [List.reverse_nil, List.foldl_nil]
              unfold lnStart
              rw [if_pos h0]
            · rw [if_neg (by omega), if_neg (by omega), if_neg (by omega), if_neg (by omega)]
          · rw [if_neg (by tauto), if_neg (by tauto), if_neg (by tauto), if_neg (by tauto)]
      · rw [if_neg h0]
        refine ⟨c, rfl, is2_of_eq hP ?_⟩
        funext i' j'
        by_cases hjj : j' = j
        · subst hjj
          rcases lt_trichotomy k i' with h | h | h
          · by_cases h1 : i' ≤ m
            · rw [if_pos ⟨rfl, h, h1⟩,
                if_pos ⟨rfl, by omega, h1⟩, sub_add_cancel,
                irange_cons (lo := k) (hi := i' - 1) (by omega), List.reverse_cons,
                List.foldl_append]
              simp only [List.foldl_cons, List.foldl_nil]
              exact (lnStep_neg (b := fun x => g x j') h0).symm
            · rw [if_neg (by omega), if_neg (by omega)]
          · subst h
            rw [if_neg (by omega), if_pos ⟨rfl, by omega, hk2⟩, irange_empty (by omega)]
            simp only [List.reverse_nil, List.foldl_nil]
            unfold lnStart
            rw [if_neg h0]
          · rw [if_neg (by omega), if_neg (by omega)]
        · rw [if_neg (by tauto), if_neg (by tauto)])
    (s := b) (is2_of_eq hb (by funext i' j'; rw [if_neg (by omega)]))
  refine ⟨b', e1, is2_of_eq e2 ?_⟩
  funext i' j'
  by_cases hjj : j' = j
  · subst hjj
    rw [if_pos rfl]
    by_cases hi : 1 ≤ i' ∧ i' ≤ m
    · rw [if_pos hi, if_pos ⟨rfl, by omega, hi.2⟩]; rfl
    · rw [if_neg hi, if_neg (by omega)]
  · rw [if_neg (by tauto), if_neg hjj]

/-- One row of the transposed product. -/
def ltVal (nounit : Bool) (alpha : F) (ga : Int → Int → F) (b : Int → F) (lo hi i : Int) : F :=
  alpha * (irange lo hi).foldl (fun t k => t + ga k i * b k) (diagMul nounit (b i) (ga i i))

theorem ltStep_ok (nounit : Bool) (alpha : F) {j : Int} (hj1 : 1 ≤ j) (hj2 : j ≤ n)
    {i lo hi : Int} (hi1 : 1 ≤ i) (hi2 : i ≤ m) (hlo : 1 ≤ lo) (hhi : hi ≤ m)
    {b : FA F} {g : Int → Int → F} (hb : Is2 b ld cols L g) :
    ∃ b', trmmLTStep nounit lo hi alpha a j b i = pure b' ∧ Is2 b' ld cols L
      (upd2 g i j (ltVal nounit alpha ga (g · j) lo hi i)) := by
  obtain ⟨b', e1, e2⟩ := set2_is2 hb (hB i j hi1 hi2 hj1 hj2) hL
    (ltVal nounit alpha ga (g · j) lo hi i)
  refine ⟨b', ?_, e2⟩
  unfold trmmLTStep
  rw [get2_is2 hb (hB i j hi1 hi2 hj1 hj2) hL, pure_bind,
    get2_is2 ha (hA i i hi1 hi2 hi1 hi2) hLa]
  have hloop : ∀ t : F, (forUp lo hi t fun temp k => do
      let aki ← a.get2 k i
      let bkj ← b.get2 k j
      pure (temp + aki * bkj)) =
      pure ((irange lo hi).foldl (fun t k => t + ga k i * g k j) t) := by
    intro t
    apply accLoop
    intro k h1 h2 t
    rw [get2_is2 ha (hA k i (by omega) (by omega) hi1 hi2) hLa,
      get2_is2 hb (hB k j (by omega) (by omega) hj1 hj2) hL]
    rfl
  unfold ltVal diagMul at e1
  cases nounit
  · simp only [Bool.false_eq_true, if_false, pure_bind] at e1 ⊢
    rw [hloop, pure_bind]; exact e1
  · simp only [if_true, pure_bind] at e1 ⊢
    rw [hloop, pure_bind]; exact e1

theorem ltu_col (nounit : Bool) (alpha : F) {j : Int} (hj1 : 1 ≤ j) (hj2 : j ≤ n)
    {b : FA F} {g : Int → Int → F} (hb : Is2 b ld cols L g) :
    ∃ b', (forDown 1 m b fun b i => trmmLTStep nounit 1 (i - 1) alpha a j b i) = pure b' ∧
      Is2 b' ld cols L (fun i' j' => if j' = j then (if 1 ≤ i' ∧ i' ≤ m then
        ltVal nounit alpha ga (g · j) 1 (i' - 1) i' else g i' j) else g i' j') := by
  by_cases hm : 0 ≤ m
  swap
  · refine ⟨b, forDown_empty (by omega) _ _, is2_of_eq hb ?_⟩
    funext i' j'
    rw [if_neg (show ¬ (1 ≤ i' ∧ i' ≤ m) by omega)]
    split
    · rename_i h; rw [h]
    · rfl
  obtain ⟨b', e1, e2⟩ := forDown_inv
    (f := fun b i => trmmLTStep nounit 1 (i - 1) alpha a j b i) (lo := 1) (hi := m)
    (P := fun k c => Is2 c ld cols L (fun i' j' => if j' = j ∧ k < i' ∧ i' ≤ m then
      ltVal nounit alpha ga (g · j) 1 (i' - 1) i' else g i' j')) (by omega)
    (fun k c hk1 hk2 hP => by
      obtain ⟨c', q1, q2⟩ := ltStep_ok hL hLa ha hA hB nounit alpha hj1 hj2 hk1 hk2
        (le_refl 1) (show k - 1 ≤ m by omega) hP
      refine ⟨c', q1, is2_of_eq q2 ?_⟩
      funext i' j'
      unfold upd2
      beta_reduce
      by_cases hjj : i' = k ∧ j' = j
      · obtain ⟨rfl, rfl⟩ := hjj
        rw [if_pos ⟨rfl, rfl⟩, if_pos ⟨rfl, by omega, hk2⟩]
        unfold ltVal
        congr 1
        beta_reduce
        rw [if_neg (by omega)]
        apply foldl_congr'
        intro s x hx
        rw [mem_irange] at hx
        rw [if_neg (by omega)]
      · rw [if_neg hjj]
        by_cases hc : j' = j ∧ k < i' ∧ i' ≤ m
        · rw [if_pos hc, if_pos ⟨hc.1, by omega, hc.2.2⟩]
        · rw [if_neg hc, if_neg (by omega)])
    (s := b) (is2_of_eq hb (by funext i' j'; rw [if_neg (by omega)]))
  refine ⟨b', e1, is2_of_eq e2 ?_⟩
  funext i' j'
  by_cases hjj : j' = j
  · subst hjj
    rw [if_pos rfl]
    by_cases hi : 1 ≤ i' ∧ i' ≤ m
    · rw [if_pos hi, if_pos ⟨rfl, by omega, hi.2⟩]
    · rw [if_neg hi, if_neg (by omega)]
  · rw [if_neg (by tauto), if_neg hjj]

theorem ltl_col (nounit : Bool) (alpha : F) {j : Int} (hj1 : 1 ≤ j) (hj2 : j ≤ n)
    {b : FA F} {g : Int → Int → F} (hb : Is2 b ld cols L g) :
    ∃ b', (forUp 1 m b fun b i => trmmLTStep nounit (i + 1) m alpha a j b i) = pure b' ∧
      Is2 b' ld cols L (fun i' j' => if j' = j then (if 1 ≤ i' ∧ i' ≤ m then
        ltVal nounit alpha ga (g · j) (i' + 1) m i' else g i' j) else g i' j') := by
  by_cases hm : 0 ≤ m
  swap
  · refine ⟨b, forUp_empty (by omega) _ _, is2_of_eq hb ?_⟩
    funext i' j'
    rw [if_neg (show ¬ (1 ≤ i' ∧ i' ≤ m) by omega)]
    split
    · rename_i h; rw [h]
    · rfl
  obtain ⟨b', e1, e2⟩ := forUp_inv
    (f := fun b i => trmmLTStep nounit (i + 1) m alpha a j b i) (lo := 1) (hi := m)
    (P := fun k c => Is2 c ld cols L (fun i' j' => if j' = j ∧ 1 ≤ i' ∧ i' < k then
      ltVal nounit alpha ga (g · j) (i' + 1) m i' else g i' j')) (by omega)
    (fun k c hk1 hk2 hP => by
      obtain ⟨c', q1, q2⟩ := ltStep_ok hL hLa ha hA hB nounit alpha hj1 hj2 hk1 hk2
        (show 1 ≤ k + 1 by omega) (le_refl m) hP
      refine ⟨c', q1, is2_of_eq q2 ?_⟩
      funext i' j'
      unfold upd2
      beta_reduce
      by_cases hjj : i' = k ∧ j' = j
      · obtain ⟨rfl, rfl⟩ := hjj
        rw [if_pos ⟨rfl, rfl⟩, if_pos ⟨rfl, hk1, by omega⟩]
        unfold ltVal
        congr 1
        beta_reduce
        rw [if_neg (by omega)]
        apply foldl_congr'
        intro s x hx
        rw [mem_irange] at hx
        rw [if_neg (by omega)]
      · rw [if_neg hjj]
        by_cases hc : j' = j ∧ 1 ≤ i' ∧ i' < k
        · rw [if_pos hc, if_pos ⟨hc.1, hc.2.1, by omega⟩]
        · rw [if_neg hc, if_neg (by omega)])
    (s := b) (is2_of_eq hb (by funext i' j'; rw [if_neg (by omega)]))
  refine ⟨b', e1, is2_of_eq e2 ?_⟩
  funext i' j'
  by_cases hjj : j' = j
  · subst hjj
    rw [if_pos rfl]
    by_cases hi : 1 ≤ i' ∧ i' ≤ m
    · rw [if_pos hi, if_pos ⟨rfl, hi.1, by omega⟩]
    · rw [if_neg hi, if_neg (by omega)]
  · rw [if_neg (by tauto), if_neg hjj]

end Left

/-- From columns to the whole block (left side). -/
theorem left_all {f : FA F → Int → R (FA F)} (V : (Int → F) → Int → F)
    (hf : ∀ j, 1 ≤ j → j ≤ n → ∀ b g, Is2 b ld cols L g → ∃ b', f b j = pure b' ∧
      Is2 b' ld cols L (fun i' j' => if j' = j then (if 1 ≤ i' ∧ i' ≤ m then
        V (g · j) i' else g i' j) else g i' j'))
    {b : FA F} {g : Int → Int → F} (hb : Is2 b ld cols L g) :
    ∃ b', forUp 1 n b f = pure b' ∧ Is2 b' ld cols L (fun i j =>
      if (1 ≤ i ∧ i ≤ m) ∧ (1 ≤ j ∧ j ≤ n) then V (g · j) i else g i j) := by
  obtain ⟨b', h1, h2⟩ := colLoop (lo := 1) (hi := n) (f := f)
    (fun g i j => if 1 ≤ i ∧ i ≤ m then V (g · j) i else g i j) hf
    (fun j _ _ g g' h i => by
      beta_reduce
      have : (fun x => g x j) = (fun x => g' x j) := funext h
      rw [this, h]) hb
  refine ⟨b', h1, is2_of_eq h2 ?_⟩
  funext i j
  by_cases hi : 1 ≤ i ∧ i ≤ m <;> by_cases hj : 1 ≤ j ∧ j ≤ n <;> simp [hi, hj]

/-! ### Right side -/

section Right

theorem trmmScale_ok (hL : L < 2 ^ 31) {j : Int} (hC : ∀ i, 1 ≤ i → i ≤ m → Cell ld L i j)
    (temp : F) {b : FA F} {g : Int → Int → F} (hb : Is2 b ld cols L g) :
    ∃ b', trmmScale m temp j b = pure b' ∧ Is2 b' ld cols L
      (fun i' j' => if (1 ≤ i' ∧ i' ≤ m) ∧ j' = j then temp * g i' j else g i' j') :=
  rowLoop (fun g i => temp * g i j)
    (fun i h1 h2 _ _ hc => modify2_is2 hc (hC i h1 h2) hL (temp * ·))
    (fun i _ _ g g' h => by beta_reduce; rw [h]) hb

theorem trmmAxpyB_ok (hL : L < 2 ^ 31) {j k : Int} (hC : ∀ i, 1 ≤ i → i ≤ m → Cell ld L i j)
    (hK : ∀ i, 1 ≤ i → i ≤ m → Cell ld L i k)
    (temp : F) {b : FA F} {g : Int → Int → F} (hb : Is2 b ld cols L g) :
    ∃ b', trmmAxpyB m temp j k b = pure b' ∧ Is2 b' ld cols L
      (fun i' j' => if (1 ≤ i' ∧ i' ≤ m) ∧ j' = j then g i' j + temp * g i' k else g i' j') :=
  rowLoop (fun g i => g i j + temp * g i k)
    (fun i h1 h2 c g hc => by
      rw [get2_is2 hc (hK i h1 h2) hL]
      exact modify2_is2 hc (hC i h1 h2) hL (· + temp * g i k))
    (fun i _ _ g g' h => by beta_reduce; rw [h, h]) hb

/-- Accumulation of entry `k` of the row `r` with coefficient `alpha * c`, skipped for `c = 0`. -/
def rAcc (alpha c : F) (r : Int → F) (acc : F) (k : Int) : F :=
  if c ≠ᶠ zero then acc + alpha * c * r k else acc

/-- One entry of the product from the right, no transpose. -/
def rnVal (nounit : Bool) (alpha : F) (ga : Int → Int → F) (r : Int → F) (lo hi j : Int) : F :=
  (irange lo hi).foldl (fun acc k => rAcc alpha (ga k j) r acc k)
    (diagMul nounit alpha (ga j j) * r j)

/-- Start value of an entry of the product from the right, transpose. -/
def rtStart (nounit : Bool) (alpha : F) (ga : Int → Int → F) (r : Int → F) (j : Int) : F :=
  if diagMul nounit alpha (ga j j) ≠ᶠ one then diagMul nounit alpha (ga j j) * r j else r j

variable (hL : L < 2 ^ 31) (hLa : La < 2 ^ 31) (ha : Is2 a lda colsa La ga)
  (hA : Block lda La n n) (hB : Block ld L m n)
include hL hLa ha hA hB

theorem rnStep_ok (nounit : Bool) (alpha : F) {j lo hi : Int} (hj1 : 1 ≤ j) (hj2 : j ≤ n)
    (hlo : 1 ≤ lo) (hhi : hi ≤ n) (hnot : j < lo ∨ hi < j)
    {b : FA F} {g : Int → Int → F} (hb : Is2 b ld cols L g) :
    ∃ b', trmmRNStep nounit m lo hi alpha a b j = pure b' ∧ Is2 b' ld cols L
      (fun i' j' => if (1 ≤ i' ∧ i' ≤ m) ∧ j' = j then rnVal nounit alpha ga (g i') lo hi j
        else g i' j') := by
  obtain ⟨b1, e1, e2⟩ := trmmScale_ok hL (fun i h1 h2 => hB i j h1 h2 hj1 hj2)
    (diagMul nounit alpha (ga j j)) hb
  have hmain : ∃ b', (forUp lo hi b1 fun b k => do
      let akj ← a.get2 k j
      if akj ≠ᶠ zero then trmmAxpyB m (alpha * akj) j k b else pure b) = pure b' ∧
      Is2 b' ld cols L (fun i' j' => if (1 ≤ i' ∧ i' ≤ m) ∧ j' = j then
        rnVal nounit alpha ga (g i') lo hi j else g i' j') := by
    by_cases hlh : lo ≤ hi + 1
    · obtain ⟨b', q1, q2⟩ := forUp_inv (lo := lo) (hi := hi)
        (f := fun b k => do
          let akj ← a.get2 k j
          if akj ≠ᶠ zero then trmmAxpyB m (alpha * akj) j k b else pure b)
        (P := fun k c => Is2 c ld cols L (fun i' j' => if (1 ≤ i' ∧ i' ≤ m) ∧ j' = j then
          rnVal nounit alpha ga (g i') lo (k - 1) j else g i' j')) hlh
        (fun k c hk1 hk2 hP => by
          rw [get2_is2 ha (hA k j (by omega) (by omega) hj1 hj2) hLa, pure_bind]
          have hval : ∀ r : Int → F, rnVal nounit alpha ga r lo (k + 1 - 1) j =
              rAcc alpha (ga k j) r (rnVal nounit alpha ga r lo (k - 1) j) k := by
            intro r
            unfold rnVal
            rw [add_sub_cancel_right, irange_snoc (lo := lo) (hi := k) hk1, List.foldl_append]
            rfl
          by_cases h0 : (ga k j ≠ᶠ zero) = true
          · rw [if_pos h0]
            obtain ⟨c', r1, r2⟩ := trmmAxpyB_ok (m := m) hL (j := j) (k := k)
              (fun i h1 h2 => hB i j h1 h2 hj1 hj2)
              (fun i h1 h2 => hB i k h1 h2 (by omega) (by omega)) (alpha * ga k j) hP
            refine ⟨c', r1, is2_of_eq r2 ?_⟩
            funext i' j'
            beta_reduce
            by_cases hc : (1 ≤ i' ∧ i' ≤ m) ∧ j' = j
            · rw [if_pos hc, if_pos hc, if_pos ⟨hc.1, rfl⟩, if_neg (by omega), hval]
              exact (if_pos h0).symm
            · rw [if_neg hc, if_neg hc, if_neg hc]
          · rw [if_neg h0]
            refine ⟨c, rfl, is2_of_eq hP ?_⟩
            funext i' j'
            by_cases hc : (1 ≤ i' ∧ i' ≤ m) ∧ j' = j
            · rw [if_pos hc, if_pos hc, hval]
              exact (if_neg h0).symm
            · rw [if_neg hc, if_neg hc])
        (s := b1) (is2_of_eq e2 (by
          funext i' j'
          unfold rnVal
          rw [irange_empty (by omega)]; rfl))
      refine ⟨b', q1, is2_of_eq q2 ?_⟩
      funext i' j'
      rw [add_sub_cancel_right]
    · refine ⟨b1, forUp_empty (by omega) _ _, is2_of_eq e2 ?_⟩
      funext i' j'
      unfold rnVal
      rw [irange_empty (by omega)]; rfl
  obtain ⟨b', q1, q2⟩ := hmain
  refine ⟨b', ?_, q2⟩
  unfold trmmRNStep
  rw [get2_is2 ha (hA j j hj1 hj2 hj1 hj2) hLa]
  unfold diagMul at e1
  cases nounit
  · simp only [Bool.false_eq_true, if_false, pure_bind] at e1 ⊢
    rw [e1, pure_bind]; exact q1
  · simp only [if_true, pure_bind] at e1 ⊢
    rw [e1, pure_bind]; exact q1

theorem rnu_ok (hn : 0 ≤ n) (nounit : Bool) (alpha : F) {b : FA F} {g : Int → Int → F}
    (hb : Is2 b ld cols L g) :
    ∃ b', (forDown 1 n b fun b j => trmmRNStep nounit m 1 (j - 1) alpha a b j) = pure b' ∧
      Is2 b' ld cols L (fun i j => if (1 ≤ i ∧ i ≤ m) ∧ (1 ≤ j ∧ j ≤ n) then
        rnVal nounit alpha ga (g i) 1 (j - 1) j else g i j) := by
  obtain ⟨b', e1, e2⟩ := forDown_inv (lo := 1) (hi := n)
    (f := fun b j => trmmRNStep nounit m 1 (j - 1) alpha a b j)
    (P := fun k c => Is2 c ld cols L (fun i j => if (1 ≤ i ∧ i ≤ m) ∧ (k < j ∧ j ≤ n) then
        rnVal nounit alpha ga (g i) 1 (j - 1) j else g i j)) (by omega)
    (fun k c hk1 hk2 hP => by
      obtain ⟨c', q1, q2⟩ := rnStep_ok hL hLa ha hA hB nounit alpha hk1 hk2 (le_refl 1)
        (show k - 1 ≤ n by omega) (by omega) hP
      refine ⟨c', q1, is2_of_eq q2 ?_⟩
      funext i j
      beta_reduce
      by_cases hi : 1 ≤ i ∧ i ≤ m
      · by_cases hj : j = k
        · subst hj
          rw [if_pos ⟨hi, rfl⟩, if_pos ⟨hi, by omega⟩]
          unfold rnVal
          beta_reduce
          rw [if_neg (show ¬((1 ≤ i ∧ i ≤ m) ∧ (j < j ∧ j ≤ n)) by omega)]
          apply foldl_congr'
          intro s x hx
          rw [mem_irange] at hx
          unfold rAcc
          beta_reduce
          rw [if_neg (show ¬((1 ≤ i ∧ i ≤ m) ∧ (j < x ∧ x ≤ n)) by omega)]
        · rw [if_neg (by tauto)]
          by_cases hc : k < j ∧ j ≤ n
          · rw [if_pos ⟨hi, hc⟩, if_pos ⟨hi, by omega⟩]
          · rw [if_neg (by tauto), if_neg (by omega)]
      · rw [if_neg (by tauto), if_neg (by tauto), if_neg (by tauto)])
    (s := b) (is2_of_eq hb (by funext i j; rw [if_neg (by omega)]))
  refine ⟨b', e1, is2_of_eq e2 ?_⟩
  funext i j
  by_cases hc : (1 ≤ i ∧ i ≤ m) ∧ (1 ≤ j ∧ j ≤ n)
  · rw [if_pos hc, if_pos ⟨hc.1, by omega⟩]
  · rw [if_neg hc, if_neg (by omega)]

theorem rnl_ok (hn : 0 ≤ n) (nounit : Bool) (alpha : F) {b : FA F} {g : Int → Int → F}
    (hb : Is2 b ld cols L g) :
    ∃ b', (forUp 1 n b fun b j => trmmRNStep nounit m (j + 1) n alpha a b j) = pure b' ∧
      Is2 b' ld cols L (fun i j => if (1 ≤ i ∧ i ≤ m) ∧ (1 ≤ j ∧ j ≤ n) then
        rnVal nounit alpha ga (g i) (j + 1) n j else g i j) := by
  obtain ⟨b', e1, e2⟩ := forUp_inv (lo := 1) (hi := n)
    (f := fun b j => trmmRNStep nounit m (j + 1) n alpha a b j)
    (P := fun k c => Is2 c ld cols L (fun i j => if (1 ≤ i ∧ i ≤ m) ∧ (1 ≤ j ∧ j < k) then
        rnVal nounit alpha ga (g i) (j + 1) n j else g i j)) (by omega)
    (fun k c hk1 hk2 hP => by
      obtain ⟨c', q1, q2⟩ := rnStep_ok hL hLa ha hA hB nounit alpha hk1 hk2
        (show 1 ≤ k + 1 by omega) (le_refl n) (by omega) hP
      refine ⟨c', q1, is2_of_eq q2 ?_⟩
      funext i j
      beta_reduce
      by_cases hi : 1 ≤ i ∧ i ≤ m
      · by_cases hj : j = k
        · subst hj
          rw [if_pos ⟨hi, rfl⟩, if_pos ⟨hi, by omega⟩]
          unfold rnVal
          beta_reduce
          rw [if_neg (show ¬((1 ≤ i ∧ i ≤ m) ∧ (1 ≤ j ∧ j < j)) by omega)]
          apply foldl_congr'
          intro s x hx
          rw [mem_irange] at hx
          unfold rAcc
          beta_reduce
          rw [if_neg (show ¬((1 ≤ i ∧ i ≤ m) ∧ (1 ≤ x ∧ x < j)) by omega)]
        · rw [if_neg (by tauto)]
          by_cases hc : 1 ≤ j ∧ j < k
          · rw [if_pos ⟨hi, hc⟩, if_pos ⟨hi, by omega⟩]
          · rw [if_neg (by tauto), if_neg (by omega)]
      · rw [if_neg (by tauto), if_neg (by tauto), if_neg (by tauto)])
    (s := b) (is2_of_eq hb (by funext i j; rw [if_neg (by omega)]))
  refine ⟨b', e1, is2_of_eq e2 ?_⟩
  funext i j
  by_cases hc : (1 ≤ i ∧ i ≤ m) ∧ (1 ≤ j ∧ j ≤ n)
  · rw [if_pos hc, if_pos ⟨hc.1, by omega⟩]
  · rw [if_neg hc, if_neg (by omega)]

theorem rtStep_ok (nounit : Bool) (alpha : F) {k lo hi : Int} (hk1 : 1 ≤ k) (hk2 : k ≤ n)
    (hlo : 1 ≤ lo) (hhi : hi ≤ n) (hnot : k < lo ∨ hi < k)
    {b : FA F} {g : Int → Int → F} (hb : Is2 b ld cols L g) :
    ∃ b', trmmRTStep nounit m lo hi alpha a b k = pure b' ∧ Is2 b' ld cols L
      (fun i' j' => if 1 ≤ i' ∧ i' ≤ m then
        (if lo ≤ j' ∧ j' ≤ hi then rAcc alpha (ga j' k) (g i') (g i' j') k
         else if j' = k then rtStart nounit alpha ga (g i') k else g i' j') else g i' j') := by
  have hloop : ∃ b1, (forUp lo hi b fun b j => do
      let ajk ← a.get2 j k
      if ajk ≠ᶠ zero then trmmAxpyB m (alpha * ajk) j k b else pure b) = pure b1 ∧
      Is2 b1 ld cols L (fun i' j' => if (1 ≤ i' ∧ i' ≤ m) ∧ (lo ≤ j' ∧ j' ≤ hi) then
        rAcc alpha (ga j' k) (g i') (g i' j') k else g i' j') := by
    by_cases hlh : lo ≤ hi + 1
    · obtain ⟨b', q1, q2⟩ := forUp_inv (lo := lo) (hi := hi)
        (f := fun b j => do
          let ajk ← a.get2 j k
          if ajk ≠ᶠ zero then trmmAxpyB m (alpha * ajk) j k b else pure b)
        (P := fun j c => Is2 c ld cols L (fun i' j' => if (1 ≤ i' ∧ i' ≤ m) ∧ (lo ≤ j' ∧ j' < j) then
          rAcc alpha (ga j' k) (g i') (g i' j') k else g i' j')) hlh
        (fun j c hj1 hj2 hP => by
          rw [get2_is2 ha (hA j k (by omega) (by omega) hk1 hk2) hLa, pure_bind]
          by_cases h0 : (ga j k ≠ᶠ zero) = true
          · rw [if_pos h0]
            obtain ⟨c', r1, r2⟩ := trmmAxpyB_ok (m := m) hL (j := j) (k := k)
              (fun i h1 h2 => hB i j h1 h2 (by omega) (by omega))
              (fun i h1 h2 => hB i k h1 h2 hk1 hk2) (alpha * ga j k) hP
            refine ⟨c', r1, is2_of_eq r2 ?_⟩
            funext i' j'
            beta_reduce
            by_cases hi : 1 ≤ i' ∧ i' ≤ m
            · by_cases hj : j' = j
              · subst hj
                rw [if_pos ⟨hi, rfl⟩, if_neg (by omega), if_neg (by omega), if_pos ⟨hi, by omega⟩]
                exact (if_pos h0).symm
              · rw [if_neg (by tauto)]
                by_cases hc : lo ≤ j' ∧ j' < j
                · rw [if_pos ⟨hi, hc⟩, if_pos ⟨hi, by omega⟩]
                · rw [if_neg (by tauto), if_neg (by omega)]
            · rw [if_neg (by tauto), if_neg (by tauto), if_neg (by tauto)]
          · rw [if_neg h0]
            refine ⟨c, rfl, is2_of_eq hP ?_⟩
            funext i' j'
            by_cases hi : 1 ≤ i' ∧ i' ≤ m
            · by_cases hj : j' = j
              · subst hj
                rw [if_neg (by omega), if_pos ⟨hi, by omega⟩]
                exact (if_neg h0).symm
              · by_cases hc : lo ≤ j' ∧ j' < j
                · rw [if_pos ⟨hi, hc⟩, if_pos ⟨hi, by omega⟩]
                · rw [if_neg (by tauto), if_neg (by omega)]
            · rw [if_neg (by tauto), if_neg (by tauto)])
        (s := b) (is2_of_eq hb (by funext i' j'; rw [if_neg (by omega)]))
      refine ⟨b', q1, is2_of_eq q2 ?_⟩
      funext i' j'
      simp only [Int.lt_add_one_iff]
    · refine ⟨b, forUp_empty (by omega) _ _, is2_of_eq hb ?_⟩
      funext i' j'
      rw [if_neg (by omega)]
  obtain ⟨b1, e1, e2⟩ := hloop
  have hfin : ∃ b', (if diagMul nounit alpha (ga k k) ≠ᶠ one then
        trmmScale m (diagMul nounit alpha (ga k k)) k b1 else pure b1) = pure b' ∧
      Is2 b' ld cols L (fun i' j' => if 1 ≤ i' ∧ i' ≤ m then
        (if lo ≤ j' ∧ j' ≤ hi then rAcc alpha (ga j' k) (g i') (g i' j') k
         else if j' = k then rtStart nounit alpha ga (g i') k else g i' j') else g i' j') := by
    by_cases h1 : (diagMul nounit alpha (ga k k) ≠ᶠ one) = true
    · rw [if_pos h1]
      obtain ⟨b', q1, q2⟩ := trmmScale_ok hL (fun i h1 h2 => hB i k h1 h2 hk1 hk2)
        (diagMul nounit alpha (ga k k)) e2
      refine ⟨b', q1, is2_of_eq q2 ?_⟩
      funext i' j'
      beta_reduce
      by_cases hr : 1 ≤ i' ∧ i' ≤ m
      · rw [if_pos hr]
        by_cases hj : j' = k
        · subst hj
          rw [if_pos ⟨hr, rfl⟩, if_neg (by omega), if_neg (by omega), if_pos rfl]
          unfold rtStart
          rw [if_pos h1]
        · rw [if_neg (by tauto), if_neg hj]
          by_cases hc : lo ≤ j' ∧ j' ≤ hi
          · rw [if_pos ⟨hr, hc⟩, if_pos hc]
          · rw [if_neg (by tauto), if_neg hc]
      · rw [if_neg (by tauto), if_neg (by tauto), if_neg hr]
    · rw [if_neg h1]
      refine ⟨b1, rfl, is2_of_eq e2 ?_⟩
      funext i' j'
      by_cases hr : 1 ≤ i' ∧ i' ≤ m
      · rw [if_pos hr]
        by_cases hc : lo ≤ j' ∧ j' ≤ hi
        · rw [if_pos ⟨hr, hc⟩, if_pos hc]
        · rw [if_neg (by tauto), if_neg hc]
          by_cases hj : j' = k
          · subst hj
            rw [if_pos rfl]
            unfold rtStart
            rw [if_neg h1]
          · rw [if_neg hj]
      · rw [if_neg (by tauto), if_neg hr]
  obtain ⟨b', q1, q2⟩ := hfin
  refine ⟨b', ?_, q2⟩
  unfold trmmRTStep
  rw [e1, pure_bind, get2_is2 ha (hA k k hk1 hk2 hk1 hk2) hLa]
  unfold diagMul at q1
  cases nounit
  · simpa only [Bool.false_eq_true, if_false, pure_bind] using q1
  · simpa only [if_true, pure_bind] using q1

theorem rtu_ok (hn : 0 ≤ n) (nounit : Bool) (alpha : F) {b : FA F} {g : Int → Int → F}
    (hb : Is2 b ld cols L g) :
    ∃ b', (forUp 1 n b fun b k => trmmRTStep nounit m 1 (k - 1) alpha a b k) = pure b' ∧
      Is2 b' ld cols L (fun i j => if (1 ≤ i ∧ i ≤ m) ∧ (1 ≤ j ∧ j ≤ n) then
        (irange (j + 1) n).foldl (fun acc k => rAcc alpha (ga j k) (g i) acc k)
          (rtStart nounit alpha ga (g i) j) else g i j) := by
  obtain ⟨b', e1, e2⟩ := forUp_inv (lo := 1) (hi := n)
    (f := fun b k => trmmRTStep nounit m 1 (k - 1) alpha a b k)
    (P := fun k c => Is2 c ld cols L (fun i j => if (1 ≤ i ∧ i ≤ m) ∧ (1 ≤ j ∧ j < k) then
        (irange (j + 1) (k - 1)).foldl (fun acc k => rAcc alpha (ga j k) (g i) acc k)
          (rtStart nounit alpha ga (g i) j) else g i j)) (by omega)
    (fun k c hk1 hk2 hP => by
      obtain ⟨c', q1, q2⟩ := rtStep_ok hL hLa ha hA hB nounit alpha hk1 hk2 (le_refl 1)
        (show k - 1 ≤ n by omega) (by omega) hP
      refine ⟨c', q1, is2_of_eq q2 ?_⟩
      funext i j
      beta_reduce
      by_cases hi : 1 ≤ i ∧ i ≤ m
      · rw [if_pos hi]
        by_cases hj : 1 ≤ j ∧ j ≤ k - 1
        · rw [if_pos hj, if_pos ⟨hi, by omega⟩, if_pos ⟨hi, by omega⟩, add_sub_cancel_right,
            irange_snoc (lo := j + 1) (hi := k) (by omega), List.foldl_append]
          simp only [List.foldl_cons, List.foldl_nil]
          unfold rAcc
          beta_reduce
          rw [if_neg (show ¬((1 ≤ i ∧ i ≤ m) ∧ (1 ≤ k ∧ k < k)) by omega)]
        · rw [if_neg hj]
          by_cases hk : j = k
          · subst hk
            rw [if_pos rfl, if_pos ⟨hi, by omega⟩, irange_empty (by omega)]
            simp only [List.foldl_nil]
            unfold rtStart
            beta_reduce
            rw [if_neg (show ¬((1 ≤ i ∧ i ≤ m) ∧ (1 ≤ j ∧ j < j)) by omega)]
          · rw [if_neg hk, if_neg (by omega), if_neg (by omega)]
      · rw [if_neg hi, if_neg (by tauto), if_neg (by tauto)])
    (s := b) (is2_of_eq hb (by funext i j; rw [if_neg (by omega)]))
  refine ⟨b', e1, is2_of_eq e2 ?_⟩
  funext i j
  rw [add_sub_cancel_right]
  by_cases hc : (1 ≤ i ∧ i ≤ m) ∧ (1 ≤ j ∧ j ≤ n)
  · rw [if_pos hc, if_pos ⟨hc.1, by omega⟩]
  · rw [if_neg hc, if_neg (by omega)]

theorem rtl_ok (hn : 0 ≤ n) (nounit : Bool) (alpha : F) {b : FA F} {g : Int → Int → F}
    (hb : Is2 b ld cols L g) :
    ∃ b', (forDown 1 n b fun b k => trmmRTStep nounit m (k + 1) n alpha a b k) = pure b' ∧
      Is2 b' ld cols L (fun i j => if (1 ≤ i ∧ i ≤ m) ∧ (1 ≤ j ∧ j ≤ n) then
        (irange 1 (j - 1)).reverse.foldl (fun acc k => rAcc alpha (ga j k) (g i) acc k)
          (rtStart nounit alpha ga (g i) j) else g i j) := by
  obtain ⟨b', e1, e2⟩ := forDown_inv (lo := 1) (hi := n)
    (f := fun b k => trmmRTStep nounit m (k + 1) n alpha a b k)
    (P := fun k c => Is2 c ld cols L (fun i j => if (1 ≤ i ∧ i ≤ m) ∧ (k < j ∧ j ≤ n) then
        (irange (k + 1) (j - 1)).reverse.foldl (fun acc k => rAcc alpha (ga j k) (g i) acc k)
          (rtStart nounit alpha ga (g i) j) else g i j)) (by omega)
    (fun k c hk1 hk2 hP => by
      obtain ⟨c', q1, q2⟩ := rtStep_ok hL hLa ha hA hB nounit alpha hk1 hk2
        (show 1 ≤ k + 1 by omega) (le_refl n) (by omega) hP
      refine ⟨c', q1, is2_of_eq q2 ?_⟩
      funext i j
      beta_reduce
      by_cases hi : 1 ≤ i ∧ i ≤ m
      · rw [if_pos hi]
        by_cases hj : k + 1 ≤ j ∧ j ≤ n
        · rw [if_pos hj, if_pos ⟨hi, by omega⟩, if_pos ⟨hi, by omega⟩, sub_add_cancel,
            irange_cons (lo := k) (hi := j - 1) (by omega), List.reverse_cons, List.foldl_append]
          simp only [List.foldl_cons, List.foldl_nil]
          unfold rAcc
          beta_reduce
          rw [if_neg (show ¬((1 ≤ i ∧ i ≤ m) ∧ (k < k ∧ k ≤ n)) by omega)]
        · rw [if_neg hj]
          by_cases hk : j = k
          · subst hk
            rw [if_pos rfl, if_pos ⟨hi, by omega⟩, irange_empty (by omega)]
            simp only [List.reverse_nil, List.foldl_nil]
            unfold rtStart
            beta_reduce
            rw [if_neg (show ¬((1 ≤ i ∧ i ≤ m) ∧ (j < j ∧ j ≤ n)) by omega)]
          · rw [if_neg hk, if_neg (by omega), if_neg (by omega)]
      · rw [if_neg hi, if_neg (by tauto), if_neg (by tauto)])
    (s := b) (is2_of_eq hb (by funext i j; rw [if_neg (by omega)]))
  refine ⟨b', e1, is2_of_eq e2 ?_⟩
  funext i j
  by_cases hc : (1 ≤ i ∧ i ≤ m) ∧ (1 ≤ j ∧ j ≤ n)
  · rw [if_pos hc, if_pos ⟨hc.1, by omega⟩]; rfl
  · rw [if_neg hc, if_neg (by omega)]

end Right

end Verif

import Verif.Model.Basic
import Mathlib.Tactic.Linarith
import Mathlib.Tactic.Ring
import Mathlib.Data.List.Nodup
import Mathlib.Data.List.Range

/-!
# Lemmas on loops and on `i32` arithmetic
-/

namespace Verif

theorem chk_ok {x : Int} (h : FitsI32 x) : chk x = pure x := by
  funext p; simp [chk, h]

theorem iadd_ok {a b : Int} (h : FitsI32 (a + b)) : iadd a b = pure (a + b) := chk_ok h
theorem isub_ok {a b : Int} (h : FitsI32 (a - b)) : isub a b = pure (a - b) := chk_ok h
theorem imul_ok {a b : Int} (h : FitsI32 (a * b)) : imul a b = pure (a * b) := chk_ok h

theorem fits_iff {x : Int} : FitsI32 x ↔ -2147483648 ≤ x ∧ x ≤ 2147483647 := Iff.rfl

theorem wrap32_of_fits {x : Int} (h : FitsI32 x) : wrap32 x = x := by
  unfold wrap32; unfold FitsI32 at h; omega

theorem fits_wrap32 (x : Int) : FitsI32 (wrap32 x) := by
  unfold wrap32 FitsI32; omega

theorem asUsize_nonneg {x : Int} (h0 : 0 ≤ x) (h : FitsI32 x) : asUsize x = x.toNat := by
  unfold asUsize; unfold FitsI32 at h; omega

theorem asUsize_neg {x : Int} (h0 : x < 0) (h : FitsI32 x) : asUsize x ≥ 2 ^ 63 := by
  unfold asUsize; unfold FitsI32 at h; omega

/-! ### Ranges -/

theorem irange_empty {lo hi : Int} (h : hi < lo) : irange lo hi = [] := by
  have : (hi - lo + 1).toNat = 0 := by omega
  simp [irange, this]

theorem irange_cons {lo hi : Int} (h : lo ≤ hi) : irange lo hi = lo :: irange (lo + 1) hi := by
  obtain ⟨n, hn⟩ : ∃ n : Nat, (hi - lo + 1).toNat = n + 1 := ⟨(hi - lo).toNat, by omega⟩
  have h2 : (hi - (lo + 1) + 1).toNat = n := by omega
  simp only [irange, hn, h2, List.range_succ_eq_map, List.map_cons, List.map_map]
  congr 1
  · simp
  · apply List.map_congr_left; intro k _; simp; ring

theorem irange_snoc {lo hi : Int} (h : lo ≤ hi) : irange lo hi = irange lo (hi - 1) ++ [hi] := by
  obtain ⟨n, hn⟩ : ∃ n : Nat, (hi - lo + 1).toNat = n + 1 := ⟨(hi - lo).toNat, by omega⟩
  have h2 : (hi - 1 - lo + 1).toNat = n := by omega
  simp only [irange, hn, h2, List.range_succ, List.map_append]
  congr 1
  simp; omega

theorem mem_irange {lo hi x : Int} : x ∈ irange lo hi ↔ lo ≤ x ∧ x ≤ hi := by
  simp only [irange, List.mem_map, List.mem_range]
  constructor
  · rintro ⟨k, hk, rfl⟩; omega
  · rintro ⟨h1, h2⟩; exact ⟨(x - lo).toNat, by omega, by omega⟩

theorem irange_nodup (lo hi : Int) : (irange lo hi).Nodup := by
  apply List.Nodup.map _ List.nodup_range
  intro a b h; simpa using h

theorem irange_append {lo mid hi : Int} (h1 : lo ≤ mid + 1) (h2 : mid ≤ hi) :
    irange lo hi = irange lo mid ++ irange (mid + 1) hi := by
  obtain ⟨n, hn⟩ : ∃ n : Nat, mid + n = hi := ⟨(hi - mid).toNat, by omega⟩
  induction n generalizing mid with
  | zero =>
    have : mid = hi := by omega
    subst this; rw [irange_empty (lo := mid + 1) (by omega)]; simp
  | succ n ih =>
    rw [ih (mid := mid + 1) (by omega) (by omega) (by omega), irange_cons (lo := mid + 1) (by omega),
      irange_snoc (lo := lo) (hi := mid + 1) (by omega)]
    simp

theorem irange_one_eq (k : Nat) : irange 1 k = (List.range k).map (fun (l : Nat) => (l : Int) + 1) := by
  have : ((k : Int) - 1 + 1).toNat = k := by omega
  simp only [irange, this]
  apply List.map_congr_left; intro a _; ring

theorem irange_eq_map (lo : Int) (n : Nat) :
    irange lo (lo + n - 1) = (List.range n).map (fun (l : Nat) => lo + (l : Int)) := by
  have : (lo + (n : Int) - 1 - lo + 1).toNat = n := by omega
  simp only [irange, this]

/-! ### Loops -/

variable {σ : Type}

@[simp] theorem forUp_empty {lo hi : Int} (h : hi < lo) (s : σ) (f : σ → Int → R σ) :
    forUp lo hi s f = pure s := by
  simp [forUp, irange_empty h]

theorem forUp_cons {lo hi : Int} (h : lo ≤ hi) (s : σ) (f : σ → Int → R σ) :
    forUp lo hi s f = f s lo >>= fun s => forUp (lo + 1) hi s f := by
  simp [forUp, irange_cons h]

@[simp] theorem forDown_empty {lo hi : Int} (h : hi < lo) (s : σ) (f : σ → Int → R σ) :
    forDown lo hi s f = pure s := by
  simp [forDown, irange_empty h]

theorem forDown_cons {lo hi : Int} (h : lo ≤ hi) (s : σ) (f : σ → Int → R σ) :
    forDown lo hi s f = f s hi >>= fun s => forDown lo (hi - 1) s f := by
  simp [forDown, irange_snoc h]

/-- A `foldlM` all of whose steps return normally, related to a pure fold. -/
theorem foldlM_rel {τ ι : Type} (Rel : σ → τ → Prop) (f : σ → ι → R σ) (G : τ → ι → τ)
    (l : List ι)
    (step : ∀ i ∈ l, ∀ s t, Rel s t → ∃ s', f s i = pure s' ∧ Rel s' (G t i))
    {s : σ} {t : τ} (h : Rel s t) :
    ∃ s', l.foldlM f s = pure s' ∧ Rel s' (l.foldl G t) := by
  induction l generalizing s t with
  | nil => exact ⟨s, rfl, h⟩
  | cons i l ih =>
    obtain ⟨s1, h1, h2⟩ := step i (by simp) s t h
    obtain ⟨s2, h3, h4⟩ := ih (fun j hj => step j (by simp [hj])) h2
    exact ⟨s2, by simp [List.foldlM_cons, h1, h3], h4⟩

theorem forUp_rel {τ : Type} (Rel : σ → τ → Prop) {f : σ → Int → R σ} (G : τ → Int → τ)
    {lo hi : Int}
    (step : ∀ i, lo ≤ i → i ≤ hi → ∀ s t, Rel s t → ∃ s', f s i = pure s' ∧ Rel s' (G t i))
    {s : σ} {t : τ} (h : Rel s t) :
    ∃ s', forUp lo hi s f = pure s' ∧ Rel s' ((irange lo hi).foldl G t) :=
  foldlM_rel Rel f G _ (fun i hi s t hr => step i (mem_irange.1 hi).1 (mem_irange.1 hi).2 s t hr) h

theorem forDown_rel {τ : Type} (Rel : σ → τ → Prop) {f : σ → Int → R σ} (G : τ → Int → τ)
    {lo hi : Int}
    (step : ∀ i, lo ≤ i → i ≤ hi → ∀ s t, Rel s t → ∃ s', f s i = pure s' ∧ Rel s' (G t i))
    {s : σ} {t : τ} (h : Rel s t) :
    ∃ s', forDown lo hi s f = pure s' ∧ Rel s' ((irange lo hi).reverse.foldl G t) :=
  foldlM_rel Rel f G _ (fun i hi s t hr =>
    step i (mem_irange.1 (by simpa using hi)).1 (mem_irange.1 (by simpa using hi)).2 s t hr) h

/-- Loop invariant for a loop all of whose rounds return normally. -/
theorem forUp_inv {P : Int → σ → Prop} {f : σ → Int → R σ} {lo hi : Int} (hlh : lo ≤ hi + 1)
    (step : ∀ i s, lo ≤ i → i ≤ hi → P i s → ∃ s', f s i = pure s' ∧ P (i + 1) s')
    {s : σ} (h : P lo s) : ∃ s', forUp lo hi s f = pure s' ∧ P (hi + 1) s' := by
  obtain ⟨n, hn⟩ : ∃ n : Nat, lo + n = hi + 1 := ⟨(hi + 1 - lo).toNat, by omega⟩
  induction n generalizing lo s with
  | zero =>
    have : lo = hi + 1 := by omega
    subst this
    exact ⟨s, forUp_empty (by omega) _ _, h⟩
  | succ n ih =>
    obtain ⟨s1, h1, h2⟩ := step lo s (le_refl _) (by omega) h
    obtain ⟨s2, h3, h4⟩ := ih (lo := lo + 1) (by omega)
      (fun i s h1 h2 => step i s (by omega) h2) h2 (by omega)
    exact ⟨s2, by rw [forUp_cons (by omega), h1]; simpa using h3, h4⟩

theorem forUp_pure (lo hi : Int) (s : σ) (g : σ → Int → σ) :
    forUp lo hi s (fun s i => pure (g s i)) = pure ((irange lo hi).foldl g s) := by
  unfold forUp
  exact List.foldlM_pure

/-! ### Pure folds over updates of a function -/

section Folds
variable {κ ι V : Type}

/-- Every step acts pointwise: the fold does too. -/
theorem foldl_pointwise (G : (κ → V) → ι → (κ → V)) (h : κ → V → ι → V)
    (l : List ι) (hG : ∀ g, ∀ i ∈ l, ∀ x, G g i x = h x (g x) i) (g : κ → V) (x : κ) :
    l.foldl G g x = l.foldl (h x) (g x) := by
  induction l generalizing g with
  | nil => rfl
  | cons i l ih =>
    simp only [List.foldl_cons]
    rw [ih (fun g j hj => hG g j (by simp [hj])), hG g i (by simp)]

/-- Step `i` writes only keys of class `i` and reads only keys of class `i`: each key sees just
its own step. -/
theorem foldl_local [DecidableEq ι] (cls : κ → ι) (G : (κ → V) → ι → (κ → V)) (l : List ι)
    (hn : l.Nodup)
    (hw : ∀ g, ∀ i ∈ l, ∀ x, cls x ≠ i → G g i x = g x)
    (hr : ∀ g g', ∀ i ∈ l, (∀ x, cls x = i → g x = g' x) → ∀ x, cls x = i → G g i x = G g' i x)
    (g : κ → V) (x : κ) :
    l.foldl G g x = if cls x ∈ l then G g (cls x) x else g x := by
  induction l generalizing g with
  | nil => simp
  | cons i l ih =>
    simp only [List.foldl_cons]
    rw [List.nodup_cons] at hn
    rw [ih hn.2 (fun g j hj => hw g j (by simp [hj])) (fun g g' j hj => hr g g' j (by simp [hj]))]
    by_cases hx : cls x = i
    · rw [if_neg (by rw [hx]; exact hn.1)]
      simp [hx]
    · by_cases hm : cls x ∈ l
      · rw [if_pos hm, if_pos (by simp [hm])]
        apply hr _ _ _ (by simp [hm]) _ _ rfl
        intro y hy
        apply hw _ _ (by simp)
        rw [hy]; exact hx
      · rw [if_neg hm, if_neg (by simp [hm, hx])]
        exact hw _ _ (by simp) _ hx

theorem foldl_congr' {σ : Type} (f g : σ → ι → σ) (l : List ι) (h : ∀ s, ∀ i ∈ l, f s i = g s i)
    (s : σ) : l.foldl f s = l.foldl g s := by
  induction l generalizing s with
  | nil => rfl
  | cons i l ih =>
    simp only [List.foldl_cons]
    rw [h s i (by simp), ih (fun s j hj => h s j (by simp [hj]))]

theorem foldl_const {σ : Type} (f : σ → ι → σ) (l : List ι) (s : σ) (h : ∀ i ∈ l, f s i = s) :
    l.foldl f s = s := by
  induction l with
  | nil => rfl
  | cons i l ih =>
    simp only [List.foldl_cons]
    rw [h i (by simp), ih (fun j hj => h j (by simp [hj]))]

end Folds

end Verif

namespace Verif
variable {σ : Type}

/-- A loop `for i in 1..=n` all of whose rounds return normally, with rounds counted from 0. -/
theorem forUp_iter {P : Nat → σ → Prop} {f : σ → Int → R σ} (n : Nat) {s : σ} (h0 : P 0 s)
    (step : ∀ k s, k < n → P k s → ∃ s', f s ((k : Int) + 1) = pure s' ∧ P (k + 1) s') :
    ∃ s', forUp 1 n s f = pure s' ∧ P n s' := by
  obtain ⟨s', h1, h2⟩ := forUp_inv (P := fun i s => P (i - 1).toNat s) (f := f) (lo := 1)
    (hi := (n : Int)) (by omega) (fun i s hi1 hi2 hP => by
      obtain ⟨s', e, h⟩ := step (i - 1).toNat s (by omega) hP
      have e1 : (((i - 1).toNat : Nat) : Int) + 1 = i := by omega
      have e2 : (i + 1 - 1).toNat = (i - 1).toNat + 1 := by omega
      rw [e1] at e
      exact ⟨s', e, by rw [e2]; exact h⟩) (s := s) (by simpa using h0)
  refine ⟨s', h1, ?_⟩
  have : ((n : Int) + 1 - 1).toNat = n := by omega
  rw [this] at h2; exact h2

/-- A loop `for i in (m+1..=m+q*d).step_by(d)` all of whose rounds return normally. -/
theorem forStep_iter {P : Nat → σ → Prop} {f : σ → Int → R σ} (m q d : Nat) (hd : 0 < d) {s : σ}
    (h0 : P 0 s)
    (step : ∀ k s, k < q → P k s → ∃ s', f s ((m : Int) + 1 + k * d) = pure s' ∧ P (k + 1) s') :
    ∃ s', forStep ((m : Int) + 1) ((m + q * d : Nat) : Int) d s f = pure s' ∧ P q s' := by
  unfold forStep irangeStep
  rw [if_neg (by omega)]
  have e : ((((m + q * d : Nat) : Int) - ((m : Int) + 1) + 1).toNat + d - 1) / d = q := by
    have e1 : (((m + q * d : Nat) : Int) - ((m : Int) + 1) + 1).toNat = q * d := by
      generalize q * d = z; omega
    rw [e1]
    have : q * d + d - 1 = (d - 1) + q * d := by omega
    rw [this, Nat.add_mul_div_right _ _ hd, Nat.div_eq_of_lt (by omega)]; omega
  rw [e]
  simp only [pure_bind]
  have key : ∀ r, r ≤ q → ∃ s', ((List.range r).map
      (fun (k : Nat) => (m : Int) + 1 + (k : Int) * (d : Int))).foldlM f s = pure s' ∧ P r s' := by
    intro r
    induction r with
    | zero => intro _; exact ⟨s, rfl, h0⟩
    | succ r ih =>
      intro hr
      obtain ⟨s1, h1, h2⟩ := ih (by omega)
      obtain ⟨s2, h3, h4⟩ := step r s1 (by omega) h2
      refine ⟨s2, ?_, h4⟩
      rw [List.range_succ, List.map_append, List.foldlM_append, h1]
      simp [h3]
  exact key q (le_refl _)

end Verif

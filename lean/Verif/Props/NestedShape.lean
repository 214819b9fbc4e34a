import Verif.Props.Hqr
import Verif.Props.Convert
import Verif.Props.Qr5Z
import Verif.Props.HqrIndep
import Verif.Inst.Float

/-!
# Nested vectors that are not square change their shape (C87)

`Vec<Vec<f64>>` made of `r` vectors of length `c` becomes an array with `r` rows and `c` columns holding the concatenation (src/array/convert.rs:27-39), but an array with `r`
rows and `c` columns becomes `c` vectors of length `r` (src/array/convert.rs:47-57).
-/

namespace Verif
open Scalar

section generic
variable {F : Type} [Scalar F]

/-! ### The routines keep the shape of arrays -/

theorem shape_forUp {lo hi : Int} {a : FA F} {f : FA F → Int → R (FA F)} (hf : ∀ a i, Post (f a i) (SameShape a)) : Post (forUp lo hi a f) (SameShape a) :=
  Post.foldlM _ (SameShape.refl a) fun _ i _ hs => (hf _ i).mono fun _ h => hs.trans h

theorem shape_forDown {lo hi : Int} {a : FA F} {f : FA F → Int → R (FA F)} (hf : ∀ a i, Post (f a i) (SameShape a)) : Post (forDown lo hi a f) (SameShape a) :=
  Post.foldlM _ (SameShape.refl a) fun _ i _ hs => (hf _ i).mono fun _ h => hs.trans h

theorem Post.shape_bind {x : R (FA F)} {f : FA F → R (FA F)} {a : FA F} (hx : Post x (SameShape a)) (hf : ∀ b, Post (f b) (SameShape b)) : Post (x >>= f) (SameShape a) :=
  Post.bind hx fun b hb => (hf b).mono fun _ hc => hb.trans hc

theorem dlasetFA_shape (uplo : Char) (m n : Int) (alpha beta : F) (a : FA F) : Post (dlasetFA uplo m n alpha beta a) (SameShape a) :=
  Post.shape_bind (shape_forUp fun _ _ => shape_forUp fun _ _ => set2_shape _ _ _ _) fun _ => shape_forUp fun _ _ => set2_shape _ _ _ _

theorem dlacpyFA_shape (uplo : Char) (m n : Int) (a b : FA F) : Post (dlacpyFA uplo m n a b) (SameShape b) :=
  shape_forUp fun _ _ => shape_forUp fun _ _ => Post.bind' fun _ => set2_shape _ _ _ _

theorem zeroCol_shape (m : Int) (c : FA F) (j : Int) : Post (zeroCol m c j) (SameShape c) := shape_forUp fun _ _ => set2_shape _ _ _ _
theorem scaleCol_shape (m : Int) (beta : F) (c : FA F) (j : Int) : Post (scaleCol m beta c j) (SameShape c) := shape_forUp fun _ _ => modify2_shape _ _ _ _

theorem gemmNotA_shape (tb : Bool) (m n k : Int) (alpha : F) (a b : FA F) (beta : F) (c : FA F) : Post (gemmNotA tb m n k alpha a b beta c) (SameShape c) := by
  refine shape_forUp fun c j => Post.shape_bind ?_ fun c => shape_forUp fun c l => ?_
  · unfold betaCol
    exact Post.ite (fun _ => zeroCol_shape _ _ _) fun _ => Post.ite (fun _ => scaleCol_shape _ _ _ _) fun _ => Post.pure (SameShape.refl c)
  · unfold gemmAxpy
    cases tb
    · exact Post.bind' fun _ => shape_forUp fun _ _ => Post.bind' fun _ => modify2_shape _ _ _ _
    · exact Post.bind' fun _ => shape_forUp fun _ _ => Post.bind' fun _ => modify2_shape _ _ _ _

theorem gemmTransA_shape (tb : Bool) (m n k : Int) (alpha : F) (a b : FA F) (beta : F) (c : FA F) : Post (gemmTransA tb m n k alpha a b beta c) (SameShape c) := by
  refine shape_forUp fun c j => shape_forUp fun c l => Post.bind' fun t => ?_
  unfold gemmStore
  exact Post.ite (fun _ => set2_shape _ _ _ _) fun _ => Post.bind' fun _ => set2_shape _ _ _ _

theorem dgemmFA_shape (ta tb : Char) (m n k : Int) (alpha : F) (a : FA F) (lda : Int) (b : FA F) (ldb : Int) (beta : F) (c : FA F) (ldc : Int) :
    Post (dgemmFA ta tb m n k alpha a lda b ldb beta c ldc) fun o => ∀ c', o = some c' → SameShape c c' := by
  have some' : ∀ {x : R (FA F)}, Post x (SameShape c) → Post (x >>= fun y => pure (some y)) fun o => ∀ c', o = some c' → SameShape c c' := fun h =>
    Post.bind h fun y hy => Post.pure fun c' e => by cases e; exact hy
  unfold dgemmFA
  dsimp only
  refine Post.ite (fun _ => ?_) fun _ => Post.ite (fun _ => Post.pure fun _ e => by cases e) fun _ => Post.ite (fun _ => Post.ite (fun _ => ?_) fun _ => ?_) fun _ =>
    Post.ite (fun _ => Post.ite (fun _ => ?_) fun _ => ?_) fun _ => Post.ite (fun _ => ?_) fun _ => ?_
  · intro p a h; cases h
  · exact some' (shape_forUp fun _ _ => zeroCol_shape _ _ _)
  · exact some' (shape_forUp fun _ _ => scaleCol_shape _ _ _ _)
  · exact some' (gemmNotA_shape _ _ _ _ _ _ _ _ _)
  · exact some' (gemmTransA_shape _ _ _ _ _ _ _ _ _)
  · exact some' (gemmNotA_shape _ _ _ _ _ _ _ _ _)
  · exact some' (gemmTransA_shape _ _ _ _ _ _ _ _ _)

theorem trmmAxpyA_shape (lo hi : Int) (t : F) (a : FA F) (k j : Int) (b : FA F) : Post (trmmAxpyA lo hi t a k j b) (SameShape b) :=
  shape_forUp fun _ _ => Post.bind' fun _ => modify2_shape _ _ _ _
theorem trmmAxpyB_shape (m : Int) (t : F) (k j : Int) (b : FA F) : Post (trmmAxpyB m t k j b) (SameShape b) :=
  shape_forUp fun _ _ => Post.bind' fun _ => modify2_shape _ _ _ _
theorem trmmScale_shape (m : Int) (t : F) (j : Int) (b : FA F) : Post (trmmScale m t j b) (SameShape b) := shape_forUp fun _ _ => modify2_shape _ _ _ _

theorem trmmLUN_shape (nu : Bool) (alpha : F) (a : FA F) (j : Int) (b : FA F) (k : Int) : Post (trmmLUNStep nu alpha a j b k) (SameShape b) := by
  unfold trmmLUNStep
  refine Post.bind' fun _ => Post.ite (fun _ => ?_) fun _ => Post.pure (SameShape.refl b)
  refine Post.shape_bind (trmmAxpyA_shape _ _ _ _ _ _ _) fun b => ?_
  cases nu
  · exact set2_shape _ _ _ _
  · exact Post.bind' fun _ => set2_shape _ _ _ _

theorem trmmLLN_shape (nu : Bool) (m : Int) (alpha : F) (a : FA F) (j : Int) (b : FA F) (k : Int) : Post (trmmLLNStep nu m alpha a j b k) (SameShape b) := by
  unfold trmmLLNStep
  refine Post.bind' fun _ => Post.ite (fun _ => ?_) fun _ => Post.pure (SameShape.refl b)
  refine Post.shape_bind (set2_shape _ _ _ _) fun b => ?_
  cases nu
  · exact trmmAxpyA_shape _ _ _ _ _ _ _
  · exact Post.bind' fun _ => Post.shape_bind (modify2_shape _ _ _ _) fun b => trmmAxpyA_shape _ _ _ _ _ _ _

theorem trmmLT_shape (nu : Bool) (lo hi : Int) (alpha : F) (a : FA F) (j : Int) (b : FA F) (i : Int) : Post (trmmLTStep nu lo hi alpha a j b i) (SameShape b) := by
  unfold trmmLTStep
  refine Post.bind' fun _ => ?_
  cases nu
  · exact Post.bind' fun _ => Post.bind' fun _ => set2_shape _ _ _ _
  · exact Post.bind' fun _ => Post.bind' fun _ => Post.bind' fun _ => set2_shape _ _ _ _

theorem trmmRN_shape (nu : Bool) (m lo hi : Int) (alpha : F) (a b : FA F) (j : Int) : Post (trmmRNStep nu m lo hi alpha a b j) (SameShape b) := by
  have key : ∀ t : F, Post (do
      let b ← trmmScale m t j b
      forUp lo hi b fun b k => do
        let akj ← a.get2 k j
        if akj ≠ᶠ zero then trmmAxpyB m (alpha * akj) j k b else pure b) (SameShape b) := fun t =>
    Post.shape_bind (trmmScale_shape _ _ _ _) fun b => shape_forUp fun b _ => Post.bind' fun _ =>
      Post.ite (fun _ => trmmAxpyB_shape _ _ _ _ _) fun _ => Post.pure (SameShape.refl b)
  unfold trmmRNStep
  cases nu
  · exact key _
  · exact Post.bind' fun _ => key _

theorem trmmRT_shape (nu : Bool) (m lo hi : Int) (alpha : F) (a b : FA F) (k : Int) : Post (trmmRTStep nu m lo hi alpha a b k) (SameShape b) := by
  have key : ∀ (t : F) (b : FA F), Post (if t ≠ᶠ one then trmmScale m t k b else pure b) (SameShape b) := fun t b =>
    Post.ite (fun _ => trmmScale_shape _ _ _ _) fun _ => Post.pure (SameShape.refl b)
  unfold trmmRTStep
  refine Post.shape_bind (shape_forUp fun b _ => Post.bind' fun _ => Post.ite (fun _ => trmmAxpyB_shape _ _ _ _ _) fun _ => Post.pure (SameShape.refl b)) fun b => ?_
  cases nu
  · exact key _ _
  · exact Post.bind' fun _ => key _ _

theorem dtrmmCore_shape (ls up nt nu : Bool) (m n : Int) (alpha : F) (a b : FA F) : Post (dtrmmCore ls up nt nu m n alpha a b) (SameShape b) := by
  unfold dtrmmCore
  refine Post.ite (fun _ => Post.ite (fun _ => Post.ite (fun _ => ?_) fun _ => ?_) fun _ => Post.ite (fun _ => ?_) fun _ => ?_) fun _ =>
    Post.ite (fun _ => Post.ite (fun _ => ?_) fun _ => ?_) fun _ => Post.ite (fun _ => ?_) fun _ => ?_
  · exact shape_forUp fun _ _ => shape_forUp fun _ _ => trmmLUN_shape _ _ _ _ _ _
  · exact shape_forUp fun _ _ => shape_forDown fun _ _ => trmmLLN_shape _ _ _ _ _ _ _
  · exact shape_forUp fun _ _ => shape_forDown fun _ _ => trmmLT_shape _ _ _ _ _ _ _ _
  · exact shape_forUp fun _ _ => shape_forUp fun _ _ => trmmLT_shape _ _ _ _ _ _ _ _
  · exact shape_forDown fun _ _ => trmmRN_shape _ _ _ _ _ _ _ _
  · exact shape_forUp fun _ _ => trmmRN_shape _ _ _ _ _ _ _ _
  · exact shape_forUp fun _ _ => trmmRT_shape _ _ _ _ _ _ _ _
  · exact shape_forDown fun _ _ => trmmRT_shape _ _ _ _ _ _ _ _

/-! ### The conversions -/

namespace Spec

/-- The array a nested vector of `r` vectors of length `c` is taken for: `r` rows, `c` columns, the concatenation stored by columns. -/
def taken (v : List (List F)) (r c : Nat) : FA F := ⟨v.flatten, r, c, nan⟩

/-- `x`, a run on nested vectors, does what `y`, the run on arrays, does, and returns the elements of its result as `c` vectors of length `r`. -/
def Reshaped (r c : Nat) (x : R (List (List F))) (y : R (FA F)) : Prop :=
  ∀ p, (∀ w, x p = .ok w → ∃ a, y p = .ok a ∧ Rect w c r ∧ w.flatten = a.data) ∧ ∀ a, y p = .ok a → ∃ w, x p = .ok w ∧ Rect w c r ∧ w.flatten = a.data

end Spec

theorem nested_taken {v : List (List F)} {r c : Nat} (hv : Rect v r c) (hr : 0 < r) (hrs : r < 2 ^ 31) (hcs : c < 2 ^ 31) : faOfVecVec v = Spec.taken v r c := by
  obtain ⟨h1, h2, -⟩ := faOfVecVec_shape hv hr hrs hcs
  show (⟨v.flatten, (faOfVecVec v).rows, (faOfVecVec v).cols, nan⟩ : FA F) = _
  rw [h1, h2]; rfl

theorem back_of_shape {v : List (List F)} {r c : Nat} (hv : Rect v r c) (hr : 0 < r) (hrs : r < 2 ^ 31) (hcs : c < 2 ^ 31) {a : FA F}
    (ha : SameShape (Spec.taken v r c) a) : ∃ w, vecVecOfFa a = pure w ∧ Rect w c r ∧ w.flatten = a.data := by
  have hl : a.data.length = c * r := by rw [← ha.2.2, Nat.mul_comm]; exact flatten_length hv
  obtain ⟨w, e1, e2, e3⟩ := vecVecOfFa_ok a r c hr hrs hcs ha.1.symm ha.2.1.symm hl.le
  exact ⟨w, e1, e2, by rw [e3, hl, Nat.sub_self]; simp⟩

theorem reshaped_of_shape {v : List (List F)} {r c : Nat} (hv : Rect v r c) (hr : 0 < r) (hrs : r < 2 ^ 31) (hcs : c < 2 ^ 31) {y : R (FA F)}
    (hy : Post y (SameShape (Spec.taken v r c))) : Spec.Reshaped r c (y >>= vecVecOfFa) y := by
  intro p
  cases e : y p with
  | ok a =>
    obtain ⟨w, e1, e2, e3⟩ := back_of_shape hv hr hrs hcs (hy p a e)
    have hw : (y >>= vecVecOfFa) p = .ok w := by
      rw [R.bind_apply, e]; show vecVecOfFa a p = _; rw [e1]; rfl
    refine ⟨fun w' h => ?_, fun a' h => ?_⟩
    · rw [hw] at h; cases h; exact ⟨a, rfl, e2, e3⟩
    · cases h; exact ⟨w, hw, e2, e3⟩
  | _ =>
    refine ⟨fun w' h => ?_, fun a' h => by cases h⟩
    rw [R.bind_apply, e] at h; cases h

/-- **C87 for `dlaset`.** In every arithmetic, `dlaset` on `r` vectors of length `c` does what it does on the array with `r` rows and `c` columns, and hands the result back as `c` vectors of
length `r`. -/
theorem C87_dlaset_reshapes (uplo : Char) (m n : Int) (alpha beta : F) (a : List (List F)) (r c : Nat) (ha : Rect a r c) (hr : 0 < r) (hrs : r < 2 ^ 31) (hcs : c < 2 ^ 31) :
    Spec.Reshaped r c (dlaset uplo m n alpha beta a) (dlaset uplo m n alpha beta (Spec.taken a r c)) := by
  have e : dlaset (F := F) uplo m n alpha beta a = dlasetFA uplo m n alpha beta (Spec.taken a r c) >>= vecVecOfFa := by
    rw [← nested_taken ha hr hrs hcs]; rfl
  have e' : dlaset (F := F) uplo m n alpha beta (Spec.taken a r c) = dlasetFA uplo m n alpha beta (Spec.taken a r c) := bind_pure _
  rw [e, e']
  exact reshaped_of_shape ha hr hrs hcs (dlasetFA_shape _ _ _ _ _ _)

/-- **C87 for `dlacpy`**, whatever the container of the source. -/
theorem C87_dlacpy_reshapes {A : Type} [ToFA F A] (uplo : Char) (m n : Int) (a : A) (lda : Int) (b : List (List F)) (ldb : Int) (r c : Nat) (hb : Rect b r c) (hr : 0 < r) (hrs : r < 2 ^ 31)
    (hcs : c < 2 ^ 31) : Spec.Reshaped r c (dlacpy (F := F) uplo m n a lda b ldb) (dlacpy (F := F) uplo m n a lda (Spec.taken b r c) ldb) := by
  have e : dlacpy (F := F) uplo m n a lda b ldb = (ToFA.toFa2d a lda >>= fun a' => dlacpyFA uplo m n a' (Spec.taken b r c)) >>= vecVecOfFa := by
    rw [bind_assoc, ← nested_taken hb hr hrs hcs]; rfl
  have e' : dlacpy (F := F) uplo m n a lda (Spec.taken b r c) ldb = (ToFA.toFa2d a lda >>= fun a' => dlacpyFA uplo m n a' (Spec.taken b r c)) := by
    unfold dlacpy
    refine congrArg _ (funext fun a' => ?_)
    exact bind_pure (dlacpyFA uplo m n a' (Spec.taken b r c))
  rw [e, e']
  exact reshaped_of_shape hb hr hrs hcs (Post.bind' fun _ => dlacpyFA_shape _ _ _ _ _)

/-- **C87 for `dgemm`**, whatever the containers of the factors, when the call is not one that leaves `c` alone. -/
theorem C87_dgemm_reshapes {A B : Type} [ToFA F A] [ToFA F B] (transa transb : Char) (m n k : Int) (alpha : F) (a : A) (lda : Int) (b : B) (ldb : Int) (beta : F) (c : List (List F)) (ldc : Int)
    (r s : Nat) (hc : Rect c r s) (hr : 0 < r) (hrs : r < 2 ^ 31) (hss : s < 2 ^ 31) (hm : m ≠ 0) (hn : n ≠ 0) (hq : ¬(((alpha =ᶠ zero) = true ∨ k = 0) ∧ (beta =ᶠ one) = true)) :
    Spec.Reshaped r s (dgemm transa transb m n k alpha a lda b ldb beta c ldc) (dgemm transa transb m n k alpha a lda b ldb beta (Spec.taken c r s) ldc) := by
  have hq' : ¬(m = 0 ∨ n = 0 ∨ (((alpha =ᶠ zero) = true ∨ k = 0) ∧ (beta =ᶠ one) = true)) := by tauto
  have hsome : ∀ (a' b' : FA F), ∃ y : R (FA F), Post y (SameShape (Spec.taken c r s)) ∧
      dgemmFA transa transb m n k alpha a' lda b' ldb beta (Spec.taken c r s) ldc = y >>= fun x => pure (some x) := by
    intro a' b'
    unfold dgemmFA
    dsimp only
    split
    · exact ⟨R.exit "DGEMM " (dgemmInfo transa transb m n k lda ldb ldc), (by intro p a h; cases h), rfl⟩
    try rw [if_neg hq']
    split
    · split
      · exact ⟨_, shape_forUp fun _ _ => zeroCol_shape _ _ _, rfl⟩
      · exact ⟨_, shape_forUp fun _ _ => scaleCol_shape _ _ _ _, rfl⟩
    · split
      · split
        · exact ⟨_, gemmNotA_shape _ _ _ _ _ _ _ _ _, rfl⟩
        · exact ⟨_, gemmTransA_shape _ _ _ _ _ _ _ _ _, rfl⟩
      · split
        · exact ⟨_, gemmNotA_shape _ _ _ _ _ _ _ _ _, rfl⟩
        · exact ⟨_, gemmTransA_shape _ _ _ _ _ _ _ _ _, rfl⟩
  choose y hy ey using hsome
  have e : dgemm (F := F) transa transb m n k alpha a lda b ldb beta c ldc = (ToFA.toFa2d a lda >>= fun a' => ToFA.toFa2d b ldb >>= fun b' => y a' b') >>= vecVecOfFa := by
    unfold dgemm
    simp only [bind_assoc]
    refine congrArg _ (funext fun a' => congrArg _ (funext fun b' => ?_))
    show (dgemmFA transa transb m n k alpha a' lda b' ldb beta (faOfVecVec c) ldc >>= _) = _
    rw [nested_taken hc hr hrs hss, ey, bind_assoc]
    rfl
  have e' : dgemm (F := F) transa transb m n k alpha a lda b ldb beta (Spec.taken c r s) ldc = (ToFA.toFa2d a lda >>= fun a' => ToFA.toFa2d b ldb >>= fun b' => y a' b') := by
    unfold dgemm
    refine congrArg _ (funext fun a' => congrArg _ (funext fun b' => ?_))
    show (dgemmFA transa transb m n k alpha a' lda b' ldb beta (Spec.taken c r s) ldc >>= _) = _
    rw [ey, bind_assoc]
    exact bind_pure _
  rw [e, e']
  exact reshaped_of_shape hc hr hrs hss (Post.bind' fun _ => Post.bind' fun _ => hy _ _)

/-- **C87 for `dtrmm`.** With `alpha ≠ 0` both the triangular factor, although it is only read, and `b` are reshaped. -/
theorem C87_dtrmm_reshapes (side uplo transa diag : Char) (m n : Int) (alpha : F) (a : List (List F)) (lda : Int) (b : List (List F)) (ldb : Int) (r c s t : Nat) (ha : Rect a r c) (hb : Rect b s t)
    (hr : 0 < r) (hrs : r < 2 ^ 31) (hcs : c < 2 ^ 31) (hs : 0 < s) (hss : s < 2 ^ 31) (hts : t < 2 ^ 31) (hm : m ≠ 0) (hn : n ≠ 0) (hq : (alpha =ᶠ zero) = false) :
    ∀ p a' b', dtrmm side uplo transa diag m n alpha a lda b ldb p = .ok (a', b') →
      Rect a' c r ∧ a'.flatten = a.flatten ∧ Rect b' t s ∧
        ∃ y, dtrmm side uplo transa diag m n alpha (Spec.taken a r c) lda (Spec.taken b s t) ldb p = .ok (Spec.taken a r c, y) ∧ b'.flatten = y.data := by
  intro p a' b' h
  have hq' : ¬(m = 0 ∨ n = 0) := by tauto
  unfold dtrmm at h
  change (dtrmmFA side uplo transa diag m n alpha (faOfVecVec a) lda (faOfVecVec b) ldb >>= _) p = _ at h
  rw [nested_taken ha hr hrs hcs, nested_taken hb hs hss hts] at h
  show _ ∧ _ ∧ _ ∧ ∃ y, (dtrmmFA side uplo transa diag m n alpha (Spec.taken a r c) lda (Spec.taken b s t) ldb >>= _) p = _ ∧ _
  unfold dtrmmFA at h ⊢
  dsimp only at h ⊢
  by_cases hi : dtrmmInfo side uplo transa diag m n lda ldb ≠ 0
  · rw [if_pos hi] at h; cases h
  rw [if_neg hi, if_neg hq', if_neg (by rw [hq]; simp)] at h ⊢
  rw [bind_assoc] at h ⊢
  obtain ⟨wa, ea1, ea2, ea3⟩ := back_of_shape ha hr hrs hcs (SameShape.refl _)
  cases e : dtrmmCore (lsame side 'L') (lsame uplo 'U') (lsame transa 'N') (lsame diag 'N') m n alpha (Spec.taken a r c) (Spec.taken b s t) p with
  | ok y =>
    obtain ⟨wb, eb1, eb2, eb3⟩ := back_of_shape hb hs hss hts (dtrmmCore_shape _ _ _ _ _ _ _ _ _ p y e)
    have h' : (do let a ← vecVecOfFa (Spec.taken a r c); let b ← vecVecOfFa y; pure (a, b) : R (List (List F) × List (List F))) p = .ok (a', b') := by
      rw [← h, R.bind_apply (dtrmmCore _ _ _ _ _ _ _ _ _), e]; rfl
    rw [ea1, eb1] at h'
    cases h'
    refine ⟨ea2, ea3, eb2, y, ?_, eb3⟩
    rw [R.bind_apply, e]; rfl
  | _ =>
    exfalso
    rw [R.bind_apply, e] at h; cases h

/-- The shape alone: when `r ≠ c` what comes back never has the shape that was passed. -/
theorem C87_shape_lost {r c : Nat} (hrc : r ≠ c) {x : R (List (List F))} {y : R (FA F)} (h : Spec.Reshaped r c x y) : Post x fun w => ¬Rect w r c := by
  intro p w e hw
  obtain ⟨_, _, hw', _⟩ := (h p).1 w e
  exact hrc (hw.1.symm.trans hw'.1)

end generic

/-! ### On `f64` -/

/-- Two vectors of length three. -/
def nestB : List (List Float) := [[1, 2, 3], [4, 5, 6]]
def nestO : List (List Float) := [[0, 0, 0], [0, 0, 0]]
def nestI : List (List Float) := [[1, 0], [0, 1]]

/-- **C87, as used.** The hypotheses are met by two vectors of length three.  Copying all of the matrix with these rows gives three vectors of length two; the product of the identity with it also, and
neither by rows nor by columns is that the matrix; copying the three by two matrix with these columns also misses the last element. -/
theorem C87_example : Rect nestB 2 3 ∧ ∀ pr,
    (dlacpy (F := Float) 'A' 2 3 nestB 2 nestO 2 pr).holds (fun w => w == [[1, 2], [3, 4], [5, 6]]) = true ∧
    (dgemm (F := Float) 'N' 'N' 2 3 2 1 nestI 2 nestB 2 0 nestO 2 pr).holds (fun w => w == [[1, 2], [3, 4], [5, 6]]) = true ∧
    (dlacpy (F := Float) 'A' 3 2 nestB 3 nestO 3 pr).holds (fun w => w == [[1, 2], [3, 4], [5, 0]]) = true := by
  refine ⟨⟨rfl, by simp [nestB]⟩, fun pr => ?_⟩
  cases pr <;> decide +kernel
end Verif

import Verif.Lib.HqrSafe
import Verif.Lib.Qr5Block
import Verif.Props.Larfg
import Verif.Props.Lacpy

/-!
# `dlaqr5` with two or three shifts does not panic, whatever the data and the arithmetic

Any scalar arithmetic; `Ret x P` is defined in `Verif.Lib.HqrSafe`.
-/

namespace Verif
open Scalar Spec

section
variable {σ : Type}

theorem Ret.forDown {P : σ → Prop} {f : σ → Int → R σ} {lo hi : Int} {s : σ} (hs : P s)
    (hf : ∀ s i, lo ≤ i → i ≤ hi → P s → Ret (f s i) P) : Ret (forDown lo hi s f) P :=
  Ret.foldlM _ hs fun s i hi hs => hf s i (mem_irange.1 (List.mem_reverse.1 hi)).1 (mem_irange.1 (List.mem_reverse.1 hi)).2 hs

theorem Ret.forStep {P : σ → Prop} {f : σ → Int → R σ} {lo hi : Int} {d : Nat} (hd : 0 < d) {s : σ} (hs : P s)
    (hf : ∀ s i, lo ≤ i → i ≤ hi → P s → Ret (f s i) P) : Ret (forStep lo hi d s f) P := by
  unfold Verif.forStep irangeStep
  rw [if_neg (by omega), pure_bind]
  refine Ret.foldlM _ hs fun s i hi' hs => ?_
  obtain ⟨k, hk, rfl⟩ := List.mem_map.1 hi'
  rw [List.mem_range] at hk
  have h1 : (k + 1) * d ≤ (hi - lo + 1).toNat + d - 1 := (Nat.mul_le_mul_right d hk).trans (Nat.div_mul_le_self _ _)
  have h2 : ((k + 1) * d : ℕ) = k * d + d := by ring
  have h3 : ((k * d : ℕ) : ℤ) = (k : ℤ) * d := by push_cast; ring
  exact hf s _ (by omega) (by omega) hs

end

variable {F : Type} [Scalar F]

/-! ### Elements outside the array -/

/-- The offset of `(i, j)` in an array with `r` rows can be computed. -/
structure OffFits (r : Int) (i j : Int) : Prop where
  row : FitsI32 (i - 1)
  col : FitsI32 (j - 1)
  prod : FitsI32 ((j - 1) * r)
  sum : FitsI32 ((j - 1) * r + (i - 1))

theorem get2_fits {a : FA F} {r i j : Int} (hr : a.rows = r) (h : OffFits r i j) : Ret (a.get2 i j) fun _ => True := by
  unfold FA.get2 FA.off
  rw [isub_ok h.col, isub_ok h.row, hr]
  simp only [pure_bind]
  rw [imul_ok h.prod, pure_bind, iadd_ok h.sum, pure_bind]
  exact Ret.pure trivial

theorem modify2_fits {a : FA F} {r i j : Int} (hr : a.rows = r) (h : OffFits r i j) (f : F → F) : Ret (a.modify2 i j f) (SameShape a) := by
  refine Ret.post (P := fun _ => True) ?_ (modify2_shape a i j f)
  unfold FA.modify2 FA.off
  rw [isub_ok h.col, isub_ok h.row, hr]
  simp only [pure_bind]
  rw [imul_ok h.prod, pure_bind, iadd_ok h.sum, pure_bind]
  exact Ret.pure trivial

theorem refl3Cols_fits {lo hi c1 c2 c3 r : Int} {v2 v3 t1 t2 t3 : F} {z : FA F} (hr : z.rows = r)
    (hf : ∀ i, lo ≤ i → i ≤ hi → OffFits r i c1 ∧ OffFits r i c2 ∧ OffFits r i c3) : Ret (refl3Cols lo hi c1 c2 c3 v2 v3 t1 t2 t3 z) (SameShape z) := by
  unfold refl3Cols
  refine Ret.forUp (SameShape.refl z) fun s j j1 j2 hb => ?_
  obtain ⟨f1, f2, f3⟩ := hf j j1 j2
  have hb' : s.rows = r := hb.1 ▸ hr
  refine Ret.bind (get2_fits hb' f1) fun x1 _ => Ret.bind (get2_fits hb' f2) fun x2 _ => Ret.bind (get2_fits hb' f3) fun x3 _ => ?_
  refine Ret.bind (modify2_fits hb' f1 _) fun b hb1 => ?_
  refine Ret.bind (modify2_fits (hb1.1 ▸ hb') f2 _) fun d hd1 => ?_
  exact (modify2_fits (hd1.1 ▸ hb1.1 ▸ hb') f3 _).mono fun e he => hb.trans (hb1.trans (hd1.trans he))

theorem refl2Cols_fits {lo hi c1 c2 r : Int} {v2 t1 t2 : F} {z : FA F} (hr : z.rows = r)
    (hf : ∀ i, lo ≤ i → i ≤ hi → OffFits r i c1 ∧ OffFits r i c2) : Ret (refl2Cols lo hi c1 c2 v2 t1 t2 z) (SameShape z) := by
  unfold refl2Cols
  refine Ret.forUp (SameShape.refl z) fun s j j1 j2 hb => ?_
  obtain ⟨f1, f2⟩ := hf j j1 j2
  have hb' : s.rows = r := hb.1 ▸ hr
  refine Ret.bind (get2_fits hb' f1) fun x1 _ => Ret.bind (get2_fits hb' f2) fun x2 _ => ?_
  refine Ret.bind (modify2_fits hb' f1 _) fun b hb1 => ?_
  exact (modify2_fits (hb1.1 ▸ hb') f2 _).mono fun e he => hb.trans (hb1.trans he)

/-! ### `dlarfg` on a short vector, possibly shorter than its order asks for -/

theorem dscal_list {n : Int} (h1 : 1 ≤ n) (h2 : n ≤ 2) (da : F) (x : List F) : Ret (dscal n da x 1) fun y => y.length = x.length := by
  unfold dscal dscalFA
  by_cases h0 : n ≤ 0 ∨ (1 : Int) ≤ 0 ∨ (da =ᶠ one) = true
  · rw [if_pos h0]
    exact Ret.bind (P := fun o => o = none) (Ret.pure rfl) fun o ho => by subst ho; exact Ret.pure rfl
  · rw [if_neg h0]
    have hm : n.tmod 5 = n := Int.tmod_eq_of_lt (by omega) (by omega)
    simp only [hm]
    simp only [if_true]
    rw [if_pos ⟨by omega, by omega⟩]
    refine Ret.bind (P := fun o => ∃ y, o = some y ∧ SameShape (ToFA.toFa x : FA F) y) ?_ fun o ho => ?_
    · refine Ret.bind (P := SameShape (ToFA.toFa x : FA F)) (Ret.forUp (SameShape.refl _) fun s i _ _ hs => Ret.pure (hs.trans (modify1_shape _ _ _))) fun y hy => ?_
      exact Ret.pure ⟨y, rfl, hy⟩
    · obtain ⟨y, rfl, hy⟩ := ho
      exact Ret.pure hy.2.2.symm

theorem dnrm2_list {n : Int} (h1 : 1 ≤ n) (h2 : n ≤ 2) (x : List F) (hx : x.length < 2 ^ 31) : Ret (dnrm2 (F := F) n x 1) fun _ => True := by
  obtain ⟨k, rfl⟩ : ∃ k : Nat, n = k := ⟨n.toNat, by omega⟩
  refine ⟨_, dnrm2FA_fold (by omega) (by unfold StrideOK; simp; omega) _ ?_, trivial⟩
  show x.length < _
  omega

theorem dlarfgRescale_list {n : Int} (h1 : 2 ≤ n) (h2 : n ≤ 3) (sm rs : F) (k : Nat) (x : List F) (be al : F) (knt : Nat) :
    Ret (dlarfgRescale (F := F) n 1 sm rs k x be al knt) fun q => q.1.length = x.length := by
  induction k generalizing x be al knt with
  | zero => exact Ret.pure rfl
  | succ k ih =>
    unfold dlarfgRescale
    refine Ret.bind (isub_ret (by unfold FitsI32; omega)) fun d hd => ?_
    subst hd
    refine Ret.bind (dscal_list (by omega) (by omega) _ _) fun y hy => ?_
    exact Ret.ite (fun _ => Ret.pure hy) fun _ => (ih _ _ _ _).mono fun q hq => hq.trans hy

theorem dlarfgFinish_list {n : Int} (h1 : 2 ≤ n) (h2 : n ≤ 3) (sm al be : F) (x : List F) (knt : Nat) :
    Ret (dlarfgFinish (F := F) n 1 sm al be x knt) fun q => q.2.1.length = x.length := by
  unfold dlarfgFinish
  refine Ret.bind (isub_ret (by unfold FitsI32; omega)) fun d hd => ?_
  subst hd
  refine Ret.bind (dscal_list (by omega) (by omega) _ _) fun y hy => ?_
  exact Ret.pure hy

theorem dlarfg_list {n : Int} (h1 : 2 ≤ n) (h2 : n ≤ 3) (al : F) (x : List F) (hx : x.length < 2 ^ 31) :
    Ret (dlarfg (F := F) n al x 1) fun q => q.2.1.length = x.length := by
  unfold dlarfg
  rw [if_neg (by omega)]
  refine Ret.bind (isub_ret (by unfold FitsI32; omega)) fun d hd => ?_
  subst hd
  refine Ret.bind (dnrm2_list (by omega) (by omega) x hx) fun xn _ => ?_
  refine Ret.ite (fun _ => Ret.pure rfl) fun _ => Ret.ite (fun _ => ?_) fun _ => dlarfgFinish_list h1 h2 _ _ _ _ _
  refine Ret.bind (dlarfgRescale_list h1 h2 _ _ _ _ _ _ _) fun q hq => ?_
  obtain ⟨y, b, a, k⟩ := q
  simp only at hq ⊢
  refine Ret.bind (isub_ret (by unfold FitsI32; omega)) fun d hd => ?_
  subst hd
  refine Ret.bind (dnrm2_list (by omega) (by omega) y (by omega)) fun xn _ => ?_
  exact (dlarfgFinish_list h1 h2 _ _ _ _ _).mono fun q' hq' => hq'.trans hq

/-! ### `v` and the starting vectors -/

section
variable {r c ldv cv : Nat}

theorem as2d_ret (a : FA F) (h3 : 3 ≤ ldv) (hl : a.data.length = ldv * cv) (hs : ldv * cv < 2 ^ 31) : Ret (a.as2d ldv) fun v => HqrShape v ldv cv := by
  refine ⟨{ a with rows := ldv, cols := cv }, ?_, rfl, rfl, hl, hs⟩
  unfold FA.as2d
  rw [if_neg (by omega), hl]
  have hs' : ((ldv * cv : Nat) : Int) < 2147483648 := by exact_mod_cast hs
  have e : wrap32 ((ldv * cv : Nat) : Int) = ((ldv * cv : Nat) : Int) := wrap32_of_fits (by unfold FitsI32; omega)
  have hdiv : ((ldv * cv : Nat) : Int).tdiv ldv = cv := by
    push_cast
    exact Int.mul_tdiv_cancel_left _ (by omega)
  have hcs : cv ≤ ldv * cv := Nat.le_mul_of_pos_left _ (by omega)
  rw [e, hdiv, chk_ok (by unfold FitsI32; omega), pure_bind]

theorem HqrShape.mat {h : FA F} (hs : HqrShape h r c) : IsMatrix h r c := ⟨hs.rows, hs.cols, hs.length, hs.small⟩

theorem insert1_ret (l : List F) (x : F) (h2 : 2 ≤ l.length) (hl : l.length < 2 ^ 31) : Ret ((faOfVec l).insert 1 x) fun a => a.data.length = l.length + 1 := by
  unfold FA.insert FA.len FA.is2d faOfVec
  simp only [show decide ((0 : Int) > 0) = false by decide, Bool.and_false, Bool.false_eq_true, if_false, pure_bind]
  rw [wrap32_of_fits (by unfold FitsI32; omega), if_pos (by omega)]
  have e1 : asUsize 1 - 1 = 0 := by decide
  rw [e1, if_pos (Nat.zero_le _)]
  exact Ret.pure (by simp)

theorem insert1_any (l : List F) (x : F) : Ret ((faOfVec l).insert 1 x) fun _ => True := by
  unfold FA.insert FA.len FA.is2d faOfVec
  simp only [show decide ((0 : Int) > 0) = false by decide, Bool.and_false, Bool.false_eq_true, if_false, pure_bind]
  have e1 : asUsize 1 - 1 = 0 := by decide
  rw [e1, if_pos (Nat.zero_le _)]
  exact Ret.ite (fun _ => Ret.pure trivial) fun _ => Ret.pure trivial

theorem qr5Larfg_ret {n : Int} (h1 : 2 ≤ n) (h2 : n ≤ 3) (h3 : 3 ≤ ldv) (hc : 1 ≤ cv) (beta : F) {v : FA F} (hv : HqrShape v ldv cv) :
    Ret (qr5Larfg ldv n 1 beta v) fun q => HqrShape q.2 ldv cv := by
  have hcs : ldv ≤ ldv * cv := Nat.le_mul_of_pos_right _ (by omega)
  have hsm := hv.small
  have hlen := hv.length
  unfold qr5Larfg
  refine Ret.bind (P := fun l => l.length = ldv * cv - 1) ⟨_, C07_from2 hv.mat (by norm_num) (by omega) (by norm_num) (by omega), ?_⟩ fun l hl => ?_
  · beta_reduce
    rw [List.length_drop, hlen]
    norm_num
  refine Ret.bind (dlarfg_list h1 h2 _ _ (by omega)) fun q hq => ?_
  obtain ⟨b, v1, v2⟩ := q
  simp only at hq ⊢
  refine Ret.bind (insert1_ret v1 v2 (by omega) (by omega)) fun a ha => ?_
  refine Ret.bind (as2d_ret a h3 (by omega) hsm) fun w hw => Ret.pure hw

theorem dlaqr1FA_ret {n : Int} {h : FA F} {r : Nat} (hr : h.rows = r) (hn : n = 2 ∧ 2 * r < 2 ^ 31 ∧ 2 ≤ r ∨ n = 3 ∧ 3 * r < 2 ^ 31 ∧ 3 ≤ r) (a b a' b' : F) (v : FA F) :
    Ret (dlaqr1FA n h a b a' b' v) (SameShape v) := by
  have f : ∀ {i j : Int}, 1 ≤ i → i ≤ n → 1 ≤ j → j ≤ n → Ret (h.get2 i j) fun _ => True := by
    intro i j i1 i2 j1 j2
    have hj : (j - 1) * (r : Int) ≤ (n - 1) * r := mul_le_mul_of_nonneg_right (by omega) (by omega)
    have hj0 : 0 ≤ (j - 1) * (r : Int) := mul_nonneg (by omega) (by omega)
    have hk : (n - 1) * (r : Int) + n < 2 ^ 31 := by
      rcases hn with ⟨rfl, q, q'⟩ | ⟨rfl, q, q'⟩
      · have : 2 * (r : Int) < 2 ^ 31 := by exact_mod_cast q
        linarith [(by exact_mod_cast q' : (2 : Int) ≤ r)]
      · have : 3 * (r : Int) < 2 ^ 31 := by exact_mod_cast q
        linarith [(by exact_mod_cast q' : (3 : Int) ≤ r)]
    have hn3 : n ≤ 3 := by omega
    exact get2_fits hr ⟨by unfold FitsI32; omega, by unfold FitsI32; omega, by unfold FitsI32; omega, by unfold FitsI32; omega⟩
  have s : ∀ {w : FA F} (i : Int) (x : F), SameShape v w → SameShape v (w.set1 i x) := fun i x hw => hw.trans (set1_shape _ _ _)
  unfold dlaqr1FA
  refine Ret.ite (fun hc => ?_) fun hc => ?_
  · refine Ret.bind (f (by omega) (by omega) (by omega) (by omega)) fun _ _ => Ret.bind (f (by omega) (by omega) (by omega) (by omega)) fun _ _ => ?_
    refine Ret.bind (f (by omega) (by omega) (by omega) (by omega)) fun _ _ => Ret.bind (f (by omega) (by omega) (by omega) (by omega)) fun _ _ => ?_
    exact Ret.ite (fun _ => Ret.pure (s _ _ (s _ _ (SameShape.refl v)))) fun _ => Ret.pure (s _ _ (s _ _ (SameShape.refl v)))
  · refine Ret.bind (f (by omega) (by omega) (by omega) (by omega)) fun _ _ => Ret.bind (f (by omega) (by omega) (by omega) (by omega)) fun _ _ => ?_
    refine Ret.bind (f (by omega) (by omega) (by omega) (by omega)) fun _ _ => Ret.bind (f (by omega) (by omega) (by omega) (by omega)) fun _ _ => ?_
    refine Ret.bind (f (by omega) (by omega) (by omega) (by omega)) fun _ _ => Ret.bind (f (by omega) (by omega) (by omega) (by omega)) fun _ _ => ?_
    refine Ret.bind (f (by omega) (by omega) (by omega) (by omega)) fun _ _ => Ret.bind (f (by omega) (by omega) (by omega) (by omega)) fun _ _ => ?_
    refine Ret.bind (f (by omega) (by omega) (by omega) (by omega)) fun _ _ => ?_
    exact Ret.ite (fun _ => Ret.pure (s _ _ (s _ _ (s _ _ (SameShape.refl v))))) fun _ => Ret.pure (s _ _ (s _ _ (s _ _ (SameShape.refl v))))

/-- `dlaqr1` on the part of `h` that begins at `(k, k)`: the size of `v` is kept. -/
theorem dlaqr1_ret {n : Int} {h : FA F} (hs : HqrShape h r c) {k : Int} (k1 : 1 ≤ k) (kr : k ≤ r) (kc : k ≤ c) (hn : n = 2 ∧ 2 ≤ r ∧ 2 ≤ c ∨ n = 3 ∧ 3 ≤ r ∧ 3 ≤ c)
    (a b a' b' : F) {V : Type} [ToFA F V] [FromFA F V] (v : V) (len : V → Nat)
    (hV : ∀ w : FA F, SameShape (ToFA.toFa v) w → ∃ v' : V, FromFA.fromFa w = pure v' ∧ len v' = len v) :
    Ret (do
      let l ← h.from2 k k
      dlaqr1 n l (r : Int) a b a' b' v) fun v' => len v' = len v := by
  have hr1 : 0 < r := by omega
  have hl : h.data.length < 2 ^ 31 := by rw [hs.length]; exact hs.small
  have h2r : n = 2 ∧ 2 * r < 2 ^ 31 ∧ 2 ≤ r ∨ n = 3 ∧ 3 * r < 2 ^ 31 ∧ 3 ≤ r := by
    have hsm := hs.small
    rcases hn with ⟨q, q1, q2⟩ | ⟨q, q1, q2⟩
    · exact Or.inl ⟨q, by rw [mul_comm]; exact lt_of_le_of_lt (Nat.mul_le_mul_left r q2) hsm, q1⟩
    · exact Or.inr ⟨q, by rw [mul_comm]; exact lt_of_le_of_lt (Nat.mul_le_mul_left r q2) hsm, q1⟩
  have hr31 : r < 2 ^ 31 := by omega
  refine Ret.bind (P := fun l => l.length < 2 ^ 31) ⟨_, C07_from2 hs.mat k1 kr k1 kc, ?_⟩ fun l hl' => ?_
  · beta_reduce
    rw [List.length_drop]; omega
  unfold dlaqr1
  obtain ⟨x, ex, _, hx⟩ := toFa2d_list (v := l) hr1 hr31 hl'
  rw [ex, pure_bind, if_neg (by omega)]
  refine Ret.bind (dlaqr1FA_ret hx.rows h2r a b a' b' _) fun w hw => ?_
  exact hV w hw

theorem dlaqr1_list_ret {n : Int} {h : FA F} (hs : HqrShape h r c) {k : Int} (k1 : 1 ≤ k) (kr : k ≤ r) (kc : k ≤ c) (hn : n = 2 ∧ 2 ≤ r ∧ 2 ≤ c ∨ n = 3 ∧ 3 ≤ r ∧ 3 ≤ c)
    (a b a' b' : F) (v : List F) :
    Ret (do
      let l ← h.from2 k k
      dlaqr1 n l (r : Int) a b a' b' v) fun v' => v'.length = v.length :=
  dlaqr1_ret hs k1 kr kc hn a b a' b' v List.length fun w hw => ⟨w.data, rfl, hw.2.2.symm⟩

theorem dlaqr1_fa_ret {n : Int} {h : FA F} (hs : HqrShape h r c) {k : Int} (k1 : 1 ≤ k) (kr : k ≤ r) (kc : k ≤ c) (hn : n = 2 ∧ 2 ≤ r ∧ 2 ≤ c ∨ n = 3 ∧ 3 ≤ r ∧ 3 ≤ c)
    (a b a' b' : F) (v : FA F) :
    Ret (do
      let l ← h.from2 k k
      dlaqr1 n l (r : Int) a b a' b' v) fun _ => True :=
  (dlaqr1_ret hs k1 kr kc hn a b a' b' v (fun _ => 0) fun w _ => ⟨w, rfl, rfl⟩).mono fun _ _ => trivial

/-- `v` rebuilt from the starting vector. -/
theorem startVec_ret {n : Int} {h v : FA F} (hs : HqrShape h r c) (hv : HqrShape v ldv cv) (h3 : 3 ≤ ldv) (hc : 1 ≤ cv) {k : Int} (k1 : 1 ≤ k) (kr : k ≤ r) (kc : k ≤ c)
    (hn : n = 2 ∧ 2 ≤ r ∧ 2 ≤ c ∨ n = 3 ∧ 3 ≤ r ∧ 3 ≤ c) (a b a' b' : F) {α : Type} {f : FA F → R α} {Q : α → Prop} (hf : ∀ w, HqrShape w ldv cv → Ret (f w) Q) :
    Ret (do
      let htmp ← h.from2 k k
      let vtmp ← v.from2 1 1
      let vtmp ← dlaqr1 n htmp (r : Int) a b a' b' vtmp
      let v ← ToFA.toFa2d (F := F) vtmp (ldv : Int)
      f v) Q := by
  have e1 := C07_from2 hv.mat (i := 1) (j := 1) (by norm_num) (by omega) (by norm_num) (by omega)
  simp only [e1, pure_bind]
  have := dlaqr1_list_ret hs k1 kr kc hn a b a' b' (v.data.drop (((1 : Int) - 1) * ldv + (1 - 1)).toNat)
  rw [← bind_assoc]
  refine Ret.bind this fun l hl => ?_
  refine Ret.bind (P := fun w => HqrShape w ldv cv) ?_ hf
  refine as2d_ret (faOfVec l) h3 ?_ hv.small
  show l.length = _
  rw [hl, List.length_drop, hv.length]
  norm_num

end

/-! ### One step of the sweep -/

/-- The sizes of the arguments of `dlaqr5` suit each other; two or three shifts. -/
structure Fit5 (p : Qr5P F) (r c ldv cv rz cz ru cu rv cwv rh cwh : Nat) : Prop where
  top : 1 ≤ p.ktop
  lt : p.ktop < p.kbot
  kn : p.kbot ≤ p.n
  nr : p.n ≤ r
  nc : p.n ≤ c
  ldh : p.ldh = r
  lv : p.ldv = ldv
  ldv3 : 3 ≤ ldv
  cv1 : 1 ≤ cv
  nb : p.nbmps = 1
  ldz : p.accum = true → p.ldz = r
  ldu : p.accum = true → p.ldu = ru
  ru4 : p.accum = true → 4 ≤ ru
  cu4 : p.accum = true → 4 ≤ cu
  ldwh : p.accum = true → p.ldwh = rh
  rh4 : p.accum = true → 4 ≤ rh
  nh1 : p.accum = true → 1 ≤ p.nh
  nhc : p.accum = true → p.nh ≤ cwh
  ldwv : p.accum = true → p.ldwv = rv
  cv4 : p.accum = true → 4 ≤ cwv
  nv1 : p.accum = true → 1 ≤ p.nv
  nvr : p.accum = true → p.nv ≤ rv
  iloz : p.wantz = true → 1 ≤ p.iloz
  ihiz : p.wantz = true → p.ihiz ≤ rz
  zr : p.accum = true → rz = r
  zc : p.accum = true → p.wantz = true → p.kbot ≤ cz
  zfit : p.accum = false → p.wantz = true → (rz : Int) * (p.kbot + 1) < 2 ^ 31

/-- The shapes of the arrays `dlaqr5` works on. -/
structure Shape5 (p : Qr5P F) (r c ldv cv rz cz ru cu rv cwv rh cwh : Nat) (s : Qr5S F) : Prop where
  h : HqrShape s.h r c
  v : HqrShape s.v ldv cv
  zr : p.wantz = true → s.z.rows = rz
  z : p.accum = true → p.wantz = true → HqrShape s.z rz cz
  u : p.accum = true → HqrShape s.u ru cu
  wv : p.accum = true → HqrShape s.wv rv cwv
  wh : p.accum = true → HqrShape s.wh rh cwh

section
variable {p : Qr5P F} {r c ldv cv rz cz ru cu rv cwv rh cwh : Nat}

theorem qr5Negligible_ret (hf : Fit5 p r c ldv cv rz cz ru cu rv cwv rh cwh) {k : Int} (k1 : p.ktop ≤ k) (k2 : k + 2 ≤ p.kbot) {h : FA F} (hs : HqrShape h r c) :
    Ret (qr5Negligible p k h) fun h' => HqrShape h' r c := by
  have h1 := hf.top; have h2 := hf.kn; have h3 := hf.nr; have h4 := hf.nc
  have g : ∀ {a b : Int}, 1 ≤ a → a ≤ p.kbot → 1 ≤ b → b ≤ p.kbot → Ret (h.get2 a b) fun _ => True :=
    fun a1 a2 b1 b2 => get2_ret hs (by omega) (by omega) (by omega) (by omega) (by omega)
  unfold qr5Negligible
  simp only
  refine Ret.bind (g (by omega) (by omega) (by omega) (by omega)) fun hk1k _ => Ret.ite (fun _ => ?_) fun _ => Ret.pure hs
  refine Ret.bind (g (by omega) (by omega) (by omega) (by omega)) fun hkk _ => Ret.bind (g (by omega) (by omega) (by omega) (by omega)) fun hk1k1 _ => ?_
  have tail : ∀ tst1 : F, Ret (if (abs hk1k ≤ᶠ fmax p.smlnum (p.ulp * tst1)) = true then do
      let hkk1 ← h.get2 k (k + 1)
      if ((fmin (abs hk1k1) (abs (hkk - hk1k1)) * (fmax (abs hk1k1) (abs (hkk - hk1k1)) / (fmax (abs hk1k1) (abs (hkk - hk1k1)) + fmax (abs hk1k) (abs hkk1))) =ᶠ zero) ||
        (fmin (abs hk1k) (abs hkk1) * (fmax (abs hk1k) (abs hkk1) / (fmax (abs hk1k1) (abs (hkk - hk1k1)) + fmax (abs hk1k) (abs hkk1))) ≤ᶠ
          fmax p.smlnum (p.ulp * (fmin (abs hk1k1) (abs (hkk - hk1k1)) * (fmax (abs hk1k1) (abs (hkk - hk1k1)) / (fmax (abs hk1k1) (abs (hkk - hk1k1)) + fmax (abs hk1k) (abs hkk1))))))) = true then
        h.set2 (k + 1) k zero
      else pure h
      else pure h) fun h' => HqrShape h' r c := by
    intro tst1
    refine Ret.ite (fun _ => ?_) fun _ => Ret.pure hs
    refine Ret.bind (g (by omega) (by omega) (by omega) (by omega)) fun hkk1 _ => ?_
    exact Ret.ite (fun _ => set2_ret hs (by omega) (by omega) (by omega) (by omega) (by omega) _) fun _ => Ret.pure hs
  refine Ret.ite (fun _ => ?_) fun _ => tail _
  simp only [pure_bind]
  repeat' first
    | exact tail _
    | refine Ret.ite (fun _ => Ret.bind (g (by omega) (by omega) (by omega) (by omega)) fun _ _ => ?_) fun _ => ?_

theorem qr5Bmp22Refl_ret (hf : Fit5 p r c ldv cv rz cz ru cu rv cwv rh cwh) {k : Int} (k1 : p.ktop - 1 ≤ k) (k2 : k + 2 ≤ p.kbot) {s : Qr5S F}
    (hh : HqrShape s.h r c) (hv : HqrShape s.v ldv cv) : Ret (qr5Bmp22Refl p k 1 s) fun q => HqrShape q.1 r c ∧ HqrShape q.2 ldv cv := by
  have h1 := hf.top; have h2 := hf.kn; have h3 := hf.nr; have h4 := hf.nc; have h5 := hf.ldv3; have h6 := hf.cv1
  unfold qr5Bmp22Refl
  rw [hf.ldh, hf.lv]
  refine Ret.ite (fun hk => ?_) fun hk => ?_
  · refine startVec_ret hh hv h5 h6 (by omega) (by omega) (by omega) (Or.inl ⟨rfl, by omega, by omega⟩) _ _ _ _ fun w hw => ?_
    refine Ret.bind (get2_ret hw (by omega) (by omega) (by omega) (by omega) (by omega)) fun beta _ => ?_
    exact Ret.bind (qr5Larfg_ret (by norm_num) (by norm_num) h5 h6 _ hw) fun q hq => Ret.pure ⟨hh, hq⟩
  · refine Ret.bind (get2_ret hh (by omega) (by omega) (by omega) (by omega) (by omega)) fun beta _ => ?_
    refine Ret.bind (get2_ret hh (by omega) (by omega) (by omega) (by omega) (by omega)) fun x _ => ?_
    refine Ret.bind (set2_ret hv (by omega) (by omega) (by omega) (by omega) (by omega) _) fun w hw => ?_
    refine Ret.bind (qr5Larfg_ret (by norm_num) (by norm_num) h5 h6 _ hw) fun q hq => ?_
    obtain ⟨b, w'⟩ := q
    simp only at hq ⊢
    refine Ret.bind (set2_ret hh (by omega) (by omega) (by omega) (by omega) (by omega) _) fun h' hh' => ?_
    exact Ret.bind (set2_ret hh' (by omega) (by omega) (by omega) (by omega) (by omega) _) fun h'' hh'' => Ret.pure ⟨hh'', hq⟩

theorem offFits_z {rz : Nat} {kbot i j : Int} (hz : (rz : Int) * (kbot + 1) < 2 ^ 31) (hk : 2 ≤ kbot) (i1 : 1 ≤ i) (i2 : i ≤ rz) (j1 : -1 ≤ j) (j2 : j ≤ kbot + 1) :
    OffFits rz i j := by
  have e1 : (j - 1) * (rz : Int) ≤ kbot * rz := mul_le_mul_of_nonneg_right (by omega) (by omega)
  have e2 : (-2) * (rz : Int) ≤ (j - 1) * rz := mul_le_mul_of_nonneg_right (by omega) (by omega)
  have e3 : kbot * (rz : Int) + rz < 2 ^ 31 := by linarith
  have e4 : (3 : Int) * rz ≤ (kbot + 1) * rz := mul_le_mul_of_nonneg_right (by omega) (by omega)
  have e5 : (kbot + 1) * (rz : Int) < 2 ^ 31 := by linarith
  have e6 : kbot * 1 ≤ kbot * (rz : Int) := mul_le_mul_of_nonneg_left (by omega) (by omega)
  refine ⟨?_, ?_, ?_, ?_⟩ <;> unfold FitsI32 <;> omega

theorem qr5Bmp22_ret (hf : Fit5 p r c ldv cv rz cz ru cu rv cwv rh cwh) {incol jtop jbot krcol : Int} (k1 : p.ktop - 1 ≤ krcol) (k2 : krcol + 2 ≤ p.kbot)
    (ki : incol ≤ krcol) (ki2 : krcol ≤ incol + 1) (jt : 1 ≤ jtop) (jb : jbot ≤ c) {s : Qr5S F} (hs : Shape5 p r c ldv cv rz cz ru cu rv cwv rh cwh s) :
    Ret (qr5Bmp22 p incol jtop jbot krcol 1 s) (Shape5 p r c ldv cv rz cz ru cu rv cwv rh cwh) := by
  have h1 := hf.top; have h2 := hf.kn; have h3 := hf.nr; have h4 := hf.nc; have h5 := hf.ldv3; have h6 := hf.cv1; have h7 := hf.lt
  have hkdu : p.kdu = 4 := by unfold Qr5P.kdu; rw [hf.nb]; norm_num
  unfold qr5Bmp22
  simp only [show krcol + 2 * ((1 : Int) - 1) = krcol by ring]
  refine Ret.bind (qr5Bmp22Refl_ret hf k1 k2 hs.h hs.v) fun q hq => ?_
  obtain ⟨h, v⟩ := q
  obtain ⟨hh, hv⟩ := hq
  simp only at hh hv ⊢
  refine Ret.bind (get2_ret hv (by omega) (by omega) (by omega) (by omega) (by omega)) fun t1 _ => ?_
  refine Ret.bind (get2_ret hv (by omega) (by omega) (by omega) (by omega) (by omega)) fun v2 _ => ?_
  refine Ret.bind (refl2Cols_ret hh (by omega) (by omega) (by omega) (by omega) (by omega) (by omega) (by omega)) fun ha hha => ?_
  refine Ret.bind (refl2Rows_ret hha (by omega) (by omega) (by omega) (by omega) (by omega) (by omega) (by omega)) fun hb hhb => ?_
  have tail : ∀ h' : FA F, HqrShape h' r c → Ret (if p.accum = true then do
        let u ← refl2Cols (max 1 (p.ktop - incol)) p.kdu (krcol - incol + 1) (krcol - incol + 2) v2 t1 (t1 * v2) s.u
        pure { s with h := h', v := v, u := u }
      else if p.wantz = true then do
        let z ← refl2Cols p.iloz p.ihiz (krcol + 1) (krcol + 2) v2 t1 (t1 * v2) s.z
        pure { s with h := h', v := v, z := z }
      else pure { s with h := h', v := v }) (Shape5 p r c ldv cv rz cz ru cu rv cwv rh cwh) := by
    intro h' hh'
    refine Ret.ite (fun hacc => ?_) fun hacc => Ret.ite (fun hw => ?_) fun hw => Ret.pure ⟨hh', hv, hs.zr, hs.z, hs.u, hs.wv, hs.wh⟩
    · have := hf.ru4 hacc; have := hf.cu4 hacc
      refine Ret.bind (refl2Cols_ret (hs.u hacc) (by omega) (by omega) (by omega) (by omega) (by omega) (by omega) (by omega)) fun u hu => ?_
      exact Ret.pure ⟨hh', hv, hs.zr, hs.z, fun _ => hu, hs.wv, hs.wh⟩
    · have hna : p.accum = false := by simpa using hacc
      have i1 := hf.iloz hw; have i2 := hf.ihiz hw; have i3 := hf.zfit hna hw
      refine Ret.bind (refl2Cols_fits (hs.zr hw) fun i q1 q2 => ⟨offFits_z i3 (by omega) (by omega) (by omega) (by omega) (by omega),
        offFits_z i3 (by omega) (by omega) (by omega) (by omega) (by omega)⟩) fun z hz => ?_
      exact Ret.pure ⟨hh', hv, fun _ => hz.1 ▸ hs.zr hw, fun ha => absurd ha hacc, hs.u, hs.wv, hs.wh⟩
  refine Ret.ite (fun hk => ?_) fun _ => tail _ hhb
  exact Ret.bind (qr5Negligible_ret hf hk k2 hhb) fun h' hh' => tail h' hh'

theorem qr5Collapsed_ret (hf : Fit5 p r c ldv cv rz cz ru cu rv cwv rh cwh) {k : Int} (k1 : p.ktop ≤ k) (k2 : k + 3 ≤ p.kbot) (beta : F) (s : Qr5S F) {h v : FA F}
    (hh : HqrShape h r c) (hv : HqrShape v ldv cv) : Ret (qr5Collapsed p k 1 beta s h v) fun q => HqrShape q.1 r c ∧ HqrShape q.2.1 ldv cv := by
  have h1 := hf.top; have h2 := hf.kn; have h3 := hf.nr; have h4 := hf.nc; have h5 := hf.ldv3; have h6 := hf.cv1
  have g : ∀ {a b : Int}, 1 ≤ a → a ≤ p.kbot → 1 ≤ b → b ≤ p.kbot → Ret (h.get2 a b) fun _ => True :=
    fun a1 a2 b1 b2 => get2_ret hh (by omega) (by omega) (by omega) (by omega) (by omega)
  have st : ∀ {h' : FA F}, HqrShape h' r c → ∀ {a b : Int} (x : F), 1 ≤ a → a ≤ p.kbot → 1 ≤ b → b ≤ p.kbot → Ret (h'.set2 a b x) fun h'' => HqrShape h'' r c :=
    fun hh' _ _ x a1 a2 b1 b2 => set2_ret hh' (by omega) (by omega) (by omega) (by omega) (by omega) x
  unfold qr5Collapsed
  rw [hf.ldh, ← bind_assoc]
  refine Ret.bind (dlaqr1_fa_ret hh (by omega) (by omega) (by omega) (Or.inr ⟨rfl, by omega, by omega⟩) _ _ _ _ _) fun vt _ => ?_
  refine Ret.bind (dlarfg_list (by norm_num) (by norm_num) _ _ (by simp)) fun q hq => ?_
  obtain ⟨b, vt1, vt2⟩ := q
  simp only at hq ⊢
  refine Ret.bind (insert1_any vt1 vt2) fun vt _ => ?_
  refine Ret.bind (g (by omega) (by omega) (by omega) (by omega)) fun hk1k _ => Ret.bind (g (by omega) (by omega) (by omega) (by omega)) fun hk2k _ => ?_
  refine Ret.bind (g (by omega) (by omega) (by omega) (by omega)) fun x1 _ => Ret.bind (g (by omega) (by omega) (by omega) (by omega)) fun x2 _ => ?_
  refine Ret.bind (g (by omega) (by omega) (by omega) (by omega)) fun x3 _ => ?_
  refine Ret.ite (fun _ => ?_) fun _ => ?_
  · refine Ret.bind (st hh _ (by omega) (by omega) (by omega) (by omega)) fun ha hha => Ret.bind (st hha _ (by omega) (by omega) (by omega) (by omega)) fun hb hhb => ?_
    exact Ret.bind (st hhb _ (by omega) (by omega) (by omega) (by omega)) fun hc hhc => Ret.pure ⟨hhc, hv⟩
  · refine Ret.bind (modify2_ret hh (by omega) (by omega) (by omega) (by omega) (by omega) _) fun ha hha => ?_
    refine Ret.bind (st hha _ (by omega) (by omega) (by omega) (by omega)) fun hb hhb => Ret.bind (st hhb _ (by omega) (by omega) (by omega) (by omega)) fun hc hhc => ?_
    refine Ret.bind (set2_ret hv (by omega) (by omega) (by omega) (by omega) (by omega) _) fun va hva => ?_
    refine Ret.bind (set2_ret hva (by omega) (by omega) (by omega) (by omega) (by omega) _) fun vb hvb => ?_
    exact Ret.bind (set2_ret hvb (by omega) (by omega) (by omega) (by omega) (by omega) _) fun vc hvc => Ret.pure ⟨hhc, hvc⟩

theorem qr5Refl3_ret (hf : Fit5 p r c ldv cv rz cz ru cu rv cwv rh cwh) {k : Int} (k1 : p.ktop - 1 ≤ k) (k2 : k + 3 ≤ p.kbot) {s : Qr5S F}
    (hh : HqrShape s.h r c) (hv : HqrShape s.v ldv cv) : Ret (qr5Refl3 p k 1 s) fun q => HqrShape q.1 r c ∧ HqrShape q.2.1 ldv cv := by
  have h1 := hf.top; have h2 := hf.kn; have h3 := hf.nr; have h4 := hf.nc; have h5 := hf.ldv3; have h6 := hf.cv1
  have g : ∀ {h : FA F}, HqrShape h r c → ∀ {a b : Int}, 1 ≤ a → a ≤ p.kbot → 1 ≤ b → b ≤ p.kbot → Ret (h.get2 a b) fun _ => True :=
    fun hh _ _ a1 a2 b1 b2 => get2_ret hh (by omega) (by omega) (by omega) (by omega) (by omega)
  have gv : ∀ {a : Int}, 1 ≤ a → a ≤ 3 → Ret (s.v.get2 a 1) fun _ => True := fun a1 a2 => get2_ret hv (by omega) (by omega) (by omega) (by omega) (by omega)
  have st : ∀ {h' : FA F}, HqrShape h' r c → ∀ {a b : Int} (x : F), 1 ≤ a → a ≤ p.kbot → 1 ≤ b → b ≤ p.kbot → Ret (h'.set2 a b x) fun h'' => HqrShape h'' r c :=
    fun hh' _ _ x a1 a2 b1 b2 => set2_ret hh' (by omega) (by omega) (by omega) (by omega) (by omega) x
  unfold qr5Refl3
  rw [hf.ldh, hf.lv]
  refine Ret.ite (fun hk => ?_) fun hk => ?_
  · refine startVec_ret hh hv h5 h6 (by omega) (by omega) (by omega) (Or.inr ⟨rfl, by omega, by omega⟩) _ _ _ _ fun w hw => ?_
    refine Ret.bind (get2_ret hw (by omega) (by omega) (by omega) (by omega) (by omega)) fun alpha _ => ?_
    exact Ret.bind (qr5Larfg_ret (by norm_num) (by norm_num) h5 h6 _ hw) fun q hq => Ret.pure ⟨hh, hq⟩
  · refine Ret.bind (gv (by omega) (by omega)) fun t1 _ => Ret.bind (gv (by omega) (by omega)) fun v2 _ => Ret.bind (gv (by omega) (by omega)) fun v3 _ => ?_
    refine Ret.bind (g hh (by omega) (by omega) (by omega) (by omega)) fun x _ => ?_
    refine Ret.bind (st hh _ (by omega) (by omega) (by omega) (by omega)) fun ha hha => Ret.bind (st hha _ (by omega) (by omega) (by omega) (by omega)) fun hb hhb => ?_
    refine Ret.bind (modify2_ret hhb (by omega) (by omega) (by omega) (by omega) (by omega) _) fun hc hhc => ?_
    refine Ret.bind (g hhc (by omega) (by omega) (by omega) (by omega)) fun beta _ => Ret.bind (g hhc (by omega) (by omega) (by omega) (by omega)) fun y _ => ?_
    refine Ret.bind (set2_ret hv (by omega) (by omega) (by omega) (by omega) (by omega) _) fun va hva => ?_
    refine Ret.bind (g hhc (by omega) (by omega) (by omega) (by omega)) fun y' _ => ?_
    refine Ret.bind (set2_ret hva (by omega) (by omega) (by omega) (by omega) (by omega) _) fun vb hvb => ?_
    refine Ret.bind (qr5Larfg_ret (by norm_num) (by norm_num) h5 h6 _ hvb) fun q hq => ?_
    obtain ⟨b, w⟩ := q
    simp only at hq ⊢
    refine Ret.bind (g hhc (by omega) (by omega) (by omega) (by omega)) fun y1 _ => Ret.bind (g hhc (by omega) (by omega) (by omega) (by omega)) fun y2 _ => ?_
    refine Ret.bind (g hhc (by omega) (by omega) (by omega) (by omega)) fun y3 _ => ?_
    refine Ret.ite (fun _ => ?_) fun _ => qr5Collapsed_ret hf (by omega) k2 _ s hhc hq
    refine Ret.bind (st hhc _ (by omega) (by omega) (by omega) (by omega)) fun ha hha => Ret.bind (st hha _ (by omega) (by omega) (by omega) (by omega)) fun hb hhb => ?_
    exact Ret.bind (st hhb _ (by omega) (by omega) (by omega) (by omega)) fun hc hhc => Ret.pure ⟨hhc, hq⟩

theorem qr5Bulge_ret (hf : Fit5 p r c ldv cv rz cz ru cu rv cwv rh cwh) {jtop krcol : Int} (k1 : p.ktop - 1 ≤ krcol) (k2 : krcol + 3 ≤ p.kbot) (jt : 1 ≤ jtop)
    {s : Qr5S F} (hs : Shape5 p r c ldv cv rz cz ru cu rv cwv rh cwh s) : Ret (qr5Bulge p jtop krcol s 1) (Shape5 p r c ldv cv rz cz ru cu rv cwv rh cwh) := by
  have h1 := hf.top; have h2 := hf.kn; have h3 := hf.nr; have h4 := hf.nc; have h5 := hf.ldv3; have h6 := hf.cv1
  unfold qr5Bulge
  simp only [show krcol + 2 * ((1 : Int) - 1) = krcol by ring]
  refine Ret.bind (qr5Refl3_ret hf k1 k2 hs.h hs.v) fun q hq => ?_
  obtain ⟨h, v, vt⟩ := q
  obtain ⟨hh, hv⟩ := hq
  simp only at hh hv ⊢
  refine Ret.bind (get2_ret hv (by omega) (by omega) (by omega) (by omega) (by omega)) fun t1 _ => ?_
  refine Ret.bind (get2_ret hv (by omega) (by omega) (by omega) (by omega) (by omega)) fun v2 _ => ?_
  refine Ret.bind (get2_ret hv (by omega) (by omega) (by omega) (by omega) (by omega)) fun v3 _ => ?_
  refine Ret.bind (refl3Cols_ret hh (by omega) (by omega) (by omega) (by omega) (by omega) (by omega) (by omega) (by omega) (by omega)) fun ha hha => ?_
  refine Ret.bind (refl3Rows_ret hha (by omega) (by omega) (by omega) (by omega) (by omega) (by omega) (by omega) (by omega) (by omega)) fun hb hhb => ?_
  refine Ret.ite (fun hk => Ret.pure ⟨hhb, hv, hs.zr, hs.z, hs.u, hs.wv, hs.wh⟩) fun hk => ?_
  exact Ret.bind (qr5Negligible_ret hf (by omega) (by omega) hhb) fun h' hh' => Ret.pure ⟨hh', hv, hs.zr, hs.z, hs.u, hs.wv, hs.wh⟩

theorem qr5Left_ret (hf : Fit5 p r c ldv cv rz cz ru cu rv cwv rh cwh) {krcol jbot : Int} (k1 : p.ktop - 1 ≤ krcol) (k2 : krcol + 3 ≤ p.kbot) (jb : jbot ≤ c)
    {s : Qr5S F} (hs : Shape5 p r c ldv cv rz cz ru cu rv cwv rh cwh s) : Ret (qr5Left p krcol jbot s 1) (Shape5 p r c ldv cv rz cz ru cu rv cwv rh cwh) := by
  have h1 := hf.top; have h2 := hf.kn; have h3 := hf.nr; have h4 := hf.nc; have h5 := hf.ldv3; have h6 := hf.cv1
  unfold qr5Left
  simp only [show krcol + 2 * ((1 : Int) - 1) = krcol by ring]
  refine Ret.bind (get2_ret hs.v (by omega) (by omega) (by omega) (by omega) (by omega)) fun t1 _ => ?_
  refine Ret.bind (get2_ret hs.v (by omega) (by omega) (by omega) (by omega) (by omega)) fun v2 _ => ?_
  refine Ret.bind (get2_ret hs.v (by omega) (by omega) (by omega) (by omega) (by omega)) fun v3 _ => ?_
  refine Ret.bind (refl3Rows_ret hs.h (by omega) (by omega) (by omega) (by omega) (by omega) (by omega) (by omega) (by omega) (by omega)) fun h' hh' => ?_
  exact Ret.pure ⟨hh', hs.v, hs.zr, hs.z, hs.u, hs.wv, hs.wh⟩

theorem qr5AccU_ret (hf : Fit5 p r c ldv cv rz cz ru cu rv cwv rh cwh) (ha : p.accum = true) {incol krcol : Int} (ki : incol ≤ krcol) (ki2 : krcol ≤ incol + 1)
    {s : Qr5S F} (hs : Shape5 p r c ldv cv rz cz ru cu rv cwv rh cwh s) : Ret (qr5AccU p incol krcol 1 s 1) (Shape5 p r c ldv cv rz cz ru cu rv cwv rh cwh) := by
  have h5 := hf.ldv3; have h6 := hf.cv1; have h7 := hf.ru4 ha; have h8 := hf.cu4 ha
  have hkdu : p.kdu = 4 := by unfold Qr5P.kdu; rw [hf.nb]; norm_num
  unfold qr5AccU
  simp only [show krcol + 2 * ((1 : Int) - 1) = krcol by ring]
  refine Ret.bind (get2_ret hs.v (by omega) (by omega) (by omega) (by omega) (by omega)) fun t1 _ => ?_
  refine Ret.bind (get2_ret hs.v (by omega) (by omega) (by omega) (by omega) (by omega)) fun v2 _ => ?_
  refine Ret.bind (get2_ret hs.v (by omega) (by omega) (by omega) (by omega) (by omega)) fun v3 _ => ?_
  refine Ret.bind (refl3Cols_ret (hs.u ha) (by omega) (by omega) (by omega) (by omega) (by omega) (by omega) (by omega) (by omega) (by omega)) fun u hu => ?_
  exact Ret.pure ⟨hs.h, hs.v, hs.zr, hs.z, fun _ => hu, hs.wv, hs.wh⟩

theorem get2_v0 {v : FA F} (hv : HqrShape v ldv cv) (h3 : 3 ≤ ldv) (hc : 1 ≤ cv) {i : Int} (i1 : 1 ≤ i) (i3 : i ≤ 3) {m : Int} (m0 : 0 ≤ m) (m1 : m ≤ 1) :
    Ret (v.get2 i m) fun _ => True := by
  have hsm : ((ldv * cv : ℕ) : Int) < 2147483648 := by exact_mod_cast hv.small
  have hl : ldv ≤ ldv * cv := Nat.le_mul_of_pos_right _ (by omega)
  rcases (by omega : m = 0 ∨ m = 1) with rfl | rfl
  · refine get2_fits hv.rows ⟨?_, ?_, ?_, ?_⟩ <;> unfold FitsI32 <;> omega
  · refine get2_fits hv.rows ⟨?_, ?_, ?_, ?_⟩ <;> unfold FitsI32 <;> omega

theorem qr5AccZ_ret (hf : Fit5 p r c ldv cv rz cz ru cu rv cwv rh cwh) (ha : p.accum = false) (hw : p.wantz = true) {krcol m : Int}
    (hm : m = 1 ∧ p.ktop - 1 ≤ krcol ∧ krcol + 2 ≤ p.kbot ∨ m = 0 ∧ krcol + 2 = p.kbot)
    {s : Qr5S F} (hs : Shape5 p r c ldv cv rz cz ru cu rv cwv rh cwh s) : Ret (qr5AccZ p krcol s m) (Shape5 p r c ldv cv rz cz ru cu rv cwv rh cwh) := by
  have h1 := hf.top; have h2 := hf.lt; have h5 := hf.ldv3; have h6 := hf.cv1
  have i1 := hf.iloz hw; have i2 := hf.ihiz hw; have i3 := hf.zfit ha hw
  unfold qr5AccZ
  refine Ret.bind (get2_v0 hs.v h5 h6 (by omega) (by omega) (by omega) (by omega)) fun t1 _ => ?_
  refine Ret.bind (get2_v0 hs.v h5 h6 (by omega) (by omega) (by omega) (by omega)) fun v2 _ => ?_
  refine Ret.bind (get2_v0 hs.v h5 h6 (by omega) (by omega) (by omega) (by omega)) fun v3 _ => ?_
  have hk : p.ktop - 4 ≤ krcol + 2 * (m - 1) ∧ -2 ≤ krcol + 2 * (m - 1) ∧ krcol + 2 * (m - 1) + 2 ≤ p.kbot := by omega
  refine Ret.bind (refl3Cols_fits (hs.zr hw) fun i q1 q2 => ⟨offFits_z i3 (by omega) (by omega) (by omega) (by omega) (by omega),
        offFits_z i3 (by omega) (by omega) (by omega) (by omega) (by omega), offFits_z i3 (by omega) (by omega) (by omega) (by omega) (by omega)⟩) fun z hz => ?_
  exact Ret.pure ⟨hs.h, hs.v, fun _ => hz.1 ▸ hs.zr hw, fun h => absurd h (by rw [ha]; simp), hs.u, hs.wv, hs.wh⟩

theorem tdiv2_small {x : Int} (h : -1 ≤ x) (h1 : x ≤ 1) : x.tdiv 2 = 0 := by
  rcases (by omega : x = -1 ∨ x = 0 ∨ x = 1) with rfl | rfl | rfl <;> decide

theorem tdiv2_pos {x : Int} (h : 2 ≤ x) : 1 ≤ x.tdiv 2 := by
  rw [Int.tdiv_eq_ediv_of_nonneg (by omega)]; omega

theorem tdiv2_nonpos {x : Int} (h : x ≤ 1) : x.tdiv 2 ≤ 0 := by
  by_cases h1 : x = 1
  · subst h1; decide
  · obtain ⟨y, rfl⟩ : ∃ y, x = -y := ⟨-x, by ring⟩
    rw [Int.neg_tdiv]
    have := Int.tdiv_nonneg (a := y) (b := 2) (by omega) (by norm_num)
    omega

theorem qr5Krcol_ret (hf : Fit5 p r c ldv cv rz cz ru cu rv cwv rh cwh) {incol jtop krcol : Int} (k1 : p.ktop - 1 ≤ krcol) (k2 : krcol + 2 ≤ p.kbot)
    (ki : incol ≤ krcol) (ki2 : krcol ≤ incol + 1) (jt : 1 ≤ jtop) {s : Qr5S F} (hs : Shape5 p r c ldv cv rz cz ru cu rv cwv rh cwh s) :
    Ret (qr5Krcol p incol jtop s krcol) (Shape5 p r c ldv cv rz cz ru cu rv cwv rh cwh) := by
  have h1 := hf.top; have h2 := hf.kn; have h3 := hf.nr; have h4 := hf.nc; have h7 := hf.lt
  have hmt : max 1 ((p.ktop - krcol).tdiv 2 + 1) = 1 := by
    have := tdiv2_nonpos (x := p.ktop - krcol) (by omega)
    omega
  unfold qr5Krcol
  simp only [hmt, hf.nb]
  have hjb : (if p.accum = true then min (incol + p.kdu) p.kbot else if p.wantt = true then p.n else p.kbot) ≤ (c : Int) := by
    split
    · omega
    · split <;> omega
  generalize (if p.accum = true then min (incol + p.kdu) p.kbot else if p.wantt = true then p.n else p.kbot) = jbot at hjb
  rcases (by omega : krcol + 2 = p.kbot ∨ krcol + 3 ≤ p.kbot) with hk | hk
  · have hmb : min 1 ((p.kbot - krcol - 1).tdiv 2) = 0 := by rw [tdiv2_small (by omega) (by omega)]; rfl
    rw [hmb, if_pos ⟨by norm_num, by omega⟩]
    refine Ret.bind (qr5Bmp22_ret hf k1 k2 ki ki2 jt hjb hs) fun s1 hs1 => ?_
    refine Ret.bind (Ret.forDown hs1 fun s m m1 m2 _ => by omega) fun s2 hs2 => Ret.bind (Ret.forDown hs2 fun s m m1 m2 _ => by omega) fun s3 hs3 => ?_
    refine Ret.ite (fun ha => Ret.forDown hs3 fun s m m1 m2 _ => by omega) fun ha => Ret.ite (fun hw => Ret.forDown hs3 fun s m m1 m2 hs' => ?_) fun _ => Ret.pure hs3
    exact qr5AccZ_ret hf (by simpa using ha) hw (by omega) hs'
  · have hmb : min 1 ((p.kbot - krcol - 1).tdiv 2) = 1 := by
      have := tdiv2_pos (x := p.kbot - krcol - 1) (by omega)
      omega
    rw [hmb, if_neg (by omega), pure_bind]
    refine Ret.bind (Ret.forDown hs fun s m m1 m2 hs' => ?_) fun s2 hs2 => Ret.bind (Ret.forDown hs2 fun s m m1 m2 hs' => ?_) fun s3 hs3 => ?_
    · obtain rfl : m = 1 := by omega
      exact qr5Bulge_ret hf k1 hk jt hs'
    · obtain rfl : m = 1 := by omega
      exact qr5Left_ret hf k1 hk hjb hs'
    refine Ret.ite (fun ha => Ret.forDown hs3 fun s m m1 m2 hs' => ?_) fun ha => Ret.ite (fun hw => Ret.forDown hs3 fun s m m1 m2 hs' => ?_) fun _ => Ret.pure hs3
    · obtain rfl : m = 1 := by omega
      exact qr5AccU_ret hf ha ki ki2 hs'
    · obtain rfl : m = 1 := by omega
      exact qr5AccZ_ret hf (by simpa using ha) hw (by omega) hs'

/-! ### The accumulated update -/

/-- One block of the accumulated update. -/
theorem qr5Block_ret {hz : Bool} {nu jlen : Nat} {u x w : FA F} {r c rw' cw : Nat} (hu : HqrShape u ru cu) (hx : HqrShape x r c) (hw : HqrShape w rw' cw)
    {a b k1 : Int} (n0 : 0 < nu) (j0 : 0 < jlen) (k11 : 1 ≤ k1) (k1r : k1 + nu ≤ ru + 1) (k1c : k1 + nu ≤ cu + 1) (a1 : 1 ≤ a) (b1 : 1 ≤ b)
    (am : a + (if hz then nu else jlen : Nat) ≤ r + 1) (bn : b + (if hz then jlen else nu : Nat) ≤ c + 1) (wm : (if hz then nu else jlen) ≤ rw')
    (wn : (if hz then jlen else nu) ≤ cw) :
    Ret (qr5Block hz nu jlen ru r rw' r a b k1 u x w) fun q => HqrShape q.1 r c ∧ HqrShape q.2 rw' cw := by
  have r1 : 1 ≤ r := by
    have : 0 < (if hz then nu else jlen) := by split <;> omega
    omega
  obtain ⟨x', w', e, mw, ix⟩ := qr5Block_ok (hz := hz) rfl rfl (hqrShape_is2 hu (by omega)) hu.small (hqrShape_is2 hx r1) hx.small hw.mat n0 j0 k11 k1r k1c a1 b1 am bn wm wn
  exact ⟨_, e, is2_hqrShape ix hx.small, mw.rows, mw.cols, mw.length, mw.small⟩

theorem asUsize_of_pos {x : Int} {N : Nat} (h1 : 1 ≤ x) (h2 : x ≤ N) (hN : N < 2 ^ 31) : 0 < asUsize x := by
  obtain ⟨d, rfl⟩ : ∃ d : Nat, x = d := ⟨x.toNat, by omega⟩
  rw [asUsize_natCast (by omega)]
  omega

theorem qr5Accumulate_ret (hf : Fit5 p r c ldv cv rz cz ru cu rv cwv rh cwh) (ha : p.accum = true) {incol : Int} (k1 : p.ktop - 1 ≤ incol) (k2 : incol + 2 ≤ p.kbot)
    {s : Qr5S F} (hs : Shape5 p r c ldv cv rz cz ru cu rv cwv rh cwh s) : Ret (qr5Accumulate p incol s) (Shape5 p r c ldv cv rz cz ru cu rv cwv rh cwh) := by
  have h1 := hf.top; have h2 := hf.kn; have h3 := hf.nr; have h4 := hf.nc; have h7 := hf.lt
  have q1 := hf.ru4 ha; have q2 := hf.cu4 ha; have q3 := hf.rh4 ha; have q4 := hf.nh1 ha; have q5 := hf.nhc ha; have q6 := hf.cv4 ha; have q7 := hf.nv1 ha; have q8 := hf.nvr ha
  have hkdu : p.kdu = 4 := by unfold Qr5P.kdu; rw [hf.nb]; norm_num
  have hnh : 0 < asUsize p.nh := asUsize_of_pos q4 q5 (lt_of_le_of_lt (Nat.le_mul_of_pos_left _ (by omega)) (hs.wh ha).small)
  have hnv : 0 < asUsize p.nv := asUsize_of_pos q7 q8 (lt_of_le_of_lt (Nat.le_mul_of_pos_right _ (by omega)) (hs.wv ha).small)
  obtain ⟨nu, hnu⟩ : ∃ nu : Nat, (p.kdu - max 0 (incol + p.kdu - p.kbot)) - max 1 (p.ktop - incol) + 1 = nu :=
    ⟨((p.kdu - max 0 (incol + p.kdu - p.kbot)) - max 1 (p.ktop - incol) + 1).toNat, by rw [hkdu]; omega⟩
  unfold qr5Accumulate
  simp only [hnu, hf.ldu ha, hf.ldh, hf.ldwh ha, hf.ldwv ha, hf.ldz ha]
  rw [hkdu] at hnu
  refine Ret.bind (Ret.forStep hnh hs fun s j j1 j2 hs' => ?_) fun s1 hs1 => Ret.bind (Ret.forStep hnv hs1 fun s j j1 j2 hs' => ?_) fun s2 hs2 => ?_
  · rw [hkdu] at j1
    have hjn : j ≤ p.n := by split at j2 <;> omega
    obtain ⟨jl, hjl⟩ : ∃ jl : Nat, min p.nh ((if p.wantt = true then p.n else p.kbot) - j + 1) = jl :=
      ⟨(min p.nh ((if p.wantt = true then p.n else p.kbot) - j + 1)).toNat, by omega⟩
    rw [hjl]
    have hjl' : (jl : Int) ≤ p.n - j + 1 := by
      have : (if p.wantt = true then p.n else p.kbot) ≤ p.n := by split <;> omega
      omega
    refine Ret.bind (qr5Block_ret (hs'.u ha) hs'.h (hs'.wh ha) (by omega) (by omega) (by omega) (by omega) (by omega) (by omega) (by omega) ?_ ?_ ?_ ?_) fun q hq => ?_
    · rw [if_pos rfl]; omega
    · rw [if_pos rfl]; omega
    · rw [if_pos rfl]; omega
    · rw [if_pos rfl]; omega
    exact Ret.pure ⟨hq.1, hs'.v, hs'.zr, hs'.z, hs'.u, hs'.wv, fun _ => hq.2⟩
  · have hj1 : 1 ≤ j := by split at j1 <;> omega
    obtain ⟨jl, hjl⟩ : ∃ jl : Nat, min p.nv (max p.ktop incol - j) = jl := ⟨(min p.nv (max p.ktop incol - j)).toNat, by omega⟩
    rw [hjl]
    refine Ret.bind (qr5Block_ret (hs'.u ha) hs'.h (hs'.wv ha) (by omega) (by omega) (by omega) (by omega) (by omega) (by omega) (by omega) ?_ ?_ ?_ ?_) fun q hq => ?_
    · rw [if_neg (by simp)]; omega
    · rw [if_neg (by simp)]; omega
    · rw [if_neg (by simp)]; omega
    · rw [if_neg (by simp)]; omega
    exact Ret.pure ⟨hq.1, hs'.v, hs'.zr, hs'.z, hs'.u, fun _ => hq.2, hs'.wh⟩
  · refine Ret.ite (fun hw => Ret.forStep hnv hs2 fun s j j1 j2 hs' => ?_) fun _ => Ret.pure hs2
    have i1 := hf.iloz hw; have i2 := hf.ihiz hw; have i3 := hf.zr ha; have i4 := hf.zc ha hw
    subst i3
    obtain ⟨jl, hjl⟩ : ∃ jl : Nat, min p.nv (p.ihiz - j + 1) = jl := ⟨(min p.nv (p.ihiz - j + 1)).toNat, by omega⟩
    rw [hjl]
    refine Ret.bind (qr5Block_ret (hs'.u ha) (hs'.z ha hw) (hs'.wv ha) (by omega) (by omega) (by omega) (by omega) (by omega) (by omega) (by omega) ?_ ?_ ?_ ?_) fun q hq => ?_
    · rw [if_neg (by simp)]; omega
    · rw [if_neg (by simp)]; omega
    · rw [if_neg (by simp)]; omega
    · rw [if_neg (by simp)]; omega
    exact Ret.pure ⟨hs'.h, hs'.v, fun _ => hq.1.rows, fun _ _ => hq.1, hs'.u, fun _ => hq.2, hs'.wh⟩

theorem qr5Incol_ret (hf : Fit5 p r c ldv cv rz cz ru cu rv cwv rh cwh) {incol : Int} (k1 : p.ktop - 1 ≤ incol) (k2 : incol + 2 ≤ p.kbot)
    {s : Qr5S F} (hs : Shape5 p r c ldv cv rz cz ru cu rv cwv rh cwh s) : Ret (qr5Incol p s incol) (Shape5 p r c ldv cv rz cz ru cu rv cwv rh cwh) := by
  have h1 := hf.top
  have hkdu : p.kdu = 4 := by unfold Qr5P.kdu; rw [hf.nb]; norm_num
  have hjt : 1 ≤ (if p.accum = true then max p.ktop incol else if p.wantt = true then 1 else p.ktop) := by
    split
    · omega
    · split <;> omega
  unfold qr5Incol
  simp only [hkdu, hf.nb]
  generalize (if p.accum = true then max p.ktop incol else if p.wantt = true then 1 else p.ktop) = jtop at hjt
  have tail : ∀ u : FA F, (p.accum = true → HqrShape u ru cu) → Ret (do
      let s ← forUp incol (min (incol + 2 * 1 - 1) (p.kbot - 2)) { s with u := u } (qr5Krcol p incol jtop)
      if p.accum = true then qr5Accumulate p incol s else pure s) (Shape5 p r c ldv cv rz cz ru cu rv cwv rh cwh) := by
    intro u hu
    refine Ret.bind (P := Shape5 p r c ldv cv rz cz ru cu rv cwv rh cwh) (Ret.forUp ⟨hs.h, hs.v, hs.zr, hs.z, hu, hs.wv, hs.wh⟩ fun s j j1 j2 hs' => ?_) fun s1 hs1 => ?_
    · exact qr5Krcol_ret hf (by omega) (by omega) j1 (by omega) hjt hs'
    · exact Ret.ite (fun ha => qr5Accumulate_ret hf ha k1 k2 hs1) fun _ => Ret.pure hs1
  refine Ret.ite (fun ha => ?_) fun ha => tail s.u hs.u
  have hus := (hs.u ha).small
  obtain ⟨u1, eu1, iu1⟩ := dlasetFA_ok (uplo := 'A') (m := 4) (n := 4) (zero : F) one (hs.u ha).rows (by have := hf.ru4 ha; omega)
    (by have := hf.ru4 ha; simp [touchedRows]; omega) (by rw [(hs.u ha).length]; exact hus)
    (lt_of_le_of_lt (Nat.mul_le_mul_left _ (hf.cu4 ha)) hus)
  rw [(hs.u ha).cols, (hs.u ha).length] at iu1
  have eu2 : dlaset (F := F) 'A' 4 4 zero one s.u = pure u1 := by
    show (dlasetFA 'A' 4 4 zero one s.u >>= _) = _
    rw [show (dlasetFA 'A' 4 4 (zero : F) one s.u) = pure u1 from eu1, pure_bind]
    rfl
  rw [eu2, pure_bind]
  exact tail u1 fun _ => is2_hqrShape iu1 hus

theorem qr5Main_ret (hf : Fit5 p r c ldv cv rz cz ru cu rv cwv rh cwh) (nshfts : Int) {s : Qr5S F} (hs : Shape5 p r c ldv cv rz cz ru cu rv cwv rh cwh s) :
    Ret (qr5Main p nshfts s) (Shape5 p r c ldv cv rz cz ru cu rv cwv rh cwh) := by
  have h1 := hf.top; have h2 := hf.kn; have h3 := hf.nr; have h4 := hf.nc; have h7 := hf.lt
  unfold qr5Main
  refine Ret.bind (P := fun _ => True) (Ret.forStep (by norm_num) trivial fun q i _ _ _ => ?_) fun q _ => ?_
  · unfold qr5Shuffle
    exact Ret.ite (fun _ => Ret.pure trivial) fun _ => Ret.pure trivial
  obtain ⟨sr, si⟩ := q
  simp only
  have tail : ∀ h : FA F, HqrShape h r c → Ret (forStep (p.ktop - 2 * p.nbmps + 1) (p.kbot - 2) (2 * asUsize p.nbmps) { s with sr := sr, si := si, h := h } (qr5Incol p))
      (Shape5 p r c ldv cv rz cz ru cu rv cwv rh cwh) := by
    intro h hh
    rw [hf.nb]
    refine Ret.forStep (by decide) ⟨hh, hs.v, hs.zr, hs.z, hs.u, hs.wv, hs.wh⟩ fun s' i i1 i2 hs' => ?_
    exact qr5Incol_ret hf (by omega) (by omega) hs'
  refine Ret.ite (fun hk => ?_) fun _ => tail _ hs.h
  exact Ret.bind (set2_ret hs.h (by omega) (by omega) (by omega) (by omega) (by omega) _) fun h hh => tail h hh

end

end Verif

import Verif.Lib.Qr5Local

/-!
# Two runs of `dlaqr5` that differ in the contents of the work arrays

Any scalar arithmetic, two or three shifts.  What the runs read of `v` and `u` they have written themselves.
-/

namespace Verif
open Scalar Spec

section
variable {α β : Type}

/-- What is known of each run alone. -/
theorem Sim.and_ret {rel : α → β → Prop} {x : R α} {y : R β} {P : α → Prop} {Q : β → Prop} (h : Sim rel x y) (hx : Ret x P) (hy : Ret y Q) :
    Sim (fun a b => rel a b ∧ P a ∧ Q b) x y := by
  obtain ⟨a, rfl, ha⟩ := hx
  obtain ⟨b, rfl, hb⟩ := hy
  intro p
  have hp := h p
  cases hp with
  | ok hab => exact .ok ⟨hab, ha, hb⟩

/-- Two lists of the same length whose first `m` elements are the same. -/
structure Pre (m : Nat) (l l' : List α) : Prop where
  length : l'.length = l.length
  same : ∀ i < m, l'[i]? = l[i]?

theorem Pre.mono {m k : Nat} {l l' : List α} (h : Pre m l l') (hk : k ≤ m) : Pre k l l' := ⟨h.length, fun i hi => h.same i (by omega)⟩

theorem Pre.drop1 {m : Nat} {l l' : List α} (h : Pre (m + 1) l l') : Pre m (l.drop 1) (l'.drop 1) :=
  ⟨by rw [List.length_drop, List.length_drop, h.length], fun i hi => by rw [List.getElem?_drop, List.getElem?_drop, h.same (1 + i) (by omega)]⟩

theorem Pre.cons {m : Nat} {l l' : List α} (h : Pre m l l') (x : α) : Pre (m + 1) (x :: l) (x :: l') := by
  refine ⟨by simp [h.length], fun i hi => ?_⟩
  cases i with
  | zero => rfl
  | succ i => simpa using h.same i (by omega)

theorem Pre.set {m : Nat} {l l' : List α} (h : Pre m l l') (o : Nat) (x : α) : Pre m (l.set o x) (l'.set o x) := by
  refine ⟨by simp [h.length], fun i hi => ?_⟩
  rw [List.getElem?_set, List.getElem?_set, h.length, h.same i hi]

/-- The same value written at the end of the common part. -/
theorem Pre.set_next {m : Nat} {l l' : List α} (h : Pre m l l') (x : α) : Pre (m + 1) (l.set m x) (l'.set m x) := by
  refine ⟨by simp [h.length], fun i hi => ?_⟩
  rw [List.getElem?_set, List.getElem?_set, h.length]
  by_cases e : m = i
  · subst e; simp
  · rw [if_neg e, if_neg e, h.same i (by omega)]

theorem Pre.modify {m : Nat} {l l' : List α} (h : Pre m l l') (o : Nat) (f : α → α) {x x' : α} (e : l[o]? = some x) (e' : l'[o]? = some x') :
    Pre m (l.set o (f x)) (l'.set o (f x')) := by
  by_cases ho : o < m
  · have := h.same o ho
    rw [e, e'] at this
    rw [Option.some.inj this]
    exact h.set _ _
  · refine ⟨by simp [h.length], fun i hi => ?_⟩
    rw [List.getElem?_set_ne (by omega), List.getElem?_set_ne (by omega), h.same i hi]

end

variable {F : Type} [Scalar F]

theorem Pre.modify1 {m : Nat} {a b : FA F} (h : Pre m a.data b.data) (i : Int) (f : F → F) : Pre m (a.modify1 i f).data (b.modify1 i f).data := by
  unfold FA.modify1
  split
  · exact h
  · cases e : a.data[asUsize i - 1]? with
    | none =>
      have : b.data[asUsize i - 1]? = none := by
        rw [List.getElem?_eq_none_iff] at e ⊢
        rw [h.length]; exact e
      rw [this]
      exact h
    | some x =>
      obtain ⟨y, hy⟩ : ∃ y, b.data[asUsize i - 1]? = some y := by
        have : asUsize i - 1 < b.data.length := by
          rw [h.length]
          by_contra hc
          rw [List.getElem?_eq_none_iff.2 (by omega)] at e
          cases e
        exact ⟨_, List.getElem?_eq_getElem this⟩
      rw [hy]
      exact h.modify _ f e hy

theorem Pre.set1_next {m : Nat} {a b : FA F} (h : Pre m a.data b.data) (hm : m < 2 ^ 31) (hl : m < a.data.length) (x : F) :
    Pre (m + 1) (a.set1 ((m : Int) + 1) x).data (b.set1 ((m : Int) + 1) x).data := by
  unfold FA.set1 FA.modify1
  have e : asUsize ((m : Int) + 1) - 1 = m := by
    rw [show (m : Int) + 1 = ((m + 1 : Nat) : Int) by push_cast; rfl, asUsize_natCast (by omega)]; omega
  rw [if_neg (by omega), if_neg (by omega), e]
  rw [List.getElem?_eq_getElem hl, List.getElem?_eq_getElem (by rw [h.length]; exact hl)]
  exact h.set_next x

/-! ### `dlarfg` -/

theorem dscal_pre {n : Int} (h1 : 1 ≤ n) (h2 : n ≤ 2) (da : F) {m : Nat} {x x' : List F} (h : Pre m x x') : Sim (Pre m) (dscal n da x 1) (dscal n da x' 1) := by
  unfold dscal dscalFA
  by_cases h0 : n ≤ 0 ∨ (1 : Int) ≤ 0 ∨ (da =ᶠ one) = true
  · rw [if_pos h0, if_pos h0]
    exact Sim.pure h
  · rw [if_neg h0, if_neg h0]
    have hm : n.tmod 5 = n := Int.tmod_eq_of_lt (by omega) (by omega)
    simp only [hm]
    simp only [if_true]
    rw [if_pos ⟨by omega, by omega⟩, if_pos ⟨by omega, by omega⟩]
    simp only [bind_assoc, pure_bind]
    refine Sim.bind (rel := fun a b : FA F => Pre m a.data b.data) (Sim.forUp h fun s t i hs => Sim.pure (hs.modify1 _ _)) fun a b hab => ?_
    exact Sim.pure hab

theorem dnrm2_pre {n : Int} (h1 : 1 ≤ n) (h2 : n ≤ 2) {m : Nat} (hm : n ≤ m) {x x' : List F} (h : Pre m x x') (hx : x.length < 2 ^ 31) :
    dnrm2 (F := F) n x' 1 = dnrm2 (F := F) n x 1 := by
  obtain ⟨k, rfl⟩ : ∃ k : Nat, n = k := ⟨n.toNat, by omega⟩
  have e : ∀ y : List F, y.length < 2 ^ 31 → dnrm2 (F := F) (k : Int) y 1 = pure (nrm2Final ((strided k 1 y).foldl nrm2Acc ⟨true, zero, zero, zero⟩)) := fun y hy =>
    dnrm2FA_fold (x := (ToFA.toFa y : FA F)) (by omega) (by unfold StrideOK; simp; omega) (by show y.length < _; omega)
  rw [e x hx, e x' (by rw [h.length]; exact hx)]
  congr 3
  have hs : ∀ y : List F, strided k 1 y = (List.range k).map fun i => (y[i]?).getD minPositive := fun y => by
    unfold strided
    refine List.map_congr_left fun i hi => ?_
    rw [List.getD_eq_getElem?_getD]
    simp [strideIx]
  rw [hs, hs]
  refine List.map_congr_left fun i hi => ?_
  rw [h.same i (by have := List.mem_range.1 hi; omega)]

theorem dlarfgRescale_pre {n : Int} (h1 : 2 ≤ n) (h2 : n ≤ 3) (sm rs : F) (k : Nat) {m : Nat} {x x' : List F} (h : Pre m x x') (be al : F) (knt : Nat) :
    Sim (fun q q' => Pre m q.1 q'.1 ∧ q'.2 = q.2) (dlarfgRescale (F := F) n 1 sm rs k x be al knt) (dlarfgRescale (F := F) n 1 sm rs k x' be al knt) := by
  induction k generalizing x x' be al knt with
  | zero => exact Sim.pure ⟨h, rfl⟩
  | succ k ih =>
    unfold dlarfgRescale
    rw [isub_ok (by unfold FitsI32; omega), pure_bind, pure_bind]
    refine Sim.bind (dscal_pre (by omega) (by omega) _ h) fun y y' hy => ?_
    exact Sim.ite (fun _ => Sim.pure ⟨hy, rfl⟩) fun _ => ih hy _ _ _

theorem dlarfgFinish_pre {n : Int} (h1 : 2 ≤ n) (h2 : n ≤ 3) (sm al be : F) {m : Nat} {x x' : List F} (h : Pre m x x') (knt : Nat) :
    Sim (fun q q' => q'.1 = q.1 ∧ Pre m q.2.1 q'.2.1 ∧ q'.2.2 = q.2.2) (dlarfgFinish (F := F) n 1 sm al be x knt) (dlarfgFinish (F := F) n 1 sm al be x' knt) := by
  unfold dlarfgFinish
  rw [isub_ok (by unfold FitsI32; omega), pure_bind, pure_bind]
  exact Sim.bind (dscal_pre (by omega) (by omega) _ h) fun y y' hy => Sim.pure ⟨rfl, hy, rfl⟩

theorem dlarfg_pre {n : Int} (h1 : 2 ≤ n) (h2 : n ≤ 3) (al : F) {m : Nat} (hm : n ≤ m + 1) {x x' : List F} (h : Pre m x x') (hx : x.length < 2 ^ 31) :
    Sim (fun q q' => q'.1 = q.1 ∧ Pre m q.2.1 q'.2.1 ∧ q'.2.2 = q.2.2) (dlarfg (F := F) n al x 1) (dlarfg (F := F) n al x' 1) := by
  unfold dlarfg
  rw [if_neg (by omega), if_neg (by omega)]
  rw [isub_ok (by unfold FitsI32; omega), pure_bind, pure_bind, dnrm2_pre (by omega) (by omega) (by omega) h hx]
  refine Sim.bind' fun xn => Sim.ite (fun _ => Sim.pure ⟨rfl, h, rfl⟩) fun _ => Sim.ite (fun _ => ?_) fun _ => dlarfgFinish_pre h1 h2 _ _ _ h _
  refine Sim.bind ((dlarfgRescale_pre h1 h2 _ _ _ h _ _ _).and_ret (dlarfgRescale_list h1 h2 _ _ _ _ _ _ _) (dlarfgRescale_list h1 h2 _ _ _ _ _ _ _)) fun q q' hq => ?_
  obtain ⟨y, b, a, k⟩ := q
  obtain ⟨y', b', a', k'⟩ := q'
  obtain ⟨⟨hy, e⟩, hl, hl'⟩ := hq
  simp only [Prod.mk.injEq] at e hl hl' hy ⊢
  obtain ⟨rfl, rfl, rfl⟩ := e
  simp only [pure_bind]
  rw [dnrm2_pre (by omega) (by omega) (by omega) hy (by omega)]
  exact Sim.bind' fun xn => dlarfgFinish_pre h1 h2 _ _ _ hy _

/-! ### `v` -/

section
variable {r c ldv cv : Nat} {v v' : FA F}

theorem off_col1 {a : FA F} {i : Int} (i1 : 1 ≤ i) (i2 : i ≤ 3) : a.off i 1 = pure (i - 1) := by
  unfold FA.off
  rw [isub_ok (by unfold FitsI32; omega), isub_ok (by unfold FitsI32; omega)]
  simp only [pure_bind, sub_self]
  rw [imul_ok (by rw [zero_mul]; unfold FitsI32; omega), pure_bind, iadd_ok (by rw [zero_mul]; unfold FitsI32; omega), zero_mul, zero_add]

theorem get2_pre {m : Nat} (h : Pre m v.data v'.data) {i : Int} (i1 : 1 ≤ i) (i2 : i ≤ 3) (i3 : i ≤ m) : v'.get2 i 1 = v.get2 i 1 := by
  unfold FA.get2
  rw [off_col1 i1 i2, off_col1 i1 i2, pure_bind, pure_bind]
  have e : asUsize (i - 1) = (i - 1).toNat := by
    rw [show i - 1 = (((i - 1).toNat : Nat) : Int) by omega, asUsize_natCast (by omega)]; omega
  rw [e, h.same _ (by omega)]

theorem modify2_pre {m : Nat} (h : Pre m v.data v'.data) {i : Int} (i1 : 1 ≤ i) (i2 : i ≤ 3) (f : F → F) :
    Sim (fun a b : FA F => Pre m a.data b.data) (v.modify2 i 1 f) (v'.modify2 i 1 f) := by
  unfold FA.modify2
  rw [off_col1 i1 i2, off_col1 i1 i2, pure_bind, pure_bind]
  refine Sim.pure ?_
  have e0 : asUsize (i - 1) = asUsize i - 1 := by
    obtain ⟨y, rfl⟩ : ∃ y : Nat, i = y + 1 := ⟨(i - 1).toNat, by omega⟩
    rw [show (y : Int) + 1 - 1 = y by ring, asUsize_natCast (by omega), show (y : Int) + 1 = ((y + 1 : Nat) : Int) by push_cast; rfl, asUsize_natCast (by omega)]
    rfl
  have := h.modify1 i f
  unfold FA.modify1 at this
  rw [if_neg (by omega), if_neg (by omega)] at this
  rw [e0]
  exact this

theorem insert1_eq (l : List F) (x : F) (h2 : 2 ≤ l.length) (hl : l.length < 2 ^ 31) : (faOfVec l).insert 1 x = pure { faOfVec l with data := x :: l } := by
  unfold FA.insert FA.len FA.is2d faOfVec
  simp only [show decide ((0 : Int) > 0) = false by decide, Bool.and_false, Bool.false_eq_true, if_false, pure_bind]
  rw [wrap32_of_fits (by unfold FitsI32; omega), if_pos (by omega)]
  have e1 : asUsize 1 - 1 = 0 := by decide
  rw [e1, if_pos (Nat.zero_le _)]
  rfl

theorem as2d_pre {m : Nat} {a b : FA F} (h : Pre m a.data b.data) (ld : Int) : Sim (fun a b : FA F => Pre m a.data b.data) (a.as2d ld) (b.as2d ld) := by
  unfold FA.as2d
  rw [h.length]
  exact Sim.ite (fun _ p => .panic _) fun _ => Sim.bind' fun q => Sim.pure h

theorem qr5Larfg_pre {n : Int} (h1 : 2 ≤ n) (h2 : n ≤ 3) (h3 : 3 ≤ ldv) (hc : 1 ≤ cv) (beta : F) (hv : HqrShape v ldv cv) (hv' : HqrShape v' ldv cv)
    {m : Nat} (hm : n ≤ (m + 1 : Nat)) (h : Pre (m + 1) v.data v'.data) :
    Sim (fun q q' => q'.1 = q.1 ∧ Pre (m + 1) q.2.data q'.2.data) (qr5Larfg ldv n 1 beta v) (qr5Larfg ldv n 1 beta v') := by
  have hcs : ldv ≤ ldv * cv := Nat.le_mul_of_pos_right _ (by omega)
  have hsm := hv.small
  have hlen := hv.length
  have hlen' := hv'.length
  unfold qr5Larfg
  rw [C07_from2 hv.mat (i := 2) (j := 1) (by norm_num) (by omega) (by norm_num) (by omega), C07_from2 hv'.mat (i := 2) (j := 1) (by norm_num) (by omega) (by norm_num) (by omega),
    pure_bind, pure_bind]
  have e : (((1 : Int) - 1) * ldv + (2 - 1)).toNat = 1 := by norm_num
  rw [e]
  refine Sim.bind ((dlarfg_pre h1 h2 beta (by push_cast at hm; omega) h.drop1 (by rw [List.length_drop]; omega)).and_ret (dlarfg_list h1 h2 _ _ (by rw [List.length_drop]; omega))
    (dlarfg_list h1 h2 _ _ (by rw [List.length_drop]; omega))) fun q q' hq => ?_
  obtain ⟨b, v1, v2⟩ := q
  obtain ⟨b', v1', v2'⟩ := q'
  obtain ⟨⟨eb, hp, et⟩, l1, l2⟩ := hq
  rw [List.length_drop] at l1 l2
  simp only at eb hp et l1 l2 ⊢
  subst eb et
  rw [insert1_eq _ _ (by omega) (by omega), insert1_eq _ _ (by omega) (by omega), pure_bind, pure_bind]
  exact Sim.bind (as2d_pre (m := m + 1) (hp.cons _) ldv) fun a a' ha => Sim.pure ⟨rfl, ha⟩

theorem dlaqr1FA_pre {n : Nat} (hn : n = 2 ∨ n = 3) (f : FA F) (a b a' b' : F) {x y : FA F} (h : Pre 0 x.data y.data) (hl : n ≤ x.data.length) :
    Sim (fun p q : FA F => Pre n p.data q.data) (dlaqr1FA n f a b a' b' x) (dlaqr1FA n f a b a' b' y) := by
  have s2 : ∀ x1 x2 : F, 2 ≤ x.data.length → Pre 2 ((x.set1 1 x1).set1 2 x2).data ((y.set1 1 x1).set1 2 x2).data := fun x1 x2 hl => by
    have e1 := h.set1_next (by norm_num) (by omega) x1
    have l1 : (x.set1 1 x1).data.length = x.data.length := (set1_shape x 1 x1).2.2.symm
    exact e1.set1_next (by norm_num) (by rw [show ((0 : Nat) : Int) + 1 = 1 by norm_num, l1]; omega) x2
  unfold dlaqr1FA
  rcases hn with rfl | rfl
  · simp only [Nat.cast_ofNat, if_true]
    refine Sim.bind' fun _ => Sim.bind' fun _ => Sim.bind' fun _ => Sim.bind' fun _ => Sim.ite (fun _ => Sim.pure (s2 _ _ hl)) fun _ => Sim.pure (s2 _ _ hl)
  · have s3 : ∀ x1 x2 x3 : F, Pre 3 (((x.set1 1 x1).set1 2 x2).set1 3 x3).data (((y.set1 1 x1).set1 2 x2).set1 3 x3).data := fun x1 x2 x3 => by
      have l2 : ((x.set1 1 x1).set1 2 x2).data.length = x.data.length := ((set1_shape x 1 x1).trans (set1_shape _ 2 x2)).2.2.symm
      exact (s2 x1 x2 (by omega)).set1_next (by norm_num) (by omega) x3
    rw [if_neg (by norm_num), if_neg (by norm_num)]
    refine Sim.bind' fun _ => Sim.bind' fun _ => Sim.bind' fun _ => Sim.bind' fun _ => Sim.bind' fun _ => Sim.bind' fun _ => Sim.bind' fun _ => Sim.bind' fun _ => Sim.bind' fun _ => ?_
    exact Sim.ite (fun _ => Sim.pure (s3 _ _ _)) fun _ => Sim.pure (s3 _ _ _)

theorem dlaqr1_list_pre {n : Nat} (hn : n = 2 ∨ n = 3) (l : List F) (ld : Int) (a b a' b' : F) {d d' : List F} (h : Pre 0 d d') (hl : n ≤ d.length) :
    Sim (fun x y : List F => Pre n x y) (dlaqr1 (n : Int) l ld a b a' b' d) (dlaqr1 (n : Int) l ld a b a' b' d') := by
  have hn' : ¬ ((n : Int) ≠ 2 ∧ (n : Int) ≠ 3) := by omega
  unfold dlaqr1
  refine Sim.bind' fun x => ?_
  rw [if_neg hn', if_neg hn']
  refine Sim.bind (rel := fun x y : FA F => Pre n x.data y.data) ?_ fun x y hxy => ?_
  · exact dlaqr1FA_pre hn x a b a' b' (x := faOfVec d) (y := faOfVec d') h hl
  · exact Sim.pure (a := x.data) (b := y.data) hxy

theorem startVec_pre {n : Nat} {h : FA F} (hn : n = 2 ∨ n = 3) (hs : HqrShape h r c) (hv : HqrShape v ldv cv) (hv' : HqrShape v' ldv cv) (h3 : 3 ≤ ldv) (hc : 1 ≤ cv)
    {k : Int} (k1 : 1 ≤ k) (kr : k ≤ r) (kc : k ≤ c) (hrn : n ≤ r ∧ n ≤ c) (a b a' b' : F) {α : Type} {f : FA F → R α} {Q : α → α → Prop}
    (hf : ∀ w w', HqrShape w ldv cv → HqrShape w' ldv cv → Pre n w.data w'.data → Sim Q (f w) (f w')) :
    Sim Q (do
      let htmp ← h.from2 k k
      let vtmp ← v.from2 1 1
      let vtmp ← dlaqr1 (n : Int) htmp (r : Int) a b a' b' vtmp
      let v ← ToFA.toFa2d (F := F) vtmp (ldv : Int)
      f v) (do
      let htmp ← h.from2 k k
      let vtmp ← v'.from2 1 1
      let vtmp ← dlaqr1 (n : Int) htmp (r : Int) a b a' b' vtmp
      let v ← ToFA.toFa2d (F := F) vtmp (ldv : Int)
      f v) := by
  have hcs : ldv ≤ ldv * cv := Nat.le_mul_of_pos_right _ (by omega)
  have hlen := hv.length
  have hlen' := hv'.length
  have e1 := C07_from2 hv.mat (i := 1) (j := 1) (by norm_num) (by omega) (by norm_num) (by omega)
  have e1' := C07_from2 hv'.mat (i := 1) (j := 1) (by norm_num) (by omega) (by norm_num) (by omega)
  have e0 : (((1 : Int) - 1) * ldv + (1 - 1)).toNat = 0 := by norm_num
  rw [e0, List.drop_zero] at e1 e1'
  have hn' : (n : Int) = 2 ∧ 2 ≤ r ∧ 2 ≤ c ∨ (n : Int) = 3 ∧ 3 ≤ r ∧ 3 ≤ c := by omega
  have hnl : n ≤ v.data.length := by omega
  have hp0 : Pre 0 v.data v'.data := ⟨by rw [hlen, hlen'], fun i hi => absurd hi (Nat.not_lt_zero i)⟩
  have q1 := dlaqr1_list_ret hs k1 kr kc hn' a b a' b' v.data
  have q2 := dlaqr1_list_ret hs k1 kr kc hn' a b a' b' v'.data
  simp only [e1, e1', pure_bind]
  have E : ∀ d : List F, (do
      let htmp ← h.from2 k k
      let vtmp ← dlaqr1 (n : Int) htmp (r : Int) a b a' b' d
      let v ← ToFA.toFa2d (F := F) vtmp (ldv : Int)
      f v) = ((do
      let l ← h.from2 k k
      dlaqr1 (n : Int) l (r : Int) a b a' b' d) >>= fun vtmp => ToFA.toFa2d (F := F) vtmp (ldv : Int) >>= f) := fun d => by rw [bind_assoc]
  rw [E, E]
  have hS : Sim (fun x y : List F => Pre n x y) (do
      let l ← h.from2 k k
      dlaqr1 (n : Int) l (r : Int) a b a' b' v.data) (do
      let l ← h.from2 k k
      dlaqr1 (n : Int) l (r : Int) a b a' b' v'.data) := by
    refine Sim.bind' fun l => ?_
    exact dlaqr1_list_pre hn l r a b a' b' hp0 hnl
  refine Sim.bind (hS.and_ret q1 q2) fun l l' hl => ?_
  obtain ⟨hp, hl1, hl2⟩ := hl
  have w1 : Ret ((faOfVec l).as2d (ldv : Int)) fun v => HqrShape v ldv cv := as2d_ret (faOfVec l) h3 (by show l.length = _; omega) hv.small
  have w2 : Ret ((faOfVec l').as2d (ldv : Int)) fun v => HqrShape v ldv cv := as2d_ret (faOfVec l') h3 (by show l'.length = _; omega) hv.small
  exact Sim.bind ((as2d_pre (a := faOfVec l) (b := faOfVec l') hp ldv).and_ret w1 w2) fun x y hxy => hf x y hxy.2.1 hxy.2.2 hxy.1

end

end Verif

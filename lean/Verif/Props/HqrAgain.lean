import Verif.Props.Lanv2Idem
import Verif.Props.HqrTwoEig
import Verif.Props.Padding

/-!
# C118: a second call of `dlahqr` on an active block of order two
-/

namespace Verif
open Float.Model F64 Scalar Spec

theorem splitTwo_zero {p q s t : Float} (h : (s == 0) = true) : splitTwo p q s t = true := by
  obtain ⟨u, hu⟩ := zero_of_beq h
  have z : s.abs = 0 := up_inj (by rw [up_abs', hu]; rfl)
  unfold splitTwo
  have : (abs s ≤ᶠ (dlamch 'S' * (Scalar.ofInt 2 / dlamch 'P') : Float)) = true := by
    show Float.le s.abs _ = true
    rw [z]
    decide +kernel
  simp only [this, Bool.true_or]

theorem set_twice {α : Type} (l : List α) (i j : Nat) (hij : i ≠ j) (x y : α) : (((l.set i x).set j y).set i x).set j y = (l.set i x).set j y := by
  rw [List.set_comm _ _ hij.symm, List.set_set, List.set_set]

/-- **C118.** Let `dlahqr` on binary64 have returned on an active block of order two, with a finite first element of the new block. Call it again on what it has returned, with any flags
and any `z`. If the two eigenvalues were real, so that the new block is triangular, the second call never returns. Otherwise it never returns either, or it returns the same block and the
same eigenvalues, bit for bit. -/
theorem C118_dlahqr_again (wantt wantz : Bool) (n ilo : Int) (hn0 : n ≠ 0) (h : FA Float) (r c : Nat) (hM : IsMatrix h r c) (h1 : 1 ≤ ilo)
    (h2 : ilo + 1 ≤ r) (h3 : ilo + 1 ≤ c) (h4 : n ≤ c) (wr wi : List Float) (iloz ihiz : Int) (z : FA Float) (rz cz : Nat) (ldz : Int)
    (hz : wantz = true → IsMatrix z rz cz ∧ 1 ≤ iloz ∧ iloz ≤ ihiz ∧ ihiz ≤ rz ∧ ilo + 1 ≤ cz)
    {A Z : Int → Int → Float} (hA : ∀ a b : Int, 1 ≤ a → a ≤ r → 1 ≤ b → b ≤ c → Entry h r a b (A a b))
    (hZ : wantz = true → ∀ a b : Int, 1 ≤ a → a ≤ rz → 1 ≤ b → b ≤ cz → Entry z rz a b (Z a b))
    (fuel : Nat) (pr : Profile) (ret : HqrRet (FA Float) (List Float) (List Float) (FA Float))
    (hret : dlahqr (F := Float) (fuel + 2) wantt wantz n ilo (ilo + 1) h r wr wi iloz ihiz z ldz pr = .ok ret)
    (x : Float) (hx : Entry ret.h r ilo ilo x) (fx : x.isFinite = true)
    (y : Float) (hy : Entry ret.h r (ilo + 1) ilo y)
    (wantt' wantz' : Bool) (n' : Int) (hn0' : n' ≠ 0) (h4' : n' ≤ c) (iloz' ihiz' : Int) (z' : FA Float) (rz' cz' : Nat) (ldz' : Int)
    (hz' : wantz' = true → IsMatrix z' rz' cz' ∧ 1 ≤ iloz' ∧ iloz' ≤ ihiz' ∧ ihiz' ≤ rz' ∧ ilo + 1 ≤ cz') {Z' : Int → Int → Float}
    (hZ' : wantz' = true → ∀ a b : Int, 1 ≤ a → a ≤ rz' → 1 ≤ b → b ≤ cz' → Entry z' rz' a b (Z' a b)) :
    (∀ fuel', dlahqr (F := Float) fuel' wantt' wantz' n' ilo (ilo + 1) ret.h r ret.wr ret.wi iloz' ihiz' z' ldz' = R.timeout) ∨
    ((y == 0) = false ∧ ∃ ret' : HqrRet (FA Float) (List Float) (List Float) (FA Float),
      (∀ fuel', dlahqr (F := Float) (fuel' + 2) wantt' wantz' n' ilo (ilo + 1) ret.h r ret.wr ret.wi iloz' ihiz' z' ldz' = pure ret') ∧
      ret'.info = 0 ∧ ret'.wr = ret.wr ∧ ret'.wi = ret.wi ∧
      ∀ a b : Int, ilo ≤ a → a ≤ ilo + 1 → ilo ≤ b → b ≤ ilo + 1 → ∃ v, Entry ret.h r a b v ∧ Entry ret'.h r a b v) := by
  obtain ⟨-, ht⟩ | ⟨-, ret0, e0, i0, M0, H0, -, -, w0, v0⟩ := C81_dlahqr_order_two wantt wantz n ilo hn0 h r c hM h1 h2 h3 h4 wr wi iloz ihiz z rz cz ldz hz hA hZ rfl
  · rw [ht] at hret; cases hret
  · rw [e0] at hret
    cases hret
    generalize ho : dlanv2 (A ilo ilo) (A ilo (ilo + 1)) (A (ilo + 1) ilo) (A (ilo + 1) (ilo + 1)) = o at *
    have b11 : twoH wantt n ilo o A ilo ilo = o.a := by unfold twoH; simp
    have b12 : twoH wantt n ilo o A ilo (ilo + 1) = o.b := by unfold twoH; simp
    have b21 : twoH wantt n ilo o A (ilo + 1) ilo = o.c := by unfold twoH; simp
    have b22 : twoH wantt n ilo o A (ilo + 1) (ilo + 1) = o.d := by unfold twoH; simp
    have ex : x = o.a := by
      have := H0 ilo ilo h1 (by omega) h1 (by omega)
      rw [b11] at this
      exact Option.some.inj (hx.symm.trans this)
    have ey : y = o.c := by
      have := H0 (ilo + 1) ilo (by omega) h2 h1 (by omega)
      rw [b21] at this
      exact Option.some.inj (hy.symm.trans this)
    have again : dlanv2 o.a o.b o.c o.d = { o with cs := 1, sn := 0 } := by
      rw [← ho]
      refine C116_dlanv2_again _ _ _ _ ?_
      rw [ho, ← ex]
      exact fx
    obtain ⟨-, ht⟩ | ⟨hs, ret', e, i, M, H, -, -, w, v⟩ := C81_dlahqr_order_two wantt' wantz' n' ilo hn0' ret.h r c M0 h1 h2 h3 h4' ret.wr ret.wi iloz' ihiz' z' rz' cz' ldz' hz' H0 hZ'
      (o := { o with cs := 1, sn := 0 }) (by rw [b11, b12, b21, b22, again])
    · exact Or.inl ht
    · right
      rw [b11, b12, b21, b22] at hs
      refine ⟨?_, ret', e, i, ?_, ?_, ?_⟩
      · rw [ey]
        by_contra hc
        rw [splitTwo_zero (by simpa using hc)] at hs
        cases hs
      · rw [w, w0]
        exact set_twice _ _ _ (by omega) _ _
      · rw [v, v0]
        exact set_twice _ _ _ (by omega) _ _
      · intro a b a1 a2 a3 a4
        refine ⟨_, H0 a b (by omega) (by omega) (by omega) (by omega), ?_⟩
        have := H a b (by omega) (by omega) (by omega) (by omega)
        have ea : a = ilo ∨ a = ilo + 1 := by omega
        have eb : b = ilo ∨ b = ilo + 1 := by omega
        rcases ea with rfl | rfl <;> rcases eb with rfl | rfl
        · rw [b11]; unfold twoH at this; simpa using this
        · rw [b12]; unfold twoH at this; simpa using this
        · rw [b21]; unfold twoH at this; simpa using this
        · rw [b22]; unfold twoH at this; simpa using this

/-- A case with complex eigenvalues: the second call returns, with the same eigenvalues. -/
theorem C118_example (pr : Profile) :
    ((dlahqr (F := Float) 2 true false 2 1 2 (⟨[1, -3, 2, 4], 2, 2, 0⟩ : FA Float) 2 ([0, 0] : List Float) ([0, 0] : List Float) 1 2 (⟨[], 0, 0, 0⟩ : FA Float) 2 pr).val?.bind fun r =>
      (dlahqr (F := Float) 2 true false 2 1 2 r.h 2 r.wr r.wi 1 2 (⟨[], 0, 0, 0⟩ : FA Float) 2 pr).val?.map fun s =>
        (r.h.data.all Float.isFinite, r.h.data == s.h.data, r.wr == s.wr, r.wi == s.wi, s.info, r.h.data == [1, -3, 2, 4])) = some (true, true, true, true, 0, false) := by
  cases pr <;> decide +kernel

/-- A case with real eigenvalues: `dlahqr` returns on this matrix, and on what it returns it never does. -/
theorem C118_real_example (pr : Profile) : ∃ ret : HqrRet (FA Float) (List Float) (List Float) (FA Float),
    dlahqr (F := Float) 2 true false 2 1 (1 + 1) (⟨[1, 3, 2, 4], 2, 2, 0⟩ : FA Float) (2 : ℕ) [0, 0] [0, 0] 1 2 (⟨[], 0, 0, 0⟩ : FA Float) 2 pr = .ok ret ∧
    ret.info = 0 ∧ ∀ fuel', dlahqr (F := Float) fuel' true false 2 1 (1 + 1) ret.h (2 : ℕ) ret.wr ret.wi 1 2 (⟨[], 0, 0, 0⟩ : FA Float) 2 = R.timeout := by
  have hs : ∀ pr, ((dlahqr (F := Float) 2 true false 2 1 (1 + 1) (⟨[1, 3, 2, 4], 2, 2, 0⟩ : FA Float) (2 : ℕ) [0, 0] [0, 0] 1 2
      (⟨[], 0, 0, 0⟩ : FA Float) 2 pr : Res (HqrRet (FA Float) (List Float) (List Float) (FA Float))).val?.map fun r =>
        (r.info, r.h.data.all Float.isFinite, (r.h.data[1]?.map fun y => y == 0))) = some (0, true, some true) := by
    intro pr
    cases pr <;> decide +kernel
  have hp := hs pr
  cases e : (dlahqr (F := Float) 2 true false 2 1 (1 + 1) (⟨[1, 3, 2, 4], 2, 2, 0⟩ : FA Float) (2 : ℕ) [0, 0] [0, 0] 1 2
      (⟨[], 0, 0, 0⟩ : FA Float) 2 pr : Res (HqrRet (FA Float) (List Float) (List Float) (FA Float))) with
  | ok ret =>
    rw [e] at hp
    simp only [Res.val?, Option.map_some, Option.some.injEq, Prod.mk.injEq] at hp
    obtain ⟨p1, p2, p3⟩ := hp
    refine ⟨ret, rfl, p1, ?_⟩
    obtain ⟨y, hy, y0⟩ : ∃ y, ret.h.data[1]? = some y ∧ (y == 0) = true := by
      cases hd : ret.h.data[1]? with
      | none => rw [hd] at p3; cases p3
      | some y =>
        rw [hd] at p3
        exact ⟨y, rfl, Option.some.inj p3⟩
    obtain ⟨x, hx, fx⟩ : ∃ x, ret.h.data[0]? = some x ∧ x.isFinite = true := by
      cases hd : ret.h.data with
      | nil => rw [hd] at hy; cases hy
      | cons x l =>
        rw [hd, List.all_cons, Bool.and_eq_true] at p2
        exact ⟨x, rfl, p2.1⟩
    obtain ht | ⟨hy0, -⟩ := C118_dlahqr_again true false 2 1 (by norm_num) ⟨[1, 3, 2, 4], 2, 2, 0⟩ 2 2 ⟨rfl, rfl, rfl, by norm_num⟩ (by norm_num) (by norm_num) (by norm_num) (by norm_num)
      [0, 0] [0, 0] 1 2 ⟨[], 0, 0, 0⟩ 0 0 2 (fun h => absurd h (by decide)) (A := fun a b => ([1, 3, 2, 4] : List Float).getD ((b - 1) * 2 + (a - 1)).toNat 0) (Z := fun _ _ => 0)
      (fun a b a1 a2 b1 b2 => by
        have ea : a = 1 ∨ a = 2 := by omega
        have eb : b = 1 ∨ b = 2 := by omega
        rcases ea with rfl | rfl <;> rcases eb with rfl | rfl <;> rfl)
      (fun h => absurd h (by decide)) 0 pr ret e x hx fx y hy true false 2 (by norm_num) (by norm_num) 1 2 ⟨[], 0, 0, 0⟩ 0 0 2 (fun h => absurd h (by decide)) (Z' := fun _ _ => 0)
      (fun h => absurd h (by decide))
    · exact ht
    · rw [y0] at hy0; cases hy0
  | panic => rw [e] at hp; cases hp
  | exit => rw [e] at hp; cases hp
  | timeout => rw [e] at hp; cases hp

end Verif

import Verif.Model.Qr5
import Verif.Lib.Loops

/-!
# Which shifts `dlaqr5` uses

With one bulge, only the first two elements of the arrays of shifts matter.
-/

namespace Verif
open Scalar

variable {F : Type} [Scalar F]

/-- The state with other shifts. -/
def Qr5S.sh (s : Qr5S F) (x : FA F × FA F) : Qr5S F := { s with sr := x.1, si := x.2 }

/-- The first two shifts are the same. -/
structure SameShifts (x y : FA F × FA F) : Prop where
  r1 : x.1.get1 1 = y.1.get1 1
  i1 : x.2.get1 1 = y.2.get1 1
  r2 : x.1.get1 2 = y.1.get1 2
  i2 : x.2.get1 2 = y.2.get1 2

theorem SameShifts.refl (x : FA F × FA F) : SameShifts x x := ⟨rfl, rfl, rfl, rfl⟩

/-- A step that reads only the first two shifts and does not change the arrays of shifts. -/
def Blind (g : Qr5S F → R (Qr5S F)) : Prop := ∀ (x y : FA F × FA F) (s : Qr5S F), SameShifts x y → g (s.sh x) = (fun t => Qr5S.sh t x) <$> g (s.sh y)

theorem Blind.pure : Blind (fun s : Qr5S F => pure s) := fun x y s _ => by simp [Qr5S.sh]

theorem Blind.bind {g g' : Qr5S F → R (Qr5S F)} (h : Blind g) (h' : Blind g') : Blind (fun s => g s >>= g') := by
  intro x y s e
  show g (s.sh x) >>= g' = _ <$> (g (s.sh y) >>= g')
  rw [h x y s e, h y y s (.refl y)]
  simp only [map_bind, bind_map_left]
  congr 1
  funext t
  exact h' x y t e

theorem Blind.ite {c : Prop} [Decidable c] {g g' : Qr5S F → R (Qr5S F)} (h : Blind g) (h' : Blind g') :
    Blind (fun s => if c then g s else g' s) := by
  by_cases hc : c
  · simpa only [if_pos hc] using h
  · simpa only [if_neg hc] using h'

theorem Blind.foldlM {f : Qr5S F → Int → R (Qr5S F)} (l : List Int) (h : ∀ i ∈ l, Blind (fun s => f s i)) : Blind (fun s => l.foldlM f s) := by
  induction l with
  | nil => exact Blind.pure
  | cons i l ih =>
    have : (fun s => (i :: l).foldlM f s) = fun s => f s i >>= fun s => l.foldlM f s := by
      funext s; simp [List.foldlM_cons]
    rw [this]
    exact Blind.bind (h i (by simp)) (ih fun j hj => h j (by simp [hj]))

theorem Blind.const_bind {α : Type} (e : R α) {g : α → Qr5S F → R (Qr5S F)} (h : ∀ a, Blind (g a)) : Blind (fun s => e >>= fun a => g a s) := by
  intro x y s hxy
  simp only [map_bind]
  congr 1
  funext a
  exact h a x y s hxy

theorem qr5Bmp22Refl_sh (p : Qr5P F) (k : Int) (s : Qr5S F) {x y : FA F × FA F} (h : SameShifts x y) :
    qr5Bmp22Refl p k 1 (s.sh x) = qr5Bmp22Refl p k 1 (s.sh y) := by
  unfold qr5Bmp22Refl
  simp only [Qr5S.sh, show (2 * 1 - 1 : Int) = 1 from rfl, show (2 * 1 : Int) = 2 from rfl, show (2 - 1 : Int) = 1 from rfl, h.r1, h.r2, h.i1, h.i2]

theorem qr5Collapsed_sh (p : Qr5P F) (k : Int) (beta : F) (s : Qr5S F) (a v : FA F) {x y : FA F × FA F} (h : SameShifts x y) :
    qr5Collapsed p k 1 beta (s.sh x) a v = qr5Collapsed p k 1 beta (s.sh y) a v := by
  unfold qr5Collapsed
  simp only [Qr5S.sh, show (2 * 1 - 1 : Int) = 1 from rfl, show (2 * 1 : Int) = 2 from rfl, show (2 - 1 : Int) = 1 from rfl, h.r1, h.r2, h.i1, h.i2]

theorem qr5Refl3_sh (p : Qr5P F) (k : Int) (s : Qr5S F) {x y : FA F × FA F} (h : SameShifts x y) :
    qr5Refl3 p k 1 (s.sh x) = qr5Refl3 p k 1 (s.sh y) := by
  unfold qr5Refl3
  simp only [qr5Collapsed_sh p k _ s _ _ h]
  simp only [Qr5S.sh, show (2 * 1 - 1 : Int) = 1 from rfl, show (2 * 1 : Int) = 2 from rfl, show (2 - 1 : Int) = 1 from rfl, h.r1, h.r2, h.i1, h.i2]

theorem Blind.bulge (p : Qr5P F) (jtop krcol : Int) : Blind (fun s => qr5Bulge p jtop krcol s 1) := by
  intro x y s e
  by_cases hc : krcol + 2 * (1 - 1) < p.ktop
  all_goals
    simp only [qr5Bulge, qr5Refl3_sh p _ s e, hc, if_true, if_false, map_bind, map_pure]
    rfl

theorem Blind.left (p : Qr5P F) (krcol jbot m : Int) : Blind (fun s => qr5Left p krcol jbot s m) := by
  intro x y s e
  simp only [qr5Left, map_bind, map_pure]
  rfl

theorem Blind.accU (p : Qr5P F) (incol krcol mbot m : Int) : Blind (fun s => qr5AccU p incol krcol mbot s m) := by
  intro x y s e
  simp only [qr5AccU, map_bind, map_pure]
  rfl

theorem Blind.accZ (p : Qr5P F) (krcol m : Int) : Blind (fun s => qr5AccZ p krcol s m) := by
  intro x y s e
  simp only [qr5AccZ, map_bind, map_pure]
  rfl

theorem Blind.bmp22 (p : Qr5P F) (incol jtop jbot krcol : Int) : Blind (fun s => qr5Bmp22 p incol jtop jbot krcol 1 s) := by
  intro x y s e
  simp only [qr5Bmp22, qr5Bmp22Refl_sh p _ s e]
  by_cases hc : krcol + 2 * (1 - 1) ≥ p.ktop <;> cases ha : p.accum <;> cases hw : p.wantz <;>
    simp only [hc, map_bind, map_pure, if_true, Bool.false_eq_true, if_false] <;> rfl

theorem Blind.accumulate (p : Qr5P F) (incol : Int) : Blind (fun s => qr5Accumulate p incol s) := by
  have step : ∀ (lo hi : Int) (st : Nat) (f : Qr5S F → Int → R (Qr5S F)), (∀ i, Blind (fun s => f s i)) → Blind (fun s => forStep lo hi st s f) :=
    fun lo hi st f hf => Blind.const_bind (irangeStep lo hi st) fun l => Blind.foldlM l fun i _ => hf i
  unfold qr5Accumulate
  refine Blind.bind (step _ _ _ _ fun i => ?_) (Blind.bind (step _ _ _ _ fun i => ?_) (Blind.ite (step _ _ _ _ fun i => ?_) Blind.pure))
  all_goals
    intro x y s e
    simp only [map_bind, map_pure]
    rfl

theorem Blind.krcol (p : Qr5P F) (incol jtop krcol : Int) (hn : p.nbmps = 1) (hk : krcol ≤ p.kbot - 2) : Blind (fun s => qr5Krcol p incol jtop s krcol) := by
  have hm : 0 ≤ (p.kbot - krcol - 1).tdiv 2 := Int.tdiv_nonneg (by omega) (by omega)
  have one : ∀ i, i ∈ irange (max 1 ((p.ktop - krcol).tdiv 2 + 1)) (min p.nbmps ((p.kbot - krcol - 1).tdiv 2)) → i = 1 := by
    intro i hi
    rw [mem_irange] at hi
    omega
  have dn : ∀ (f : Qr5S F → Int → R (Qr5S F)), Blind (fun s => f s 1) →
      Blind (fun s => forDown (max 1 ((p.ktop - krcol).tdiv 2 + 1)) (min p.nbmps ((p.kbot - krcol - 1).tdiv 2)) s f) :=
    fun f hf => Blind.foldlM _ fun i hi => by rw [one i (List.mem_reverse.1 hi)]; exact hf
  have zz : Blind (fun s : Qr5S F => forDown (min p.nbmps ((p.kbot - krcol - 1).tdiv 2)) (max 1 ((p.ktop - krcol).tdiv 2 + 1)) s (qr5AccZ p krcol)) :=
    Blind.foldlM _ fun i _ => Blind.accZ _ _ _
  have t1 := dn _ (Blind.bulge p jtop krcol)
  have t2 := dn _ (Blind.left p krcol (if p.accum then min (incol + p.kdu) p.kbot else if p.wantt then p.n else p.kbot) 1)
  have t3 := dn _ (Blind.accU p incol krcol (min p.nbmps ((p.kbot - krcol - 1).tdiv 2)) 1)
  have t0 : min p.nbmps ((p.kbot - krcol - 1).tdiv 2) < p.nbmps → min p.nbmps ((p.kbot - krcol - 1).tdiv 2) + 1 = 1 := by omega
  have t4 := Blind.bind t1 (Blind.bind t2 (Blind.ite (c := p.accum = true) t3 (Blind.ite (c := p.wantz = true) zz Blind.pure)))
  unfold qr5Krcol
  simp only [] at t4 ⊢
  by_cases hc : min p.nbmps ((p.kbot - krcol - 1).tdiv 2) < p.nbmps ∧ krcol + 2 * (min p.nbmps ((p.kbot - krcol - 1).tdiv 2) + 1 - 1) = p.kbot - 2
  · simp only [if_pos hc]
    simp only [t0 hc.1]
    exact Blind.bind (Blind.bmp22 _ _ _ _ _) t4
  · simp only [if_neg hc, pure_bind]
    exact t4

theorem Blind.incol (p : Qr5P F) (incol : Int) (hn : p.nbmps = 1) : Blind (fun s => qr5Incol p s incol) := by
  have tail : Blind (fun s : Qr5S F => forUp incol (min (incol + 2 * p.nbmps - 1) (p.kbot - 2)) s
      (qr5Krcol p incol (if p.accum then max p.ktop incol else if p.wantt then 1 else p.ktop)) >>= fun s =>
      if p.accum then qr5Accumulate p incol s else Pure.pure s) := by
    refine Blind.bind (Blind.foldlM _ fun i hi => ?_) (Blind.ite (Blind.accumulate _ _) Blind.pure)
    rw [mem_irange] at hi
    exact Blind.krcol _ _ _ _ hn (by omega)
  have head : Blind (fun s : Qr5S F => dlaset (F := F) 'A' p.kdu p.kdu zero one s.u >>= fun u => Pure.pure { s with u := u }) := by
    intro x y s e
    simp only [map_bind, map_pure]
    rfl
  cases ha : p.accum
  · have : (fun s => qr5Incol p s incol) = (fun s : Qr5S F => forUp incol (min (incol + 2 * p.nbmps - 1) (p.kbot - 2)) s
      (qr5Krcol p incol (if p.accum then max p.ktop incol else if p.wantt then 1 else p.ktop)) >>= fun s =>
      if p.accum then qr5Accumulate p incol s else Pure.pure s) := by
      funext s
      simp [qr5Incol, ha]
    rw [this]
    exact tail
  · have h := Blind.bind head tail
    have : (fun s => qr5Incol p s incol) = (fun s : Qr5S F => (dlaset (F := F) 'A' p.kdu p.kdu zero one s.u >>= fun u => Pure.pure { s with u := u }) >>=
      fun s : Qr5S F => forUp incol (min (incol + 2 * p.nbmps - 1) (p.kbot - 2)) s
      (qr5Krcol p incol (if p.accum then max p.ktop incol else if p.wantt then 1 else p.ktop)) >>= fun s =>
      if p.accum then qr5Accumulate p incol s else Pure.pure s) := by
      funext s
      simp [qr5Incol, ha]
    rw [this]
    exact h

end Verif

import Verif.Lib.Post
import Verif.Model.Qr5

/-!
# Returning or panicking

`Ends x P`: in both build profiles the computation `x` panics, or returns a value satisfying `P`; it neither runs forever nor ends the
process.  `Ends x (fun _ => False)` says that `x` panics.
-/

namespace Verif
open Scalar

variable {α β σ ι F : Type}

/-- `x` panics or returns a value satisfying `P`. -/
def Ends (x : R α) (P : α → Prop) : Prop := ∀ p, (∃ w, x p = .panic w) ∨ ∃ a, x p = .ok a ∧ P a

/-- `x` panics or returns. -/
abbrev Ends₀ (x : R α) : Prop := Ends x fun _ => True

theorem Ends.pure {a : α} {P : α → Prop} (h : P a) : Ends (pure a : R α) P := fun _ => .inr ⟨a, rfl, h⟩

theorem Ends.panic (e : Panic) {P : α → Prop} : Ends (R.panic e : R α) P := fun _ => .inl ⟨e, rfl⟩

theorem Ends.bind {x : R α} {f : α → R β} {P : α → Prop} {Q : β → Prop} (hx : Ends x P)
    (hf : ∀ a, P a → Ends (f a) Q) : Ends (x >>= f) Q := by
  intro p
  rcases hx p with ⟨w, e⟩ | ⟨a, e, ha⟩
  · exact .inl ⟨w, by rw [R.bind_apply, e]⟩
  · rcases hf a ha p with ⟨w, e'⟩ | ⟨b, e', hb⟩
    · exact .inl ⟨w, by rw [R.bind_apply, e]; exact e'⟩
    · exact .inr ⟨b, by rw [R.bind_apply, e]; exact e', hb⟩

theorem Ends.bind' {x : R α} {f : α → R β} {Q : β → Prop} (hx : Ends₀ x) (hf : ∀ a, Ends (f a) Q) : Ends (x >>= f) Q :=
  Ends.bind hx fun a _ => hf a

theorem Ends.mono {x : R α} {P Q : α → Prop} (h : Ends x P) (hpq : ∀ a, P a → Q a) : Ends x Q := by
  intro p
  rcases h p with h | ⟨a, e, ha⟩
  · exact .inl h
  · exact .inr ⟨a, e, hpq a ha⟩

/-- Add a partial correctness fact. -/
theorem Ends.post {x : R α} {P : α → Prop} (h : Ends₀ x) (hp : Post x P) : Ends x P := by
  intro p
  rcases h p with h | ⟨a, e, _⟩
  · exact .inl h
  · exact .inr ⟨a, e, hp p a e⟩

theorem Ends.ite {c : Prop} [Decidable c] {x y : R α} {P : α → Prop} (hx : c → Ends x P) (hy : ¬ c → Ends y P) :
    Ends (if c then x else y) P := by
  split
  · exact hx ‹_›
  · exact hy ‹_›

theorem Ends.foldlM {P : σ → Prop} {f : σ → ι → R σ} (l : List ι) {s : σ} (hs : P s)
    (hf : ∀ s i, i ∈ l → P s → Ends (f s i) P) : Ends (l.foldlM f s) P := by
  induction l generalizing s with
  | nil => exact Ends.pure hs
  | cons i l ih =>
    rw [List.foldlM_cons]
    exact Ends.bind (hf s i (by simp) hs) fun a ha => ih ha fun s i hi hs => hf s i (by simp [hi]) hs

theorem Ends.forUp {P : σ → Prop} {f : σ → Int → R σ} {lo hi : Int} {s : σ} (hs : P s)
    (hf : ∀ s i, lo ≤ i → i ≤ hi → P s → Ends (f s i) P) : Ends (forUp lo hi s f) P :=
  Ends.foldlM _ hs fun s i hi hs => hf s i (mem_irange.1 hi).1 (mem_irange.1 hi).2 hs

theorem Ends.forDown {P : σ → Prop} {f : σ → Int → R σ} {lo hi : Int} {s : σ} (hs : P s)
    (hf : ∀ s i, lo ≤ i → i ≤ hi → P s → Ends (f s i) P) : Ends (forDown lo hi s f) P :=
  Ends.foldlM _ hs fun s i hi hs => hf s i (mem_irange.1 (List.mem_reverse.1 hi)).1 (mem_irange.1 (List.mem_reverse.1 hi)).2 hs

theorem Ends.irangeStep (lo hi : Int) (d : Nat) : Ends₀ (irangeStep lo hi d) := by
  unfold Verif.irangeStep
  exact Ends.ite (fun _ => Ends.panic _) fun _ => Ends.pure trivial

theorem Ends.forStep {f : σ → Int → R σ} {lo hi : Int} {d : Nat} {s : σ} (hf : ∀ s i, Ends₀ (f s i)) : Ends₀ (forStep lo hi d s f) :=
  Ends.bind' (Ends.irangeStep _ _ _) fun l => Ends.foldlM l trivial fun s i _ _ => hf s i

theorem Ends.chk (x : Int) : Ends₀ (chk x) := by
  intro p
  unfold Verif.chk
  split
  · exact .inr ⟨_, rfl, trivial⟩
  · cases p
    · exact .inl ⟨_, rfl⟩
    · exact .inr ⟨_, rfl, trivial⟩

theorem Ends.iadd (a b : Int) : Ends₀ (iadd a b) := Ends.chk _
theorem Ends.isub (a b : Int) : Ends₀ (isub a b) := Ends.chk _
theorem Ends.imul (a b : Int) : Ends₀ (imul a b) := Ends.chk _

variable [Scalar F]

theorem Ends.off (a : FA F) (i j : Int) : Ends₀ (a.off i j) :=
  .bind' (.isub _ _) fun _ => .bind' (.imul _ _) fun _ => .bind' (.isub _ _) fun _ => .iadd _ _

theorem Ends.get2 (a : FA F) (i j : Int) : Ends₀ (a.get2 i j) := .bind' (.off a i j) fun _ => .pure trivial

theorem Ends.modify2 (a : FA F) (i j : Int) (f : F → F) : Ends₀ (a.modify2 i j f) := .bind' (.off a i j) fun _ => .pure trivial

theorem Ends.set2 (a : FA F) (i j : Int) (x : F) : Ends₀ (a.set2 i j x) := .modify2 a i j _

theorem Ends.as2d (a : FA F) (rows : Int) : Ends₀ (a.as2d rows) :=
  .ite (fun _ => .panic _) fun _ => .bind' (.chk _) fun _ => .pure trivial

theorem Ends.len (a : FA F) : Ends₀ a.len := by
  unfold FA.len
  exact Ends.ite (fun _ => .imul _ _) fun _ => .pure trivial

theorem Ends.insert (a : FA F) (i : Int) (x : F) : Ends₀ (a.insert i x) := by
  unfold FA.insert
  exact .bind' (.len a) fun l => .ite (fun _ => .ite (fun _ => .pure trivial) fun _ => .panic _) fun _ => .pure trivial

theorem Ends.from1 (a : FA F) (i : Int) : Ends₀ (a.from1 i) := by
  unfold FA.from1
  exact .bind' (.len a) fun l => .ite (fun _ => .ite (fun _ => .pure trivial) fun _ => .panic _) fun _ => .pure trivial

theorem Ends.from2 (a : FA F) (i j : Int) : Ends₀ (a.from2 i j) := by
  unfold FA.from2
  exact .bind' (.isub _ _) fun _ => .bind' (.imul _ _) fun _ => .bind' (.iadd _ _) fun _ => .from1 _ _

theorem Ends.refl3Cols (lo hi c1 c2 c3 : Int) (v2 v3 t1 t2 t3 : F) (a : FA F) : Ends₀ (refl3Cols lo hi c1 c2 c3 v2 v3 t1 t2 t3 a) := by
  unfold Verif.refl3Cols
  exact .forUp trivial fun s i _ _ _ => .bind' (.get2 _ _ _) fun _ => .bind' (.get2 _ _ _) fun _ => .bind' (.get2 _ _ _) fun _ =>
    .bind' (.set2 _ _ _ _) fun _ => .bind' (.modify2 _ _ _ _) fun _ => .modify2 _ _ _ _

theorem Ends.refl3Rows (lo hi c1 c2 c3 : Int) (v2 v3 t1 t2 t3 : F) (a : FA F) : Ends₀ (refl3Rows lo hi c1 c2 c3 v2 v3 t1 t2 t3 a) := by
  unfold Verif.refl3Rows
  exact .forUp trivial fun s i _ _ _ => .bind' (.get2 _ _ _) fun _ => .bind' (.get2 _ _ _) fun _ => .bind' (.get2 _ _ _) fun _ =>
    .bind' (.set2 _ _ _ _) fun _ => .bind' (.modify2 _ _ _ _) fun _ => .modify2 _ _ _ _

theorem Ends.refl2Cols (lo hi c1 c2 : Int) (v2 t1 t2 : F) (a : FA F) : Ends₀ (refl2Cols lo hi c1 c2 v2 t1 t2 a) := by
  unfold Verif.refl2Cols
  exact .forUp trivial fun s i _ _ _ => .bind' (.get2 _ _ _) fun _ => .bind' (.get2 _ _ _) fun _ =>
    .bind' (.set2 _ _ _ _) fun _ => .modify2 _ _ _ _

theorem Ends.refl2Rows (lo hi c1 c2 : Int) (v2 t1 t2 : F) (a : FA F) : Ends₀ (refl2Rows lo hi c1 c2 v2 t1 t2 a) := by
  unfold Verif.refl2Rows
  exact .forUp trivial fun s i _ _ _ => .bind' (.get2 _ _ _) fun _ => .bind' (.get2 _ _ _) fun _ =>
    .bind' (.set2 _ _ _ _) fun _ => .modify2 _ _ _ _

theorem Ends.dlaset (uplo : Char) (m n : Int) (al be : F) (a : FA F) : Ends₀ (dlaset uplo m n al be a) := by
  unfold Verif.dlaset dlasetFA
  simp only [bind_assoc]
  refine .bind' (.forUp trivial fun s i _ _ _ => .forUp trivial fun s i _ _ _ => .set2 _ _ _ _) fun _ =>
    .bind' (.forUp trivial fun s i _ _ _ => .set2 _ _ _ _) fun _ => .pure trivial

theorem Ends.dlaqr1 {V : Type} [ToFA F V] [FromFA F V] (hV : ∀ a : FA F, Ends₀ (FromFA.fromFa (A := V) a)) (n : Int) (h : List F) (ldh : Int)
    (a b c d : F) (v : V) : Ends₀ (dlaqr1 n h ldh a b c d v) := by
  unfold Verif.dlaqr1
  refine .bind' (.as2d _ _) fun _ => .ite (fun _ => .pure trivial) fun _ => .bind' ?_ fun _ => hV _
  unfold dlaqr1FA
  refine .ite (fun _ => ?_) fun _ => ?_
  · exact .bind' (.get2 _ _ _) fun _ => .bind' (.get2 _ _ _) fun _ => .bind' (.get2 _ _ _) fun _ => .bind' (.get2 _ _ _) fun _ =>
      .ite (fun _ => .pure trivial) fun _ => .pure trivial
  · exact .bind' (.get2 _ _ _) fun _ => .bind' (.get2 _ _ _) fun _ => .bind' (.get2 _ _ _) fun _ => .bind' (.get2 _ _ _) fun _ =>
      .bind' (.get2 _ _ _) fun _ => .bind' (.get2 _ _ _) fun _ => .bind' (.get2 _ _ _) fun _ => .bind' (.get2 _ _ _) fun _ =>
      .bind' (.get2 _ _ _) fun _ => .ite (fun _ => .pure trivial) fun _ => .pure trivial

theorem Ends.dnrm2 (n : Int) (x : List F) (inc : Int) : Ends₀ (dnrm2 (F := F) n x inc) := by
  unfold Verif.dnrm2 dnrm2FA
  refine .ite (fun _ => .pure trivial) fun _ => ?_
  have key : ∀ ix, Ends₀ (do
      let s ← Verif.forUp 1 n ((⟨true, zero, zero, zero⟩ : Nrm2 F), ix) (nrm2Step (ToFA.toFa x) inc)
      Pure.pure (nrm2Final s.1)) := fun ix => .bind' (.forUp trivial fun s i _ _ _ => by
        unfold nrm2Step
        exact .bind' (.iadd _ _) fun _ => .pure trivial) fun _ => .pure trivial
  refine .ite (fun _ => ?_) fun _ => key _
  exact .bind' (.isub _ _) fun _ => .bind' (.imul _ _) fun _ => .bind' (.isub _ _) fun _ => key _

/-- `dscal` with unit stride. -/
theorem Ends.dscal (n : Int) (a : F) (x : List F) : Ends₀ (dscal (F := F) n a x 1) := by
  unfold Verif.dscal
  refine .bind' ?_ fun r => ?_
  · unfold dscalFA
    refine .ite (fun _ => .pure trivial) fun _ => ?_
    rw [if_pos rfl]
    have key : ∀ dx : FA F, Ends₀ (do
        let l ← Verif.iadd (n.tmod 5) 1
        let r ← Verif.forStep l n 5 dx (dscalUnrolled a)
        Pure.pure (some r)) := fun dx => .bind' (.iadd _ _) fun _ => .bind' (.forStep fun s i => by
          unfold dscalUnrolled
          exact .bind' (.iadd _ _) fun _ => .bind' (.iadd _ _) fun _ => .bind' (.iadd _ _) fun _ => .bind' (.iadd _ _) fun _ => .pure trivial)
          fun _ => .pure trivial
    refine .ite (fun _ => .bind' (.forUp trivial fun s i _ _ _ => .pure trivial) fun _ => .pure trivial) fun _ =>
      .ite (fun _ => .bind' (.forUp trivial fun s i _ _ _ => .pure trivial) fun _ => key _) fun _ => key _
  · cases r
    · exact .pure trivial
    · exact .pure trivial

theorem Ends.dlarfgRescale (n : Int) (sm rs : F) (k : Nat) (x : List F) (be al : F) (knt : Nat) :
    Ends₀ (dlarfgRescale (F := F) n 1 sm rs k x be al knt) := by
  induction k generalizing x be al knt with
  | zero => exact .pure trivial
  | succ k ih =>
    unfold Verif.dlarfgRescale
    exact .bind' (.isub _ _) fun _ => .bind' (.dscal _ _ _) fun _ => .ite (fun _ => .pure trivial) fun _ => ih _ _ _ _

theorem Ends.dlarfg (n : Int) (al : F) (x : List F) : Ends₀ (dlarfg (F := F) n al x 1) := by
  unfold Verif.dlarfg
  have fin : ∀ sm al be (x : List F) knt, Ends₀ (dlarfgFinish (F := F) n 1 sm al be x knt) := fun sm al be x knt => by
    unfold dlarfgFinish
    exact .bind' (.isub _ _) fun _ => .bind' (.dscal _ _ _) fun _ => .pure trivial
  refine .ite (fun _ => .pure trivial) fun _ => .bind' (.isub _ _) fun _ => .bind' (.dnrm2 _ _ _) fun _ => .ite (fun _ => .pure trivial) fun _ =>
    .ite (fun _ => ?_) fun _ => fin _ _ _ _ _
  exact .bind' (.dlarfgRescale _ _ _ _ _ _ _ _) fun _ => .bind' (.isub _ _) fun _ => .bind' (.dnrm2 _ _ _) fun _ => fin _ _ _ _ _

theorem Ends.qr5Negligible (p : Qr5P F) (k : Int) (h : FA F) : Ends₀ (qr5Negligible p k h) := by
  unfold Verif.qr5Negligible
  refine .bind' (.get2 _ _ _) fun _ => .ite (fun _ => ?_) fun _ => .pure trivial
  refine .bind' (.get2 _ _ _) fun hkk => .bind' (.get2 _ _ _) fun hk1k1 => ?_
  repeat' first
    | exact Ends.pure trivial
    | exact Ends.set2 _ _ _ _
    | refine Ends.ite (fun _ => ?_) fun _ => ?_
    | refine Ends.bind' (Ends.get2 _ _ _) fun _ => ?_
    | refine Ends.bind' (Ends.pure trivial) fun _ => ?_

end Verif

import Verif.Lib.Ends
import Verif.Props.Hqr

/-!
# `dlaqr5` with four or more shifts (C56)

Any scalar type.  With two bulges or more and the array `v` of the documented size (`ldv` rows, one column for each bulge), `dlaqr5`
panics whatever the matrix and the shifts are.
-/

namespace Verif
open Scalar

variable {F : Type} [Scalar F]

/-! ### The array of reflectors is lost -/

/-- An array without elements, seen as a matrix with `ld` rows. -/
def Short (ld : Int) (v : FA F) : Prop := v.data.length = 0 ∧ v.rows = ld ∧ v.cols = 0

theorem Short.shape {ld : Int} {v w : FA F} (h : Short ld v) (hs : SameShape v w) : Short ld w :=
  ⟨hs.2.2 ▸ h.1, hs.1 ▸ h.2.1, hs.2.1 ▸ h.2.2⟩

theorem dscal_length (n : Int) (a : F) (x : List F) : Post (dscal (F := F) n a x 1) fun r => r.length = x.length := by
  unfold dscal
  refine Post.bind (P := fun r : Option (FA F) => ∀ b ∈ r, b.data.length = x.length) ?_ fun r hr => ?_
  · unfold dscalFA
    refine Post.ite (fun _ => Post.pure (by simp)) fun _ => ?_
    rw [if_pos rfl]
    have loop : ∀ (l : List Int) (d : FA F), d.data.length = x.length →
        Post (l.foldlM (fun (dx : FA F) i => (pure (dx.modify1 i (· * a)) : R (FA F))) d) fun d => d.data.length = x.length :=
      fun l d hd => Post.foldlM l hd fun s i _ hs => Post.pure ((modify1_shape s i _).2.2 ▸ hs)
    have key : ∀ dx : FA F, dx.data.length = x.length → Post (do
        let l ← iadd (n.tmod 5) 1
        let r ← forStep l n 5 dx (dscalUnrolled a)
        pure (some r)) fun r => ∀ b ∈ r, b.data.length = x.length := by
      intro dx hd
      refine Post.bind' fun l => Post.bind (P := fun d : FA F => d.data.length = x.length) ?_ fun d hd => Post.pure (by simpa using hd)
      unfold forStep
      refine Post.bind' fun L => Post.foldlM L hd fun s i _ hs => ?_
      unfold dscalUnrolled
      refine Post.bind' fun _ => Post.bind' fun _ => Post.bind' fun _ => Post.bind' fun _ => Post.pure ?_
      rw [← (modify1_shape _ _ _).2.2, ← (modify1_shape _ _ _).2.2, ← (modify1_shape _ _ _).2.2, ← (modify1_shape _ _ _).2.2,
        ← (modify1_shape _ _ _).2.2, hs]
    exact Post.ite (fun _ => Post.bind (loop _ _ rfl) fun d hd => Post.pure (by simpa using hd)) fun _ =>
      Post.ite (fun _ => Post.bind (loop _ _ rfl) fun d hd => key d hd) fun _ => Post.bind (P := fun d : FA F => d.data.length = x.length) (Post.pure rfl) fun d hd => key d hd
  · cases r with
    | none => exact Post.pure rfl
    | some b => exact Post.pure (hr b rfl)

theorem dlarfgRescale_length (n : Int) (sm rs : F) (k : Nat) (x : List F) (be al : F) (knt : Nat) :
    Post (dlarfgRescale (F := F) n 1 sm rs k x be al knt) fun r => r.1.length = x.length := by
  induction k generalizing x be al knt with
  | zero => exact Post.pure rfl
  | succ k ih =>
    unfold dlarfgRescale
    exact Post.bind' fun _ => Post.bind (dscal_length _ _ _) fun y hy => Post.ite (fun _ => Post.pure hy) fun _ =>
      (ih y _ _ _).mono fun r hr => hr.trans hy

theorem dlarfg_length (n : Int) (al : F) (x : List F) : Post (dlarfg (F := F) n al x 1) fun r => r.2.1.length = x.length := by
  unfold dlarfg
  have fin : ∀ sm al be (y : List F) knt, y.length = x.length → Post (dlarfgFinish (F := F) n 1 sm al be y knt) fun r => r.2.1.length = x.length :=
    fun sm al be y knt hy => by
      unfold dlarfgFinish
      exact Post.bind' fun _ => Post.bind (dscal_length _ _ _) fun z hz => Post.pure (hz.trans hy)
  refine Post.ite (fun _ => Post.pure rfl) fun _ => Post.bind' fun _ => Post.bind' fun _ => Post.ite (fun _ => Post.pure rfl) fun _ =>
    Post.ite (fun _ => ?_) fun _ => fin _ _ _ _ _ rfl
  refine Post.bind (dlarfgRescale_length _ _ _ _ _ _ _ _) fun r hr => ?_
  obtain ⟨y, be', al', knt⟩ := r
  exact Post.bind' fun _ => Post.bind' fun _ => fin _ _ _ _ _ hr

theorem dlaqr1_length (n : Int) (h : List F) (ldh : Int) (a b c d : F) (v : List F) :
    Post (dlaqr1 n h ldh a b c d v) fun r => r.length = v.length := by
  unfold dlaqr1
  refine Post.bind' fun _ => Post.ite (fun _ => Post.pure rfl) fun _ => Post.bind (P := SameShape (faOfVec v)) ?_ fun w hw =>
    Post.pure hw.2.2.symm
  unfold dlaqr1FA
  have s2 : ∀ (v : FA F) (x y : F), SameShape v ((v.set1 1 x).set1 2 y) := fun v x y => (set1_shape v 1 x).trans (set1_shape _ 2 y)
  have s3 : ∀ (v : FA F) (x y z : F), SameShape v (((v.set1 1 x).set1 2 y).set1 3 z) := fun v x y z => (s2 v x y).trans (set1_shape _ 3 z)
  refine Post.ite (fun _ => ?_) fun _ => ?_
  · exact Post.bind' fun _ => Post.bind' fun _ => Post.bind' fun _ => Post.bind' fun _ => Post.ite (fun _ => Post.pure (s2 _ _ _)) fun _ =>
      Post.pure (s2 _ _ _)
  · exact Post.bind' fun _ => Post.bind' fun _ => Post.bind' fun _ => Post.bind' fun _ => Post.bind' fun _ => Post.bind' fun _ =>
      Post.bind' fun _ => Post.bind' fun _ => Post.bind' fun _ => Post.ite (fun _ => Post.pure (s3 _ _ _ _)) fun _ => Post.pure (s3 _ _ _ _)

theorem toFa2d_short {l : List F} (hl : l.length = 0) {ld : Int} (h0 : 0 < ld) :
    ToFA.toFa2d (F := F) l ld = pure ⟨[], ld, 0, nan⟩ := by
  obtain rfl := List.length_eq_zero_iff.1 hl
  show (faOfVec ([] : List F)).as2d ld = _
  unfold FA.as2d faOfVec
  rw [if_neg (by omega)]
  simp only [List.length_nil]
  rw [show ((wrap32 ((0 : Nat) : Int)).tdiv ld) = 0 by rw [show wrap32 ((0 : Nat) : Int) = 0 from rfl]; simp, chk_ok (by decide)]
  rfl

theorem from2_short {ld : Int} {v : FA F} (h : Short ld v) (i j : Int) : Post (v.from2 i j) fun l => l.length = 0 := by
  unfold FA.from2 FA.from1
  refine Post.bind' fun _ => Post.bind' fun _ => Post.bind' fun _ => Post.bind' fun _ => Post.ite (fun _ => Post.ite (fun _ => Post.pure ?_)
    fun _ => Post.panic _) fun _ => Post.pure rfl
  rw [List.length_drop, h.1]; simp

/-- Making a reflector from an empty column leaves an empty array. -/
theorem qr5Larfg_short {ld : Int} (h0 : 0 < ld) (n m : Int) (beta : F) {v : FA F} (h : Post (v.from2 2 m) fun l => l.length = 0) :
    Ends (qr5Larfg ld n m beta v) fun r => Short ld r.2 := by
  unfold qr5Larfg
  refine .bind (Ends.post (.from2 _ _ _) h) fun v1 h1 => .bind (Ends.post (.dlarfg _ _ _) (dlarfg_length _ _ _)) fun r hr => ?_
  obtain ⟨be, w, t⟩ := r
  have hw : w.length = 0 := hr.trans h1
  obtain rfl := List.length_eq_zero_iff.1 hw
  have e : (faOfVec ([] : List F)).insert 1 t = pure (faOfVec ([] : List F)) := by
    unfold FA.insert
    have e0 : (faOfVec ([] : List F)).len = pure 0 := by
      unfold FA.len FA.is2d faOfVec
      simp only [List.length_nil, Nat.cast_zero, show wrap32 0 = 0 by decide]
      simp
    rw [e0, pure_bind, if_neg (by omega)]
  simp only [e, pure_bind]
  have e2 := toFa2d_short (F := F) (l := []) rfl h0
  rw [show (faOfVec ([] : List F)).as2d ld = ToFA.toFa2d (F := F) ([] : List F) ld from rfl, e2]
  exact .pure ⟨rfl, rfl, rfl⟩

/-- The first column of an empty array cannot be read. -/
theorem qr5Larfg_dies {ld : Int} (h0 : 2 ≤ ld) (n : Int) (beta : F) {v : FA F} (h : Short ld v) :
    Ends (qr5Larfg ld n 1 beta v) fun _ => False := by
  unfold qr5Larfg
  have e : v.from2 2 1 = R.panic .bounds := by
    unfold FA.from2 FA.from1 FA.len
    have e1 : isub 1 1 = pure 0 := rfl
    have e2 : imul 0 v.rows = pure 0 := by unfold imul; rw [zero_mul]; rfl
    have e3 : iadd 0 2 = pure 2 := rfl
    have e4 : v.is2d = false := by unfold FA.is2d; rw [h.2.2]; simp
    simp only [e1, e2, e3, e4, pure_bind, Bool.false_eq_true, if_false]
    rw [if_pos ⟨by norm_num, by rw [h.2.1]; exact h0⟩, h.1]
    rfl
  rw [e]
  exact Ends.panic _

/-- A loop in which one of the rounds panics. -/
theorem Ends.foldlM_dies {σ ι : Type} {P : σ → Prop} {f : σ → ι → R σ} (l : List ι) (i0 : ι) (hi : i0 ∈ l) {s : σ} (hs : P s)
    (hf : ∀ s i, P s → Ends (f s i) P) (hd : ∀ s, P s → Ends (f s i0) fun _ => False) : Ends (l.foldlM f s) fun _ => False := by
  induction l generalizing s with
  | nil => cases hi
  | cons i l ih =>
    rw [List.foldlM_cons]
    rcases List.mem_cons.1 hi with rfl | hi
    · exact .bind (hd s hs) fun a ha => ha.elim
    · exact .bind (hf s i hs) fun a ha => ih hi ha

/-- Reading from a column beyond the last one gives nothing. -/
theorem from2_beyond {v : FA F} {r c : Nat} (hv : IsMatrix v r c) (hr : 1 ≤ r) (hc : 1 ≤ c) {i j : Int} (hi : 1 ≤ i) (hj : (c : Int) < j)
    (hs : (j - 1) * r + i < 2 ^ 31) : v.from2 i j = pure [] := by
  have hm : (c : Int) * r ≤ (j - 1) * r := by
    apply mul_le_mul_of_nonneg_right (by omega) (by omega)
  have hj2 : j - 1 ≤ (j - 1) * r := by
    have : (j - 1) * 1 ≤ (j - 1) * (r : Int) := mul_le_mul_of_nonneg_left (by omega) (by omega)
    omega
  have hb : ((r * c : Nat) : Int) < 2147483648 := by exact_mod_cast hv.small
  have hc0 : (0 : Int) ≤ (c : Int) * r := by positivity
  unfold FA.from2 FA.from1 FA.len
  rw [isub_ok (by unfold FitsI32; omega), pure_bind, hv.rows, imul_ok (by unfold FitsI32; omega), pure_bind, iadd_ok (by unfold FitsI32; omega), pure_bind]
  have e : v.is2d = true := by unfold FA.is2d; rw [hv.rows, hv.cols]; simp; omega
  rw [if_pos e, hv.cols, imul_ok (by unfold FitsI32; push_cast at hb; constructor <;> nlinarith), pure_bind, if_neg]
  rintro ⟨-, h⟩
  rw [mul_comm (r : Int) c] at h
  omega

theorem toFa2d_matrix {l : List F} {r c : Nat} (hl : l.length = r * c) (hr : 1 ≤ r) (hs : r * c < 2 ^ 31) :
    ToFA.toFa2d (F := F) l (r : Int) = pure ⟨l, r, c, nan⟩ := by
  show (faOfVec l).as2d r = _
  unfold FA.as2d faOfVec
  rw [if_neg (by omega)]
  simp only
  have hb : ((r * c : Nat) : Int) < 2147483648 := by exact_mod_cast hs
  have hcr : c ≤ r * c := Nat.le_mul_of_pos_left _ hr
  rw [hl, wrap32_of_fits (by unfold FitsI32; omega), Nat.cast_mul, Int.mul_tdiv_cancel_left _ (by omega), chk_ok (by unfold FitsI32; omega)]
  rfl

/-! ### One step of the chain -/

section
variable {p : Qr5P F} (h2 : 2 ≤ p.ldv)
include h2

theorem qr5Refl3_short (k m : Int) (s : Qr5S F) (hs : Short p.ldv s.v) : Ends (qr5Refl3 p k m s) fun r => Short p.ldv r.2.1 := by
  unfold qr5Refl3
  refine .ite (fun _ => ?_) fun _ => ?_
  · refine .bind' (.from2 _ _ _) fun htmp => .bind (Ends.post (.from2 _ _ _) (from2_short hs _ _)) fun l hl =>
      .bind (Ends.post (.dlaqr1 (fun _ => .pure trivial) _ _ _ _ _ _ _ _) (dlaqr1_length _ _ _ _ _ _ _ _)) fun l' hl' => ?_
    rw [toFa2d_short (hl'.trans hl) (by omega), pure_bind]
    refine .bind' (.get2 _ _ _) fun al => .bind (qr5Larfg_short (by omega) _ _ _ (from2_short ⟨rfl, rfl, rfl⟩ _ _)) fun r hr => ?_
    exact .pure hr
  · refine .bind' (.get2 _ _ _) fun _ => .bind' (.get2 _ _ _) fun _ => .bind' (.get2 _ _ _) fun _ => .bind' (.get2 _ _ _) fun _ =>
      .bind' (.set2 _ _ _ _) fun _ => .bind' (.set2 _ _ _ _) fun _ => .bind' (.modify2 _ _ _ _) fun _ => .bind' (.get2 _ _ _) fun _ =>
      .bind' (.get2 _ _ _) fun _ => .bind (Ends.post (.set2 _ _ _ _) (set2_shape _ _ _ _)) fun v hv =>
      .bind' (.get2 _ _ _) fun _ => .bind (Ends.post (.set2 _ _ _ _) (set2_shape _ _ _ _)) fun w hw =>
      .bind (qr5Larfg_short (by omega) _ _ _ (from2_short ((hs.shape hv).shape hw) _ _)) fun r hr => ?_
    refine .bind' (.get2 _ _ _) fun _ => .bind' (.get2 _ _ _) fun _ => .bind' (.get2 _ _ _) fun _ => .ite (fun _ => ?_) fun _ => ?_
    · exact .bind' (.set2 _ _ _ _) fun _ => .bind' (.set2 _ _ _ _) fun _ => .bind' (.set2 _ _ _ _) fun _ => .pure hr
    · unfold qr5Collapsed
      refine .bind' (.from2 _ _ _) fun htmp => .bind' (.dlaqr1 (fun _ => .pure trivial) _ _ _ _ _ _ _ _) fun vt => .bind' (.dlarfg _ _ _) fun r' => ?_
      obtain ⟨_, vt1, vt2⟩ := r'
      refine .bind' (.insert _ _ _) fun vt => .bind' (.get2 _ _ _) fun _ => .bind' (.get2 _ _ _) fun _ => .bind' (.get2 _ _ _) fun _ =>
        .bind' (.get2 _ _ _) fun _ => .bind' (.get2 _ _ _) fun _ => .ite (fun _ => ?_) fun _ => ?_
      · exact .bind' (.set2 _ _ _ _) fun _ => .bind' (.set2 _ _ _ _) fun _ => .bind' (.set2 _ _ _ _) fun _ => .pure hr
      · exact .bind' (.modify2 _ _ _ _) fun _ => .bind' (.set2 _ _ _ _) fun _ => .bind' (.set2 _ _ _ _) fun _ =>
          .bind (Ends.post (.set2 _ _ _ _) (set2_shape _ _ _ _)) fun v1 g1 => .bind (Ends.post (.set2 _ _ _ _) (set2_shape _ _ _ _)) fun v2 g2 =>
          .bind (Ends.post (.set2 _ _ _ _) (set2_shape _ _ _ _)) fun v3 g3 => .pure (((hr.shape g1).shape g2).shape g3)

theorem qr5Refl3_dies (s : Qr5S F) (hs : Short p.ldv s.v) : Ends (qr5Refl3 p (p.ktop - 1) 1 s) fun _ => False := by
  unfold qr5Refl3
  rw [if_pos rfl]
  refine .bind' (.from2 _ _ _) fun htmp => .bind (Ends.post (.from2 _ _ _) (from2_short hs _ _)) fun l hl =>
    .bind (Ends.post (.dlaqr1 (fun _ => .pure trivial) _ _ _ _ _ _ _ _) (dlaqr1_length _ _ _ _ _ _ _ _)) fun l' hl' => ?_
  rw [toFa2d_short (hl'.trans hl) (by omega), pure_bind]
  exact .bind' (.get2 _ _ _) fun al => .bind (qr5Larfg_dies (by omega) _ _ ⟨rfl, rfl, rfl⟩) fun r hr => hr.elim

theorem qr5Bmp22Refl_short (k m : Int) (s : Qr5S F) (hs : Short p.ldv s.v) : Ends (qr5Bmp22Refl p k m s) fun r => Short p.ldv r.2 := by
  unfold qr5Bmp22Refl
  refine .ite (fun _ => ?_) fun _ => ?_
  · refine .bind' (.from2 _ _ _) fun htmp => .bind (Ends.post (.from2 _ _ _) (from2_short hs _ _)) fun l hl =>
      .bind (Ends.post (.dlaqr1 (fun _ => .pure trivial) _ _ _ _ _ _ _ _) (dlaqr1_length _ _ _ _ _ _ _ _)) fun l' hl' => ?_
    rw [toFa2d_short (hl'.trans hl) (by omega), pure_bind]
    refine .bind' (.get2 _ _ _) fun al => .bind (qr5Larfg_short (by omega) _ _ _ (from2_short ⟨rfl, rfl, rfl⟩ _ _)) fun r hr => ?_
    exact .pure hr
  · exact .bind' (.get2 _ _ _) fun _ => .bind' (.get2 _ _ _) fun _ => .bind (Ends.post (.set2 _ _ _ _) (set2_shape _ _ _ _)) fun v hv =>
      .bind (qr5Larfg_short (by omega) _ _ _ (from2_short (hs.shape hv) _ _)) fun r hr =>
      .bind' (.set2 _ _ _ _) fun _ => .bind' (.set2 _ _ _ _) fun _ => .pure hr

theorem qr5Bmp22Refl_dies (s : Qr5S F) (hs : Short p.ldv s.v) : Ends (qr5Bmp22Refl p (p.ktop - 1) 1 s) fun _ => False := by
  unfold qr5Bmp22Refl
  rw [if_pos rfl]
  refine .bind' (.from2 _ _ _) fun htmp => .bind (Ends.post (.from2 _ _ _) (from2_short hs _ _)) fun l hl =>
    .bind (Ends.post (.dlaqr1 (fun _ => .pure trivial) _ _ _ _ _ _ _ _) (dlaqr1_length _ _ _ _ _ _ _ _)) fun l' hl' => ?_
  rw [toFa2d_short (hl'.trans hl) (by omega), pure_bind]
  exact .bind' (.get2 _ _ _) fun al => .bind (qr5Larfg_dies (by omega) _ _ ⟨rfl, rfl, rfl⟩) fun r hr => hr.elim

omit h2 in
/-- The rest of the 2-by-2 step keeps the array of reflectors. -/
theorem qr5Bmp22_ends (incol jtop jbot krcol m22 : Int) (s : Qr5S F) {P : FA F → Prop}
    (h : Ends (qr5Bmp22Refl p (krcol + 2 * (m22 - 1)) m22 s) fun r => P r.2) : Ends (qr5Bmp22 p incol jtop jbot krcol m22 s) fun s => P s.v := by
  unfold qr5Bmp22
  refine .bind h fun r hr => .bind' (.get2 _ _ _) fun _ => .bind' (.get2 _ _ _) fun _ => .bind' (.refl2Cols _ _ _ _ _ _ _ _) fun _ =>
    .bind' (.refl2Rows _ _ _ _ _ _ _ _) fun _ => .ite (fun _ => .bind' (.qr5Negligible _ _ _) fun _ => ?_) fun _ => .bind' (.pure trivial) fun _ => ?_
  all_goals
    exact .ite (fun _ => .bind' (.refl2Cols _ _ _ _ _ _ _ _) fun _ => .pure hr) fun _ =>
      .ite (fun _ => .bind' (.refl2Cols _ _ _ _ _ _ _ _) fun _ => .pure hr) fun _ => .pure hr

omit h2 in
theorem qr5Bulge_ends (jtop krcol : Int) (s : Qr5S F) (m : Int) {P : FA F → Prop}
    (h : Ends (qr5Refl3 p (krcol + 2 * (m - 1)) m s) fun r => P r.2.1) : Ends (qr5Bulge p jtop krcol s m) fun s => P s.v := by
  unfold qr5Bulge
  refine .bind h fun r hr => .bind' (.get2 _ _ _) fun _ => .bind' (.get2 _ _ _) fun _ => .bind' (.get2 _ _ _) fun _ =>
    .bind' (.refl3Cols _ _ _ _ _ _ _ _ _ _ _) fun _ => .bind' (.refl3Rows _ _ _ _ _ _ _ _ _ _ _) fun _ =>
    .ite (fun _ => .bind' (.pure trivial) fun _ => .pure hr) fun _ => .bind' (.qr5Negligible _ _ _) fun _ => .pure hr

omit h2 in
theorem qr5Left_ends (krcol jbot : Int) (s : Qr5S F) (m : Int) {P : FA F → Prop} (h : P s.v) : Ends (qr5Left p krcol jbot s m) fun s => P s.v := by
  unfold qr5Left
  exact .bind' (.get2 _ _ _) fun _ => .bind' (.get2 _ _ _) fun _ => .bind' (.get2 _ _ _) fun _ => .bind' (.refl3Rows _ _ _ _ _ _ _ _ _ _ _) fun _ => .pure h

omit h2 in
theorem qr5AccU_ends (incol krcol mbot : Int) (s : Qr5S F) (m : Int) {P : FA F → Prop} (h : P s.v) :
    Ends (qr5AccU p incol krcol mbot s m) fun s => P s.v := by
  unfold qr5AccU
  exact .bind' (.get2 _ _ _) fun _ => .bind' (.get2 _ _ _) fun _ => .bind' (.get2 _ _ _) fun _ => .bind' (.refl3Cols _ _ _ _ _ _ _ _ _ _ _) fun _ => .pure h

omit h2 in
theorem qr5AccZ_ends (krcol : Int) (s : Qr5S F) (m : Int) {P : FA F → Prop} (h : P s.v) : Ends (qr5AccZ p krcol s m) fun s => P s.v := by
  unfold qr5AccZ
  exact .bind' (.get2 _ _ _) fun _ => .bind' (.get2 _ _ _) fun _ => .bind' (.get2 _ _ _) fun _ => .bind' (.refl3Cols _ _ _ _ _ _ _ _ _ _ _) fun _ => .pure h

omit h2 in
/-- A whole step, from what its 2-by-2 bulge and its chain of bulges do to the array of reflectors. -/
theorem qr5Krcol_ends (incol jtop : Int) (s : Qr5S F) (krcol : Int) {P Q : FA F → Prop}
    (hb : ∀ m22, m22 = min p.nbmps ((p.kbot - krcol - 1).tdiv 2) + 1 →
      (m22 ≤ p.nbmps ∧ krcol + 2 * (m22 - 1) = p.kbot - 2 → Ends (qr5Bmp22Refl p (krcol + 2 * (m22 - 1)) m22 s) fun r => P r.2) ∧
      (¬ (m22 ≤ p.nbmps ∧ krcol + 2 * (m22 - 1) = p.kbot - 2) → P s.v))
    (hl : ∀ s : Qr5S F, P s.v → Ends (forDown (max 1 ((p.ktop - krcol).tdiv 2 + 1)) (min p.nbmps ((p.kbot - krcol - 1).tdiv 2)) s (qr5Bulge p jtop krcol))
      fun s => Q s.v) :
    Ends (qr5Krcol p incol jtop s krcol) fun s => Q s.v := by
  unfold qr5Krcol
  dsimp only
  obtain ⟨hb1, hb2⟩ := hb _ rfl
  have tail : ∀ jbot (s : Qr5S F), P s.v → Ends (do
      let s ← forDown (max 1 ((p.ktop - krcol).tdiv 2 + 1)) (min p.nbmps ((p.kbot - krcol - 1).tdiv 2)) s (qr5Bulge p jtop krcol)
      let s ← forDown (max 1 ((p.ktop - krcol).tdiv 2 + 1)) (min p.nbmps ((p.kbot - krcol - 1).tdiv 2)) s (qr5Left p krcol jbot)
      if p.accum = true then
        forDown (max 1 ((p.ktop - krcol).tdiv 2 + 1)) (min p.nbmps ((p.kbot - krcol - 1).tdiv 2)) s
          (qr5AccU p incol krcol (min p.nbmps ((p.kbot - krcol - 1).tdiv 2)))
      else if p.wantz = true then
        forDown (min p.nbmps ((p.kbot - krcol - 1).tdiv 2)) (max 1 ((p.ktop - krcol).tdiv 2 + 1)) s (qr5AccZ p krcol)
      else pure s) fun s => Q s.v := by
    intro jbot s hs
    refine .bind (hl s hs) fun s hs => .bind (.forDown hs fun s i _ _ hs => qr5Left_ends _ _ _ _ hs) fun s hs => ?_
    exact .ite (fun _ => .forDown hs fun s i _ _ hs => qr5AccU_ends _ _ _ _ _ hs) fun _ =>
      .ite (fun _ => .forDown hs fun s i _ _ hs => qr5AccZ_ends _ _ _ hs) fun _ => .pure hs
  refine .ite (fun hc => .bind (qr5Bmp22_ends _ _ _ _ _ _ (hb1 ⟨by omega, hc.2⟩)) fun s hs => tail _ s hs) fun hc => .bind (.pure (hb2 fun h => hc ⟨by omega, h.2⟩)) fun s hs => tail _ s hs

/-- A step above the top of the active block keeps the array empty. -/
theorem qr5Krcol_short (incol jtop : Int) (s : Qr5S F) (krcol : Int) (hs : Short p.ldv s.v) :
    Ends (qr5Krcol p incol jtop s krcol) fun s => Short p.ldv s.v :=
  qr5Krcol_ends incol jtop s krcol (fun _ _ => ⟨fun _ => qr5Bmp22Refl_short h2 _ _ _ hs, fun _ => hs⟩) fun s hs =>
    .forDown hs fun s m _ _ hs => qr5Bulge_ends _ _ _ _ (qr5Refl3_short h2 _ _ _ hs)

/-- The step that starts the first bulge panics. -/
theorem qr5Krcol_dies (hnb : 1 ≤ p.nbmps) (hk : p.ktop < p.kbot) (incol jtop : Int) (s : Qr5S F) (hs : Short p.ldv s.v) :
    Ends (qr5Krcol p incol jtop s (p.ktop - 1)) fun _ => False := by
  have e1 : (p.ktop - (p.ktop - 1)).tdiv 2 = 0 := by rw [show p.ktop - (p.ktop - 1) = 1 by ring]; rfl
  rcases (by omega : p.kbot = p.ktop + 1 ∨ p.ktop + 2 ≤ p.kbot) with hb | hb
  · have e2 : (p.kbot - (p.ktop - 1) - 1).tdiv 2 = 0 := by rw [show p.kbot - (p.ktop - 1) - 1 = 1 by omega]; rfl
    refine qr5Krcol_ends (P := fun _ => False) (Q := fun _ => False) incol jtop s _ (fun m22 hm => ?_) fun s hs => hs.elim
    rw [e2] at hm
    obtain rfl : m22 = 1 := by omega
    refine ⟨fun _ => ?_, fun h => h ⟨by omega, by omega⟩⟩
    rw [show p.ktop - 1 + 2 * (1 - 1) = p.ktop - 1 by ring]
    exact qr5Bmp22Refl_dies h2 s hs
  · have e2 : 1 ≤ (p.kbot - (p.ktop - 1) - 1).tdiv 2 := by
      rw [Int.tdiv_eq_ediv_of_nonneg (by omega)]; omega
    refine qr5Krcol_ends (P := Short p.ldv) (Q := fun _ => False) incol jtop s _ (fun m22 hm => ⟨fun _ => qr5Bmp22Refl_short h2 _ _ _ hs, fun _ => hs⟩) fun s hs => ?_
    rw [e1, show max (1 : Int) (0 + 1) = 1 by rfl]
    refine Ends.foldlM_dies _ 1 (List.mem_reverse.2 (mem_irange.2 ⟨le_rfl, by omega⟩)) (P := fun s : Qr5S F => Short p.ldv s.v) hs
      (fun s m hs => qr5Bulge_ends _ _ _ _ (qr5Refl3_short h2 _ _ _ hs)) fun s hs => ?_
    refine qr5Bulge_ends _ _ _ _ (P := fun _ => False) ?_
    rw [show p.ktop - 1 + 2 * (1 - 1) = p.ktop - 1 by ring]
    exact qr5Refl3_dies h2 s hs

/-! ### The first step -/

section first
variable {c : Nat} {r : Nat} (hr : p.ldv = r) (hc1 : p.nbmps ≤ c) (hc2 : c ≤ 2 * p.nbmps - 2)
include hr hc1 hc2

theorem first_from2 {s : Qr5S F} (hv : IsMatrix s.v r c) : ∃ c' : Nat, 1 ≤ c' ∧ (c' : Int) < p.nbmps ∧ r * c' < 2 ^ 31 ∧
    Ends (s.v.from2 1 p.nbmps) fun l => l.length = r * c' := by
  have e := C07_from2 hv (i := 1) (j := p.nbmps) le_rfl (by omega) (by omega) hc1
  obtain ⟨b, hb⟩ : ∃ b : Nat, p.nbmps = b + 1 := ⟨(p.nbmps - 1).toNat, by omega⟩
  have hs := hv.small
  refine ⟨c - b, by omega, by omega, lt_of_le_of_lt (Nat.mul_le_mul_left _ (by omega)) hs, ?_⟩
  rw [e]
  refine .pure ?_
  rw [List.length_drop, hv.length, hb, show ((((b : Nat) + 1 - 1 : Int) * r + (1 - 1)).toNat) = b * r by
    have : (((b : Nat) + 1 - 1 : Int) * r + (1 - 1)) = ((b * r : Nat) : Int) := by push_cast; ring
    rw [this]; rfl, Nat.mul_sub, Nat.mul_comm b r]

theorem first_larfg {l : List F} {c' : Nat} (h1 : 1 ≤ c') (h3 : (c' : Int) < p.nbmps) (h4 : r * c' < 2 ^ 31) (hs : r * c < 2 ^ 31)
    (hl : l.length = r * c') {α : Type} {Q : α → Prop} (n : Int) (f : F × FA F → R α) (hf : ∀ x, Short p.ldv x.2 → Ends (f x) Q) :
    Ends (do
      let v ← ToFA.toFa2d (F := F) l p.ldv
      let beta ← v.get2 1 p.nbmps
      qr5Larfg p.ldv n p.nbmps beta v >>= f) Q := by
  rw [hr, toFa2d_matrix hl (by omega) h4, pure_bind]
  refine .bind' (.get2 _ _ _) fun be => .bind (qr5Larfg_short (by omega) _ _ _ ?_) fun x hx => hf x (hr ▸ hx)
  rw [from2_beyond (r := r) (c := c') ⟨rfl, rfl, hl, h4⟩ (by omega) h1 (by norm_num) h3]
  · exact Post.pure rfl
  · have hb : ((r * c : Nat) : Int) < 2147483648 := by exact_mod_cast hs
    have : (p.nbmps - 1) * r ≤ (c - 1) * (r : Int) := by
      apply mul_le_mul_of_nonneg_right (by omega) (by omega)
    push_cast at hb
    have e : ((c : Int) - 1) * r = r * c - r := by ring
    have : (2 : Int) ≤ r := by omega
    norm_num
    omega

theorem first_refl3 {s : Qr5S F} (hv : IsMatrix s.v r c) : Ends (qr5Refl3 p (p.ktop - 1) p.nbmps s) fun x => Short p.ldv x.2.1 := by
  obtain ⟨c', h1, h3, h4, h5⟩ := first_from2 h2 hr hc1 hc2 hv
  unfold qr5Refl3
  rw [if_pos rfl]
  refine .bind' (.from2 _ _ _) fun htmp => .bind h5 fun l hl =>
    .bind (Ends.post (.dlaqr1 (fun _ => .pure trivial) _ _ _ _ _ _ _ _) (dlaqr1_length _ _ _ _ _ _ _ _)) fun l' hl' => ?_
  exact first_larfg h2 hr hc1 hc2 h1 h3 h4 hv.small (hl'.trans hl) 3 _ fun x hx => .pure hx

theorem first_refl2 {s : Qr5S F} (hv : IsMatrix s.v r c) : Ends (qr5Bmp22Refl p (p.ktop - 1) p.nbmps s) fun x => Short p.ldv x.2 := by
  obtain ⟨c', h1, h3, h4, h5⟩ := first_from2 h2 hr hc1 hc2 hv
  unfold qr5Bmp22Refl
  rw [if_pos rfl]
  refine .bind' (.from2 _ _ _) fun htmp => .bind h5 fun l hl =>
    .bind (Ends.post (.dlaqr1 (fun _ => .pure trivial) _ _ _ _ _ _ _ _) (dlaqr1_length _ _ _ _ _ _ _ _)) fun l' hl' => ?_
  exact first_larfg h2 hr hc1 hc2 h1 h3 h4 hv.small (hl'.trans hl) 2 _ fun x hx => .pure hx

/-- The first step empties the array of reflectors. -/
theorem first_krcol (hk : p.ktop < p.kbot) (incol jtop : Int) (s : Qr5S F) (hv : IsMatrix s.v r c) :
    Ends (qr5Krcol p incol jtop s (p.ktop - 2 * p.nbmps + 1)) fun s => Short p.ldv s.v := by
  have e1 : (p.ktop - (p.ktop - 2 * p.nbmps + 1)).tdiv 2 = p.nbmps - 1 := by
    rw [Int.tdiv_eq_ediv_of_nonneg (by omega)]; omega
  rcases (by omega : p.kbot = p.ktop + 1 ∨ p.ktop + 2 ≤ p.kbot) with hb | hb
  · have e2 : (p.kbot - (p.ktop - 2 * p.nbmps + 1) - 1).tdiv 2 = p.nbmps - 1 := by
      rw [Int.tdiv_eq_ediv_of_nonneg (by omega)]; omega
    refine qr5Krcol_ends (P := Short p.ldv) incol jtop s _ (fun m22 hm => ?_) fun s hs => ?_
    · rw [e2] at hm
      obtain rfl : m22 = p.nbmps := by omega
      refine ⟨fun _ => ?_, fun h => absurd ⟨le_rfl, by omega⟩ h⟩
      rw [show p.ktop - 2 * p.nbmps + 1 + 2 * (p.nbmps - 1) = p.ktop - 1 by ring]
      exact first_refl2 h2 hr hc1 hc2 hv
    · exact .forDown hs fun s m _ _ hs => qr5Bulge_ends _ _ _ _ (qr5Refl3_short h2 _ _ _ hs)
  · have e2 : p.nbmps ≤ (p.kbot - (p.ktop - 2 * p.nbmps + 1) - 1).tdiv 2 := by
      rw [Int.tdiv_eq_ediv_of_nonneg (by omega)]; omega
    refine qr5Krcol_ends (P := fun v => IsMatrix v r c) incol jtop s _ (fun m22 hm => ⟨fun h => by omega, fun _ => hv⟩) fun s hs => ?_
    rw [e1, show max 1 (p.nbmps - 1 + 1) = p.nbmps by omega, min_eq_left e2]
    unfold forDown
    rw [irange_cons le_rfl, irange_empty (by omega)]
    simp only [List.reverse_cons, List.reverse_nil, List.nil_append, List.foldlM_cons, List.foldlM_nil, bind_pure]
    refine qr5Bulge_ends _ _ _ _ (P := Short p.ldv) ?_
    rw [show p.ktop - 2 * p.nbmps + 1 + 2 * (p.nbmps - 1) = p.ktop - 1 by ring]
    exact first_refl3 h2 hr hc1 hc2 hs

theorem first_incol (hk : p.ktop < p.kbot) (s : Qr5S F) (hv : IsMatrix s.v r c) :
    Ends (qr5Incol p s (p.ktop - 2 * p.nbmps + 1)) fun _ => False := by
  unfold qr5Incol
  dsimp only
  have key : ∀ jtop (s : Qr5S F), IsMatrix s.v r c → Ends (forUp (p.ktop - 2 * p.nbmps + 1) (min (p.ktop - 2 * p.nbmps + 1 + 2 * p.nbmps - 1) (p.kbot - 2)) s
      (qr5Krcol p (p.ktop - 2 * p.nbmps + 1) jtop)) fun _ => False := by
    intro jtop s hv
    rw [forUp_cons (by omega)]
    refine .bind (first_krcol h2 hr hc1 hc2 hk _ _ s hv) fun s hs => ?_
    exact Ends.foldlM_dies _ (p.ktop - 1) (mem_irange.2 ⟨by omega, by omega⟩) (P := fun s : Qr5S F => Short p.ldv s.v) hs
      (fun s m hs => qr5Krcol_short h2 _ _ s m hs) fun s hs => qr5Krcol_dies h2 (by omega) hk _ _ s hs
  refine .ite (fun _ => .bind' (.dlaset _ _ _ _ _ _) fun u => ?_) fun _ => .bind' (.pure trivial) fun u => ?_
  all_goals exact .bind (key _ _ hv) fun _ h => h.elim

theorem main_dies (hk : p.ktop < p.kbot) (nshfts : Int) (s : Qr5S F) (hv : IsMatrix s.v r c) :
    Ends (qr5Main p nshfts s) fun _ => False := by
  unfold qr5Main
  refine .bind' (.forStep fun x i => ?_) fun sh => ?_
  · unfold qr5Shuffle
    exact .ite (fun _ => .pure trivial) fun _ => .pure trivial
  obtain ⟨sr, si⟩ := sh
  have hs : ((r * c : Nat) : Int) < 2147483648 := by exact_mod_cast hv.small
  have hcr : c ≤ r * c := Nat.le_mul_of_pos_left _ (by omega)
  have hd : asUsize p.nbmps = p.nbmps.toNat := asUsize_nonneg (by omega) (by unfold FitsI32; omega)
  have key : ∀ s : Qr5S F, IsMatrix s.v r c → Ends (forStep (p.ktop - 2 * p.nbmps + 1) (p.kbot - 2) (2 * asUsize p.nbmps) s (qr5Incol p)) fun _ => False := by
    intro s hv
    unfold forStep irangeStep
    rw [if_neg (by omega), pure_bind]
    obtain ⟨q, hq⟩ : ∃ q, ((p.kbot - 2 - (p.ktop - 2 * p.nbmps + 1) + 1).toNat + 2 * asUsize p.nbmps - 1) / (2 * asUsize p.nbmps) = q + 1 := by
      refine ⟨((p.kbot - 2 - (p.ktop - 2 * p.nbmps + 1) + 1).toNat + 2 * asUsize p.nbmps - 1) / (2 * asUsize p.nbmps) - 1, ?_⟩
      have : 0 < ((p.kbot - 2 - (p.ktop - 2 * p.nbmps + 1) + 1).toNat + 2 * asUsize p.nbmps - 1) / (2 * asUsize p.nbmps) :=
        Nat.div_pos (by omega) (by omega)
      omega
    rw [hq, List.range_succ_eq_map, List.map_cons, List.foldlM_cons]
    simp only [Nat.cast_zero, zero_mul, add_zero]
    exact .bind (first_incol h2 hr hc1 hc2 hk s hv) fun _ h => h.elim
  refine .ite (fun _ => .bind' (.set2 _ _ _ _) fun h => ?_) fun _ => .bind' (.pure trivial) fun h => ?_
  all_goals exact key _ hv

end first
end

/-- **C56.** Four or more shifts: `dlaqr5` panics, in both build profiles, whatever the matrix, the shifts and the other arguments, as soon
as `v` has the documented shape (`ldv >= 2` rows, one column for each of the `nshfts / 2` bulges; up to `nshfts / 2 - 2` further columns do not help). -/
theorem C56_dlaqr5_many_shifts (wantt wantz : Bool) (kacc22 n ktop kbot nshfts : Int) (hn : 4 ≤ nshfts) (hk : ktop < kbot) (sr si : List F) (h : FA F)
    (ldh : Int) (iloz ihiz : Int) (z : FA F) (ldz : Int) (v : FA F) (ldv c : Nat) (hv : IsMatrix v ldv c) (h2 : 2 ≤ ldv)
    (hc1 : nshfts / 2 ≤ c) (hc2 : c ≤ 2 * (nshfts / 2) - 2) (u : FA F) (ldu : Int) (nv : Int) (wv : FA F) (ldwv : Int) (nh : Int) (wh : FA F)
    (ldwh : Int) (pr : Profile) :
    ∃ why, dlaqr5 (F := F) wantt wantz kacc22 n ktop kbot nshfts sr si h ldh iloz ihiz z ldz v ldv u ldu nv wv ldwv nh wh ldwh pr = .panic why := by
  have key : Ends (dlaqr5 (F := F) wantt wantz kacc22 n ktop kbot nshfts sr si h ldh iloz ihiz z ldz v (ldv : Int) u ldu nv wv ldwv nh wh ldwh)
      fun _ => False := by
    unfold dlaqr5
    simp only [show ∀ (a : FA F) ld, ToFA.toFa2d (F := F) a ld = pure a from fun _ _ => rfl, pure_bind]
    rw [if_neg (by omega), if_neg (by omega)]
    have hb : (qr5Params (F := F) wantt wantz kacc22 n ktop kbot nshfts ldh iloz ihiz ldz ldv ldu nv ldwv nh ldwh).nbmps = nshfts / 2 := by
      show (nshfts - nshfts.tmod 2).tdiv 2 = _
      rw [Int.tmod_eq_emod_of_nonneg (by omega), Int.tdiv_eq_ediv_of_nonneg (by omega)]
      omega
    refine .bind (main_dies (p := qr5Params wantt wantz kacc22 n ktop kbot nshfts ldh iloz ihiz ldz ldv ldu nv ldwv nh ldwh) (r := ldv) (c := c)
      (by show (2 : Int) ≤ ldv; omega) rfl (by rw [hb]; exact hc1) (by rw [hb]; exact hc2) hk nshfts _ hv) fun _ h => h.elim
  rcases key pr with h | ⟨_, _, h⟩
  · exact h
  · exact h.elim

/-- The hypotheses are met: a matrix of order 6, four shifts, a 3-by-2 array `v`. -/
example (h z u wv wh : FA F) (x : F) (pr : Profile) :
    ∃ why, dlaqr5 (F := F) true true 1 6 1 6 4 [x, x, x, x] [x, x, x, x] h 6 1 6 z 6 (⟨[x, x, x, x, x, x], 3, 2, nan⟩ : FA F) (3 : Nat) u 8 6 wv 6 6 wh 8 pr
      = .panic why :=
  C56_dlaqr5_many_shifts true true 1 6 1 6 4 (by norm_num) (by norm_num) _ _ _ _ _ _ _ _ _ 3 2 ⟨rfl, rfl, rfl, by norm_num⟩ (by norm_num) (by norm_num)
    (by norm_num) _ _ _ _ _ _ _ _ pr

end Verif

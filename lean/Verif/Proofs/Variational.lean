import Verif.Proofs.ConjGrad
import Verif.Proofs.Omini

/-!
# Lemmas on the variational solver
-/
namespace Verif.Model
open Verif.Spec Verif.Props Matrix

/-- What a product with the scattering matrix does without symmetries: the same matrix `a c` for every component. -/
structure MulActs (mu temps n : Nat) (ex : List Nat) (mul : VBte ℝ → VBte ℝ) (a : Nat → Nat → Nat → ℝ) : Prop where
  shape : ∀ x, Shape mu temps n ex x → Shape mu temps n ex (mul x)
  val : ∀ x, Shape mu temps n ex x → ∀ c < mu * temps, ∀ i < 3, ∀ s ∈ freeStates n ex,
    (mul x).get c i s = ∑ t ∈ freeStates n ex, a c s t * x.get c i t

/-- The values on the states that are not excluded. -/
def vecOf (n : Nat) (ex : List Nat) (x : VBte ℝ) (c i : Nat) : freeStates n ex → ℝ := fun s => x.get c i s.1

/-- The matrix on the states that are not excluded. -/
def matOf (n : Nat) (ex : List Nat) (a : Nat → Nat → ℝ) : Matrix (freeStates n ex) (freeStates n ex) ℝ :=
  fun s t => a s.1 t.1

theorem dot_vec (S : Finset Nat) (x y : Nat → ℝ) :
    (fun s : S => x s.1) ⬝ᵥ (fun s : S => y s.1) = ∑ s ∈ S, x s * y s := by
  unfold dotProduct
  rw [Finset.sum_coe_sort S (fun s => x s * y s)]

theorem mulVec_vec (n : Nat) (ex : List Nat) (a : Nat → Nat → ℝ) (x : Nat → ℝ) :
    matOf n ex a *ᵥ (fun s : freeStates n ex => x s.1) =
      fun s : freeStates n ex => ∑ t ∈ freeStates n ex, a s.1 t * x t := by
  funext s
  unfold mulVec
  exact dot_vec (freeStates n ex) (fun t => a s.1 t) x

theorem MulActs.vec {mu temps n : Nat} {ex : List Nat} {mul : VBte ℝ → VBte ℝ} {a : Nat → Nat → Nat → ℝ}
    (h : MulActs mu temps n ex mul a) {x : VBte ℝ} (hx : Shape mu temps n ex x) {c i : Nat} (hc : c < mu * temps) (hi : i < 3) :
    vecOf n ex (mul x) c i = matOf n ex (a c) *ᵥ vecOf n ex x c i := by
  unfold vecOf
  rw [mulVec_vec n ex (a c) (fun s => x.get c i s)]
  funext s
  exact h.val x hx c hc i hi s.1 s.2

theorem posDef_symm {n : Nat} {ex : List Nat} {a : Nat → Nat → ℝ} (h : PosDef (freeStates n ex) a) (s t : freeStates n ex) :
    matOf n ex a s t = matOf n ex a t s := h.symm s.1 s.2 t.1 t.2

theorem posDef_pos {n : Nat} {ex : List Nat} {a : Nat → Nat → ℝ} (h : PosDef (freeStates n ex) a) (x : freeStates n ex → ℝ)
    (hx : x ≠ 0) : 0 < x ⬝ᵥ matOf n ex a *ᵥ x := by
  classical
  obtain ⟨s, hs⟩ : ∃ s, x s ≠ 0 := by
    by_contra hc
    exact hx (funext fun s => not_not.mp fun h' => hc ⟨s, h'⟩)
  set y : Nat → ℝ := fun t => if ht : t ∈ freeStates n ex then x ⟨t, ht⟩ else 0 with hy
  have hxy : x = fun t : freeStates n ex => y t.1 := by
    funext t
    simp only [hy, dif_pos t.2]
  have h1 := h.pos y ⟨s.1, s.2, by rw [hxy] at hs; exact hs⟩
  rw [hxy, mulVec_vec, dot_vec (freeStates n ex) y (fun s => ∑ t ∈ freeStates n ex, a s t * y t)]
  calc 0 < _ := h1
    _ = _ := by
      apply Finset.sum_congr rfl
      intro u _
      rw [Finset.mul_sum]
      exact Finset.sum_congr rfl fun v _ => by ring

theorem matNat_one (i j : Nat) (hi : i < 3) (hj : j < 3) : matNat (1 : Mat3) i j = if i = j then 1 else 0 := by
  unfold matNat
  rw [dif_pos ⟨hi, hj⟩, Matrix.one_apply]
  simp only [Fin.mk.injEq]

/-- The scalar product without symmetries. -/
theorem bteDot_val {B : BandView} {n size : Nat} {sched : Nat → List (List Nat)} (hB : PlainRun B n size sched)
    {mu temps : Nat} {ex : List Nat} {x y : VBte ℝ} (hx : Shape mu temps n ex x) (hy : Shape mu temps n ex y) :
    ∃ f, bteDot B size x y = .ok f ∧ ∀ c i, i < 3 → f c i = vecOf n ex x c i ⬝ᵥ vecOf n ex y c i := by
  obtain ⟨res, h1, h2, h3⟩ := C48_dot_partial x y B.irr B.toBte (fun is => (B.rots is).map matNat) size hB.procs
    (by rw [hB.irr, List.length_range]; exact hB.fits)
    (by unfold VBte.numRows; rw [hx.numCalc, hy.numCalc, hx.dim, hy.dim]) (by rw [hx.states, hy.states]) hy.dim
    (by intro is _; rw [hB.bte])
  cases res with
  | nil => have := hB.procs; simp at h2; omega
  | cons f t =>
    refine ⟨f, ?_, ?_⟩
    · unfold bteDot
      rw [h1]
      rfl
    · intro c i hi
      rw [h3 f (by simp) c i hi]
      unfold vecOf
      rw [dot_vec (freeStates n ex) (fun s => x.get c i s) (fun s => y.get c i s)]
      have e : ((B.irr.filter fun is => B.toBte is ∉ x.exclude).flatMap fun is => ((B.rots is).map matNat).map fun R =>
          (R i 0 * x.get c 0 (B.toBte is) + R i 1 * x.get c 1 (B.toBte is) + R i 2 * x.get c 2 (B.toBte is)) *
          (R i 0 * y.get c 0 (B.toBte is) + R i 1 * y.get c 1 (B.toBte is) + R i 2 * y.get c 2 (B.toBte is))) =
          ((List.range n).filter fun s => s ∉ ex).map fun s => x.get c i s * y.get c i s := by
        rw [hB.irr, hx.ex]
        simp only [hB.bte, hB.rots, List.map_cons, List.map_nil]
        rw [show ∀ (g : Nat → ℝ) (l : List Nat), l.flatMap (fun t => [g t]) = l.map g from fun g l => by
          induction l with
          | nil => rfl
          | cons u l ih => rw [List.flatMap_cons, ih]; rfl]
        apply List.map_congr_left
        intro s _
        rw [matNat_one i 0 hi (by norm_num), matNat_one i 1 hi (by norm_num), matNat_one i 2 hi (by norm_num)]
        obtain rfl | rfl | rfl : i = 0 ∨ i = 1 ∨ i = 2 := by omega
        all_goals simp
      rw [e]
      rfl

theorem scaleCalc_shape {mu temps n : Nat} {ex : List Nat} {v : VBte ℝ} (h : Shape mu temps n ex v) (m : Nat → Nat → ℝ) :
    Shape mu temps n ex (v.scaleCalc m) := ⟨h.mu, h.temps, h.dim, h.states, h.ex⟩

theorem scaleCalc_get {mu temps n : Nat} {ex : List Nat} {v : VBte ℝ} (h : Shape mu temps n ex v) (m : Nat → Nat → ℝ)
    (c i s : Nat) (hi : i < 3) : (v.scaleCalc m).get c i s = v.get c i s * m c i :=
  (C47_elementwise_partial v id id m c i s (by rw [h.dim]; exact hi)).2.1

/-- All three vectors of the run. -/
structure CgShape (mu temps n : Nat) (ex : List Nat) (s : CgState) : Prop where
  f : Shape mu temps n ex s.f
  r : Shape mu temps n ex s.r
  d : Shape mu temps n ex s.d

theorem free_not_ex {n : Nat} {ex : List Nat} (s : freeStates n ex) : s.1 ∉ ex := by
  have := s.2
  unfold freeStates at this
  exact (Finset.mem_filter.mp this).2

/-- One step is a step of the conjugate gradient method for every calculation and component. -/
theorem cgStep_val {mu temps n : Nat} {ex : List Nat} {mul : VBte ℝ → VBte ℝ} {a : Nat → Nat → Nat → ℝ}
    (hmul : MulActs mu temps n ex mul a) {B : BandView} {size : Nat} {sched : Nat → List (List Nat)}
    (hB : PlainRun B n size sched) {s : CgState} (hs : CgShape mu temps n ex s) :
    ∃ s', cgStep mul (bteDot B size) s = .ok s' ∧ CgShape mu temps n ex s' ∧
      ∀ c < mu * temps, ∀ i < 3,
        let f := vecOf n ex s.f c i
        let r := vecOf n ex s.r c i
        let d := vecOf n ex s.d c i
        let A := matOf n ex (a c)
        vecOf n ex s'.f c i = ((if d ⬝ᵥ A *ᵥ d ≠ 0 then (r ⬝ᵥ r) / (d ⬝ᵥ A *ᵥ d) else 0) • d) + f ∧
        vecOf n ex s'.r c i = r - (if d ⬝ᵥ A *ᵥ d ≠ 0 then (r ⬝ᵥ r) / (d ⬝ᵥ A *ᵥ d) else 0) • A *ᵥ d ∧
        vecOf n ex s'.d c i = ((if r ⬝ᵥ r ≠ 0 then (vecOf n ex s'.r c i ⬝ᵥ vecOf n ex s'.r c i) / (r ⬝ᵥ r) else 0) • d) +
          vecOf n ex s'.r c i := by
  have hw := hmul.shape s.d hs.d
  obtain ⟨rr, h1, h1v⟩ := bteDot_val hB hs.r hs.r
  obtain ⟨dw, h2, h2v⟩ := bteDot_val hB hs.d hw
  obtain ⟨fN, h3, h3s, h3v⟩ := base_same (· + ·) (scaleCalc_shape hs.d (cgRatio rr dw)) hs.f
  obtain ⟨rN, h4, h4s, h4v⟩ := base_same (· - ·) hs.r (scaleCalc_shape hw (cgRatio rr dw))
  obtain ⟨rrN, h5, h5v⟩ := bteDot_val hB h4s h4s
  obtain ⟨dN, h6, h6s, h6v⟩ := base_same (· + ·) (scaleCalc_shape hs.d (cgRatio rrN rr)) h4s
  refine ⟨⟨fN, rN, dN⟩, ?_, ⟨h3s, h4s, h6s⟩, ?_⟩
  · unfold cgStep
    simp only [h1, h2, h3, h4, h5, h6, Outcome.bind_eq, Outcome.bind_ok]
    rfl
  · intro c hc i hi
    simp only
    have hAd := hmul.vec hs.d hc hi
    have ha : cgRatio rr dw c i = if vecOf n ex s.d c i ⬝ᵥ matOf n ex (a c) *ᵥ vecOf n ex s.d c i ≠ 0 then
        (vecOf n ex s.r c i ⬝ᵥ vecOf n ex s.r c i) /
          (vecOf n ex s.d c i ⬝ᵥ matOf n ex (a c) *ᵥ vecOf n ex s.d c i) else 0 := by
      unfold cgRatio
      rw [h1v c i hi, h2v c i hi, hAd]
    have hb : cgRatio rrN rr c i = if vecOf n ex s.r c i ⬝ᵥ vecOf n ex s.r c i ≠ 0 then
        (vecOf n ex rN c i ⬝ᵥ vecOf n ex rN c i) / (vecOf n ex s.r c i ⬝ᵥ vecOf n ex s.r c i) else 0 := by
      unfold cgRatio
      rw [h1v c i hi, h5v c i hi]
    rw [← ha, ← hb, ← hAd]
    refine ⟨?_, ?_, ?_⟩
    · funext t
      show fN.get c i t.1 = _
      rw [h3v, if_neg (free_not_ex t), scaleCalc_get hs.d _ c i _ hi]
      simp only [Pi.add_apply, Pi.smul_apply, smul_eq_mul, vecOf]
      ring
    · funext t
      show rN.get c i t.1 = _
      rw [h4v, if_neg (free_not_ex t), scaleCalc_get hw _ c i _ hi]
      simp only [Pi.sub_apply, Pi.smul_apply, smul_eq_mul, vecOf]
      ring
    · funext t
      show dN.get c i t.1 = _
      rw [h6v, if_neg (free_not_ex t), scaleCalc_get hs.d _ c i _ hi]
      simp only [Pi.add_apply, Pi.smul_apply, smul_eq_mul, vecOf]
      ring

/-- The steps of a run. -/
noncomputable def cgIter (mul : VBte ℝ → VBte ℝ) (dotp : VBte ℝ → VBte ℝ → Outcome (Nat → Nat → ℝ)) (s0 : CgState) :
    Nat → CgState
  | 0 => s0
  | k + 1 => match cgStep mul dotp (cgIter mul dotp s0 k) with
    | .ok s => s
    | _ => s0

section
variable {mu temps n : Nat} {ex : List Nat} {mul : VBte ℝ → VBte ℝ} {a : Nat → Nat → Nat → ℝ}
  (hmul : MulActs mu temps n ex mul a) {B : BandView} {size : Nat} {sched : Nat → List (List Nat)}
  (hB : PlainRun B n size sched) {b f0 : VBte ℝ} (hb : Shape mu temps n ex b) (hf0 : Shape mu temps n ex f0)

include hmul hb hf0 in
theorem cgStart_val : ∃ s, cgStart mul b f0 = .ok s ∧ CgShape mu temps n ex s ∧ s.f = f0 ∧ s.d = s.r ∧
    ∀ c < mu * temps, ∀ i < 3, vecOf n ex s.r c i = vecOf n ex b c i - matOf n ex (a c) *ᵥ vecOf n ex f0 c i := by
  obtain ⟨r, h1, h2, h3⟩ := base_same (· - ·) hb (hmul.shape f0 hf0)
  refine ⟨⟨f0, r, r⟩, ?_, ⟨hf0, h2, h2⟩, rfl, rfl, ?_⟩
  · unfold cgStart
    rw [h1]
    rfl
  · intro c hc i hi
    rw [← hmul.vec hf0 hc hi]
    funext t
    show r.get c i t.1 = _
    rw [h3, if_neg (free_not_ex t)]
    rfl

include hmul hB in
theorem cgIter_step {s0 : CgState} (hs0 : CgShape mu temps n ex s0) (k : Nat) :
    CgShape mu temps n ex (cgIter mul (bteDot B size) s0 k) ∧
    cgStep mul (bteDot B size) (cgIter mul (bteDot B size) s0 k) = .ok (cgIter mul (bteDot B size) s0 (k + 1)) := by
  have key : ∀ k, CgShape mu temps n ex (cgIter mul (bteDot B size) s0 k) →
      cgStep mul (bteDot B size) (cgIter mul (bteDot B size) s0 k) = .ok (cgIter mul (bteDot B size) s0 (k + 1)) ∧
      CgShape mu temps n ex (cgIter mul (bteDot B size) s0 (k + 1)) := by
    intro k hk
    obtain ⟨s', h1, h2, _⟩ := cgStep_val hmul hB hk
    have e : cgIter mul (bteDot B size) s0 (k + 1) = s' := by
      show (match cgStep mul (bteDot B size) (cgIter mul (bteDot B size) s0 k) with | .ok s => s | _ => s0) = s'
      rw [h1]
    rw [e]
    exact ⟨h1, h2⟩
  have hall : ∀ k, CgShape mu temps n ex (cgIter mul (bteDot B size) s0 k) := by
    intro k
    induction k with
    | zero => exact hs0
    | succ k ih => exact (key k ih).2
  exact ⟨hall k, (key k (hall k)).1⟩

include hmul hB hb hf0 in
/-- The vectors of the run follow the recursion of the conjugate gradient method. -/
theorem cgIter_seq {s0 : CgState} (h0 : cgStart mul b f0 = .ok s0) {c i : Nat} (hc : c < mu * temps) (hi : i < 3) :
    CgSeq (matOf n ex (a c)) (vecOf n ex b c i) (fun k => vecOf n ex (cgIter mul (bteDot B size) s0 k).f c i)
      (fun k => vecOf n ex (cgIter mul (bteDot B size) s0 k).r c i)
      (fun k => vecOf n ex (cgIter mul (bteDot B size) s0 k).d c i) := by
  obtain ⟨s, h1, h2, h3, h4, h5⟩ := cgStart_val hmul hb hf0
  obtain rfl : s0 = s := by rw [h1] at h0; exact ((Outcome.ok.injEq _ _).mp h0).symm
  have hstep := fun k => show
      (let s := cgIter mul (bteDot B size) s0 k
        let s' := cgIter mul (bteDot B size) s0 (k + 1)
        let f := vecOf n ex s.f c i
        let r := vecOf n ex s.r c i
        let d := vecOf n ex s.d c i
        let A := matOf n ex (a c)
        vecOf n ex s'.f c i = ((if d ⬝ᵥ A *ᵥ d ≠ 0 then (r ⬝ᵥ r) / (d ⬝ᵥ A *ᵥ d) else 0) • d) + f ∧
        vecOf n ex s'.r c i = r - (if d ⬝ᵥ A *ᵥ d ≠ 0 then (r ⬝ᵥ r) / (d ⬝ᵥ A *ᵥ d) else 0) • A *ᵥ d ∧
        vecOf n ex s'.d c i = ((if r ⬝ᵥ r ≠ 0 then (vecOf n ex s'.r c i ⬝ᵥ vecOf n ex s'.r c i) / (r ⬝ᵥ r) else 0) • d) +
          vecOf n ex s'.r c i) from by
    have hk := cgIter_step hmul hB h2 k
    obtain ⟨s', e1, _, e3⟩ := cgStep_val hmul hB hk.1
    obtain rfl : cgIter mul (bteDot B size) s0 (k + 1) = s' := by
      rw [hk.2] at e1; exact (Outcome.ok.injEq _ _).mp e1
    exact e3 c hc i hi
  refine ⟨?_, ?_, fun k => (hstep k).1, fun k => (hstep k).2.1, fun k => (hstep k).2.2⟩
  · show vecOf n ex s0.r c i = _ - _ *ᵥ vecOf n ex s0.f c i
    rw [h5 c hc i hi, h3]
  · show vecOf n ex s0.d c i = vecOf n ex s0.r c i
    rw [h4]

end

theorem variationalTerm_val {B : BandView} {n size : Nat} {sched : Nat → List (List Nat)} (hB : PlainRun B n size sched)
    {mu temps : Nat} {ex : List Nat} {f : VBte ℝ} (hf : Shape mu temps n ex f) (norm : Nat → ℝ) (y : VBte ℝ) (c s : Nat)
    (i j : Fin 3) : variationalTerm B norm f y c s i j = if s ∈ ex then 0 else f.get c i s * y.get c j s * norm c := by
  unfold variationalTerm
  rw [hf.ex, hB.rots, hB.bte]
  by_cases hs : s ∈ ex
  · rw [if_pos hs, if_pos hs]
    rfl
  · rw [if_neg hs, if_neg hs]
    refine Eq.trans (mat_foldr_apply [(1 : Mat3)] (fun rot => (fun i j => matVec rot (vec3Of f c s) i *
      matVec rot (vec3Of y c s) j * norm c : Mat3)) i j) ?_
    simp only [List.map_cons, List.map_nil, List.sum_cons, List.sum_nil, add_zero, matVec_one]
    rfl

/-- The value of the functional without symmetries. -/
theorem calcVariational_val {B : BandView} {n size : Nat} {sched : Nat → List (List Nat)} (hB : PlainRun B n size sched)
    {mu temps : Nat} {ex : List Nat} {f : VBte ℝ} (hf : Shape mu temps n ex f) (norm : Nat → ℝ) (af b : VBte ℝ) (c : Nat)
    (i j : Fin 3) : calcVariational B norm size sched af f b c i j =
      norm c * (2 * (vecOf n ex f c i ⬝ᵥ vecOf n ex b c j) - vecOf n ex f c i ⬝ᵥ vecOf n ex af c j) := by
  have key : ∀ y : VBte ℝ, ((stateSum size sched (variationalTerm B norm f y)).headD (fun _ => 0)) c i j =
      norm c * (vecOf n ex f c i ⬝ᵥ vecOf n ex y c j) := by
    intro y
    obtain ⟨h1, h2⟩ := stateSum_val B.irr size hB.procs (by rw [hB.irr, List.length_range]; exact hB.fits) sched hB.schedule
      (variationalTerm B norm f y)
    rw [h2 _ (headD_mem _ _ (by rw [h1]; exact hB.procs)) c, mat_sum_apply, hB.irr]
    unfold vecOf
    rw [dot_vec (freeStates n ex) (fun s => f.get c i s) (fun s => y.get c j s), Finset.mul_sum]
    unfold freeStates
    rw [Finset.sum_filter]
    show _ = ((List.range n).map _).sum
    congr 1
    apply List.map_congr_left
    intro s _
    rw [variationalTerm_val hB hf]
    by_cases hs : s ∈ ex
    · simp [hs]
    · rw [if_neg hs, if_pos hs]
      ring
  show ((2 : ℝ) • _ - _ : Mat3) i j = _
  rw [Matrix.sub_apply, Matrix.smul_apply, smul_eq_mul, key b, key af]
  ring

/-- The loop of the phonon app prints, at every step, the value of the population before the step with the product of the
population after it. -/
theorem phCgLoop_val {mu temps n : Nat} {ex : List Nat} {mul : VBte ℝ → VBte ℝ} {a : Nat → Nat → Nat → ℝ}
    (hmul : MulActs mu temps n ex mul a) {B : BandView} {size : Nat} {sched : Nat → List (List Nat)}
    (hB : PlainRun B n size sched) {s0 : CgState} (hs0 : CgShape mu temps n ex s0)
    (cond : VBte ℝ → VBte ℝ → VBte ℝ → Nat → Mat3) (b : VBte ℝ) (numCalc : Nat) (threshold : ℝ) :
    ∀ (left k : Nat) (condOld : Nat → Mat3) (printed out : List (Nat → Mat3)),
      phCgLoop mul (bteDot B size) cond b numCalc threshold left (cgIter mul (bteDot B size) s0 k) condOld printed = .ok out →
      ∃ m ≤ left, (0 < left → 1 ≤ m) ∧ out = printed ++ (List.range m).map fun j =>
        cond (mul (cgIter mul (bteDot B size) s0 (k + j + 1)).f) (cgIter mul (bteDot B size) s0 (k + j)).f b := by
  intro left
  induction left with
  | zero =>
    intro k condOld printed out h
    refine ⟨0, le_refl _, by simp, ?_⟩
    unfold phCgLoop at h
    simp only [Outcome.ok.injEq] at h
    simp [h]
  | succ left ih =>
    intro k condOld printed out h
    unfold phCgLoop at h
    simp only [(cgIter_step hmul hB hs0 k).2, Outcome.bind_eq, Outcome.bind_ok] at h
    rw [← Outcome.bind_eq, Outcome.bind_eq_ok_iff] at h
    obtain ⟨d, hd, h⟩ := h
    split_ifs at h with h1 h2
    · refine ⟨1, by omega, by simp, ?_⟩
      simp only [Outcome.ok.injEq] at h
      simp [← h]
    · obtain ⟨m, e1, e2, e3⟩ := ih (k + 1) _ _ out h
      refine ⟨m + 1, by omega, by omega, ?_⟩
      rw [e3, List.append_assoc, List.range_succ_eq_map]
      congr 1
      simp only [List.map_cons, List.map_map, List.singleton_append, add_zero]
      congr 1
      apply List.map_congr_left
      intro j _
      have e : k + 1 + j = k + (j + 1) := by omega
      simp only [Function.comp_apply, Nat.succ_eq_add_one, e]

/-- The loop of the electron app prints, at every step, the values of the populations after the step; it makes at least four
steps. -/
theorem elCgLoop_val {mu temps n : Nat} {ex : List Nat} {mul : VBte ℝ → VBte ℝ} {a : Nat → Nat → Nat → ℝ}
    (hmul : MulActs mu temps n ex mul a) {B : BandView} {size : Nat} {sched : Nat → List (List Nat)}
    (hB : PlainRun B n size sched) {sE sT : CgState} (hE : CgShape mu temps n ex sE) (hT : CgShape mu temps n ex sT)
    (condE condT : VBte ℝ → VBte ℝ → VBte ℝ → Nat → Mat3) (bE bT : VBte ℝ) (numCalc : Nat) (threshold : ℝ) :
    ∀ (left k : Nat) (condOld : (Nat → Mat3) × (Nat → Mat3)) (printed : List ((Nat → Mat3) × (Nat → Mat3)))
      (out : List ((Nat → Mat3) × (Nat → Mat3)) × VBte ℝ × VBte ℝ),
      elCgLoop mul (bteDot B size) condE condT bE bT numCalc threshold left k
        (cgIter mul (bteDot B size) sE k, cgIter mul (bteDot B size) sT k) condOld printed = .ok out →
      ∃ m ≤ left, (0 < left → 4 ≤ k + m ∧ 1 ≤ m) ∧ out.1 = printed ++ ((List.range m).map fun j =>
        (condE (mul (cgIter mul (bteDot B size) sE (k + j + 1)).f) (cgIter mul (bteDot B size) sE (k + j + 1)).f bE,
         condT (mul (cgIter mul (bteDot B size) sT (k + j + 1)).f) (cgIter mul (bteDot B size) sT (k + j + 1)).f bT)) ∧
        out.2.1 = (cgIter mul (bteDot B size) sE (k + m)).f ∧ out.2.2 = (cgIter mul (bteDot B size) sT (k + m)).f := by
  intro left
  induction left with
  | zero =>
    intro k condOld printed out h
    unfold elCgLoop at h
    simp only [Outcome.ok.injEq] at h
    refine ⟨0, le_refl _, by simp, ?_, ?_, ?_⟩ <;> simp [← h]
  | succ left ih =>
    intro k condOld printed out h
    unfold elCgLoop at h
    simp only [(cgIter_step hmul hB hE k).2, (cgIter_step hmul hB hT k).2, Outcome.bind_eq, Outcome.bind_ok] at h
    rw [← Outcome.bind_eq, Outcome.bind_eq_ok_iff] at h
    obtain ⟨d, hd, h⟩ := h
    rw [← Outcome.bind_eq, Outcome.bind_eq_ok_iff] at h
    obtain ⟨d', hd', h⟩ := h
    split_ifs at h with h1 h2
    · simp only [Outcome.ok.injEq] at h
      refine ⟨1, by omega, fun _ => ⟨by omega, le_refl _⟩, ?_, ?_, ?_⟩ <;> simp [← h]
    · obtain ⟨m, e1, e2, e3, e4, e5⟩ := ih (k + 1) _ _ out h
      have e2' := e2 (by omega)
      refine ⟨m + 1, by omega, fun _ => ⟨by omega, by omega⟩, ?_, ?_, ?_⟩
      · rw [e3, List.append_assoc, List.range_succ_eq_map]
        congr 1
        simp only [List.map_cons, List.map_map, List.singleton_append, add_zero]
        congr 1
        apply List.map_congr_left
        intro j _
        have e : k + 1 + j = k + (j + 1) := by omega
        simp only [Function.comp_apply, Nat.succ_eq_add_one, e]
      · rw [e4]; congr 2; omega
      · rw [e5]; congr 2; omega

section
variable {mu temps n : Nat} {ex : List Nat} {mul : VBte ℝ → VBte ℝ} {a : Nat → Nat → Nat → ℝ}
  (hmul : MulActs mu temps n ex mul a) {B : BandView} {size : Nat} {sched : Nat → List (List Nat)}
  (hB : PlainRun B n size sched) {b f0 : VBte ℝ} (hb : Shape mu temps n ex b) (hf0 : Shape mu temps n ex f0)
  {s0 : CgState} (h0 : cgStart mul b f0 = .ok s0) (hs0 : CgShape mu temps n ex s0)
  {c : Nat} (hc : c < mu * temps) (hA : PosDef (freeStates n ex) (a c))

theorem solves_vec {n : Nat} {ex : List Nat} {A : Nat → Nat → ℝ} {b x : Nat → ℝ} (hx : Solves (freeStates n ex) A b x) :
    matOf n ex A *ᵥ (fun s : freeStates n ex => x s.1) = fun s : freeStates n ex => b s.1 := by
  rw [mulVec_vec]
  funext s
  exact hx s.1 s.2

theorem solves_unique {n : Nat} {ex : List Nat} {A : Nat → Nat → ℝ} (hA : PosDef (freeStates n ex) A)
    {x y : freeStates n ex → ℝ} (h : matOf n ex A *ᵥ x = matOf n ex A *ᵥ y) : x = y := by
  by_contra hne
  have h1 := posDef_pos hA (x - y) (sub_ne_zero.mpr hne)
  rw [mulVec_sub, h, sub_self, dotProduct_zero] at h1
  exact lt_irrefl _ h1

include hmul hB hb hf0 h0 hc hA in
/-- From as many steps as states on, the population is the solution. -/
theorem cg_exact {k : Nat} (hk : (freeStates n ex).card ≤ k) {i : Nat} (hi : i < 3) {x : Nat → ℝ}
    (hx : Solves (freeStates n ex) (a c) (fun s => b.get c i s) x) :
    vecOf n ex (cgIter mul (bteDot B size) s0 k).f c i = fun s => x s.1 := by
  have hseq := cgIter_seq hmul hB hb hf0 h0 hc hi
  have hr := hseq.terminates (posDef_pos hA) (posDef_symm hA) (k := k) (by rw [Fintype.card_coe]; exact hk)
  have hres := hseq.residual k
  apply solves_unique hA
  rw [solves_vec hx]
  rw [hr] at hres
  exact (sub_eq_zero.mp hres.symm).symm

include hmul hB hb hf0 h0 hc hA hs0 in
/-- The values of the functional along the run: below the exact one, increasing, exact from as many steps as states on. -/
theorem cg_functional {norm : Nat → ℝ} (hn : 0 ≤ norm c) (x : Nat → Nat → ℝ)
    (hx : ∀ i < 3, Solves (freeStates n ex) (a c) (fun s => b.get c i s) (x i)) (k : Nat) :
    let val := fun k => calcVariational B norm size sched (mul (cgIter mul (bteDot B size) s0 k).f)
      (cgIter mul (bteDot B size) s0 k).f b c
    (∀ i : Fin 3, val k i i ≤ norm c * ∑ s ∈ freeStates n ex, x i s * b.get c i s) ∧
    (∀ i : Fin 3, val k i i ≤ val (k + 1) i i) ∧
    ((freeStates n ex).card ≤ k → ∀ i j : Fin 3, val k i j = norm c * ∑ s ∈ freeStates n ex, x i s * b.get c j s) := by
  intro val
  have hval : ∀ k (i j : Fin 3), val k i j = norm c *
      (2 * (vecOf n ex (cgIter mul (bteDot B size) s0 k).f c i ⬝ᵥ vecOf n ex b c j) -
        vecOf n ex (cgIter mul (bteDot B size) s0 k).f c i ⬝ᵥ
          matOf n ex (a c) *ᵥ vecOf n ex (cgIter mul (bteDot B size) s0 k).f c j) := by
    intro k i j
    have hsh := (cgIter_step hmul hB hs0 k).1.f
    rw [← hmul.vec hsh hc j.isLt]
    exact calcVariational_val hB hsh norm _ b c i j
  refine ⟨?_, ?_, ?_⟩
  · intro i
    rw [hval]
    apply mul_le_mul_of_nonneg_left _ hn
    have := cgValue_le (posDef_pos hA) (posDef_symm hA) (solves_vec (hx i i.isLt))
      (vecOf n ex (cgIter mul (bteDot B size) s0 k).f c i)
    rw [dot_vec (freeStates n ex) (x i) (fun s => b.get c i s)] at this
    exact this
  · intro i
    rw [hval, hval]
    exact mul_le_mul_of_nonneg_left ((cgIter_seq hmul hB hb hf0 h0 hc i.isLt).mono (posDef_pos hA) (posDef_symm hA) k) hn
  · intro hk i j
    rw [hval, cg_exact hmul hB hb hf0 h0 hc hA hk i.isLt (hx i i.isLt),
      cg_exact hmul hB hb hf0 h0 hc hA hk j.isLt (hx j j.isLt), solves_vec (hx j j.isLt)]
    have e := dot_vec (freeStates n ex) (x i) (fun s => b.get c j s)
    unfold vecOf
    rw [e]
    ring

include hmul hB hb hf0 h0 hc hA hs0 in
/-- The values printed for phonons are exact from one step more than states on. -/
theorem cg_stale_exact (norm : Nat → ℝ) (x : Nat → Nat → ℝ)
    (hx : ∀ i < 3, Solves (freeStates n ex) (a c) (fun s => b.get c i s) (x i)) {k : Nat} (hk : (freeStates n ex).card ≤ k)
    (i j : Fin 3) :
    calcVariational B norm size sched (mul (cgIter mul (bteDot B size) s0 (k + 1)).f)
      (cgIter mul (bteDot B size) s0 k).f b c i j = norm c * ∑ s ∈ freeStates n ex, x i s * b.get c j s := by
  have hsh := (cgIter_step hmul hB hs0 k).1.f
  have hsh' := (cgIter_step hmul hB hs0 (k + 1)).1.f
  rw [calcVariational_val hB hsh norm _ b c i j, hmul.vec hsh' hc j.isLt,
    cg_exact hmul hB hb hf0 h0 hc hA hk i.isLt (hx i i.isLt),
    cg_exact hmul hB hb hf0 h0 hc hA (by omega : _ ≤ k + 1) j.isLt (hx j j.isLt), solves_vec (hx j j.isLt)]
  have e := dot_vec (freeStates n ex) (x i) (fun s => b.get c j s)
  unfold vecOf
  rw [e]
  ring

end

end Verif.Model

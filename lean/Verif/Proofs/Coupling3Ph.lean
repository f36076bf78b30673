import Verif.Model.Coupling3Ph
import Verif.Spec.Coupling3Ph
import Mathlib.Tactic.Ring
import Mathlib.Tactic.LinearCombination

/-! Lemmas on three-phonon couplings. -/
namespace Verif.Model
open BigOperators

theorem loopSum_eq {α : Type} [AddCommMonoid α] (n : Nat) (f : Nat → α) : loopSum n f = ∑ i ∈ Finset.range n, f i := by
  unfold loopSum
  induction n with
  | zero => simp
  | succ n ih => rw [List.range_succ, List.foldl_append, ih, Finset.sum_range_succ]; rfl

theorem phase3_eq (s : ℝ) (q r : Fin 3 → ℝ) :
    phase3 s q r = Complex.exp (Complex.I * ((s * Spec.scal q r : ℝ) : ℂ)) := by
  unfold phase3 Spec.scal
  rw [Fin.sum_univ_three]
  simp only [List.foldl]
  congr 3
  ring

theorem normView_eq (v : Nat → Nat → Nat → ℂ) (a b c : Nat) : normView v a b c = Complex.normSq (v a b c) := by
  rw [Complex.normSq_apply]; rfl

theorem evView_lt {nb : Nat} {ev : Nat → Nat → ℂ} {ib : Nat} (h : ib < nb) (iac : Nat) : evView nb ev ib iac = ev iac ib := by
  unfold evView; rw [if_pos h]

/-- The chain of partial sums, written as one sum. -/
theorem vView_eq (o : Coupling3Ph) (cached : Nat → Nat → Nat → Nat → ℂ) (q1 : Fin 3 → ℝ) (nb1 nb3 : Nat)
    (ev1 e2 ev3 : Nat → Nat → ℂ) (ib1 ib2 ib3 : Nat) (h1 : ib1 < nb1) (h3 : ib3 < nb3) :
    vView o.numBands nb1 nb3 (tmp2View o.numBands nb1 (tmp1View o.numBands nb1 (tmpView o cached q1) (evView nb1 ev1)) e2)
      (evView nb3 ev3) ib1 ib2 ib3 =
    ∑ a1 ∈ Finset.range o.numBands, ∑ a2 ∈ Finset.range o.numBands, ∑ a3 ∈ Finset.range o.numBands,
      ev1 a1 ib1 * e2 ib2 a2 * (starRingEnd ℂ) (ev3 a3 ib3) *
        ∑ r3 ∈ Finset.range o.nr3, cached a1 a2 a3 r3 * phase3 (-1) q1 (o.cellPositions3 r3) *
          (o.weights3 r3 (a1 / 3) (a3 / 3) : ℂ) := by
  unfold vView tmp2View tmp1View tmpView
  simp only [loopSum_eq, maskIf, h1, h3, decide_true, Bool.and_self, if_true, mul_one, evView_lt h1, evView_lt h3]
  simp only [Finset.sum_mul]
  rw [Finset.sum_comm]
  simp only [Finset.mul_sum]
  rw [Finset.sum_congr rfl fun a2 _ => Finset.sum_comm]
  rw [Finset.sum_comm]
  refine Finset.sum_congr rfl fun a1 _ => Finset.sum_congr rfl fun a2 _ => Finset.sum_congr rfl fun a3 _ =>
    Finset.sum_congr rfl fun r3 _ => ?_
  ring

theorem phase_mul (a b c : ℝ) :
    Complex.exp (Complex.I * (a : ℂ)) * Complex.exp (Complex.I * (b : ℂ)) * Complex.exp (Complex.I * (c : ℂ)) =
      Complex.exp (Complex.I * ((a + b + c : ℝ) : ℂ)) := by
  rw [← Complex.exp_add, ← Complex.exp_add]
  congr 1
  push_cast
  ring

theorem scal_add (a b r : Fin 3 → ℝ) : Spec.scal (fun i => a i + b i) r = Spec.scal a r + Spec.scal b r := by
  unfold Spec.scal
  rw [← Finset.sum_add_distrib]
  exact Finset.sum_congr rfl fun i _ => by ring

theorem scal_sub (a b r : Fin 3 → ℝ) : Spec.scal (fun i => a i - b i) r = Spec.scal a r - Spec.scal b r := by
  unfold Spec.scal
  rw [← Finset.sum_sub_distrib]
  exact Finset.sum_congr rfl fun i _ => by ring

/-- The third weight is applied twice. -/
noncomputable def sqWeight (w : Nat → Nat → Nat → ℝ) : Nat → Nat → Nat → ℝ := fun r a b => w r a b * w r a b

theorem inner_eq (o : Coupling3Ph) (s2 s3 : ℝ) (q1 q2 : Fin 3 → ℝ) (a1 a2 a3 : Nat) :
    (∑ r3 ∈ Finset.range o.nr3, (loopSum o.nr2 fun r2 =>
      (o.D3 a1 a2 a3 r3 r2 : ℂ) * phase3 s2 q2 (o.cellPositions2 r2) * phase3 s3 q2 (o.cellPositions3 r3) *
        (o.weights2 r2 (a1 / 3) (a2 / 3) : ℂ) * (o.weights3 r3 (a1 / 3) (a3 / 3) : ℂ)) *
        phase3 (-1) q1 (o.cellPositions3 r3) * (o.weights3 r3 (a1 / 3) (a3 / 3) : ℂ)) =
    ∑ r2 ∈ Finset.range o.nr2, ∑ r3 ∈ Finset.range o.nr3,
      ((o.weights2 r2 (a1 / 3) (a2 / 3) * sqWeight o.weights3 r3 (a1 / 3) (a3 / 3) * o.D3 a1 a2 a3 r3 r2 : ℝ) : ℂ) *
        Complex.exp (Complex.I * ((s2 * Spec.scal q2 (o.cellPositions2 r2) + s3 * Spec.scal q2 (o.cellPositions3 r3)
          + -1 * Spec.scal q1 (o.cellPositions3 r3) : ℝ) : ℂ)) := by
  simp only [loopSum_eq, Finset.sum_mul]
  rw [Finset.sum_comm]
  refine Finset.sum_congr rfl fun r2 _ => Finset.sum_congr rfl fun r3 _ => ?_
  rw [← phase_mul, phase3_eq, phase3_eq, phase3_eq]
  unfold sqWeight
  push_cast
  ring

/-- Both amplitudes, with the third weight squared. -/
theorem amplitudes (o : Coupling3Ph) (q2 : Fin 3 → ℝ) (ev2 : Nat → Nat → ℂ) (nb2 : Nat) (x : CouplingInput)
    (ib1 ib2 : Nat) (h1 : ib1 < x.nb1) (h2 : ib2 < nb2) :
    (∀ ib3 < x.nb3Plus, (couplingsOne (o.cacheD3 q2) ev2 nb2 x).1.val ib1 ib2 ib3 =
      Complex.normSq (Spec.coupling o.numBands o.nr2 o.nr3 o.cellPositions2 o.cellPositions3 o.weights2
        (sqWeight o.weights3) o.D3 1 q2 (fun i => x.q1 i + q2 i) (fun a => x.ev1 a ib1) (fun a => ev2 a ib2)
        (fun a => x.ev3Plus a ib3))) ∧
    (∀ ib3 < x.nb3Mins, (couplingsOne (o.cacheD3 q2) ev2 nb2 x).2.val ib1 ib2 ib3 =
      Complex.normSq (Spec.coupling o.numBands o.nr2 o.nr3 o.cellPositions2 o.cellPositions3 o.weights2
        (sqWeight o.weights3) o.D3 (-1) q2 (fun i => x.q1 i - q2 i) (fun a => x.ev1 a ib1)
        (fun a => (starRingEnd ℂ) (ev2 a ib2)) (fun a => x.ev3Mins a ib3))) := by
  constructor
  · intro ib3 h3
    unfold couplingsOne
    simp only
    rw [normView_eq, vView_eq _ _ _ _ _ _ _ _ _ _ _ h1 h3]
    congr 1
    unfold Spec.coupling
    refine Finset.sum_congr rfl fun a1 _ => Finset.sum_congr rfl fun a2 _ => Finset.sum_congr rfl fun a3 _ => ?_
    rw [evView_lt h2]
    congr 1
    refine (inner_eq o 1 (-1) x.q1 q2 a1 a2 a3).trans ?_
    refine Finset.sum_congr rfl fun r2 _ => Finset.sum_congr rfl fun r3 _ => ?_
    rw [scal_add]
    congr 4
    ring
  · intro ib3 h3
    unfold couplingsOne
    simp only
    rw [normView_eq, vView_eq _ _ _ _ _ _ _ _ _ _ _ h1 h3]
    congr 1
    unfold Spec.coupling
    refine Finset.sum_congr rfl fun a1 _ => Finset.sum_congr rfl fun a2 _ => Finset.sum_congr rfl fun a3 _ => ?_
    rw [evView_lt h2]
    congr 1
    refine (inner_eq o (-1) 1 x.q1 q2 a1 a2 a3).trans ?_
    refine Finset.sum_congr rfl fun r2 _ => Finset.sum_congr rfl fun r3 _ => ?_
    rw [scal_sub]
    congr 4
    ring

end Verif.Model

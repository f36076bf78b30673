import Verif.Proofs.Transport
import Mathlib.Data.Matrix.Mul
import Mathlib.Tactic.Positivity

namespace Verif.Model
open Verif.Spec

/-- Moments of a transport distribution: `Σ_s c(s) e(s)^p v_i(s) v_j(s)`. -/
noncomputable def moment {d : Nat} (S : Finset Nat) (c e : Nat → ℝ) (v : Nat → Fin d → ℝ) (p : Nat) :
    Matrix (Fin d) (Fin d) ℝ := fun i j => ∑ s ∈ S, c s * e s ^ p * v s i * v s j

theorem moment_symm {d : Nat} (S : Finset Nat) (c e : Nat → ℝ) (v : Nat → Fin d → ℝ) (p : Nat) :
    (moment S c e v p).transpose = moment S c e v p := by
  ext i j
  simp only [Matrix.transpose_apply, moment]
  apply Finset.sum_congr rfl
  intro s _; ring

theorem moment_mulVec {d : Nat} (S : Finset Nat) (c e : Nat → ℝ) (v : Nat → Fin d → ℝ) (p : Nat) (x : Fin d → ℝ) :
    (moment S c e v p).mulVec x = fun i => ∑ s ∈ S, c s * e s ^ p * v s i * (∑ j, v s j * x j) := by
  funext i
  simp only [Matrix.mulVec, dotProduct, moment]
  simp_rw [Finset.sum_mul, Finset.mul_sum]
  rw [Finset.sum_comm]
  apply Finset.sum_congr rfl
  intro s _
  apply Finset.sum_congr rfl
  intro j _; ring

theorem moment_quad {d : Nat} (S : Finset Nat) (c e : Nat → ℝ) (v : Nat → Fin d → ℝ) (p : Nat) (x y : Fin d → ℝ) :
    ∑ i, x i * (moment S c e v p).mulVec y i =
      ∑ s ∈ S, c s * e s ^ p * (∑ i, v s i * x i) * (∑ j, v s j * y j) := by
  rw [moment_mulVec]
  generalize hW : (fun s => ∑ j, v s j * y j) = W
  have hW' : ∀ s, ∑ j, v s j * y j = W s := fun s => congrFun hW s
  simp only [hW']
  have e1 : ∀ i, x i * ∑ s ∈ S, c s * e s ^ p * v s i * W s = ∑ s ∈ S, x i * (c s * e s ^ p * v s i * W s) :=
    fun i => Finset.mul_sum _ _ _
  rw [Finset.sum_congr rfl (fun i _ => e1 i), Finset.sum_comm]
  apply Finset.sum_congr rfl
  intro s _
  rw [Finset.mul_sum, Finset.sum_mul]
  apply Finset.sum_congr rfl
  intro i _; ring

theorem quad_eq {d : Nat} (k : Matrix (Fin d) (Fin d) ℝ) (x : Fin d → ℝ) :
    ∑ i, ∑ j, x i * k i j * x j = ∑ i, x i * k.mulVec x i := by
  apply Finset.sum_congr rfl
  intro i _
  simp only [Matrix.mulVec, dotProduct, Finset.mul_sum]
  apply Finset.sum_congr rfl
  intro j _; ring

/-- A moment of even order with weights that are not negative is a conductivity. -/
theorem moment_isConductivity {d : Nat} (S : Finset Nat) (c e : Nat → ℝ) (v : Nat → Fin d → ℝ) (p : Nat)
    (hc : ∀ s ∈ S, 0 ≤ c s * e s ^ p) : IsConductivity (moment S c e v p) := by
  constructor
  · intro i j
    exact congrFun (congrFun (moment_symm S c e v p) j) i
  · intro x
    rw [quad_eq, moment_quad]
    apply Finset.sum_nonneg
    intro s hs
    rw [mul_assoc]
    exact mul_nonneg (hc s hs) (mul_self_nonneg _)

/-- The Schur complement of the moments is a conductivity: no flow of heat against the gradient. -/
theorem schur_isConductivity {d : Nat} (S : Finset Nat) (c e : Nat → ℝ) (v : Nat → Fin d → ℝ) (hc : ∀ s ∈ S, 0 ≤ c s)
    (hdet : IsUnit (moment S c e v 0).det) :
    IsConductivity (moment S c e v 2 - moment S c e v 1 * (moment S c e v 0)⁻¹ * moment S c e v 1) := by
  set K0 := moment S c e v 0 with hK0
  set K1 := moment S c e v 1 with hK1
  set K2 := moment S c e v 2 with hK2
  have s0 : K0.transpose = K0 := moment_symm S c e v 0
  have s1 : K1.transpose = K1 := moment_symm S c e v 1
  have s2 : K2.transpose = K2 := moment_symm S c e v 2
  have hsym : (K2 - K1 * K0⁻¹ * K1).transpose = K2 - K1 * K0⁻¹ * K1 := by
    rw [Matrix.transpose_sub, Matrix.transpose_mul, Matrix.transpose_mul, Matrix.transpose_nonsing_inv, s0, s1, s2,
      Matrix.mul_assoc]
  constructor
  · intro i j
    exact congrFun (congrFun hsym j) i
  intro x
  set y : Fin d → ℝ := K0⁻¹.mulVec (K1.mulVec x) with hy
  have h0 : K0.mulVec y = K1.mulVec x := by
    rw [hy, Matrix.mulVec_mulVec, Matrix.mul_nonsing_inv _ hdet, Matrix.one_mulVec]
  have key : ∑ s ∈ S, c s * (e s * (∑ i, v s i * x i) - ∑ i, v s i * y i) ^ 2 =
      ∑ i, x i * K2.mulVec x i - 2 * ∑ i, y i * K1.mulVec x i + ∑ i, y i * K0.mulVec y i := by
    rw [hK0, hK1, hK2, moment_quad, moment_quad, moment_quad, Finset.mul_sum, ← Finset.sum_sub_distrib,
      ← Finset.sum_add_distrib]
    apply Finset.sum_congr rfl
    intro s _; ring
  have hsq : 0 ≤ ∑ s ∈ S, c s * (e s * (∑ i, v s i * x i) - ∑ i, v s i * y i) ^ 2 :=
    Finset.sum_nonneg fun s hs => mul_nonneg (hc s hs) (sq_nonneg _)
  rw [key, h0] at hsq
  have hval : ∑ i, ∑ j, x i * (K2 - K1 * K0⁻¹ * K1) i j * x j =
      ∑ i, x i * K2.mulVec x i - ∑ i, y i * K1.mulVec x i := by
    rw [quad_eq]
    have e1 : (K2 - K1 * K0⁻¹ * K1).mulVec x = K2.mulVec x - K1.mulVec y := by
      rw [Matrix.sub_mulVec, hy, Matrix.mulVec_mulVec, Matrix.mulVec_mulVec, Matrix.mul_assoc]
    rw [e1]
    have e2 : ∑ i, x i * K1.mulVec y i = ∑ i, y i * K1.mulVec x i := by
      rw [hK1, moment_quad, moment_quad]
      apply Finset.sum_congr rfl
      intro s _; ring
    rw [← e2, ← Finset.sum_sub_distrib]
    apply Finset.sum_congr rfl
    intro i _
    rw [Pi.sub_apply]; ring
  rw [hval]
  linarith

theorem isConductivity_smul {d : Nat} (k : Matrix (Fin d) (Fin d) ℝ) (a : ℝ) (ha : 0 ≤ a) (hk : IsConductivity k) :
    IsConductivity (a • k) := by
  constructor
  · intro i j
    simp only [Matrix.smul_apply, smul_eq_mul, hk.1 i j]
  · intro x
    have : ∑ i, ∑ j, x i * (a • k) i j * x j = a * ∑ i, ∑ j, x i * k i j * x j := by
      simp_rw [Finset.mul_sum]
      apply Finset.sum_congr rfl
      intro i _
      apply Finset.sum_congr rfl
      intro j _
      simp only [Matrix.smul_apply, smul_eq_mul]; ring
    rw [this]
    exact mul_nonneg ha (hk.2 x)

/-- The coefficients from tensors that are moments, with the signs of the tensors of a population. -/
theorem coefficients_of_moments {d : Nat} (toCm doping T : ℝ) (K0 K1 K2 : Matrix (Fin d) (Fin d) ℝ) :
    (transportCoefficients toCm doping K0 (-(1 / T) • K1) K1 (-(1 / T) • K2)).kappa =
      (1 / T) • (K2 - K1 * K0⁻¹ * K1) ∧
    (transportCoefficients toCm doping K0 (-(1 / T) • K1) K1 (-(1 / T) • K2)).seebeck = -(1 / T) • (K0⁻¹ * K1) := by
  constructor
  · simp only [transportCoefficients]
    rw [Matrix.mul_smul, neg_smul, neg_smul, smul_sub]
    abel
  · simp only [transportCoefficients]
    rw [Matrix.mul_smul, Matrix.neg_mul, smul_neg, neg_smul, neg_smul, one_smul, neg_neg]

/-- The coefficients from the tensors of the electron-phonon averaged approximation. -/
theorem coefficients_of_epa {d : Nat} (toCm doping T : ℝ) (K0 K1 K2 : Matrix (Fin d) (Fin d) ℝ) :
    (transportCoefficients toCm doping K0 (-(1 / T) • K1) (-K1) (-(1 / T) • K2)).kappa =
      (1 / T) • (K2 + K1 * K0⁻¹ * K1) := by
  simp only [transportCoefficients]
  rw [Matrix.mul_smul, neg_smul, neg_smul, smul_add, Matrix.neg_mul, Matrix.neg_mul, smul_neg]
  abel

end Verif.Model

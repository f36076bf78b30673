import Verif.Proofs.Particle
import Mathlib.Analysis.Calculus.Deriv.Inv
import Mathlib.Analysis.SpecialFunctions.ExpDeriv

/-! # C45: occupation functions -/
namespace Verif.Props
open Verif.Model

/-- Fermi occupations lie in [0,1] for all inputs, strictly between for positive temperature. -/
theorem C45_fermi_range (e T mu : ℝ) : 0 ≤ getPopulation .fermi e T mu ∧ getPopulation .fermi e T mu ≤ 1 ∧
    (0 < T → 0 < getPopulation .fermi e T mu ∧ getPopulation .fermi e T mu < 1) := by
  have hpos : 0 < T → 0 < getPopulation .fermi e T mu ∧ getPopulation .fermi e T mu < 1 := by
    intro hT
    rw [getPopulation_fermi hT]
    have := Real.exp_pos ((e - mu) / T)
    exact ⟨by positivity, by rw [div_lt_one (by linarith)]; linarith⟩
  rcases le_or_gt T 0 with hT | hT
  · have : getPopulation .fermi e T mu = if e ≤ mu then 1 else 0 := by
      simp only [getPopulation, if_pos hT]
    refine ⟨?_, ?_, hpos⟩ <;> rw [this] <;> split <;> norm_num
  · obtain ⟨h1, h2⟩ := hpos hT
    exact ⟨h1.le, h2.le, hpos⟩

/-- Bose occupations are never negative, and positive above the chemical potential. -/
theorem C45_bose_range (e T mu : ℝ) : 0 ≤ getPopulation .bose e T mu ∧
    (0 < T → mu < e → 0 < getPopulation .bose e T mu) := by
  constructor
  · simp only [getPopulation]
    split
    · split <;> norm_num
    · split
      · exact le_rfl
      · exact not_lt.mp ‹_›
  · intro hT he
    rw [getPopulation_bose hT he]
    have hx : 1 < Real.exp ((e - mu) / T) := Real.one_lt_exp_iff.mpr (div_pos (by linarith) hT)
    exact one_div_pos.mpr (by linarith)

/-- Bosons: the closed form is n(n+1). -/
theorem C45_bose_product (e T mu : ℝ) (hT : 0 < T) (he : mu < e) :
    getPopPopPm1 .bose e T mu = getPopulation .bose e T mu * (getPopulation .bose e T mu + 1) := by
  rw [popPopPm1_bose, getPopulation_bose hT he]
  have hx : 1 < Real.exp ((e - mu) / T) := Real.one_lt_exp_iff.mpr (div_pos (by linarith) hT)
  have : Real.exp ((e - mu) / T) - 1 ≠ 0 := by linarith
  field_simp
  ring

/-- Fermions: the closed form is f(1-f). -/
theorem C45_fermi_product (e T mu : ℝ) (hT : 0 < T) :
    getPopPopPm1 .fermi e T mu = getPopulation .fermi e T mu * (1 - getPopulation .fermi e T mu) := by
  rw [popPopPm1_fermi, getPopulation_fermi hT]
  have := Real.exp_pos ((e - mu) / T)
  have : Real.exp ((e - mu) / T) + 1 ≠ 0 := by linarith
  field_simp
  ring

/-- Fermions: the energy derivative returned is the derivative of the occupation. -/
theorem C45_fermi_dnde (e T mu : ℝ) (hT : 0 < T) :
    HasDerivAt (fun x => getPopulation .fermi x T mu) (getDnde .fermi e T mu false) e := by
  have hf : (fun x => getPopulation .fermi x T mu) = fun x => (Real.exp ((x - mu) / T) + 1)⁻¹ := by
    funext x; rw [getPopulation_fermi hT, one_div]
  rw [hf]
  have h1 : HasDerivAt (fun x : ℝ => (x - mu) / T) (1 / T) e := ((hasDerivAt_id e).sub_const mu).div_const T
  have h2 := (h1.exp.add_const 1).inv (by have := Real.exp_pos ((e - mu) / T); linarith)
  refine HasDerivAt.congr_deriv h2 ?_
  simp only [getDnde, Bool.false_eq_true, if_false, popPopPm1_fermi]
  ring

/-- Bosons: the energy derivative returned is the derivative of the occupation. -/
theorem C45_bose_dnde (e T mu : ℝ) (hT : 0 < T) (he : mu < e) :
    HasDerivAt (fun x => getPopulation .bose x T mu) (getDnde .bose e T mu false) e := by
  have hx : 1 < Real.exp ((e - mu) / T) := Real.one_lt_exp_iff.mpr (div_pos (by linarith) hT)
  have hf : (fun x => getPopulation .bose x T mu) =ᶠ[nhds e] fun x => (Real.exp ((x - mu) / T) - 1)⁻¹ := by
    filter_upwards [lt_mem_nhds he] with x hx
    rw [getPopulation_bose hT hx, one_div]
  have h1 : HasDerivAt (fun x : ℝ => (x - mu) / T) (1 / T) e := ((hasDerivAt_id e).sub_const mu).div_const T
  have h2 := (h1.exp.sub_const 1).inv (by linarith)
  refine HasDerivAt.congr_of_eventuallyEq ?_ hf
  refine HasDerivAt.congr_deriv h2 ?_
  simp only [getDnde, Bool.false_eq_true, if_false, popPopPm1_bose]
  ring

/-- Fermions: the temperature derivative returned is the derivative of the occupation. -/
theorem C45_fermi_dndt (e T mu : ℝ) (hT : 0 < T) :
    HasDerivAt (fun t => getPopulation .fermi e t mu) (getDndt .fermi e T mu false) T := by
  have hf : (fun t => getPopulation .fermi e t mu) =ᶠ[nhds T] fun t => (Real.exp ((e - mu) * t⁻¹) + 1)⁻¹ := by
    filter_upwards [lt_mem_nhds hT] with t ht
    rw [getPopulation_fermi ht, one_div, div_eq_mul_inv]
  have h1 := (hasDerivAt_inv hT.ne').const_mul (e - mu)
  have h2 := (h1.exp.add_const 1).inv (by have := Real.exp_pos ((e - mu) * T⁻¹); linarith)
  refine HasDerivAt.congr_of_eventuallyEq ?_ hf
  refine HasDerivAt.congr_deriv h2 ?_
  simp only [getDndt, Bool.false_eq_true, if_false, popPopPm1_fermi, div_eq_mul_inv]
  ring

/-- Bosons: the temperature derivative returned is the derivative of the occupation. -/
theorem C45_bose_dndt (e T mu : ℝ) (hT : 0 < T) (he : mu < e) :
    HasDerivAt (fun t => getPopulation .bose e t mu) (getDndt .bose e T mu false) T := by
  have hx : 1 < Real.exp ((e - mu) / T) := Real.one_lt_exp_iff.mpr (div_pos (by linarith) hT)
  have hf : (fun t => getPopulation .bose e t mu) =ᶠ[nhds T] fun t => (Real.exp ((e - mu) * t⁻¹) - 1)⁻¹ := by
    filter_upwards [lt_mem_nhds hT] with t ht
    rw [getPopulation_bose ht he, one_div, div_eq_mul_inv]
  have h1 := (hasDerivAt_inv hT.ne').const_mul (e - mu)
  have h2 := (h1.exp.sub_const 1).inv (by rw [← div_eq_mul_inv]; linarith)
  refine HasDerivAt.congr_of_eventuallyEq ?_ hf
  refine HasDerivAt.congr_deriv h2 ?_
  simp only [getDndt, Bool.false_eq_true, if_false, popPopPm1_bose, div_eq_mul_inv]
  ring

/-- The symmetrised derivatives are the derivatives divided by the square root of the closed form
(which is not negative). -/
theorem C45_symmetrized (s : Statistics) (e T mu : ℝ) : 0 ≤ getPopPopPm1 s e T mu ∧
    getDnde s e T mu true * Real.sqrt (getPopPopPm1 s e T mu) = getDnde s e T mu false ∧
    getDndt s e T mu true * Real.sqrt (getPopPopPm1 s e T mu) = getDndt s e T mu false := by
  have h0 : 0 ≤ getPopPopPm1 s e T mu := by
    simp only [getPopPopPm1, div_div]
    exact div_nonneg (by norm_num) (mul_self_nonneg _)
  refine ⟨h0, ?_, ?_⟩
  · simp only [getDnde, if_true, Bool.false_eq_true, if_false]
    rw [div_mul_eq_mul_div, neg_mul, Real.mul_self_sqrt h0]
  · simp only [getDndt, if_true, Bool.false_eq_true, if_false]
    conv_rhs => rw [← Real.mul_self_sqrt h0]
    ring

/-- At zero temperature the occupation is a step. -/
theorem C45_zero_temperature (s : Statistics) (e mu : ℝ) :
    getPopulation s e 0 mu = if e ≤ mu then 1 else 0 := by
  simp [getPopulation]

example : (0 : ℝ) < 300 ∧ (0 : ℝ) < 1 ∧ getPopulation .fermi 1 2 1 = 1 / 2 := by
  refine ⟨by norm_num, by norm_num, ?_⟩
  rw [getPopulation_fermi (by norm_num)]; norm_num

end Verif.Props

import Verif.Model.Particle
import Mathlib.Tactic.Linarith
import Mathlib.Tactic.FieldSimp
import Mathlib.Tactic.Ring
import Mathlib.Tactic.Positivity

/-! Lemmas for the occupation functions. -/
namespace Verif.Model

theorem getPopulation_fermi {e T mu : ℝ} (hT : 0 < T) :
    getPopulation .fermi e T mu = 1 / (Real.exp ((e - mu) / T) + 1) := by
  have hx := Real.exp_pos ((e - mu) / T)
  have h0 : 0 < 1 / (Real.exp ((e - mu) / T) + 1) := by positivity
  have h1 : 1 / (Real.exp ((e - mu) / T) + 1) ≤ 1 := by
    rw [div_le_one (by linarith)]; linarith
  simp only [getPopulation]
  rw [if_neg (not_le.mpr hT), if_neg (not_lt.mpr h0.le), if_neg (not_lt.mpr h1)]

theorem getPopulation_bose {e T mu : ℝ} (hT : 0 < T) (he : mu < e) :
    getPopulation .bose e T mu = 1 / (Real.exp ((e - mu) / T) - 1) := by
  have hx : 1 < Real.exp ((e - mu) / T) := Real.one_lt_exp_iff.mpr (div_pos (by linarith) hT)
  have h0 : 0 < 1 / (Real.exp ((e - mu) / T) - 1) := by
    apply one_div_pos.mpr; linarith
  simp only [getPopulation]
  rw [if_neg (not_le.mpr hT), if_neg (not_lt.mpr h0.le)]

theorem four_sinh_sq (y : ℝ) : 4 * (Real.sinh (y / 2) * Real.sinh (y / 2)) = (Real.exp y - 1) ^ 2 / Real.exp y := by
  rw [Real.sinh_eq]
  have h : Real.exp y = Real.exp (y / 2) * Real.exp (y / 2) := by rw [← Real.exp_add]; congr 1; ring
  have hp := Real.exp_pos (y / 2)
  rw [Real.exp_neg, h]
  field_simp
  ring

theorem four_cosh_sq (y : ℝ) : 4 * (Real.cosh (y / 2) * Real.cosh (y / 2)) = (Real.exp y + 1) ^ 2 / Real.exp y := by
  rw [Real.cosh_eq]
  have h : Real.exp y = Real.exp (y / 2) * Real.exp (y / 2) := by rw [← Real.exp_add]; congr 1; ring
  have hp := Real.exp_pos (y / 2)
  rw [Real.exp_neg, h]
  field_simp
  ring

theorem popPopPm1_bose (e T mu : ℝ) : getPopPopPm1 .bose e T mu =
    Real.exp ((e - mu) / T) / (Real.exp ((e - mu) / T) - 1) ^ 2 := by
  simp only [getPopPopPm1]
  have h := four_sinh_sq ((e - mu) / T)
  have e1 : (e - mu) / 2 / T = (e - mu) / T / 2 := by ring
  rw [e1, div_div]
  have : (0.25 : ℝ) / (Real.sinh ((e - mu) / T / 2) * Real.sinh ((e - mu) / T / 2)) =
      1 / (4 * (Real.sinh ((e - mu) / T / 2) * Real.sinh ((e - mu) / T / 2))) := by
    rw [one_div, mul_inv, div_eq_mul_inv]; norm_num
  rw [this, h, one_div_div]

theorem popPopPm1_fermi (e T mu : ℝ) : getPopPopPm1 .fermi e T mu =
    Real.exp ((e - mu) / T) / (Real.exp ((e - mu) / T) + 1) ^ 2 := by
  simp only [getPopPopPm1]
  have h := four_cosh_sq ((e - mu) / T)
  have e1 : (e - mu) / 2 / T = (e - mu) / T / 2 := by ring
  rw [e1, div_div]
  have : (0.25 : ℝ) / (Real.cosh ((e - mu) / T / 2) * Real.cosh ((e - mu) / T / 2)) =
      1 / (4 * (Real.cosh ((e - mu) / T / 2) * Real.cosh ((e - mu) / T / 2))) := by
    rw [one_div, mul_inv, div_eq_mul_inv]; norm_num
  rw [this, h, one_div_div]

/-- `n (n + 1)` of the Bose-Einstein occupation. -/
theorem popPopPm1_bose_occ (e T mu : ℝ) : getPopPopPm1 .bose e T mu =
    1 / (Real.exp ((e - mu) / T) - 1) * (1 / (Real.exp ((e - mu) / T) - 1) + 1) := by
  rw [popPopPm1_bose]
  by_cases h : Real.exp ((e - mu) / T) - 1 = 0
  · rw [h]; simp
  · field_simp
    ring

/-- `n (1 - n)` of the Fermi-Dirac occupation. -/
theorem popPopPm1_fermi_occ (e T mu : ℝ) : getPopPopPm1 .fermi e T mu =
    1 / (Real.exp ((e - mu) / T) + 1) * (1 - 1 / (Real.exp ((e - mu) / T) + 1)) := by
  rw [popPopPm1_fermi]
  have h : Real.exp ((e - mu) / T) + 1 ≠ 0 := by positivity
  field_simp
  ring

end Verif.Model

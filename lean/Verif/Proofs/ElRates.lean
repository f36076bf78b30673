import Verif.Model.ElRates
import Verif.Proofs.Particle
import Verif.Proofs.ScatMatrix

/-! Lemmas on the rates of electron-phonon scattering. -/
namespace Verif.Model

/-- `f2 + n3` in terms of hyperbolic functions. -/
theorem fermi_add_bose {e2 e3 T mu : ℝ} (hT : 0 < T) (h3 : 0 < e3) :
    getPopulation .fermi e2 T mu + getPopulation .bose e3 T 0 =
      Real.cosh (((e2 - mu) / T - e3 / T) / 2) / (2 * Real.sinh (0.5 * e3 / T) * Real.cosh ((e2 - mu) / 2 / T)) := by
  rw [getPopulation_fermi hT, getPopulation_bose hT h3]
  have hx3 : 0 < e3 / T := div_pos h3 hT
  rw [show (0.5 * e3 / T : ℝ) = e3 / T / 2 by ring, show (e2 - mu) / 2 / T = (e2 - mu) / T / 2 by ring, sub_zero]
  generalize (e2 - mu) / T = x2
  generalize e3 / T = x3 at *
  have hs : 0 < Real.sinh (x3 / 2) := Real.sinh_pos_iff.mpr (by linarith)
  have hc := Real.cosh_pos (x2 / 2)
  have e1 : Real.exp x3 = Real.exp (x3 / 2) * Real.exp (x3 / 2) := by rw [← Real.exp_add]; congr 1; ring
  have e2' : Real.exp x2 = Real.exp (x2 / 2) * Real.exp (x2 / 2) := by rw [← Real.exp_add]; congr 1; ring
  have h1 : 1 < Real.exp x3 := Real.one_lt_exp_iff.mpr hx3
  have h0 : Real.exp x3 - 1 ≠ 0 := by linarith
  have h2 : Real.exp x2 + 1 ≠ 0 := by have := Real.exp_pos x2; linarith
  rw [eq_div_iff (by positivity)]
  have hs' : Real.sinh (x3 / 2) = (Real.exp x3 - 1) / (2 * Real.exp (x3 / 2)) := by
    rw [Real.sinh_eq, Real.exp_neg, e1]; field_simp
  have hc' : Real.cosh (x2 / 2) = (Real.exp x2 + 1) / (2 * Real.exp (x2 / 2)) := by
    rw [Real.cosh_eq, Real.exp_neg, e2']; field_simp
  have hd' : Real.cosh ((x2 - x3) / 2) = (Real.exp x2 + Real.exp x3) / (2 * (Real.exp (x2 / 2) * Real.exp (x3 / 2))) := by
    rw [Real.cosh_eq, show (x2 - x3) / 2 = x2 / 2 - x3 / 2 by ring, Real.exp_neg, Real.exp_sub, e1, e2']; field_simp
  rw [hs', hc', hd']
  field_simp
  ring

/-- `1 - f2 + n3` in terms of hyperbolic functions. -/
theorem hole_add_bose {e2 e3 T mu : ℝ} (hT : 0 < T) (h3 : 0 < e3) :
    1 - getPopulation .fermi e2 T mu + getPopulation .bose e3 T 0 =
      Real.cosh (((e2 - mu) / T + e3 / T) / 2) / (2 * Real.sinh (0.5 * e3 / T) * Real.cosh ((e2 - mu) / 2 / T)) := by
  -- holes: the opposite of the energy
  have h := fermi_add_bose (e2 := 2 * mu - e2) (mu := mu) hT h3
  have hf : 1 - getPopulation .fermi e2 T mu = getPopulation .fermi (2 * mu - e2) T mu := by
    rw [getPopulation_fermi hT, getPopulation_fermi hT, show (2 * mu - e2 - mu) / T = -((e2 - mu) / T) by ring,
      Real.exp_neg]
    have := Real.exp_pos ((e2 - mu) / T)
    field_simp
    ring
  rw [hf, h]
  congr 1
  · rw [← Real.cosh_neg]; congr 1; ring
  · rw [← Real.cosh_neg ((e2 - mu) / 2 / T)]; congr 2; ring

/-- Square root of `f (1 - f)`. -/
theorem sqrt_popPop_fermi (e T mu : ℝ) :
    Real.sqrt (getPopPopPm1 .fermi e T mu) = 1 / (2 * Real.cosh ((e - mu) / 2 / T)) := by
  have hc := Real.cosh_pos ((e - mu) / 2 / T)
  have : getPopPopPm1 .fermi e T mu = (1 / (2 * Real.cosh ((e - mu) / 2 / T))) ^ 2 := by
    unfold getPopPopPm1
    simp only
    field_simp
    norm_num
  rw [this, Real.sqrt_sq (by positivity)]

/-- The ratio of hyperbolic cosines is within `exp |d|` of one. -/
theorem cosh_ratio (x d : ℝ) : |Real.cosh (x + d) / Real.cosh x - 1| ≤ Real.exp |d| - 1 := by
  have hc := Real.cosh_pos x
  have hs : |Real.sinh x| ≤ Real.cosh x := by
    rw [abs_le]
    have := Real.cosh_sub_sinh x
    have := Real.cosh_add_sinh x
    have := Real.exp_pos x
    have := Real.exp_pos (-x)
    constructor <;> linarith
  have he : Real.cosh (x + d) / Real.cosh x - 1 = (Real.cosh d - 1) + Real.sinh x / Real.cosh x * Real.sinh d := by
    rw [Real.cosh_add]; field_simp; ring
  have hr : |Real.sinh x / Real.cosh x| ≤ 1 := by
    rw [abs_div, abs_of_pos hc, div_le_one hc]; exact hs
  have h1 : 1 ≤ Real.cosh d := Real.one_le_cosh d
  have h2 : |Real.sinh d| = Real.sinh |d| := Real.abs_sinh d
  have h3 : Real.exp |d| = Real.cosh d + |Real.sinh d| := by
    rw [h2, ← Real.cosh_abs d, Real.cosh_add_sinh]
  rw [he, h3]
  calc |(Real.cosh d - 1) + Real.sinh x / Real.cosh x * Real.sinh d|
      ≤ |Real.cosh d - 1| + |Real.sinh x / Real.cosh x * Real.sinh d| := abs_add_le _ _
    _ ≤ (Real.cosh d - 1) + 1 * |Real.sinh d| := by
        rw [abs_of_nonneg (by linarith : (0:ℝ) ≤ Real.cosh d - 1), abs_mul]
        gcongr
    _ = _ := by ring

end Verif.Model

import Verif.Proofs.QeLattice3

namespace Verif.Proofs
open Verif.Model Verif.Spec

/-! ## Parameters that are refused -/

theorem sin_form {x : ℝ} (hx : |x| < 1) : 0 < 1 + 2 * 0 * 0 * x - 0 * 0 - 0 * 0 - x * x ∧ 0 < 1 + 2 * 0 * x * 0 - 0 * 0 - x * x - 0 * 0 := by
  have := sin_pos hx
  constructor <;> linarith

theorem refused_1 (d : Fin 6 → ℝ) (h0 : 0 < d 0) 
    (hp : ∀ c t, bravais 1 d = some (c, t) → ¬ c.proper) : indexLattice 1 d = .error := by
  have hp' := hp _ _ (bravais_1 d)
  exfalso
  apply hp'
  exact ⟨h0, h0, h0, by simp, by simp, by simp, by norm_num⟩

theorem refused_2 (d : Fin 6 → ℝ) (h0 : 0 < d 0) 
    (hp : ∀ c t, bravais 2 d = some (c, t) → ¬ c.proper) : indexLattice 2 d = .error := by
  have hp' := hp _ _ (bravais_2 d)
  exfalso
  apply hp'
  exact ⟨h0, h0, h0, by simp, by simp, by simp, by norm_num⟩

theorem refused_3 (d : Fin 6 → ℝ) (h0 : 0 < d 0) 
    (hp : ∀ c t, bravais 3 d = some (c, t) → ¬ c.proper) : indexLattice 3 d = .error := by
  have hp' := hp _ _ (bravais_3 d)
  exfalso
  apply hp'
  exact ⟨h0, h0, h0, by simp, by simp, by simp, by norm_num⟩

theorem refused_m3 (d : Fin 6 → ℝ) (h0 : 0 < d 0) 
    (hp : ∀ c t, bravais (-3) d = some (c, t) → ¬ c.proper) : indexLattice (-3) d = .error := by
  have hp' := hp _ _ (bravais_m3 d)
  exfalso
  apply hp'
  exact ⟨h0, h0, h0, by simp, by simp, by simp, by norm_num⟩

theorem refused_4 (d : Fin 6 → ℝ) (h0 : 0 < d 0) 
    (hp : ∀ c t, bravais 4 d = some (c, t) → ¬ c.proper) : indexLattice 4 d = .error := by
  have hp' := hp _ _ (bravais_4 d)
  by_cases g2 : d 2 ≤ 0
  · unfold indexLattice
    rw [if_neg (by decide), if_neg (by decide), if_neg (by decide), if_pos rfl, if_pos g2]
  exfalso
  apply hp'
  exact ⟨h0, h0, mul_pos h0 (not_le.mp g2), by simp, by simp, by norm_num [abs_lt], by norm_num⟩

theorem refused_5 (d : Fin 6 → ℝ) (h0 : 0 < d 0) 
    (hp : ∀ c t, bravais 5 d = some (c, t) → ¬ c.proper) : indexLattice 5 d = .error := by
  have hp' := hp _ _ (bravais_5 d)
  by_cases gt : d 3 ≤ -(1 / 2) ∨ 1 ≤ d 3
  · unfold indexLattice
    rw [if_neg (by decide), if_neg (by decide), if_neg (by decide), if_neg (by decide), if_pos (by decide), if_pos gt]
  exfalso
  apply hp'
  simp only [not_or, not_le] at gt
  have hx : |d 3| < 1 := abs_lt.mpr ⟨by linarith [gt.1], gt.2⟩
  refine ⟨h0, h0, h0, hx, hx, hx, ?_⟩
  have e : 1 + 2 * d 3 * d 3 * d 3 - d 3 * d 3 - d 3 * d 3 - d 3 * d 3 = (1 - d 3) * (1 - d 3) * (1 + 2 * d 3) := by ring
  show 0 < 1 + 2 * d 3 * d 3 * d 3 - d 3 * d 3 - d 3 * d 3 - d 3 * d 3
  rw [e]
  exact mul_pos (mul_pos (by linarith [gt.2]) (by linarith [gt.2])) (by linarith [gt.1])

theorem refused_m5 (d : Fin 6 → ℝ) (h0 : 0 < d 0) 
    (hp : ∀ c t, bravais (-5) d = some (c, t) → ¬ c.proper) : indexLattice (-5) d = .error := by
  have hp' := hp _ _ (bravais_m5 d)
  by_cases gt : d 3 ≤ -(1 / 2) ∨ 1 ≤ d 3
  · unfold indexLattice
    rw [if_neg (by decide), if_neg (by decide), if_neg (by decide), if_neg (by decide), if_pos (by decide), if_pos gt]
  exfalso
  apply hp'
  simp only [not_or, not_le] at gt
  have hx : |d 3| < 1 := abs_lt.mpr ⟨by linarith [gt.1], gt.2⟩
  refine ⟨h0, h0, h0, hx, hx, hx, ?_⟩
  have e : 1 + 2 * d 3 * d 3 * d 3 - d 3 * d 3 - d 3 * d 3 - d 3 * d 3 = (1 - d 3) * (1 - d 3) * (1 + 2 * d 3) := by ring
  show 0 < 1 + 2 * d 3 * d 3 * d 3 - d 3 * d 3 - d 3 * d 3 - d 3 * d 3
  rw [e]
  exact mul_pos (mul_pos (by linarith [gt.2]) (by linarith [gt.2])) (by linarith [gt.1])

theorem refused_6 (d : Fin 6 → ℝ) (h0 : 0 < d 0) 
    (hp : ∀ c t, bravais 6 d = some (c, t) → ¬ c.proper) : indexLattice 6 d = .error := by
  have hp' := hp _ _ (bravais_6 d)
  by_cases g2 : d 2 ≤ 0
  · unfold indexLattice
    rw [if_neg (by decide), if_neg (by decide), if_neg (by decide), if_neg (by decide), if_neg (by decide), if_pos rfl, if_pos g2]
  exfalso
  apply hp'
  exact ⟨h0, h0, mul_pos h0 (not_le.mp g2), by simp, by simp, by simp, by norm_num⟩

theorem refused_7 (d : Fin 6 → ℝ) (h0 : 0 < d 0) 
    (hp : ∀ c t, bravais 7 d = some (c, t) → ¬ c.proper) : indexLattice 7 d = .error := by
  have hp' := hp _ _ (bravais_7 d)
  by_cases g2 : d 2 ≤ 0
  · unfold indexLattice
    rw [if_neg (by decide), if_neg (by decide), if_neg (by decide), if_neg (by decide), if_neg (by decide), if_neg (by decide), if_pos rfl, if_pos g2]
  exfalso
  apply hp'
  exact ⟨h0, h0, mul_pos h0 (not_le.mp g2), by simp, by simp, by simp, by norm_num⟩

theorem refused_8 (d : Fin 6 → ℝ) (h0 : 0 < d 0) 
    (hp : ∀ c t, bravais 8 d = some (c, t) → ¬ c.proper) : indexLattice 8 d = .error := by
  have hp' := hp _ _ (bravais_8 d)
  by_cases g1 : d 1 ≤ 0
  · unfold indexLattice
    rw [if_neg (by decide), if_neg (by decide), if_neg (by decide), if_neg (by decide), if_neg (by decide), if_neg (by decide), if_neg (by decide), if_pos rfl, if_pos g1]
  by_cases g2 : d 2 ≤ 0
  · unfold indexLattice
    rw [if_neg (by decide), if_neg (by decide), if_neg (by decide), if_neg (by decide), if_neg (by decide), if_neg (by decide), if_neg (by decide), if_pos rfl, if_neg g1, if_pos g2]
  exfalso
  apply hp'
  exact ⟨h0, mul_pos h0 (not_le.mp g1), mul_pos h0 (not_le.mp g2), by simp, by simp, by simp, by norm_num⟩

theorem refused_9 (d : Fin 6 → ℝ) (h0 : 0 < d 0) 
    (hp : ∀ c t, bravais 9 d = some (c, t) → ¬ c.proper) : indexLattice 9 d = .error := by
  have hp' := hp _ _ (bravais_9 d)
  by_cases g1 : d 1 ≤ 0
  · unfold indexLattice
    rw [if_neg (by decide), if_neg (by decide), if_neg (by decide), if_neg (by decide), if_neg (by decide), if_neg (by decide), if_neg (by decide), if_neg (by decide), if_pos (by decide), if_pos g1]
  by_cases g2 : d 2 ≤ 0
  · unfold indexLattice
    rw [if_neg (by decide), if_neg (by decide), if_neg (by decide), if_neg (by decide), if_neg (by decide), if_neg (by decide), if_neg (by decide), if_neg (by decide), if_pos (by decide), if_neg g1, if_pos g2]
  exfalso
  apply hp'
  exact ⟨h0, mul_pos h0 (not_le.mp g1), mul_pos h0 (not_le.mp g2), by simp, by simp, by simp, by norm_num⟩

theorem refused_m9 (d : Fin 6 → ℝ) (h0 : 0 < d 0) 
    (hp : ∀ c t, bravais (-9) d = some (c, t) → ¬ c.proper) : indexLattice (-9) d = .error := by
  have hp' := hp _ _ (bravais_m9 d)
  by_cases g1 : d 1 ≤ 0
  · unfold indexLattice
    rw [if_neg (by decide), if_neg (by decide), if_neg (by decide), if_neg (by decide), if_neg (by decide), if_neg (by decide), if_neg (by decide), if_neg (by decide), if_pos (by decide), if_pos g1]
  by_cases g2 : d 2 ≤ 0
  · unfold indexLattice
    rw [if_neg (by decide), if_neg (by decide), if_neg (by decide), if_neg (by decide), if_neg (by decide), if_neg (by decide), if_neg (by decide), if_neg (by decide), if_pos (by decide), if_neg g1, if_pos g2]
  exfalso
  apply hp'
  exact ⟨h0, mul_pos h0 (not_le.mp g1), mul_pos h0 (not_le.mp g2), by simp, by simp, by simp, by norm_num⟩

theorem refused_91 (d : Fin 6 → ℝ) (h0 : 0 < d 0) 
    (hp : ∀ c t, bravais 91 d = some (c, t) → ¬ c.proper) : indexLattice 91 d = .error := by
  have hp' := hp _ _ (bravais_91 d)
  by_cases g1 : d 1 ≤ 0
  · unfold indexLattice
    rw [if_neg (by decide), if_neg (by decide), if_neg (by decide), if_neg (by decide), if_neg (by decide), if_neg (by decide), if_neg (by decide), if_neg (by decide), if_neg (by decide), if_pos rfl, if_pos g1]
  by_cases g2 : d 2 ≤ 0
  · unfold indexLattice
    rw [if_neg (by decide), if_neg (by decide), if_neg (by decide), if_neg (by decide), if_neg (by decide), if_neg (by decide), if_neg (by decide), if_neg (by decide), if_neg (by decide), if_pos rfl, if_neg g1, if_pos g2]
  exfalso
  apply hp'
  exact ⟨h0, mul_pos h0 (not_le.mp g1), mul_pos h0 (not_le.mp g2), by simp, by simp, by simp, by norm_num⟩

theorem refused_10 (d : Fin 6 → ℝ) (h0 : 0 < d 0) 
    (hp : ∀ c t, bravais 10 d = some (c, t) → ¬ c.proper) : indexLattice 10 d = .error := by
  have hp' := hp _ _ (bravais_10 d)
  by_cases g1 : d 1 ≤ 0
  · unfold indexLattice
    rw [if_neg (by decide), if_neg (by decide), if_neg (by decide), if_neg (by decide), if_neg (by decide), if_neg (by decide), if_neg (by decide), if_neg (by decide), if_neg (by decide), if_neg (by decide), if_pos rfl, if_pos g1]
  by_cases g2 : d 2 ≤ 0
  · unfold indexLattice
    rw [if_neg (by decide), if_neg (by decide), if_neg (by decide), if_neg (by decide), if_neg (by decide), if_neg (by decide), if_neg (by decide), if_neg (by decide), if_neg (by decide), if_neg (by decide), if_pos rfl, if_neg g1, if_pos g2]
  exfalso
  apply hp'
  exact ⟨h0, mul_pos h0 (not_le.mp g1), mul_pos h0 (not_le.mp g2), by simp, by simp, by simp, by norm_num⟩

theorem refused_11 (d : Fin 6 → ℝ) (h0 : 0 < d 0) 
    (hp : ∀ c t, bravais 11 d = some (c, t) → ¬ c.proper) : indexLattice 11 d = .error := by
  have hp' := hp _ _ (bravais_11 d)
  by_cases g1 : d 1 ≤ 0
  · unfold indexLattice
    rw [if_neg (by decide), if_neg (by decide), if_neg (by decide), if_neg (by decide), if_neg (by decide), if_neg (by decide), if_neg (by decide), if_neg (by decide), if_neg (by decide), if_neg (by decide), if_neg (by decide), if_pos rfl, if_pos g1]
  by_cases g2 : d 2 ≤ 0
  · unfold indexLattice
    rw [if_neg (by decide), if_neg (by decide), if_neg (by decide), if_neg (by decide), if_neg (by decide), if_neg (by decide), if_neg (by decide), if_neg (by decide), if_neg (by decide), if_neg (by decide), if_neg (by decide), if_pos rfl, if_neg g1, if_pos g2]
  exfalso
  apply hp'
  exact ⟨h0, mul_pos h0 (not_le.mp g1), mul_pos h0 (not_le.mp g2), by simp, by simp, by simp, by norm_num⟩

theorem refused_12 (d : Fin 6 → ℝ) (h0 : 0 < d 0) 
    (hp : ∀ c t, bravais 12 d = some (c, t) → ¬ c.proper) : indexLattice 12 d = .error := by
  have hp' := hp _ _ (bravais_12 d)
  by_cases g1 : d 1 ≤ 0
  · unfold indexLattice
    rw [if_neg (by decide), if_neg (by decide), if_neg (by decide), if_neg (by decide), if_neg (by decide), if_neg (by decide), if_neg (by decide), if_neg (by decide), if_neg (by decide), if_neg (by decide), if_neg (by decide), if_neg (by decide), if_pos rfl, if_pos g1]
  by_cases g2 : d 2 ≤ 0
  · unfold indexLattice
    rw [if_neg (by decide), if_neg (by decide), if_neg (by decide), if_neg (by decide), if_neg (by decide), if_neg (by decide), if_neg (by decide), if_neg (by decide), if_neg (by decide), if_neg (by decide), if_neg (by decide), if_neg (by decide), if_pos rfl, if_neg g1, if_pos g2]
  by_cases gc3 : 1 ≤ |d 3|
  · unfold indexLattice
    rw [if_neg (by decide), if_neg (by decide), if_neg (by decide), if_neg (by decide), if_neg (by decide), if_neg (by decide), if_neg (by decide), if_neg (by decide), if_neg (by decide), if_neg (by decide), if_neg (by decide), if_neg (by decide), if_pos rfl, if_neg g1, if_neg g2, if_pos gc3]
  exfalso
  apply hp'
  exact ⟨h0, mul_pos h0 (not_le.mp g1), mul_pos h0 (not_le.mp g2), by simp, by simp, not_le.mp gc3, (sin_form (not_le.mp gc3)).1⟩

theorem refused_m12 (d : Fin 6 → ℝ) (h0 : 0 < d 0) 
    (hp : ∀ c t, bravais (-12) d = some (c, t) → ¬ c.proper) : indexLattice (-12) d = .error := by
  have hp' := hp _ _ (bravais_m12 d)
  by_cases g1 : d 1 ≤ 0
  · unfold indexLattice
    rw [if_neg (by decide), if_neg (by decide), if_neg (by decide), if_neg (by decide), if_neg (by decide), if_neg (by decide), if_neg (by decide), if_neg (by decide), if_neg (by decide), if_neg (by decide), if_neg (by decide), if_neg (by decide), if_neg (by decide), if_pos rfl, if_pos g1]
  by_cases g2 : d 2 ≤ 0
  · unfold indexLattice
    rw [if_neg (by decide), if_neg (by decide), if_neg (by decide), if_neg (by decide), if_neg (by decide), if_neg (by decide), if_neg (by decide), if_neg (by decide), if_neg (by decide), if_neg (by decide), if_neg (by decide), if_neg (by decide), if_neg (by decide), if_pos rfl, if_neg g1, if_pos g2]
  by_cases gc4 : 1 ≤ |d 4|
  · unfold indexLattice
    rw [if_neg (by decide), if_neg (by decide), if_neg (by decide), if_neg (by decide), if_neg (by decide), if_neg (by decide), if_neg (by decide), if_neg (by decide), if_neg (by decide), if_neg (by decide), if_neg (by decide), if_neg (by decide), if_neg (by decide), if_pos rfl, if_neg g1, if_neg g2, if_pos gc4]
  exfalso
  apply hp'
  exact ⟨h0, mul_pos h0 (not_le.mp g1), mul_pos h0 (not_le.mp g2), by simp, not_le.mp gc4, by simp, (sin_form (not_le.mp gc4)).2⟩

theorem refused_13 (d : Fin 6 → ℝ) (h0 : 0 < d 0) 
    (hp : ∀ c t, bravais 13 d = some (c, t) → ¬ c.proper) : indexLattice 13 d = .error := by
  have hp' := hp _ _ (bravais_13 d)
  by_cases g1 : d 1 ≤ 0
  · unfold indexLattice
    rw [if_neg (by decide), if_neg (by decide), if_neg (by decide), if_neg (by decide), if_neg (by decide), if_neg (by decide), if_neg (by decide), if_neg (by decide), if_neg (by decide), if_neg (by decide), if_neg (by decide), if_neg (by decide), if_neg (by decide), if_neg (by decide), if_pos rfl, if_pos g1]
  by_cases g2 : d 2 ≤ 0
  · unfold indexLattice
    rw [if_neg (by decide), if_neg (by decide), if_neg (by decide), if_neg (by decide), if_neg (by decide), if_neg (by decide), if_neg (by decide), if_neg (by decide), if_neg (by decide), if_neg (by decide), if_neg (by decide), if_neg (by decide), if_neg (by decide), if_neg (by decide), if_pos rfl, if_neg g1, if_pos g2]
  by_cases gc3 : 1 ≤ |d 3|
  · unfold indexLattice
    rw [if_neg (by decide), if_neg (by decide), if_neg (by decide), if_neg (by decide), if_neg (by decide), if_neg (by decide), if_neg (by decide), if_neg (by decide), if_neg (by decide), if_neg (by decide), if_neg (by decide), if_neg (by decide), if_neg (by decide), if_neg (by decide), if_pos rfl, if_neg g1, if_neg g2, if_pos gc3]
  exfalso
  apply hp'
  exact ⟨h0, mul_pos h0 (not_le.mp g1), mul_pos h0 (not_le.mp g2), by simp, by simp, not_le.mp gc3, (sin_form (not_le.mp gc3)).1⟩

theorem refused_m13 (d : Fin 6 → ℝ) (h0 : 0 < d 0) 
    (hp : ∀ c t, bravais (-13) d = some (c, t) → ¬ c.proper) : indexLattice (-13) d = .error := by
  have hp' := hp _ _ (bravais_m13 d)
  by_cases g1 : d 1 ≤ 0
  · unfold indexLattice
    rw [if_neg (by decide), if_neg (by decide), if_neg (by decide), if_neg (by decide), if_neg (by decide), if_neg (by decide), if_neg (by decide), if_neg (by decide), if_neg (by decide), if_neg (by decide), if_neg (by decide), if_neg (by decide), if_neg (by decide), if_neg (by decide), if_neg (by decide), if_pos rfl, if_pos g1]
  by_cases g2 : d 2 ≤ 0
  · unfold indexLattice
    rw [if_neg (by decide), if_neg (by decide), if_neg (by decide), if_neg (by decide), if_neg (by decide), if_neg (by decide), if_neg (by decide), if_neg (by decide), if_neg (by decide), if_neg (by decide), if_neg (by decide), if_neg (by decide), if_neg (by decide), if_neg (by decide), if_neg (by decide), if_pos rfl, if_neg g1, if_pos g2]
  by_cases gc4 : 1 ≤ |d 4|
  · unfold indexLattice
    rw [if_neg (by decide), if_neg (by decide), if_neg (by decide), if_neg (by decide), if_neg (by decide), if_neg (by decide), if_neg (by decide), if_neg (by decide), if_neg (by decide), if_neg (by decide), if_neg (by decide), if_neg (by decide), if_neg (by decide), if_neg (by decide), if_neg (by decide), if_pos rfl, if_neg g1, if_neg g2, if_pos gc4]
  exfalso
  apply hp'
  exact ⟨h0, mul_pos h0 (not_le.mp g1), mul_pos h0 (not_le.mp g2), by simp, not_le.mp gc4, by simp, (sin_form (not_le.mp gc4)).2⟩

theorem refused_14 (d : Fin 6 → ℝ) (h0 : 0 < d 0)  (hf : 1 + 2 * d 3 * d 4 * d 5 - d 3 * d 3 - d 4 * d 4 - d 5 * d 5 ≠ 0)
    (hp : ∀ c t, bravais 14 d = some (c, t) → ¬ c.proper) : indexLattice 14 d = .error := by
  have hp' := hp _ _ (bravais_14 d)
  by_cases g1 : d 1 ≤ 0
  · unfold indexLattice
    rw [if_neg (by decide), if_neg (by decide), if_neg (by decide), if_neg (by decide), if_neg (by decide), if_neg (by decide), if_neg (by decide), if_neg (by decide), if_neg (by decide), if_neg (by decide), if_neg (by decide), if_neg (by decide), if_neg (by decide), if_neg (by decide), if_neg (by decide), if_neg (by decide), if_pos rfl, if_pos g1]
  by_cases g2 : d 2 ≤ 0
  · unfold indexLattice
    rw [if_neg (by decide), if_neg (by decide), if_neg (by decide), if_neg (by decide), if_neg (by decide), if_neg (by decide), if_neg (by decide), if_neg (by decide), if_neg (by decide), if_neg (by decide), if_neg (by decide), if_neg (by decide), if_neg (by decide), if_neg (by decide), if_neg (by decide), if_neg (by decide), if_pos rfl, if_neg g1, if_pos g2]
  by_cases gc3 : 1 ≤ |d 3|
  · unfold indexLattice
    rw [if_neg (by decide), if_neg (by decide), if_neg (by decide), if_neg (by decide), if_neg (by decide), if_neg (by decide), if_neg (by decide), if_neg (by decide), if_neg (by decide), if_neg (by decide), if_neg (by decide), if_neg (by decide), if_neg (by decide), if_neg (by decide), if_neg (by decide), if_neg (by decide), if_pos rfl, if_neg g1, if_neg g2, if_pos gc3]
  by_cases gc4 : 1 ≤ |d 4|
  · unfold indexLattice
    rw [if_neg (by decide), if_neg (by decide), if_neg (by decide), if_neg (by decide), if_neg (by decide), if_neg (by decide), if_neg (by decide), if_neg (by decide), if_neg (by decide), if_neg (by decide), if_neg (by decide), if_neg (by decide), if_neg (by decide), if_neg (by decide), if_neg (by decide), if_neg (by decide), if_pos rfl, if_neg g1, if_neg g2, if_neg gc3, if_pos gc4]
  by_cases gc5 : 1 ≤ |d 5|
  · unfold indexLattice
    rw [if_neg (by decide), if_neg (by decide), if_neg (by decide), if_neg (by decide), if_neg (by decide), if_neg (by decide), if_neg (by decide), if_neg (by decide), if_neg (by decide), if_neg (by decide), if_neg (by decide), if_neg (by decide), if_neg (by decide), if_neg (by decide), if_neg (by decide), if_neg (by decide), if_pos rfl, if_neg g1, if_neg g2, if_neg gc3, if_neg gc4, if_pos gc5]
  by_cases gT : 1 + 2 * d 3 * d 4 * d 5 - d 3 * d 3 - d 4 * d 4 - d 5 * d 5 < 0
  · unfold indexLattice
    rw [if_neg (by decide), if_neg (by decide), if_neg (by decide), if_neg (by decide), if_neg (by decide), if_neg (by decide), if_neg (by decide), if_neg (by decide), if_neg (by decide), if_neg (by decide), if_neg (by decide), if_neg (by decide), if_neg (by decide), if_neg (by decide), if_neg (by decide), if_neg (by decide), if_pos rfl, if_neg g1, if_neg g2, if_neg gc3, if_neg gc4, if_neg gc5]
    exact if_pos gT
  exfalso
  apply hp'
  exact ⟨h0, mul_pos h0 (not_le.mp g1), mul_pos h0 (not_le.mp g2), not_le.mp gc3, not_le.mp gc4, not_le.mp gc5, lt_of_le_of_ne (not_lt.mp gT) hf.symm⟩

theorem index_refused (i : Int) (d : Fin 6 → ℝ) (h0 : 0 < d 0) (hi : i ≠ 0)
    (hf : i = 14 → 1 + 2 * d 3 * d 4 * d 5 - d 3 * d 3 - d 4 * d 4 - d 5 * d 5 ≠ 0)
    (hp : ∀ c t, bravais i d = some (c, t) → ¬ c.proper) : indexLattice i d = .error := by
  by_cases hn : bravais i d = none
  · have hc : ¬ (i = 1 ∨ i = 2 ∨ i = 3 ∨ i = -3 ∨ i = 4 ∨ i = 5 ∨ i = -5 ∨ i = 6 ∨ i = 7 ∨ i = 8 ∨ i = 9 ∨ i = -9 ∨ i = 91 ∨ i = 10 ∨ i = 11 ∨ i = 12 ∨ i = -12 ∨ i = 13 ∨ i = -13 ∨ i = 14) := by
      rintro (rfl | rfl | rfl | rfl | rfl | rfl | rfl | rfl | rfl | rfl | rfl | rfl | rfl | rfl | rfl | rfl | rfl | rfl | rfl | rfl)
      · rw [bravais_1] at hn; cases hn
      · rw [bravais_2] at hn; cases hn
      · rw [bravais_3] at hn; cases hn
      · rw [bravais_m3] at hn; cases hn
      · rw [bravais_4] at hn; cases hn
      · rw [bravais_5] at hn; cases hn
      · rw [bravais_m5] at hn; cases hn
      · rw [bravais_6] at hn; cases hn
      · rw [bravais_7] at hn; cases hn
      · rw [bravais_8] at hn; cases hn
      · rw [bravais_9] at hn; cases hn
      · rw [bravais_m9] at hn; cases hn
      · rw [bravais_91] at hn; cases hn
      · rw [bravais_10] at hn; cases hn
      · rw [bravais_11] at hn; cases hn
      · rw [bravais_12] at hn; cases hn
      · rw [bravais_m12] at hn; cases hn
      · rw [bravais_13] at hn; cases hn
      · rw [bravais_m13] at hn; cases hn
      · rw [bravais_14] at hn; cases hn
    simp only [not_or] at hc
    have e3 : i.natAbs ≠ 3 := by omega
    have e5 : i.natAbs ≠ 5 := by omega
    have e9 : i.natAbs ≠ 9 := by omega
    simp [indexLattice, hc, e3, e5, e9]
  · rcases bravais_index i d hn with rfl | rfl | rfl | rfl | rfl | rfl | rfl | rfl | rfl | rfl | rfl | rfl | rfl | rfl | rfl | rfl | rfl | rfl | rfl | rfl
    · exact refused_1 d h0 hp
    · exact refused_2 d h0 hp
    · exact refused_3 d h0 hp
    · exact refused_m3 d h0 hp
    · exact refused_4 d h0 hp
    · exact refused_5 d h0 hp
    · exact refused_m5 d h0 hp
    · exact refused_6 d h0 hp
    · exact refused_7 d h0 hp
    · exact refused_8 d h0 hp
    · exact refused_9 d h0 hp
    · exact refused_m9 d h0 hp
    · exact refused_91 d h0 hp
    · exact refused_10 d h0 hp
    · exact refused_11 d h0 hp
    · exact refused_12 d h0 hp
    · exact refused_m12 d h0 hp
    · exact refused_13 d h0 hp
    · exact refused_m13 d h0 hp
    · exact refused_14 d h0 (hf rfl) hp

end Verif.Proofs

import Mathlib.Analysis.Complex.Basic

/-!
# Specification: strength of isotope scattering between two phonons
-/
namespace Verif.Spec

/-- Tamura's mass-disorder factor between the modes `ib1` and `ib2`: the sum over the atoms of the isotope coupling `g`
times the squared overlap of the polarization vectors of the atom.  No masses. -/
noncomputable def massDisorder {A : Nat} {β : Type} (g : Fin A → ℝ) (e1 e2 : Fin A × Fin 3 → β → ℂ) (ib1 ib2 : β) : ℝ :=
  ∑ a : Fin A, g a * ‖∑ k : Fin 3, star (e1 (a, k) ib1) * e2 (a, k) ib2‖ ^ 2

end Verif.Spec

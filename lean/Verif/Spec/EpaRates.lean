import Verif.Model.Particle
import Mathlib.Analysis.SpecialFunctions.Trigonometric.Basic

/-! # What the scattering rate of the electron-phonon averaged approximation is -/
namespace Verif.Spec
open Verif.Model

/-- Linear interpolation of `dos 0, ..., dos (n - 1)` at `x`, between `0` and `n - 1`; zero outside. -/
noncomputable def interpolated (dos : Nat → ℝ) (n : Nat) (x : ℝ) : ℝ :=
  if 0 ≤ x ∧ x ≤ (n : ℝ) - 1 then
    (1 - Int.fract x) * dos ⌊x⌋.toNat + Int.fract x * dos (⌊x⌋.toNat + 1)
  else 0

/-- Rate of scattering out of (and into) a state of energy `e`: absorption and emission of phonons of the averaged
energies `omegas`, with squared coupling `g nu e e'` and `rho e'` final states per energy and volume.  Electrons keep
their spin, so that `rho` counts final states of one spin. -/
noncomputable def averagedRate (volume temp chemPot : ℝ) (omegas : List ℝ) (g : Nat → ℝ → ℝ → ℝ) (rho : ℝ → ℝ) (e : ℝ) : ℝ :=
  2 * Real.pi * volume * ((List.range omegas.length).map fun nu =>
    let w := omegas.getD nu 0
    g nu e (e + w) * (getPopulation .bose w temp 0 + getPopulation .fermi (e + w) temp chemPot) * rho (e + w) +
    g nu e (e - w) * (getPopulation .bose w temp 0 + 1 - getPopulation .fermi (e - w) temp chemPot) * rho (e - w)).sum

end Verif.Spec

import Verif.Model.ElRates
import Verif.Props.Delta

/-! Vocabulary of the statements on electron-phonon rates. -/
namespace Verif.Spec
open Verif.Model Verif.Props

/-- Fermi-Dirac function. -/
noncomputable def fermiDirac (e T mu : ℝ) : ℝ := 1 / (Real.exp ((e - mu) / T) + 1)

/-- Change of the equilibrium population of a state (divided by `sqrt (f (1 - f))`) when electrons are added: the
symmetrised scattering matrix must not change it. -/
noncomputable def addedElectrons (p : ElSetup) (e : ℝ) : ℝ :=
  Real.sqrt (fermiDirac e p.temperature p.mu * (1 - fermiDirac e p.temperature p.mu))

/-- Smearing schemes that electrons may use. -/
def ElSmearing : Smearing → Prop
  | .gaussian w => 0 < w
  | .adaptive c _ => GoodConsts c
  | .tetra _ => False

/-- Physical parameters: positive temperature, norm and cutoff. -/
structure GoodElSetup (p : ElSetup) : Prop where
  smearing : ElSmearing p.smearing
  temperature : 0 < p.temperature
  norm : 0 ≤ p.norm
  cutoff : 0 < p.phononCutoff

/-- Absorption and emission happen only with exact conservation of energy. -/
def Elastic (p : ElSetup) (t : ElProcess) : Prop :=
  (elDelta1 p.smearing t.s1 t.s2 t.e3 ≠ 0 → t.s1.energy + t.e3 = t.s2.energy) ∧
  (elDelta2 p.smearing t.s1 t.s2 t.e3 ≠ 0 → t.s1.energy = t.s2.energy + t.e3)

/-- Weight of the violation of energy conservation in a process: each delta function times `exp (|mismatch|/2kT) - 1`,
relative to the off-diagonal rate. -/
noncomputable def mismatchWeight (p : ElSetup) (t : ElProcess) : ℝ :=
  (Real.exp (|t.s1.energy + t.e3 - t.s2.energy| / (2 * p.temperature)) - 1) * elDelta1 p.smearing t.s1 t.s2 t.e3 +
  (Real.exp (|t.s1.energy - t.e3 - t.s2.energy| / (2 * p.temperature)) - 1) * elDelta2 p.smearing t.s1 t.s2 t.e3

/-- The process seen from the other electron state. -/
def reverse (t : ElProcess) : ElProcess := ⟨t.b2, t.b1, t.s2, t.s1, t.e3, t.coupling⟩

end Verif.Spec

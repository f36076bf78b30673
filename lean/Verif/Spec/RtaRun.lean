import Verif.Spec.Transport
import Verif.Spec.Report
import Verif.Model.RtaRun

/-!
# Textbook formulas of the relaxation time approximation

Sums over all the states of the full mesh, in atomic units (with the Boltzmann constant equal to one).
-/
namespace Verif.Spec
open Verif.Model

/-- Bose-Einstein occupation. -/
noncomputable def boseOccupation (energy temp : ℝ) : ℝ := 1 / (Real.exp (energy / temp) - 1)

/-- Fermi-Dirac occupation. -/
noncomputable def fermiOccupation (energy temp chemPot : ℝ) : ℝ := 1 / (Real.exp ((energy - chemPot) / temp) + 1)

/-- Thermal conductivity of phonons: `1/(N V) Σ C v v τ`, with the heat capacity `C = E² n(n+1) / T²` of a mode and its
relaxation time `τ = 1 / rate`; modes below `cutoff` are left out. -/
noncomputable def peierlsConductivity (numStates numPoints : Nat) (volume temp cutoff : ℝ) (energy rate : Nat → ℝ)
    (v : Nat → Vec3) (i j : Fin 3) : ℝ :=
  (∑ s ∈ Finset.range numStates, if energy s < cutoff then 0 else
    energy s ^ 2 * (boseOccupation (energy s) temp * (boseOccupation (energy s) temp + 1)) / temp ^ 2 * (1 / rate s) *
      v s i * v s j) / (numPoints * volume)

/-- Moments of electrons: `g/(N V) Σ τ (-∂f/∂ε) (ε - μ)^p v v`, with `-∂f/∂ε = f(1-f)/T`. -/
noncomputable def electronMoment (numStates numPoints : Nat) (volume spin temp chemPot : ℝ) (energy rate : Nat → ℝ)
    (v : Nat → Vec3) (p : Nat) : Mat3 := fun i j =>
  spin * (∑ s ∈ Finset.range numStates, 1 / rate s *
    (fermiOccupation (energy s) temp chemPot * (1 - fermiOccupation (energy s) temp chemPot) / temp) *
      (energy s - chemPot) ^ p * v s i * v s j) / (numPoints * volume)

/-- The tables of numbers under the lines of the terminal that start with the word `w`. -/
def tablesUnder (w : String) (terminal : List Line) : List (List (List ℝ)) :=
  (blocks w terminal).map fun b => (b.2.takeWhile fun l => !l.isEmpty).map numbersOf

/-- `rate` are the scattering rates of the states: either those that `constantRelaxationTime` stands for in the program
(`2π` over it, see C135), or those on the diagonal of the scattering matrix of the irreducible states that are kept, which
the program holds as they are (`omega`) or multiplied by `factor`, the product of the populations. -/
def RatesOf (S : RtaSetup) (keep : Nat → Prop) (factor rate : Nat → Nat → ℝ) : Prop :=
  (∃ T, S.crt = some T ∧ 0 < T ∧ ∀ c s, rate c s = 2 * Real.pi / T) ∨
  ((∀ T, S.crt = some T → T ≤ 0) ∧ ∀ c < S.numCalc, ∀ is ∈ S.B.irr, keep is →
    S.diag c (S.B.toBte is) = if S.omega then rate c is else factor c is * rate c is)

end Verif.Spec

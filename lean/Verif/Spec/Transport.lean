import Verif.Model.Crystal
import Verif.Model.Particle

/-!
# What transport coefficients are

Quantities on the full mesh of wavevectors, without any reduction by symmetry, distribution or schedule.
-/
namespace Verif.Spec
open Verif.Model

/-- The states of the full mesh, numbered from `0` to `numStates - 1`, are the images of the irreducible ones: the `k`-th
rotation of irreducible state `is` sends it to the `k`-th state of the list `star is`. -/
structure Unfolding (irr : List Nat) (rots : Nat → List Mat3) (star : Nat → List Nat) (numStates : Nat) : Prop where
  cover : (irr.flatMap star).Perm (List.range numStates)
  pair : ∀ is ∈ irr, (rots is).length = (star is).length

/-- A number that has the symmetry of the crystal: the same on all the states of a star. -/
def Invariant {α : Type} (irr : List Nat) (star : Nat → List Nat) (e : Nat → α) : Prop :=
  ∀ is ∈ irr, ∀ s ∈ star is, e s = e is

/-- A vector that has the symmetry of the crystal: rotated with the state. -/
def Covariant (irr : List Nat) (rots : Nat → List Mat3) (star : Nat → List Nat) (x : Nat → Vec3) : Prop :=
  ∀ is ∈ irr, ∀ p ∈ (rots is).zip (star is), x p.2 = matVec p.1 (x is)

/-- Component `(i, j)` of the average of `w x_i v_j` over the crystal: sum over the states of the mesh, divided by the
number of wavevectors and the volume of the cell. -/
noncomputable def crystalAverage (numStates numPoints : Nat) (volume : ℝ) (x v : Nat → Vec3) (w : Nat → ℝ) (i j : Fin 3) : ℝ :=
  (∑ s ∈ Finset.range numStates, w s * x s i * v s j) / (numPoints * volume)

/-- Electrons in the relaxation time approximation: the change of the occupation of a state of velocity `v` under the
force `E` and the temperature gradient `g` (solution of `v·E ∂f/∂ε + v·g ∂f/∂T = - δf / τ`). -/
noncomputable def rtaResponse (temp chemPot energy tau : ℝ) (v E g : Vec3) : ℝ :=
  -tau * (getDnde .fermi energy temp chemPot false * vdot v E + getDndt .fermi energy temp chemPot false * vdot v g)

/-- The flux `spin / (N V) Σ_s w(s) δf(s) v(s)`: the current of particles for `w = 1`, the current of heat for
`w = ε - μ`. -/
noncomputable def flux (numStates numPoints : Nat) (volume spin : ℝ) (v : Nat → Vec3) (w df : Nat → ℝ) : Vec3 :=
  fun j => spin * (∑ s ∈ Finset.range numStates, w s * df s * v s j) / (numPoints * volume)

/-- Moments of the transport distribution `sigma(ε) = v2(ε) / rate(ε)` over the energies in `S`, spaced by `step`:
`K_p = g/(2π)^d Σ sigma(ε) (-∂f/∂ε) (ε - μ)^p step`.  In this notation the conductivity is `K_0`, the Seebeck coefficient
`- K_0⁻¹ K_1 / T` and the thermal conductivity without current `(K_2 - K_1 K_0⁻¹ K_1) / T`. -/
noncomputable def energyMoment {d : Nat} (S : Finset Nat) (spin temp chemPot step : ℝ) (energies : Nat → ℝ)
    (v2 : Fin d → Fin d → Nat → ℝ) (rate : Nat → ℝ) (p : Nat) : Matrix (Fin d) (Fin d) ℝ := fun a b =>
  spin / (2 * Real.pi) ^ d * ∑ k ∈ S, v2 a b k / rate k * (-getDnde .fermi (energies k) temp chemPot false) *
    (energies k - chemPot) ^ p * step

/-- The energy of a crystal per volume, measured from the chemical potential: `g/(N V) Σ (ε - μ) n(ε)`. -/
noncomputable def energyDensity (s : Statistics) (numStates numPoints : Nat) (volume spin chemPot : ℝ) (energy : Nat → ℝ)
    (temp : ℝ) : ℝ :=
  spin * (∑ k ∈ Finset.range numStates, (energy k - chemPot) * getPopulation s (energy k) temp chemPot) / (numPoints * volume)

/-- What one atomic unit of conductance per length is in SI units, in `d` dimensions: `e² / ħ · a0^(2-d)`, in `S m^(2-d)`. -/
noncomputable def siConductivity (charge hbar bohr : ℝ) (d : Nat) : ℝ := charge ^ 2 / hbar * bohr ^ (2 - (d : ℤ))

/-- What one atomic unit of thermal conductance per length is in SI units: `kB Ry / ħ · a0^(2-d)`, in `W/K m^(2-d)`. -/
noncomputable def siThermal (boltzmann rydberg hbar bohr : ℝ) (d : Nat) : ℝ :=
  boltzmann * rydberg / hbar * bohr ^ (2 - (d : ℤ))

/-- What one atomic unit of heat capacity per volume is in SI units: `kB a0^(-d)`, in `J/K/m^d`. -/
noncomputable def siHeat (boltzmann bohr : ℝ) (d : Nat) : ℝ := boltzmann * bohr ^ (-(d : ℤ))

/-- A symmetric matrix whose quadratic form is never negative. -/
def IsConductivity {d : Nat} (k : Matrix (Fin d) (Fin d) ℝ) : Prop :=
  (∀ i j, k i j = k j i) ∧ ∀ x : Fin d → ℝ, 0 ≤ ∑ i, ∑ j, x i * k i j * x j

end Verif.Spec

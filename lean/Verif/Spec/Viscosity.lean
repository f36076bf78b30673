import Verif.Spec.Transport

/-!
# What the viscosity is

The response of the flux of crystal momentum to a gradient of the drift velocity.
-/
namespace Verif.Spec
open Verif.Model

/-- The sum over the states of the mesh of `g n(n±1) τ q_i v_j q_k v_l / T`, per volume. -/
noncomputable def meshViscosity (numStates numPoints : Nat) (volume spin temp : ℝ) (q v : Nat → Vec3) (pop tau : Nat → ℝ)
    (i j k l : Fin 3) : ℝ :=
  spin * (∑ s ∈ Finset.range numStates, pop s * tau s * q s i * v s j * q s k * v s l) / (temp * numPoints * volume)

/-- A viscosity in the relaxation time approximation: symmetric when the two momenta, the two velocities or both are
exchanged, and never negative as a quadratic form on the gradients `x` of the drift velocity. -/
structure IsViscosity (eta : Fin 3 → Fin 3 → Fin 3 → Fin 3 → ℝ) : Prop where
  momenta : ∀ i j k l, eta i j k l = eta k j i l
  velocities : ∀ i j k l, eta i j k l = eta i l k j
  positive : ∀ x : Fin 3 → Fin 3 → ℝ, 0 ≤ ∑ i, ∑ j, ∑ k, ∑ l, x i j * eta i j k l * x k l

/-- The overlap of the flux of momentum `q_i v_j √(n(n±1))` with relaxon `alpha`. -/
noncomputable def momentumFlux (numStates : Nat) (q v : Nat → Vec3) (pop : Nat → ℝ) (theta : Nat → Nat → ℝ) (i j : Fin 3)
    (alpha : Nat) : ℝ :=
  ∑ s ∈ Finset.range numStates, q s i * v s j * Real.sqrt (pop s) * theta s alpha

/-- The viscosity as a sum over the relaxons: each one relaxes with the rate `eig alpha` (Simoncelli, Marzari, Cepellotti
2020); `use` are the relaxons that count. -/
noncomputable def relaxonViscosity (numStates numPoints : Nat) (volume spin temp : ℝ) (q v : Nat → Vec3) (pop : Nat → ℝ)
    (theta : Nat → Nat → ℝ) (eig : Nat → ℝ) (use : Finset Nat) (i j k l : Fin 3) : ℝ :=
  spin * (∑ a ∈ use, (momentumFlux numStates q v pop theta i j a * momentumFlux numStates q v pop theta k l a +
    momentumFlux numStates q v pop theta i l a * momentumFlux numStates q v pop theta k j a) / 2 / eig a) /
    (temp * numPoints * volume)

/-- The relaxons `0, …, numRelaxons - 1` are orthonormal vectors on the states. -/
def OrthonormalRelaxons (numStates numRelaxons : Nat) (theta : Nat → Nat → ℝ) : Prop :=
  ∀ a < numRelaxons, ∀ b < numRelaxons, ∑ s ∈ Finset.range numStates, theta s a * theta s b = if a = b then 1 else 0

/-- Every pair (state, relaxon) is on exactly one process. -/
def PairsDistributed (locals : Nat → List (Nat × Nat)) (size numStates numColumns : Nat) : Prop :=
  ((List.range size).flatMap locals).Perm ((List.range numStates).flatMap fun s => (List.range numColumns).map fun a => (s, a))

/-- The vector `x` on the states, scaled to norm one. -/
noncomputable def unitVector (numStates : Nat) (x : Nat → ℝ) (s : Nat) : ℝ :=
  x s / Real.sqrt (∑ r ∈ Finset.range numStates, x r ^ 2)

/-- What one atomic unit of viscosity is in SI units, in `d` dimensions: `ħ / a0^d`, in `Pa s m^(3-d)`. -/
noncomputable def siViscosity (hbar bohr : ℝ) (d : Nat) : ℝ := hbar * bohr ^ (-(d : ℤ))

end Verif.Spec

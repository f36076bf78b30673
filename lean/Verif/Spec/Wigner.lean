import Verif.Spec.Transport
import Mathlib.Data.Complex.BigOperators
import Mathlib.LinearAlgebra.UnitaryGroup
import Mathlib.Analysis.SpecialFunctions.Exp

/-!
# Coherences between bands

The Wigner transport equation: besides the occupations, the off-diagonal elements of the density matrix between two bands
of the same wavevector carry heat and charge.  `v s b b' i` is component `i` of the velocity operator between bands `b` and
`b'` of wavevector `s`.
-/
namespace Verif.Spec
open Verif.Model Matrix

/-- The velocity operator is Hermitian. -/
def HermitianVel (v : Nat → Nat → Nat → Fin 3 → ℂ) : Prop := ∀ s b b' i, v s b' b i = starRingEnd ℂ (v s b b' i)

/-- The velocity operator has the symmetry of the crystal: at a rotated wavevector it is the rotated operator, up to the
phases of the eigenvectors. -/
def CovariantVel (irr : List Nat) (rots : Nat → List Mat3) (star : Nat → List Nat) (v : Nat → Nat → Nat → Fin 3 → ℂ) : Prop :=
  ∀ is ∈ irr, ∀ p ∈ (rots is).zip (star is), ∃ θ : Nat → ℝ, ∀ b b' i,
    v p.2 b b' i = Complex.exp (((θ b - θ b' : ℝ) : ℂ) * Complex.I) * ∑ j, ((p.1 i j : ℝ) : ℂ) * v is b b' j

/-- The heat carried by the coherence of two phonon modes with energies `e, e'`, occupations `n, n'` and linewidths
`g, g'` (Simoncelli, Marzari, Mauri 2019): for equal modes it is `e² n (n+1) / (T² g)`, the weight of the relaxation time
approximation. -/
noncomputable def phononWeight (temp e e' n n' g g' : ℝ) : ℝ :=
  (e + e') / 2 * ((e * n * (n + 1) + e' * n' * (n' + 1)) / temp ^ 2) * ((g + g') / (4 * (e - e') ^ 2 + (g + g') ^ 2))

/-- The sum over the mesh of `weight Re (v_bb' v_b'b)`, over the pairs of bands that `keep` selects. -/
noncomputable def pairSum (numQ numPoints : Nat) (numBands : Nat → Nat) (volume : ℝ) (v : Nat → Nat → Nat → Fin 3 → ℂ)
    (weight : Nat → Nat → Nat → ℝ) (keep : Nat → Nat → Prop) [∀ b b', Decidable (keep b b')] (i j : Fin 3) : ℝ :=
  (∑ s ∈ Finset.range numQ, ∑ b ∈ Finset.range (numBands s), ∑ b' ∈ Finset.range (numBands s),
    if keep b b' then weight s b b' * (v s b b' i * v s b' b j).re else 0) / (numPoints * volume)

/-- `v'` is the velocity operator in another choice of the eigenvectors: at each wavevector the states are mixed by a
unitary matrix, only among modes with the same energy and linewidth. -/
def OtherEigenvectors (numQ : Nat) (numBands : Nat → Nat) (energy rate : Nat → Nat → ℝ)
    (v v' : Nat → Nat → Nat → Fin 3 → ℂ) : Prop :=
  ∀ s < numQ, ∃ U ∈ Matrix.unitaryGroup (Fin (numBands s)) ℂ,
    (∀ b c, U b c ≠ 0 → energy s b = energy s c ∧ rate s b = rate s c) ∧
    ∀ i, (Matrix.of fun b c : Fin (numBands s) => v' s b c i) = Uᴴ * (Matrix.of fun b c : Fin (numBands s) => v s b c i) * U

/-- The conductivity of the relaxation time approximation: the sum over the mesh of `e² n (n+1) / T² v v / g`, with the
velocities of the modes on the diagonal of the velocity operator. -/
noncomputable def rtaConductivity (numQ numPoints : Nat) (numBands : Nat → Nat) (volume temp : ℝ) (energy n rate : Nat → Nat → ℝ)
    (v : Nat → Nat → Nat → Fin 3 → ℂ) (i j : Fin 3) : ℝ :=
  (∑ s ∈ Finset.range numQ, ∑ b ∈ Finset.range (numBands s),
    energy s b ^ 2 * n s b * (n s b + 1) / temp ^ 2 * (v s b b i).re * (v s b b j).re / rate s b) / (numPoints * volume)

/-- The response of an electronic coherence to a force: the solution `f` of
`(g + g')/2 f + i (e - e') f = - source v`, where `source` is `(f₁ - f₂)/(e - e')` for an electric field and
`(∂f₁/∂T + ∂f₂/∂T)/2` for a gradient of the temperature. -/
noncomputable def coherence (e e' g g' source : ℝ) (v : ℂ) : ℂ :=
  -((source : ℂ) * v) / (((g + g') / 2 : ℝ) + ((e - e' : ℝ) : ℂ) * Complex.I)

/-- The flux `spin/(N V) Σ w Re (v_b'b f_bb')` over the pairs of different bands; `w` is one for the current, and the mean
energy from the chemical potential for the heat. -/
noncomputable def coherentFlux (numQ numPoints : Nat) (numBands : Nat → Nat) (volume spin : ℝ) (v : Nat → Nat → Nat → Fin 3 → ℂ)
    (w : Nat → Nat → Nat → ℝ) (f : Nat → Nat → Nat → Fin 3 → ℂ) (i j : Fin 3) : ℝ :=
  spin * (∑ s ∈ Finset.range numQ, ∑ b ∈ Finset.range (numBands s), ∑ b' ∈ Finset.range (numBands s),
    if b ≠ b' then w s b b' * (v s b' b i * f s b b' j).re else 0) / (numPoints * volume)

/-- Time reversal: wavevector `bar s` is the opposite of `s`, with the same energies and linewidths, and the velocity
operator changes sign and is conjugated. -/
structure TimeReversal (numQ : Nat) (bar : Nat → Nat) (numBands : Nat → Nat) (energy rate : Nat → Nat → ℝ) (v : Nat → Nat → Nat → Fin 3 → ℂ) : Prop where
  range : ∀ s < numQ, bar s < numQ
  invol : ∀ s < numQ, bar (bar s) = s
  bands : ∀ s < numQ, numBands (bar s) = numBands s
  energy : ∀ s < numQ, ∀ b, energy (bar s) b = energy s b
  rate : ∀ s < numQ, ∀ b, rate (bar s) b = rate s b
  vel : ∀ s < numQ, ∀ b b' i, v (bar s) b b' i = -starRingEnd ℂ (v s b b' i)

end Verif.Spec

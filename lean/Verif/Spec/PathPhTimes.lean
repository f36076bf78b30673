import Verif.Model.PathPhTimes
import Verif.Spec.PathTimes

/-! # Specification: lifetimes of phonons along a path -/
namespace Verif.Spec
open Verif.Model

/-- Group velocity of a phonon. -/
noncomputable def phononVelocity (A : PathPhApp) (q : Vec3) (b : Nat) : Vec3 := fun i => (A.H.velocity q b b i.val).re

/-- Delta function of the energy `x`, with the width set by the difference of the velocities of two phonons. -/
noncomputable def phononDelta (A : PathPhApp) (x : ℝ) (q : Vec3) (b : Nat) (q' : Vec3) (b' : Nat) : ℝ :=
  deltaValue A.smearing x fun i => phononVelocity A q b i - phononVelocity A q' b' i

/-- `(q, b) + (q2, b2) → (q + q2, b3)`, in equilibrium. -/
noncomputable def coalescence (A : PathPhApp) (T : ℝ) (q : Vec3) (b : Nat) (q2 : Vec3) (b2 b3 : Nat) : ℝ :=
  let q3 : Vec3 := fun i => q i + q2 i
  let n := fun q b => boseOccupation (A.H.energy q b) T
  if A.H.energy q3 b3 < A.cutoff then 0 else
    A.plus q q2 b b2 b3 / (A.H.energy q b * A.H.energy q2 b2 * A.H.energy q3 b3) * (n q b * n q2 b2 * (n q3 b3 + 1)) *
      phononDelta A (A.H.energy q b + A.H.energy q2 b2 - A.H.energy q3 b3) q2 b2 q3 b3

/-- `(q, b) + (q3, b3) → (q2, b2)` and `(q, b) → (q2, b2) + (q3, b3)`, where `q3` is, up to its sign, `q - q2`, in equilibrium. -/
noncomputable def decay (A : PathPhApp) (T : ℝ) (q : Vec3) (b : Nat) (q2 : Vec3) (b2 b3 : Nat) : ℝ :=
  let q3 : Vec3 := fun i => q i - q2 i
  let n := fun q b => boseOccupation (A.H.energy q b) T
  if A.H.energy q3 b3 < A.cutoff then 0 else
    A.minus q q2 b b2 b3 / (A.H.energy q b * A.H.energy q2 b2 * A.H.energy q3 b3) *
      (n q b * n q3 b3 * (n q2 b2 + 1) *
          phononDelta A (A.H.energy q b + A.H.energy q3 b3 - A.H.energy q2 b2) q2 b2 q3 b3 +
        n q2 b2 * n q3 b3 * (n q b + 1) *
          phononDelta A (A.H.energy q2 b2 + A.H.energy q3 b3 - A.H.energy q b) q2 b2 q3 b3)

/-- Scattering by isotopes, `(q, b) → (q2, b2)`; the width of the adaptive delta function is set by the mean over the two
velocities. -/
noncomputable def isotopes (A : PathPhApp) (T : ℝ) (q : Vec3) (b : Nat) (q2 : Vec3) (b2 : Nat) : ℝ :=
  let n := fun q b => boseOccupation (A.H.energy q b) T
  let x := A.H.energy q b - A.H.energy q2 b2
  match A.overlap with
  | none => 0
  | some o => A.H.energy q b * A.H.energy q2 b2 * o q q2 b b2 * (n q b * n q2 b2 + (n q b + n q2 b2) / 2) *
      ((deltaValue A.smearing x (phononVelocity A q b) + deltaValue A.smearing x (phononVelocity A q2 b2)) / 2)

/-- The rate of all the processes of a phonon in equilibrium: the sum over the mesh, without the phonons below
0.1 cm^-1 (`exclude`), as in the runs of transport. -/
noncomputable def phononRate (A : PathPhApp) (T : ℝ) (q : Vec3) (b : Nat) : ℝ :=
  if A.H.energy q b < A.exclude then 0 else
  (A.mesh.map fun p => ∑ b2 ∈ Finset.range A.bands,
    let q2 := cartesianOf A.cell.reciprocal p
    if A.H.energy q2 b2 < A.exclude then 0 else
    Real.pi / 8 * (∑ b3 ∈ Finset.range A.bands, (coalescence A T q b q2 b2 b3 + decay A T q b q2 b2 b3)) +
      Real.pi / 2 * isotopes A T q b q2 b2).sum / A.mesh.length

/-- Mean over the modes whose energy at the wavevector is within `1e-6` of that of `b`. -/
noncomputable def modeMean (A : PathPhApp) (k : Vec3) (f : Nat → ℝ) (b : Nat) : ℝ :=
  open Classical in
  let s := (Finset.range A.bands).filter fun b' => |A.H.energy k b' - A.H.energy k b| < 1 / 1000000
  (∑ b' ∈ s, f b') / s.card

/-- Scattering by the boundaries of a sample of size `L`: speed over `L`. -/
noncomputable def edgeWidth (A : PathPhApp) (k : Vec3) (b : Nat) : ℝ :=
  match A.boundaryLength with
  | none => 0
  | some L => open Classical in
    if 0 < L then Real.sqrt (∑ i : Fin 3, (phononVelocity A k b i) ^ 2) / L else 0

/-- The linewidth: the rate over `n (n + 1)`, plus the scattering at the boundaries. -/
noncomputable def phononWidth (A : PathPhApp) (T : ℝ) (q : Vec3) (b : Nat) : ℝ :=
  modeMean A q (phononRate A T q) b / (boseOccupation (A.H.energy q b) T * (boseOccupation (A.H.energy q b) T + 1)) +
    edgeWidth A q b

/-- Energies, group velocities, couplings and overlaps do not change when reciprocal lattice vectors are added to the
wavevectors. -/
structure PeriodicPhonons (A : PathPhApp) : Prop where
  energy : ∀ k q, SameModLattice A.cell.reciprocal k q → A.H.energy k = A.H.energy q
  velocity : ∀ k q, SameModLattice A.cell.reciprocal k q → ∀ b i, A.H.velocity k b b i = A.H.velocity q b b i
  plus : ∀ k q k' q', SameModLattice A.cell.reciprocal k q → SameModLattice A.cell.reciprocal k' q' →
    A.plus k k' = A.plus q q'
  minus : ∀ k q k' q', SameModLattice A.cell.reciprocal k q → SameModLattice A.cell.reciprocal k' q' →
    A.minus k k' = A.minus q q'
  overlap : ∀ o, A.overlap = some o → ∀ k q k' q', SameModLattice A.cell.reciprocal k q →
    SameModLattice A.cell.reciprocal k' q' → o k k' = o q q'

/-- The cutoffs of the program keep the same processes as those of the specification: the mesh states at the place of a
path state below `exclude` are below it too, no phonon of the mesh is between the two cutoffs, and the product of three energies
is below `cutoff` when, and only when, one of the last two phonons is below its cutoff. -/
structure SameProcesses (A : PathPhApp) (pts : List (V3 ℝ)) : Prop where
  place : ∀ i (hi : i < pts.length) (hm : i < A.mesh.length), ∀ b < A.bands,
    A.H.energy (cartesianOf A.cell.reciprocal pts[i]) b < A.exclude →
      A.H.energy (cartesianOf A.cell.reciprocal A.mesh[i]) b < A.exclude
  between : ∀ p ∈ A.mesh, ∀ b < A.bands, A.H.energy (cartesianOf A.cell.reciprocal p) b < A.exclude →
    A.H.energy (cartesianOf A.cell.reciprocal p) b < A.cutoff
  product : ∀ p ∈ pts, ∀ p2 ∈ A.mesh, ∀ b1 < A.bands, ∀ b2 < A.bands, ∀ b3 < A.bands, ∀ s : ℝ, s = 1 ∨ s = -1 →
    let q := cartesianOf A.cell.reciprocal p
    let q2 := cartesianOf A.cell.reciprocal p2
    let q3 : Vec3 := fun i => q i + s * q2 i
    A.exclude ≤ A.H.energy q b1 → (A.H.energy q b1 * A.H.energy q2 b2 * A.H.energy q3 b3 < A.cutoff ↔
      A.H.energy q2 b2 < A.exclude ∨ A.H.energy q3 b3 < A.cutoff)

/-- The delta function of the scattering by isotopes is that of the specification: a fixed width, or no isotopes. -/
def GoodIsotopes (A : PathPhApp) : Prop := A.overlap = none ∨ ∃ w, A.smearing = .gaussian w

end Verif.Spec

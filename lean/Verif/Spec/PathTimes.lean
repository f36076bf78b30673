import Verif.Model.PathTimes
import Verif.Spec.BandsFile
import Verif.Spec.ElRates
import Verif.Spec.RtaRun

/-! # Specification: lifetimes of electrons along a path -/
namespace Verif.Spec
open Verif.Model

/-- The broadened delta function of an energy difference; the adaptive width depends on the difference of the
velocities. -/
noncomputable def deltaValue (sm : Smearing) (x : ℝ) (v : Vec3) : ℝ :=
  match sm with
  | .gaussian w => gaussianSmearing w x
  | .adaptive c q => adaptiveSmearing c q x v
  | .tetra _ => 0

/-- Contribution of the transition `(k, b) → (k2, b2)`, with absorption or emission of the phonon of mode `nu` at `k2 - k`;
phonons below the cutoff do not contribute. -/
noncomputable def phononTransition (A : PathElApp) (T mu : ℝ) (k : Vec3) (b : Nat) (k2 : Vec3) (b2 nu : Nat) : ℝ :=
  let omega := A.phonon (fun i => k2 i - k i) nu
  let d := A.H.energy k b - A.H.energy k2 b2
  let v : Vec3 := fun i => (A.H.velocity k b b i.val).re - (A.H.velocity k2 b2 b2 i.val).re
  let f2 := fermiDirac (A.H.energy k2 b2) T mu
  let n := boseOccupation omega T
  if omega < A.cutoff then 0 else
    A.coupling k k2 b b2 nu / omega *
      ((f2 + n) * deltaValue A.smearing (d + omega) v + (1 - f2 + n) * deltaValue A.smearing (d - omega) v)

/-- `π / N` times the sum over the wavevectors of the mesh, the bands and the modes. -/
noncomputable def electronWidth (A : PathElApp) (T mu : ℝ) (k : Vec3) (b : Nat) : ℝ :=
  Real.pi / A.mesh.length * (A.mesh.map fun p => ∑ b2 ∈ Finset.range A.bands, ∑ nu ∈ Finset.range A.modes,
    phononTransition A T mu k b (cartesianOf A.cell.reciprocal p) b2 nu).sum

/-- Mean over the bands whose energy at the wavevector is within `1e-6` of that of `b`. -/
noncomputable def bandMean (A : PathElApp) (k : Vec3) (f : Nat → ℝ) (b : Nat) : ℝ :=
  open Classical in
  let s := (Finset.range A.bands).filter fun b' => |A.H.energy k b' - A.H.energy k b| < 1 / 1000000
  (∑ b' ∈ s, f b') / s.card

/-- Scattering by the boundaries of a sample of size `L`: speed over `L`. -/
noncomputable def boundaryWidth (A : PathElApp) (k : Vec3) (b : Nat) : ℝ :=
  match A.boundaryLength with
  | none => 0
  | some L => open Classical in
    if 0 < L then Real.sqrt (∑ i : Fin 3, ((A.H.velocity k b b i.val).re) ^ 2) / L else 0

/-- Energies, group velocities, phonons and couplings do not change when reciprocal lattice vectors are added to the
wavevectors. -/
structure PeriodicApp (A : PathElApp) : Prop where
  energy : ∀ k q, SameModLattice A.cell.reciprocal k q → A.H.energy k = A.H.energy q
  velocity : ∀ k q, SameModLattice A.cell.reciprocal k q → ∀ b i, A.H.velocity k b b i = A.H.velocity q b b i
  phonon : ∀ k q, SameModLattice A.cell.reciprocal k q → A.phonon k = A.phonon q
  coupling : ∀ k q k' q', SameModLattice A.cell.reciprocal k q → SameModLattice A.cell.reciprocal k' q' →
    A.coupling k k' = A.coupling q q'

end Verif.Spec

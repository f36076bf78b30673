import Verif.Model.PathThird
import Verif.Spec.PathPhTimes
import Verif.Spec.ThirdOrder

/-! # Specification: lifetimes of phonons of a crystal with given third-order force constants -/
namespace Verif.Spec
open Verif.Model

/-- Mean over the modes degenerate with the three modes, each at its wavevector. -/
noncomputable def tripleMean (P : PathPhApp) (q1 q2 q3 : Vec3) (f : Nat → Nat → Nat → ℝ) (b1 b2 b3 : Nat) : ℝ :=
  modeMean P q3 (fun c3 => modeMean P q2 (fun c2 => modeMean P q1 (fun c1 => f c1 c2 c3) b1) b2) b3

/-- The crystal of `P` with the force constants `Phi` (times `conv`) of a supercell of `N` cells: the coupling of three modes is the mean over degenerate modes of the
squared modulus of the sum over the supercell. -/
noncomputable def withForces {A : Nat} (P : PathPhApp) (N : V3 Int) (d : Mat3) (conv : ℝ) (Phi : ForceConstants A) : PathPhApp :=
  { P with
    plus := fun q1 q2 b1 b2 b3 =>
      let q3 : Vec3 := fun i => q1 i + q2 i
      if b1 < P.bands ∧ b2 < P.bands ∧ b3 < P.bands then
        tripleMean P q1 q2 q3 (fun c1 c2 c3 => Complex.normSq (superCoupling N d conv Phi 1 q2 q3 (fun a => P.H.vector q1 a c1) (fun a => P.H.vector q2 a c2)
          (fun a => P.H.vector q3 a c3))) b1 b2 b3
      else 0
    minus := fun q1 q2 b1 b2 b3 =>
      let q3 : Vec3 := fun i => q1 i - q2 i
      if b1 < P.bands ∧ b2 < P.bands ∧ b3 < P.bands then
        tripleMean P q1 q2 q3 (fun c1 c2 c3 => Complex.normSq (superCoupling N d conv Phi (-1) q2 q3 (fun a => P.H.vector q1 a c1)
          (fun a => (starRingEnd ℂ) (P.H.vector q2 a c2)) (fun a => P.H.vector q3 a c3))) b1 b2 b3
      else 0 }

/-- The point is one of the grid of `N` points: its crystal coordinates are multiples of `1 / N`. -/
def OnGrid (N : V3 Int) (p : V3 ℝ) : Prop := ∃ x y z : ℤ, N.x * p.x = x ∧ N.y * p.y = y ∧ N.z * p.z = z

/-- At the wavevectors of the grid the energies are in increasing order, and modes within `1e-6` of each other form groups. -/
def GroupedModes (P : PathPhApp) (N : V3 Int) (d : Mat3) : Prop :=
  ∀ q, FitsSupercell N d q → (∀ i j, i ≤ j → j < P.bands → P.H.energy q i ≤ P.H.energy q j) ∧
    ∀ i j k, i < P.bands → j < P.bands → k < P.bands → |P.H.energy q i - P.H.energy q j| < 1 / 1000000 → |P.H.energy q j - P.H.energy q k| < 1 / 1000000 →
      |P.H.energy q i - P.H.energy q k| < 1 / 1000000

/-- Energies, group velocities, eigenvectors and overlaps do not change when reciprocal lattice vectors are added to the wavevectors. -/
structure PeriodicModes (P : PathPhApp) : Prop where
  energy : ∀ k q, SameModLattice P.cell.reciprocal k q → P.H.energy k = P.H.energy q
  velocity : ∀ k q, SameModLattice P.cell.reciprocal k q → ∀ b i, P.H.velocity k b b i = P.H.velocity q b b i
  vector : ∀ k q, SameModLattice P.cell.reciprocal k q → P.H.vector k = P.H.vector q
  overlap : ∀ o, P.overlap = some o → ∀ k q k' q', SameModLattice P.cell.reciprocal k q → SameModLattice P.cell.reciprocal k' q' → o k k' = o q q'

/-- A file of ShengBTE with the force constants `Phi`: the triplets share them, each is listed once, and there are as many second cells as third cells. -/
def IsShengInput {A : Nat} (d : Mat3) (N : V3 Int) (Phi : ForceConstants A) (bohr : ℝ) (f : ThirdInput) : Prop :=
  ¬ "hdf5".toList <:+: f.name ∧ (A : Int) * 3 ≤ intMax + 1 ∧ ∃ ls : List (LatticeTriplet A),
    f.triplets = shengFile (ls.map (LatticeTriplet.inAngstrom d bohr)) ∧ SharedAmong N Phi ls ∧ ListedOnce ls ∧ 27 * (ls.length : Int) ≤ intMax ∧
    numCells ((ls.map (LatticeTriplet.inAngstrom d bohr)).map Triplet.cell2) = numCells ((ls.map (LatticeTriplet.inAngstrom d bohr)).map Triplet.cell3)

/-- Files of phono3py with the force constants `Phi`, of a supercell without images on the border of its Wigner-Seitz cell. -/
def IsPhono3pyInput {A : Nat} (d : Mat3) (pos : Fin A → Vec3) (N : V3 Int) (Phi : ForceConstants A) (bohr : ℝ) (f : ThirdInput) : Prop :=
  "hdf5".toList <:+: f.name ∧ f.dispName ≠ [] ∧ 0 < A ∧ PeriodicFc N Phi ∧
  (∀ b b', ClearDistances (fun k i => d i k) (fun i => pos b' i - pos b i) (asFun N)) ∧
  (∀ b b', NearestInside (fun k i => d i k) (fun i => pos b' i - pos b i) N) ∧
  ∃ (order : List (V3 Int)) (frac : Fin A → Fin 3 → ℝ) (disp : DispFile), IsOrder N order ∧ ((A * order.length : Nat) : Int) ≤ intMax ∧
    disp.Describes N d frac order bohr ∧ f.displacements = disp.lines ∧ (f.newline = true ∨ disp.post ≠ []) ∧ IsFc3File order Phi f.tensor

end Verif.Spec

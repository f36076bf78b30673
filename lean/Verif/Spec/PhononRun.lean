import Verif.Model.PhononRun
import Verif.Model.QeLattice
import Verif.Spec.BandsFile
import Verif.Spec.Phonopy
import Verif.Spec.QeForce

/-!
# A crystal and the files that describe it

A crystal in the harmonic approximation, and what it means that a file of Quantum ESPRESSO or the files of phonopy describe it.  Of the model only the types of the
files and the lattices of Quantum ESPRESSO (C151) are used.
-/
namespace Verif.Spec
open Verif.Model

/-- A crystal with `A` atoms in the cell and force constants of a supercell of `n1 × n2 × n3` cells, in Rydberg atomic units: lattice vectors in the columns of `d`,
names, places and masses of the atoms, dielectric tensor, Born charges, and the force constants `Phi b n b' i j` between direction `i` of atom `b` of cell `n` and
direction `j` of atom `b'` of the home cell. -/
structure HarmonicCrystal (A n1 n2 n3 : ℕ) where
  d : Mat3
  name : Fin A → List Char
  pos : Fin A → Vec3
  mass : Fin A → ℝ
  eps : Mat3
  Z : Fin A → Fin 3 → Fin 3 → ℝ
  Phi : HarmonicFc A

variable {A n1 n2 n3 S : ℕ}

/-- The crystal has no dielectric tensor and no charges. -/
def HarmonicCrystal.Plain (X : HarmonicCrystal A n1 n2 n3) : Prop := X.eps = 0 ∧ X.Z = 0

/-- The file of q2r.x describes the crystal. -/
structure EspressoSays (X : HarmonicCrystal A n1 n2 n3) (c : FcContents S A n1 n2 n3) : Prop where
  lattice : ∃ alat, getQELattice c.index c.celldm (if c.index = 0 then (c.cell 0, c.cell 1, c.cell 2) else (0, 0, 0)) =
    .ok (alat, (fun i => X.d i 0), (fun i => X.d i 1), (fun i => X.d i 2)) ∧ ∀ b i, alat * c.position b i = X.pos b i
  name : ∀ b, (c.name (c.kind b)).toList = X.name b
  mass : ∀ b, c.mass (c.kind b) = X.mass b
  polar : (c.dielectric = none ∧ X.Plain) ∨ c.dielectric = some (X.eps, X.Z)
  force : ∀ i j b b' (r1 : Fin n1) (r2 : Fin n2) (r3 : Fin n3), c.force i j b b' r1 r2 r3 = X.Phi b ⟨r1.val, r2.val, r3.val⟩ b' i j

/-- The files of phonopy describe the crystal, with all the pairs of atoms and force constants in the unit `u`: the file of displacements, the file `BORN` if there
is one, with a line for each atom, and the file of force constants.  `mass` is the table of the masses of the elements in units of `amu`. -/
structure PhonopySays (X : HarmonicCrystal A n1 n2 n3) (bohr ryd amu : ℝ) (mass : List Char → Outcome ℝ) (u : FcUnit) (f : PhonopyFile)
    (born : Option (List BornLine)) (fc : Fc2File) : Prop where
  files : ∃ (own : Bool) (frac : Fin A → Fin 3 → ℝ) (order : List (V3 Int)) (Psi : HarmonicFc A),
    f.Describes ⟨n1, n2, n3⟩ own X.d X.name frac order bohr ∧ IsOrder ⟨n1, n2, n3⟩ order ∧ ((A * order.length : Nat) : Int) ≤ intMax ∧
    (∀ b i, X.pos b i = X.d i 0 * frac b 0 + X.d i 1 * frac b 1 + X.d i 2 * frac b 2) ∧
    IsFullFc2 order Psi fc ∧ ∀ b n b' i j, Psi b n b' i j * u.value bohr ryd = X.Phi b n b' i j
  unit : fc.unit = u.name
  mass : ∀ b, ∃ m, mass (X.name b) = .ok m ∧ m * amu = X.mass b
  polar : (born = none ∧ X.Plain) ∨ ∃ ls, born = some ls ∧ IsBornFile ls X.eps (List.ofFn X.Z)

/-- The sum over the cells of the supercell of the force constants with their phases, at the wavevector with crystal coordinates `p`. -/
noncomputable def HarmonicCrystal.fourier (X : HarmonicCrystal A n1 n2 n3) (p : V3 ℝ) : DynM A := fun a b =>
  ∑ m1 : Fin n1, ∑ m2 : Fin n2, ∑ m3 : Fin n3, (X.Phi a.1 ⟨m1.val, m2.val, m3.val⟩ b.1 a.2 b.2 : ℂ) *
    Complex.exp (-(2 * Real.pi * (p.x * m1 + p.y * m2 + p.z * m3) : ℝ) * Complex.I)

/-- A wavevector that fits the supercell. -/
def Commensurate (n1 n2 n3 : ℕ) (p : V3 ℝ) : Prop := ∃ z : Fin 3 → ℤ, (n1 : ℝ) * p.x = z 0 ∧ (n2 : ℝ) * p.y = z 1 ∧ (n3 : ℝ) * p.z = z 2

/-- The external calls and the input of the run are as they should be. -/
structure GoodRun (R : BandsRun) (A : ℕ) : Prop where
  solver : ∀ d : DynM A, d.IsHermitian → IsEigenDecomposition d (R.eig A d).1 (R.eig A d).2
  arrange : ∀ l, (R.arrange l).Perm l
  wrap : ∀ cell q, SameModLattice cell.reciprocal (R.wrap cell q) q
  batch : 0 < R.batchSize
  sched : GoodSched R.sched
  size : 0 < R.size
  head : R.rank = 0
  fits : ∀ pts, pathPoints R.segs R.delta = .ok pts → ((pts.length * (A * 3) : Nat) : Int) ≤ intMax
  fits' : ((A * 3 * (A * 3) * 3 : Nat) : Int) ≤ intMax

end Verif.Spec

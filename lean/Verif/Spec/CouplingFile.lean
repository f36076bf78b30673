import Verif.Model.CouplingFile

/-!
# The files of the coupling written by Quantum ESPRESSO

Nothing here depends on how the program reads.
-/
namespace Verif.Spec
open Verif.Model

/-- The two numbers of an element. -/
def complexNumbers (z : ℂ) : List ℝ := [z.re, z.im]

/-- The content of the file of a star: wavevectors in crystal and Cartesian coordinates, energies of the phonons, components of the
eigenvectors `eigenvector iq mode component`, and the coupling `coupling iq mode k band2 band1` of Quantum ESPRESSO. -/
structure StarContent where
  crystal : List (V3 ℝ)
  cartesian : List (V3 ℝ)
  energies : List ℝ
  eigenvector : Nat → Nat → Nat → ℂ
  coupling : Nat → Nat → Nat → Nat → Nat → ℂ

/-- A file with as many Cartesian as crystal coordinates and one energy for each mode. -/
def StarContent.Good (numModes : Nat) (c : StarContent) : Prop := c.cartesian.length = c.crystal.length ∧ c.energies.length = numModes

/-- The numbers of the file, in order: the last index changes first. -/
def StarContent.numbers (numModes numK numBands : Nat) (c : StarContent) : List ℝ :=
  (c.crystal.flatMap fun v => [v.x, v.y, v.z]) ++ (c.cartesian.flatMap fun v => [v.x, v.y, v.z]) ++ c.energies ++
  ((List.range c.crystal.length).flatMap fun iq => (List.range numModes).flatMap fun j => (List.range numModes).flatMap fun i =>
    complexNumbers (c.eigenvector iq j i)) ++
  ((List.range c.crystal.length).flatMap fun iq => (List.range numModes).flatMap fun nu => (List.range numK).flatMap fun ik =>
    (List.range numBands).flatMap fun ib2 => (List.range numBands).flatMap fun ib1 => complexNumbers (c.coupling iq nu ik ib2 ib1))

/-- The complete file. -/
def StarContent.file (numModes numK numBands : Nat) (c : StarContent) : Option (Nat × List ℝ) :=
  some (c.crystal.length, c.numbers numModes numK numBands)

end Verif.Spec

import Mathlib.Data.Real.Basic
import Mathlib.Data.Fin.VecNotation

/-!
# The Bravais lattices of Quantum ESPRESSO

The table is the one of the documentation of the input of pw.x (`ibrav`): for each index the conventional cell, described by its lengths
and cosines, and its centring.
-/
namespace Verif.Spec

/-- A conventional cell: the lengths of its edges and the cosines of its angles. -/
structure ConvCell where
  a : ℝ
  b : ℝ
  c : ℝ
  cosBC : ℝ
  cosAC : ℝ
  cosAB : ℝ

inductive Centring where
  | P | I | F | A | B | C

abbrev CellVec := Fin 3 → ℝ

def dot3 (u v : CellVec) : ℝ := u 0 * v 0 + u 1 * v 1 + u 2 * v 2

/-- The signed volume of the cell of three vectors; positive if they are right-handed. -/
def triple (u v w : CellVec) : ℝ :=
  u 0 * (v 1 * w 2 - v 2 * w 1) - u 1 * (v 0 * w 2 - v 2 * w 0) + u 2 * (v 0 * w 1 - v 1 * w 0)

/-- The vectors have the lengths and angles of the cell, up to `tol`. -/
structure HasShape (tol : ℝ) (cell : ConvCell) (A B C : CellVec) : Prop where
  aa : |dot3 A A - cell.a * cell.a| ≤ tol
  bb : |dot3 B B - cell.b * cell.b| ≤ tol
  cc : |dot3 C C - cell.c * cell.c| ≤ tol
  bc : |dot3 B C - cell.b * cell.c * cell.cosBC| ≤ tol
  ac : |dot3 A C - cell.a * cell.c * cell.cosAC| ≤ tol
  ab : |dot3 A B - cell.a * cell.b * cell.cosAB| ≤ tol

/-- The lattice points in a conventional cell are at the corners (`P`), at the body centre too (`I`), at the centres of all faces (`F`) or of the
faces across one axis: half of `p, q, r` are the coordinates of a lattice point. -/
def Centring.holds : Centring → Int → Int → Int → Prop
  | .P, p, q, r => p % 2 = 0 ∧ q % 2 = 0 ∧ r % 2 = 0
  | .I, p, q, r => p % 2 = q % 2 ∧ q % 2 = r % 2
  | .F, p, q, r => (p + q + r) % 2 = 0
  | .A, p, q, r => p % 2 = 0 ∧ (q + r) % 2 = 0
  | .B, p, q, r => q % 2 = 0 ∧ (p + r) % 2 = 0
  | .C, p, q, r => r % 2 = 0 ∧ (p + q) % 2 = 0

/-- The lattice points of a centred conventional cell. -/
def centredLattice (t : Centring) (A B C : CellVec) : Set CellVec :=
  {x | ∃ p q r : Int, t.holds p q r ∧ x = fun i => (p * A i + q * B i + r * C i) / 2}

/-- The integer combinations of three vectors. -/
def spanOf (u v w : CellVec) : Set CellVec :=
  {x | ∃ i j k : Int, x = fun m => i * u m + j * v m + k * w m}

/-- The conventional cell and the centring of an index; the parameters are `celldm(1)` to `celldm(6)`: the first length, the other two as ratios to
it, and the cosines between the second and third, first and third, first and second edge (in some lattices only one of them is used, and it is the
fourth). -/
noncomputable def bravais (i : Int) (d : Fin 6 → ℝ) : Option (ConvCell × Centring) :=
  let a := d 0
  let b := d 0 * d 1
  let c := d 0 * d 2
  if i = 1 then some (⟨a, a, a, 0, 0, 0⟩, .P)
  else if i = 2 then some (⟨a, a, a, 0, 0, 0⟩, .F)
  else if i = 3 ∨ i = -3 then some (⟨a, a, a, 0, 0, 0⟩, .I)
  else if i = 4 then some (⟨a, a, c, 0, 0, -(1 / 2)⟩, .P)
  else if i = 5 ∨ i = -5 then some (⟨a, a, a, d 3, d 3, d 3⟩, .P)
  else if i = 6 then some (⟨a, a, c, 0, 0, 0⟩, .P)
  else if i = 7 then some (⟨a, a, c, 0, 0, 0⟩, .I)
  else if i = 8 then some (⟨a, b, c, 0, 0, 0⟩, .P)
  else if i = 9 ∨ i = -9 then some (⟨a, b, c, 0, 0, 0⟩, .C)
  else if i = 91 then some (⟨a, b, c, 0, 0, 0⟩, .A)
  else if i = 10 then some (⟨a, b, c, 0, 0, 0⟩, .F)
  else if i = 11 then some (⟨a, b, c, 0, 0, 0⟩, .I)
  else if i = 12 then some (⟨a, b, c, 0, 0, d 3⟩, .P)
  else if i = -12 then some (⟨a, b, c, 0, d 4, 0⟩, .P)
  else if i = 13 then some (⟨a, b, c, 0, 0, d 3⟩, .B)
  else if i = -13 then some (⟨a, b, c, 0, d 4, 0⟩, .C)
  else if i = 14 then some (⟨a, b, c, d 3, d 4, d 5⟩, .P)
  else none

/-- A cell that exists: positive lengths, and angles for which the volume is positive. -/
def ConvCell.proper (k : ConvCell) : Prop :=
  0 < k.a ∧ 0 < k.b ∧ 0 < k.c ∧ |k.cosBC| < 1 ∧ |k.cosAC| < 1 ∧ |k.cosAB| < 1 ∧
    0 < 1 + 2 * k.cosBC * k.cosAC * k.cosAB - k.cosBC * k.cosBC - k.cosAC * k.cosAC - k.cosAB * k.cosAB

/-- A right-handed primitive cell of a lattice whose conventional cell has a given shape and centring. -/
def IsPrimitive (tol : ℝ) (cell : ConvCell) (t : Centring) (u v w : CellVec) : Prop :=
  0 < triple u v w ∧ ∃ A B C : CellVec, HasShape tol cell A B C ∧ 0 < triple A B C ∧ spanOf u v w = centredLattice t A B C

end Verif.Spec

import Verif.Model.Crystal

/-!
# Symmetry operations of the crystal: src/crystal.cpp L119-205, src/points.cpp L705-725

`spglib` is a parameter: it maps the cell it is given to a list of rotations and translations in fractional coordinates
(empty if it fails).
-/
namespace Verif.Model

/-- The arguments of `spg_get_symmetry`, src/crystal.cpp L131-162. -/
structure SpgInput where
  lattice : Mat3
  positions : List Vec3
  types : List Int

/-- A rotation (of integers) and a translation. -/
abbrev SpgOp := Matrix (Fin 3) (Fin 3) ℤ × Vec3

/-- What is passed to the library, src/crystal.cpp L131-160: the cell element by element (its columns are the lattice vectors, the
comment at L134 notwithstanding), the positions times the inverse of the cell, the species plus one. -/
noncomputable def spgInput (cell : Mat3) (positions : List Vec3) (species : List Int) : SpgInput :=
  ⟨fun i j => cell i j, positions.map fun r => matVec (inverse3 cell) r, species.map fun s => s + 1⟩

/-- `struct SymmetryOperation`, src/crystal.h L12-15. -/
structure SymmetryOp where
  rotation : Mat3
  translation : Vec3

/-- `thisMatrix(j, i) = rotations[iSymmetry][i][j]`, src/crystal.cpp L190-204. -/
noncomputable def storeOp (o : SpgOp) : SymmetryOp := ⟨fun j i => (o.1 i j : ℝ), o.2⟩

/-- The operations found, src/crystal.cpp L131-183: those of the library, whose failure is an error, or the identity. -/
noncomputable def foundOps (spg : SpgInput → List SpgOp) (useSymmetries : Bool) (cell : Mat3) (positions : List Vec3)
    (species : List Int) : Outcome (List SpgOp) :=
  match useSymmetries with
  | true =>
    if (spg (spgInput cell positions species)).length = 0 then .error else .ok (spg (spgInput cell positions species))
  | false => .ok [(fun i j => if i = j then 1 else 0, fun _ => 0)]

/-- The symmetry operations of the crystal and the new value of `useSymmetries`, src/crystal.cpp L123-205.  The library is
limited to 192 operations (L120); it reports none if there are more. -/
noncomputable def crystalSymmetries (spg : SpgInput → List SpgOp) (useSymmetries : Bool) (cell : Mat3)
    (positions : List Vec3) (species : List Int) : Outcome (List SymmetryOp × Bool) := do
  let ops ← foundOps spg useSymmetries cell positions species
  .ok (ops.map storeOp, if ops.length = 1 then false else useSymmetries)

/-- `rotationMatricesCrystal` and `rotationMatricesCartesian`, src/points.cpp L705-718. -/
noncomputable def rotationsOf (c : Cell) (ops : List SymmetryOp) : List (Mat3 × Mat3) :=
  ops.map fun s => (s.rotation, c.reciprocal * s.rotation * inverse3 c.reciprocal)

end Verif.Model

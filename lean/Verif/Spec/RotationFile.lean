import Verif.Model.RotationFile
import Mathlib.Algebra.BigOperators.Group.Finset.Basic

/-! # Specification: files of rotation matrices as Wannier90 writes them -/
namespace Verif.Spec
open Verif.Model

/-- The lines of one wavevector: an empty line, the coordinates, the elements `(re, im)`, rows fastest. -/
def rotationLines (rows cols : Nat) (k : V3 Rat) (m : Nat → Nat → Rat × Rat) : TextStream :=
  [] :: [.num k.x, .num k.y, .num k.z] ::
    ((List.range cols).flatMap fun j => (List.range rows).map fun i => [.num (m i j).1, .num (m i j).2])

/-- The file for the wavevectors `ks` with the matrices `m` (wavevector, row, column): a title, the number of wavevectors, of
columns and of rows, and the wavevectors. -/
def rotationFile (title : List FileWord) (rows cols : Nat) (ks : List (V3 Rat)) (m : Nat → Nat → Nat → Rat × Rat) : TextStream :=
  title :: [.int ks.length, .int cols, .int rows] ::
    ((List.range ks.length).flatMap fun w => rotationLines rows cols (ks.getD w ⟨0, 0, 0⟩) (m w))

/-- The complex number with these parts. -/
noncomputable def complexOf (p : Rat × Rat) : ℂ := ⟨(p.1 : ℝ), (p.2 : ℝ)⟩

/-- The wavevectors of a file are those of the mesh, each once: wavevector `w` of the file is number `index w` of the mesh. -/
def ListsMesh (points : Points) (ks : List (V3 Rat)) (index : Nat → Nat) : Prop :=
  (∀ w, w < ks.length → points.getIndex (ks.getD w ⟨0, 0, 0⟩) = .ok (index w : Int) ∧ index w < ks.length) ∧
  ∀ v w, v < ks.length → w < ks.length → index v = index w → v = w

end Verif.Spec

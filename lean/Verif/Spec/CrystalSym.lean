import Verif.Model.CrystalSym

/-! # Specification: space groups -/
namespace Verif.Spec
open Verif.Model

/-- A rotation of fractional coordinates, with real elements. -/
def realOf (w : Matrix (Fin 3) (Fin 3) ℤ) : Mat3 := w.map (fun (x : ℤ) => (x : ℝ))

/-- The documentation of spglib: the columns of the lattice are the basis vectors; the operations are isometries of the
lattice, map atoms to atoms of the same type up to lattice translations, begin with the identity, and form a group (the
rotations). -/
structure IsSpaceGroup (inp : SpgInput) (ops : List SpgOp) : Prop where
  first : ∃ rest, ops = (1, fun _ => 0) :: rest
  isometry : ∀ o ∈ ops, ((inp.lattice * realOf o.1).transpose * (inp.lattice * realOf o.1)) =
    inp.lattice.transpose * inp.lattice
  atoms : ∀ o ∈ ops, ∀ (i : Nat) (x : Vec3) (t : Int), inp.positions[i]? = some x → inp.types[i]? = some t →
    ∃ (j : Nat) (y : Vec3), inp.positions[j]? = some y ∧ inp.types[j]? = some t ∧
      ∃ n : Fin 3 → ℤ, (realOf o.1).mulVec x + o.2 = y + fun k => (n k : ℝ)
  mul : ∀ a ∈ ops, ∀ b ∈ ops, ∃ c ∈ ops, c.1 = a.1 * b.1
  inv : ∀ a ∈ ops, ∃ b ∈ ops, b.1 * a.1 = 1

/-- What spglib promises for every cell, unless it fails. -/
def SpgContract (spg : SpgInput → List SpgOp) : Prop := ∀ inp, spg inp ≠ [] → IsSpaceGroup inp (spg inp)

end Verif.Spec

import Verif.Model.Mpi

/-! Vocabulary of the statements on reading the electron-phonon coupling. -/
namespace Verif.Spec

/-- The elements `g r 0, ..., g r (perBV - 1)` of the lattice vectors `vectors`, one vector after the other. -/
def elementsOf {α : Type} (g : Nat → Nat → α) (perBV : Nat) (vectors : List Nat) : List α :=
  vectors.flatMap fun r => (List.range perBV).map (g r)

end Verif.Spec

import Verif.Model.ElPhHeader

/-! Vocabulary of the statements on the lattice vectors of the electron-phonon coupling (C164). -/
namespace Verif.Spec
open Verif.Model

/-- A file written by the conversion program: each vector has a degeneracy, electrons are not spin-polarised, and the numbers
of vectors fit in the arithmetic of the division of work. -/
structure ElPhFileFits {V D : Type} (f : ElPhFile V D) (ps : Nat) : Prop where
  phonons : f.phVectors.length = f.phDegeneracies.length
  electrons : f.elVectors.length = f.elDegeneracies.length
  unpolarised : f.numSpin ≠ 2
  fits : f.elVectors.length * ps < 18446744073709551616

/-- Position `i` of the lists of a process is vector `r` of the file, and its part of the tensor, the elements `i * perBV` to
`i * perBV + perBV - 1`, is the coupling of vector `r`. -/
def GoesWith {α V D : Type} (f : ElPhFile V D) (g : Nat → Nat → α) (perBV : Nat) (h : ElPhHeader V D) (tensor : List α)
    (i r : Nat) : Prop :=
  r < f.elVectors.length ∧ h.elVectors[i]? = f.elVectors[r]? ∧ h.elDegeneracies[i]? = f.elDegeneracies[r]? ∧
    ∀ j < perBV, tensor[i * perBV + j]? = some (g r j)

/-- The tensor of a process holds the coupling of the vectors of its header, position by position. -/
def HeaderMatches {α V D : Type} (f : ElPhFile V D) (g : Nat → Nat → α) (perBV : Nat) (h : ElPhHeader V D)
    (tensor : List α) : Prop :=
  tensor.length = h.elVectors.length * perBV ∧ h.elDegeneracies.length = h.elVectors.length ∧
    ∀ i < h.elVectors.length, ∃ r, GoesWith f g perBV h tensor i r

end Verif.Spec

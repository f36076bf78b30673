import Mathlib.Analysis.SpecialFunctions.Sqrt

/-!
Vocabulary for the acoustic sum rules, independent of the program.

Force constants are a function `f` of the cell `(m1, m2, m3)` of the grid, two
Cartesian directions `i, j` and two atoms `na, nb`, packed in one tuple.
-/

namespace Verif.Spec

/-- The total of the force constants that couple the displacement of atom `na`
along `i` to a displacement along `j` of every atom of every cell: the force caused
by a rigid translation of the crystal. -/
noncomputable def rowSum {A n1 n2 n3 : Nat}
    (f : Fin n1 × Fin n2 × Fin n3 × Fin 3 × Fin 3 × Fin A × Fin A → ℝ)
    (i j : Fin 3) (na : Fin A) : ℝ :=
  ∑ nb, ∑ m1, ∑ m2, ∑ m3, f (m1, m2, m3, i, j, na, nb)

/-- A rigid translation of the crystal causes no force. -/
def TranslationInvariant {A n1 n2 n3 : Nat}
    (f : Fin n1 × Fin n2 × Fin n3 × Fin 3 × Fin 3 × Fin A × Fin A → ℝ) : Prop :=
  ∀ i j na, rowSum f i j na = 0

/-- The cells `m` and `m'` of a periodic direction with `n` cells are opposite. -/
def Opposite {n : Nat} (m m' : Fin n) : Prop := (m.1 + m'.1) % n = 0

/-- Force constants are second derivatives of an energy: the force constant does
not depend on which of the two atoms is taken as the origin. -/
def Symmetric {A n1 n2 n3 : Nat}
    (f : Fin n1 × Fin n2 × Fin n3 × Fin 3 × Fin 3 × Fin A × Fin A → ℝ) : Prop :=
  ∀ m1 m1' m2 m2' m3 m3' i j na nb, Opposite m1 m1' → Opposite m2 m2' → Opposite m3 m3' →
    f (m1, m2, m3, i, j, na, nb) = f (m1', m2', m3', j, i, nb, na)

/-- The charges of all the atoms add up to zero. -/
def Neutral {A : Nat} (z : Fin A → Fin 3 → Fin 3 → ℝ) : Prop :=
  ∀ i j, ∑ na, z na i j = 0

end Verif.Spec

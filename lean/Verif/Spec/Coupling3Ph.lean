import Mathlib.Analysis.SpecialFunctions.Complex.CircleAddChar
import Mathlib.Analysis.Complex.Basic
import Mathlib.Algebra.BigOperators.Fin

/-!
# What a three-phonon coupling is

Independent of the model.  A crystal with `n` coordinates in the unit cell (three for each atom); coordinate `a` belongs
to atom `a / 3`.  The force constants `D a1 a2 a3 r3 r2` couple coordinate `a1` of the home cell with coordinate `a2` of
the cell at `R2 r2` and coordinate `a3` of the cell at `R3 r3`.
-/
namespace Verif.Spec
open BigOperators

/-- `q . R`. -/
noncomputable def scal (q r : Fin 3 → ℝ) : ℝ := ∑ i, q i * r i

/-- Direct double lattice sum
`V = sum_{a1 a2 a3} e1 a1 * e2 a2 * conj (e3 a3) * sum_{R2 R3} w2 w3 D exp(i (s * q2 . R2 - q3 . R3))`. -/
noncomputable def coupling (n nr2 nr3 : Nat) (R2 R3 : Nat → Fin 3 → ℝ) (w2 w3 : Nat → Nat → Nat → ℝ)
    (D : Nat → Nat → Nat → Nat → Nat → ℝ) (s : ℝ) (q2 q3 : Fin 3 → ℝ) (e1 e2 e3 : Nat → ℂ) : ℂ :=
  ∑ a1 ∈ Finset.range n, ∑ a2 ∈ Finset.range n, ∑ a3 ∈ Finset.range n, e1 a1 * e2 a2 * (starRingEnd ℂ) (e3 a3) *
    ∑ r2 ∈ Finset.range nr2, ∑ r3 ∈ Finset.range nr3,
      ((w2 r2 (a1 / 3) (a2 / 3) * w3 r3 (a1 / 3) (a3 / 3) * D a1 a2 a3 r3 r2 : ℝ) : ℂ) *
        Complex.exp (Complex.I * ((s * scal q2 (R2 r2) - scal q3 (R3 r3) : ℝ) : ℂ))

end Verif.Spec

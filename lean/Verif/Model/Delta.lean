import Mathlib.Analysis.SpecialFunctions.Exp
import Mathlib.Analysis.Real.Sqrt
import Mathlib.Analysis.Real.Pi.Bounds
import Mathlib.Data.List.Sort

/-!
# src/delta_function.cpp

Floating-point numbers are modelled as real numbers.
-/
namespace Verif.Model

/-- `GaussianDeltaFunction`, constructor (src/delta_function.cpp L34-37) and `getSmearing` (L39-45). -/
noncomputable def gaussianSmearing (width energy : ℝ) : ℝ :=
  let inverseWidth := 1 / width
  let prefactor := 1 / width / Real.sqrt Real.pi
  let x := energy * inverseWidth
  if x > 6 then 0 else prefactor * Real.exp (-x * x)

/-- Constants of `AdaptiveGaussianDeltaFunction` (src/delta_function.h: `prefactor`, `erf2`; `sqrtPi` of
src/constants.h; the cutoff of the constructor, src/delta_function.cpp L55-64). -/
structure AdaptiveConsts where
  prefactor : ℝ
  erf2 : ℝ
  sqrtPi : ℝ
  broadeningCutoff : ℝ

/-- Width used by the adaptive scheme before the lower cutoff, src/delta_function.cpp L75-79; `q i j` is the
tensor of the reciprocal cell divided by the mesh (L57-62). -/
noncomputable def adaptiveSigma (c : AdaptiveConsts) (q : Fin 3 → Fin 3 → ℝ) (v : Fin 3 → ℝ) : ℝ :=
  c.prefactor * Real.sqrt (((q 0 0 * v 0 + q 0 1 * v 1 + q 0 2 * v 2) ^ 2 +
    (q 1 0 * v 0 + q 1 1 * v 1 + q 1 2 * v 2) ^ 2 + (q 2 0 * v 0 + q 2 1 * v 1 + q 2 2 * v 2) ^ 2) / 6)

/-- `AdaptiveGaussianDeltaFunction::getSmearing`, src/delta_function.cpp L66-96. -/
noncomputable def adaptiveSmearing (c : AdaptiveConsts) (q : Fin 3 → Fin 3 → ℝ) (energy : ℝ) (v : Fin 3 → ℝ) : ℝ :=
  if Real.sqrt (v 0 ^ 2 + v 1 ^ 2 + v 2 ^ 2) = 0 ∧ energy = 0 then 1
  else
    let sigma := adaptiveSigma c q v
    if sigma = 0 then 0
    else
      let sigma := if sigma < c.broadeningCutoff then c.broadeningCutoff else sigma
      if |energy| > 2 * sigma then 0
      else
        let x := energy / sigma
        if x > 6 then 0
        else Real.exp (-x * x) / c.sqrtPi / sigma / c.erf2

/-- Weight of a tetrahedron with sorted corner energies, src/delta_function.cpp L222-256. -/
noncomputable def tetraSorted (e1 e2 e3 e4 energy : ℝ) : ℝ :=
  let cnE : ℝ :=
    if e1 ≤ energy ∧ energy ≤ e2 then
      if e2 = e1 ∨ e3 = e1 ∨ e4 = e1 then 0
      else 3 * (energy - e1) * (energy - e1) / (e2 - e1) / (e3 - e1) / (e4 - e1)
    else if e2 ≤ energy ∧ energy ≤ e3 then
      let a : ℝ := if e4 = e2 ∨ e3 = e2 ∨ e3 = e1 then 0
        else (e3 - energy) * (energy - e2) / (e4 - e2) / (e3 - e2) / (e3 - e1)
      let b : ℝ := if e4 = e1 ∨ e4 = e2 ∨ e3 = e1 then 0
        else (e4 - energy) * (energy - e1) / (e4 - e1) / (e4 - e2) / (e3 - e1)
      (0 + a + b) * 3
    else if e3 ≤ energy ∧ energy ≤ e4 then
      if e4 = e1 ∨ e4 = e2 ∨ e4 = e3 then 0
      else 3 * (e4 - energy) * (e4 - energy) / (e4 - e1) / (e4 - e2) / (e4 - e3)
    else 0
  if (e1 = e2 ∧ e1 = e3 ∧ e1 = e4) ∧ energy = e1 then 0.25 else cnE

/-- Weight of a tetrahedron with given corner energies, sorted at src/delta_function.cpp L211-220. -/
noncomputable def tetraWeight (corners : List ℝ) (energy : ℝ) : ℝ :=
  match corners.insertionSort (· ≤ ·) with
  | [e1, e2, e3, e4] => tetraSorted e1 e2 e3 e4 energy
  | _ => 0

/-- Corner offsets of the sub-cell in units of the mesh spacing, src/delta_function.cpp L130-138. -/
def subCellShift : List (Nat × Nat × Nat) :=
  [(0, 0, 0), (1, 0, 0), (0, 1, 0), (1, 1, 0), (0, 0, 1), (1, 0, 1), (0, 1, 1), (1, 1, 1)]

/-- Corners of the six tetrahedra, src/delta_function.cpp L147-155. -/
def tetraVertices : List (List Nat) :=
  [[0, 1, 2, 5], [0, 2, 4, 5], [2, 4, 5, 6], [2, 5, 6, 7], [2, 3, 5, 7], [1, 2, 3, 5]]

/-- `TetrahedronDeltaFunction::getSmearing`, src/delta_function.cpp L206-270, as a function of the energies at
the eight corners of the sub-cell (looked up in L181-204). -/
noncomputable def tetraSmearing (energies : Nat → ℝ) (energy : ℝ) : ℝ :=
  let weight := (tetraVertices.map fun vs => tetraWeight (vs.map energies) energy).sum
  let weight := if weight < 1e-12 then 0 else weight
  weight / 6

end Verif.Model

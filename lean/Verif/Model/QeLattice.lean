import Verif.Model.Basic
import Mathlib.Analysis.Real.Sqrt
import Mathlib.Data.Fin.VecNotation

/-!
# src/parser/qe_input_parser.cpp: lattice vectors from the Bravais index of Quantum ESPRESSO

Numbers are reals (no rounding).
-/
namespace Verif.Model

/-- `sr2`, src/parser/qe_input_parser.cpp L52. -/
noncomputable def sr2 : ℝ := 1414213562373 / 1000000000000

/-- `sr3`, src/parser/qe_input_parser.cpp L52. -/
noncomputable def sr3 : ℝ := 1732050807569 / 1000000000000

/-- The three columns of `unitCell`. -/
abbrev Axes := (Fin 3 → ℝ) × (Fin 3 → ℝ) × (Fin 3 → ℝ)

/-- `a1.norm()` of Eigen. -/
noncomputable def qeNorm (v : Fin 3 → ℝ) : ℝ := Real.sqrt (v 0 * v 0 + v 1 * v 1 + v 2 * v 2)

/-- The lattice given in the file, src/parser/qe_input_parser.cpp L58-75 and L79-81: the axes and `celldm(0)`. -/
noncomputable def freeLattice (d : Fin 6 → ℝ) (u : Axes) : Outcome (ℝ × Axes) :=
  open Classical in
  if qeNorm u.1 = 0 ∨ qeNorm u.2.1 = 0 ∨ qeNorm u.2.2 = 0 then .error
  else if d 0 ≠ 0 then
    if d 0 ≤ 0 then .error else .ok (d 0, fun i => u.1 i * d 0, fun i => u.2.1 i * d 0, fun i => u.2.2 i * d 0)
  else if qeNorm u.1 ≤ 0 then .error else .ok (qeNorm u.1, u)

/-- The lattice of a Bravais index other than zero, src/parser/qe_input_parser.cpp L71-359, after the test of `celldm(0)` (L79-81).
`abs` is the absolute value; the function for integers would answer the comparisons with one in the same way.  Simplification: the square root
of a negative number, which L289 can take, is zero instead of not-a-number. -/
noncomputable def indexLattice (iBravais : Int) (d : Fin 6 → ℝ) : Outcome Axes :=
  open Classical in
  if iBravais = 1 then .ok (![d 0, 0, 0], ![0, d 0, 0], ![0, 0, d 0])
  else if iBravais = 2 then
    let term := d 0 / 2
    .ok (![-term, 0, term], ![0, term, term], ![-term, term, 0])
  else if iBravais.natAbs = 3 then
    let term := d 0 / 2
    if iBravais < 0 then .ok (![-term, term, term], ![term, -term, term], ![term, term, -term])
    else .ok (![term, term, term], ![-term, term, term], ![-term, -term, term])
  else if iBravais = 4 then
    if d 2 ≤ 0 then .error
    else
      let cbya := d 2
      .ok (![d 0, 0, 0], ![-d 0 / 2, d 0 * sr3 / 2, 0], ![0, 0, d 0 * cbya])
  else if iBravais.natAbs = 5 then
    if d 3 ≤ -(1 / 2) ∨ 1 ≤ d 3 then .error
    else
      let term1 := Real.sqrt (1 + 2 * d 3)
      let term2 := Real.sqrt (1 - d 3)
      if iBravais = 5 then
        let z := d 0 * term1 / sr3
        let x := d 0 * term2 / sr2
        .ok (![x, -x / sr3, z], ![0, sr2 * d 0 * term2 / sr3, z], ![-x, -x / sr3, z])
      else
        let p := d 0 * (term1 - 2 * term2) / 3
        let q := d 0 * (term1 + term2) / 3
        .ok (![p, q, q], ![q, p, q], ![q, q, p])
  else if iBravais = 6 then
    if d 2 ≤ 0 then .error
    else
      let cbya := d 2
      .ok (![d 0, 0, 0], ![0, d 0, 0], ![0, 0, d 0 * cbya])
  else if iBravais = 7 then
    if d 2 ≤ 0 then .error
    else
      let cbya := d 2
      let h := d 0 / 2
      let z := cbya * d 0 / 2
      .ok (![h, -h, z], ![h, h, z], ![-h, -h, z])
  else if iBravais = 8 then
    if d 1 ≤ 0 then .error
    else if d 2 ≤ 0 then .error
    else .ok (![d 0, 0, 0], ![0, d 0 * d 1, 0], ![0, 0, d 0 * d 2])
  else if iBravais.natAbs = 9 then
    if d 1 ≤ 0 then .error
    else if d 2 ≤ 0 then .error
    else if iBravais = 9 then
      let h := 1 / 2 * d 0
      .ok (![h, h * d 1, 0], ![-h, h * d 1, 0], ![0, 0, d 0 * d 2])
    else
      let h := 1 / 2 * d 0
      .ok (![h, -h * d 1, 0], ![h, -(-h * d 1), 0], ![0, 0, d 0 * d 2])
  else if iBravais = 91 then
    if d 1 ≤ 0 then .error
    else if d 2 ≤ 0 then .error
    else
      let y := d 0 * d 1 * (1 / 2)
      let z := -d 0 * d 2 * (1 / 2)
      .ok (![d 0, 0, 0], ![0, y, z], ![0, y, -z])
  else if iBravais = 10 then
    if d 1 ≤ 0 then .error
    else if d 2 ≤ 0 then .error
    else
      let h := 1 / 2 * d 0
      .ok (![h, 0, h * d 2], ![h, h * d 1, 0], ![0, h * d 1, h * d 2])
  else if iBravais = 11 then
    if d 1 ≤ 0 then .error
    else if d 2 ≤ 0 then .error
    else
      let h := 1 / 2 * d 0
      .ok (![h, h * d 1, h * d 2], ![-h, h * d 1, h * d 2], ![-h, -(h * d 1), h * d 2])
  else if iBravais = 12 then
    if d 1 ≤ 0 then .error
    else if d 2 ≤ 0 then .error
    else if 1 ≤ |d 3| then .error
    else
      let sen := Real.sqrt (1 - d 3 * d 3)
      .ok (![d 0, 0, 0], ![d 0 * d 1 * d 3, d 0 * d 1 * sen, 0], ![0, 0, d 0 * d 2])
  else if iBravais = -12 then
    if d 1 ≤ 0 then .error
    else if d 2 ≤ 0 then .error
    else if 1 ≤ |d 4| then .error
    else
      let sen := Real.sqrt (1 - d 4 * d 4)
      .ok (![d 0, 0, 0], ![0, d 0 * d 1, 0], ![d 0 * d 2 * d 4, 0, d 0 * d 2 * sen])
  else if iBravais = 13 then
    if d 1 ≤ 0 then .error
    else if d 2 ≤ 0 then .error
    else if 1 ≤ |d 3| then .error
    else
      let sen := Real.sqrt (1 - d 4 * d 4)
      let h := 1 / 2 * d 0
      .ok (![h, 0, -h * d 2], ![d 0 * d 1 * d 2, d 0 * d 1 * sen, 0], ![h, 0, -(-h * d 2)])
  else if iBravais = -13 then
    if d 1 ≤ 0 then .error
    else if d 2 ≤ 0 then .error
    else if 1 ≤ |d 4| then .error
    else
      let sen := Real.sqrt (1 - d 4 * d 4)
      let h := 1 / 2 * d 0
      .ok (![h, -h * d 1, 0], ![h, -(-h * d 1), 0], ![d 0 * d 2 * d 4, 0, d 0 * d 2 * sen])
  else if iBravais = 14 then
    if d 1 ≤ 0 then .error
    else if d 2 ≤ 0 then .error
    else if 1 ≤ |d 3| then .error
    else if 1 ≤ |d 4| then .error
    else if 1 ≤ |d 5| then .error
    else
      let sigma := Real.sqrt (1 - d 5 * d 5)
      let term := 1 + 2 * d 3 * d 4 * d 5 - d 3 * d 3 - d 4 * d 4 - d 5 * d 5
      if term < 0 then .error
      else
        let term' := Real.sqrt (term / (1 - d 5 * d 5))
        .ok (![d 0, 0, 0], ![d 0 * d 1 * d 5, d 0 * d 1 * sigma, 0],
          ![d 0 * d 2 * d 4, d 0 * d 2 * (d 3 - d 4 * d 5) / sigma, d 0 * d 2 * term'])
  else .error

/-- `getQELattice`, src/parser/qe_input_parser.cpp L18-366: `celldm(0)` and the axes. -/
noncomputable def getQELattice (iBravais : Int) (d : Fin 6 → ℝ) (u : Axes) : Outcome (ℝ × Axes) :=
  open Classical in
  if iBravais = 0 then freeLattice d u
  else if d 0 ≤ 0 then .error
  else do
    let v ← indexLattice iBravais d
    .ok (d 0, v)

end Verif.Model

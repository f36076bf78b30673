import Verif.Model.GroundState
import Verif.Model.ElFourier
import Mathlib.Algebra.Order.Floor.Ring
import Mathlib.Data.Real.Archimedean

/-!
# The number of electrons, from the first-principles calculation to the filling of the bands

`Context::numOccupiedStates` is set from the XML file (src/parser/qe_input_parser.cpp L662-667, L766-793), reduced when bands
are removed (`trimBands`, `Verif.Model.ElFourier`), or set from the file of the coupling, where the conversion program wrote it
(src/apps/qe_to_phoebe_wannier.cpp L1022-1036).  The sweep divides it (`Verif.Model.GroundState`).
-/
namespace Verif.Model

/-- Conversion of a `double` to an `int`: the fraction is lost; numbers that do not fit are undefined behaviour. -/
noncomputable def truncToInt (x : ℝ) : Outcome Int := i32 (if 0 ≤ x then ⌊x⌋ else ⌈x⌉)

/-- The parts of the XML file about electrons and spin. -/
structure XmlElectrons where
  nelec : ℝ
  lsda : Bool
  noncolin : Bool
  spinOrbit : Bool

/-- `hasSpinOrbit` and `numOccupiedStates` of the context after `parseElHarmonicFourier`, src/parser/qe_input_parser.cpp
L662-667, L766-768 and L789-793.  The values of the input file are overwritten. -/
noncomputable def xmlElectrons (f : XmlElectrons) : Outcome (Bool × ℝ) := do
  let n ← truncToInt f.nelec
  if f.lsda || f.noncolin then .error
  else do
    -- `numElectrons /= 2.` on an `int`
    let n ← if f.spinOrbit then truncToInt ((n : ℝ) / 2) else .ok n
    .ok (f.spinOrbit, (n : ℝ))

/-- `numFilledWannier`, src/apps/qe_to_phoebe_wannier.cpp L1022-1036, from the header of the file of Quantum ESPRESSO
(src/apps/elph_qe_to_phoebe_app.cpp L285-377: `numElectrons` is read as a `double` and returned as an `int`) and the number of
bands below those of Wannier90 (`computeOffset`). -/
noncomputable def filledWannier (nelec : ℝ) (numSpin offset : Int) : Outcome Int := do
  let n ← truncToInt nelec
  if numSpin = 2 then .error
  else do
    let removed ← cmul offset 2
    csub n removed

/-- `numOccupiedStates` after the file of the coupling has been read, src/interaction/interaction_elph_parsing.cpp L125-137 and
L230-243: `numElectrons` is what the conversion program wrote (src/apps/qe_to_phoebe_utils.cpp L402-408).  `hasSpinOrbit` stays
as in the input. -/
def couplingElectrons (numElectrons numSpin : Int) : Outcome Int :=
  if numSpin = 2 then .error else .ok numElectrons

/-- From the first-principles calculation to the context, through the file of the coupling. -/
noncomputable def wannierElectrons (nelec : ℝ) (numSpin offset : Int) : Outcome ℝ := do
  let n ← filledWannier nelec numSpin offset
  let m ← couplingElectrons n numSpin
  .ok (m : ℝ)

end Verif.Model

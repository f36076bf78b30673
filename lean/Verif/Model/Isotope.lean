import Verif.Model.DynMat
import Verif.Model.PhRates

/-!
# Isotope and boundary scattering: what is set up from the crystal and the input

src/bte/ph_scattering.cpp L21-51 and L695-702, src/bte/el_scattering.cpp L19-25.
-/
namespace Verif.Model

/-- `massVariance`, src/bte/ph_scattering.cpp L22-43: `none` without isotope scattering (`doIsotopes == false`).
`couplings` and `masses` are `getAtomicIsotopeCouplings` and `getAtomicMasses` (`Verif.Model.setAtoms`). -/
def massVariance {α : Type} [Mul α] (withIsotopes : Bool) (numAtoms : Nat) (couplings masses : List α) :
    Outcome (Option (List α)) :=
  if withIsotopes then
    if masses.length ≠ couplings.length ∨ masses.length ≠ numAtoms then .error
    else .ok (some (List.zipWith (fun g m => g * (m * m)) couplings masses))
  else .ok none

/-- The sum of src/bte/ph_scattering.cpp L695-702, `ev1` and `ev2` the eigenvectors stored at the two wavevectors (the
pair is atom and direction) and `mv` the mass variances: `std::norm` is the squared modulus. -/
noncomputable def isoOverlap {A : Nat} {β : Type} (mv : List ℝ) (ev1 ev2 : Matrix (Fin A × Fin 3) β ℂ) (ib1 ib2 : β) :
    ℝ :=
  ∑ iat : Fin A, Complex.normSq (∑ k : Fin 3, (starRingEnd ℂ) (ev1 (iat, k) ib1) * ev2 (iat, k) ib2) * mv.getD iat 0

/-- `doBoundary` and `boundaryLength`, src/bte/ph_scattering.cpp L45-51 and src/bte/el_scattering.cpp L19-25: `length` is
`none` when the input file does not set it (NaN). -/
noncomputable def boundarySetup (length : Option ℝ) : Option ℝ :=
  match length with
  | none => none
  | some l => open Classical in if l > 0 then some l else none

/-- What boundary scattering adds to the linewidth of a state, src/bte/ph_scattering.cpp L842 (`pop` is `n (n + 1)`) and
src/bte/el_scattering.cpp L421 (`pop` is 1). -/
noncomputable def boundaryRate (length : Option ℝ) (vel : Vec3) (pop : ℝ) : ℝ :=
  match boundarySetup length with
  | none => 0
  | some l => Real.sqrt (vdot vel vel) / l * pop

end Verif.Model
